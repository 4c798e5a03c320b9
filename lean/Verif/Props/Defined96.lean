import Verif.Props.OdePos
import Verif.Props.Lorenz96
import Verif.Props.VarGPGradN
import Verif.Props.Meaning96

/-!
# C119: the Lorenz-96 free energy is defined for small time steps
-/

namespace VGPA

open Matrix

variable {G : Type}

theorem ravel3_mem {d n : ℕ} (a : Fin n → Matrix (Fin d) (Fin d) ℝ) (k : Fin n) (i j : Fin d) : a k i j ∈ ravel3 (List.ofFn a) := by
  simp only [ravel3, List.mem_flatMap, List.mem_ofFn]
  exact ⟨a k, ⟨k, rfl⟩, by simp only [List.mem_flatten, List.mem_ofFn]; exact ⟨_, ⟨i, rfl⟩, by simp⟩⟩

/-- C119. Let the process noise and the initial covariance be positive definite. For every length `T` of the window and every bound `α` there is a step size
below which `free_energy` and `gradient` of a Lorenz-96 object return values, for all observations, all integrators and all parameter vectors whose
linear part (the first `n d²` entries) is bounded by `α`; the offsets may be anything. -/
theorem C119_lorenz96_defined {d : ℕ} (hd : 1 < d) (T α : ℝ) (s0 sigma : Matrix (Fin d) (Fin d) ℝ) (hs0 : s0.PosDef) (hsig : sigma.PosDef) :
    ∃ δ > 0, ∀ (p : L96 G d) (o : VarGP (Fin d → ℝ) (Matrix (Fin d) (Fin d) ℝ)) (n k : ℕ) (y : Fin k → Fin d → ℝ) (t : Fin k → Fin n)
      (R : Matrix (Fin d) (Fin d) ℝ) (dt : ℝ) (x : List ℝ), 0 < dt → dt < δ → ((n - 1 : ℕ) : ℝ) * dt ≤ T →
      o.model = p.sde → p.sigma = sigma → Spec.HasGrid p.base n dt → VgpNOk o n k y t R → o.obs_t.Pairwise (· ≤ ·) → o.fwd_ode.dt = dt → o.s0 = s0 →
      x.length = n * d * (d + 1) → (∀ v ∈ x.take (n * d * d), |v| ≤ α) →
      (∃ F, (o.freeEnergy (shapeN d) x).1 = .ok F) ∧ ∃ g, (o.gradient (shapeN d) x true).1 = .ok g ∧ g.length = x.length := by
  obtain ⟨δ, hδ, h⟩ := C105_covariance_positive d T α s0 sigma hs0.posSemidef hsig
  refine ⟨δ, hδ, fun p o n k y t R dt x hdt hdδ hT hmod hσ hg ho hsort hsolv hs hx hα => ?_⟩
  have hd1 : d ≠ 1 := by omega
  obtain ⟨a, b, hF, hG, -, -, rfl⟩ := (C58_unpack_pack_nd (n := n) hd1 x).1 hx
  have ha : ∀ M ∈ List.ofFn a, ∀ i j, |M i j| ≤ α := by
    intro M hM i j
    obtain ⟨q, rfl⟩ := (List.mem_ofFn' _ _).1 hM
    refine hα _ ?_
    rw [List.take_left' (by rw [ravel3_length, List.length_ofFn, mul_assoc])]
    exact ravel3_mem a q i j
  have hp := ho.pos
  obtain ⟨mt, st, h1, hm, hst, _⟩ := (C16_forward_shapes o.fwd_ode.solver (rhsN d) o.fwd_ode.dt (List.ofFn a) (List.ofFn b)
    o.m0 o.s0 o.model.sigma).1 ⟨by simpa using hp, Or.inl (by simp)⟩
  obtain ⟨m, rfl⟩ := list_eq_ofFn (hm.trans (List.length_ofFn))
  obtain ⟨s, rfl⟩ := list_eq_ofFn (hst.trans (List.length_ofFn))
  have hpd : ∀ i, (s i).PosDef := by
    intro i
    have := h o.fwd_ode.solver dt (List.ofFn a) (List.ofFn b) o.m0 (List.ofFn m) (List.ofFn s) hdt hdδ (by simp) (by simpa using hT) ha
      (by rw [← h1, hsolv, hs, hmod, ← hσ]; rfl) i (by simp)
    simp only [List.getElem_ofFn] at this
    rcases Nat.eq_zero_or_pos i with h0 | h0
    · exact (this.1 h0).symm ▸ hs0
    · exact this.2 h0
  obtain ⟨E, ef, dm, edf, ds, he⟩ : ∃ (E : ℝ) (ef dm : Fin n → Fin d → ℝ) (edf ds : Fin n → Matrix (Fin d) (Fin d) ℝ),
      o.model.energy (List.ofFn a) (List.ofFn b) (List.ofFn m) (List.ofFn s) o.obs_t = .ok ⟨E, List.ofFn ef, List.ofFn edf, List.ofFn dm, List.ofFn ds⟩ := by
    rw [hmod]
    simp only [L96.sde, l96_energy_eq (by omega) p a b m s (some o.obs_t) dt hg (fun l hl => by cases hl; exact hsort) hpd, bind, Except.bind]
    exact ⟨_, _, _, _, _, rfl⟩
  obtain ⟨F, lam, psi, hev⟩ := vgpN_eval hd1 ho a b m s h1 _ _ _ _ _ he
  have hgb := gradBody_ofFn (shapeN d) { o with cache := some ⟨List.ofFn m, List.ofFn s, List.ofFn ef, List.ofFn edf, List.ofFn lam, List.ofFn psi⟩ }
    (ravel3 (List.ofFn a) ++ ravel2 (List.ofFn b)) a b m ef lam s edf psi ho.dim rfl (C58_pack_unpack_nd hd1 a b).2.2
  refine ⟨⟨F, by simp only [VarGP.freeEnergy, hev]⟩, _, Eq.trans ?_ hgb, ?_⟩
  · simp only [VarGP.gradient, VarGP.freeEnergy, hev, if_true]
  simp only [shapeN, List.length_append, ravel2_length, ravel3_length, List.length_ofFn]

/-- Non-vacuity: a Lorenz-96 object with four components and `N` steps on `[0, 1]`, one observation at the start. -/
noncomputable def gridL96 (N : ℕ) : L96 ℕ 4 where
  base := ⟨none, some (List.ofFn fun k : Fin (N + 1) => (k : ℝ) / N), 0, false⟩
  sigma := 1
  theta := 8
  sig_inv := 1⁻¹

noncomputable def gridObj96 (meth : Method) (N : ℕ) : VarGP (Fin 4 → ℝ) (Matrix (Fin 4) (Fin 4) ℝ) where
  model := (gridL96 N).sde
  fwd_ode := ⟨1 / N, "", meth⟩
  bwd_ode := ⟨1 / N, "", meth⟩
  likelihood := (⟨List.ofFn fun _ : Fin 1 => fun _ => 2, List.ofFn fun _ : Fin 1 => 0, 1, 1⟩ : LikeN 4).toIf
  kl0 := fun _ _ => .ok 7
  obs_y := List.ofFn fun _ : Fin 1 => fun _ => 2
  obs_t := List.ofFn fun _ : Fin 1 => 0
  dt := 1 / N
  dim_n := N + 1
  m0 := fun _ => 1
  s0 := 1
  cache := none

theorem gridL96_grid {N : ℕ} (hN : 0 < N) : Spec.HasGrid (gridL96 N).base (N + 1) (1 / N) := by
  refine ⟨_, rfl, by simp, ?_⟩
  obtain ⟨M, rfl⟩ : ∃ M, N = M + 1 := ⟨N - 1, by omega⟩
  simp [gridL96, Proc.timeStep, List.ofFn_succ, idx, pure, Except.pure, bind, Except.bind, abs_of_pos (by positivity : (0 : ℝ) < (M : ℝ) + 1)]

/-- For every bound there is a number of steps from which on all integrators and all parameter vectors within the bound are covered. -/
example (α : ℝ) : ∃ N0, ∀ N, N0 ≤ N → ∀ (meth : Method) (x : List ℝ), x.length = (N + 1) * 4 * (4 + 1) → (∀ v ∈ x.take ((N + 1) * 4 * 4), |v| ≤ α) →
    ∃ F, ((gridObj96 meth N).freeEnergy (shapeN 4) x).1 = .ok F := by
  obtain ⟨δ, hδ, h⟩ := C119_lorenz96_defined (G := ℕ) (d := 4) (by norm_num) 1 α 1 1 Matrix.PosDef.one Matrix.PosDef.one
  obtain ⟨N0, hN0⟩ := exists_nat_gt (1 / δ)
  refine ⟨N0 + 1, fun N hN meth x hx hα => ?_⟩
  have hNpos : (0 : ℝ) < N := by exact_mod_cast (by omega : 0 < N)
  have hNlt : 1 / δ < N := hN0.trans (by exact_mod_cast (by omega : N0 < N))
  exact (h (gridL96 N) (gridObj96 meth N) (N + 1) 1 (fun _ _ => 2) (fun _ => 0) 1 (1 / N) x (by positivity)
    (by rw [div_lt_iff₀ hNpos]; rw [div_lt_iff₀ hδ] at hNlt; linarith) (by simp [hNpos.ne']) rfl rfl (gridL96_grid (by omega))
    ⟨by omega, rfl, rfl, Matrix.PosDef.one, fun i j _ => Subsingleton.elim i j, ⟨7, rfl⟩, rfl⟩ (by simp [gridObj96]) rfl rfl hx hα).1

end VGPA
