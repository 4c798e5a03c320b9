import Verif.Props.EnergyLimit63
import Verif.Props.Lorenz96

/-!
# C129 in several dimensions: a lower bound of the free energy
-/

namespace VGPA

open Matrix

noncomputable section

variable {d n k : ℕ} {G : Type}

/-- The terms of a free energy that was returned. -/
theorem freeEnergyN_terms (hd : d ≠ 1) {o : VarGP (Fin d → ℝ) (Matrix (Fin d) (Fin d) ℝ)} {y : Fin k → Fin d → ℝ} {t : Fin k → Fin n} {R : Matrix (Fin d) (Fin d) ℝ}
    (ho : VgpNOk o n k y t R) {x : List ℝ} {F : ℝ} {o' : VarGP (Fin d → ℝ) (Matrix (Fin d) (Fin d) ℝ)} (h : o.freeEnergy (shapeN d) x = (.ok F, o')) :
    ∃ (a s : Fin n → Matrix (Fin d) (Fin d) ℝ) (b m : Fin n → Fin d → ℝ) (e : SdeTerms (Fin d → ℝ) (Matrix (Fin d) (Fin d) ℝ)) (E0 : ℝ) (c : VgpCache _ _),
      o.kl0 o.m0 o.s0 = .ok E0 ∧ o.model.energy (List.ofFn a) (List.ofFn b) (List.ofFn m) (List.ofFn s) o.obs_t = .ok e
      ∧ o'.argOut = (o.m0, o.s0, some c) ∧ c.st = List.ofFn s
      ∧ F = E0 + e.Esde + ∑ j, 1 / 2 * (d * Real.log (2 * Real.pi) + Real.log R.det
          + ((∑ i, R⁻¹ i i * s (Fin.castLE (injective_le ho.inj) j) i i) + (y j - m (t j)) ⬝ᵥ R⁻¹ *ᵥ (y j - m (t j)))) := by
  obtain ⟨al, bl, mt, st, e, E0, Eo, h1, h2, h3, h4, h5, h6, c, hc, -, hst⟩ := C59_sum_of_energies _ _ _ _ _ h
  have hx : x.length = n * d * (d + 1) := by
    by_contra hx
    rw [ho.dim, ((C58_unpack_pack_nd (n := n) hd x).2 hx).1] at h1
    cases h1
  obtain ⟨a, b, hu, -⟩ := (C58_unpack_pack_nd (n := n) hd x).1 hx
  rw [ho.dim, hu] at h1
  injection h1 with h1
  simp only [Prod.mk.injEq] at h1
  obtain ⟨rfl, rfl⟩ := h1
  obtain ⟨mt', st', h2', hl1, hl2, -⟩ := (C16_forward_shapes o.fwd_ode.solver (shapeN d).rhs o.fwd_ode.dt (List.ofFn a) (List.ofFn b) o.m0 o.s0 o.model.sigma).1
    ⟨by simpa using ho.pos, Or.inl (by simp)⟩
  rw [h2] at h2'
  injection h2' with h2'
  simp only [Prod.mk.injEq] at h2'
  obtain ⟨rfl, rfl⟩ := h2'
  simp only [List.length_ofFn] at hl1 hl2
  obtain ⟨m, rfl⟩ : ∃ m : Fin n → Fin d → ℝ, mt = List.ofFn m := ⟨fun i => mt.get (i.cast hl1.symm), by
    apply List.ext_getElem <;> simp [hl1]⟩
  obtain ⟨s, rfl⟩ : ∃ s : Fin n → Matrix (Fin d) (Fin d) ℝ, st = List.ofFn s := ⟨fun i => st.get (i.cast hl2.symm), by
    apply List.ext_getElem <;> simp [hl2]⟩
  refine ⟨a, s, b, m, e, E0, c, h3, h4, hc, hst, ?_⟩
  rw [ho.like] at h5
  have := likeN_gauss_eq ho.noise y t (injective_le ho.inj) m s
  simp only [LikeN.toIf] at h5
  rw [this] at h5
  injection h5 with h5
  rw [h6, h5]

theorem sum_ge (f : Fin k → ℝ) (c : ℝ) (h : ∀ j, c ≤ f j) : k * c ≤ ∑ j, f j := by
  simpa using Finset.card_nsmul_le_sum Finset.univ f c fun j _ => h j

theorem like_ge {R S : Matrix (Fin d) (Fin d) ℝ} (hR : R.PosDef) (hS : ∀ i, 0 ≤ S i i) (v : Fin d → ℝ) :
    1 / 2 * Real.log ((2 * Real.pi) • R).det ≤ 1 / 2 * (d * Real.log (2 * Real.pi) + Real.log R.det + ((∑ i, R⁻¹ i i * S i i) + v ⬝ᵥ R⁻¹ *ᵥ v)) := by
  have h1 : Real.log ((2 * Real.pi) • R).det = d * Real.log (2 * Real.pi) + Real.log R.det := by
    rw [Matrix.det_smul, Fintype.card_fin, Real.log_mul (by positivity) hR.det_pos.ne', Real.log_pow]
  have h2 : 0 ≤ ∑ i, R⁻¹ i i * S i i := Finset.sum_nonneg fun i _ => mul_nonneg (hR.inv.diag_pos).le (hS i)
  have h3 : 0 ≤ v ⬝ᵥ R⁻¹ *ᵥ v := by simpa using hR.inv.posSemidef.dotProduct_mulVec_nonneg v
  rw [h1]
  linarith

/-- C129, the part that holds, for Lorenz-63: if the stored covariances are positive semidefinite, the free energy is at least the prior term plus `log det(2 pi R) / 2` for every observation.
Missing: other covariances, which the integrators do return. -/
theorem C129_lorenz63_partial (p : L63 G) (o : VarGP (Fin 3 → ℝ) (Matrix (Fin 3) (Fin 3) ℝ)) (y : Fin k → Fin 3 → ℝ) (t : Fin k → Fin n) {R : Matrix (Fin 3) (Fin 3) ℝ}
    (ho : VgpNOk o n k y t R) (ht : StrictMono t) (hmodel : o.model = p.sde) (hσ : p.sigma.PosDef) (hinv : p.sig_inv = p.sigma⁻¹) {dt : ℝ} (hg : Spec.HasGrid p.base n dt)
    {x : List ℝ} {F : ℝ} {o' : VarGP (Fin 3 → ℝ) (Matrix (Fin 3) (Fin 3) ℝ)} (h : o.freeEnergy (shapeN 3) x = (.ok F, o')) :
    ∃ c E0, o'.argOut = (o.m0, o.s0, some c) ∧ o.kl0 o.m0 o.s0 = .ok E0
      ∧ ((∀ S ∈ c.st, S.PosSemidef) → E0 + k * (1 / 2 * Real.log ((2 * Real.pi) • R).det) ≤ F) := by
  obtain ⟨a, s, b, m, e, E0, c, h1, h2, h3, h4, h5⟩ := freeEnergyN_terms (by norm_num) ho h
  refine ⟨c, E0, h3, h1, fun hS => ?_⟩
  have hs : ∀ i, (s i).PosSemidef := fun i => hS _ (by rw [h4]; exact (List.mem_ofFn' _ _).2 ⟨i, rfl⟩)
  have hobs : Spec.ObsSorted (some o.obs_t) := fun l hl => by
    cases hl
    rw [ho.obs, List.pairwise_ofFn]
    exact fun i j hij => (ht hij).le
  have he : 0 ≤ e.Esde := by
    rw [hmodel] at h2
    simp only [L63.sde] at h2
    obtain ⟨e', h6, h7⟩ := py_bind_ok.1 h2
    cases h7
    exact C44_nonneg p a b m s _ dt hg hobs hs hσ hinv e' h6
  have hl := sum_ge _ _ fun j => like_ge ho.noise (fun i => (hs (Fin.castLE (injective_le ho.inj) j)).diag_nonneg) (y j - m (t j))
  rw [h5]
  linarith

theorem chol_diag : ∀ {n : ℕ} (M L : Matrix (Fin n) (Fin n) ℝ), chol n M = some L → ∀ i, 0 < M i i
  | 0, _, _, _, i => i.elim0
  | n + 1, M, L, h, i => by
    unfold chol at h
    dsimp only at h
    split_ifs at h with h0
    split at h
    · cases h
    · rename_i L' h'
      have := chol_diag _ _ h'
      refine Fin.cases (not_le.1 h0) (fun i => ?_) i
      have h1 := this i
      simp only [Matrix.of_apply] at h1
      nlinarith [mul_self_nonneg (M i.succ 0 / Real.sqrt (M 0 0))]

/-- Where `ut_approx` returns, the covariance has a positive diagonal. -/
theorem utSqrt_diag (hd : 0 < d) {S L : Matrix (Fin d) (Fin d) ℝ} (h : utSqrt S = .ok L) (i : Fin d) : 0 < S i i := by
  have hc : 0 < (d : ℝ) + utK d := by
    have : (0 : ℝ) < d := by exact_mod_cast hd
    simp only [utK]
    positivity
  unfold utSqrt npCholesky at h
  cases h1 : chol d (((d : ℝ) + utK d) • S) with
  | some L' =>
    have := chol_diag _ _ h1 i
    rw [Matrix.smul_apply, smul_eq_mul] at this
    exact pos_of_mul_pos_right this hc.le
  | none =>
    rw [h1] at h
    dsimp only at h
    cases h2 : chol d (Matrix.of fun i j => S i j * (1 : Matrix (Fin d) (Fin d) ℝ) i j) with
    | none =>
      rw [h2] at h
      cases h
    | some L' =>
      have := chol_diag _ _ h2 i
      simpa using this

theorem l96_row_diag (hd : 0 < d) (θ : ℝ) (w : Fin d → ℝ) (la : List (Matrix (Fin d) (Fin d) ℝ)) (lb lm : List (Fin d → ℝ)) (s : Fin n → Matrix (Fin d) (Fin d) ℝ) (t : Fin n)
    (row : L96.Row d) (h : L96.energyRow θ w la lb lm (List.ofFn s) t = .ok row) (i : Fin d) : 0 < s t i i := by
  unfold L96.energyRow at h
  obtain ⟨A, -, h⟩ := py_bind_ok.1 h
  obtain ⟨b, -, h⟩ := py_bind_ok.1 h
  obtain ⟨m, -, h⟩ := py_bind_ok.1 h
  rw [idx_ofFn, py_ok_bind] at h
  obtain ⟨u, h5, h⟩ := py_bind_ok.1 h
  unfold utApprox at h5
  obtain ⟨L, h6, -⟩ := py_bind_ok.1 h5
  exact utSqrt_diag hd h6 i

theorem mapM_ok_mem {α β : Type} (f : α → Py β) : ∀ (l : List α) (r : List β), l.mapM f = .ok r → ∀ x ∈ l, ∃ y, f x = .ok y
  | [], _, _, x, hx => by simp at hx
  | z :: l, r, h, x, hx => by
    rw [List.mapM_cons] at h
    obtain ⟨y, h1, h⟩ := py_bind_ok.1 h
    obtain ⟨ys, h2, -⟩ := py_bind_ok.1 h
    rcases List.mem_cons.1 hx with rfl | hx
    · exact ⟨y, h1⟩
    · exact mapM_ok_mem f l ys h2 x hx

/-- C129 for Lorenz-96, in full: whenever `free_energy` returns, whatever the parameters, the value is at least the prior term plus `log det(2 pi R) / 2` for every observation. (Where a variance is
not positive, the unscented transform raises.) -/
theorem C129_lorenz96 (hd : 1 < d) (p : L96 G d) (o : VarGP (Fin d → ℝ) (Matrix (Fin d) (Fin d) ℝ)) (y : Fin k → Fin d → ℝ) (t : Fin k → Fin n) {R : Matrix (Fin d) (Fin d) ℝ}
    (ho : VgpNOk o n k y t R) (ht : StrictMono t) (hmodel : o.model = p.sde) (hσ : p.sigma.PosDef) (hinv : p.sig_inv = p.sigma⁻¹) {dt : ℝ} (hg : Spec.HasGrid p.base n dt)
    {x : List ℝ} {F : ℝ} {o' : VarGP (Fin d → ℝ) (Matrix (Fin d) (Fin d) ℝ)} (h : o.freeEnergy (shapeN d) x = (.ok F, o')) :
    ∃ E0, o.kl0 o.m0 o.s0 = .ok E0 ∧ E0 + k * (1 / 2 * Real.log ((2 * Real.pi) • R).det) ≤ F := by
  obtain ⟨a, s, b, m, e, E0, c, h1, h2, h3, h4, h5⟩ := freeEnergyN_terms (by omega) ho h
  refine ⟨E0, h1, ?_⟩
  have hobs : Spec.ObsSorted (some o.obs_t) := fun l hl => by
    cases hl
    rw [ho.obs, List.pairwise_ofFn]
    exact fun i j hij => (ht hij).le
  rw [hmodel] at h2
  simp only [L96.sde] at h2
  obtain ⟨e', h6, h7⟩ := py_bind_ok.1 h2
  cases h7
  have he := C50_nonneg (by omega) p hσ hinv _ _ _ _ _ hobs e' h6
  have hs : ∀ q i, 0 < s q i i := fun q => by
    unfold L96.energy at h6
    obtain ⟨tw, htw, hl, -⟩ := hg
    obtain ⟨tw', h8, h6⟩ := py_bind_ok.1 h6
    obtain ⟨dt', -, h6⟩ := py_bind_ok.1 h6
    obtain ⟨rows, h9, -⟩ := py_bind_ok.1 h6
    have : tw' = tw := by
      simp only [Proc.timeWindow, htw] at h8
      cases h8
      rfl
    subst this
    obtain ⟨row, hrow⟩ := mapM_ok_mem _ _ _ h9 q (List.mem_range.2 (by rw [hl]; exact q.2))
    exact l96_row_diag (by omega) _ _ _ _ _ s q row hrow
  have hl := sum_ge _ _ fun j => like_ge ho.noise (fun i => (hs (Fin.castLE (injective_le ho.inj) j) i).le) (y j - m (t j))
  rw [h5]
  linarith

/-! Both can be met: two grid points, parameters zero, one observation. -/

theorem freeEnergy_of_eval {V W : Type} [AddCommGroup V] [Module ℝ V] [AddCommGroup W] [Module ℝ W] {sh : Shape V W} {o : VarGP V W} {x : List ℝ} {F : ℝ} {c : VgpCache V W} (h : o.eval sh x = .ok (F, c)) : o.freeEnergy sh x = (.ok F, { o with cache := some c }) := by
  unfold VarGP.freeEnergy
  rw [h]

theorem zero_fwd (d : ℕ) : solveFwd .euler (rhsN d) (1 / 2) (List.ofFn fun _ : Fin 2 => (0 : Matrix (Fin d) (Fin d) ℝ)) (List.ofFn fun _ : Fin 2 => (0 : Fin d → ℝ)) (fun _ => 1) 1 1
    = .ok (List.ofFn fun (_ : Fin 2) (_ : Fin d) => (1 : ℝ), List.ofFn ![1, 1 + (1 / 2 : ℝ) • 1]) := by
  simp [solveFwd, Euler.solveFwd, fwdSweep, setIdx, idx, bind, Except.bind, pure, Except.pure, rhsN]

theorem zero_pos (d : ℕ) (i : Fin 2) : ((![1, 1 + (1 / 2 : ℝ) • 1] : Fin 2 → Matrix (Fin d) (Fin d) ℝ) i).PosDef := by
  fin_cases i
  · exact Matrix.PosDef.one
  · exact Matrix.PosDef.one.add (Matrix.PosDef.one.smul (by norm_num))

theorem zero_sorted (d : ℕ) (M : SdeModel (Fin d → ℝ) (Matrix (Fin d) (Fin d) ℝ)) : Spec.ObsSorted (some (vgpObjN d M .euler).obs_t) := by
  intro l hl
  cases hl
  rw [(vgpObjN_ok M .euler).obs, List.pairwise_ofFn]
  decide

example : ∃ F o' c, (vgpObjN 3 vgpL63.sde .euler).freeEnergy (shapeN 3) (ravel3 (d := 3) (List.ofFn fun _ : Fin 2 => 0) ++ ravel2 (d := 3) (List.ofFn fun _ : Fin 2 => 0)) = (.ok F, o')
    ∧ o'.argOut = ((fun _ => 1), 1, some c) ∧ 0 + (1 : ℕ) * (1 / 2 * Real.log ((2 * Real.pi) • (1 : Matrix (Fin 3) (Fin 3) ℝ)).det) ≤ F := by
  have hg : Spec.HasGrid vgpL63.base 2 (1 / 2) := ⟨[0, 1 / 2], rfl, rfl, by norm_num [vgpL63, Proc.timeStep, idx, bind, Except.bind, pure, Except.pure, abs_of_pos]⟩
  obtain ⟨E, dm, ds, he⟩ : ∃ E dm ds, (vgpObjN 3 vgpL63.sde .euler).model.energy (List.ofFn fun _ : Fin 2 => 0) (List.ofFn fun _ : Fin 2 => 0) (List.ofFn fun (_ : Fin 2) (_ : Fin 3) => (1 : ℝ))
      (List.ofFn ![1, 1 + (1 / 2 : ℝ) • 1]) (vgpObjN 3 vgpL63.sde .euler).obs_t
      = .ok ⟨E, List.ofFn fun t => L63.avgDrift vgpL63.theta (fun _ => 1) (![1, 1 + (1 / 2 : ℝ) • 1] t), List.ofFn fun _ => L63.avgJac vgpL63.theta (fun _ => 1), List.ofFn dm, List.ofFn ds⟩ := by
    show ∃ E dm ds, vgpL63.sde.energy _ _ _ _ _ = _
    have hs := zero_sorted 3 vgpL63.sde
    generalize (vgpObjN 3 vgpL63.sde .euler).obs_t = obs at hs
    simp only [L63.sde, l63_energy_eq vgpL63 _ _ _ _ (some obs) (1 / 2) hg hs, bind, Except.bind]
    exact ⟨_, _, _, rfl⟩
  obtain ⟨F, lam, psi, h⟩ := vgpN_eval (by norm_num) (vgpObjN_ok vgpL63.sde .euler) _ _ _ _ (zero_fwd 3) _ _ _ _ _ he
  have hF := freeEnergy_of_eval h
  obtain ⟨c, E0, h1, h2, h3⟩ := C129_lorenz63_partial vgpL63 _ _ _ (vgpObjN_ok vgpL63.sde .euler) (by decide) rfl Matrix.PosDef.one (by simp [vgpL63]) hg hF
  refine ⟨F, _, c, hF, h1, ?_⟩
  cases h2
  refine h3 fun S hS => ?_
  cases h1
  obtain ⟨i, rfl⟩ := (List.mem_ofFn' _ _).1 hS
  exact (zero_pos 3 i).posSemidef

def lowL96 : L96 ℕ 4 where
  base := { xt := none, tk := some [0, 1 / 2], single_dimension := false, rng := 0 }
  sigma := 1
  theta := 8
  sig_inv := 1

example : ∃ F o', (vgpObjN 4 lowL96.sde .euler).freeEnergy (shapeN 4) (ravel3 (d := 4) (List.ofFn fun _ : Fin 2 => 0) ++ ravel2 (d := 4) (List.ofFn fun _ : Fin 2 => 0)) = (.ok F, o')
    ∧ 0 + (1 : ℕ) * (1 / 2 * Real.log ((2 * Real.pi) • (1 : Matrix (Fin 4) (Fin 4) ℝ)).det) ≤ F := by
  have hg : Spec.HasGrid lowL96.base 2 (1 / 2) := ⟨[0, 1 / 2], rfl, rfl, by norm_num [lowL96, Proc.timeStep, idx, bind, Except.bind, pure, Except.pure, abs_of_pos]⟩
  obtain ⟨E, dm, ds, he⟩ : ∃ E dm ds, (vgpObjN 4 lowL96.sde .euler).model.energy (List.ofFn fun _ : Fin 2 => 0) (List.ofFn fun _ : Fin 2 => 0) (List.ofFn fun (_ : Fin 2) (_ : Fin 4) => (1 : ℝ))
      (List.ofFn ![1, 1 + (1 / 2 : ℝ) • 1]) (vgpObjN 4 lowL96.sde .euler).obs_t
      = .ok ⟨E, List.ofFn fun t => e96Drift lowL96.theta (fun _ => 1) (![1, 1 + (1 / 2 : ℝ) • 1] t), List.ofFn fun _ => e96DriftDx (fun _ => 1), List.ofFn dm, List.ofFn ds⟩ := by
    show ∃ E dm ds, lowL96.sde.energy _ _ _ _ _ = _
    have hs := zero_sorted 4 lowL96.sde
    generalize (vgpObjN 4 lowL96.sde .euler).obs_t = obs at hs
    simp only [L96.sde, l96_energy_eq (by norm_num) lowL96 _ _ _ _ (some obs) (1 / 2) hg hs (zero_pos 4), bind, Except.bind]
    exact ⟨_, _, _, rfl⟩
  obtain ⟨F, lam, psi, h⟩ := vgpN_eval (by norm_num) (vgpObjN_ok lowL96.sde .euler) _ _ _ _ (zero_fwd 4) _ _ _ _ _ he
  have hF := freeEnergy_of_eval h
  obtain ⟨E0, h2, h3⟩ := C129_lorenz96 (by norm_num) lowL96 _ _ _ (vgpObjN_ok lowL96.sde .euler) (by decide) rfl Matrix.PosDef.one (by simp [lowL96]) hg hF
  cases h2
  exact ⟨F, _, hF, h3⟩

end

end VGPA
