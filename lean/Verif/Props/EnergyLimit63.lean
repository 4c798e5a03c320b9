import Verif.Props.EnergyLimit
import Verif.Props.VarGPGradN
import Verif.Props.Meaning63
import Mathlib.Analysis.Matrix.Normed

/-!
# C108 for the Lorenz-63 process
-/

namespace VGPA

open Set Matrix

noncomputable section

namespace Spec

/-- A Gaussian process in continuous time with `d` components: Lipschitz continuous parameters `A`, `b` on `[0, T]`, a mean and a covariance that solve
`dm/dt = -A m + b` and `dS/dt = -A S - S Aᵀ + sigma`. -/
structure CurveN {d : ℕ} (T : ℝ) (sigma : Matrix (Fin d) (Fin d) ℝ) (A : ℝ → Matrix (Fin d) (Fin d) ℝ) (b m : ℝ → Fin d → ℝ)
    (S : ℝ → Matrix (Fin d) (Fin d) ℝ) : Prop where
  window : 0 ≤ T
  lip : ∃ L, ∀ s ∈ Icc 0 T, ∀ t ∈ Icc 0 T, (∀ i j, |A s i j - A t i j| ≤ L * |s - t|) ∧ ∀ i, |b s i - b t i| ≤ L * |s - t|
  mean : ∀ t ∈ Icc 0 T, ∀ i, HasDerivWithinAt (fun s => m s i) ((-(A t *ᵥ m t) + b t) i) (Icc 0 T) t
  cov : ∀ t ∈ Icc 0 T, ∀ i j, HasDerivWithinAt (fun s => S s i j) ((-(A t * S t) - S t * (A t)ᵀ + sigma) i j) (Icc 0 T) t
  psd : ∀ t ∈ Icc 0 T, (S t).PosSemidef

/-- The variational object `o` holds the discretised problem: `n + 1` grid points with step `dt`, the observations `y` at grid points `t` which are the times `τ`,
observation noise `R`, the identity as operator, the initial moments of the curve, and a prior for which their energy is `E0`. -/
structure DiscretisesN {d k : ℕ} (o : VarGP (Fin d → ℝ) (Matrix (Fin d) (Fin d) ℝ)) (n : ℕ) (dt T : ℝ) (R : Matrix (Fin d) (Fin d) ℝ) (E0 : ℝ)
    (y : Fin k → Fin d → ℝ) (τ : Fin k → ℝ) (m : ℝ → Fin d → ℝ) (S : ℝ → Matrix (Fin d) (Fin d) ℝ) : Prop where
  step : 0 < dt
  window : n * dt = T
  object : ∃ t : Fin k → Fin (n + 1), (∀ j, ((t j : ℕ) : ℝ) * dt = τ j) ∧ VgpNOk o (n + 1) k y t R
  solver : o.fwd_ode.dt = dt
  m0 : o.m0 = m 0
  s0 : o.s0 = S 0
  prior : o.kl0 (m 0) (S 0) = .ok E0
  sorted : o.obs_t.Pairwise (· ≤ ·)

/-- The free energy without the prior term, in continuous time, with the drift `f`, noise `sigma` and observation noise `R`. -/
def continuousEnergyN {d k : ℕ} (f : (Fin d → ℝ) → Fin d → ℝ) (sigma R : Matrix (Fin d) (Fin d) ℝ) (T : ℝ) (y : Fin k → Fin d → ℝ) (τ : Fin k → ℝ)
    (A : ℝ → Matrix (Fin d) (Fin d) ℝ) (b m : ℝ → Fin d → ℝ) (S : ℝ → Matrix (Fin d) (Fin d) ℝ) : ℝ :=
  (∫ t in (0 : ℝ)..T, 1 / 2 * weightedMismatch f sigma⁻¹ (A t) (b t) (m t) (S t)) + ∑ j, obsEnergyN (y j) R (m (τ j)) (S (τ j))

/-- The packed parameter vector with the values of `A` and `b` on the grid. -/
def packGrid {d : ℕ} (A : ℝ → Matrix (Fin d) (Fin d) ℝ) (b : ℝ → Fin d → ℝ) (n : ℕ) (dt : ℝ) : List ℝ :=
  (List.ofFn fun k : Fin (n + 1) => (List.ofFn fun p => List.ofFn fun q => A (k * dt) p q).flatten).flatten
    ++ (List.ofFn fun k : Fin (n + 1) => List.ofFn (b (k * dt))).flatten

end Spec

attribute [local instance] Matrix.normedAddCommGroup Matrix.normedSpace

/-- Parameters and moments at one time. -/
abbrev Point3 := Matrix (Fin 3) (Fin 3) ℝ × (Fin 3 → ℝ) × (Fin 3 → ℝ) × Matrix (Fin 3) (Fin 3) ℝ

theorem l63_efg_contDiff (θ d : Fin 3 → ℝ) (i : Fin 3) :
    ContDiff ℝ 1 fun p : Point3 => (L63.energyDmDs θ p.1 p.2.1 p.2.2.1 p.2.2.2 d).1 i := by
  have e1 : ∀ i j, ∃ f : Point3 → ℝ, ContDiff ℝ 1 f ∧ ∀ p, p.1 i j = f p := fun i j =>
    ⟨fun p => p.1 i j, (contDiff_apply_apply ℝ ℝ i j).comp contDiff_fst, fun _ => rfl⟩
  have e2 : ∀ i, ∃ f : Point3 → ℝ, ContDiff ℝ 1 f ∧ ∀ p, p.2.1 i = f p := fun i =>
    ⟨fun p => p.2.1 i, (contDiff_apply ℝ ℝ i).comp (contDiff_fst.comp contDiff_snd), fun _ => rfl⟩
  have e3 : ∀ i, ∃ f : Point3 → ℝ, ContDiff ℝ 1 f ∧ ∀ p, p.2.2.1 i = f p := fun i =>
    ⟨fun p => p.2.2.1 i, (contDiff_apply ℝ ℝ i).comp (contDiff_fst.comp (contDiff_snd.comp contDiff_snd)), fun _ => rfl⟩
  have e4 : ∀ i j, ∃ f : Point3 → ℝ, ContDiff ℝ 1 f ∧ ∀ p, p.2.2.2 i j = f p := fun i j =>
    ⟨fun p => p.2.2.2 i j, (contDiff_apply_apply ℝ ℝ i j).comp (contDiff_snd.comp (contDiff_snd.comp contDiff_snd)), fun _ => rfl⟩
  choose A hA eA using e1
  choose b hb eb using e2
  choose m hm em using e3
  choose S hS eS using e4
  fin_cases i
  · simp [L63.energyDmDs, eA, eb, em, eS]
    fun_prop
  · simp [L63.energyDmDs, eA, eb, em, eS]
    fun_prop
  · simp [L63.energyDmDs, eA, eb, em, eS]
    fun_prop

/-- The observation term in closed form: the mean is that at the time of the observation, the covariance that at another time. -/
def obsPolyN {d : ℕ} (y : Fin d → ℝ) (R : Matrix (Fin d) (Fin d) ℝ) (p : (Fin d → ℝ) × Matrix (Fin d) (Fin d) ℝ) : ℝ :=
  1 / 2 * (d * Real.log (2 * Real.pi) + Real.log R.det + ((∑ i, R⁻¹ i i * p.2 i i) + (y - p.1) ⬝ᵥ R⁻¹ *ᵥ (y - p.1)))

theorem obsPolyN_contDiff {d : ℕ} (y : Fin d → ℝ) (R : Matrix (Fin d) (Fin d) ℝ) : ContDiff ℝ 1 (obsPolyN y R) := by
  unfold obsPolyN
  simp only [dotProduct, Matrix.mulVec, Pi.sub_apply]
  have e3 : ∀ i, ∃ f : ((Fin d → ℝ) × Matrix (Fin d) (Fin d) ℝ) → ℝ, ContDiff ℝ 1 f ∧ ∀ p, p.1 i = f p := fun i =>
    ⟨fun p => p.1 i, (contDiff_apply ℝ ℝ i).comp contDiff_fst, fun _ => rfl⟩
  have e4 : ∀ i j, ∃ f : ((Fin d → ℝ) × Matrix (Fin d) (Fin d) ℝ) → ℝ, ContDiff ℝ 1 f ∧ ∀ p, p.2 i j = f p := fun i j =>
    ⟨fun p => p.2 i j, (contDiff_apply_apply ℝ ℝ i j).comp contDiff_snd, fun _ => rfl⟩
  choose m hm em using e3
  choose S hS eS using e4
  simp only [em, eS]
  fun_prop

theorem packGrid_eq {d : ℕ} (A : ℝ → Matrix (Fin d) (Fin d) ℝ) (b : ℝ → Fin d → ℝ) (n : ℕ) (dt : ℝ) :
    Spec.packGrid A b n dt = ravel3 (List.ofFn fun k : Fin (n + 1) => A (k * dt)) ++ ravel2 (List.ofFn fun k : Fin (n + 1) => b (k * dt)) := by
  simp only [Spec.packGrid, ravel3, ravel2, List.flatMap, List.map_ofFn, Function.comp_def]

/-- Solutions of affine equations with bounded coefficients are Lipschitz. -/
theorem lip_affine {X W : Type} [NormedAddCommGroup X] [NormedSpace ℝ X] [NormedAddCommGroup W] [NormedSpace ℝ W] {B : W →ₗ[ℝ] X →ₗ[ℝ] X} {β T α γ : ℝ}
    (hβ : 0 ≤ β) (hB : ∀ a y, ‖B a y‖ ≤ β * ‖a‖ * ‖y‖) {a : ℝ → W} {c z : ℝ → X} (ha : ∀ t ∈ Icc 0 T, ‖a t‖ ≤ α) (hc : ∀ t ∈ Icc 0 T, ‖c t‖ ≤ γ)
    (hz : ∀ t ∈ Icc 0 T, HasDerivWithinAt z (aff B (a t) (c t) (z t)) (Icc 0 T) t) :
    ∃ K, 0 ≤ K ∧ ∀ s ∈ Icc 0 T, ∀ t ∈ Icc 0 T, ‖z s - z t‖ ≤ K * |s - t| := by
  obtain ⟨r, hr⟩ := isCompact_Icc.exists_bound_of_continuousOn fun t ht => (hz t ht).continuousWithinAt
  refine ⟨max (β * α * r + γ) 0, le_max_right _ _, fun s hs t ht => ?_⟩
  exact (convex_Icc (0 : ℝ) T).norm_image_sub_le_of_norm_hasDerivWithin_le hz
    (fun x hx => (aff_bound hβ hB (ha x hx) (hc x hx) (hr x hx)).trans (le_max_left _ _)) ht hs

/-- The free energy of an object whose energy is the trapezoidal rule applied to a density that is Lipschitz on a set `D` which surrounds the curve. -/
theorem freeEnergyN_limit_on {d : ℕ} (hd : d ≠ 1) {T : ℝ} {sigma R : Matrix (Fin d) (Fin d) ℝ} {A : ℝ → Matrix (Fin d) (Fin d) ℝ} {b m : ℝ → Fin d → ℝ}
    {S : ℝ → Matrix (Fin d) (Fin d) ℝ} (hc : Spec.CurveN T sigma A b m S) {k : ℕ} (y : Fin k → Fin d → ℝ) (τ : Fin k → ℝ) (E0 : ℝ)
    {q : Matrix (Fin d) (Fin d) ℝ × (Fin d → ℝ) × (Fin d → ℝ) × Matrix (Fin d) (Fin d) ℝ → ℝ} {D : Set (Matrix (Fin d) (Fin d) ℝ × (Fin d → ℝ) × (Fin d → ℝ) × Matrix (Fin d) (Fin d) ℝ)}
    {Kq r : ℝ} (hKq : 0 ≤ Kq) (hq : ∀ x ∈ D, ∀ y ∈ D, |q x - q y| ≤ Kq * ‖x - y‖) (hr : 0 < r)
    (hnear : ∀ t ∈ Icc 0 T, ∀ M P, ‖M - m t‖ ≤ r → ‖P - S t‖ ≤ r → (sigma.IsSymm → P.IsSymm) → (A t, b t, M, P) ∈ D) :
    ∃ C δ, 0 < δ ∧ ∀ (o : VarGP (Fin d → ℝ) (Matrix (Fin d) (Fin d) ℝ)) (n : ℕ) (dt : ℝ), dt < δ → Spec.DiscretisesN o n dt T R E0 y τ m S →
      o.model.sigma = sigma →
      (∀ obs : List ℕ, obs.Pairwise (· ≤ ·) → ∀ (a : Fin (n + 1) → Matrix (Fin d) (Fin d) ℝ) (b m : Fin (n + 1) → Fin d → ℝ) (s : Fin (n + 1) → Matrix (Fin d) (Fin d) ℝ),
        (∀ i, (a i, b i, m i, s i) ∈ D) → ∃ (ef dm : Fin (n + 1) → Fin d → ℝ) (edf ds : Fin (n + 1) → Matrix (Fin d) (Fin d) ℝ),
        o.model.energy (List.ofFn a) (List.ofFn b) (List.ofFn m) (List.ofFn s) obs
          = .ok ⟨Spec.trapezoidRule dt (List.ofFn fun i => q (a i, b i, m i, s i)), List.ofFn ef, List.ofFn edf, List.ofFn dm, List.ofFn ds⟩) →
      ∃ F, (o.freeEnergy (shapeN d) (Spec.packGrid A b n dt)).1 = .ok F
        ∧ |F - (E0 + (∫ t in (0 : ℝ)..T, q (A t, b t, m t, S t)) + ∑ j, obsPolyN (y j) R (m (τ j), S 0))| ≤ C * dt := by
  obtain ⟨hT, ⟨L0, hL0⟩, hm, hS, hpsd⟩ := hc
  obtain ⟨L, hL, hLL⟩ : ∃ L, 0 ≤ L ∧ ∀ s ∈ Icc 0 T, ∀ t ∈ Icc 0 T, ‖A s - A t‖ ≤ L * |s - t| ∧ ‖b s - b t‖ ≤ L * |s - t| :=
    ⟨|L0|, abs_nonneg _, fun s hs t ht =>
      have hLs : L0 * |s - t| ≤ |L0| * |s - t| := mul_le_mul_of_nonneg_right (le_abs_self _) (abs_nonneg _)
      ⟨(Matrix.norm_le_iff (by positivity)).2 fun i j => ((hL0 s hs t ht).1 i j).trans hLs,
        (pi_norm_le_iff_of_nonneg (by positivity)).2 fun i => ((hL0 s hs t ht).2 i).trans hLs⟩⟩
  have hm' : ∀ t ∈ Icc 0 T, HasDerivWithinAt m (-(A t *ᵥ m t) + b t) (Icc 0 T) t := fun t ht => hasDerivWithinAt_pi.2 (hm t ht)
  have hS' : ∀ t ∈ Icc 0 T, HasDerivWithinAt S (-(A t * S t) - S t * (A t)ᵀ + sigma) (Icc 0 T) t := fun t ht =>
    hasDerivWithinAt_pi.2 fun i => hasDerivWithinAt_pi.2 (hS t ht i)
  obtain ⟨C, δ, hδ, hconv⟩ := fwd_converges (rhsN d) (bilinN d) hT hL sigma (fun s hs t ht => (hLL s hs t ht).1) (fun s hs t ht => (hLL s hs t ht).2) hm' hS'
  obtain ⟨αA, hαA⟩ := bounded_of_lip hL fun s hs t ht => (hLL s hs t ht).1
  obtain ⟨αb, hαb⟩ := bounded_of_lip hL fun s hs t ht => (hLL s hs t ht).2
  obtain ⟨Lm, hLm0, hLm⟩ := lip_affine (bilinN d).nonneg (bilinN d).mean_le hαA hαb fun t ht => by
    rw [← (bilinN d).mean_eq]; exact hm' t ht
  obtain ⟨LS, hLS0, hLS⟩ := lip_affine (bilinN d).nonneg (bilinN d).cov_le hαA (fun t _ => le_refl ‖sigma‖) fun t ht => by
    rw [← (bilinN d).cov_eq]; exact hS' t ht
  obtain ⟨L', hL'⟩ : ∃ L', L' = L + Lm + LS := ⟨_, rfl⟩
  have hu : ∀ s ∈ Icc 0 T, ∀ t ∈ Icc 0 T, ‖(A s, b s, m s, S s) - (A t, b t, m t, S t)‖ ≤ L' * |s - t| := fun s hs t ht => by
    have := abs_nonneg (s - t)
    have i1 := hLL s hs t ht
    have i2 := hLm s hs t ht
    have i3 := hLS s hs t ht
    have j1 : L * |s - t| ≤ L' * |s - t| := by gcongr; linarith
    have j2 : Lm * |s - t| ≤ L' * |s - t| := by gcongr; linarith
    have j3 : LS * |s - t| ≤ L' * |s - t| := by gcongr; linarith
    simp only [Prod.mk_sub_mk, Prod.norm_mk]
    exact max_le (i1.1.trans j1) (max_le (i1.2.trans j1) (max_le (i2.trans j2) (i3.trans j3)))
  obtain ⟨C1, hC1, hrule⟩ := rule_converges_on (u := fun t => (A t, b t, m t, S t)) hKq hq hT (by rw [hL']; positivity) hu
    (fun t ht => hnear t ht _ _ (by simp [hr.le]) (by simp [hr.le]) fun _ => (hpsd t ht).isHermitian) C
  obtain ⟨B, hB⟩ := bounded_of_lip (by rw [hL']; positivity) hu
  obtain ⟨W, hW⟩ : ∃ W, W = |C| + LS * k := ⟨_, rfl⟩
  have hW0 : 0 ≤ W := by rw [hW]; positivity
  choose K hK hlip using fun j => lip_on_ball (obsPolyN_contDiff (y j) R) (B + W)
  refine ⟨C1 + ∑ j, K j * W, min (min δ 1) (r / (|C| + 1)), lt_min (lt_min hδ one_pos) (by positivity), fun o n dt hdt hdisc hsig hen => ?_⟩
  obtain ⟨hdt0, hn, ⟨t, htau, ho⟩, hsolv, hm0, hs0, hprior, hsort⟩ := hdisc
  obtain ⟨M, P, hrun, hclose⟩ := hconv o.fwd_ode.solver dt n hdt0 (hdt.trans_le ((min_le_left _ _).trans (min_le_left _ _))) hn.le
  have hCr : C * dt ≤ r := by
    have h1 : dt * (|C| + 1) ≤ r := (le_div_iff₀ (by positivity)).1 (hdt.le.trans (min_le_right _ _))
    have h2 : C * dt ≤ |C| * dt := mul_le_mul_of_nonneg_right (le_abs_self C) hdt0.le
    nlinarith
  have hinD : ∀ k ≤ n, (A (k * dt), b (k * dt), M k, P k) ∈ D := fun k hk => by
    have hin : (k : ℝ) * dt ∈ Icc 0 T := ⟨by positivity, by rw [← hn]; gcongr⟩
    obtain ⟨c1, c2⟩ := hclose k hk
    refine hnear _ hin _ _ (c1.trans hCr) (c2.trans hCr) fun hsy => ?_
    refine C19_covariance_symmetric _ _ _ _ _ _ _ _ _ hrun (hpsd 0 ⟨le_rfl, hT⟩).isHermitian hsy _ ?_
    exact (List.mem_ofFn' _ _).2 ⟨⟨k, by omega⟩, rfl⟩
  obtain ⟨ef, dm, edf, ds, he⟩ := hen _ hsort (fun k => A (k * dt)) (fun k => b (k * dt)) (fun k => M k) (fun k => P k) fun k => hinD k (by omega)
  have hfwd : solveFwd o.fwd_ode.solver (rhsN d) o.fwd_ode.dt (List.ofFn fun k : Fin (n + 1) => A (k * dt)) (List.ofFn fun k : Fin (n + 1) => b (k * dt)) o.m0 o.s0 o.model.sigma
      = .ok (List.ofFn fun k : Fin (n + 1) => M k, List.ofFn fun k : Fin (n + 1) => P k) := by
    rw [hsolv, hm0, hs0, hsig]; exact hrun
  obtain ⟨F, lam, psi, heval⟩ := vgpN_eval hd ho _ _ _ _ hfwd _ _ _ _ _ he
  rw [packGrid_eq]
  have hfe : o.freeEnergy (shapeN d) (ravel3 (List.ofFn fun k : Fin (n + 1) => A (k * dt)) ++ ravel2 (List.ofFn fun k : Fin (n + 1) => b (k * dt)))
      = (.ok F, (o.freeEnergy (shapeN d) (ravel3 (List.ofFn fun k : Fin (n + 1) => A (k * dt)) ++ ravel2 (List.ofFn fun k : Fin (n + 1) => b (k * dt)))).2) := by
    unfold VarGP.freeEnergy
    rw [heval]
  obtain ⟨al, bl, mt, st, e, E0', Eo, h1, h2, h3, h4, h5, h6, -⟩ := C59_sum_of_energies _ _ _ _ _ hfe
  rw [ho.dim, (C58_pack_unpack_nd hd (fun k : Fin (n + 1) => A (k * dt)) (fun k : Fin (n + 1) => b (k * dt))).2.1] at h1
  injection h1 with h1
  simp only [Prod.mk.injEq] at h1
  obtain ⟨rfl, rfl⟩ := h1
  rw [show (shapeN d).rhs = rhsN d from rfl, hfwd] at h2
  injection h2 with h2
  simp only [Prod.mk.injEq] at h2
  obtain ⟨rfl, rfl⟩ := h2
  rw [he] at h4
  injection h4 with h4
  have hE0 : E0' = E0 := by
    rw [hm0, hs0, hprior] at h3
    injection h3 with h3
    exact h3.symm
  have hkn : k ≤ n + 1 := injective_le ho.inj
  have hEo : Eo = ∑ j : Fin k, obsPolyN (y j) R (M (t j), P j) := by
    rw [ho.like] at h5
    have := likeN_gauss_eq ho.noise y t hkn (fun k : Fin (n + 1) => M k) (fun k : Fin (n + 1) => P k)
    simp only [LikeN.toIf] at h5
    rw [this] at h5
    injection h5 with h5
    exact h5.symm
  refine ⟨F, by rw [hfe], ?_⟩
  have hdt1 : dt ≤ 1 := hdt.le.trans ((min_le_left _ _).trans (min_le_right _ _))
  have r1 := hrule dt n (fun k => (A (k * dt), b (k * dt), M k, P k)) hdt0 hn (fun k hk => by
    obtain ⟨c1, c2⟩ := hclose k hk
    have hC0 : 0 ≤ C * dt := (norm_nonneg _).trans c1
    simp only [Prod.mk_sub_mk, Prod.norm_mk, sub_self, norm_zero]
    exact max_le hC0 (max_le hC0 (max_le c1 c2))) hinD
  have r2 : |∑ j : Fin k, obsPolyN (y j) R (M (t j), P j) - ∑ j, obsPolyN (y j) R (m (τ j), S 0)| ≤ (∑ j, K j * W) * dt := by
    rw [← Finset.sum_sub_distrib, Finset.sum_mul]
    refine (Finset.abs_sum_le_sum_abs _ _).trans (Finset.sum_le_sum fun j _ => ?_)
    have hk : ((t j : ℕ)) ≤ n := Nat.lt_succ_iff.1 (t j).2
    have hjn : (j : ℕ) ≤ n := by have := j.2; omega
    have c1 := (hclose (t j) hk).1
    have c2 := (hclose j hjn).2
    rw [htau j] at c1
    have h0 : (0 : ℝ) ∈ Icc 0 T := ⟨le_rfl, hT⟩
    have hτ : τ j ∈ Icc 0 T := by
      rw [← htau j, ← hn]
      exact ⟨by positivity, by gcongr⟩
    have hjT : ((j : ℕ) : ℝ) * dt ∈ Icc 0 T := by
      rw [← hn]
      exact ⟨by positivity, by gcongr⟩
    have hCD : C * dt ≤ |C| * dt := mul_le_mul_of_nonneg_right (le_abs_self C) hdt0.le
    have d1 : ‖M (t j) - m (τ j)‖ ≤ W * dt := by
      have : |C| * dt ≤ W * dt := by rw [hW]; gcongr; simp only [le_add_iff_nonneg_right]; positivity
      linarith
    have d2 : ‖P j - S 0‖ ≤ W * dt := by
      have := hLS _ hjT 0 h0
      rw [sub_zero, abs_of_nonneg hjT.1] at this
      have hj : ((j : ℕ) : ℝ) ≤ k := by exact_mod_cast j.2.le
      have e1 : LS * (((j : ℕ) : ℝ) * dt) ≤ LS * k * dt := by
        rw [mul_assoc]; gcongr
      have tri := norm_add_le (P j - S (((j : ℕ) : ℝ) * dt)) (S (((j : ℕ) : ℝ) * dt) - S 0)
      rw [sub_add_sub_cancel] at tri
      rw [hW, add_mul]
      linarith
    have hDt : W * dt ≤ W := by nlinarith
    have hb1 := hB _ hτ
    have hb2 := hB _ h0
    simp only [Prod.norm_mk] at hb1 hb2
    have b1 : ‖m (τ j)‖ ≤ B := (le_max_left _ _).trans ((le_max_right _ _).trans ((le_max_right _ _).trans hb1))
    have b2 : ‖S 0‖ ≤ B := (le_max_right _ _).trans ((le_max_right _ _).trans ((le_max_right _ _).trans hb2))
    have tri1 : ‖M (t j)‖ ≤ B + W := by
      have := norm_add_le (m (τ j)) (M (t j) - m (τ j))
      rw [add_sub_cancel] at this
      linarith
    have tri2 : ‖P j‖ ≤ B + W := by
      have := norm_add_le (S 0) (P j - S 0)
      rw [add_sub_cancel] at this
      linarith
    have := hlip j (M (t j), P j) (m (τ j), S 0) (max_le tri1 tri2) ((max_le b1 b2).trans (by linarith))
    refine this.trans ?_
    rw [mul_assoc]
    refine mul_le_mul_of_nonneg_left ?_ (hK j)
    simp only [Prod.mk_sub_mk, Prod.norm_mk]
    exact max_le d1 d2
  rw [h6, hE0, ← h4, hEo]
  have := abs_add_le (Spec.trapezoidRule dt (List.ofFn fun k : Fin (n + 1) => q (A (k * dt), b (k * dt), M k, P k)) - ∫ t in (0 : ℝ)..T, q (A t, b t, m t, S t))
    (∑ j : Fin k, obsPolyN (y j) R (M (t j), P j) - ∑ j, obsPolyN (y j) R (m (τ j), S 0))
  rw [add_mul]
  refine le_trans (le_of_eq (congrArg _ ?_)) (this.trans (add_le_add r1 r2))
  ring

/-- The free energy of an object whose energy is the trapezoidal rule applied to a smooth density. -/
theorem freeEnergyN_limit {d : ℕ} (hd : d ≠ 1) {T : ℝ} {sigma R : Matrix (Fin d) (Fin d) ℝ} {A : ℝ → Matrix (Fin d) (Fin d) ℝ} {b m : ℝ → Fin d → ℝ}
    {S : ℝ → Matrix (Fin d) (Fin d) ℝ} (hc : Spec.CurveN T sigma A b m S) {k : ℕ} (y : Fin k → Fin d → ℝ) (τ : Fin k → ℝ) (E0 : ℝ)
    {q : Matrix (Fin d) (Fin d) ℝ × (Fin d → ℝ) × (Fin d → ℝ) × Matrix (Fin d) (Fin d) ℝ → ℝ} (hq : ContDiff ℝ 1 q) :
    ∃ C δ, 0 < δ ∧ ∀ (o : VarGP (Fin d → ℝ) (Matrix (Fin d) (Fin d) ℝ)) (n : ℕ) (dt : ℝ), dt < δ → Spec.DiscretisesN o n dt T R E0 y τ m S →
      o.model.sigma = sigma →
      (∀ obs : List ℕ, obs.Pairwise (· ≤ ·) → ∀ (a : Fin (n + 1) → Matrix (Fin d) (Fin d) ℝ) (b m : Fin (n + 1) → Fin d → ℝ) (s : Fin (n + 1) → Matrix (Fin d) (Fin d) ℝ),
        ∃ (ef dm : Fin (n + 1) → Fin d → ℝ) (edf ds : Fin (n + 1) → Matrix (Fin d) (Fin d) ℝ),
        o.model.energy (List.ofFn a) (List.ofFn b) (List.ofFn m) (List.ofFn s) obs
          = .ok ⟨Spec.trapezoidRule dt (List.ofFn fun i => q (a i, b i, m i, s i)), List.ofFn ef, List.ofFn edf, List.ofFn dm, List.ofFn ds⟩) →
      ∃ F, (o.freeEnergy (shapeN d) (Spec.packGrid A b n dt)).1 = .ok F
        ∧ |F - (E0 + (∫ t in (0 : ℝ)..T, q (A t, b t, m t, S t)) + ∑ j, obsPolyN (y j) R (m (τ j), S 0))| ≤ C * dt := by
  have hcc := hc
  obtain ⟨hT, ⟨L0, hL0⟩, hm, hS, -⟩ := hc
  obtain ⟨αA, hαA⟩ := bounded_of_lip (u := A) (T := T) (abs_nonneg L0) fun s hs t ht =>
    (Matrix.norm_le_iff (by positivity)).2 fun i j => ((hL0 s hs t ht).1 i j).trans (mul_le_mul_of_nonneg_right (le_abs_self _) (abs_nonneg _))
  obtain ⟨αb, hαb⟩ := bounded_of_lip (u := b) (T := T) (abs_nonneg L0) fun s hs t ht =>
    (pi_norm_le_iff_of_nonneg (by positivity)).2 fun i => ((hL0 s hs t ht).2 i).trans (mul_le_mul_of_nonneg_right (le_abs_self _) (abs_nonneg _))
  obtain ⟨αm, hαm⟩ := isCompact_Icc.exists_bound_of_continuousOn fun t ht => (hasDerivWithinAt_pi.2 (hm t ht)).continuousWithinAt
  obtain ⟨αS, hαS⟩ := isCompact_Icc.exists_bound_of_continuousOn (f := S) fun t ht =>
    (hasDerivWithinAt_pi.2 fun i => hasDerivWithinAt_pi.2 (hS t ht i)).continuousWithinAt
  obtain ⟨K, hK, hlip⟩ := lip_on_ball hq (max (max αA αb) (max (αm + 1) (αS + 1)))
  have hin : ∀ t ∈ Icc 0 T, ∀ (M : Fin d → ℝ) (P : Matrix (Fin d) (Fin d) ℝ), ‖M - m t‖ ≤ 1 → ‖P - S t‖ ≤ 1 → (sigma.IsSymm → P.IsSymm) →
      (A t, b t, M, P) ∈ {x : Matrix (Fin d) (Fin d) ℝ × (Fin d → ℝ) × (Fin d → ℝ) × Matrix (Fin d) (Fin d) ℝ | ‖x‖ ≤ max (max αA αb) (max (αm + 1) (αS + 1))} := by
    intro t ht M P hM hP _
    have h3 : ‖M‖ ≤ αm + 1 := by
      have := norm_add_le (m t) (M - m t)
      rw [add_sub_cancel] at this
      linarith [hαm t ht]
    have h4 : ‖P‖ ≤ αS + 1 := by
      have := norm_add_le (S t) (P - S t)
      rw [add_sub_cancel] at this
      linarith [hαS t ht]
    show ‖(A t, b t, M, P)‖ ≤ _
    simp only [Prod.norm_mk]
    exact max_le ((hαA t ht).trans ((le_max_left _ _).trans (le_max_left _ _))) (max_le ((hαb t ht).trans ((le_max_right _ _).trans (le_max_left _ _)))
      (max_le (h3.trans ((le_max_left _ _).trans (le_max_right _ _))) (h4.trans ((le_max_right _ _).trans (le_max_right _ _)))))
  obtain ⟨C, δ, hδ, h⟩ := freeEnergyN_limit_on (R := R) hd hcc y τ E0 hK (fun x hx y hy => hlip x y hx hy) one_pos hin
  exact ⟨C, δ, hδ, fun o n dt hdt hdisc hsig hen => h o n dt hdt hdisc hsig fun obs ho a b m s _ => hen obs ho a b m s⟩

theorem obsPolyN_diag {d : ℕ} {r : Fin d → ℝ} (hr : ∀ i, 0 < r i) (y m : Fin d → ℝ) (S0 : Matrix (Fin d) (Fin d) ℝ) {Sτ : Matrix (Fin d) (Fin d) ℝ} (hS : Sτ.PosSemidef) :
    obsPolyN y (Matrix.diagonal r) (m, S0) = Spec.obsEnergyN y (Matrix.diagonal r) m Sτ + ∑ i, (S0 i i - Sτ i i) / (2 * r i) := by
  rw [obsEnergyN_eq hS, obsPolyN, diag_inv3 hr, sum_diag3]
  simp only [Matrix.diagonal_apply_eq]
  have e : ∑ i, (S0 i i - Sτ i i) / (2 * r i) = 1 / 2 * (∑ i, (r i)⁻¹ * S0 i i - ∑ i, (r i)⁻¹ * Sτ i i) := by
    rw [← Finset.sum_sub_distrib, Finset.mul_sum]
    refine Finset.sum_congr rfl fun i _ => ?_
    have := (hr i).ne'
    field_simp
  rw [e]
  ring

/-- C108 for Lorenz-63, the part that holds (noise and observation noise without correlations): the numbers that `free_energy` returns on finer and finer grids converge, with an
error of at most a constant times `dt`, to the energy of the prior plus the continuous-time energy plus a further term: the code takes the variances
for observation number `j` at the grid point `j`, and on fine grids these are the variances at the start. Missing: without that term the claim fails, see
`C108_lorenz63_violated`. -/
theorem C108_lorenz63_partial {G : Type} (T : ℝ) (θ v r : Fin 3 → ℝ) (hv : ∀ i, 0 < v i) (hr : ∀ i, 0 < r i) (A : ℝ → Matrix (Fin 3) (Fin 3) ℝ) (b m : ℝ → Fin 3 → ℝ)
    (S : ℝ → Matrix (Fin 3) (Fin 3) ℝ) (hc : Spec.CurveN T (Matrix.diagonal v) A b m S) {k : ℕ} (y : Fin k → Fin 3 → ℝ) (τ : Fin k → ℝ) (E0 : ℝ) :
    ∃ C δ, 0 < δ ∧ ∀ (p : L63 G) (o : VarGP (Fin 3 → ℝ) (Matrix (Fin 3) (Fin 3) ℝ)) (n : ℕ) (dt : ℝ), dt < δ → o.model = p.sde → p.theta = θ →
      p.sigma = Matrix.diagonal v → p.sig_inv = p.sigma⁻¹ → Spec.HasGrid p.base (n + 1) dt → Spec.DiscretisesN o n dt T (Matrix.diagonal r) E0 y τ m S →
      ∃ F, (o.freeEnergy (shapeN 3) (Spec.packGrid A b n dt)).1 = .ok F
        ∧ |F - (E0 + Spec.continuousEnergyN (Spec.l63Field θ) (Matrix.diagonal v) (Matrix.diagonal r) T y τ A b m S
          + ∑ j, ∑ i, (S 0 i i - S (τ j) i i) / (2 * r i))| ≤ C * dt := by
  have hq : ContDiff ℝ 1 fun p : Point3 => 0.5 * ((Matrix.diagonal v)⁻¹.diag ⬝ᵥ (L63.energyDmDs θ p.1 p.2.1 p.2.2.1 p.2.2.2 (Matrix.diagonal v)⁻¹.diag).1) := by
    simp only [dotProduct]
    exact contDiff_const.mul (ContDiff.sum fun i _ => contDiff_const.mul (l63_efg_contDiff θ _ i))
  obtain ⟨C, δ, hδ, h⟩ := freeEnergyN_limit (R := Matrix.diagonal r) (by norm_num) hc y τ E0 hq
  refine ⟨C, δ, hδ, fun p o n dt hdt hmod hθ hσ hinv hg hd => ?_⟩
  obtain ⟨F, hF, hb⟩ := h o n dt hdt hd (by rw [hmod]; exact hσ) fun obs hobs a b m s => by
    rw [hmod]
    simp only [L63.sde, l63_energy_eq p a b m s (some obs) dt hg (fun l hl => by cases hl; exact hobs), bind, Except.bind, hinv, hσ, hθ]
    exact ⟨_, _, _, _, rfl⟩
  refine ⟨F, hF, ?_⟩
  have e1 : (∫ t in (0 : ℝ)..T, 0.5 * ((Matrix.diagonal v)⁻¹.diag ⬝ᵥ (L63.energyDmDs θ (A t) (b t) (m t) (S t) (Matrix.diagonal v)⁻¹.diag).1))
      = ∫ t in (0 : ℝ)..T, 1 / 2 * Spec.weightedMismatch (Spec.l63Field θ) (Matrix.diagonal v)⁻¹ (A t) (b t) (m t) (S t) := by
    refine intervalIntegral.integral_congr fun t ht => ?_
    rw [uIcc_of_le hc.window] at ht
    rw [diag_inv3 hv, weighted_diag _ _ _ (hc.psd t ht)]
    simp only [dotProduct, Matrix.diag_apply, l63_efg_eq _ _ _ _ _ _ (hc.psd t ht), Matrix.diagonal_apply_eq]
    norm_num
  have e2 : ∑ j, obsPolyN (y j) (Matrix.diagonal r) (m (τ j), S 0)
      = ∑ j, Spec.obsEnergyN (y j) (Matrix.diagonal r) (m (τ j)) (S (τ j)) + ∑ j, ∑ i, (S 0 i i - S (τ j) i i) / (2 * r i) := by
    rw [← Finset.sum_add_distrib]
    refine Finset.sum_congr rfl fun j _ => ?_
    obtain ⟨hdt, hn, ⟨t, ht, -⟩, -⟩ := hd
    have hτ : τ j ∈ Icc 0 T := by
      have hk : ((t j : ℕ)) ≤ n := Nat.lt_succ_iff.1 (t j).2
      rw [← ht j, ← hn]
      exact ⟨by positivity, by gcongr⟩
    exact obsPolyN_diag hr _ _ _ (hc.psd _ hτ)
  rw [e2, e1] at hb
  rw [Spec.continuousEnergyN]
  refine le_trans (le_of_eq (congrArg _ ?_)) hb
  ring

/-- C108 does not hold for Lorenz-63: when the variances at the observations do not balance those at the start, the returned numbers stay away from the
claimed limit by a fixed amount for all small steps. -/
theorem C108_lorenz63_violated {G : Type} (T : ℝ) (θ v r : Fin 3 → ℝ) (hv : ∀ i, 0 < v i) (hr : ∀ i, 0 < r i) (A : ℝ → Matrix (Fin 3) (Fin 3) ℝ) (b m : ℝ → Fin 3 → ℝ)
    (S : ℝ → Matrix (Fin 3) (Fin 3) ℝ) (hc : Spec.CurveN T (Matrix.diagonal v) A b m S) {k : ℕ} (y : Fin k → Fin 3 → ℝ) (τ : Fin k → ℝ) (E0 : ℝ)
    (hne : ∑ j, ∑ i, (S 0 i i - S (τ j) i i) / (2 * r i) ≠ 0) :
    ∃ ε > 0, ∃ δ > 0, ∀ (p : L63 G) (o : VarGP (Fin 3 → ℝ) (Matrix (Fin 3) (Fin 3) ℝ)) (n : ℕ) (dt : ℝ), dt < δ → o.model = p.sde → p.theta = θ →
      p.sigma = Matrix.diagonal v → p.sig_inv = p.sigma⁻¹ → Spec.HasGrid p.base (n + 1) dt → Spec.DiscretisesN o n dt T (Matrix.diagonal r) E0 y τ m S →
      ∃ F, (o.freeEnergy (shapeN 3) (Spec.packGrid A b n dt)).1 = .ok F
        ∧ ε ≤ |F - (E0 + Spec.continuousEnergyN (Spec.l63Field θ) (Matrix.diagonal v) (Matrix.diagonal r) T y τ A b m S)| := by
  obtain ⟨C, δ, hδ, h⟩ := C108_lorenz63_partial (G := G) T θ v r hv hr A b m S hc y τ E0
  generalize ∑ j, ∑ i, (S 0 i i - S (τ j) i i) / (2 * r i) = I at hne h
  have hI : 0 < |I| := abs_pos.2 hne
  refine ⟨|I| / 2, by positivity, min δ (|I| / (2 * (|C| + 1))), lt_min hδ (by positivity), fun p o n dt hdt hmod hθ hσ hinv hg hd => ?_⟩
  obtain ⟨F, hF, hb⟩ := h p o n dt (hdt.trans_le (min_le_left _ _)) hmod hθ hσ hinv hg hd
  refine ⟨F, hF, ?_⟩
  generalize E0 + Spec.continuousEnergyN (Spec.l63Field θ) (Matrix.diagonal v) (Matrix.diagonal r) T y τ A b m S = X at hb ⊢
  have h2 : dt * (2 * (|C| + 1)) < |I| := (lt_div_iff₀ (by positivity)).1 (hdt.trans_le (min_le_right _ _))
  have h3 : C * dt ≤ |C| * dt := mul_le_mul_of_nonneg_right (le_abs_self C) hd.step.le
  have h4 := hd.step
  have h5 : |I| ≤ |F - X| + |F - (X + I)| := by
    have := abs_sub (F - X) (F - (X + I))
    rwa [show F - X - (F - (X + I)) = I by ring] at this
  nlinarith

/-- Non-vacuity: a constant mean, variances `1 + t`, no drift; `2 N` steps on `[0, 1]`, one observation in the middle. -/
theorem example_curveN : Spec.CurveN 1 (Matrix.diagonal fun _ : Fin 3 => 1) (fun _ => 0) (fun _ => 0) (fun _ _ => 1) (fun t => Matrix.diagonal fun _ => 1 + t) where
  window := zero_le_one
  lip := ⟨0, fun s _ t _ => by simp⟩
  mean t _ i := by
    simp only [Matrix.zero_mulVec, neg_zero, add_zero, Pi.zero_apply]
    exact hasDerivWithinAt_const _ _ _
  cov t _ i j := by
    simp only [Matrix.zero_mul, Matrix.transpose_zero, Matrix.mul_zero, neg_zero, sub_zero, zero_add]
    by_cases hij : i = j
    · subst hij
      simp only [Matrix.diagonal_apply_eq]
      exact ((hasDerivAt_id t).const_add 1).hasDerivWithinAt
    · simp only [Matrix.diagonal_apply_ne _ hij]
      exact hasDerivWithinAt_const _ _ _
  psd t ht := Matrix.PosSemidef.diagonal fun _ => by
    simp only [Pi.zero_apply]
    linarith [ht.1]

def gridL63 (θ : Fin 3 → ℝ) (N : ℕ) : L63 ℕ where
  base := ⟨none, some (List.ofFn fun k : Fin (2 * N + 1) => k / (2 * N)), 0, false⟩
  sigma := Matrix.diagonal fun _ => 1
  theta := θ
  sig_inv := (Matrix.diagonal fun _ => 1)⁻¹

def gridObjN (M : SdeModel (Fin 3 → ℝ) (Matrix (Fin 3) (Fin 3) ℝ)) (meth : Method) (N : ℕ) : VarGP (Fin 3 → ℝ) (Matrix (Fin 3) (Fin 3) ℝ) where
  model := M
  fwd_ode := ⟨1 / (2 * N), "", meth⟩
  bwd_ode := ⟨1 / (2 * N), "", meth⟩
  likelihood := (⟨List.ofFn fun _ : Fin 1 => fun _ => 2, List.ofFn fun _ : Fin 1 => N, Matrix.diagonal fun _ => 1, 1⟩ : LikeN 3).toIf
  kl0 := fun _ _ => .ok 7
  obs_y := List.ofFn fun _ : Fin 1 => fun _ => 2
  obs_t := List.ofFn fun _ : Fin 1 => N
  dt := 1 / (2 * N)
  dim_n := 2 * N + 1
  m0 := fun _ => 1
  s0 := 1
  cache := none

theorem gridL63_grid (θ : Fin 3 → ℝ) {N : ℕ} (hN : 0 < N) : Spec.HasGrid (gridL63 θ N).base (2 * N + 1) (1 / (2 * N)) := by
  refine ⟨_, rfl, List.length_ofFn, ?_⟩
  have h0 : idx (List.ofFn fun k : Fin (2 * N + 1) => (k : ℝ) / (2 * N)) 0 = .ok 0 := by
    simpa using idx_ofFn (fun k : Fin (2 * N + 1) => (k : ℝ) / (2 * N)) ⟨0, by omega⟩
  have h1 : idx (List.ofFn fun k : Fin (2 * N + 1) => (k : ℝ) / (2 * N)) 1 = .ok (1 / (2 * N)) := by
    simpa using idx_ofFn (fun k : Fin (2 * N + 1) => (k : ℝ) / (2 * N)) ⟨1, by omega⟩
  simp only [gridL63, Proc.timeStep, h0, h1, py_ok_bind]
  have : 0 < 1 / (2 * (N : ℝ)) := by positivity
  simp [pure, Except.pure, abs_of_pos]

theorem gridObjN_discretises (M : SdeModel (Fin 3 → ℝ) (Matrix (Fin 3) (Fin 3) ℝ)) (meth : Method) {N : ℕ} (hN : 0 < N) :
    Spec.DiscretisesN (gridObjN M meth N) (2 * N) (1 / (2 * N)) 1 (Matrix.diagonal fun _ => 1) 7 (fun _ : Fin 1 => fun _ => 2) (fun _ => 1 / 2)
      (fun _ _ => 1) (fun t => Matrix.diagonal fun _ => 1 + t) where
  step := by positivity
  window := by push_cast; field_simp
  object := ⟨fun _ => ⟨N, by omega⟩, fun j => by simp only; field_simp,
    ⟨by omega, rfl, rfl, Matrix.PosDef.diagonal fun _ => one_pos, fun i j _ => Subsingleton.elim _ _, ⟨7, rfl⟩, rfl⟩⟩
  solver := rfl
  m0 := rfl
  s0 := by simp [gridObjN]
  prior := rfl
  sorted := by simp [gridObjN]

example (meth : Method) (θ : Fin 3 → ℝ) : ∃ ε > 0, ∃ δ > 0, ∀ N : ℕ, 0 < N → (1 / (2 * N) : ℝ) < δ →
    ∃ F, ((gridObjN (gridL63 θ N).sde meth N).freeEnergy (shapeN 3) (Spec.packGrid (d := 3) (fun _ => 0) (fun _ => 0) (2 * N) (1 / (2 * N)))).1 = .ok F
      ∧ ε ≤ |F - (7 + Spec.continuousEnergyN (Spec.l63Field θ) (Matrix.diagonal fun _ => 1) (Matrix.diagonal fun _ => 1) 1 (fun _ : Fin 1 => fun _ => 2)
        (fun _ => 1 / 2) (fun _ => 0) (fun _ => 0) (fun _ _ => 1) (fun t => Matrix.diagonal fun _ => 1 + t))| := by
  obtain ⟨ε, hε, δ, hδ, h⟩ := C108_lorenz63_violated (G := ℕ) 1 θ (fun _ => 1) (fun _ => 1) (fun _ => one_pos) (fun _ => one_pos) _ _ _ _ example_curveN
    (fun _ : Fin 1 => fun _ => 2) (fun _ => 1 / 2) 7 (by norm_num [Fin.sum_univ_three])
  exact ⟨ε, hε, δ, hδ, fun N hN hd => h (gridL63 θ N) _ _ _ hd rfl rfl rfl rfl (gridL63_grid θ hN) (gridObjN_discretises _ meth hN)⟩

end

end VGPA
