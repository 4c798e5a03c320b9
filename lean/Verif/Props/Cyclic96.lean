import Verif.Props.Meaning96
import Verif.Props.Mirror63

/-!
# C128: renumbering the components of Lorenz-96
-/

namespace VGPA

noncomputable section

open Matrix

variable {G : Type} {d : ℕ} [NeZero d]

namespace Spec

/-- The components renumbered: component `i` becomes component `i + 1`, the last one the first. -/
def shiftV (v : Fin d → ℝ) : Fin d → ℝ := fun i => v (i - 1)

/-- The matrix for the renumbered components. -/
def shiftM (M : Matrix (Fin d) (Fin d) ℝ) : Matrix (Fin d) (Fin d) ℝ := Matrix.of fun i j => M (i - 1) (j - 1)

end Spec

open Spec

theorem field_shift (F : ℝ) (x : Fin d → ℝ) (i : Fin d) : l96Field F (shiftV x) i = l96Field F x (i - 1) := by
  simp only [l96Field, shiftV]
  rw [show i + 1 - 1 = i - 1 + 1 by abel, show i - 2 - 1 = i - 1 - 2 by abel]

/-- C128, the part that holds: the drift, the mean drift and the mean Jacobian matrix of the renumbered state are the renumbered ones. Missing: the energy and what
is computed from it, see `C128_energy_violated`. -/
theorem C128_drift_partial (F : ℝ) (x m : Fin d → ℝ) (s : Matrix (Fin d) (Fin d) ℝ) :
    l96 (shiftV x) F = shiftV (l96 x F) ∧ e96Drift F (shiftV m) (shiftM s) = shiftV (e96Drift F m s) ∧ e96DriftDx (shiftV m) = shiftM (e96DriftDx m) := by
  refine ⟨?_, ?_, ?_⟩
  · rw [l96_eq_field, l96_eq_field]
    funext i
    exact field_shift F x i
  · funext i
    obtain ⟨h1, h2, h3⟩ := rollIdx_fin i
    obtain ⟨k1, k2, k3⟩ := rollIdx_fin (i - 1)
    simp only [e96Drift, npRoll, id, h1, h2, h3, k1, k2, k3, shiftV, shiftM, Matrix.of_apply]
    rw [show i + 1 - 1 = i - 1 + 1 by abel, show i - 2 - 1 = i - 1 - 2 by abel]
  · ext i j
    obtain ⟨h1, h2, h3⟩ := rollIdx_fin i
    obtain ⟨k1, k2, k3⟩ := rollIdx_fin (i - 1)
    simp only [e96DriftDx, npRoll, id, h1, h2, h3, k1, k2, k3, shiftV, shiftM, Matrix.of_apply, Function.update_apply, Pi.zero_apply]
    rw [show i + 1 - 1 = i - 1 + 1 by abel, show i - 2 - 1 = i - 1 - 2 by abel]
    have hj : ∀ k : Fin d, j = k ↔ j - 1 = k - 1 := fun k => ⟨fun h => by rw [h], fun h => sub_left_injective h⟩
    simp only [hj (i - 1), hj (i - 2), hj (i + 1), hj i, show i + 1 - 1 = i - 1 + 1 by abel, show i - 2 - 1 = i - 1 - 2 by abel]

/-- The mean drift of the points for independent components. -/
theorem mean_field (hd : 4 ≤ d) (F : ℝ) (m : Fin d → ℝ) (j : Fin d) :
    ∑ i, utWeights d i * l96Field F (utChi m (utRoot 1) i) j = l96Field F m j := by
  have hd0 : 0 < d := by omega
  have hu := unscented hd0
  have h1 := Matrix.PosDef.one (n := Fin d) (R := ℝ)
  have hm : ∀ a, ∑ i, utWeights d i * utChi m (utRoot 1) i a = m a := fun a => by
    have := congrFun (hu.mean m 1 h1) a
    simpa [Finset.sum_apply] using this
  have hc : ∀ a b, a ≠ b → ∑ i, utWeights d i * (utChi m (utRoot 1) i a * utChi m (utRoot 1) i b) = m a * m b := fun a b hab => by
    have h := hu.cov m 1 h1 a b
    rw [Matrix.one_apply_ne hab] at h
    have e : ∀ i, utWeights d i * ((utChi m (utRoot 1) i a - m a) * (utChi m (utRoot 1) i b - m b))
        = utWeights d i * (utChi m (utRoot 1) i a * utChi m (utRoot 1) i b) - m b * (utWeights d i * utChi m (utRoot 1) i a)
          - m a * (utWeights d i * utChi m (utRoot 1) i b) + m a * m b * utWeights d i := fun i => by ring
    simp only [e, Finset.sum_add_distrib, Finset.sum_sub_distrib, ← Finset.mul_sum, hm, hu.total] at h
    linarith
  have v1 : ((1 : Fin d) : ℕ) = 1 := by rw [Fin.val_one', Nat.mod_eq_of_lt (by omega)]
  have v2 : ((2 : Fin d) : ℕ) = 2 := by
    show 2 % d = 2
    exact Nat.mod_eq_of_lt (by omega)
  have n1 : j + 1 ≠ j - 1 := fun h => by
    rw [eq_sub_iff_add_eq, add_assoc, add_eq_left] at h
    have := congrArg Fin.val h
    rw [Fin.val_add, v1, Nat.mod_eq_of_lt (by omega)] at this
    simp at this
  have n2 : j - 2 ≠ j - 1 := fun h => by
    have := congrArg Fin.val (sub_right_injective h)
    rw [v1, v2] at this
    omega
  have e : ∀ i, utWeights d i * l96Field F (utChi m (utRoot 1) i) j
      = utWeights d i * (utChi m (utRoot 1) i (j + 1) * utChi m (utRoot 1) i (j - 1)) - utWeights d i * (utChi m (utRoot 1) i (j - 2) * utChi m (utRoot 1) i (j - 1))
        - utWeights d i * utChi m (utRoot 1) i j + F * utWeights d i := fun i => by simp only [l96Field]; ring
  simp only [e, Finset.sum_add_distrib, Finset.sum_sub_distrib, ← Finset.mul_sum, hm, hu.total, hc _ _ n1, hc _ _ n2]
  simp only [l96Field]
  ring

/-- C128 fails in every dimension of at least four, for every process with equal and independent noise in all components, already for independent components of unit
variance and no linear part: for some mean and offset (the same at all times) the energy of the renumbered problem is a different number. -/
theorem C128_energy_violated (hd : 4 ≤ d) (o : L96 G d) (c : ℝ) (hc : 0 < c) (hi : o.sig_inv = c • 1) (n : ℕ) (dt : ℝ) (hdt : 0 < dt)
    (hg : HasGrid o.base (n + 2) dt) (obs : Option (List ℕ)) (hobs : ObsSorted obs) :
    ∃ (b m : Fin d → ℝ) (e e' : EnergyN d),
      o.energy (List.ofFn fun _ : Fin (n + 2) => 0) (List.ofFn fun _ : Fin (n + 2) => b) (List.ofFn fun _ : Fin (n + 2) => m)
        (List.ofFn fun _ : Fin (n + 2) => 1) obs = .ok e
      ∧ o.energy (List.ofFn fun _ : Fin (n + 2) => shiftM 0) (List.ofFn fun _ : Fin (n + 2) => shiftV b) (List.ofFn fun _ : Fin (n + 2) => shiftV m)
        (List.ofFn fun _ : Fin (n + 2) => shiftM 1) obs = .ok e'
      ∧ shiftM o.sig_inv = o.sig_inv ∧ e'.Esde ≠ e.Esde := by
  have hd0 : 0 < d := by omega
  have hone : shiftM (1 : Matrix (Fin d) (Fin d) ℝ) = 1 := by
    ext i j
    simp only [shiftM, Matrix.of_apply, Matrix.one_apply, sub_left_inj]
  have hzero : shiftM (0 : Matrix (Fin d) (Fin d) ℝ) = 0 := by ext i j; rfl
  have h1 := Matrix.PosDef.one (n := Fin d) (R := ℝ)
  by_contra hcon
  push Not at hcon
  have key : ∀ b m : Fin d → ℝ,
      ∑ i, utWeights d i * weightedSq o.sig_inv.diag 0 (shiftV b) (l96Batch (Matrix.of (utChi (shiftV m) (utRoot 1))) o.theta i) (utChi (shiftV m) (utRoot 1) i)
      = ∑ i, utWeights d i * weightedSq o.sig_inv.diag 0 b (l96Batch (Matrix.of (utChi m (utRoot 1))) o.theta i) (utChi m (utRoot 1) i) := fun b m => by
    obtain ⟨e, he, h2, -⟩ := C111_energy_partial hd0 (unscented hd0) o (fun _ : Fin (n + 2) => 0) (fun _ => b) (fun _ => m) (fun _ => 1) obs dt hg hobs fun _ => h1
    obtain ⟨e', he', h2', -⟩ := C111_energy_partial hd0 (unscented hd0) o (fun _ : Fin (n + 2) => 0) (fun _ => shiftV b) (fun _ => shiftV m) (fun _ => 1) obs dt hg hobs
      fun _ => h1
    have h3 := hcon b m e e' he (by rw [hone, hzero]; exact he') (by rw [hi]; ext i j; simp only [shiftM, Matrix.of_apply, Matrix.smul_apply, Matrix.one_apply, sub_left_inj])
    rw [h2, h2', rule_same, rule_same] at h3
    have hne : ((n + 1 : ℕ) : ℝ) * dt ≠ 0 := by positivity
    exact mul_left_cancel₀ hne h3
  have hdiag : ∀ j, o.sig_inv.diag j = c := fun j => by rw [hi]; simp
  have hdiff : ∀ (J : Fin d) (f x : Fin d → ℝ), weightedSq o.sig_inv.diag 0 (Pi.single J 1) f x - weightedSq o.sig_inv.diag 0 0 f x
      = c * (1 / 2 - f J) := fun J f x => by
    unfold weightedSq
    rw [← mul_sub, ← Finset.sum_sub_distrib, Finset.sum_eq_single J]
    · simp only [Pi.single_eq_same, Pi.zero_apply, hdiag, Matrix.zero_mulVec]
      ring
    · intro j _ hj
      simp [Pi.single_eq_of_ne hj]
    · simp
  obtain ⟨J, hJ⟩ : ∃ J : Fin d, J = ⟨d - 1, by omega⟩ := ⟨_, rfl⟩
  obtain ⟨q, hq⟩ : ∃ q : Fin d, q = ⟨d - 2, by omega⟩ := ⟨_, rfl⟩
  have hJq : J - 1 = q := by
    rw [sub_eq_iff_eq_add]
    apply Fin.ext
    rw [hJ, hq, Fin.val_add, Fin.val_one', Nat.mod_eq_of_lt (show 1 < d by omega)]
    simp only
    rw [Nat.mod_eq_of_lt (by omega)]
    omega
  have hs1 : shiftV (Pi.single q (1 : ℝ)) = Pi.single J 1 := by
    funext i
    simp only [shiftV, Pi.single_apply, ← hJq, sub_left_inj]
  have hs0 : shiftV (0 : Fin d → ℝ) = 0 := rfl
  have hz : ∀ m : Fin d → ℝ, ∑ i, utWeights d i * ((utChi m (utRoot 1) (i + 1) 0 - utChi m (utRoot 1) i 0) * utChi m (utRoot 1) i q) = 0 := fun m' => by
    obtain ⟨m, rfl⟩ : ∃ m, m' = shiftV m := ⟨fun i => m' (i + 1), by funext i; simp [shiftV]⟩
    have k0 := key 0 m
    have k1 := key (Pi.single q 1) m
    rw [hs1] at k1
    rw [hs0] at k0
    have h2 : ∑ i, utWeights d i * (c * (1 / 2 - l96Batch (Matrix.of (utChi (shiftV m) (utRoot 1))) o.theta i J))
        = ∑ i, utWeights d i * (c * (1 / 2 - l96Batch (Matrix.of (utChi m (utRoot 1))) o.theta i q)) := by
      have e1 : ∀ i, utWeights d i * (c * (1 / 2 - l96Batch (Matrix.of (utChi (shiftV m) (utRoot 1))) o.theta i J))
          = utWeights d i * weightedSq o.sig_inv.diag 0 (Pi.single J 1) (l96Batch (Matrix.of (utChi (shiftV m) (utRoot 1))) o.theta i) (utChi (shiftV m) (utRoot 1) i)
            - utWeights d i * weightedSq o.sig_inv.diag 0 0 (l96Batch (Matrix.of (utChi (shiftV m) (utRoot 1))) o.theta i) (utChi (shiftV m) (utRoot 1) i) := fun i => by
        rw [← mul_sub, hdiff]
      have e2 : ∀ i, utWeights d i * (c * (1 / 2 - l96Batch (Matrix.of (utChi m (utRoot 1))) o.theta i q))
          = utWeights d i * weightedSq o.sig_inv.diag 0 (Pi.single q 1) (l96Batch (Matrix.of (utChi m (utRoot 1))) o.theta i) (utChi m (utRoot 1) i)
            - utWeights d i * weightedSq o.sig_inv.diag 0 0 (l96Batch (Matrix.of (utChi m (utRoot 1))) o.theta i) (utChi m (utRoot 1) i) := fun i => by
        rw [← mul_sub, hdiff]
      simp only [e1, e2, Finset.sum_sub_distrib]
      rw [k0, k1]
    have h3 : ∀ i, l96Batch (Matrix.of (utChi (shiftV m) (utRoot 1))) o.theta i J = l96Field o.theta (utChi (shiftV m) (utRoot 1) i) J
        + (utChi (shiftV m) (utRoot 1) (i + 1) 0 - utChi (shiftV m) (utRoot 1) i 0) * utChi (shiftV m) (utRoot 1) i q := fun i => by
      have := l96Batch_last hd (Matrix.of (utChi (shiftV m) (utRoot 1))) o.theta i
      rw [hJ, hq]
      simp only [Matrix.of_apply] at this
      have e : (Matrix.of (utChi (shiftV m) (utRoot 1))) i = utChi (shiftV m) (utRoot 1) i := rfl
      rw [e] at this
      linarith
    have h4 : ∀ i, l96Batch (Matrix.of (utChi m (utRoot 1))) o.theta i q = l96Field o.theta (utChi m (utRoot 1) i) q := fun i =>
      (C49_inner_partial (Matrix.of (utChi m (utRoot 1))) o.theta i).1 q (by rw [hq]; show 2 ≤ d - 2; omega) (by rw [hq]; show d - 2 + 1 < d; omega)
    have m1 := mean_field hd o.theta (shiftV m) J
    have m2 := mean_field hd o.theta m q
    rw [field_shift, hJq] at m1
    have ht := (unscented hd0).total
    have e1 : ∀ i, utWeights d i * (c * (1 / 2 - l96Batch (Matrix.of (utChi (shiftV m) (utRoot 1))) o.theta i J))
        = c / 2 * utWeights d i - c * (utWeights d i * l96Field o.theta (utChi (shiftV m) (utRoot 1) i) J)
          - c * (utWeights d i * ((utChi (shiftV m) (utRoot 1) (i + 1) 0 - utChi (shiftV m) (utRoot 1) i 0) * utChi (shiftV m) (utRoot 1) i q)) := fun i => by
      rw [h3]; ring
    have e2 : ∀ i, utWeights d i * (c * (1 / 2 - l96Batch (Matrix.of (utChi m (utRoot 1))) o.theta i q))
        = c / 2 * utWeights d i - c * (utWeights d i * l96Field o.theta (utChi m (utRoot 1) i) q) := fun i => by
      rw [h4]; ring
    simp only [e1, e2, Finset.sum_sub_distrib, ← Finset.mul_sum, m1, m2, ht] at h2
    have : c * ∑ i, utWeights d i * ((utChi (shiftV m) (utRoot 1) (i + 1) 0 - utChi (shiftV m) (utRoot 1) i 0) * utChi (shiftV m) (utRoot 1) i q) = 0 := by linarith
    exact (mul_eq_zero.1 this).resolve_left hc.ne'
  have z0 := hz 0
  have z1 := hz (Pi.single q 1)
  rw [wrong_neighbours hd] at z0 z1
  have hk : (utWeights d 0 - 1 / (2 * (d + utK d))) * utRoot (1 : Matrix (Fin d) (Fin d) ℝ) 0 0 = 0 := by
    simp only [Pi.single_eq_same, Pi.zero_apply, zero_mul, zero_add, one_mul] at z0 z1
    linarith
  rcases mul_eq_zero.1 hk with h | h
  · have hdr : (4 : ℝ) ≤ d := by exact_mod_cast hd
    have hD := utD_pos hd0
    have e : utWeights d 0 - 1 / (2 * (d + utK d)) = (utK d - 1 / 2) / (d + utK d) := by
      simp only [utWeights, Fin.cons_zero]
      field_simp
    rw [e, div_eq_zero_iff] at h
    rcases h with h | h
    · unfold utK at h
      norm_num at h
      linarith
    · linarith
  · exact utRoot_first hd0 1 h1 h

/-- A process for which this happens: ten components, the usual forcing, and the grid `0, 0.1, …, 1`. -/
example (g : G) : ∃ o : L96 G 10, o.sig_inv = (1 / 4 : ℝ) • 1 ∧ HasGrid o.base 11 0.1 :=
  ⟨⟨⟨none, some (Spec.grid 0 0.1 10), g, false⟩, (4 : ℝ) • 1, 8, (1 / 4 : ℝ) • 1⟩, rfl,
    ⟨_, rfl, by simp [Spec.grid], timeStep_grid _ 0 0.1 10 (by norm_num) (by norm_num) rfl⟩⟩

/-- The renumbered state is another one. -/
example : shiftV (d := 4) ![1, 2, 3, 4] = ![4, 1, 2, 3] := by
  funext i
  fin_cases i <;> rfl

/-! ## What does not depend on the numbering -/

omit [NeZero d]

section
variable (τ : Equiv.Perm (Fin d))

/-- The vector with component `τ i` in place `i`. -/
def pmV : (Fin d → ℝ) →ₗ[ℝ] (Fin d → ℝ) where
  toFun v := fun i => v (τ i)
  map_add' _ _ := rfl
  map_smul' _ _ := rfl

/-- The matrix with entry `τ i, τ j` in place `i, j`. -/
def pmM : Matrix (Fin d) (Fin d) ℝ →ₗ[ℝ] Matrix (Fin d) (Fin d) ℝ where
  toFun M := M.submatrix τ τ
  map_add' _ _ := rfl
  map_smul' _ _ := rfl

theorem pmM_mulVec (A : Matrix (Fin d) (Fin d) ℝ) (v : Fin d → ℝ) : pmM τ A *ᵥ pmV τ v = pmV τ (A *ᵥ v) := by
  funext i
  exact Equiv.sum_comp τ fun j => A (τ i) j * v j

theorem pmV_vecMul (A : Matrix (Fin d) (Fin d) ℝ) (v : Fin d → ℝ) : pmV τ v ᵥ* pmM τ A = pmV τ (v ᵥ* A) := by
  funext i
  exact Equiv.sum_comp τ fun j => v j * A j (τ i)

theorem pmM_mul (A B : Matrix (Fin d) (Fin d) ℝ) : pmM τ A * pmM τ B = pmM τ (A * B) := Matrix.submatrix_mul_equiv A B τ τ τ

theorem pmM_transpose (A : Matrix (Fin d) (Fin d) ℝ) : (pmM τ A)ᵀ = pmM τ Aᵀ := rfl

theorem pmV_dot (u v : Fin d → ℝ) : pmV τ u ⬝ᵥ pmV τ v = u ⬝ᵥ v := Equiv.sum_comp τ fun j => u j * v j

theorem pmM_posDef {R : Matrix (Fin d) (Fin d) ℝ} (hR : R.PosDef) : (pmM τ R).PosDef := hR.submatrix τ.injective

theorem pmM_inv (R : Matrix (Fin d) (Fin d) ℝ) : (pmM τ R)⁻¹ = pmM τ R⁻¹ := (Matrix.inv_submatrix_equiv R τ τ)

/-- C128, the part that holds: the integrators renumber their results. -/
theorem C128_integrators_partial (meth : Method) (dt : ℝ) (A : List (Matrix (Fin d) (Fin d) ℝ)) (b : List (Fin d → ℝ)) (m0 : Fin d → ℝ)
    (s0 sigma : Matrix (Fin d) (Fin d) ℝ) (em : List (Fin d → ℝ)) (es : List (Matrix (Fin d) (Fin d) ℝ)) (om : List (Fin d → ℝ)) (os : List (Matrix (Fin d) (Fin d) ℝ)) :
    solveFwd meth (rhsN d) dt (A.map (pmM τ)) (b.map (pmV τ)) (pmV τ m0) (pmM τ s0) (pmM τ sigma)
        = (solveFwd meth (rhsN d) dt A b m0 s0 sigma).map (fun r => (r.1.map (pmV τ), r.2.map (pmM τ)))
      ∧ solveBwd meth (rhsN d) dt (A.map (pmM τ)) (em.map (pmV τ)) (es.map (pmM τ)) (om.map (pmV τ)) (os.map (pmM τ))
        = (solveBwd meth (rhsN d) dt A em es om os).map (fun r => (r.1.map (pmV τ), r.2.map (pmM τ))) := by
  refine ⟨solveFwd_map meth (rhsN d) (rhsN d) (pmV τ) (pmM τ) (fun m a b => ?_) (fun s a n => ?_) dt A b m0 s0 sigma,
    solveBwd_map meth (rhsN d) (rhsN d) (pmV τ) (pmM τ) (fun e a l => ?_) (fun e a l => ?_) dt A em es om os⟩
  · simp only [rhsN, pmM_mulVec, ← map_neg, ← map_add]
  · simp only [rhsN, pmM_transpose, pmM_mul, ← map_neg, ← map_add, ← map_sub]
  · simp only [rhsN, pmM_transpose, pmV_vecMul, ← map_neg, ← map_add]
  · simp only [rhsN, pmM_transpose, pmM_mul, ← map_neg, ← map_add]

theorem cholInv_pm {R : Matrix (Fin d) (Fin d) ℝ} (hR : R.PosDef) : ∃ X Y X' Y', cholInv R = .ok (X, Y) ∧ cholInv (pmM τ R) = .ok (X', Y')
    ∧ X' = pmM τ X ∧ X = Yᵀ * Y ∧ X' = Y'ᵀ * Y' := by
  have hinv : ∀ {R : Matrix (Fin d) (Fin d) ℝ}, R.PosDef → ∃ L, chol d R = some L ∧ (L⁻¹)ᵀ * L⁻¹ = R⁻¹ := fun {R} hR => by
    have hs : symLower R = R := symLower_of_isSymm (posDef_iff_quad.1 hR).1
    obtain ⟨L, hL⟩ := chol_some_of_posDef d R (by rw [hs]; exact hR)
    have h1 := (chol_spec d R L hL).1
    rw [hs] at h1
    exact ⟨L, hL, by rw [← h1, Matrix.mul_inv_rev, Matrix.transpose_nonsing_inv]⟩
  obtain ⟨L, hL, e⟩ := hinv hR
  obtain ⟨L', hL', e'⟩ := hinv (pmM_posDef τ hR)
  exact ⟨_, _, _, _, cholInv_eq hL, cholInv_eq hL', by rw [e, e', pmM_inv], rfl, rfl⟩

/-- C128, the part that holds: for renumbered observations, noise and operator, and renumbered moments, the observation likelihood is the same and its gradients are
renumbered. -/
theorem C128_likelihood_partial (L : LikeN d) (hn : L.obs_n.PosDef) (m : List (Fin d → ℝ)) (s : List (Matrix (Fin d) (Fin d) ℝ)) :
    (⟨L.obs_v.map (pmV τ), L.obs_t, pmM τ L.obs_n, pmM τ L.obs_h⟩ : LikeN d).gauss (m.map (pmV τ)) (s.map (pmM τ)) = L.gauss m s
      ∧ (⟨L.obs_v.map (pmV τ), L.obs_t, pmM τ L.obs_n, pmM τ L.obs_h⟩ : LikeN d).gradients (m.map (pmV τ))
        = (L.gradients m).map fun r => (r.1.map (pmV τ), r.2.1.map (pmM τ), r.2.2) := by
  obtain ⟨X, Y, X', Y', hX, hX', rfl, hY, hY'⟩ := cholInv_pm τ hn
  have hld : logDet (.mat d d (pmM τ L.obs_n)) = logDet (.mat d d L.obs_n) := by
    rw [C09_matrix _ (pmM_posDef τ hn), C09_matrix _ hn]
    congr 2
    exact Matrix.det_submatrix_equiv_self τ _
  constructor
  · unfold LikeN.gauss
    simp only [fancy_map, List.length_map, hX, hX', hld, py_ok_bind]
    rcases fancy m L.obs_t with er | mo
    · rfl
    simp only [Except.map, py_ok_bind]
    rw [bcast_map (f := fun y m : Fin d → ℝ => y - m) (f' := fun y m : Fin d → ℝ => y - m) (u := pmV τ) (fun x y => by rw [map_sub])]
    rcases bcast (fun y m : Fin d → ℝ => y - m) L.obs_v mo with er | D
    · rfl
    simp only [Except.map, py_ok_bind]
    congr 1
    · congr 1
      funext E n
      simp only [idx_map, List.map_map]
      rcases idx D n with er | x
      · rfl
      simp only [Except.map, py_ok_bind]
      rcases idx s n with er | S
      · rfl
      have q : ∀ (X Y : Matrix (Fin d) (Fin d) ℝ), X = Yᵀ * Y → ∀ w : Fin d → ℝ, (w ᵥ* Yᵀ) ⬝ᵥ (w ᵥ* Yᵀ) = w ⬝ᵥ (X *ᵥ w) := by
        intro X Y hY w
        rw [hY, Matrix.vecMul_transpose, ← Matrix.mulVec_mulVec, Matrix.dotProduct_mulVec w, Matrix.vecMul_transpose]
      simp only [py_ok_bind, Function.comp, q X Y hY, q _ Y' hY', pmV_vecMul, pmM_mulVec, pmV_dot]
      have : (pmM τ X).diag ⬝ᵥ (pmM τ S).diag = X.diag ⬝ᵥ S.diag := pmV_dot τ X.diag S.diag
      rw [this]
  · unfold LikeN.gradients
    simp only [fancy_map, List.length_map, hX, hX', py_ok_bind]
    rcases fancy m L.obs_t with er | mo
    · rfl
    simp only [Except.map, py_ok_bind]
    rw [bcast_map (f := fun y m : Fin d → ℝ => y - m) (f' := fun y m : Fin d → ℝ => y - m) (u := pmV τ) (fun x y => by rw [map_sub])]
    rcases bcast (fun y m : Fin d → ℝ => y - m) L.obs_v mo with er | D
    · rfl
    simp only [Except.map, py_ok_bind]
    have e0 : (List.replicate m.length (0 : Fin d → ℝ), List.replicate m.length (0 : Matrix (Fin d) (Fin d) ℝ))
        = (fun r : List (Fin d → ℝ) × List (Matrix (Fin d) (Fin d) ℝ) => (r.1.map (pmV τ), r.2.map (pmM τ)))
          (List.replicate m.length (0 : Fin d → ℝ), List.replicate m.length (0 : Matrix (Fin d) (Fin d) ℝ)) := by simp
    conv_lhs => rw [e0]
    rw [foldlM_map_py (fun r : List (Fin d → ℝ) × List (Matrix (Fin d) (Fin d) ℝ) => (r.1.map (pmV τ), r.2.map (pmM τ)))
        (F := fun (acc : List (Fin d → ℝ) × List (Matrix (Fin d) (Fin d) ℝ)) n => do
          let tn ← idx L.obs_t n
          let w ← idx (D.map fun x => x ᵥ* L.obs_h) n
          let dm ← setIdx acc.1 tn ((-(L.obs_hᵀ) * X) *ᵥ w)
          let ds ← setIdx acc.2 tn ((0.5 : ℝ) • (L.obs_hᵀ * X * L.obs_h))
          pure (dm, ds))]
    · generalize List.foldlM (m := Py) _ _ (List.range L.obs_t.length) = r
      rcases r with er | r
      · rfl
      simp [Except.map, py_ok_bind, py_pure]
    · intro acc n
      rcases idx L.obs_t n with er | tn
      · rfl
      simp only [py_ok_bind, idx_map, List.map_map]
      rcases idx D n with er | x
      · rfl
      simp only [Except.map, py_ok_bind, Function.comp]
      rw [pmV_vecMul, pmM_transpose, ← map_neg, pmM_mul, pmM_mulVec, setIdx_map]
      rcases setIdx acc.1 tn ((-(L.obs_hᵀ) * X) *ᵥ (x ᵥ* L.obs_h)) with er | dm
      · rfl
      simp only [Except.map, py_ok_bind]
      rw [pmM_mul, pmM_mul, ← map_smul, setIdx_map]
      rcases setIdx acc.2 tn ((0.5 : ℝ) • (L.obs_hᵀ * X * L.obs_h)) with er | ds
      · rfl
      rfl

end

/-- The cyclic renumbering is one of these. -/
example (v : Fin d → ℝ) (M : Matrix (Fin d) (Fin d) ℝ) : pmV (Equiv.subRight 1) v = shiftV v ∧ pmM (Equiv.subRight 1) M = shiftM M := ⟨rfl, rfl⟩

end

end VGPA
