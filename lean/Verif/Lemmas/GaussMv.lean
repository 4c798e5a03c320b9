import Verif.Lemmas.Gauss1
import Mathlib.Probability.Distributions.Gaussian.Multivariate
import Mathlib.Tactic.Ring
import Mathlib.Tactic.Linarith
import Mathlib.Tactic.LinearCombination

/-! Moments up to order four of the multivariate normal law, by polarisation from the one dimensional law. -/

namespace VGPA

open ProbabilityTheory MeasureTheory Matrix WithLp
open scoped NNReal RealInnerProductSpace

set_option linter.unusedSectionVars false

variable {ι : Type*} [Fintype ι] [DecidableEq ι]

/-- The linear form `x ↦ u · x`. -/
def lin (u : ι → ℝ) (x : EuclideanSpace ℝ ι) : ℝ := ∑ i, u i * x i

/-- Its covariance form. -/
def cvf (S : Matrix ι ι ℝ) (u w : ι → ℝ) : ℝ := ∑ i, ∑ j, u i * S i j * w j

theorem lin_add (u w : ι → ℝ) (x : EuclideanSpace ℝ ι) : lin (u + w) x = lin u x + lin w x := by
  simp [lin, add_mul, Finset.sum_add_distrib]

theorem lin_neg (u : ι → ℝ) (x : EuclideanSpace ℝ ι) : lin (-u) x = -lin u x := by
  simp [lin]

theorem lin_sub (u w : ι → ℝ) (x : EuclideanSpace ℝ ι) : lin (u - w) x = lin u x - lin w x := by
  rw [sub_eq_add_neg, lin_add, lin_neg]; ring

theorem lin_smul (c : ℝ) (w : ι → ℝ) (x : EuclideanSpace ℝ ι) : lin (c • w) x = c * lin w x := by
  simp [lin, Finset.mul_sum, mul_assoc]

theorem lin_single (i : ι) (x : EuclideanSpace ℝ ι) : lin (Pi.single i 1) x = x i := by
  simp [lin, Pi.single_apply]

theorem cvf_add_left (S : Matrix ι ι ℝ) (u u' w : ι → ℝ) : cvf S (u + u') w = cvf S u w + cvf S u' w := by
  simp [cvf, add_mul, Finset.sum_add_distrib]

theorem cvf_add_right (S : Matrix ι ι ℝ) (u w w' : ι → ℝ) : cvf S u (w + w') = cvf S u w + cvf S u w' := by
  simp [cvf, mul_add, Finset.sum_add_distrib]

theorem cvf_neg_left (S : Matrix ι ι ℝ) (u w : ι → ℝ) : cvf S (-u) w = -cvf S u w := by
  simp [cvf]

theorem cvf_neg_right (S : Matrix ι ι ℝ) (u w : ι → ℝ) : cvf S u (-w) = -cvf S u w := by
  simp [cvf]

theorem cvf_sub_left (S : Matrix ι ι ℝ) (u u' w : ι → ℝ) : cvf S (u - u') w = cvf S u w - cvf S u' w := by
  rw [sub_eq_add_neg, cvf_add_left, cvf_neg_left]; ring

theorem cvf_sub_right (S : Matrix ι ι ℝ) (u w w' : ι → ℝ) : cvf S u (w - w') = cvf S u w - cvf S u w' := by
  rw [sub_eq_add_neg, cvf_add_right, cvf_neg_right]; ring

theorem cvf_comm {S : Matrix ι ι ℝ} (hS : ∀ i j, S i j = S j i) (u w : ι → ℝ) : cvf S u w = cvf S w u := by
  unfold cvf
  rw [Finset.sum_comm]
  refine Finset.sum_congr rfl fun i _ => Finset.sum_congr rfl fun j _ => ?_
  rw [hS j i]; ring

theorem cvf_single (S : Matrix ι ι ℝ) (i j : ι) : cvf S (Pi.single i 1) (Pi.single j 1) = S i j := by
  simp [cvf, Pi.single_apply]

theorem posSemidef_symm {S : Matrix ι ι ℝ} (hS : S.PosSemidef) (i j : ι) : S i j = S j i := by
  have := hS.isHermitian.apply j i
  simpa using this

variable {μ : EuclideanSpace ℝ ι} {S : Matrix ι ι ℝ}

theorem lin_eq_inner (u : ι → ℝ) (x : EuclideanSpace ℝ ι) : lin u x = ⟪toLp 2 u, x⟫ := by
  simp [lin, PiLp.inner_apply, mul_comm]

theorem cvf_eq_dot (S : Matrix ι ι ℝ) (u w : ι → ℝ) : cvf S u w = u ⬝ᵥ S *ᵥ w := by
  simp [cvf, dotProduct, mulVec, Finset.mul_sum, mul_assoc]

/-- The law of a linear form. -/
theorem map_lin (hS : S.PosSemidef) (u : ι → ℝ) :
    (multivariateGaussian μ S).map (lin u) = gaussianReal (lin u μ) (cvf S u u).toNNReal := by
  have e : lin u = (innerSL ℝ (toLp 2 u) : StrongDual ℝ (EuclideanSpace ℝ ι)) := by
    funext x; rw [lin_eq_inner]; rfl
  have hm : ∫ x, (innerSL ℝ (toLp 2 u) : StrongDual ℝ (EuclideanSpace ℝ ι)) x ∂(multivariateGaussian μ S)
      = (innerSL ℝ (toLp 2 u) : StrongDual ℝ (EuclideanSpace ℝ ι)) μ := by
    rw [ContinuousLinearMap.integral_comp_comm _ IsGaussian.integrable_fun_id]
    simp
  rw [e, IsGaussian.map_eq_gaussianReal, hm]
  congr 1
  · congr 1
    have := covarianceBilin_multivariateGaussian (μ := μ) hS (toLp 2 u) (toLp 2 u)
    rw [covarianceBilin_self IsGaussian.memLp_two_id] at this
    rw [cvf_eq_dot]
    exact this

theorem measurable_lin (u : ι → ℝ) : Measurable (lin u) := by
  unfold lin; fun_prop

theorem integrable_lin_pow (hS : S.PosSemidef) (u : ι → ℝ) (n : ℕ) :
    Integrable (fun x => lin u x ^ n) (multivariateGaussian μ S) := by
  have h := integrable_pow_gaussianReal n (lin u μ) (cvf S u u).toNNReal
  rw [← map_lin hS u] at h
  exact h.comp_measurable (measurable_lin u)

theorem cvf_self_nonneg (hS : S.PosSemidef) (u : ι → ℝ) : 0 ≤ cvf S u u := by
  rw [cvf_eq_dot]
  have := hS.dotProduct_mulVec_nonneg u
  simpa using this

theorem integral_lin_pow (hS : S.PosSemidef) (u : ι → ℝ) (n : ℕ) :
    ∫ x, lin u x ^ n ∂(multivariateGaussian μ S) = nmom n (lin u μ) (cvf S u u).toNNReal := by
  unfold nmom
  rw [← map_lin hS u, integral_map (measurable_lin u).aemeasurable (by fun_prop)]

theorem integral_lin1 (hS : S.PosSemidef) (u : ι → ℝ) :
    ∫ x, lin u x ∂(multivariateGaussian μ S) = lin u μ := by
  have := integral_lin_pow (μ := μ) hS u 1
  simpa using this

theorem integral_lin_pow2 (hS : S.PosSemidef) (u : ι → ℝ) :
    ∫ x, lin u x ^ 2 ∂(multivariateGaussian μ S) = lin u μ ^ 2 + cvf S u u := by
  rw [integral_lin_pow hS, nmom_succ_succ]
  simp [Real.coe_toNNReal _ (cvf_self_nonneg hS u)]; ring

theorem integral_lin_pow3 (hS : S.PosSemidef) (u : ι → ℝ) :
    ∫ x, lin u x ^ 3 ∂(multivariateGaussian μ S) = lin u μ ^ 3 + 3 * lin u μ * cvf S u u := by
  rw [integral_lin_pow hS, nmom_succ_succ, nmom_succ_succ]
  simp [Real.coe_toNNReal _ (cvf_self_nonneg hS u)]; ring

theorem integral_lin_pow4 (hS : S.PosSemidef) (u : ι → ℝ) :
    ∫ x, lin u x ^ 4 ∂(multivariateGaussian μ S)
      = lin u μ ^ 4 + 6 * lin u μ ^ 2 * cvf S u u + 3 * cvf S u u ^ 2 := by
  rw [integral_lin_pow hS, nmom_succ_succ, nmom_succ_succ, nmom_succ_succ]
  simp [Real.coe_toNNReal _ (cvf_self_nonneg hS u)]; ring

theorem lin2_eq (a b : ι → ℝ) : (fun x => lin a x * lin b x)
    = fun x => (1 / 4 : ℝ) * (lin (a + b) x ^ 2 - lin (a - b) x ^ 2) := by
  funext x; simp only [lin_add, lin_sub]; ring

theorem lin3_eq (a b c : ι → ℝ) : (fun x => lin a x * lin b x * lin c x)
    = fun x => (1 / 24 : ℝ) * (lin (a + b + c) x ^ 3 - lin (a + b - c) x ^ 3
        - (lin (a - b + c) x ^ 3 - lin (a - b - c) x ^ 3)) := by
  funext x; simp only [lin_add, lin_sub]; ring

theorem lin4_eq (a b c d : ι → ℝ) : (fun x => lin a x * lin b x * lin c x * lin d x)
    = fun x => (1 / 192 : ℝ) * ((lin (a + b + c + d) x ^ 4 - lin (a + b + c - d) x ^ 4)
        - (lin (a + b - c + d) x ^ 4 - lin (a + b - c - d) x ^ 4)
        - (lin (a - b + c + d) x ^ 4 - lin (a - b + c - d) x ^ 4)
        + (lin (a - b - c + d) x ^ 4 - lin (a - b - c - d) x ^ 4)) := by
  funext x; simp only [lin_add, lin_sub]; ring

theorem integrable_lin1 (hS : S.PosSemidef) (a : ι → ℝ) :
    Integrable (fun x => lin a x) (multivariateGaussian μ S) := by
  simpa using integrable_lin_pow (μ := μ) hS a 1

theorem integrable_lin2 (hS : S.PosSemidef) (a b : ι → ℝ) :
    Integrable (fun x => lin a x * lin b x) (multivariateGaussian μ S) := by
  rw [lin2_eq]
  exact ((integrable_lin_pow hS _ 2).sub (integrable_lin_pow hS _ 2)).const_mul _

theorem integrable_lin3 (hS : S.PosSemidef) (a b c : ι → ℝ) :
    Integrable (fun x => lin a x * lin b x * lin c x) (multivariateGaussian μ S) := by
  rw [lin3_eq]
  exact (((integrable_lin_pow hS _ 3).sub (integrable_lin_pow hS _ 3)).sub
    ((integrable_lin_pow hS _ 3).sub (integrable_lin_pow hS _ 3))).const_mul _

theorem integrable_lin4 (hS : S.PosSemidef) (a b c d : ι → ℝ) :
    Integrable (fun x => lin a x * lin b x * lin c x * lin d x) (multivariateGaussian μ S) := by
  rw [lin4_eq]
  have h : ∀ u w : ι → ℝ, Integrable (fun x => lin u x ^ 4 - lin w x ^ 4) (multivariateGaussian μ S) :=
    fun u w => (integrable_lin_pow hS u 4).sub (integrable_lin_pow hS w 4)
  exact ((((h _ _).sub (h _ _)).sub (h _ _)).add (h _ _)).const_mul _

theorem integral_lin2 (hS : S.PosSemidef) (a b : ι → ℝ) :
    ∫ x, lin a x * lin b x ∂(multivariateGaussian μ S) = lin a μ * lin b μ + cvf S a b := by
  rw [lin2_eq, integral_const_mul, integral_sub (integrable_lin_pow hS _ 2) (integrable_lin_pow hS _ 2),
    integral_lin_pow2 hS, integral_lin_pow2 hS]
  simp only [lin_add, lin_sub, cvf_add_left, cvf_add_right, cvf_sub_left, cvf_sub_right,
    cvf_comm (posSemidef_symm hS) b a]
  ring

theorem integral_lin3 (hS : S.PosSemidef) (a b c : ι → ℝ) :
    ∫ x, lin a x * lin b x * lin c x ∂(multivariateGaussian μ S)
      = lin a μ * lin b μ * lin c μ + cvf S a b * lin c μ + cvf S a c * lin b μ + cvf S b c * lin a μ := by
  have h : ∀ u w : ι → ℝ, Integrable (fun x => lin u x ^ 3 - lin w x ^ 3) (multivariateGaussian μ S) :=
    fun u w => (integrable_lin_pow hS u 3).sub (integrable_lin_pow hS w 3)
  have hi : ∀ u w : ι → ℝ, ∫ x, (lin u x ^ 3 - lin w x ^ 3) ∂(multivariateGaussian μ S)
      = lin u μ ^ 3 + 3 * lin u μ * cvf S u u - (lin w μ ^ 3 + 3 * lin w μ * cvf S w w) := fun u w => by
    rw [integral_sub (integrable_lin_pow hS _ 3) (integrable_lin_pow hS _ 3), integral_lin_pow3 hS,
      integral_lin_pow3 hS]
  rw [lin3_eq, integral_const_mul, integral_sub (h _ _) (h _ _), hi, hi]
  simp only [lin_add, lin_sub, cvf_add_left, cvf_add_right, cvf_sub_left, cvf_sub_right,
    cvf_comm (posSemidef_symm hS) b a, cvf_comm (posSemidef_symm hS) c a, cvf_comm (posSemidef_symm hS) c b]
  ring

theorem integral_comb4 {α : Type*} [MeasurableSpace α] {P : Measure α} {f g h k : α → ℝ} (hf : Integrable f P)
    (hg : Integrable g P) (hh : Integrable h P) (hk : Integrable k P) :
    ∫ x, (f x - g x - h x + k x) ∂P = ∫ x, f x ∂P - ∫ x, g x ∂P - ∫ x, h x ∂P + ∫ x, k x ∂P := by
  have h1 : Integrable (fun x => f x - g x) P := hf.sub hg
  have h2 : Integrable (fun x => f x - g x - h x) P := h1.sub hh
  rw [integral_add h2 hk, integral_sub h1 hh, integral_sub hf hg]

theorem integral_lin4 (hS : S.PosSemidef) (a b c d : ι → ℝ) :
    ∫ x, lin a x * lin b x * lin c x * lin d x ∂(multivariateGaussian μ S)
      = lin a μ * lin b μ * lin c μ * lin d μ
        + cvf S a b * lin c μ * lin d μ + cvf S a c * lin b μ * lin d μ + cvf S a d * lin b μ * lin c μ
        + cvf S b c * lin a μ * lin d μ + cvf S b d * lin a μ * lin c μ + cvf S c d * lin a μ * lin b μ
        + cvf S a b * cvf S c d + cvf S a c * cvf S b d + cvf S a d * cvf S b c := by
  have h : ∀ u w : ι → ℝ, Integrable (fun x => lin u x ^ 4 - lin w x ^ 4) (multivariateGaussian μ S) :=
    fun u w => (integrable_lin_pow hS u 4).sub (integrable_lin_pow hS w 4)
  have hi : ∀ u w : ι → ℝ, ∫ x, (lin u x ^ 4 - lin w x ^ 4) ∂(multivariateGaussian μ S)
      = lin u μ ^ 4 + 6 * lin u μ ^ 2 * cvf S u u + 3 * cvf S u u ^ 2
        - (lin w μ ^ 4 + 6 * lin w μ ^ 2 * cvf S w w + 3 * cvf S w w ^ 2) := fun u w => by
    rw [integral_sub (integrable_lin_pow hS _ 4) (integrable_lin_pow hS _ 4), integral_lin_pow4 hS,
      integral_lin_pow4 hS]
  rw [lin4_eq, integral_const_mul, integral_comb4 (h _ _) (h _ _) (h _ _) (h _ _), hi, hi, hi, hi]
  simp only [lin_add, lin_sub, cvf_add_left, cvf_add_right, cvf_sub_left, cvf_sub_right,
    cvf_comm (posSemidef_symm hS) b a, cvf_comm (posSemidef_symm hS) c a, cvf_comm (posSemidef_symm hS) c b,
    cvf_comm (posSemidef_symm hS) d a, cvf_comm (posSemidef_symm hS) d b, cvf_comm (posSemidef_symm hS) d c]
  ring

end VGPA
