import Verif.Lemmas.GaussMv
import Mathlib.Analysis.Calculus.Deriv.Mul
import Mathlib.Analysis.Calculus.Deriv.Pow

/-! Second moments of quadratic functions `α (u·x)(w·x) + l·x + c` under the multivariate normal law. -/

namespace VGPA

open ProbabilityTheory MeasureTheory Matrix WithLp

variable {ι : Type*} [Fintype ι] [DecidableEq ι] {μ : EuclideanSpace ℝ ι} {S : Matrix ι ι ℝ}

/-- The second moment of `α (u·x)(w·x) + l·x + c` in terms of the means `U, W, L` and the covariances of the three
linear forms. -/
def quadQ (α U W L c uu uw ww ul wl ll : ℝ) : ℝ :=
  α ^ 2 * (U ^ 2 * W ^ 2 + uu * W ^ 2 + 4 * uw * U * W + ww * U ^ 2 + uu * ww + 2 * uw ^ 2)
    + 2 * α * (U * W * L + uw * L + ul * W + wl * U) + 2 * α * c * (U * W + uw) + (L ^ 2 + ll) + 2 * c * L + c ^ 2

theorem Integrable.fadd {α : Type*} [MeasurableSpace α] {P : Measure α} {f g : α → ℝ} (hf : Integrable f P)
    (hg : Integrable g P) : Integrable (fun x => f x + g x) P := hf.add hg

theorem integrable_quad (hS : S.PosSemidef) (α c : ℝ) (u w l : ι → ℝ) :
    Integrable (fun x => α * (lin u x * lin w x) + lin l x + c) (multivariateGaussian μ S) :=
  (((integrable_lin2 hS u w).const_mul α).add (integrable_lin1 hS l)).add (integrable_const c)

theorem integral_quad (hS : S.PosSemidef) (α c : ℝ) (u w l : ι → ℝ) :
    ∫ x, (α * (lin u x * lin w x) + lin l x + c) ∂(multivariateGaussian μ S)
      = α * (lin u μ * lin w μ + cvf S u w) + lin l μ + c := by
  rw [integral_add (Integrable.fadd ((integrable_lin2 hS u w).const_mul α) (integrable_lin1 hS l))
    (integrable_const c), integral_add ((integrable_lin2 hS u w).const_mul α) (integrable_lin1 hS l), integral_const_mul,
    integral_lin2 hS, integral_lin1 hS]
  simp

theorem integral_quad_lin (hS : S.PosSemidef) (α c : ℝ) (u w l k : ι → ℝ) :
    ∫ x, ((α * (lin u x * lin w x) + lin l x + c) * lin k x) ∂(multivariateGaussian μ S)
      = α * (lin u μ * lin w μ * lin k μ + cvf S u w * lin k μ + cvf S u k * lin w μ + cvf S w k * lin u μ)
        + (lin l μ * lin k μ + cvf S l k) + c * lin k μ := by
  have e : (fun x => (α * (lin u x * lin w x) + lin l x + c) * lin k x)
      = fun x => α * (lin u x * lin w x * lin k x) + lin l x * lin k x + c * lin k x := by funext x; ring
  have h3 := (integrable_lin3 (μ := μ) hS u w k).const_mul α
  have h2 := integrable_lin2 (μ := μ) hS l k
  have h1 := (integrable_lin1 (μ := μ) hS k).const_mul c
  rw [e, integral_add (Integrable.fadd h3 h2) h1, integral_add h3 h2, integral_const_mul, integral_const_mul,
    integral_lin3 hS, integral_lin2 hS, integral_lin1 hS]

theorem integrable_quad_lin (hS : S.PosSemidef) (α c : ℝ) (u w l k : ι → ℝ) :
    Integrable (fun x => (α * (lin u x * lin w x) + lin l x + c) * lin k x) (multivariateGaussian μ S) := by
  have e : (fun x => (α * (lin u x * lin w x) + lin l x + c) * lin k x)
      = fun x => α * (lin u x * lin w x * lin k x) + lin l x * lin k x + c * lin k x := by funext x; ring
  rw [e]
  exact (((integrable_lin3 hS u w k).const_mul α).add (integrable_lin2 hS l k)).add
    ((integrable_lin1 hS k).const_mul c)

theorem quad_sq_eq (α c : ℝ) (u w l : ι → ℝ) : (fun x : EuclideanSpace ℝ ι => (α * (lin u x * lin w x) + lin l x + c) ^ 2)
    = fun x => α ^ 2 * (lin u x * lin w x * lin u x * lin w x) + 2 * α * (lin u x * lin w x * lin l x)
      + 2 * α * c * (lin u x * lin w x) + lin l x * lin l x + 2 * c * lin l x + c ^ 2 := by funext x; ring

theorem integrable_quad_sq (hS : S.PosSemidef) (α c : ℝ) (u w l : ι → ℝ) :
    Integrable (fun x => (α * (lin u x * lin w x) + lin l x + c) ^ 2) (multivariateGaussian μ S) := by
  rw [quad_sq_eq]
  exact ((((((integrable_lin4 hS u w u w).const_mul _).add ((integrable_lin3 hS u w l).const_mul _)).add
    ((integrable_lin2 hS u w).const_mul _)).add (integrable_lin2 hS l l)).add
    ((integrable_lin1 hS l).const_mul _)).add (integrable_const _)

theorem integral_quad_sq (hS : S.PosSemidef) (α c : ℝ) (u w l : ι → ℝ) :
    ∫ x, (α * (lin u x * lin w x) + lin l x + c) ^ 2 ∂(multivariateGaussian μ S)
      = quadQ α (lin u μ) (lin w μ) (lin l μ) c (cvf S u u) (cvf S u w) (cvf S w w) (cvf S u l) (cvf S w l)
        (cvf S l l) := by
  have h4 := (integrable_lin4 (μ := μ) hS u w u w).const_mul (α ^ 2)
  have h3 := (integrable_lin3 (μ := μ) hS u w l).const_mul (2 * α)
  have h2 := (integrable_lin2 (μ := μ) hS u w).const_mul (2 * α * c)
  have h2' := integrable_lin2 (μ := μ) hS l l
  have h1 := (integrable_lin1 (μ := μ) hS l).const_mul (2 * c)
  have h43 := Integrable.fadd h4 h3
  have h432 := Integrable.fadd h43 h2
  have h4322 := Integrable.fadd h432 h2'
  rw [quad_sq_eq, integral_add (Integrable.fadd h4322 h1) (integrable_const _),
    integral_add h4322 h1, integral_add h432 h2', integral_add h43 h2, integral_add h4 h3]
  simp only [integral_const_mul]
  rw [integral_lin4 hS, integral_lin3 hS, integral_lin2 hS, integral_lin2 hS, integral_lin1 hS,
    cvf_comm (posSemidef_symm hS) w u]
  simp only [integral_const, probReal_univ, one_smul, quadQ]
  ring

/-- The derivative of `quadQ` in the direction of the primed quantities. -/
theorem quadQ_hasDerivAt (α U W L c uu uw ww ul wl ll U' W' L' uu' uw' ww' ul' wl' ll' : ℝ) :
    HasDerivAt (fun ε => quadQ α (U + ε * U') (W + ε * W') (L + ε * L') c (uu + ε * uu') (uw + ε * uw') (ww + ε * ww')
      (ul + ε * ul') (wl + ε * wl') (ll + ε * ll'))
      (α ^ 2 * (2 * U * U' * W ^ 2 + 2 * U ^ 2 * W * W' + uu' * W ^ 2 + 2 * uu * W * W' + 4 * uw' * U * W
          + 4 * uw * U' * W + 4 * uw * U * W' + ww' * U ^ 2 + 2 * ww * U * U' + uu' * ww + uu * ww' + 4 * uw * uw')
        + 2 * α * (U' * W * L + U * W' * L + U * W * L' + uw' * L + uw * L' + ul' * W + ul * W' + wl' * U + wl * U')
        + 2 * α * c * (U' * W + U * W' + uw') + (2 * L * L' + ll') + 2 * c * L') 0 := by
  have lp : ∀ a b : ℝ, HasDerivAt (fun ε : ℝ => a + ε * b) b 0 := fun a b => by
    simpa using ((hasDerivAt_id' (0 : ℝ)).mul_const b).const_add a
  have hU := lp U U'; have hW := lp W W'; have hL := lp L L'
  have huu := lp uu uu'; have huw := lp uw uw'; have hww := lp ww ww'
  have hul := lp ul ul'; have hwl := lp wl wl'; have hll := lp ll ll'
  have h := (((((((((((hU.fun_pow 2).mul (hW.fun_pow 2)).add (huu.mul (hW.fun_pow 2))).add
    (((huw.const_mul 4).mul hU).mul hW)).add (hww.mul (hU.fun_pow 2))).add (huu.mul hww)).add
    ((huw.fun_pow 2).const_mul 2)).const_mul (α ^ 2)).add
    (((((hU.mul hW).mul hL).add (huw.mul hL)).add (hul.mul hW)).add (hwl.mul hU) |>.const_mul (2 * α))).add
    (((hU.mul hW).add huw).const_mul (2 * α * c))).add ((hL.fun_pow 2).add hll)).add (hL.const_mul (2 * c))
      |>.add_const (c ^ 2)
  refine (h.congr_deriv ?_).congr_of_eventuallyEq (Filter.Eventually.of_forall fun ε => ?_)
  · simp; ring
  · simp [quadQ]

theorem cvf_add_mat (S D : Matrix ι ι ℝ) (u w : ι → ℝ) (ε : ℝ) : cvf (S + ε • D) u w = cvf S u w + ε * cvf D u w := by
  simp only [cvf, Matrix.add_apply, Matrix.smul_apply, smul_eq_mul, mul_add, add_mul, Finset.sum_add_distrib,
    Finset.mul_sum]
  congr 1
  refine Finset.sum_congr rfl fun i _ => Finset.sum_congr rfl fun j _ => by ring

end VGPA
