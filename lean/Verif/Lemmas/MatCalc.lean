import Verif.Lemmas.Cholesky
import Mathlib.Analysis.Calculus.Deriv.Slope
import Mathlib.Analysis.Normed.Module.FiniteDimension
import Mathlib.Topology.Instances.Matrix
import Mathlib.LinearAlgebra.Matrix.Charpoly.Coeff
import Mathlib.Analysis.Calculus.Deriv.Polynomial
import Mathlib.Analysis.SpecialFunctions.Log.Deriv

/-! Calculus of matrix inverses and determinants along a line `M + ε D`. -/

namespace VGPA

open Matrix Filter Topology

variable {n : ℕ}

theorem quad_add_smul (M D : Matrix (Fin n) (Fin n) ℝ) (ε : ℝ) (x : Fin n → ℝ) :
    quad (M + ε • D) x = quad M x + ε * quad D x := by
  simp only [quad, Matrix.add_apply, Matrix.smul_apply, smul_eq_mul, mul_add, add_mul, Finset.sum_add_distrib,
    Finset.mul_sum]
  congr 1
  exact Finset.sum_congr rfl fun i _ => Finset.sum_congr rfl fun j _ => by ring

theorem quad_smul_vec (M : Matrix (Fin n) (Fin n) ℝ) (c : ℝ) (x : Fin n → ℝ) :
    quad M (c • x) = c ^ 2 * quad M x := by
  simp only [quad, Pi.smul_apply, smul_eq_mul, Finset.mul_sum]
  exact Finset.sum_congr rfl fun i _ => Finset.sum_congr rfl fun j _ => by ring

theorem continuous_quad (M : Matrix (Fin n) (Fin n) ℝ) : Continuous (quad M) := by
  unfold quad
  fun_prop

/-- A positive definite matrix stays positive definite under a small symmetric perturbation. -/
theorem posDef_eventually {M D : Matrix (Fin n) (Fin n) ℝ} (hM : M.PosDef) (hD : D.IsSymm) :
    ∀ᶠ ε : ℝ in 𝓝 0, (M + ε • D).PosDef := by
  have hMq := posDef_iff_quad.1 hM
  by_cases hn : (Metric.sphere (0 : Fin n → ℝ) 1).Nonempty
  · obtain ⟨x0, hx0, hmin⟩ := (isCompact_sphere (0 : Fin n → ℝ) 1).exists_isMinOn hn (continuous_quad M).continuousOn
    obtain ⟨x1, hx1, hmax⟩ := (isCompact_sphere (0 : Fin n → ℝ) 1).exists_isMaxOn hn
      (continuous_quad D).abs.continuousOn
    have hc : 0 < quad M x0 := hMq.2 x0 (by
      intro h; rw [h] at hx0; simp at hx0)
    have hlim : Tendsto (fun ε : ℝ => |ε| * |quad D x1|) (𝓝 0) (𝓝 0) := by
      have : Continuous fun ε : ℝ => |ε| * |quad D x1| := by fun_prop
      simpa using this.tendsto 0
    filter_upwards [hlim.eventually_lt_const hc] with ε hε
    refine posDef_iff_quad.2 ⟨hMq.1.add (hD.smul ε), fun x hx => ?_⟩
    have hnx : 0 < ‖x‖ := norm_pos_iff.2 hx
    have hu : ‖x‖⁻¹ • x ∈ Metric.sphere (0 : Fin n → ℝ) 1 := by
      simp [norm_smul, hnx.ne']
    have h1 : quad M x0 ≤ quad M (‖x‖⁻¹ • x) := hmin hu
    have h2 : |quad D (‖x‖⁻¹ • x)| ≤ |quad D x1| := hmax hu
    have h3 : 0 < quad (M + ε • D) (‖x‖⁻¹ • x) := by
      rw [quad_add_smul]
      have : |ε * quad D (‖x‖⁻¹ • x)| ≤ |ε| * |quad D x1| := by
        rw [abs_mul]; exact mul_le_mul_of_nonneg_left h2 (abs_nonneg _)
      have := neg_abs_le (ε * quad D (‖x‖⁻¹ • x))
      linarith
    rw [quad_smul_vec] at h3
    exact (mul_pos_iff_of_pos_left (by positivity)).1 h3
  · refine Eventually.of_forall fun ε => posDef_iff_quad.2 ⟨hMq.1.add (hD.smul ε), fun x hx => ?_⟩
    exfalso
    apply hn
    exact ⟨‖x‖⁻¹ • x, by simp [norm_smul, norm_ne_zero_iff.2 hx]⟩

theorem continuous_line (M D : Matrix (Fin n) (Fin n) ℝ) : Continuous fun ε : ℝ => M + ε • D := by fun_prop

theorem det_line_ne {M : Matrix (Fin n) (Fin n) ℝ} (D : Matrix (Fin n) (Fin n) ℝ) (hM : M.det ≠ 0) :
    ∀ᶠ ε : ℝ in 𝓝 0, (M + ε • D).det ≠ 0 := by
  have : Continuous fun ε : ℝ => (M + ε • D).det := (continuous_line M D).matrix_det
  have h := this.tendsto 0
  simp only [zero_smul, add_zero] at h
  exact h.eventually_ne hM

theorem inv_line_tendsto {M : Matrix (Fin n) (Fin n) ℝ} (D : Matrix (Fin n) (Fin n) ℝ) (hM : M.det ≠ 0) :
    Tendsto (fun ε : ℝ => (M + ε • D)⁻¹) (𝓝 0) (𝓝 M⁻¹) := by
  have h1 := (continuous_line M D).matrix_det.tendsto 0
  have h2 := (continuous_line M D).matrix_adjugate.tendsto 0
  simp only [zero_smul, add_zero] at h1 h2
  have h3 := (h1.inv₀ hM).smul h2
  simp only [Matrix.inv_def, Ring.inverse_eq_inv']
  exact h3

/-- The derivative of the inverse along a line. -/
theorem inv_hasDerivAt {M : Matrix (Fin n) (Fin n) ℝ} (D : Matrix (Fin n) (Fin n) ℝ) (hM : M.det ≠ 0) (i j : Fin n) :
    HasDerivAt (fun ε : ℝ => (M + ε • D)⁻¹ i j) (-(M⁻¹ * D * M⁻¹) i j) 0 := by
  rw [hasDerivAt_iff_tendsto_slope_zero]
  have h1 : Tendsto (fun ε : ℝ => -((M + ε • D)⁻¹ * D * M⁻¹)) (𝓝 0) (𝓝 (-(M⁻¹ * D * M⁻¹))) :=
    (((inv_line_tendsto D hM).mul_const D).mul_const M⁻¹).neg
  have h2 : Tendsto (fun ε : ℝ => (-((M + ε • D)⁻¹ * D * M⁻¹)) i j) (𝓝 0) (𝓝 ((-(M⁻¹ * D * M⁻¹)) i j)) :=
    ((continuous_id.matrix_elem i j).tendsto (-(M⁻¹ * D * M⁻¹))).comp h1
  refine (h2.mono_left nhdsWithin_le_nhds).congr' ?_
  have hdet := (det_line_ne D hM).filter_mono (nhdsWithin_le_nhds (s := {0}ᶜ))
  filter_upwards [hdet, self_mem_nhdsWithin] with ε hε hε0
  have hε0' : ε ≠ 0 := hε0
  have hu : IsUnit (M + ε • D).det := isUnit_iff_ne_zero.2 hε
  have huM : IsUnit M.det := isUnit_iff_ne_zero.2 hM
  have key : (M + ε • D)⁻¹ - M⁻¹ = -(ε • ((M + ε • D)⁻¹ * D * M⁻¹)) := by
    have : (M + ε • D)⁻¹ * ((M + ε • D) - M) * M⁻¹ = M⁻¹ - (M + ε • D)⁻¹ := by
      rw [Matrix.mul_sub, Matrix.nonsing_inv_mul _ hu, Matrix.sub_mul, Matrix.one_mul, Matrix.mul_assoc,
        Matrix.mul_nonsing_inv _ huM, Matrix.mul_one]
    rw [add_sub_cancel_left, Matrix.mul_smul, Matrix.smul_mul] at this
    rw [this]; abel
  have kij := congrFun (congrFun key i) j
  simp only [Matrix.sub_apply, Matrix.neg_apply, Matrix.smul_apply, smul_eq_mul] at kij
  simp only [zero_add, zero_smul, add_zero, smul_eq_mul, Matrix.neg_apply]
  rw [kij]
  field_simp

/-- The derivative of the log-determinant along a line. -/
theorem logdet_hasDerivAt {M : Matrix (Fin n) (Fin n) ℝ} (D : Matrix (Fin n) (Fin n) ℝ) (hM : M.det ≠ 0) :
    HasDerivAt (fun ε : ℝ => Real.log (M + ε • D).det) (M⁻¹ * D).trace 0 := by
  have huM : IsUnit M.det := isUnit_iff_ne_zero.2 hM
  have h1 : (fun ε : ℝ => (M + ε • D).det) = fun ε : ℝ => M.det * (1 + (M⁻¹ * D).trace * ε
      + ((1 + (Polynomial.X : Polynomial ℝ) • (M⁻¹ * D).map Polynomial.C).det.divX.divX.eval ε) * ε ^ 2) := by
    funext ε
    rw [← Matrix.det_one_add_smul, ← Matrix.det_mul, Matrix.mul_add, Matrix.mul_one, Matrix.mul_smul,
      ← Matrix.mul_assoc, Matrix.mul_nonsing_inv _ huM, Matrix.one_mul]
  have h2 : HasDerivAt (fun ε : ℝ => (M + ε • D).det) (M.det * (M⁻¹ * D).trace) 0 := by
    rw [h1]
    have hp := ((1 + (Polynomial.X : Polynomial ℝ) • (M⁻¹ * D).map Polynomial.C).det.divX.divX).hasDerivAt (0 : ℝ)
    have := ((((hasDerivAt_id' (0 : ℝ)).const_mul (M⁻¹ * D).trace).const_add 1).add
      (hp.mul (hasDerivAt_pow 2 (0 : ℝ)))).const_mul M.det
    refine this.congr_deriv ?_
    simp
  have h3 := h2.log (by simpa using hM)
  refine h3.congr_deriv ?_
  simp only [zero_smul, add_zero]
  field_simp

end VGPA
