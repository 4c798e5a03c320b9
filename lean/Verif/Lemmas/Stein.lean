import Verif.Props.LorenzGrad
import Verif.Props.LikeN

/-!
# Derivatives of the weighted mismatch with respect to the linear drift, and Stein's identity for quadratic drifts
-/

namespace VGPA

open Matrix MeasureTheory ProbabilityTheory WithLp

variable {d : ℕ}

namespace Spec

/-- Every component of `f` is a product of two linear forms plus an affine function. -/
def QuadDrift (f : (Fin d → ℝ) → Fin d → ℝ) : Prop :=
  ∃ (α c : Fin d → ℝ) (u w l : Fin d → Fin d → ℝ), ∀ x j,
    f x j = α j * ((∑ k, u j k * x k) * (∑ k, w j k * x k)) + (∑ k, l j k * x k) + c j

end Spec

theorem update_lin (u x : Fin d → ℝ) (j : Fin d) (t : ℝ) :
    ∑ k, u k * Function.update x j t k = (∑ k, u k * x k) + u j * (t - x j) := by
  have h : ∀ k, u k * Function.update x j t k = u k * x k + (if k = j then u j * (t - x j) else 0) := fun k => by
    by_cases hk : k = j
    · subst hk; simp; ring
    · simp [hk]
  simp only [h, Finset.sum_add_distrib, Finset.sum_ite_eq', Finset.mem_univ, if_true]

theorem quad_jac (f : (Fin d → ℝ) → Fin d → ℝ) (α c : Fin d → ℝ) (u w l : Fin d → Fin d → ℝ)
    (hf : ∀ x j, f x j = α j * ((∑ k, u j k * x k) * (∑ k, w j k * x k)) + (∑ k, l j k * x k) + c j)
    (x : Fin d → ℝ) (i j : Fin d) :
    Spec.jac f x i j = α i * (u i j * (∑ k, w i k * x k) + w i j * (∑ k, u i k * x k)) + l i j := by
  unfold Spec.jac
  simp only [hf, update_lin]
  have hd : ∀ v : ℝ, HasDerivAt (fun t : ℝ => v * (t - x j)) v (x j) := fun v => by
    simpa using ((hasDerivAt_id' (x j)).sub_const (x j)).const_mul v
  have h := ((((((hd (u i j)).const_add (∑ k, u i k * x k))).fun_mul
    ((hd (w i j)).const_add (∑ k, w i k * x k))).const_mul (α i)).fun_add
      ((hd (l i j)).const_add (∑ k, l i k * x k))).add_const (c i)
  rw [h.deriv]
  simp only [sub_self, mul_zero, add_zero]
  ring

/-- Stein's identity `E[f_j x_k] = m_k E[f_j] + (E[Df] S)_{jk}` for quadratic drifts, with an additional affine part. -/
theorem stein_quad {f : (Fin d → ℝ) → Fin d → ℝ} (hf : Spec.QuadDrift f) (m : Fin d → ℝ) {S : Matrix (Fin d) (Fin d) ℝ}
    (hS : S.PosSemidef) (j k : Fin d) :
    Spec.mvE m S (fun x => f x j * x k)
      = m k * Spec.mvE m S (fun x => f x j) + ∑ p, Spec.mvE m S (fun x => Spec.jac f x j p) * S p k := by
  obtain ⟨α, c, u, w, l, hf⟩ := hf
  have e1 : Spec.mvE m S (fun x => f x j * x k)
      = α j * (lin (u j) (toLp 2 m) * lin (w j) (toLp 2 m) * m k + cvf S (u j) (w j) * m k
          + cvf S (u j) (Pi.single k 1) * lin (w j) (toLp 2 m) + cvf S (w j) (Pi.single k 1) * lin (u j) (toLp 2 m))
        + (lin (l j) (toLp 2 m) * m k + cvf S (l j) (Pi.single k 1)) + c j * m k := by
    have := integral_quad_lin (μ := toLp 2 m) hS (α j) (c j) (u j) (w j) (l j) (Pi.single k 1)
    simp only [lin_single] at this
    rw [← this]
    unfold Spec.mvE
    simp only [hf]
    rfl
  have e2 : Spec.mvE m S (fun x => f x j)
      = α j * (lin (u j) (toLp 2 m) * lin (w j) (toLp 2 m) + cvf S (u j) (w j)) + lin (l j) (toLp 2 m) + c j := by
    rw [← integral_quad hS]
    unfold Spec.mvE
    simp only [hf]
    rfl
  have e3 : ∀ p, Spec.mvE m S (fun x => Spec.jac f x j p)
      = α j * (u j p * lin (w j) (toLp 2 m) + w j p * lin (u j) (toLp 2 m)) + l j p := fun p => by
    have h := integral_quad (μ := toLp 2 m) hS 0 (l j p) 0 0 (α j • (u j p • w j + w j p • u j))
    simp only [lin_smul, lin_add, zero_mul, zero_add] at h
    rw [← h]
    unfold Spec.mvE
    simp only [quad_jac f α c u w l hf]
    rfl
  have e4 : ∀ v : Fin d → ℝ, cvf S v (Pi.single k 1) = ∑ p, v p * S p k := fun v => by
    simp [cvf, Pi.single_apply]
  rw [e1, e2]
  simp only [e3, e4, add_mul, Finset.sum_add_distrib, mul_add, mul_assoc, ← Finset.mul_sum]
  have e5 : ∀ (v : Fin d → ℝ) (r : ℝ), ∑ p, v p * (r * S p k) = r * ∑ p, v p * S p k := fun v r => by
    rw [Finset.mul_sum]; exact Finset.sum_congr rfl fun p _ => by ring
  simp only [e5]
  ring

theorem quadDrift_residual {f : (Fin d → ℝ) → Fin d → ℝ} (hf : Spec.QuadDrift f) (A : Matrix (Fin d) (Fin d) ℝ)
    (b : Fin d → ℝ) : Spec.QuadDrift (fun x => f x - (-(A *ᵥ x) + b)) := by
  obtain ⟨α, c, u, w, l, hf⟩ := hf
  refine ⟨α, fun j => c j - b j, u, w, fun j k => l j k + A j k, fun x j => ?_⟩
  simp only [Pi.sub_apply, Pi.add_apply, Pi.neg_apply, hf, Matrix.mulVec, dotProduct, add_mul, Finset.sum_add_distrib]
  ring

theorem QuadDrift.memLp {f : (Fin d → ℝ) → Fin d → ℝ} (hf : Spec.QuadDrift f) (m : Fin d → ℝ)
    {S : Matrix (Fin d) (Fin d) ℝ} (hS : S.PosSemidef) (j : Fin d) :
    MemLp (fun x => f (ofLp x) j) 2 (multivariateGaussian (toLp 2 m) S) := by
  obtain ⟨α, c, u, w, l, hf⟩ := hf
  have e : (fun x : EuclideanSpace ℝ (Fin d) => f (ofLp x) j)
      = fun x => α j * (lin (u j) x * lin (w j) x) + lin (l j) x + c j := by
    funext x; rw [hf]; rfl
  rw [e]
  have h1 := integrable_quad (μ := toLp 2 m) hS (α j) (c j) (u j) (w j) (l j)
  exact (memLp_two_iff_integrable_sq h1.aestronglyMeasurable).2 (integrable_quad_sq hS _ _ _ _ _)

/-- An affine map is a quadratic drift. -/
theorem quadDrift_affine (U : Matrix (Fin d) (Fin d) ℝ) (v : Fin d → ℝ) :
    Spec.QuadDrift (fun x => U *ᵥ x - v) :=
  ⟨0, -v, 0, 0, U, fun x j => by simp [Matrix.mulVec, dotProduct, sub_eq_add_neg]⟩

/-- Derivative of a weighted second moment along a direction. -/
theorem hasDerivAt_weighted {Ω : Type*} [MeasurableSpace Ω] {μ : Measure Ω} {P : Matrix (Fin d) (Fin d) ℝ}
    (hP : P.IsSymm) (r q : Ω → Fin d → ℝ) (hr : ∀ i, MemLp (fun x => r x i) 2 μ) (hq : ∀ i, MemLp (fun x => q x i) 2 μ) :
    HasDerivAt (fun ε : ℝ => ∫ x, (r x + ε • q x) ⬝ᵥ P *ᵥ (r x + ε • q x) ∂μ)
      (2 * ∑ i, ∑ j, P i j * ∫ x, q x i * r x j ∂μ) 0 := by
  have irr : ∀ i j, Integrable (fun x => r x i * r x j) μ := fun i j => (hr i).integrable_mul (hr j)
  have iqr : ∀ i j, Integrable (fun x => q x i * r x j) μ := fun i j => (hq i).integrable_mul (hr j)
  have iqq : ∀ i j, Integrable (fun x => q x i * q x j) μ := fun i j => (hq i).integrable_mul (hq j)
  have e : ∀ ε : ℝ, ∫ x, (r x + ε • q x) ⬝ᵥ P *ᵥ (r x + ε • q x) ∂μ
      = (∑ i, ∑ j, P i j * ∫ x, r x i * r x j ∂μ) + ε * (2 * ∑ i, ∑ j, P i j * ∫ x, q x i * r x j ∂μ)
        + ε ^ 2 * ∑ i, ∑ j, P i j * ∫ x, q x i * q x j ∂μ := by
    intro ε
    have e1 : ∀ x, (r x + ε • q x) ⬝ᵥ P *ᵥ (r x + ε • q x)
        = ∑ i, ∑ j, (P i j * (r x i * r x j) + (ε * P i j) * (q x i * r x j) + (ε * P i j) * (q x j * r x i)
            + (ε ^ 2 * P i j) * (q x i * q x j)) := fun x => by
      simp only [dotProduct, Matrix.mulVec, Finset.mul_sum, Pi.add_apply, Pi.smul_apply, smul_eq_mul]
      exact Finset.sum_congr rfl fun i _ => Finset.sum_congr rfl fun j _ => by ring
    simp only [e1]
    have i1 : ∀ i j, Integrable (fun x => P i j * (r x i * r x j) + (ε * P i j) * (q x i * r x j)
        + (ε * P i j) * (q x j * r x i) + (ε ^ 2 * P i j) * (q x i * q x j)) μ := fun i j =>
      ((((irr i j).const_mul _).add ((iqr i j).const_mul _)).add ((iqr j i).const_mul _)).add ((iqq i j).const_mul _)
    rw [integral_finsetSum _ fun i _ => integrable_finsetSum _ fun j _ => i1 i j]
    have e2 : ∀ i j, ∫ x, (P i j * (r x i * r x j) + (ε * P i j) * (q x i * r x j)
        + (ε * P i j) * (q x j * r x i) + (ε ^ 2 * P i j) * (q x i * q x j)) ∂μ
        = P i j * (∫ x, r x i * r x j ∂μ) + (ε * P i j) * (∫ x, q x i * r x j ∂μ)
          + (ε * P i j) * (∫ x, q x j * r x i ∂μ) + (ε ^ 2 * P i j) * (∫ x, q x i * q x j ∂μ) := fun i j => by
      rw [integral_add (Integrable.fadd (Integrable.fadd ((irr i j).const_mul _) ((iqr i j).const_mul _))
          ((iqr j i).const_mul _)) ((iqq i j).const_mul _),
        integral_add (Integrable.fadd ((irr i j).const_mul _) ((iqr i j).const_mul _)) ((iqr j i).const_mul _),
        integral_add ((irr i j).const_mul _) ((iqr i j).const_mul _)]
      simp only [integral_const_mul]
    have e3 : ∀ i, ∫ x, ∑ j, (P i j * (r x i * r x j) + (ε * P i j) * (q x i * r x j)
        + (ε * P i j) * (q x j * r x i) + (ε ^ 2 * P i j) * (q x i * q x j)) ∂μ
        = ∑ j, (P i j * (∫ x, r x i * r x j ∂μ) + (ε * P i j) * (∫ x, q x i * r x j ∂μ)
          + (ε * P i j) * (∫ x, q x j * r x i ∂μ) + (ε ^ 2 * P i j) * (∫ x, q x i * q x j ∂μ)) := fun i => by
      rw [integral_finsetSum _ fun j _ => i1 i j]
      exact Finset.sum_congr rfl fun j _ => e2 i j
    simp only [e3]
    simp only [Finset.sum_add_distrib]
    have e4 : ∑ i, ∑ j, ε * P i j * ∫ x, q x j * r x i ∂μ = ∑ i, ∑ j, ε * P i j * ∫ x, q x i * r x j ∂μ := by
      rw [Finset.sum_comm]
      exact Finset.sum_congr rfl fun i _ => Finset.sum_congr rfl fun j _ => by rw [hP.apply i j]
    rw [e4]
    simp only [mul_assoc, ← Finset.mul_sum]
    ring
  simp only [e]
  generalize (∑ i, ∑ j, P i j * ∫ x, r x i * r x j ∂μ) = T0
  generalize (2 * ∑ i, ∑ j, P i j * ∫ x, q x i * r x j ∂μ) = T1
  generalize (∑ i, ∑ j, P i j * ∫ x, q x i * q x j ∂μ) = T2
  have h := (((hasDerivAt_id' (0 : ℝ)).mul_const T1).const_add T0).fun_add (((hasDerivAt_id' (0 : ℝ)).fun_pow 2).mul_const T2)
  exact h.congr_deriv (by norm_num)

theorem QuadDrift.integrable {f : (Fin d → ℝ) → Fin d → ℝ} (hf : Spec.QuadDrift f) (m : Fin d → ℝ)
    {S : Matrix (Fin d) (Fin d) ℝ} (hS : S.PosSemidef) (j : Fin d) :
    Integrable (fun x => f (ofLp x) j) (multivariateGaussian (toLp 2 m) S) :=
  (QuadDrift.memLp hf m hS j).integrable (by norm_num)

/-- Mean of the residual. -/
theorem mvE_residual {f : (Fin d → ℝ) → Fin d → ℝ} (hf : Spec.QuadDrift f) (A : Matrix (Fin d) (Fin d) ℝ)
    (b m : Fin d → ℝ) {S : Matrix (Fin d) (Fin d) ℝ} (hS : S.PosSemidef) (j : Fin d) :
    Spec.mvE m S (fun x => (f x - (-(A *ᵥ x) + b)) j) = Spec.mvE m S (fun x => f x j) + (A *ᵥ m) j - b j := by
  have h1 := QuadDrift.integrable hf m hS j
  have h2 : Integrable (fun x : EuclideanSpace ℝ (Fin d) => lin (A j) x + -b j) (multivariateGaussian (toLp 2 m) S) :=
    Integrable.fadd (integrable_lin1 hS (A j)) (integrable_const _)
  unfold Spec.mvE
  have e : (fun x : EuclideanSpace ℝ (Fin d) => (f (ofLp x) - (-(A *ᵥ ofLp x) + b)) j)
      = fun x => f (ofLp x) j + (lin (A j) x + -b j) := by
    funext x
    have : (A *ᵥ ofLp x) j = lin (A j) x := rfl
    simp only [Pi.sub_apply, Pi.add_apply, Pi.neg_apply, this]; ring
  rw [e, integral_add h1 h2, integral_add (integrable_lin1 hS (A j)) (integrable_const _), integral_lin1 hS]
  have : (A *ᵥ m) j = lin (A j) (toLp 2 m) := rfl
  simp [this]; ring

theorem jac_residual {f : (Fin d → ℝ) → Fin d → ℝ} (hf : Spec.QuadDrift f) (A : Matrix (Fin d) (Fin d) ℝ)
    (b x : Fin d → ℝ) (i j : Fin d) :
    Spec.jac (fun x => f x - (-(A *ᵥ x) + b)) x i j = Spec.jac f x i j + A i j := by
  obtain ⟨α, c, u, w, l, hf⟩ := hf
  rw [quad_jac f α c u w l hf, quad_jac (fun x => f x - (-(A *ᵥ x) + b)) α (fun j => c j - b j) u w (fun j k => l j k + A j k)]
  · ring
  · intro x j
    simp only [Pi.sub_apply, Pi.add_apply, Pi.neg_apply, hf, Matrix.mulVec, dotProduct, add_mul, Finset.sum_add_distrib]
    ring

theorem mvE_add_const {m : Fin d → ℝ} {S : Matrix (Fin d) (Fin d) ℝ} {g : (Fin d → ℝ) → ℝ} (c : ℝ)
    (hg : Integrable (fun x => g (ofLp x)) (multivariateGaussian (toLp 2 m) S)) :
    Spec.mvE m S (fun x => g x + c) = Spec.mvE m S g + c := by
  unfold Spec.mvE
  rw [integral_add hg (integrable_const _)]
  simp

theorem jac_integrable {f : (Fin d → ℝ) → Fin d → ℝ} (hf : Spec.QuadDrift f) (m : Fin d → ℝ)
    {S : Matrix (Fin d) (Fin d) ℝ} (hS : S.PosSemidef) (i j : Fin d) :
    Integrable (fun x => Spec.jac f (ofLp x) i j) (multivariateGaussian (toLp 2 m) S) := by
  obtain ⟨α, c, u, w, l, hf⟩ := hf
  have h := integrable_quad (μ := toLp 2 m) hS 0 (l i j) 0 0 (α i • (u i j • w i + w i j • u i))
  refine h.congr (Filter.Eventually.of_forall fun x => ?_)
  simp only [quad_jac f α c u w l hf, lin_smul, lin_add, zero_mul, zero_add]
  rfl

/-- The directional derivative of half the weighted mismatch with respect to the linear drift `(A, b)`. The two matrices
of partial derivatives are the ones `variational.py` computes. -/
theorem weightedMismatch_deriv {f : (Fin d → ℝ) → Fin d → ℝ} (hf : Spec.QuadDrift f) {P : Matrix (Fin d) (Fin d) ℝ}
    (hP : P.IsSymm) (A : Matrix (Fin d) (Fin d) ℝ) (b m : Fin d → ℝ) {S : Matrix (Fin d) (Fin d) ℝ} (hS : S.PosSemidef)
    (U : Matrix (Fin d) (Fin d) ℝ) (v : Fin d → ℝ) :
    let Ef : Fin d → ℝ := fun i => Spec.mvE m S fun x => f x i
    let Edf : Matrix (Fin d) (Fin d) ℝ := Matrix.of fun i j => Spec.mvE m S fun x => Spec.jac f x i j
    let Db : Fin d → ℝ := P *ᵥ (-Ef - A *ᵥ m + b)
    let Da : Matrix (Fin d) (Fin d) ℝ := P * (Edf + A) * S - vecMulVec Db m
    HasDerivAt (fun ε : ℝ => 1 / 2 * Spec.weightedMismatch f P (A + ε • U) (b + ε • v) m S)
      ((∑ i, ∑ j, Da i j * U i j) + ∑ i, Db i * v i) 0 := by
  intro Ef Edf Db Da
  let g : (Fin d → ℝ) → Fin d → ℝ := fun x => f x - (-(A *ᵥ x) + b)
  have hg : Spec.QuadDrift g := quadDrift_residual hf A b
  have h := (hasDerivAt_weighted hP (fun x : EuclideanSpace ℝ (Fin d) => g (ofLp x)) (fun x => U *ᵥ ofLp x - v)
    (QuadDrift.memLp hg m hS) (QuadDrift.memLp (quadDrift_affine U v) m hS)).const_mul (1 / 2 : ℝ)
  refine (h.congr_of_eventuallyEq ?_).congr_deriv ?_
  · filter_upwards with ε
    unfold Spec.weightedMismatch Spec.mvE
    congr 1
    congr 1
    funext x
    have : f (ofLp x) - (-((A + ε • U) *ᵥ ofLp x) + (b + ε • v)) = g (ofLp x) + ε • (U *ᵥ ofLp x - v) := by
      funext i
      simp only [g, Matrix.add_mulVec, Matrix.smul_mulVec, Pi.sub_apply, Pi.add_apply, Pi.neg_apply, Pi.smul_apply, smul_eq_mul]
      ring
    exact congrArg (fun z => z ⬝ᵥ P *ᵥ z) this
  · have hm : ∀ i, Spec.mvE m S (fun x => g x i) = Ef i + (A *ᵥ m) i - b i := mvE_residual hf A b m hS
    have hst : ∀ j k, ∫ x, g (ofLp x) j * ofLp x k ∂(multivariateGaussian (toLp 2 m) S)
        = m k * (Ef j + (A *ᵥ m) j - b j) + ((Edf + A) * S) j k := fun j k => by
      have := stein_quad hg m hS j k
      unfold Spec.mvE at this hm
      rw [this, hm j, Matrix.mul_apply]
      congr 1
      refine Finset.sum_congr rfl fun p _ => ?_
      congr 1
      simp only [g, jac_residual hf]
      exact mvE_add_const (g := fun x => Spec.jac f x j p) (A j p) (jac_integrable hf m hS j p)
    have hq : ∀ i j, ∫ x, (U *ᵥ ofLp x - v) i * g (ofLp x) j ∂(multivariateGaussian (toLp 2 m) S)
        = (∑ k, U i k * (m k * (Ef j + (A *ᵥ m) j - b j) + ((Edf + A) * S) j k)) - v i * (Ef j + (A *ᵥ m) j - b j) := by
      intro i j
      have ig := QuadDrift.integrable hg m hS j
      have igl : ∀ k, Integrable (fun x : EuclideanSpace ℝ (Fin d) => g (ofLp x) j * ofLp x k)
          (multivariateGaussian (toLp 2 m) S) := fun k => by
        have hx : MemLp (fun x : EuclideanSpace ℝ (Fin d) => (1 *ᵥ ofLp x - 0) k) 2 (multivariateGaussian (toLp 2 m) S) :=
          QuadDrift.memLp (quadDrift_affine 1 0) m hS k
        have := (QuadDrift.memLp hg m hS j).integrable_mul hx
        refine this.congr (Filter.Eventually.of_forall fun x => ?_)
        simp
      have e : (fun x : EuclideanSpace ℝ (Fin d) => (U *ᵥ ofLp x - v) i * g (ofLp x) j)
          = fun x => (∑ k, U i k * (g (ofLp x) j * ofLp x k)) + (-v i) * g (ofLp x) j := by
        funext x
        simp only [Pi.sub_apply, Matrix.mulVec, dotProduct, sub_mul, Finset.sum_mul]
        rw [sub_eq_add_neg]
        congr 1
        · exact Finset.sum_congr rfl fun k _ => by ring
        · ring
      have hm' := hm j
      unfold Spec.mvE at hm'
      rw [e, integral_add (integrable_finsetSum _ fun k _ => (igl k).const_mul _) (ig.const_mul _),
        integral_finsetSum _ fun k _ => (igl k).const_mul _, integral_const_mul, hm']
      simp only [integral_const_mul, hst]
      ring
    simp only [hq]
    obtain ⟨e0, he0⟩ : ∃ e0 : Fin d → ℝ, ∀ j, Ef j + (A *ᵥ m) j - b j = e0 j := ⟨_, fun _ => rfl⟩
    have hDb : ∀ i, Db i = -∑ j, P i j * (Ef j + (A *ᵥ m) j - b j) := fun i => by
      simp only [Db, Matrix.mulVec, dotProduct, Pi.add_apply, Pi.sub_apply, Pi.neg_apply, ← Finset.sum_neg_distrib]
      exact Finset.sum_congr rfl fun j _ => by ring
    simp only [he0] at hDb ⊢
    have hDa : ∀ i k, Da i k = ∑ j, P i j * ((Edf + A) * S) j k - Db i * m k := fun i k => by
      simp only [Da, Matrix.sub_apply, vecMulVec_apply, Matrix.mul_assoc, Matrix.mul_apply (M := P)]
    rw [← mul_assoc, one_div_mul_cancel two_ne_zero, one_mul, ← Finset.sum_add_distrib]
    refine Finset.sum_congr rfl fun i _ => ?_
    simp only [hDa, mul_sub, Finset.sum_sub_distrib, sub_mul, mul_add, Finset.sum_add_distrib]
    have r1 : ∑ j, P i j * ∑ k, U i k * (m k * e0 j) = -∑ k, Db i * m k * U i k := by
      rw [← Finset.sum_neg_distrib]
      simp only [Finset.mul_sum]
      rw [Finset.sum_comm]
      refine Finset.sum_congr rfl fun k _ => ?_
      rw [hDb, neg_mul, neg_mul, neg_neg, Finset.sum_mul, Finset.sum_mul]
      exact Finset.sum_congr rfl fun j _ => by ring
    have r2 : ∑ j, P i j * ∑ k, U i k * ((Edf + A) * S) j k = ∑ k, (∑ j, P i j * ((Edf + A) * S) j k) * U i k := by
      simp only [Finset.mul_sum, Finset.sum_mul]
      rw [Finset.sum_comm]
      exact Finset.sum_congr rfl fun k _ => Finset.sum_congr rfl fun j _ => by ring
    have r3 : ∑ j, P i j * (v i * e0 j) = -(Db i * v i) := by
      rw [hDb, neg_mul, neg_neg, Finset.sum_mul]
      exact Finset.sum_congr rfl fun j _ => by ring
    rw [r1, r2, r3]
    ring

end VGPA
