import Mathlib.Probability.HasLaw
import Mathlib.Probability.Independence.InfinitePi
import Mathlib.Probability.Distributions.Gaussian.Multivariate
import Mathlib.MeasureTheory.Group.Convolution

/-!
# Independent normal numbers
-/

namespace VGPA

noncomputable section

open ProbabilityTheory MeasureTheory Matrix WithLp

variable {Ω : Type*} [MeasurableSpace Ω] {P : Measure Ω}

/-- Blocks of different members of an independent family are independent. -/
theorem indep_blocks {α ι : Type*} [Countable ι] {κ : ι → Type*} [∀ i, Countable (κ i)] {X : α → Ω → ℝ} (h : iIndepFun X P)
    (hm : ∀ a, AEMeasurable (X a) P) (idx : (Σ i, κ i) → α) (hi : Function.Injective idx) :
    iIndepFun (fun i ω (j : κ i) => X (idx ⟨i, j⟩) ω) P := by
  have := h.isProbabilityMeasure
  have hp := h.precomp hi
  have h1 := hp.map_fun_eq_infinitePi_map₀' fun p => hm (idx p)
  have hprob : ∀ (i : ι) (j : κ i), IsProbabilityMeasure (P.map (X (idx ⟨i, j⟩))) := fun i j =>
    Measure.isProbabilityMeasure_map (hm _)
  have hae : ∀ i, AEMeasurable (fun ω (j : κ i) => X (idx ⟨i, j⟩) ω) P := fun i => aemeasurable_pi_iff.2 fun j => hm _
  rw [iIndepFun_iff_map_fun_eq_infinitePi_map₀' hae]
  have h2 : ∀ i, P.map (fun ω (j : κ i) => X (idx ⟨i, j⟩) ω) = Measure.infinitePi fun j => P.map (X (idx ⟨i, j⟩)) := fun i =>
    (hp.precomp (g := fun j : κ i => (⟨i, j⟩ : Σ i, κ i)) (fun a b hab => by simpa using hab)).map_fun_eq_infinitePi_map₀'
      fun j => hm _
  simp_rw [h2]
  rw [← Measure.infinitePi_map_piCurry (X := fun _ _ => ℝ) (fun i j => P.map (X (idx ⟨i, j⟩))), ← h1,
    AEMeasurable.map_map_of_aemeasurable (by fun_prop) (aemeasurable_pi_iff.2 fun p => hm (idx p))]
  rfl

/-- A linear image of independent standard normal numbers. -/
theorem law_linear {ι : Type*} [Fintype ι] [DecidableEq ι] {W : ι → Ω → ℝ} (h : iIndepFun W P)
    (hl : ∀ i, HasLaw (W i) (gaussianReal 0 1) P) (B : Matrix ι ι ℝ) :
    HasLaw (fun ω => toLp 2 (B *ᵥ fun i => W i ω)) (multivariateGaussian 0 (B * Bᵀ)) P := by
  have h1 : HasLaw (fun ω i => W i ω) (Measure.pi fun _ => gaussianReal 0 1) P := h.hasLaw_pi hl
  have h2 : HasLaw (fun w : ι → ℝ => toLp 2 w) (stdGaussian (EuclideanSpace ℝ ι)) (Measure.pi fun _ => gaussianReal 0 1) :=
    ⟨by fun_prop, map_pi_eq_stdGaussian⟩
  have hps : (B * Bᵀ).PosSemidef := by
    have := Matrix.posSemidef_self_mul_conjTranspose B
    simpa using this
  have h3 : HasLaw (fun v : EuclideanSpace ℝ ι => toEuclideanCLM (𝕜 := ℝ) B v) (multivariateGaussian 0 (B * Bᵀ))
      (stdGaussian (EuclideanSpace ℝ ι)) := by
    refine ⟨by fun_prop, ?_⟩
    apply IsGaussian.ext
    · simp only [id_eq]
      rw [ContinuousLinearMap.integral_id_map IsGaussian.integrable_id]
      simp
    · ext u v
      rw [covarianceBilin_map IsGaussian.memLp_two_id, covarianceBilin_stdGaussian, covarianceBilin_multivariateGaussian hps]
      rw [← ContinuousLinearMap.star_eq_adjoint, ← map_star, innerSL_apply_apply, Matrix.star_eq_conjTranspose, conjTranspose_eq_transpose_of_trivial]
      have e : ∀ (C : Matrix ι ι ℝ) (x : EuclideanSpace ℝ ι), (toEuclideanCLM (𝕜 := ℝ) C x).ofLp = C *ᵥ x.ofLp := fun C x => rfl
      rw [EuclideanSpace.inner_eq_star_dotProduct, e, e, star_trivial, ← Matrix.mulVec_mulVec, dotProduct_mulVec, vecMul_transpose,
        dotProduct_comm, dotProduct_mulVec, ← mulVec_transpose, dotProduct_comm, mulVec_transpose]
  exact h3.comp (h2.comp h1)

theorem multivariateGaussian_inj {ι : Type*} [Fintype ι] [DecidableEq ι] {S T : Matrix ι ι ℝ} (hS : S.PosSemidef) (hT : T.PosSemidef)
    (h : multivariateGaussian 0 S = multivariateGaussian 0 T) : S = T := by
  ext i j
  rw [← covariance_eval_multivariateGaussian (μ := 0) hS i j, h, covariance_eval_multivariateGaussian hT]

/-- A multiple of a standard normal number. -/
theorem law_scale {W : Ω → ℝ} (h : HasLaw W (gaussianReal 0 1) P) (a v : ℝ) (hv : a ^ 2 = v) :
    HasLaw (fun ω => a * W ω) (gaussianReal 0 v.toNNReal) P := by
  refine HasLaw.fun_comp (Y := fun w => a * w) ⟨by fun_prop, ?_⟩ h
  rw [gaussianReal_map_const_mul]
  congr 1
  · simp
  · subst hv
    ext
    simp [Real.coe_toNNReal _ (sq_nonneg a)]

/-- A fair sign, plus an independent normal number. -/
theorem law_two_wells {u W : Ω → ℝ} (hu : HasLaw u (volume.restrict (Set.Ico 0 1)) P) {v : NNReal} (hW : HasLaw W (gaussianReal 0 v) P)
    (hi : IndepFun u W P) (a : ℝ) :
    HasLaw (fun ω => (if 1 / 2 < u ω then a else -a) + W ω) ((2 : ENNReal)⁻¹ • gaussianReal a v + (2 : ENNReal)⁻¹ • gaussianReal (-a) v) P := by
  have hmeas : Measurable fun t : ℝ => if 1 / 2 < t then a else -a := Measurable.ite measurableSet_Ioi measurable_const measurable_const
  have hs : HasLaw (fun ω => if 1 / 2 < u ω then a else -a) ((2 : ENNReal)⁻¹ • Measure.dirac a + (2 : ENNReal)⁻¹ • Measure.dirac (-a)) P := by
    refine HasLaw.fun_comp (Y := fun t : ℝ => if 1 / 2 < t then a else -a) ⟨hmeas.aemeasurable, ?_⟩ hu
    have hcut : Set.Ico (0 : ℝ) 1 = Set.Ioo (1 / 2) 1 ∪ Set.Icc 0 (1 / 2) := by
      ext t
      simp only [Set.mem_Ico, Set.mem_union, Set.mem_Ioo, Set.mem_Icc]
      constructor
      · rintro ⟨h1, h2⟩
        rcases lt_or_ge (1 / 2) t with h | h
        · exact .inl ⟨h, h2⟩
        · exact .inr ⟨h1, h⟩
      · rintro (⟨h1, h2⟩ | ⟨h1, h2⟩)
        · exact ⟨by linarith, h2⟩
        · exact ⟨h1, by linarith⟩
    have hdis : Disjoint (Set.Ioo (1 / 2 : ℝ) 1) (Set.Icc 0 (1 / 2)) := by
      rw [Set.disjoint_left]
      rintro t ⟨h1, -⟩ ⟨-, h2⟩
      linarith
    have hhalf : ENNReal.ofReal (1 / 2) = 2⁻¹ := by
      rw [one_div, ENNReal.ofReal_inv_of_pos (by norm_num)]
      norm_num
    rw [hcut, Measure.restrict_union hdis measurableSet_Icc, Measure.map_add _ _ hmeas]
    congr 1
    · rw [Measure.map_congr (g := fun _ => a), Measure.map_const, Measure.restrict_apply_univ, Real.volume_Ioo]
      · norm_num [hhalf]
      · filter_upwards [ae_restrict_mem measurableSet_Ioo] with t ht
        rw [if_pos ht.1]
    · rw [Measure.map_congr (g := fun _ => -a), Measure.map_const, Measure.restrict_apply_univ, Real.volume_Icc]
      · norm_num [hhalf]
      · filter_upwards [ae_restrict_mem measurableSet_Icc] with t ht
        rw [if_neg (not_lt.2 ht.2)]
  have hprob := hW.isProbabilityMeasure
  have hfin : IsProbabilityMeasure ((2 : ENNReal)⁻¹ • Measure.dirac a + (2 : ENNReal)⁻¹ • Measure.dirac (-a)) := by
    rw [← hs.map_eq]
    exact Measure.isProbabilityMeasure_map hs.aemeasurable
  have := IndepFun.hasLaw_fun_add hs hW (hi.comp hmeas measurable_id)
  rw [Measure.add_conv, Measure.conv_smul_left, Measure.conv_smul_left, Measure.dirac_conv, Measure.dirac_conv] at this
  simp only [gaussianReal_map_const_add, zero_add] at this
  exact this

end

end VGPA
