import Verif.Props.LikeN
import Mathlib.InformationTheory.KullbackLeibler.Basic

/-!
# C55-C57: the prior term

In one dimension the specification is Mathlib's Kullback-Leibler divergence of the two normal laws; in several
dimensions, where Mathlib has no density, it is the expectation of the difference of the log-densities.
-/

namespace VGPA

open ProbabilityTheory MeasureTheory Matrix WithLp Filter Topology InformationTheory

namespace Spec

/-- The Kullback-Leibler divergence `KL(N(m, s) ‖ N(μ, τ))` on the real line. -/
noncomputable def kl1 (m s μ τ : ℝ) : ℝ := (klDiv (gaussianReal m s.toNNReal) (gaussianReal μ τ.toNNReal)).toReal

/-- The Kullback-Leibler divergence `KL(N(m, s) ‖ N(μ, τ))` in `d` dimensions. -/
noncomputable def klN {d : ℕ} (m : Fin d → ℝ) (s : Matrix (Fin d) (Fin d) ℝ) (μ : Fin d → ℝ)
    (τ : Matrix (Fin d) (Fin d) ℝ) : ℝ := mvE m s fun x => mvLogPdf m s x - mvLogPdf μ τ x

end Spec

variable {d : ℕ}

/-! ## One dimension -/

theorem kl1_eq (m s μ τ : ℝ) (hs : 0 < s) (hτ : 0 < τ) :
    Spec.kl1 m s μ τ = 1 / 2 * (Real.log τ - Real.log s + (s + (m - μ) ^ 2) / τ - 1) := by
  have hs' : s.toNNReal ≠ 0 := by simpa using hs
  have hτ' : τ.toNNReal ≠ 0 := by simpa using hτ
  have hac : gaussianReal m s.toNNReal ≪ gaussianReal μ τ.toNNReal :=
    (gaussianReal_absolutelyContinuous m hs').trans (gaussianReal_absolutelyContinuous' μ hτ')
  have hτpos : ∀ x, 0 < gaussianPDFReal μ τ.toNNReal x := fun x => gaussianPDFReal_pos μ _ x hτ'
  have hspos : ∀ x, 0 < gaussianPDFReal m s.toNNReal x := fun x => gaussianPDFReal_pos m _ x hs'
  have hrn : llr (gaussianReal m s.toNNReal) (gaussianReal μ τ.toNNReal) =ᵐ[gaussianReal m s.toNNReal]
      fun x => -Real.log (gaussianPDFReal μ τ.toNNReal x) - -Real.log (gaussianPDFReal m s.toNNReal x) := by
    apply (gaussianReal_absolutelyContinuous m hs').ae_eq
    have h1 : (gaussianReal m s.toNNReal).rnDeriv (gaussianReal μ τ.toNNReal) =ᵐ[volume]
        fun x => (gaussianPDF μ τ.toNNReal x)⁻¹ * (gaussianReal m s.toNNReal).rnDeriv volume x := by
      rw [gaussianReal_of_var_ne_zero μ hτ']
      refine Measure.rnDeriv_withDensity_right _ _ (measurable_gaussianPDF μ _).aemeasurable ?_ ?_
      · exact Eventually.of_forall fun x => (gaussianPDF_pos μ hτ' x).ne'
      · exact Eventually.of_forall fun x => ENNReal.ofReal_ne_top
    filter_upwards [h1, rnDeriv_gaussianReal m s.toNNReal] with x hx1 hx2
    rw [llr, hx1, hx2, ENNReal.toReal_mul, ENNReal.toReal_inv, toReal_gaussianPDF, toReal_gaussianPDF,
      Real.log_mul (inv_ne_zero (hτpos x).ne') (hspos x).ne', Real.log_inv]
    ring
  unfold Spec.kl1
  rw [toReal_klDiv_of_measure_eq hac (by simp), integral_congr_ae hrn]
  -- expected value of a quadratic polynomial
  have h5 : (0.5 : ℝ) = 1 / 2 := by norm_num
  have e : (fun x => -Real.log (gaussianPDFReal μ τ.toNNReal x) - -Real.log (gaussianPDFReal m s.toNNReal x))
      = fun x : ℝ => ∑ i : Fin 3, ![1 / 2 * (Real.log τ - Real.log s) + μ ^ 2 / (2 * τ) - m ^ 2 / (2 * s),
          -μ / τ + m / s, 1 / (2 * τ) - 1 / (2 * s)] i * x ^ (i : ℕ) := by
    funext x
    rw [neg_log_pdf _ _ _ hτ, neg_log_pdf _ _ _ hs, h5]
    simp [Fin.sum_univ_succ]
    field_simp
    ring
  rw [e]
  have h := normalE_poly (k := 3) ![1 / 2 * (Real.log τ - Real.log s) + μ ^ 2 / (2 * τ) - m ^ 2 / (2 * s),
          -μ / τ + m / s, 1 / (2 * τ) - 1 / (2 * s)] m s hs.le
  unfold Spec.normalE at h
  rw [h]
  simp [Fin.sum_univ_succ, momPoly]
  field_simp
  ring

theorem prior1_eq (o : Prior1) (m0 s0 : ℝ) (hs : 0 < s0) (hτ : 0 < o.tau0) :
    o.gauss m0 s0 = Spec.kl1 m0 s0 o.mu0 o.tau0 - 1 / 2 * Real.log s0 := by
  rw [kl1_eq _ _ _ _ hs hτ]
  unfold Prior1.gauss
  norm_num
  field_simp
  ring

/-- C55, the part that holds: the returned number is the Kullback-Leibler divergence if the variance `s0` is one, and in
general differs from it by `log(s0) / 2`. Missing: the other variances, see `C55_violated`. -/
theorem C55_unit_variance_partial (o : Prior1) (m0 s0 : ℝ) (hs : 0 < s0) (hτ : 0 < o.tau0) :
    o.gauss m0 s0 + 1 / 2 * Real.log s0 = Spec.kl1 m0 s0 o.mu0 o.tau0
      ∧ (s0 = 1 → o.gauss m0 s0 = Spec.kl1 m0 s0 o.mu0 o.tau0) := by
  rw [prior1_eq o m0 s0 hs hτ]
  refine ⟨by ring, fun h => by rw [h]; simp⟩

/-- C55 fails for every variance other than one, for every mean and every prior. -/
theorem C55_violated (o : Prior1) (m0 s0 : ℝ) (hs : 0 < s0) (hs1 : s0 ≠ 1) (hτ : 0 < o.tau0) :
    o.gauss m0 s0 ≠ Spec.kl1 m0 s0 o.mu0 o.tau0 := by
  rw [prior1_eq o m0 s0 hs hτ]
  intro h
  have : Real.log s0 = 0 := by linarith
  rcases Real.log_eq_zero.1 this with h | h | h
  · exact hs.ne' h
  · exact hs1 h
  · linarith

/-- C55 fails: with agreeing moments and a variance above one the returned number is negative. -/
theorem C55_negative_violated (m0 s0 : ℝ) (hs : 1 < s0) : (⟨m0, s0⟩ : Prior1).gauss m0 s0 < 0 := by
  rw [prior1_eq _ _ _ (by linarith) (by show 0 < s0; linarith), kl1_eq _ _ _ _ (by linarith) (by show 0 < s0; linarith)]
  have := Real.log_pos hs
  have h : s0 ≠ 0 := by linarith
  simp [h]
  exact this

/-! ## Several dimensions -/

theorem trace_inv_self {s : Matrix (Fin d) (Fin d) ℝ} (hs : s.PosDef) : ∑ i, ∑ j, s⁻¹ i j * s i j = d := by
  have h : s⁻¹ * s = 1 := Matrix.nonsing_inv_mul _ (isUnit_iff_ne_zero.2 hs.det_pos.ne')
  have hsym := posSemidef_symm hs.posSemidef
  have : ∀ i, ∑ j, s⁻¹ i j * s i j = 1 := by
    intro i
    have := congrFun (congrFun h i) i
    rw [Matrix.mul_apply, Matrix.one_apply_eq] at this
    rw [← this]
    exact Finset.sum_congr rfl fun j _ => by rw [hsym i j]
  simp [this]

theorem mvE_sub_form {s : Matrix (Fin d) (Fin d) ℝ} (hs : s.PosSemidef) (m μ : Fin d → ℝ) (P Q : Matrix (Fin d) (Fin d) ℝ)
    (a : ℝ) : Spec.mvE m s (fun x => 1 / 2 * (a + (x - μ) ⬝ᵥ P *ᵥ (x - μ)) - 1 / 2 * ((x - m) ⬝ᵥ Q *ᵥ (x - m)))
      = 1 / 2 * (a + ((∑ i, ∑ j, P i j * s i j) + (m - μ) ⬝ᵥ P *ᵥ (m - μ))) - 1 / 2 * ∑ i, ∑ j, Q i j * s i j := by
  have h1 := mvE_const_add m (fun x => (x - μ) ⬝ᵥ P *ᵥ (x - μ)) (integrable_quadForm hs P μ m) (1 / 2) a
  have h2 := mvE_const_add m (fun x => (x - m) ⬝ᵥ Q *ᵥ (x - m)) (integrable_quadForm hs Q m m) (1 / 2) 0
  rw [mvE_quadForm hs] at h1 h2
  simp only [zero_add] at h2
  unfold Spec.mvE at h1 h2 ⊢
  rw [integral_sub, h1, h2]
  · simp
  · exact ((integrable_const a).add (integrable_quadForm hs P μ m)).const_mul _
  · exact (integrable_quadForm hs Q m m).const_mul _

theorem klN_eq {s τ : Matrix (Fin d) (Fin d) ℝ} (hs : s.PosDef) (m μ : Fin d → ℝ) :
    Spec.klN m s μ τ = 1 / 2 * (Real.log τ.det - Real.log s.det + (∑ i, ∑ j, τ⁻¹ i j * s i j)
      + (m - μ) ⬝ᵥ τ⁻¹ *ᵥ (m - μ) - d) := by
  have h := mvE_sub_form hs.posSemidef m μ τ⁻¹ s⁻¹ (Real.log τ.det - Real.log s.det)
  rw [trace_inv_self hs] at h
  unfold Spec.klN Spec.mvLogPdf
  have e : (fun x => -(1 / 2) * (d * Real.log (2 * Real.pi) + Real.log s.det + (x - m) ⬝ᵥ s⁻¹ *ᵥ (x - m))
      - -(1 / 2) * (d * Real.log (2 * Real.pi) + Real.log τ.det + (x - μ) ⬝ᵥ τ⁻¹ *ᵥ (x - μ)))
      = fun x => 1 / 2 * (Real.log τ.det - Real.log s.det + (x - μ) ⬝ᵥ τ⁻¹ *ᵥ (x - μ))
          - 1 / 2 * ((x - m) ⬝ᵥ s⁻¹ *ᵥ (x - m)) := by
    funext x; ring
  rw [e, h]
  ring

/-- A symmetric product of a positive definite matrix and the inverse of another one is positive definite. -/
theorem posDef_mul_inv {τ s : Matrix (Fin d) (Fin d) ℝ} (hτ : τ.PosDef) (hs : s.PosDef) (h : (τ * s⁻¹).IsSymm) :
    (τ * s⁻¹).PosDef := by
  have hH : (τ * s⁻¹).IsHermitian := h
  rw [hH.posDef_iff_eigenvalues_pos]
  intro i
  set v : Fin d → ℝ := ofLp (hH.eigenvectorBasis i) with hv
  have hev : (τ * s⁻¹) *ᵥ v = hH.eigenvalues i • v := hH.mulVec_eigenvectorBasis i
  have hvne : v ≠ 0 := by
    intro h0
    have := hH.eigenvectorBasis.orthonormal.ne_zero i
    apply this
    ext j
    exact congrFun h0 j
  have hu : IsUnit s.det := isUnit_iff_ne_zero.2 hs.det_pos.ne'
  set w := s⁻¹ *ᵥ v with hw
  have hsw : s *ᵥ w = v := by rw [hw, Matrix.mulVec_mulVec, Matrix.mul_nonsing_inv _ hu, Matrix.one_mulVec]
  have hwne : w ≠ 0 := by
    intro h0
    rw [h0, Matrix.mulVec_zero] at hsw
    exact hvne hsw.symm
  have h1 : 0 < w ⬝ᵥ τ *ᵥ w := by
    have := hτ.dotProduct_mulVec_pos hwne
    simpa using this
  have h2 : 0 < w ⬝ᵥ s *ᵥ w := by
    have := hs.dotProduct_mulVec_pos hwne
    simpa using this
  have h3 : w ⬝ᵥ τ *ᵥ w = hH.eigenvalues i * (w ⬝ᵥ s *ᵥ w) := by
    rw [hsw, hw, Matrix.mulVec_mulVec, hev, ← hw, dotProduct_smul, smul_eq_mul]
  by_contra hneg
  have := mul_nonpos_of_nonpos_of_nonneg (not_lt.1 hneg) h2.le
  linarith

theorem sum_diag_mul (P M : Matrix (Fin d) (Fin d) ℝ) (hM : ∀ i j, M i j = M j i) :
    ∑ i, (P * M).diag i = ∑ i, ∑ j, P i j * M i j := by
  refine Finset.sum_congr rfl fun i _ => ?_
  rw [Matrix.diag_apply, Matrix.mul_apply]
  exact Finset.sum_congr rfl fun j _ => by rw [hM i j]

/-- What `gauss_nd` returns when the product `tau0 · s0⁻¹` is symmetric. -/
theorem priorN_eq (o : PriorN d) (m0 : Fin d → ℝ) (s0 : Matrix (Fin d) (Fin d) ℝ) (hs : s0.PosDef) (hτ : o.tau0.PosDef)
    (hc : (o.tau0 * s0⁻¹).IsSymm) : o.gauss m0 s0 = .ok (1 / 2 * (Real.log o.tau0.det - Real.log s0.det
      + (∑ i, ∑ j, o.tau0⁻¹ i j * s0 i j) + ((m0 - o.mu0) ⬝ᵥ (m0 - o.mu0)) * (∑ i, ∑ j, o.tau0⁻¹ i j) - d)) := by
  obtain ⟨P, C, h1, h2, _⟩ := C10_inverse o.tau0 hτ
  obtain ⟨Q, C', h3, h4, _⟩ := C10_inverse s0 hs
  have hP : o.tau0⁻¹ = P := Matrix.inv_eq_left_inv h2
  have hQ : s0⁻¹ = Q := Matrix.inv_eq_left_inv h4
  have hpd := posDef_mul_inv hτ hs hc
  unfold PriorN.gauss
  simp only [h1, h3, py_ok_bind, ← hQ, C09_matrix _ hpd]
  show Except.ok _ = Except.ok _
  congr 1
  have hsub := sum_diag_mul P ((Matrix.of fun _ _ => (m0 - o.mu0) ⬝ᵥ (m0 - o.mu0)) + s0 - o.tau0) (fun i j => by
    simp [posSemidef_symm hs.posSemidef i j, posSemidef_symm hτ.posSemidef i j])
  have htr := trace_inv_self hτ
  rw [hP] at htr ⊢
  rw [hsub, Matrix.det_mul, Matrix.det_nonsing_inv, Ring.inverse_eq_inv', Real.log_mul hτ.det_pos.ne'
    (inv_ne_zero hs.det_pos.ne'), Real.log_inv]
  have : ∑ i, ∑ j, P i j * (((Matrix.of fun _ _ => (m0 - o.mu0) ⬝ᵥ (m0 - o.mu0)) + s0 - o.tau0 : Matrix _ _ ℝ) i j)
      = ((m0 - o.mu0) ⬝ᵥ (m0 - o.mu0)) * (∑ i, ∑ j, P i j) + (∑ i, ∑ j, P i j * s0 i j) - d := by
    rw [← htr]
    simp only [Finset.mul_sum, ← Finset.sum_add_distrib, ← Finset.sum_sub_distrib]
    refine Finset.sum_congr rfl fun i _ => Finset.sum_congr rfl fun j _ => ?_
    simp only [Matrix.sub_apply, Matrix.add_apply, Matrix.of_apply]
    ring
  rw [this]
  norm_num
  ring

/-- C56, the part that holds: if the means agree and the product `tau0 · s0⁻¹` is symmetric (the two covariances commute)
the returned number is the Kullback-Leibler divergence. Missing: different means, see `C56_mean_violated`, and covariances
that do not commute, see `C56_covariance_violated`. -/
theorem C56_equal_means_partial (o : PriorN d) (s0 : Matrix (Fin d) (Fin d) ℝ) (hs : s0.PosDef) (hτ : o.tau0.PosDef)
    (hc : o.tau0 * s0 = s0 * o.tau0) : o.gauss o.mu0 s0 = .ok (Spec.klN o.mu0 s0 o.mu0 o.tau0) := by
  have hu : IsUnit s0.det := isUnit_iff_ne_zero.2 hs.det_pos.ne'
  have hsym : (o.tau0 * s0⁻¹).IsSymm := by
    have h1 : s0ᵀ = s0 := by ext i j; exact posSemidef_symm hs.posSemidef j i
    have h2 : o.tau0ᵀ = o.tau0 := by ext i j; exact posSemidef_symm hτ.posSemidef j i
    rw [Matrix.IsSymm, Matrix.transpose_mul, Matrix.transpose_nonsing_inv, h1, h2]
    calc s0⁻¹ * o.tau0 = s0⁻¹ * (o.tau0 * s0) * s0⁻¹ := by
          rw [Matrix.mul_assoc, Matrix.mul_assoc, Matrix.mul_nonsing_inv _ hu, Matrix.mul_one]
      _ = o.tau0 * s0⁻¹ := by rw [hc, ← Matrix.mul_assoc, Matrix.nonsing_inv_mul _ hu, Matrix.one_mul]
  rw [priorN_eq o o.mu0 s0 hs hτ hsym, klN_eq hs]
  simp

/-- C56, the part that holds in one dimension: with vectors and matrices of size one the returned number is the
Kullback-Leibler divergence for all means and variances. -/
theorem C56_one_component_partial (o : PriorN 1) (m0 : Fin 1 → ℝ) (s0 : Matrix (Fin 1) (Fin 1) ℝ) (hs : s0.PosDef)
    (hτ : o.tau0.PosDef) : o.gauss m0 s0 = .ok (Spec.klN m0 s0 o.mu0 o.tau0) := by
  rw [priorN_eq o m0 s0 hs hτ (by ext i j; rw [Subsingleton.elim i j]; rfl), klN_eq hs]
  simp [dotProduct, Matrix.mulVec]
  ring

/-- C56 fails when the means differ: two dimensions, unit covariances, means `(1, 0)` and `0`. The returned number is
twice the divergence. -/
theorem C56_mean_violated : (⟨0, 1⟩ : PriorN 2).gauss ![1, 0] 1 = .ok 1 ∧ Spec.klN ![1, 0] 1 0 1 = 1 / 2 := by
  have h1 : (1 : Matrix (Fin 2) (Fin 2) ℝ).PosDef := Matrix.PosDef.one
  constructor
  · rw [priorN_eq _ _ _ h1 h1 (by simp [Matrix.isSymm_one])]
    simp [Matrix.one_apply, dotProduct, Fin.sum_univ_succ]
  · rw [klN_eq h1]
    simp [Matrix.one_apply, dotProduct, Fin.sum_univ_succ]

/-- C56 fails for covariances that do not commute: here the call raises `LinAlgError` although both matrices are
positive definite, so that the divergence exists. -/
theorem C56_covariance_violated : ∃ (τ s : Matrix (Fin 2) (Fin 2) ℝ), τ.PosDef ∧ s.PosDef
    ∧ (⟨0, τ⟩ : PriorN 2).gauss 0 s = .error .linAlgError := by
  have hτ : (Matrix.diagonal ![1, 4] : Matrix (Fin 2) (Fin 2) ℝ).PosDef :=
    Matrix.PosDef.diagonal fun i => by fin_cases i <;> simp
  have hw := posDef_witness
  have hs := hw.inv
  refine ⟨_, _, hτ, hs, ?_⟩
  obtain ⟨P, C, h1, h2, _⟩ := C10_inverse _ hτ
  obtain ⟨Q, C', h3, h4, _⟩ := C10_inverse _ hs
  have hQ : Q = !![2, 1; 1, 2] := by
    rw [← Matrix.inv_eq_left_inv h4, Matrix.nonsing_inv_nonsing_inv _ (isUnit_iff_ne_zero.2 hw.det_pos.ne')]
  have hM : (Matrix.diagonal ![1, 4] : Matrix (Fin 2) (Fin 2) ℝ) * Q = !![2, 1; 4, 8] := by
    rw [hQ]
    ext i j
    fin_cases i <;> fin_cases j <;> simp <;> norm_num
  have hl : logDet (.mat 2 2 (!![2, 1; 4, 8] : Matrix (Fin 2) (Fin 2) ℝ)) = .error .linAlgError := by
    have hsub : (!![2, 1; 4, 8] : Matrix (Fin 2) (Fin 2) ℝ).submatrix id (Fin.cast (rfl : 2 = 2)) = !![2, 1; 4, 8] := rfl
    have := npCholesky_err (!![2, 1; 4, 8] : Matrix (Fin 2) (Fin 2) ℝ) (by
      intro h
      have := (h.dotProduct_mulVec_pos (x := ![2, -1]) (by intro h; have := congrFun h 1; simp at this))
      simp [symLower, Matrix.mulVec, dotProduct, Fin.sum_univ_succ] at this
      norm_num at this)
    simp only [logDet, ne_eq, not_true, dite_false]
    rw [hsub, this]
    rfl
  unfold PriorN.gauss
  simp only [h1, h3, py_ok_bind, hM, hl]
  rfl

/-! ## C57 -/

/-- C57 in one dimension: the returned pair is the multipliers plus the partial derivatives of the Kullback-Leibler
divergence with respect to the mean and the variance. -/
theorem C57_one_dim (o : Prior1) (m0 s0 lam0 psi0 : ℝ) (hs : 0 < s0) (hτ : 0 < o.tau0) : ∃ gm gs : ℝ,
    o.gradients m0 s0 lam0 psi0 = (lam0 + gm, psi0 + gs)
      ∧ HasDerivAt (fun m => Spec.kl1 m s0 o.mu0 o.tau0) gm m0
      ∧ HasDerivAt (fun s => Spec.kl1 m0 s o.mu0 o.tau0) gs s0 := by
  refine ⟨_, _, rfl, ?_, ?_⟩
  · have h := ((((((hasDerivAt_id' m0).sub_const o.mu0).fun_pow 2).const_add s0).div_const o.tau0).const_add
      (Real.log o.tau0 - Real.log s0)).sub_const 1 |>.const_mul (1 / 2)
    refine (h.congr_of_eventuallyEq (Eventually.of_forall fun m => kl1_eq m s0 _ _ hs hτ)).congr_deriv ?_
    simp
    ring
  · have h := ((((Real.hasDerivAt_log hs.ne').const_sub (Real.log o.tau0)).add
      (((hasDerivAt_id' s0).add_const ((m0 - o.mu0) ^ 2)).div_const o.tau0)).sub_const 1).const_mul (1 / 2)
    have hev : (fun s => Spec.kl1 m0 s o.mu0 o.tau0) =ᶠ[𝓝 s0]
        fun s => 1 / 2 * (Real.log o.tau0 - Real.log s + (s + (m0 - o.mu0) ^ 2) / o.tau0 - 1) := by
      filter_upwards [lt_mem_nhds hs] with s hs'
      exact kl1_eq m0 s _ _ hs' hτ
    refine (h.congr_of_eventuallyEq hev).congr_deriv ?_
    norm_num
    ring

/-- C57 in `d` dimensions: the results are the multipliers plus the gradients of the divergence with respect to the mean
and, along symmetric directions, the covariance. -/
theorem C57_several_dims (o : PriorN d) (m0 lam0 : Fin d → ℝ) (s0 psi0 : Matrix (Fin d) (Fin d) ℝ) (hs : s0.PosDef)
    (hτ : o.tau0.PosDef) : ∃ (gm : Fin d → ℝ) (gs : Matrix (Fin d) (Fin d) ℝ),
    o.gradients m0 s0 lam0 psi0 = .ok (lam0 + gm, psi0 + gs)
      ∧ (∀ h : Fin d → ℝ, HasDerivAt (fun ε : ℝ => Spec.klN (m0 + ε • h) s0 o.mu0 o.tau0) (gm ⬝ᵥ h) 0)
      ∧ ∀ D : Matrix (Fin d) (Fin d) ℝ, D.IsSymm →
          HasDerivAt (fun ε : ℝ => Spec.klN m0 (s0 + ε • D) o.mu0 o.tau0) (∑ i, ∑ j, gs i j * D i j) 0 := by
  obtain ⟨P, C, h1, h2, _⟩ := C10_inverse o.tau0 hτ
  obtain ⟨Q, C', h3, h4, _⟩ := C10_inverse s0 hs
  have hP : o.tau0⁻¹ = P := Matrix.inv_eq_left_inv h2
  have hQ : s0⁻¹ = Q := Matrix.inv_eq_left_inv h4
  have hPs : ∀ i j, P i j = P j i := by rw [← hP]; exact posSemidef_symm hτ.inv.posSemidef
  have hQs : ∀ i j, Q i j = Q j i := by rw [← hQ]; exact posSemidef_symm hs.inv.posSemidef
  refine ⟨P *ᵥ (m0 - o.mu0), (0.5 : ℝ) • (P - Q), ?_, fun h => ?_, fun D hD => ?_⟩
  · unfold PriorN.gradients
    simp only [h1, h3, py_ok_bind, npSolve, if_neg hτ.det_pos.ne', hP]
    rfl
  · have hm : ∀ p, HasDerivAt (fun ε : ℝ => m0 p + ε * h p - o.mu0 p) (h p) 0 := fun p => by
      simpa using (((hasDerivAt_id' (0 : ℝ)).mul_const (h p)).const_add (m0 p)).sub_const (o.mu0 p)
    have hq := (((HasDerivAt.fun_sum (u := Finset.univ) fun p _ => HasDerivAt.fun_sum (u := Finset.univ) fun q _ =>
      (hm p).mul ((hm q).const_mul (P p q))).const_add (Real.log o.tau0.det - Real.log s0.det
        + ∑ i, ∑ j, P i j * s0 i j)).sub_const (d : ℝ)).const_mul (1 / 2)
    refine (hq.congr_of_eventuallyEq (Eventually.of_forall fun ε => ?_)).congr_deriv ?_
    · dsimp only
      rw [klN_eq hs, hP]
      simp only [dotProduct, Matrix.mulVec, Finset.mul_sum]
      rfl
    · simp only [zero_mul, add_zero, Finset.sum_add_distrib, dotProduct, Matrix.mulVec, Pi.sub_apply]
      have e1 : ∑ p, ∑ q, (m0 p - o.mu0 p) * (P p q * h q) = ∑ p, ∑ q, h p * (P p q * (m0 q - o.mu0 q)) := by
        rw [Finset.sum_comm]
        refine Finset.sum_congr rfl fun p _ => Finset.sum_congr rfl fun q _ => ?_
        rw [hPs q p]; ring
      have e2 : ∑ p, (∑ q, P p q * (m0 q - o.mu0 q)) * h p = ∑ p, ∑ q, h p * (P p q * (m0 q - o.mu0 q)) := by
        refine Finset.sum_congr rfl fun p _ => ?_
        rw [Finset.sum_mul]
        exact Finset.sum_congr rfl fun q _ => by ring
      rw [e1, e2]
      ring
  · have hS : ∀ p q, HasDerivAt (fun ε : ℝ => s0 p q + ε * D p q) (D p q) 0 := fun p q => by
      simpa using ((hasDerivAt_id' (0 : ℝ)).mul_const (D p q)).const_add (s0 p q)
    have hq := ((((((logdet_hasDerivAt D hs.det_pos.ne').const_sub (Real.log o.tau0.det)).add
      (HasDerivAt.fun_sum (u := Finset.univ) fun p _ => HasDerivAt.fun_sum (u := Finset.univ) fun q _ =>
      (hS p q).const_mul (P p q))).add_const ((m0 - o.mu0) ⬝ᵥ P *ᵥ (m0 - o.mu0))).sub_const (d : ℝ))).const_mul (1 / 2)
    have hev : (fun ε : ℝ => Spec.klN m0 (s0 + ε • D) o.mu0 o.tau0) =ᶠ[𝓝 0] fun ε =>
        1 / 2 * ((Real.log o.tau0.det - Real.log (s0 + ε • D).det) + (∑ i, ∑ j, P i j * (s0 i j + ε * D i j))
          + (m0 - o.mu0) ⬝ᵥ P *ᵥ (m0 - o.mu0) - d) := by
      filter_upwards [posDef_eventually hs hD] with ε hε
      rw [klN_eq hε, hP]
      rfl
    refine (hq.congr_of_eventuallyEq hev).congr_deriv ?_
    have e1 : (s0⁻¹ * D).trace = ∑ p, ∑ q, Q p q * D p q := by
      rw [hQ, Matrix.trace]
      exact sum_diag_mul Q D (fun i j => hD.apply j i)
    rw [e1]
    have e3 : ∑ i, ∑ j, ((0.5 : ℝ) • (P - Q)) i j * D i j
        = 0.5 * (∑ i, ∑ j, P i j * D i j) - 0.5 * ∑ i, ∑ j, Q i j * D i j := by
      simp only [Finset.mul_sum, ← Finset.sum_sub_distrib]
      refine Finset.sum_congr rfl fun i _ => Finset.sum_congr rfl fun j _ => ?_
      simp only [Matrix.smul_apply, Matrix.sub_apply, smul_eq_mul]
      ring
    rw [e3]
    norm_num
    ring

/-! ## Non-vacuity -/

/-- Different positive definite covariances that commute. -/
example : (!![2, 1; 1, 2] : Matrix (Fin 2) (Fin 2) ℝ).PosDef ∧ (1 : Matrix (Fin 2) (Fin 2) ℝ).PosDef
    ∧ (!![2, 1; 1, 2] : Matrix (Fin 2) (Fin 2) ℝ) * 1 = 1 * !![2, 1; 1, 2] :=
  ⟨posDef_witness, Matrix.PosDef.one, by simp⟩

end VGPA
