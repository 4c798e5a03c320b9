import Verif.Props.EnergyLimit
import Verif.Props.Prior

/-!
# C110: the free energy bounds the negative logarithm of the evidence
-/

namespace VGPA

open Set MeasureTheory ProbabilityTheory

noncomputable section

namespace Spec

/-- The variance after time `h` of the Ornstein-Uhlenbeck process `dx = -θ x dt + √sigma dW` started at a fixed point. -/
def transVar (theta sigma h : ℝ) : ℝ := ∫ r in (0 : ℝ)..h, sigma * Real.exp (-(2 * theta * r))

/-- The density of the observations `(time, value)` of the list, made with normal noise of variance `R`, given that the Ornstein-Uhlenbeck process is at `x` at
time `t`: the state at time `s ≥ t` is normal with mean `exp(-θ (s - t)) x` and variance `transVar θ sigma (s - t)`. -/
def pathLikelihood (theta sigma R : ℝ) : List (ℝ × ℝ) → ℝ → ℝ → ℝ
  | [], _, _ => 1
  | (s, y) :: rest, t, x => normalE (Real.exp (-(theta * (s - t))) * x) (transVar theta sigma (s - t)) fun z =>
      gaussianPDFReal z R.toNNReal y * pathLikelihood theta sigma R rest s z

/-- The evidence: the density of the observations `y j` at the times `τ j` when the process starts from the prior. -/
def evidence {k : ℕ} (theta sigma R : ℝ) (pr : Prior1) (y τ : Fin k → ℝ) : ℝ :=
  normalE pr.mu0 pr.tau0 (pathLikelihood theta sigma R (List.ofFn fun j => (τ j, y j)) 0)

end Spec

/-- A quadratic. -/
def quadr (P q c x : ℝ) : ℝ := P * x ^ 2 / 2 + q * x + c

/-- The expectation of the exponential of a quadratic under a normal law. -/
theorem normalE_exp_quadr (P q c μ v : ℝ) (hP : 0 ≤ P) (hv : 0 ≤ v) :
    Spec.normalE μ v (fun x => Real.exp (-quadr P q c x))
      = Real.exp (-((P * μ ^ 2 / 2 + q * μ - v * q ^ 2 / 2) / (1 + P * v) + c + Real.log (1 + P * v) / 2)) := by
  unfold Spec.normalE
  rcases hv.eq_or_lt with rfl | hv
  · simp [quadr]
  have hD : 0 < 1 + P * v := by positivity
  have hv' : v.toNNReal ≠ 0 := by simpa using hv
  have hw : 0 < v / (1 + P * v) := by positivity
  have hw' : (v / (1 + P * v)).toNNReal ≠ 0 := by simpa using hw
  rw [integral_gaussianReal_eq_integral_smul hv']
  have key : ∀ x, gaussianPDFReal μ v.toNNReal x • Real.exp (-quadr P q c x)
      = Real.exp (-((P * μ ^ 2 / 2 + q * μ - v * q ^ 2 / 2) / (1 + P * v) + c + Real.log (1 + P * v) / 2))
        * gaussianPDFReal ((μ - q * v) / (1 + P * v)) (v / (1 + P * v)).toNNReal x := fun x => by
    have hpi := Real.pi_pos
    have hs : (√(2 * Real.pi * (v / (1 + P * v))))⁻¹ = Real.exp (Real.log (1 + P * v) / 2) * (√(2 * Real.pi * v))⁻¹ := by
      rw [show Real.log (1 + P * v) / 2 = Real.log (√(1 + P * v)) from (Real.log_sqrt hD.le).symm, Real.exp_log (Real.sqrt_pos.2 hD), ← mul_div_assoc,
        Real.sqrt_div (by positivity), inv_div]
      rfl
    simp only [gaussianPDFReal, Real.coe_toNNReal _ hv.le, Real.coe_toNNReal _ hw.le, smul_eq_mul, hs]
    have e : Real.exp (-(x - μ) ^ 2 / (2 * v)) * Real.exp (-quadr P q c x)
        = Real.exp (-((P * μ ^ 2 / 2 + q * μ - v * q ^ 2 / 2) / (1 + P * v) + c + Real.log (1 + P * v) / 2)) * Real.exp (Real.log (1 + P * v) / 2)
          * Real.exp (-(x - (μ - q * v) / (1 + P * v)) ^ 2 / (2 * (v / (1 + P * v)))) := by
      rw [← Real.exp_add, ← Real.exp_add, ← Real.exp_add]
      congr 1
      unfold quadr
      field_simp
      ring
    linear_combination (√(2 * Real.pi * v))⁻¹ * e
  simp only [key]
  rw [integral_const_mul, integral_gaussianPDFReal_eq_one _ hw', mul_one]

theorem transVar_hasDerivAt (theta sigma h : ℝ) : HasDerivAt (Spec.transVar theta sigma) (sigma * Real.exp (-(2 * theta * h))) h := by
  unfold Spec.transVar
  have hc : Continuous fun r : ℝ => sigma * Real.exp (-(2 * theta * r)) := by fun_prop
  exact intervalIntegral.integral_hasDerivAt_right (hc.intervalIntegrable _ _) (hc.stronglyMeasurableAtFilter _ _) hc.continuousAt

theorem transVar_nonneg (theta : ℝ) {sigma h : ℝ} (hs : 0 ≤ sigma) (hh : 0 ≤ h) : 0 ≤ Spec.transVar theta sigma h :=
  intervalIntegral.integral_nonneg hh fun r _ => by positivity

/-- Between two observations: the expected value of the quadratic at the earlier time, pulled back through the transition law, is at most its expected value at
the later time plus the integral of the density of the energy. -/
theorem segment_bound {T sigma : ℝ} (hσ : 0 < sigma) (theta : ℝ) {a b m S : ℝ → ℝ} (hc : Spec.Curve T sigma a b m S) {t s : ℝ} (ht : 0 ≤ t) (hts : t ≤ s) (hs : s ≤ T)
    {P q c : ℝ} (hP : 0 ≤ P) {v e : ℝ} (hv : v = Spec.transVar theta sigma (s - t)) (he : e = Real.exp (-(theta * (s - t)))) :
    P * e ^ 2 / (1 + P * v) * (m t ^ 2 + S t) / 2 + q * e / (1 + P * v) * m t + (c - v * q ^ 2 / (2 * (1 + P * v)) + Real.log (1 + P * v) / 2)
      ≤ P * (m s ^ 2 + S s) / 2 + q * m s + c + ∫ r in t..s, Spec.sdeDensity (Spec.ouDrift theta) sigma (a r) (b r) (m r) (S r) := by
  obtain ⟨w, hw⟩ : ∃ w : ℝ → ℝ, w = fun r => Spec.transVar theta sigma (s - r) := ⟨_, rfl⟩
  obtain ⟨ee, hee⟩ : ∃ ee : ℝ → ℝ, ee = fun r => Real.exp (-(theta * (s - r))) := ⟨_, rfl⟩
  have dw : ∀ r, HasDerivAt w (-(sigma * ee r ^ 2)) r := fun r => by
    rw [hw, hee]
    have h := (transVar_hasDerivAt theta sigma (s - r)).comp r ((hasDerivAt_id r).const_sub s)
    refine h.congr_deriv ?_
    simp only [← Real.exp_nat_mul]
    rw [show -(2 * theta * (s - r)) = ((2 : ℕ) : ℝ) * -(theta * (s - r)) by push_cast; ring]
    ring
  have de : ∀ r, HasDerivAt ee (theta * ee r) r := fun r => by
    rw [hee]
    have h : HasDerivAt (fun r => -(theta * (s - r))) theta r := by
      have := ((hasDerivAt_id r).const_sub s).const_mul theta
      exact this.fun_neg.congr_deriv (by ring)
    exact h.exp.congr_deriv (by ring)
  have hw0 : ∀ r ∈ Icc t s, 0 ≤ w r := fun r hr => by
    rw [hw]
    exact transVar_nonneg theta hσ.le (by linarith [hr.2])
  obtain ⟨W, hW⟩ : ∃ W : ℝ → ℝ, W = fun r => P * ee r ^ 2 / (1 + P * w r) * (m r ^ 2 + S r) / 2 + q * ee r / (1 + P * w r) * m r
      + (c - w r * q ^ 2 / (2 * (1 + P * w r)) + Real.log (1 + P * w r) / 2) := ⟨_, rfl⟩
  have hmem : ∀ r ∈ Icc t s, r ∈ Icc 0 T := fun r hr => ⟨ht.trans hr.1, hr.2.trans hs⟩
  obtain ⟨W', hW'⟩ : ∃ W' : ℝ → ℝ, W' = fun r =>
      ((theta - a r + sigma * (P * ee r ^ 2 / (1 + P * w r))) ^ 2 * S r
        + ((theta - a r + sigma * (P * ee r ^ 2 / (1 + P * w r))) * m r + b r + sigma * (q * ee r / (1 + P * w r))) ^ 2) / (2 * sigma)
      - ouQ theta (a r) (b r) (m r) (S r) / (2 * sigma) := ⟨_, rfl⟩
  have dW : ∀ r ∈ Icc t s, HasDerivWithinAt W (W' r) (Icc 0 T) r := fun r hr => by
    have hD : 0 < 1 + P * w r := by have := hw0 r hr; positivity
    have d1 := (dw r).hasDerivWithinAt (s := Icc 0 T)
    have d2 := (de r).hasDerivWithinAt (s := Icc 0 T)
    have d3 := hc.mean r (hmem r hr)
    have d4 := hc.var r (hmem r hr)
    have dD : HasDerivWithinAt (fun r => 1 + P * w r) (P * -(sigma * ee r ^ 2)) (Icc 0 T) r := (d1.const_mul P).const_add 1
    have dD2 : HasDerivWithinAt (fun r => 2 * (1 + P * w r)) (2 * (P * -(sigma * ee r ^ 2))) (Icc 0 T) r := dD.const_mul 2
    have t1 := ((((d2.fun_pow 2).const_mul P).fun_div dD hD.ne').fun_mul ((d3.fun_pow 2).fun_add d4)).div_const 2
    have t2 := ((d2.const_mul q).fun_div dD hD.ne').fun_mul d3
    have t3 := (((d1.mul_const (q ^ 2)).fun_div dD2 (by positivity)).const_sub c).fun_add ((dD.log hD.ne').div_const 2)
    rw [hW, hW']
    refine ((t1.fun_add t2).fun_add t3).congr_deriv ?_
    obtain ⟨D, hDe⟩ : ∃ D, D = 1 + P * w r := ⟨_, rfl⟩
    beta_reduce
    rw [← hDe] at hD ⊢
    have hPw : P * w r = D - 1 := by linarith
    have h3 : (P * -(sigma * ee r ^ 2)) / D = -(sigma * (P * ee r ^ 2 / D)) := by ring
    have h4 : (-(sigma * ee r ^ 2) * q ^ 2 * (2 * D) - w r * q ^ 2 * (2 * (P * -(sigma * ee r ^ 2)))) / (2 * D) ^ 2 = -(sigma * (q * ee r / D) ^ 2 / 2) := by
      have : -(sigma * ee r ^ 2) * q ^ 2 * (2 * D) - w r * q ^ 2 * (2 * (P * -(sigma * ee r ^ 2)))
          = -(2 * sigma * ee r ^ 2 * q ^ 2) * (D - P * w r) := by ring
      rw [this, hPw]
      field_simp
      ring
    rw [h3, h4]
    unfold ouQ
    field_simp
    ring
  have cu := (curve_continuous hc).mono (fun r hr => hmem r hr : Icc t s ⊆ Icc 0 T)
  have cq : ContinuousOn (fun r => ouQ theta (a r) (b r) (m r) (S r) / (2 * sigma)) (Icc t s) := by
    have := (ouQ_contDiff theta sigma).continuous.comp_continuousOn cu
    simpa only [Function.comp_def] using this
  have hle := intervalIntegral.sub_le_integral_of_hasDeriv_right_of_le (g := fun r => -W r) (g' := fun r => -W' r)
    (φ := fun r => ouQ theta (a r) (b r) (m r) (S r) / (2 * sigma)) hts
    (fun r hr => ((dW r hr).continuousWithinAt.mono fun x hx => hmem x hx).neg)
    (fun r hr => by
      have := (dW r ⟨hr.1.le, hr.2.le⟩).hasDerivAt (Icc_mem_nhds (ht.trans_lt hr.1) (hr.2.trans_le hs))
      exact this.fun_neg.hasDerivWithinAt)
    (cq.integrableOn_Icc)
    (fun r hr => by
      have h1 := hc.nonneg r (hmem r ⟨hr.1.le, hr.2.le⟩)
      rw [hW']
      have : 0 ≤ ((theta - a r + sigma * (P * ee r ^ 2 / (1 + P * w r))) ^ 2 * S r
        + ((theta - a r + sigma * (P * ee r ^ 2 / (1 + P * w r))) * m r + b r + sigma * (q * ee r / (1 + P * w r))) ^ 2) / (2 * sigma) := by positivity
      simp only
      linarith)
  have ei : (∫ r in t..s, ouQ theta (a r) (b r) (m r) (S r) / (2 * sigma)) = ∫ r in t..s, Spec.sdeDensity (Spec.ouDrift theta) sigma (a r) (b r) (m r) (S r) := by
    refine intervalIntegral.integral_congr fun r hr => ?_
    rw [uIcc_of_le hts] at hr
    simp only [Spec.sdeDensity, ouQ_eq _ _ _ _ _ (hc.nonneg r (hmem r hr))]
  rw [ei] at hle
  have hWt : W t = P * e ^ 2 / (1 + P * v) * (m t ^ 2 + S t) / 2 + q * e / (1 + P * v) * m t + (c - v * q ^ 2 / (2 * (1 + P * v)) + Real.log (1 + P * v) / 2) := by
    rw [hW, hv, he, hw, hee]
  have hWs : W s = P * (m s ^ 2 + S s) / 2 + q * m s + c := by
    rw [hW, hw, hee]
    simp [Spec.transVar]
  rw [← hWt, ← hWs]
  linarith

/-- The density of the energy is non-negative. -/
theorem ou_density_nonneg {sigma : ℝ} (hσ : 0 < sigma) (f : ℝ → ℝ) (a b m v : ℝ) : 0 ≤ Spec.sdeDensity f sigma a b m v := by
  unfold Spec.sdeDensity Spec.mismatch Spec.normalE
  exact div_nonneg (integral_nonneg fun x => by positivity) (by positivity)

/-- The likelihood of the rest of the path is the exponential of a quadratic whose expected value is at most the rest of the energy. -/
theorem path_bound {T sigma R : ℝ} (hσ : 0 < sigma) (hR : 0 < R) (theta : ℝ) {a b m S : ℝ → ℝ} (hc : Spec.Curve T sigma a b m S) :
    ∀ (obs : List (ℝ × ℝ)) (t : ℝ), 0 ≤ t → t ≤ T → (∀ p ∈ obs, p.1 ∈ Icc t T) → obs.Pairwise (fun p p' => p.1 ≤ p'.1) →
      ∃ P q c, 0 ≤ P ∧ (∀ x, Spec.pathLikelihood theta sigma R obs t x = Real.exp (-quadr P q c x))
        ∧ P * (m t ^ 2 + S t) / 2 + q * m t + c ≤ (∫ r in t..T, Spec.sdeDensity (Spec.ouDrift theta) sigma (a r) (b r) (m r) (S r))
          + (obs.map fun p => Spec.obsEnergy1 p.2 1 R (m p.1) (S p.1)).sum
  | [], t, _, htT, _, _ => by
    refine ⟨0, 0, 0, le_rfl, fun x => by simp [Spec.pathLikelihood, quadr], ?_⟩
    have := intervalIntegral.integral_nonneg (μ := volume) htT fun r _ => ou_density_nonneg hσ (Spec.ouDrift theta) (a r) (b r) (m r) (S r)
    simpa using this
  | (s, y) :: rest, t, ht, htT, hmem, hsort => by
    have hst := hmem (s, y) (by simp)
    obtain ⟨hts, hsT⟩ := hst
    rw [List.pairwise_cons] at hsort
    obtain ⟨P, q, c, hP, hlik, hle⟩ := path_bound hσ hR theta hc rest s (ht.trans hts) hsT
      (fun p hp => ⟨hsort.1 p hp, (hmem p (by simp [hp])).2⟩) hsort.2
    have hv := transVar_nonneg theta hσ.le (show 0 ≤ s - t by simp only at hts; linarith)
    obtain ⟨v, hve⟩ : ∃ v, v = Spec.transVar theta sigma (s - t) := ⟨_, rfl⟩
    obtain ⟨e, hee⟩ : ∃ e, e = Real.exp (-(theta * (s - t))) := ⟨_, rfl⟩
    rw [← hve] at hv
    have hP1 : 0 ≤ P + 1 / R := by positivity
    have hD : 0 < 1 + (P + 1 / R) * v := by positivity
    have hprod : ∀ z, gaussianPDFReal z R.toNNReal y * Spec.pathLikelihood theta sigma R rest s z
        = Real.exp (-quadr (P + 1 / R) (q - y / R) (c + y ^ 2 / (2 * R) + (log2pi + Real.log R) / 2) z) := fun z => by
      have hp : 0 < gaussianPDFReal z R.toNNReal y := gaussianPDFReal_pos z R.toNNReal y (by simpa using hR)
      rw [hlik, ← Real.exp_log hp, ← Real.exp_add]
      have := neg_log_pdf z R y hR
      congr 1
      rw [show Real.log (gaussianPDFReal z R.toNNReal y) = -(0.5 * (log2pi + Real.log R) + (y - z) ^ 2 / (2 * R)) by linarith]
      unfold quadr
      norm_num
      field_simp
      ring
    refine ⟨(P + 1 / R) * e ^ 2 / (1 + (P + 1 / R) * v), (q - y / R) * e / (1 + (P + 1 / R) * v),
      (c + y ^ 2 / (2 * R) + (log2pi + Real.log R) / 2) - v * (q - y / R) ^ 2 / (2 * (1 + (P + 1 / R) * v)) + Real.log (1 + (P + 1 / R) * v) / 2,
      by positivity, fun x => ?_, ?_⟩
    · simp only [Spec.pathLikelihood, hprod, ← hve, ← hee]
      rw [normalE_exp_quadr _ _ _ _ _ hP1 hv]
      congr 1
      unfold quadr
      field_simp
      ring
    · have hseg := segment_bound hσ theta hc ht hts hsT hP1 (q := q - y / R) (c := c + y ^ 2 / (2 * R) + (log2pi + Real.log R) / 2) hve hee
      have ci : ∀ {x z : ℝ}, x ∈ Icc 0 T → z ∈ Icc 0 T → IntervalIntegrable (fun r => Spec.sdeDensity (Spec.ouDrift theta) sigma (a r) (b r) (m r) (S r)) volume x z := by
        intro x z hx hz
        have cq : ContinuousOn (fun r => Spec.sdeDensity (Spec.ouDrift theta) sigma (a r) (b r) (m r) (S r)) (Icc 0 T) := by
          have := (ouQ_contDiff theta sigma).continuous.comp_continuousOn (curve_continuous hc)
          refine this.congr fun r hr => ?_
          simp only [Spec.sdeDensity, ouQ_eq _ _ _ _ _ (hc.nonneg r hr), Function.comp_def]
        exact (cq.mono (uIcc_subset_Icc hx hz)).intervalIntegrable
      have hsplit := intervalIntegral.integral_add_adjacent_intervals
        (ci (x := t) (z := s) ⟨ht, htT⟩ ⟨ht.trans hts, hsT⟩) (ci (x := s) (z := T) ⟨ht.trans hts, hsT⟩ ⟨hc.window, le_rfl⟩)
      have hobs := obsEnergy1_eq y 1 R (m s) (S s) hR (hc.nonneg s ⟨ht.trans hts, hsT⟩)
      rw [List.map_cons, List.sum_cons, hobs, ← hsplit]
      refine hseg.trans ?_
      have : (P + 1 / R) * (m s ^ 2 + S s) / 2 + (q - y / R) * m s + (c + y ^ 2 / (2 * R) + (log2pi + Real.log R) / 2)
          = (P * (m s ^ 2 + S s) / 2 + q * m s + c) + (0.5 * (y ^ 2 - 2 * y * (1 * m s) + 1 ^ 2 * (m s ^ 2 + S s)) / R + 0.5 * (log2pi + Real.log R)) := by
        norm_num
        field_simp
        ring
      rw [this]
      linarith

/-- The Gibbs inequality for a normal law against the exponential of a quadratic. -/
theorem gibbs_quadr (P q c m s μ τ : ℝ) (hP : 0 ≤ P) (hs : 0 < s) (hτ : 0 < τ) :
    (P * μ ^ 2 / 2 + q * μ - τ * q ^ 2 / 2) / (1 + P * τ) + c + Real.log (1 + P * τ) / 2 ≤ Spec.kl1 m s μ τ + (P * (m ^ 2 + s) / 2 + q * m + c) := by
  rw [kl1_eq _ _ _ _ hs hτ]
  have hD : 0 < 1 + P * τ := by positivity
  have hx : 0 < s * (1 + P * τ) / τ := by positivity
  have hlog := Real.log_le_sub_one_of_pos hx
  rw [Real.log_div (by positivity) hτ.ne', Real.log_mul hs.ne' hD.ne'] at hlog
  have hsq : 0 ≤ (1 + P * τ) / (2 * τ) * (m - (μ - τ * q) / (1 + P * τ)) ^ 2 := by positivity
  have e : (m - μ) ^ 2 / (2 * τ) + P * m ^ 2 / 2 + q * m - (P * μ ^ 2 / 2 + q * μ - τ * q ^ 2 / 2) / (1 + P * τ)
      = (1 + P * τ) / (2 * τ) * (m - (μ - τ * q) / (1 + P * τ)) ^ 2 := by
    field_simp
    ring
  have e2 : s * (1 + P * τ) / τ = s / τ + P * s := by field_simp
  have e3 : (s + (m - μ) ^ 2) / τ = s / τ + 2 * ((m - μ) ^ 2 / (2 * τ)) := by field_simp
  rw [e2] at hlog
  rw [e3]
  linarith

/-- The bound in continuous time. -/
theorem evidence_bound {T sigma R : ℝ} (hσ : 0 < sigma) (hR : 0 < R) (theta : ℝ) {a b m S : ℝ → ℝ} (hc : Spec.Curve T sigma a b m S) (hS : 0 < S 0)
    {k : ℕ} (y τ : Fin k → ℝ) (hτ : ∀ j, τ j ∈ Icc 0 T) (hmono : Monotone τ) (pr : Prior1) (hpr : 0 < pr.tau0) :
    0 < Spec.evidence theta sigma R pr y τ ∧ -Real.log (Spec.evidence theta sigma R pr y τ)
      ≤ Spec.kl1 (m 0) (S 0) pr.mu0 pr.tau0 + Spec.continuousEnergy (Spec.ouDrift theta) sigma R T y τ a b m S := by
  obtain ⟨P, q, c, hP, hlik, hle⟩ := path_bound hσ hR theta hc (List.ofFn fun j => (τ j, y j)) 0 le_rfl hc.window
    (fun p hp => by
      obtain ⟨j, rfl⟩ := (List.mem_ofFn' _ _).1 hp
      exact hτ j)
    (List.pairwise_ofFn.2 fun i j hij => hmono hij.le)
  have hev : Spec.evidence theta sigma R pr y τ = Real.exp (-((P * pr.mu0 ^ 2 / 2 + q * pr.mu0 - pr.tau0 * q ^ 2 / 2) / (1 + P * pr.tau0) + c
      + Real.log (1 + P * pr.tau0) / 2)) := by
    unfold Spec.evidence
    rw [funext hlik]
    exact normalE_exp_quadr _ _ _ _ _ hP hpr.le
  refine ⟨by rw [hev]; exact Real.exp_pos _, ?_⟩
  rw [hev, Real.log_exp, neg_neg]
  refine (gibbs_quadr P q c (m 0) (S 0) pr.mu0 pr.tau0 hP hS hpr).trans ?_
  unfold Spec.continuousEnergy
  rw [List.map_ofFn, List.sum_ofFn] at hle
  simp only [Function.comp_def] at hle
  linarith

/-- C110, the part that holds: fix a continuous-time problem with an Ornstein-Uhlenbeck process, a Gaussian approximation of its posterior, given by Lipschitz
continuous parameters `a`, `b` and the solutions `m`, `S` of the moment equations, and the observations `y` at increasing times `τ`. For every variational object
that holds the problem on a grid with a small step (any of the four integrators), the number that `free_energy` returns at the grid values of `a`, `b`, plus
half the logarithm of the initial variance, is at least the negative logarithm of the evidence up to a constant times the step. So the number itself is such a
bound when the initial variance is at most one. Missing: initial variances above one, where the claim fails, see `C110_violated`. -/
theorem C110_ornstein_uhlenbeck_partial {G : Type} (T theta sigma R : ℝ) (hσ : 0 < sigma) (hR : 0 < R) (a b m S : ℝ → ℝ) (hc : Spec.Curve T sigma a b m S)
    (hS : 0 < S 0) {k : ℕ} (y τ : Fin k → ℝ) (hmono : Monotone τ) (pr : Prior1) (hpr : 0 < pr.tau0) :
    ∃ C δ, 0 < δ ∧ ∀ (p : OU G) (o : VarGP ℝ ℝ) (n : ℕ) (dt : ℝ), dt < δ → o.model = p.sde → p.theta = theta → p.sigma = sigma →
      p.base.timeStep = .ok dt → Spec.Discretises o n dt T R pr y τ m S →
      ∃ F, (o.freeEnergy shape1 (Spec.onGrid a n dt ++ Spec.onGrid b n dt)).1 = .ok F
        ∧ -Real.log (Spec.evidence theta sigma R pr y τ) ≤ F + 1 / 2 * Real.log (S 0) + C * dt
        ∧ (S 0 ≤ 1 → -Real.log (Spec.evidence theta sigma R pr y τ) ≤ F + C * dt) := by
  obtain ⟨C, δ, hδ, h⟩ := C108_ornstein_uhlenbeck (G := G) T theta sigma R hR a b m S hc y τ pr
  refine ⟨C, δ, hδ, fun p o n dt hdt hmod hθ hs hstep hd => ?_⟩
  obtain ⟨F, hF, hb⟩ := h p o n dt hdt hmod hθ hs hstep hd
  obtain ⟨-, hev⟩ := evidence_bound hσ hR theta hc hS y τ (fun j => by
    obtain ⟨hdt0, hn, ⟨t, ht, -⟩, -⟩ := hd
    have hk : ((t j : ℕ)) ≤ n := Nat.lt_succ_iff.1 (t j).2
    rw [← ht j, ← hn]
    exact ⟨by positivity, by gcongr⟩) hmono pr hpr
  rw [prior1_eq pr (m 0) (S 0) hS hpr] at hb
  have h1 := (abs_le.1 hb).1
  have key : -Real.log (Spec.evidence theta sigma R pr y τ) ≤ F + 1 / 2 * Real.log (S 0) + C * dt := by linarith
  exact ⟨F, hF, key, fun h0 => by linarith [Real.log_nonpos hS.le h0]⟩

theorem normalE_abs_le {m v : ℝ} {f : ℝ → ℝ} {C : ℝ} (h : ∀ x, |f x| ≤ C) : |Spec.normalE m v f| ≤ C := by
  unfold Spec.normalE
  have := norm_integral_le_of_norm_le_const (μ := gaussianReal m v.toNNReal) (f := f) (C := C) (ae_of_all _ h)
  simpa using this

/-- The likelihood of the path is at most that of a perfect fit. -/
theorem path_le {R : ℝ} (theta sigma : ℝ) (hR : 0 < R) : ∀ (obs : List (ℝ × ℝ)) (t x : ℝ),
    |Spec.pathLikelihood theta sigma R obs t x| ≤ Real.exp (-(obs.length * ((log2pi + Real.log R) / 2)))
  | [], t, x => by simp [Spec.pathLikelihood]
  | (s, y) :: rest, t, x => by
    refine normalE_abs_le fun z => ?_
    · have hp : 0 < gaussianPDFReal z R.toNNReal y := gaussianPDFReal_pos z R.toNNReal y (by simpa using hR)
      have h1 : gaussianPDFReal z R.toNNReal y ≤ Real.exp (-((log2pi + Real.log R) / 2)) := by
        rw [← Real.log_le_iff_le_exp hp]
        have := neg_log_pdf z R y hR
        have h0 : 0 ≤ (y - z) ^ 2 / (2 * R) := by positivity
        norm_num at this
        linarith
      rw [abs_mul, abs_of_pos hp]
      refine (mul_le_mul h1 (path_le theta sigma hR rest s z) (abs_nonneg _) (Real.exp_pos _).le).trans_eq ?_
      rw [← Real.exp_add, List.length_cons]
      push_cast
      ring_nf

theorem evidence_le {R : ℝ} (theta sigma : ℝ) (hR : 0 < R) {k : ℕ} (y τ : Fin k → ℝ) (pr : Prior1) (hpos : 0 < Spec.evidence theta sigma R pr y τ) :
    k * ((log2pi + Real.log R) / 2) ≤ -Real.log (Spec.evidence theta sigma R pr y τ) := by
  have : Spec.evidence theta sigma R pr y τ ≤ Real.exp (-(k * ((log2pi + Real.log R) / 2))) := by
    refine (le_abs_self _).trans (normalE_abs_le fun z => ?_)
    have := path_le theta sigma hR (List.ofFn fun j => (τ j, y j)) 0 z
    rwa [List.length_ofFn] at this
  have := (Real.log_le_iff_le_exp hpos).2 this
  linarith

/-- C110 fails when the initial variance exceeds one: take the process itself as the approximation (`a = θ`, `b = 0`, the initial law is the prior) and
observations that equal the mean, with a noise variance such that the sum of the variances at the observation times is below `R log S(0)`. Then for all
small steps the number returned is below the negative logarithm of the evidence by a fixed amount. -/
theorem C110_violated {G : Type} (T theta sigma R : ℝ) (hσ : 0 < sigma) (hR : 0 < R) (m S : ℝ → ℝ) (hc : Spec.Curve T sigma (fun _ => theta) (fun _ => 0) m S)
    (hS : 0 < S 0) {k : ℕ} (τ : Fin k → ℝ) (hτ : ∀ j, τ j ∈ Icc 0 T) (hmono : Monotone τ) (hlarge : ∑ j, S (τ j) < R * Real.log (S 0)) :
    ∃ ε > 0, ∃ δ > 0, ∀ (p : OU G) (o : VarGP ℝ ℝ) (n : ℕ) (dt : ℝ), dt < δ → o.model = p.sde → p.theta = theta → p.sigma = sigma →
      p.base.timeStep = .ok dt → Spec.Discretises o n dt T R ⟨m 0, S 0⟩ (fun j => m (τ j)) τ m S →
      ∃ F, (o.freeEnergy shape1 (Spec.onGrid (fun _ => theta) n dt ++ Spec.onGrid (fun _ => 0) n dt)).1 = .ok F
        ∧ F ≤ -Real.log (Spec.evidence theta sigma R ⟨m 0, S 0⟩ (fun j => m (τ j)) τ) - ε := by
  obtain ⟨C, δ, hδ, h⟩ := C108_ornstein_uhlenbeck (G := G) T theta sigma R hR _ _ m S hc (fun j => m (τ j)) τ ⟨m 0, S 0⟩
  obtain ⟨hpos, -⟩ := evidence_bound hσ hR theta hc hS (fun j => m (τ j)) τ hτ hmono ⟨m 0, S 0⟩ hS
  have hlow := evidence_le theta sigma hR (fun j => m (τ j)) τ ⟨m 0, S 0⟩ hpos
  have hE : Spec.continuousEnergy (Spec.ouDrift theta) sigma R T (fun j => m (τ j)) τ (fun _ => theta) (fun _ => 0) m S
      = k * ((log2pi + Real.log R) / 2) + (∑ j, S (τ j)) / (2 * R) := by
    unfold Spec.continuousEnergy
    have h0 : (∫ t in (0 : ℝ)..T, Spec.sdeDensity (Spec.ouDrift theta) sigma theta 0 (m t) (S t)) = 0 := by
      rw [intervalIntegral.integral_congr (g := fun _ => (0 : ℝ)) fun t ht => ?_]
      · simp
      · rw [uIcc_of_le hc.window] at ht
        simp only [Spec.sdeDensity, ouQ_eq _ _ _ _ _ (hc.nonneg t ht)]
        simp [ouQ]
    rw [h0, zero_add, Finset.sum_div, Finset.sum_congr rfl fun j _ => obsEnergy1_eq (m (τ j)) 1 R (m (τ j)) (S (τ j)) hR (hc.nonneg _ (hτ j))]
    rw [show (k : ℝ) * ((log2pi + Real.log R) / 2) = ∑ _j : Fin k, (log2pi + Real.log R) / 2 by simp, ← Finset.sum_add_distrib]
    refine Finset.sum_congr rfl fun j _ => ?_
    norm_num
    field_simp
    ring
  have hg : (⟨m 0, S 0⟩ : Prior1).gauss (m 0) (S 0) = -(1 / 2 * Real.log (S 0)) := by
    rw [prior1_eq _ _ _ hS hS, kl1_eq _ _ _ _ hS hS]
    simp [hS.ne']
  obtain ⟨η, hη⟩ : ∃ η, η = 1 / 2 * Real.log (S 0) - (∑ j, S (τ j)) / (2 * R) := ⟨_, rfl⟩
  have hη0 : 0 < η := by
    have : (∑ j, S (τ j)) / (2 * R) < 1 / 2 * Real.log (S 0) := by
      rw [div_lt_iff₀ (by positivity)]
      linarith
    linarith
  refine ⟨η / 2, by positivity, min δ (η / (2 * (|C| + 1))), lt_min hδ (by positivity), fun p o n dt hdt hmod hθ hs hstep hd => ?_⟩
  obtain ⟨F, hF, hb⟩ := h p o n dt (hdt.trans_le (min_le_left _ _)) hmod hθ hs hstep hd
  refine ⟨F, hF, ?_⟩
  rw [hE, hg] at hb
  have h1 := (abs_le.1 hb).2
  have h2 : dt * (2 * (|C| + 1)) < η := (lt_div_iff₀ (by positivity)).1 (hdt.trans_le (min_le_right _ _))
  have h3 : C * dt ≤ |C| * dt := mul_le_mul_of_nonneg_right (le_abs_self C) hd.step.le
  have h4 := hd.step
  nlinarith

/-! Non-vacuity: the problem of C108 on the grids with an even number of steps, whose initial variance is one; and, for the counterexample, the stationary
process with `θ = 1`, `sigma = 4`, variance two, observed once with noise variance five. -/

example (meth : Method) (θ : ℝ) : ∃ C δ, 0 < δ ∧ ∀ N : ℕ, 0 < N → (1 / (2 * N) : ℝ) < δ →
    ∃ F, ((gridObj (OU.sde (G := ℕ) ⟨gridProc N, 3, θ, 1 / 3⟩) meth N).freeEnergy shape1
      (Spec.onGrid (fun t => 1 / (1 + t)) (2 * N) (1 / (2 * N)) ++ Spec.onGrid (fun t => 2 - 1 / (1 + t)) (2 * N) (1 / (2 * N)))).1 = .ok F
      ∧ -Real.log (Spec.evidence θ 3 1 ⟨0, 1⟩ (fun _ : Fin 1 => 2) (fun _ => 1 / 2)) ≤ F + C * (1 / (2 * N)) := by
  obtain ⟨C, δ, hδ, h⟩ := C110_ornstein_uhlenbeck_partial (G := ℕ) 1 θ 3 1 (by norm_num) one_pos _ _ _ _ example_curve (by norm_num)
    (fun _ : Fin 1 => 2) (fun _ => 1 / 2) (fun _ _ _ => le_rfl) ⟨0, 1⟩ one_pos
  refine ⟨C, δ, hδ, fun N hN hd => ?_⟩
  obtain ⟨F, hF, -, hb⟩ := h ⟨gridProc N, 3, θ, 1 / 3⟩ _ _ _ hd rfl rfl rfl (gridProc_step hN) (gridObj_discretises _ meth hN)
  exact ⟨F, hF, hb (by norm_num)⟩

theorem stationary_curve : Spec.Curve 1 4 (fun _ => 1) (fun _ => 0) (fun _ => 0) (fun _ => 2) where
  window := zero_le_one
  lip := ⟨0, fun s _ t _ => by simp⟩
  mean t _ := by simpa using hasDerivWithinAt_const t (Icc (0 : ℝ) 1) (0 : ℝ)
  var t _ := by
    have := hasDerivWithinAt_const t (Icc (0 : ℝ) 1) (2 : ℝ)
    norm_num
    exact this
  nonneg _ _ := by norm_num

/-- A variational object for the stationary process, with one observation in the middle. -/
def statObj (M : SdeModel ℝ ℝ) (meth : Method) (N : ℕ) : VarGP ℝ ℝ where
  model := M
  fwd_ode := ⟨1 / (2 * N), "", meth⟩
  bwd_ode := ⟨1 / (2 * N), "", meth⟩
  likelihood := (⟨List.ofFn fun _ : Fin 1 => 0, List.ofFn fun _ : Fin 1 => N, 5, 1⟩ : Like1).toIf
  kl0 := fun m s => .ok ((⟨0, 2⟩ : Prior1).gauss m s)
  obs_y := List.ofFn fun _ : Fin 1 => 0
  obs_t := List.ofFn fun _ : Fin 1 => N
  dt := 1 / (2 * N)
  dim_n := 2 * N + 1
  m0 := 0
  s0 := 2
  cache := none

theorem statObj_discretises (M : SdeModel ℝ ℝ) (meth : Method) {N : ℕ} (hN : 0 < N) :
    Spec.Discretises (statObj M meth N) (2 * N) (1 / (2 * N)) 1 5 ⟨0, 2⟩ (fun _ : Fin 1 => 0) (fun _ => 1 / 2) (fun _ => 0) (fun _ => 2) where
  step := by positivity
  window := by push_cast; field_simp
  object := ⟨fun _ => ⟨N, by omega⟩, fun j => by simp only; field_simp,
    ⟨by omega, rfl, rfl, fun i j _ => Subsingleton.elim _ _, rfl, rfl⟩⟩
  solver := rfl
  m0 := rfl
  s0 := rfl
  sorted := by simp [statObj]

example (meth : Method) : ∃ ε > 0, ∃ δ > 0, ∀ N : ℕ, 0 < N → (1 / (2 * N) : ℝ) < δ →
    ∃ F, ((statObj (OU.sde (G := ℕ) ⟨gridProc N, 4, 1, 1 / 4⟩) meth N).freeEnergy shape1
      (Spec.onGrid (fun _ => 1) (2 * N) (1 / (2 * N)) ++ Spec.onGrid (fun _ => 0) (2 * N) (1 / (2 * N)))).1 = .ok F
      ∧ F ≤ -Real.log (Spec.evidence 1 4 5 ⟨0, 2⟩ (fun _ : Fin 1 => 0) (fun _ => 1 / 2)) - ε := by
  obtain ⟨ε, hε, δ, hδ, h⟩ := C110_violated (G := ℕ) 1 1 4 5 (by norm_num) (by norm_num) _ _ stationary_curve (by norm_num) (fun _ : Fin 1 => 1 / 2)
    (fun _ => by norm_num) (fun _ _ _ => le_rfl) (by
      have := Real.one_sub_inv_le_log_of_pos (show (0 : ℝ) < 2 by norm_num)
      simp only [Finset.univ_unique, Finset.sum_const, Finset.card_singleton, one_smul]
      norm_num at this ⊢
      linarith)
  exact ⟨ε, hε, δ, hδ, fun N hN hd => h _ _ _ _ hd rfl rfl rfl (gridProc_step hN) (statObj_discretises _ meth hN)⟩

end

end VGPA
