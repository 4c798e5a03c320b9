import Verif.Props.EnergyLimit
import Verif.Props.GradExact
import Verif.Lemmas.Multiplier
import Mathlib.Analysis.ODE.Gronwall
import Mathlib.Analysis.Calculus.ContDiff.Operations

/-!
# The derivative of the continuous-time free energy with respect to its parameters
-/

namespace VGPA

open Set Filter Topology MeasureTheory

noncomputable section

/-- A function of four variables as a function on pairs. -/
def unc (q : ℝ → ℝ → ℝ → ℝ → ℝ) (p : ℝ × ℝ × ℝ × ℝ) : ℝ := q p.1 p.2.1 p.2.2.1 p.2.2.2

theorem fderiv_of_chain {q Qa Qb Qm Qs : ℝ → ℝ → ℝ → ℝ → ℝ} (hch : Chain4 q Qa Qb Qm Qs) (hq : ContDiff ℝ 2 (unc q)) (p h : ℝ × ℝ × ℝ × ℝ) :
    fderiv ℝ (unc q) p h = unc Qa p * h.1 + unc Qb p * h.2.1 + unc Qm p * h.2.2.1 + unc Qs p * h.2.2.2 := by
  have line : ∀ u v : ℝ, HasDerivAt (fun ε : ℝ => u + ε * v) v 0 := fun u v => by
    simpa using ((hasDerivAt_id' (0 : ℝ)).mul_const v).const_add u
  have h1 := hch _ _ _ _ _ _ _ _ (line p.1 h.1) (line p.2.1 h.2.1) (line p.2.2.1 h.2.2.1) (line p.2.2.2 h.2.2.2)
  simp only [zero_mul, add_zero] at h1
  have hl : HasDerivAt (fun ε : ℝ => (p.1 + ε * h.1, p.2.1 + ε * h.2.1, p.2.2.1 + ε * h.2.2.1, p.2.2.2 + ε * h.2.2.2)) h 0 :=
    (line _ _).prodMk ((line _ _).prodMk ((line _ _).prodMk (line _ _)))
  have h2 : HasFDerivAt (unc q) (fderiv ℝ (unc q) p) (p.1 + 0 * h.1, p.2.1 + 0 * h.2.1, p.2.2.1 + 0 * h.2.2.1, p.2.2.2 + 0 * h.2.2.2) := by
    have e : (p.1 + 0 * h.1, p.2.1 + 0 * h.2.1, p.2.2.1 + 0 * h.2.2.1, p.2.2.2 + 0 * h.2.2.2) = p := by simp
    rw [e]
    exact (hq.differentiable (by norm_num) p).hasFDerivAt
  have h3 := h2.comp_hasDerivAt (0 : ℝ) hl
  have h4 : HasDerivAt (fun ε : ℝ => q (p.1 + ε * h.1) (p.2.1 + ε * h.2.1) (p.2.2.1 + ε * h.2.2.1) (p.2.2.2 + ε * h.2.2.2)) (fderiv ℝ (unc q) p h) 0 := h3
  exact h4.unique h1

/-- Taylor's formula of first order, uniformly on a ball. -/
theorem taylor_on_ball {E : Type*} [NormedAddCommGroup E] [NormedSpace ℝ E] [FiniteDimensional ℝ E] {q : E → ℝ} (hq : ContDiff ℝ 2 q) (R : ℝ) :
    ∃ K, 0 ≤ K ∧ ∀ x y, ‖x‖ ≤ R → ‖y‖ ≤ R → |q y - q x - fderiv ℝ q x (y - x)| ≤ K * ‖y - x‖ ^ 2 := by
  have hp := FiniteDimensional.proper ℝ E
  have hd : ContDiff ℝ 1 (fderiv ℝ q) := hq.fderiv_right (by norm_num)
  obtain ⟨K, hK⟩ := (isCompact_closedBall (0 : E) R).exists_bound_of_continuousOn ((hd.continuous_fderiv (by norm_num)).continuousOn)
  refine ⟨max K 0, le_max_right _ _, fun x y hx hy => ?_⟩
  have hx' : x ∈ Metric.closedBall (0 : E) R := by simpa using hx
  have hy' : y ∈ Metric.closedBall (0 : E) R := by simpa using hy
  have hseg : segment ℝ x y ⊆ Metric.closedBall (0 : E) R := (convex_closedBall (0 : E) R).segment_subset hx' hy'
  have h1 : ∀ z ∈ segment ℝ x y, ‖fderiv ℝ q z - fderiv ℝ q x‖ ≤ max K 0 * ‖y - x‖ := fun z hz => by
    have := (convex_closedBall (0 : E) R).norm_image_sub_le_of_norm_fderiv_le (𝕜 := ℝ) (f := fderiv ℝ q) (C := max K 0) (x := x) (y := z)
      (fun w _ => (hd.differentiable (by norm_num)) w) (fun w hw => (hK w hw).trans (le_max_left _ _)) hx' (hseg hz)
    refine this.trans (mul_le_mul_of_nonneg_left ?_ (le_max_right _ _))
    obtain ⟨u, v, hu, hv, huv, rfl⟩ := hz
    have e : u • x + v • y - x = v • (y - x) := by
      have : u = 1 - v := by linarith
      rw [this, sub_smul, one_smul, smul_sub]
      abel
    rw [e, norm_smul, Real.norm_of_nonneg hv]
    exact mul_le_of_le_one_left (norm_nonneg _) (by linarith)
  have := (convex_segment x y).norm_image_sub_le_of_norm_fderiv_le' (𝕜 := ℝ) (f := q) (φ := fderiv ℝ q x) (x := x) (y := y) (C := max K 0 * ‖y - x‖)
    (fun z _ => (hq.differentiable (by norm_num)) z) h1 (left_mem_segment ℝ x y) (right_mem_segment ℝ x y)
  rw [Real.norm_eq_abs] at this
  refine this.trans (le_of_eq ?_)
  ring

/-- A linear equation with a small right-hand side and initial value zero has a small solution. -/
theorem linear_small {T A B ε : ℝ} (hA : 1 ≤ A) (hB : 0 ≤ B) {z u v : ℝ → ℝ} (hz : ∀ t ∈ Icc 0 T, HasDerivWithinAt z (-(u t * z t) + ε * v t) (Icc 0 T) t)
    (h0 : z 0 = 0) (hu : ∀ t ∈ Icc 0 T, |u t| ≤ A) (hv : ∀ t ∈ Icc 0 T, |v t| ≤ B) : ∀ t ∈ Icc 0 T, |z t| ≤ B * Real.exp (A * T) * |ε| := by
  intro t ht
  have hc : ContinuousOn z (Icc 0 T) := fun s hs => (hz s hs).continuousWithinAt
  have h := norm_le_gronwallBound_of_norm_deriv_right_le (δ := 0) (K := A) (ε := |ε| * B) hc (fun s hs => (hz s ⟨hs.1, hs.2.le⟩).mono_of_mem_nhdsWithin (by
      filter_upwards [self_mem_nhdsWithin, mem_nhdsWithin_of_mem_nhds (Iio_mem_nhds hs.2)] with r hr hr'
      exact ⟨hs.1.trans hr, le_of_lt hr'⟩)) (by rw [h0, norm_zero]) (fun s hs => by
      have hs' : s ∈ Icc 0 T := ⟨hs.1, hs.2.le⟩
      refine (norm_add_le _ _).trans ?_
      rw [norm_neg, norm_mul, norm_mul]
      exact add_le_add (mul_le_mul_of_nonneg_right (hu s hs') (norm_nonneg _)) (mul_le_mul_of_nonneg_left (hv s hs') (abs_nonneg _))) t ht
  rw [Real.norm_eq_abs, gronwallBound_of_K_ne_0 (by linarith)] at h
  simp only [zero_mul, zero_add, sub_zero] at h
  refine h.trans ?_
  have h1 : Real.exp (A * t) ≤ Real.exp (A * T) := Real.exp_le_exp.2 (mul_le_mul_of_nonneg_left ht.2 (by linarith))
  have h2 : |ε| * B / A ≤ |ε| * B := div_le_self (by positivity) hA
  have h3 : 1 ≤ Real.exp (A * t) := Real.one_le_exp (mul_nonneg (by linarith) ht.1)
  calc |ε| * B / A * (Real.exp (A * t) - 1) ≤ |ε| * B * (Real.exp (A * T)) := by
        refine mul_le_mul h2 (by linarith) (by linarith) (by positivity)
    _ = _ := by ring

theorem unc_continuousOn {q : ℝ → ℝ → ℝ → ℝ → ℝ} (hq : Continuous (unc q)) {T sigma : ℝ} {a b m S : ℝ → ℝ} (hc : Spec.Curve T sigma a b m S) :
    ContinuousOn (fun t => q (a t) (b t) (m t) (S t)) (Icc 0 T) :=
  hq.comp_continuousOn (curve_continuous hc)

theorem curve_parts {T sigma : ℝ} {a b m S : ℝ → ℝ} (hc : Spec.Curve T sigma a b m S) :
    ContinuousOn a (Icc 0 T) ∧ ContinuousOn b (Icc 0 T) ∧ ContinuousOn m (Icc 0 T) ∧ ContinuousOn S (Icc 0 T) := by
  have h := curve_continuous hc
  exact ⟨continuous_fst.comp_continuousOn h, (continuous_fst.comp continuous_snd).comp_continuousOn h,
    (continuous_fst.comp (continuous_snd.comp continuous_snd)).comp_continuousOn h,
    (continuous_snd.comp (continuous_snd.comp continuous_snd)).comp_continuousOn h⟩

theorem hasDerivAt_of_quadratic {F : ℝ → ℝ} {I K : ℝ} (h : ∀ ε, |ε| ≤ 1 → |F ε - F 0 - ε * I| ≤ K * ε ^ 2) : HasDerivAt F I 0 := by
  rw [hasDerivAt_iff_isLittleO]
  simp only [sub_zero, smul_eq_mul]
  refine Asymptotics.IsBigO.trans_isLittleO (g := fun ε : ℝ => ε ^ 2) ?_ ?_
  · refine Asymptotics.IsBigO.of_bound K ?_
    filter_upwards [Metric.ball_mem_nhds (0 : ℝ) one_pos] with ε hε
    rw [Metric.mem_ball, Real.dist_eq, sub_zero] at hε
    rw [Real.norm_eq_abs, Real.norm_eq_abs, abs_of_nonneg (sq_nonneg ε)]
    exact h ε hε.le
  · have : (fun ε : ℝ => ε ^ 2) = fun ε => ε * ε := by funext ε; ring
    rw [this]
    have h2 : (fun ε : ℝ => ε) =o[𝓝 0] fun _ : ℝ => (1 : ℝ) := (Asymptotics.isLittleO_one_iff ℝ).2 tendsto_id
    simpa using h2.mul_isBigO (Asymptotics.isBigO_refl (fun ε : ℝ => ε) (𝓝 0))

theorem functional_derivative {q Qa Qb Qm Qs : ℝ → ℝ → ℝ → ℝ → ℝ} (hch : Chain4 q Qa Qb Qm Qs) (hq : ContDiff ℝ 2 (unc q))
    (ca : Continuous (unc Qa)) (cb : Continuous (unc Qb)) (cm : Continuous (unc Qm)) (cs : Continuous (unc Qs))
    {T sigma R : ℝ} {a b m S : ℝ → ℝ} (hc : Spec.Curve T sigma a b m S) (hR : 0 < R) {k : ℕ} {y τ : Fin k → ℝ} (hτ : ∀ j, τ j ∈ Ico 0 T) {lam psi : ℝ → ℝ}
    (hl : Jumping T lam (fun t => -Qm (a t) (b t) (m t) (S t) + lam t * a t) τ (fun j => (m (τ j) - y j) / R)) (hlT : lam T = 0)
    (hp : Jumping T psi (fun t => -Qs (a t) (b t) (m t) (S t) + psi t * (2 * a t)) τ (fun _ => 1 / (2 * R))) (hpT : psi T = 0)
    {α β : ℝ → ℝ} {M P : ℝ → ℝ → ℝ} (hMP : ∀ ε, Spec.Curve T sigma (fun t => a t + ε * α t) (fun t => b t + ε * β t) (M ε) (P ε))
    (hM0 : ∀ ε, M ε 0 = m 0) (hP0 : ∀ ε, P ε 0 = S 0) :
    HasDerivAt (fun ε => (∫ t in (0 : ℝ)..T, q (a t + ε * α t) (b t + ε * β t) (M ε t) (P ε t)) + ∑ j, obsPoly (y j) R (M ε (τ j), P ε (τ j)))
      (∫ t in (0 : ℝ)..T, ((Qa (a t) (b t) (m t) (S t) - lam t * m t - 2 * psi t * S t) * α t + (Qb (a t) (b t) (m t) (S t) + lam t) * β t)) 0 := by
  have hT := hc.window
  obtain ⟨c1, c2, c3, c4⟩ := curve_parts hc
  have cα : ContinuousOn α (Icc 0 T) := by
    have := (curve_parts (hMP 1)).1.sub c1
    refine this.congr fun t _ => ?_
    simp
  have cβ : ContinuousOn β (Icc 0 T) := by
    have := (curve_parts (hMP 1)).2.1.sub c2
    refine this.congr fun t _ => ?_
    simp
  obtain ⟨Ba, hBa⟩ := isCompact_Icc.exists_bound_of_continuousOn c1
  obtain ⟨Bb, hBb⟩ := isCompact_Icc.exists_bound_of_continuousOn c2
  obtain ⟨Bm, hBm⟩ := isCompact_Icc.exists_bound_of_continuousOn c3
  obtain ⟨BS, hBS⟩ := isCompact_Icc.exists_bound_of_continuousOn c4
  obtain ⟨Bα, hBα⟩ := isCompact_Icc.exists_bound_of_continuousOn cα
  obtain ⟨Bβ, hBβ⟩ := isCompact_Icc.exists_bound_of_continuousOn cβ
  obtain ⟨Bl, hBl⟩ := hl.bounded
  obtain ⟨Bp, hBp⟩ := hp.bounded
  simp only [Real.norm_eq_abs] at hBa hBb hBm hBS hBα hBβ
  have h00 : (0 : ℝ) ∈ Icc 0 T := ⟨le_rfl, hT⟩
  have pa : 0 ≤ Ba := (abs_nonneg _).trans (hBa 0 h00)
  have pb : 0 ≤ Bb := (abs_nonneg _).trans (hBb 0 h00)
  have pm : 0 ≤ Bm := (abs_nonneg _).trans (hBm 0 h00)
  have pS : 0 ≤ BS := (abs_nonneg _).trans (hBS 0 h00)
  have pα : 0 ≤ Bα := (abs_nonneg _).trans (hBα 0 h00)
  have pβ : 0 ≤ Bβ := (abs_nonneg _).trans (hBβ 0 h00)
  have pl : 0 ≤ Bl := (abs_nonneg _).trans (hBl 0 h00)
  have pp : 0 ≤ Bp := (abs_nonneg _).trans (hBp 0 h00)
  -- the variations of the moments
  have dM : ∀ ε, ∀ t ∈ Icc 0 T, HasDerivWithinAt (fun s => M ε s - m s) (-(a t * (M ε t - m t)) + ε * (β t - α t * M ε t)) (Icc 0 T) t := fun ε t ht => by
    refine (((hMP ε).mean t ht).sub (hc.mean t ht)).congr_deriv ?_
    ring
  have dP : ∀ ε, ∀ t ∈ Icc 0 T, HasDerivWithinAt (fun s => P ε s - S s) (-(2 * a t * (P ε t - S t)) + ε * (-(2 * α t * P ε t))) (Icc 0 T) t := fun ε t ht => by
    refine (((hMP ε).var t ht).sub (hc.var t ht)).congr_deriv ?_
    ring
  obtain ⟨K1, hK1e⟩ : ∃ K1, K1 = (Bβ + Bα * Bm) * Real.exp ((1 + Ba + Bα) * T) := ⟨_, rfl⟩
  obtain ⟨K2, hK2e⟩ : ∃ K2, K2 = (2 * Bα * BS) * Real.exp ((1 + 2 * Ba + 2 * Bα) * T) := ⟨_, rfl⟩
  have hK1 : 0 ≤ K1 := by rw [hK1e]; positivity
  have hK2 : 0 ≤ K2 := by rw [hK2e]; positivity
  have sM : ∀ ε, |ε| ≤ 1 → ∀ t ∈ Icc 0 T, |M ε t - m t| ≤ K1 * |ε| := fun ε hε => by
    rw [hK1e]
    refine linear_small (z := fun s => M ε s - m s) (u := fun t => a t + ε * α t) (v := fun t => β t - α t * m t) (by linarith) (by positivity) (fun t ht => ?_) (by rw [hM0, sub_self]) (fun t ht => ?_)
      (fun t ht => ?_)
    · refine (dM ε t ht).congr_deriv ?_
      ring
    · refine (abs_add_le _ _).trans ?_
      rw [abs_mul]
      have := mul_le_mul hε (hBα t ht) (abs_nonneg _) zero_le_one
      linarith [hBa t ht]
    · refine (abs_sub _ _).trans ?_
      rw [abs_mul]
      exact add_le_add (hBβ t ht) (mul_le_mul (hBα t ht) (hBm t ht) (abs_nonneg _) pα)
  have sP : ∀ ε, |ε| ≤ 1 → ∀ t ∈ Icc 0 T, |P ε t - S t| ≤ K2 * |ε| := fun ε hε => by
    rw [hK2e]
    refine linear_small (z := fun s => P ε s - S s) (u := fun t => 2 * a t + 2 * (ε * α t)) (v := fun t => -(2 * α t * S t)) (by linarith) (by positivity) (fun t ht => ?_) (by rw [hP0, sub_self]) (fun t ht => ?_)
      (fun t ht => ?_)
    · refine (dP ε t ht).congr_deriv ?_
      ring
    · refine (abs_add_le _ _).trans ?_
      rw [abs_mul, abs_mul, abs_mul, abs_of_pos (two_pos : (0 : ℝ) < 2)]
      have := mul_le_mul hε (hBα t ht) (abs_nonneg _) zero_le_one
      linarith [hBa t ht]
    · rw [abs_neg, abs_mul, abs_mul, abs_of_pos (two_pos : (0 : ℝ) < 2)]
      exact mul_le_mul (mul_le_mul_of_nonneg_left (hBα t ht) two_pos.le) (hBS t ht) (abs_nonneg _) (by positivity)
  -- Taylor
  obtain ⟨r, hr⟩ : ∃ r, r = Ba + Bb + Bm + BS + Bα + Bβ + K1 + K2 := ⟨_, rfl⟩
  obtain ⟨K3, hK3, taylor⟩ := taylor_on_ball hq r
  obtain ⟨K4, hK4e⟩ : ∃ K4, K4 = Bα + Bβ + K1 + K2 := ⟨_, rfl⟩
  obtain ⟨K, hKe⟩ : ∃ K, K = (K3 * K4 ^ 2 + Bl * Bα * K1 + 2 * Bp * Bα * K2) * T + ∑ _j : Fin k, K1 ^ 2 / (2 * R) := ⟨_, rfl⟩
  refine hasDerivAt_of_quadratic (K := K) fun ε hε => ?_
  have zero : ∀ t ∈ Icc 0 T, M 0 t = m t ∧ P 0 t = S t := fun t ht => by
    have h1 := sM 0 (by simp) t ht
    have h2 := sP 0 (by simp) t ht
    rw [abs_zero, mul_zero] at h1 h2
    exact ⟨by linarith [abs_nonpos_iff.1 h1], by linarith [abs_nonpos_iff.1 h2]⟩
  have e0 : (∫ t in (0 : ℝ)..T, q (a t + 0 * α t) (b t + 0 * β t) (M 0 t) (P 0 t)) = ∫ t in (0 : ℝ)..T, q (a t) (b t) (m t) (S t) := by
    refine intervalIntegral.integral_congr fun t ht => ?_
    rw [uIcc_of_le hT] at ht
    simp only [zero_mul, add_zero, (zero t ht).1, (zero t ht).2]
  have e0' : ∑ j, obsPoly (y j) R (M 0 (τ j), P 0 (τ j)) = ∑ j, obsPoly (y j) R (m (τ j), S (τ j)) :=
    Finset.sum_congr rfl fun j _ => by rw [(zero _ ⟨(hτ j).1, (hτ j).2.le⟩).1, (zero _ ⟨(hτ j).1, (hτ j).2.le⟩).2]
  have ii : ∀ {f : ℝ → ℝ}, ContinuousOn f (Icc 0 T) → IntervalIntegrable f volume 0 T := fun h => (h.mono (uIcc_of_le hT).subset).intervalIntegrable
  have iq := ii (unc_continuousOn hq.continuous hc)
  have iqe := ii (unc_continuousOn hq.continuous (hMP ε))
  have ia := unc_continuousOn ca hc
  have ib := unc_continuousOn cb hc
  have im := unc_continuousOn cm hc
  have is := unc_continuousOn cs hc
  obtain ⟨-, -, cM, cP⟩ := curve_parts (hMP ε)
  have il := hl.integrable hT
  have ip := hp.integrable hT
  have mc : ∀ {f g : ℝ → ℝ}, IntervalIntegrable f volume 0 T → ContinuousOn g (Icc 0 T) → IntervalIntegrable (fun t => f t * g t) volume 0 T := fun hf hg =>
    hf.mul_continuousOn (hg.mono (uIcc_of_le hT).subset)
  have ig : IntervalIntegrable (fun t => (Qa (a t) (b t) (m t) (S t) - lam t * m t - 2 * psi t * S t) * α t + (Qb (a t) (b t) (m t) (S t) + lam t) * β t) volume 0 T :=
    (mc (((ii ia).sub (mc il c3)).sub (mc (ip.const_mul 2) c4)) cα).add (mc ((ii ib).add il) cβ)
  have jl := hl.mul (dM ε)
  have jp := hp.mul (y := fun t => P ε t - S t) (y' := fun t => -(2 * a t * (P ε t - S t)) + ε * (-(2 * α t * P ε t))) (dP ε)
  have ifl : IntervalIntegrable (fun t => (-Qm (a t) (b t) (m t) (S t) + lam t * a t) * (M ε t - m t) + lam t * (-(a t * (M ε t - m t)) + ε * (β t - α t * M ε t))) volume 0 T :=
    (mc ((ii im.neg).add (mc il c1)) (cM.sub c3)).add (mc il ((c1.mul (cM.sub c3)).neg.add (continuousOn_const.mul (cβ.sub (cα.mul cM)))))
  have ifp : IntervalIntegrable (fun t => (-Qs (a t) (b t) (m t) (S t) + psi t * (2 * a t)) * (P ε t - S t) + psi t * (-(2 * a t * (P ε t - S t)) + ε * (-(2 * α t * P ε t)))) volume 0 T :=
    (mc ((ii is.neg).add (mc ip (continuousOn_const.mul c1))) (cP.sub c4)).add
      (mc ip (((continuousOn_const.mul c1).mul (cP.sub c4)).neg.add (continuousOn_const.mul ((continuousOn_const.mul cα).mul cP).neg)))
  have vl := jl.integral hT hτ ifl
  have vp := jp.integral hT hτ ifp
  simp only [hlT, hpT, hM0, hP0, sub_self, mul_zero, zero_mul, zero_add] at vl vp
  have obs : ∑ j, obsPoly (y j) R (M ε (τ j), P ε (τ j)) - ∑ j, obsPoly (y j) R (m (τ j), S (τ j))
      = (∑ j, (m (τ j) - y j) / R * (M ε (τ j) - m (τ j))) + (∑ j, 1 / (2 * R) * (P ε (τ j) - S (τ j))) + ∑ j, (M ε (τ j) - m (τ j)) ^ 2 / (2 * R) := by
    rw [← Finset.sum_sub_distrib, ← Finset.sum_add_distrib, ← Finset.sum_add_distrib]
    refine Finset.sum_congr rfl fun j _ => ?_
    simp only [obsPoly]
    norm_num
    field_simp
    ring
  -- the remainder
  obtain ⟨rem, hrem⟩ : ∃ rem : ℝ → ℝ, rem = fun t => q (a t + ε * α t) (b t + ε * β t) (M ε t) (P ε t) - q (a t) (b t) (m t) (S t)
      - ε * ((Qa (a t) (b t) (m t) (S t) - lam t * m t - 2 * psi t * S t) * α t + (Qb (a t) (b t) (m t) (S t) + lam t) * β t)
      + ((-Qm (a t) (b t) (m t) (S t) + lam t * a t) * (M ε t - m t) + lam t * (-(a t * (M ε t - m t)) + ε * (β t - α t * M ε t)))
      + ((-Qs (a t) (b t) (m t) (S t) + psi t * (2 * a t)) * (P ε t - S t) + psi t * (-(2 * a t * (P ε t - S t)) + ε * (-(2 * α t * P ε t)))) := ⟨_, rfl⟩
  have irem : ∫ t in (0 : ℝ)..T, rem t = (∫ t in (0 : ℝ)..T, q (a t + ε * α t) (b t + ε * β t) (M ε t) (P ε t)) - (∫ t in (0 : ℝ)..T, q (a t) (b t) (m t) (S t))
      - ε * (∫ t in (0 : ℝ)..T, ((Qa (a t) (b t) (m t) (S t) - lam t * m t - 2 * psi t * S t) * α t + (Qb (a t) (b t) (m t) (S t) + lam t) * β t))
      + (∑ j, (m (τ j) - y j) / R * (M ε (τ j) - m (τ j))) + ∑ j, 1 / (2 * R) * (P ε (τ j) - S (τ j)) := by
    rw [hrem, intervalIntegral.integral_add (((iqe.sub iq).sub (ig.const_mul ε)).add ifl) ifp, intervalIntegral.integral_add ((iqe.sub iq).sub (ig.const_mul ε)) ifl,
      intervalIntegral.integral_sub (iqe.sub iq) (ig.const_mul ε), intervalIntegral.integral_sub iqe iq, intervalIntegral.integral_const_mul, vl, vp]
  have brem : ∀ t ∈ uIoc 0 T, ‖rem t‖ ≤ (K3 * K4 ^ 2 + Bl * Bα * K1 + 2 * Bp * Bα * K2) * ε ^ 2 := by
    intro t ht
    rw [uIoc_of_le hT] at ht
    have ht' : t ∈ Icc 0 T := ⟨ht.1.le, ht.2⟩
    have x1 := hBa t ht'
    have x2 := hBb t ht'
    have x3 := hBm t ht'
    have x4 := hBS t ht'
    have x5 := hBα t ht'
    have x6 := hBβ t ht'
    have x7 := sM ε hε t ht'
    have x8 := sP ε hε t ht'
    have x9 : |ε * α t| ≤ Bα * |ε| := by rw [abs_mul, mul_comm]; exact mul_le_mul_of_nonneg_right x5 (abs_nonneg _)
    have x10 : |ε * β t| ≤ Bβ * |ε| := by rw [abs_mul, mul_comm]; exact mul_le_mul_of_nonneg_right x6 (abs_nonneg _)
    have le1 : ∀ {C : ℝ}, 0 ≤ C → C * |ε| ≤ C := fun hC => mul_le_of_le_one_right hC hε
    have tl := taylor (a t, b t, m t, S t) (a t + ε * α t, b t + ε * β t, M ε t, P ε t) (by
        simp only [Prod.norm_mk, Real.norm_eq_abs]
        refine max_le ?_ (max_le ?_ (max_le ?_ ?_)) <;> linarith) (by
        simp only [Prod.norm_mk, Real.norm_eq_abs]
        have z1 := abs_add_le (a t) (ε * α t)
        have z2 := abs_add_le (b t) (ε * β t)
        have z3 := abs_add_le (m t) (M ε t - m t)
        have z4 := abs_add_le (S t) (P ε t - S t)
        rw [add_sub_cancel] at z3 z4
        have w1 := le1 pα
        have w2 := le1 pβ
        have w3 := le1 hK1
        have w4 := le1 hK2
        refine max_le ?_ (max_le ?_ (max_le ?_ ?_)) <;> linarith)
    rw [fderiv_of_chain hch hq] at tl
    have nb : ‖((a t + ε * α t, b t + ε * β t, M ε t, P ε t) : ℝ × ℝ × ℝ × ℝ) - (a t, b t, m t, S t)‖ ≤ K4 * |ε| := by
      simp only [Prod.mk_sub_mk, Prod.norm_mk, Real.norm_eq_abs, add_sub_cancel_left]
      have v1 : 0 ≤ Bα * |ε| := by positivity
      have v2 : 0 ≤ Bβ * |ε| := by positivity
      have v3 : 0 ≤ K1 * |ε| := by positivity
      have v4 : 0 ≤ K2 * |ε| := by positivity
      rw [hK4e, add_mul, add_mul, add_mul]
      refine max_le ?_ (max_le ?_ (max_le ?_ ?_)) <;> linarith
    have tl2 := tl.trans (mul_le_mul_of_nonneg_left (pow_le_pow_left₀ (norm_nonneg _) nb 2) hK3)
    rw [mul_pow, sq_abs, ← mul_assoc] at tl2
    simp only [unc, Prod.mk_sub_mk, add_sub_cancel_left] at tl2
    have er : rem t = (q (a t + ε * α t) (b t + ε * β t) (M ε t) (P ε t) - q (a t) (b t) (m t) (S t)
        - (Qa (a t) (b t) (m t) (S t) * (ε * α t) + Qb (a t) (b t) (m t) (S t) * (ε * β t) + Qm (a t) (b t) (m t) (S t) * (M ε t - m t)
          + Qs (a t) (b t) (m t) (S t) * (P ε t - S t))) + -(lam t * (ε * α t) * (M ε t - m t)) + -(2 * psi t * (ε * α t) * (P ε t - S t)) := by
      rw [hrem]
      ring
    rw [er, Real.norm_eq_abs]
    refine (abs_add_le _ _).trans ?_
    refine (add_le_add_left (abs_add_le _ _) _).trans ?_
    rw [abs_neg, abs_neg]
    have b1 : |lam t * (ε * α t) * (M ε t - m t)| ≤ Bl * Bα * K1 * ε ^ 2 := by
      rw [abs_mul, abs_mul]
      calc |lam t| * |ε * α t| * |M ε t - m t| ≤ Bl * (Bα * |ε|) * (K1 * |ε|) := by
            have := hBl t ht'
            gcongr
        _ = _ := by rw [← sq_abs ε]; ring
    have b2 : |2 * psi t * (ε * α t) * (P ε t - S t)| ≤ 2 * Bp * Bα * K2 * ε ^ 2 := by
      rw [abs_mul, abs_mul, abs_mul, abs_of_pos (two_pos : (0 : ℝ) < 2)]
      calc 2 * |psi t| * |ε * α t| * |P ε t - S t| ≤ 2 * Bp * (Bα * |ε|) * (K2 * |ε|) := by
            have := hBp t ht'
            gcongr
        _ = _ := by rw [← sq_abs ε]; ring
    rw [add_mul, add_mul]
    exact add_le_add (add_le_add tl2 b1) b2
  have nrem := intervalIntegral.norm_integral_le_of_norm_le_const brem
  rw [sub_zero, abs_of_nonneg hT, Real.norm_eq_abs] at nrem
  have bobs : |∑ j, (M ε (τ j) - m (τ j)) ^ 2 / (2 * R)| ≤ (∑ _j : Fin k, K1 ^ 2 / (2 * R)) * ε ^ 2 := by
    rw [Finset.sum_mul]
    refine (Finset.abs_sum_le_sum_abs _ _).trans (Finset.sum_le_sum fun j _ => ?_)
    have := sM ε hε (τ j) ⟨(hτ j).1, (hτ j).2.le⟩
    rw [abs_div, abs_of_pos (by positivity : 0 < 2 * R), abs_pow, div_mul_eq_mul_div]
    refine div_le_div_of_nonneg_right ?_ (by positivity)
    rw [← sq_abs ε, ← mul_pow]
    exact pow_le_pow_left₀ (abs_nonneg _) this 2
  simp only [e0, e0']
  rw [hKe, add_mul]
  refine le_trans (le_of_eq (congrArg _ ?_)) ((abs_add_le (∫ t in (0 : ℝ)..T, rem t) (∑ j, (M ε (τ j) - m (τ j)) ^ 2 / (2 * R))).trans (add_le_add (nrem.trans (le_of_eq (by ring))) bobs))
  rw [irem]
  linear_combination obs

end

end VGPA
