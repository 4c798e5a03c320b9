import Verif.Props.Trapz
import Mathlib.Analysis.Calculus.MeanValue
import Mathlib.Analysis.Calculus.ContDiff.Defs
import Mathlib.Analysis.Calculus.ContDiff.Basic
import Mathlib.MeasureTheory.Integral.IntervalIntegral.Basic
import Mathlib.Analysis.Normed.Module.FiniteDimension

/-!
# The trapezoidal rule applied to perturbed values of a Lipschitz function
-/

namespace VGPA

open Set

theorem rule_sum (dt : ℝ) : ∀ (n : ℕ) (f : ℕ → ℝ), Spec.trapezoidRule dt (List.ofFn fun k : Fin (n + 1) => f k)
    = ∑ k ∈ Finset.range n, dt / 2 * (f k + f (k + 1))
  | 0, f => by simp [Spec.trapezoidRule]
  | n + 1, f => by
    have h := rule_sum dt n fun k => f (k + 1)
    rw [List.ofFn_succ, List.ofFn_succ]
    rw [List.ofFn_succ] at h
    simp only [Fin.val_succ, Fin.val_zero, zero_add] at h ⊢
    rw [Spec.trapezoidRule, h, Finset.sum_range_succ' _ n, smul_eq_mul]
    simp only [zero_add]
    ring

theorem rule_close {dt ε : ℝ} (hdt : 0 ≤ dt) (n : ℕ) (f g : ℕ → ℝ) (h : ∀ k ≤ n, |f k - g k| ≤ ε) :
    |Spec.trapezoidRule dt (List.ofFn fun k : Fin (n + 1) => f k) - Spec.trapezoidRule dt (List.ofFn fun k : Fin (n + 1) => g k)| ≤ n * dt * ε := by
  rw [rule_sum, rule_sum, ← Finset.sum_sub_distrib]
  refine (Finset.abs_sum_le_sum_abs _ _).trans ?_
  calc _ ≤ ∑ _k ∈ Finset.range n, dt * ε := Finset.sum_le_sum fun k hk => by
        rw [Finset.mem_range] at hk
        rw [← mul_sub, abs_mul, abs_of_nonneg (by positivity : 0 ≤ dt / 2)]
        have e : |f k + f (k + 1) - (g k + g (k + 1))| ≤ 2 * ε := by
          rw [show f k + f (k + 1) - (g k + g (k + 1)) = (f k - g k) + (f (k + 1) - g (k + 1)) by ring]
          refine (abs_add_le _ _).trans ?_
          linarith [h k hk.le, h (k + 1) hk]
        nlinarith
    _ = _ := by rw [Finset.sum_const, Finset.card_range, nsmul_eq_mul]; ring

/-- On a Lipschitz function the rule is off by at most `K T dt`. -/
theorem rule_integral {g : ℝ → ℝ} {T K dt : ℝ} (hdt : 0 < dt) {n : ℕ} (hn : n * dt = T) (hK : 0 ≤ K)
    (hg : ∀ s ∈ Icc 0 T, ∀ t ∈ Icc 0 T, |g s - g t| ≤ K * |s - t|) :
    |Spec.trapezoidRule dt (List.ofFn fun k : Fin (n + 1) => g (k * dt)) - ∫ t in (0 : ℝ)..T, g t| ≤ K * T * dt := by
  have hc : ContinuousOn g (Icc 0 T) := by
    have : LipschitzOnWith K.toNNReal g (Icc 0 T) := LipschitzOnWith.of_dist_le_mul fun s hs t ht => by
      rw [Real.coe_toNNReal _ hK, Real.dist_eq, Real.dist_eq]
      exact hg s hs t ht
    exact this.continuousOn
  have hin : ∀ k ≤ n, (k : ℝ) * dt ∈ Icc 0 T := fun k hk => ⟨by positivity, by
    rw [← hn]; gcongr⟩
  have hle : ∀ k : ℕ, (k : ℝ) * dt ≤ ((k + 1 : ℕ) : ℝ) * dt := fun k => by gcongr; simp
  have hii : ∀ k < n, IntervalIntegrable g MeasureTheory.volume (((k : ℕ) : ℝ) * dt) (((k + 1 : ℕ) : ℝ) * dt) := fun k hk => by
    apply ContinuousOn.intervalIntegrable
    refine hc.mono ?_
    rw [uIcc_of_le (hle k)]
    exact Icc_subset_Icc (hin k hk.le).1 (hin (k + 1) hk).2
  have hsum := intervalIntegral.sum_integral_adjacent_intervals (a := fun k : ℕ => (k : ℝ) * dt) (f := g) (μ := MeasureTheory.volume) (n := n) hii
  simp only [Nat.cast_zero, zero_mul] at hsum
  rw [hn] at hsum
  rw [rule_sum dt n (fun k => g (k * dt)), ← hsum, ← Finset.sum_sub_distrib]
  refine (Finset.abs_sum_le_sum_abs _ _).trans ?_
  calc _ ≤ ∑ _k ∈ Finset.range n, K * dt * dt := Finset.sum_le_sum fun k hk => by
        rw [Finset.mem_range] at hk
        have e1 : ((k + 1 : ℕ) : ℝ) * dt - k * dt = dt := by push_cast; ring
        have e : dt / 2 * (g (k * dt) + g ((k + 1 : ℕ) * dt)) = ∫ _t in ((k : ℕ) : ℝ) * dt..((k + 1 : ℕ) : ℝ) * dt, (g (k * dt) + g ((k + 1 : ℕ) * dt)) / 2 := by
          rw [intervalIntegral.integral_const, e1, smul_eq_mul]
          ring
        rw [e, ← intervalIntegral.integral_sub intervalIntegrable_const (hii k hk), ← Real.norm_eq_abs]
        have hb := intervalIntegral.norm_integral_le_of_norm_le_const (a := ((k : ℕ) : ℝ) * dt) (b := ((k + 1 : ℕ) : ℝ) * dt) (C := K * dt)
          (f := fun t => (g (k * dt) + g ((k + 1 : ℕ) * dt)) / 2 - g t) (fun t ht => by
          rw [uIoc_of_le (hle k)] at ht
          have hk0 := hin k hk.le
          have hk1 := hin (k + 1) hk
          have htT : t ∈ Icc 0 T := ⟨hk0.1.trans ht.1.le, ht.2.trans hk1.2⟩
          have j1 := hg _ hk0 t htT
          have j2 := hg _ hk1 t htT
          have a1 : |(k : ℝ) * dt - t| ≤ dt := by rw [abs_le]; constructor <;> linarith [ht.1, ht.2]
          have a2 : |((k + 1 : ℕ) : ℝ) * dt - t| ≤ dt := by rw [abs_le]; constructor <;> linarith [ht.1, ht.2]
          have b1 := j1.trans (mul_le_mul_of_nonneg_left a1 hK)
          have b2 := j2.trans (mul_le_mul_of_nonneg_left a2 hK)
          rw [Real.norm_eq_abs, abs_le]
          rw [abs_le] at b1 b2
          constructor <;> linarith [b1.1, b1.2, b2.1, b2.2])
        rw [e1, abs_of_pos hdt] at hb
        exact hb
    _ = _ := by rw [Finset.sum_const, Finset.card_range, nsmul_eq_mul, ← hn]; ring

section
variable {E : Type} [NormedAddCommGroup E] [NormedSpace ℝ E]

/-- Smooth functions of finitely many variables are Lipschitz on balls. -/
theorem lip_on_ball [FiniteDimensional ℝ E] {q : E → ℝ} (hq : ContDiff ℝ 1 q) (R : ℝ) :
    ∃ K, 0 ≤ K ∧ ∀ x y, ‖x‖ ≤ R → ‖y‖ ≤ R → |q x - q y| ≤ K * ‖x - y‖ := by
  have hp := FiniteDimensional.proper ℝ E
  obtain ⟨K, hK⟩ := (isCompact_closedBall (0 : E) R).exists_bound_of_continuousOn ((hq.continuous_fderiv (by norm_num)).continuousOn)
  refine ⟨max K 0, le_max_right _ _, fun x y hx hy => ?_⟩
  have := (convex_closedBall (0 : E) R).norm_image_sub_le_of_norm_fderiv_le (𝕜 := ℝ) (f := q) (C := max K 0) (x := y) (y := x)
    (fun z _ => (hq.differentiable (by norm_num)) z) (fun z hz => (hK z hz).trans (le_max_left _ _)) (by simpa using hy) (by simpa using hx)
  exact this

omit [NormedSpace ℝ E] in
theorem bounded_of_lip {u : ℝ → E} {T L : ℝ} (hL : 0 ≤ L) (hu : ∀ s ∈ Icc 0 T, ∀ t ∈ Icc 0 T, ‖u s - u t‖ ≤ L * |s - t|) :
    ∃ R, ∀ t ∈ Icc 0 T, ‖u t‖ ≤ R := by
  refine ⟨‖u 0‖ + L * T, fun t ht => ?_⟩
  have hT : (0 : ℝ) ∈ Icc 0 T := ⟨le_rfl, ht.1.trans ht.2⟩
  have h := hu t ht 0 hT
  rw [sub_zero, abs_of_nonneg ht.1] at h
  have : ‖u t‖ ≤ ‖u 0‖ + ‖u t - u 0‖ := by
    have := norm_add_le (u 0) (u t - u 0)
    rwa [add_sub_cancel] at this
  have h2 : L * t ≤ L * T := mul_le_mul_of_nonneg_left ht.2 hL
  linarith

omit [NormedSpace ℝ E] in
/-- The rule for a density that is Lipschitz on `D`, at values in `D` within `C dt` of a Lipschitz curve `u` in `D`, is within a constant times `dt` of the
integral along `u`. -/
theorem rule_converges_on {q : E → ℝ} {D : Set E} {K : ℝ} (hK : 0 ≤ K) (hlip : ∀ x ∈ D, ∀ y ∈ D, |q x - q y| ≤ K * ‖x - y‖) {u : ℝ → E} {T L : ℝ}
    (hT : 0 ≤ T) (hL : 0 ≤ L) (hu : ∀ s ∈ Icc 0 T, ∀ t ∈ Icc 0 T, ‖u s - u t‖ ≤ L * |s - t|) (huD : ∀ t ∈ Icc 0 T, u t ∈ D) (C : ℝ) :
    ∃ C', 0 ≤ C' ∧ ∀ (dt : ℝ) (n : ℕ) (v : ℕ → E), 0 < dt → n * dt = T → (∀ k ≤ n, ‖v k - u (k * dt)‖ ≤ C * dt) → (∀ k ≤ n, v k ∈ D) →
      |Spec.trapezoidRule dt (List.ofFn fun k : Fin (n + 1) => q (v k)) - ∫ t in (0 : ℝ)..T, q (u t)| ≤ C' * dt := by
  refine ⟨K * |C| * T + K * L * T, by positivity, fun dt n v hdt hn hv hvD => ?_⟩
  have hin : ∀ k ≤ n, (k : ℝ) * dt ∈ Icc 0 T := fun k hk => ⟨by positivity, by
    rw [← hn]; gcongr⟩
  have hb : ∀ k ≤ n, ‖v k - u (k * dt)‖ ≤ |C| * dt := fun k hk => (hv k hk).trans (mul_le_mul_of_nonneg_right (le_abs_self C) hdt.le)
  have h1 := rule_close hdt.le n (fun k => q (v k)) (fun k => q (u (k * dt))) (ε := K * (|C| * dt)) fun k hk =>
    (hlip _ (hvD k hk) _ (huD _ (hin k hk))).trans (mul_le_mul_of_nonneg_left (hb k hk) hK)
  have h2 := rule_integral (g := fun t => q (u t)) hdt hn (by positivity : 0 ≤ K * L) fun s hs t ht => by
    refine (hlip (u s) (huD s hs) (u t) (huD t ht)).trans ?_
    rw [mul_assoc]
    exact mul_le_mul_of_nonneg_left (hu s hs t ht) hK
  rw [hn] at h1
  have := abs_add_le (Spec.trapezoidRule dt (List.ofFn fun k : Fin (n + 1) => q (v k)) - Spec.trapezoidRule dt (List.ofFn fun k : Fin (n + 1) => q (u (k * dt))))
    (Spec.trapezoidRule dt (List.ofFn fun k : Fin (n + 1) => q (u (k * dt))) - ∫ t in (0 : ℝ)..T, q (u t))
  rw [sub_add_sub_cancel] at this
  refine this.trans ((add_le_add h1 h2).trans (le_of_eq ?_))
  ring

/-- The rule for a smooth density, at values within `C dt` of a Lipschitz curve `u`, is within a constant times `dt` of the integral along `u`. -/
theorem rule_converges [FiniteDimensional ℝ E] {q : E → ℝ} (hq : ContDiff ℝ 1 q) {u : ℝ → E} {T L : ℝ} (hT : 0 ≤ T) (hL : 0 ≤ L)
    (hu : ∀ s ∈ Icc 0 T, ∀ t ∈ Icc 0 T, ‖u s - u t‖ ≤ L * |s - t|) (C : ℝ) :
    ∃ C', 0 ≤ C' ∧ ∀ (dt : ℝ) (n : ℕ) (v : ℕ → E), 0 < dt → dt ≤ 1 → n * dt = T → (∀ k ≤ n, ‖v k - u (k * dt)‖ ≤ C * dt) →
      |Spec.trapezoidRule dt (List.ofFn fun k : Fin (n + 1) => q (v k)) - ∫ t in (0 : ℝ)..T, q (u t)| ≤ C' * dt := by
  obtain ⟨R, hR⟩ := bounded_of_lip hL hu
  obtain ⟨K, hK, hlip⟩ := lip_on_ball hq (R + |C|)
  obtain ⟨C', h0, h⟩ := rule_converges_on (D := {x | ‖x‖ ≤ R + |C|}) hK (fun x hx y hy => hlip x y hx hy) hT hL hu
    (fun t ht => (hR t ht).trans (le_add_of_nonneg_right (abs_nonneg C))) C
  refine ⟨C', h0, fun dt n v hdt hdt1 hn hv => h dt n v hdt hn hv fun k hk => ?_⟩
  have hin : (k : ℝ) * dt ∈ Icc 0 T := ⟨by positivity, by rw [← hn]; gcongr⟩
  have b1 := (hv k hk).trans (mul_le_mul_of_nonneg_right (le_abs_self C) hdt.le)
  have hC1 : |C| * dt ≤ |C| := by nlinarith [abs_nonneg C]
  have := norm_add_le (u (k * dt)) (v k - u (k * dt))
  rw [add_sub_cancel] at this
  have b2 := hR _ hin
  show ‖v k‖ ≤ R + |C|
  linarith

/-- Curves with a continuous derivative are Lipschitz. -/
theorem lip_of_deriv {z z' : ℝ → E} {T : ℝ} (hz : ∀ t ∈ Icc 0 T, HasDerivWithinAt z (z' t) (Icc 0 T) t) (hc : ContinuousOn z' (Icc 0 T)) :
    ∃ K, 0 ≤ K ∧ ∀ s ∈ Icc 0 T, ∀ t ∈ Icc 0 T, ‖z s - z t‖ ≤ K * |s - t| := by
  obtain ⟨K, hK⟩ := isCompact_Icc.exists_bound_of_continuousOn hc
  refine ⟨max K 0, le_max_right _ _, fun s hs t ht => ?_⟩
  exact (convex_Icc (0 : ℝ) T).norm_image_sub_le_of_norm_hasDerivWithin_le hz (fun x hx => (hK x hx).trans (le_max_left _ _)) ht hs

end

end VGPA
