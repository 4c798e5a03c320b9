import Verif.Props.OdeJumps
import Mathlib.MeasureTheory.Integral.IntervalIntegral.FundThmCalculus
import Mathlib.Analysis.SpecialFunctions.ExpDeriv

/-!
# Linear equations with jumps, backward in time
-/

namespace VGPA

open Set Filter Topology MeasureTheory

noncomputable section

/-- The function `z` has the derivative `f` from the left on `(0, T]`, and its value at `t` in `[0, T)` exceeds its limit from the right by the sum of the `c j` with `τ j = t`. -/
structure Jumping {k : ℕ} (T : ℝ) (z f : ℝ → ℝ) (τ c : Fin k → ℝ) : Prop where
  deriv : ∀ t ∈ Ioc 0 T, HasDerivWithinAt z (f t) (Iic t) t
  jump : ∀ t ∈ Ico 0 T, Tendsto z (𝓝[>] t) (𝓝 (z t - ∑ j, if τ j = t then c j else 0))

/-- The sum of the jumps before `t`. -/
def stepSum {k : ℕ} (τ c : Fin k → ℝ) (t : ℝ) : ℝ := ∑ j, if τ j < t then c j else 0

theorem stepSum_left {k : ℕ} (τ c : Fin k → ℝ) (t : ℝ) : ∀ᶠ s in 𝓝[≤] t, stepSum τ c s = stepSum τ c t := by
  have h : ∀ j, ∀ᶠ s in 𝓝[≤] t, (if τ j < s then c j else 0) = if τ j < t then c j else 0 := by
    intro j
    by_cases hj : τ j < t
    · have : ∀ᶠ s in 𝓝[≤] t, τ j < s := (eventually_gt_nhds hj).filter_mono nhdsWithin_le_nhds
      filter_upwards [this] with s hs
      rw [if_pos hs, if_pos hj]
    · filter_upwards [self_mem_nhdsWithin] with s hs
      have : s ≤ t := hs
      rw [if_neg hj, if_neg (by linarith)]
  filter_upwards [eventually_all.2 h] with s hs
  exact Finset.sum_congr rfl fun j _ => hs j

theorem stepSum_right {k : ℕ} (τ c : Fin k → ℝ) (t : ℝ) :
    ∀ᶠ s in 𝓝[>] t, stepSum τ c s = stepSum τ c t + ∑ j, if τ j = t then c j else 0 := by
  have h : ∀ j, ∀ᶠ s in 𝓝[>] t, (if τ j < s then c j else 0) = (if τ j < t then c j else 0) + if τ j = t then c j else 0 := by
    intro j
    rcases lt_trichotomy (τ j) t with hj | hj | hj
    · filter_upwards [self_mem_nhdsWithin] with s hs
      have : t < s := hs
      rw [if_pos (by linarith), if_pos hj, if_neg hj.ne, add_zero]
    · filter_upwards [self_mem_nhdsWithin] with s hs
      have : t < s := hs
      rw [if_pos (by linarith), if_neg (by linarith), if_pos hj, zero_add]
    · have : ∀ᶠ s in 𝓝[>] t, s < τ j := (eventually_lt_nhds hj).filter_mono nhdsWithin_le_nhds
      filter_upwards [this] with s hs
      rw [if_neg (by linarith), if_neg (by linarith), if_neg hj.ne', add_zero]
  filter_upwards [eventually_all.2 h] with s hs
  rw [stepSum, stepSum, ← Finset.sum_add_distrib]
  exact Finset.sum_congr rfl fun j _ => hs j

variable {k : ℕ} {T : ℝ} {z f : ℝ → ℝ} {τ c : Fin k → ℝ}

theorem Jumping.filled_deriv (h : Jumping T z f τ c) {t : ℝ} (ht : t ∈ Ioc 0 T) : HasDerivWithinAt (fun s => z s + stepSum τ c s) (f t) (Iic t) t := by
  have := (h.deriv t ht).add_const (stepSum τ c t)
  refine this.congr_of_eventuallyEq ?_ rfl
  filter_upwards [stepSum_left τ c t] with s hs
  rw [hs]

theorem Jumping.filled_continuous (h : Jumping T z f τ c) : ContinuousOn (fun s => z s + stepSum τ c s) (Icc 0 T) := by
  intro t ht
  have hr : ContinuousWithinAt (fun s => z s + stepSum τ c s) (Icc 0 T ∩ Ioi t) t := by
    rcases eq_or_lt_of_le ht.2 with rfl | hlt
    · have : Icc 0 t ∩ Ioi t = ∅ := by
        ext x
        simp only [mem_inter_iff, mem_Icc, mem_Ioi, mem_empty_iff_false, iff_false]
        rintro ⟨h1, h2⟩
        linarith [h1.2]
      rw [this]
      simp [ContinuousWithinAt]
    · have h1 : Tendsto (fun s => z s + stepSum τ c s) (𝓝[>] t) (𝓝 (z t + stepSum τ c t)) := by
        have h2 := (h.jump t ⟨ht.1, hlt⟩).add_const (stepSum τ c t + ∑ j, if τ j = t then c j else 0)
        rw [show z t - (∑ j, if τ j = t then c j else 0) + (stepSum τ c t + ∑ j, if τ j = t then c j else 0) = z t + stepSum τ c t by ring] at h2
        refine h2.congr' ?_
        filter_upwards [stepSum_right τ c t] with s hs
        rw [hs]
      exact h1.mono_left (nhdsWithin_mono _ inter_subset_right)
  have hl : ContinuousWithinAt (fun s => z s + stepSum τ c s) (Icc 0 T ∩ Iic t) t := by
    rcases eq_or_lt_of_le ht.1 with rfl | hlt
    · have : Icc 0 T ∩ Iic 0 ⊆ {(0 : ℝ)} := by
        rintro x ⟨h1, h2⟩
        exact le_antisymm h2 h1.1
      exact (continuousWithinAt_singleton).mono this
    · exact (h.filled_deriv ⟨hlt, ht.2⟩).continuousWithinAt.mono inter_subset_right
  have : Icc 0 T = (Icc 0 T ∩ Iic t) ∪ (Icc 0 T ∩ Ioi t) := by
    rw [← inter_union_distrib_left, Iic_union_Ioi, inter_univ]
  rw [this]
  exact hl.union hr

theorem stepSum_integrable (τ c : Fin k → ℝ) (T : ℝ) : IntervalIntegrable (stepSum τ c) volume 0 T := by
  have e : stepSum τ c = ∑ j, fun t => if τ j < t then c j else 0 := by
    funext t
    simp only [stepSum, Finset.sum_apply]
  rw [e]
  refine IntervalIntegrable.sum _ (f := fun j t => if τ j < t then c j else 0) fun j _ => ?_
  have h : Monotone fun t : ℝ => if τ j < t then (1 : ℝ) else 0 := by
    intro s t hst
    dsimp only
    split_ifs with h1 h2
    · exact le_rfl
    · linarith
    · exact zero_le_one
    · exact le_rfl
  have := (h.intervalIntegrable (μ := volume) (a := 0) (b := T)).const_mul (c j)
  refine this.congr fun t _ => ?_
  split_ifs <;> simp

theorem Jumping.integrable (h : Jumping T z f τ c) (hT : 0 ≤ T) : IntervalIntegrable z volume 0 T := by
  have h1 : IntervalIntegrable (fun s => z s + stepSum τ c s) volume 0 T :=
    (h.filled_continuous.mono (uIcc_of_le hT).subset).intervalIntegrable
  exact (h1.sub (stepSum_integrable τ c T)).congr fun t _ => add_sub_cancel_right _ _

theorem Jumping.bounded (h : Jumping T z f τ c) : ∃ B, ∀ t ∈ Icc 0 T, |z t| ≤ B := by
  obtain ⟨K, hK⟩ := isCompact_Icc.exists_bound_of_continuousOn h.filled_continuous
  refine ⟨K + ∑ j, |c j|, fun t ht => ?_⟩
  have h1 := hK t ht
  rw [Real.norm_eq_abs] at h1
  have h2 : |stepSum τ c t| ≤ ∑ j, |c j| := by
    refine (Finset.abs_sum_le_sum_abs _ _).trans (Finset.sum_le_sum fun j _ => ?_)
    split_ifs
    · exact le_rfl
    · simp
  have h3 := abs_sub (z t + stepSum τ c t) (stepSum τ c t)
  rw [add_sub_cancel_right] at h3
  linarith

/-- The fundamental theorem of calculus with jumps. -/
theorem Jumping.integral (h : Jumping T z f τ c) (hT : 0 ≤ T) (hτ : ∀ j, τ j ∈ Ico 0 T) (hf : IntervalIntegrable f volume 0 T) :
    ∫ t in (0 : ℝ)..T, f t = z T - z 0 + ∑ j, c j := by
  have h1 : ∫ s in (0 : ℝ)..T, -f (T - s) = (z (T - T) + stepSum τ c (T - T)) - (z (T - 0) + stepSum τ c (T - 0)) := by
    refine intervalIntegral.integral_eq_sub_of_hasDeriv_right_of_le (f := fun s => z (T - s) + stepSum τ c (T - s)) hT ?_ (fun s hs => ?_) ?_
    · exact h.filled_continuous.comp (by fun_prop) fun s hs => ⟨by linarith [hs.2], by linarith [hs.1]⟩
    · have := h.filled_deriv (t := T - s) ⟨by linarith [hs.2], by linarith [hs.1]⟩
      rw [← neg_neg (f (T - s))] at this
      exact (reverse_deriv this).mono Ioi_subset_Ici_self
    · have := (hf.comp_sub_left T).symm
      simp only [sub_self, sub_zero] at this
      exact this.neg
  rw [intervalIntegral.integral_neg, intervalIntegral.integral_comp_sub_left (fun s => f s) T] at h1
  simp only [sub_self, sub_zero] at h1
  have s0 : stepSum τ c 0 = 0 := Finset.sum_eq_zero fun j _ => if_neg (not_lt.2 (hτ j).1)
  have sT : stepSum τ c T = ∑ j, c j := Finset.sum_congr rfl fun j _ => if_pos (hτ j).2
  rw [s0, sT] at h1
  linarith

theorem Jumping.mul {y y' : ℝ → ℝ} (h : Jumping T z f τ c) (hy : ∀ t ∈ Icc 0 T, HasDerivWithinAt y (y' t) (Icc 0 T) t) :
    Jumping T (fun t => z t * y t) (fun t => f t * y t + z t * y' t) τ (fun j => c j * y (τ j)) where
  deriv t ht := by
    have h1 : HasDerivWithinAt y (y' t) (Iic t) t := by
      refine (hy t ⟨ht.1.le, ht.2⟩).mono_of_mem_nhdsWithin ?_
      filter_upwards [self_mem_nhdsWithin, mem_nhdsWithin_of_mem_nhds (Ioi_mem_nhds ht.1)] with s hs hs'
      exact ⟨le_of_lt hs', le_trans hs ht.2⟩
    exact (h.deriv t ht).mul h1
  jump t ht := by
    have h1 : Tendsto y (𝓝[>] t) (𝓝 (y t)) := by
      refine (hy t ⟨ht.1, ht.2.le⟩).continuousWithinAt.tendsto.mono_left ?_
      refine nhdsWithin_le_iff.2 ?_
      filter_upwards [self_mem_nhdsWithin, mem_nhdsWithin_of_mem_nhds (Iio_mem_nhds ht.2)] with s hs hs'
      exact ⟨ht.1.trans (le_of_lt hs), le_of_lt hs'⟩
    have h2 := (h.jump t ht).mul h1
    have e : (z t - ∑ j, if τ j = t then c j else 0) * y t = z t * y t - ∑ j, if τ j = t then c j * y (τ j) else 0 := by
      rw [sub_mul, Finset.sum_mul]
      congr 1
      refine Finset.sum_congr rfl fun j _ => ?_
      split_ifs with hj
      · rw [hj]
      · rw [zero_mul]
    rw [e] at h2
    exact h2

/-- The linear equation `dz/dt = -e + z a` with jumps has a solution that vanishes at `T`. -/
theorem exists_jumping {a e : ℝ → ℝ} (hT : 0 ≤ T) (ha : ContinuousOn a (Icc 0 T)) (he : ContinuousOn e (Icc 0 T)) (τ c : Fin k → ℝ) (hτ : ∀ j, τ j ∈ Ico 0 T) :
    ∃ z : ℝ → ℝ, z T = 0 ∧ Jumping T z (fun t => -e t + z t * a t) τ c := by
  obtain ⟨a', ca, ea⟩ : ∃ a' : ℝ → ℝ, Continuous a' ∧ ∀ t ∈ Icc 0 T, a' t = a t :=
    ⟨IccExtend hT ((Icc 0 T).domRestrict a), (continuousOn_iff_continuous_domRestrict.1 ha).Icc_extend', fun t ht => by
      rw [IccExtend_of_mem hT _ ht]; rfl⟩
  obtain ⟨e', ce, ee⟩ : ∃ e' : ℝ → ℝ, Continuous e' ∧ ∀ t ∈ Icc 0 T, e' t = e t :=
    ⟨IccExtend hT ((Icc 0 T).domRestrict e), (continuousOn_iff_continuous_domRestrict.1 he).Icc_extend', fun t ht => by
      rw [IccExtend_of_mem hT _ ht]; rfl⟩
  let P : ℝ → ℝ := fun t => ∫ s in (0 : ℝ)..t, a' s
  have hP : ∀ t, HasDerivAt P (a' t) t := fun t => (ca.integral_hasStrictDerivAt 0 t).hasDerivAt
  have cP : Continuous P := continuous_iff_continuousAt.2 fun t => (hP t).continuousAt
  let Q : ℝ → ℝ := fun t => ∫ s in T..t, Real.exp (-P s) * e' s
  have hQ : ∀ t, HasDerivAt Q (Real.exp (-P t) * e' t) t := fun t =>
    (Continuous.integral_hasStrictDerivAt (f := fun s => Real.exp (-P s) * e' s) (by fun_prop) T t).hasDerivAt
  have hexp : ∀ t, HasDerivAt (fun s => Real.exp (P s)) (Real.exp (P t) * a' t) t := fun t =>
    (Real.hasDerivAt_exp (P t)).comp t (hP t)
  let J : ℝ → ℝ := fun t => ∑ j, if t ≤ τ j then c j * Real.exp (-P (τ j)) else 0
  have hJl : ∀ t, ∀ᶠ s in 𝓝[≤] t, J s = J t := by
    intro t
    have h : ∀ j, ∀ᶠ s in 𝓝[≤] t, (if s ≤ τ j then c j * Real.exp (-P (τ j)) else 0) = if t ≤ τ j then c j * Real.exp (-P (τ j)) else 0 := by
      intro j
      by_cases hj : t ≤ τ j
      · filter_upwards [self_mem_nhdsWithin] with s hs
        rw [if_pos (le_trans hs hj), if_pos hj]
      · have : ∀ᶠ s in 𝓝[≤] t, τ j < s := (eventually_gt_nhds (not_le.1 hj)).filter_mono nhdsWithin_le_nhds
        filter_upwards [this] with s hs
        rw [if_neg (not_le.2 hs), if_neg hj]
    filter_upwards [eventually_all.2 h] with s hs
    exact Finset.sum_congr rfl fun j _ => hs j
  have hJr : ∀ t, ∀ᶠ s in 𝓝[>] t, J s = J t - ∑ j, if τ j = t then c j * Real.exp (-P (τ j)) else 0 := by
    intro t
    have h : ∀ j, ∀ᶠ s in 𝓝[>] t, (if s ≤ τ j then c j * Real.exp (-P (τ j)) else 0)
        = (if t ≤ τ j then c j * Real.exp (-P (τ j)) else 0) - if τ j = t then c j * Real.exp (-P (τ j)) else 0 := by
      intro j
      rcases lt_trichotomy (τ j) t with hj | hj | hj
      · filter_upwards [self_mem_nhdsWithin] with s hs
        have : t < s := hs
        rw [if_neg (by linarith), if_neg (by linarith), if_neg hj.ne, sub_zero]
      · filter_upwards [self_mem_nhdsWithin] with s hs
        have : t < s := hs
        rw [if_neg (by linarith), if_pos hj.ge, if_pos hj, sub_self]
      · have : ∀ᶠ s in 𝓝[>] t, s < τ j := (eventually_lt_nhds hj).filter_mono nhdsWithin_le_nhds
        filter_upwards [this] with s hs
        rw [if_pos hs.le, if_pos hj.le, if_neg hj.ne', sub_zero]
    filter_upwards [eventually_all.2 h] with s hs
    simp only [J]
    rw [← Finset.sum_sub_distrib]
    exact Finset.sum_congr rfl fun j _ => hs j
  refine ⟨fun t => Real.exp (P t) * (J t - Q t), ?_, ⟨fun t ht => ?_, fun t ht => ?_⟩⟩
  · have h1 : J T = 0 := Finset.sum_eq_zero fun j _ => if_neg (not_le.2 (hτ j).2)
    have h2 : Q T = 0 := intervalIntegral.integral_same
    simp only [h1, h2, sub_zero, mul_zero]
  · have ht' : t ∈ Icc 0 T := ⟨ht.1.le, ht.2⟩
    have h1 : HasDerivWithinAt (fun s => Real.exp (P s) * (J t - Q s)) (-e t + Real.exp (P t) * (J t - Q t) * a t) (Iic t) t := by
      have := ((hexp t).mul ((hQ t).const_sub (J t))).hasDerivWithinAt (s := Iic t)
      refine this.congr_deriv ?_
      rw [ea t ht', ee t ht', Real.exp_neg]
      have := Real.exp_ne_zero (P t)
      field_simp
      ring
    refine h1.congr_of_eventuallyEq ?_ rfl
    filter_upwards [hJl t] with s hs
    rw [hs]
  · have h1 : Tendsto (fun s => Real.exp (P s) * (J t - (∑ j, if τ j = t then c j * Real.exp (-P (τ j)) else 0) - Q s)) (𝓝[>] t)
        (𝓝 (Real.exp (P t) * (J t - (∑ j, if τ j = t then c j * Real.exp (-P (τ j)) else 0) - Q t))) := by
      have cQ : ContinuousAt Q t := (hQ t).continuousAt
      have : ContinuousAt (fun s => Real.exp (P s) * (J t - (∑ j, if τ j = t then c j * Real.exp (-P (τ j)) else 0) - Q s)) t :=
        ((hexp t).continuousAt).mul (continuousAt_const.sub cQ)
      exact this.tendsto.mono_left nhdsWithin_le_nhds
    have e1 : Real.exp (P t) * (J t - (∑ j, if τ j = t then c j * Real.exp (-P (τ j)) else 0) - Q t)
        = Real.exp (P t) * (J t - Q t) - ∑ j, if τ j = t then c j else 0 := by
      have : Real.exp (P t) * (∑ j, if τ j = t then c j * Real.exp (-P (τ j)) else 0) = ∑ j, if τ j = t then c j else 0 := by
        rw [Finset.mul_sum]
        refine Finset.sum_congr rfl fun j _ => ?_
        split_ifs with hj
        · rw [hj, mul_left_comm, ← Real.exp_add, add_neg_cancel, Real.exp_zero, mul_one]
        · rw [mul_zero]
      rw [← this]
      ring
    rw [e1] at h1
    refine h1.congr' ?_
    filter_upwards [hJr t] with s hs
    rw [hs]

end

end VGPA
