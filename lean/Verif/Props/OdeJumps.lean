import Verif.Props.OdeVarying
import Mathlib.Analysis.Calculus.Deriv.Pow

/-!
# C107: the backward sweeps converge to the solutions of the adjoint equations with jumps
-/

namespace VGPA

noncomputable section

open Matrix Set Filter Topology

section generic
variable {X W : Type} [NormedAddCommGroup X] [NormedSpace ℝ X] [NormedAddCommGroup W] [NormedSpace ℝ W]

/-- Between jumps a solution is continuous. -/
theorem cont_piece {z f : ℝ → X} {t e : ℝ} (hz : ∀ s ∈ Ico t e, HasDerivWithinAt z (f s) (Ici s) s)
    (hl : ∀ s ∈ Ioo t e, Tendsto z (𝓝[<] s) (𝓝 (z s))) : ContinuousOn z (Ico t e) := by
  intro s hs
  rcases eq_or_lt_of_le hs.1 with rfl | hlt
  · exact (hz t hs).continuousWithinAt.mono fun x hx => hx.1
  · refine (continuousAt_iff_continuous_left'_right'.2 ⟨hl s ⟨hlt, hs.2⟩, ?_⟩).continuousWithinAt
    exact (hz s hs).continuousWithinAt.mono Ioi_subset_Ici_self

/-- A solution does not move far between jumps. -/
theorem lip_piece {z f : ℝ → X} {t e M : ℝ} (hz : ∀ s ∈ Ico t e, HasDerivWithinAt z (f s) (Ici s) s)
    (hl : ∀ s ∈ Ioo t e, Tendsto z (𝓝[<] s) (𝓝 (z s))) (hM : ∀ s ∈ Ico t e, ‖f s‖ ≤ M) {s : ℝ} (hs : s ∈ Ico t e) :
    ‖z s - z t‖ ≤ M * (s - t) := by
  have hsub : ∀ x ∈ Ico t s, x ∈ Ico t e := fun x hx => ⟨hx.1, hx.2.trans hs.2⟩
  exact norm_image_sub_le_of_norm_deriv_right_le_segment ((cont_piece hz hl).mono fun x hx => ⟨hx.1, hx.2.trans_lt hs.2⟩)
    (fun x hx => hz x (hsub x hx)) (fun x hx => hM x (hsub x hx)) s ⟨hs.1, le_rfl⟩

/-- The local error of Euler's rule up to the next jump. -/
theorem local_error_jump {z f : ℝ → X} {t h Λ : ℝ} {J : X} (hh : 0 < h) (hΛ0 : 0 ≤ Λ)
    (hz : ∀ s ∈ Ico t (t + h), HasDerivWithinAt z (f s) (Ici s) s)
    (hl : ∀ s ∈ Ioo t (t + h), Tendsto z (𝓝[<] s) (𝓝 (z s))) (he : Tendsto z (𝓝[<] (t + h)) (𝓝 (z (t + h) - J)))
    (hΛ : ∀ s ∈ Ico t (t + h), ‖f s - f t‖ ≤ Λ * (s - t)) :
    ‖z (t + h) - J - (z t + h • f t)‖ ≤ Λ * h ^ 2 := by
  let ν := Function.update z (t + h) (z (t + h) - J)
  have hν : ∀ s, s ≠ t + h → ν s = z s := fun s hs => Function.update_of_ne hs _ _
  have hνe : ν (t + h) = z (t + h) - J := Function.update_self _ _ _
  have hcont : ContinuousOn ν (Icc t (t + h)) := by
    intro s hs
    rcases eq_or_lt_of_le hs.2 with rfl | hlt
    · rw [continuousWithinAt_update_same]
      refine he.mono_left (nhdsWithin_mono _ ?_)
      intro x hx
      exact lt_of_le_of_ne hx.1.2 hx.2
    · have h1 : ContinuousWithinAt z (Icc t (t + h)) s := by
        refine (cont_piece hz hl s ⟨hs.1, hlt⟩).mono_of_mem_nhdsWithin ?_
        refine mem_nhdsWithin.2 ⟨Iio (t + h), isOpen_Iio, hlt, ?_⟩
        intro x hx
        exact ⟨hx.2.1, hx.1⟩
      refine h1.congr_of_eventuallyEq ?_ (hν s hlt.ne)
      exact mem_nhdsWithin.2 ⟨Iio (t + h), isOpen_Iio, hlt, fun x hx => hν x (ne_of_lt hx.1)⟩
  have hd : ∀ s ∈ Ico t (t + h), HasDerivWithinAt (fun s => ν s - s • f t) (f s - f t) (Ici s) s := by
    intro s hs
    have h1 : HasDerivWithinAt ν (f s) (Ici s) s := by
      refine (hz s hs).congr_of_eventuallyEq ?_ (hν s hs.2.ne)
      exact mem_nhdsWithin.2 ⟨Iio (t + h), isOpen_Iio, hs.2, fun x hx => hν x (ne_of_lt hx.1)⟩
    have h2 : HasDerivWithinAt (fun s : ℝ => s • f t) ((1 : ℝ) • f t) (Ici s) s := (hasDerivWithinAt_id s _).smul_const (f t)
    rw [one_smul] at h2
    exact h1.sub h2
  have hb : ∀ s ∈ Ico t (t + h), ‖f s - f t‖ ≤ Λ * h := fun s hs => (hΛ s hs).trans (by gcongr; linarith [hs.2])
  have := norm_image_sub_le_of_norm_deriv_right_le_segment (hcont.sub (by fun_prop : Continuous fun s : ℝ => s • f t).continuousOn) hd hb (t + h)
    ⟨by linarith, le_rfl⟩
  simp only [Pi.sub_apply] at this
  rw [hνe, hν t (by linarith)] at this
  have e : z (t + h) - J - (t + h) • f t - (z t - t • f t) = z (t + h) - J - (z t + h • f t) := by module
  rw [e] at this
  calc _ ≤ _ := this
    _ = _ := by ring

/-- A function with limits from both sides is bounded on a compact interval. -/
theorem bounded_of_limits {z f J : ℝ → X} {T : ℝ} (hz : ∀ t ∈ Ico 0 T, HasDerivWithinAt z (f t) (Ici t) t)
    (hl : ∀ t ∈ Ioc 0 T, Tendsto z (𝓝[<] t) (𝓝 (z t - J t))) : ∃ b, ∀ t ∈ Icc 0 T, ‖z t‖ ≤ b := by
  refine isCompact_Icc.induction_on (p := fun s => ∃ b, ∀ t ∈ s, ‖z t‖ ≤ b) ⟨0, by simp⟩ ?_ ?_ ?_
  · rintro s t hst ⟨b, hb⟩
    exact ⟨b, fun x hx => hb x (hst hx)⟩
  · rintro s t ⟨b, hb⟩ ⟨c, hc⟩
    refine ⟨max b c, ?_⟩
    rintro x (hx | hx)
    · exact (hb x hx).trans (le_max_left _ _)
    · exact (hc x hx).trans (le_max_right _ _)
  · intro t ht
    have hr : ∃ b, ∀ᶠ x in 𝓝[Icc 0 T ∩ Ici t] t, ‖z x‖ ≤ b := by
      rcases eq_or_lt_of_le ht.2 with rfl | hlt
      · refine ⟨‖z t‖, eventually_nhdsWithin_of_forall ?_⟩
        intro x hx
        rw [le_antisymm hx.1.2 hx.2]
      · refine ⟨‖z t‖ + 1, ?_⟩
        have h1 : Tendsto z (𝓝[≥] t) (𝓝 (z t)) := (hz t ⟨ht.1, hlt⟩).continuousWithinAt
        have h2 := (h1.norm.eventually (ge_mem_nhds (lt_add_one ‖z t‖)))
        exact h2.filter_mono (nhdsWithin_mono _ inter_subset_right)
    have hlf : ∃ b, ∀ᶠ x in 𝓝[Icc 0 T ∩ Iio t] t, ‖z x‖ ≤ b := by
      rcases eq_or_lt_of_le ht.1 with rfl | hlt
      · refine ⟨0, eventually_nhdsWithin_of_forall ?_⟩
        intro x hx
        exact absurd hx.2 (not_lt.2 hx.1.1)
      · refine ⟨‖z t - J t‖ + 1, ?_⟩
        have h2 := ((hl t ⟨hlt, ht.2⟩).norm.eventually (ge_mem_nhds (lt_add_one _)))
        exact h2.filter_mono (nhdsWithin_mono _ inter_subset_right)
    obtain ⟨b, hb⟩ := hr
    obtain ⟨c, hc⟩ := hlf
    refine ⟨{x | ‖z x‖ ≤ max b c}, ?_, max b c, fun x hx => hx⟩
    have e : Icc 0 T = (Icc 0 T ∩ Ici t) ∪ (Icc 0 T ∩ Iio t) := by
      rw [← inter_union_distrib_left, union_comm, Iio_union_Ici, inter_univ]
    rw [e, nhdsWithin_union, mem_sup]
    exact ⟨hb.mono fun x hx => hx.trans (le_max_left _ _), hc.mono fun x hx => hx.trans (le_max_right _ _)⟩

/-- Perturbed by errors of size `u` in each step: Every method converges with at least the first order to the solution of a linear equation with Lipschitz coefficients and jumps at grid points. -/
theorem affine_converges_jumps_pert {B : W →ₗ[ℝ] X →ₗ[ℝ] X} {β : ℝ} (hβ : 0 ≤ β) (hB : ∀ a y, ‖B a y‖ ≤ β * ‖a‖ * ‖y‖) {T L : ℝ} (hT : 0 ≤ T) (hL : 0 ≤ L)
    {a : ℝ → W} {c z J : ℝ → X} (hLa : ∀ s ∈ Icc 0 T, ∀ t ∈ Icc 0 T, ‖a s - a t‖ ≤ L * |s - t|)
    (hLc : ∀ s ∈ Icc 0 T, ∀ t ∈ Icc 0 T, ‖c s - c t‖ ≤ L * |s - t|)
    (hz : ∀ t ∈ Ico 0 T, HasDerivWithinAt z (aff B (a t) (c t) (z t)) (Ici t) t)
    (hJ : ∀ t ∈ Ioc 0 T, Tendsto z (𝓝[<] t) (𝓝 (z t - J t))) (Ε : ℝ → ℝ) :
    ∃ C δ, 0 ≤ C ∧ 0 < δ ∧ ∀ (meth : Method) (dt u : ℝ) (n : ℕ) (y : ℕ → X), 0 < dt → dt < δ → 0 ≤ u → u < δ * dt → n * dt ≤ T → y 0 = z 0 →
      (∀ k < n, ∀ t ∈ Ioo (k * dt) ((k + 1 : ℕ) * dt), J t = 0) →
      (∀ k < n, ∀ r, ‖y k‖ ≤ r → ‖y (k + 1) - (gStep meth dt (aff B (a (k * dt)) (c (k * dt)))
        (aff B ((0.5 : ℝ) • (a (k * dt) + a ((k + 1 : ℕ) * dt))) ((0.5 : ℝ) • (c (k * dt) + c ((k + 1 : ℕ) * dt))))
        (aff B (a ((k + 1 : ℕ) * dt)) (c ((k + 1 : ℕ) * dt))) (aff B (a (k * dt)) (c (k * dt))) (y k) + J ((k + 1 : ℕ) * dt))‖ ≤ Ε r * u) →
      ∀ k ≤ n, ‖y k - z (k * dt)‖ ≤ C * (dt + u / dt) := by
  have h0 : (0 : ℝ) ∈ Icc 0 T := ⟨le_rfl, hT⟩
  obtain ⟨α, hα⟩ : ∃ α, ∀ t ∈ Icc 0 T, ‖a t‖ ≤ α := by
    refine ⟨‖a 0‖ + L * T, fun t ht => ?_⟩
    have h1 := hLa t ht 0 h0
    rw [sub_zero, abs_of_nonneg ht.1] at h1
    have h2 : ‖a t‖ ≤ ‖a 0‖ + ‖a t - a 0‖ := by simpa using norm_add_le (a 0) (a t - a 0)
    have h3 : L * t ≤ L * T := by gcongr; exact ht.2
    linarith
  obtain ⟨γ, hγ⟩ : ∃ γ, ∀ t ∈ Icc 0 T, ‖c t‖ ≤ γ := by
    refine ⟨‖c 0‖ + L * T, fun t ht => ?_⟩
    have h1 := hLc t ht 0 h0
    rw [sub_zero, abs_of_nonneg ht.1] at h1
    have h2 : ‖c t‖ ≤ ‖c 0‖ + ‖c t - c 0‖ := by simpa using norm_add_le (c 0) (c t - c 0)
    have h3 : L * t ≤ L * T := by gcongr; exact ht.2
    linarith
  obtain ⟨b, hb⟩ := bounded_of_limits hz hJ
  have hα0 : 0 ≤ α := (norm_nonneg _).trans (hα 0 h0)
  have hγ0 : 0 ≤ γ := (norm_nonneg _).trans (hγ 0 h0)
  have hb0 : 0 ≤ b := (norm_nonneg _).trans (hb 0 h0)
  have hq0 : 0 ≤ β * α := mul_nonneg hβ hα0
  let M1 := β * α * b + γ
  have hM1 : ∀ t ∈ Icc 0 T, ‖aff B (a t) (c t) (z t)‖ ≤ M1 := fun t ht => aff_bound hβ hB (hα t ht) (hγ t ht) (hb t ht)
  have hM10 : 0 ≤ M1 := by positivity
  have hdiff : ∀ r, ∀ s ∈ Icc 0 T, ∀ t ∈ Icc 0 T, ∀ x, ‖x‖ ≤ r → ‖aff B (a s) (c s) x - aff B (a t) (c t) x‖ ≤ (β * L * r + L) * |s - t| := by
    intro r s hs t ht x hx
    have e : aff B (a s) (c s) x - aff B (a t) (c t) x = B (a s - a t) x + (c s - c t) := by
      simp only [aff, map_sub, LinearMap.sub_apply]; abel
    rw [e]
    calc _ ≤ ‖B (a s - a t) x‖ + ‖c s - c t‖ := norm_add_le _ _
      _ ≤ β * (L * |s - t|) * r + L * |s - t| := by
          refine add_le_add ((hB _ _).trans ?_) (hLc s hs t ht)
          gcongr
          exact hLa s hs t ht
      _ = _ := by ring
  let Λ := (β * L * b + L) + β * α * M1
  have hΛ0 : 0 ≤ Λ := by positivity
  let κ := β * α * (b + 1) + γ
  have hκ0 : 0 ≤ κ := by positivity
  let D := β * α * κ * (1 + β * α) ^ 2 + (β * L * (b + 1) + L) + Λ + |Ε (b + 1)|
  have hD0 : 0 ≤ D := by positivity
  let C := Real.exp (β * α * T) * (T * D)
  have hC0 : 0 ≤ C := by positivity
  refine ⟨C, min 1 (1 / (2 * (C + 1))), hC0, lt_min one_pos (by positivity), ?_⟩
  intro meth dt u n y hdt hδ hu0 hδu hn hy0 hJ0 hy k hk
  have hdt1 : dt ≤ 1 := (hδ.trans_le (min_le_left _ _)).le
  have hε0 : 0 ≤ dt + u / dt := by positivity
  have hCdt : C * (dt + u / dt) ≤ 1 := by
    have h1 : dt < 1 / (2 * (C + 1)) := hδ.trans_le (min_le_right _ _)
    have h2 : u / dt < 1 / (2 * (C + 1)) := ((div_lt_iff₀ hdt).2 hδu).trans_le (min_le_right _ _)
    have h3 : (C + 1) * (1 / (2 * (C + 1)) + 1 / (2 * (C + 1))) = 1 := by field_simp; norm_num
    have h4 : (C + 1) * (dt + u / dt) ≤ (C + 1) * (1 / (2 * (C + 1)) + 1 / (2 * (C + 1))) := by gcongr
    nlinarith
  have hmem : ∀ k ≤ n, (k : ℝ) * dt ∈ Icc 0 T := fun k hk => ⟨by positivity, le_trans (by gcongr) hn⟩
  have hs0 : ‖y 0 - z ((0 : ℕ) * dt)‖ = 0 := by simp [hy0]
  have hfin : C * (dt + u / dt) = Real.exp (β * α * T) * (‖y 0 - z ((0 : ℕ) * dt)‖ + T * (D * (dt + u / dt))) := by
    rw [hs0]; simp only [C]; ring
  rw [hfin]
  refine gronwall_window (u := fun k => ‖y k - z (k * dt)‖) hq0 (c := D * (dt + u / dt)) (by positivity) hdt hn (norm_nonneg _) ?_ k hk
  intro k hk hu
  have ht := hmem k hk.le
  have ht1 := hmem (k + 1) hk
  rw [← hfin] at hu
  have hyk : ‖y k‖ ≤ b + 1 := by
    have h1 : ‖y k‖ ≤ ‖z (k * dt)‖ + ‖y k - z (k * dt)‖ := by simpa using norm_add_le (z (k * dt)) (y k - z (k * dt))
    have := hb _ ht
    have hu' : ‖y k - z (k * dt)‖ ≤ C * (dt + u / dt) := hu
    linarith
  have e1 : ((k + 1 : ℕ) : ℝ) * dt = k * dt + dt := by push_cast; ring
  have hR := affStep_remainder (g := aff B (a (k * dt)) (c (k * dt))) (r := b + 1) (κ := κ) hβ hB meth (by rw [abs_of_pos hdt]; exact hdt1)
    (hα _ ht) (hα _ ht1) (hγ _ ht) (hγ _ ht1) hyk le_rfl (aff_bound hβ hB (hα _ ht) (hγ _ ht) hyk)
  have hy' := (hy k hk _ hyk).trans (mul_le_mul_of_nonneg_right (le_abs_self _) hu0)
  rw [← sub_sub, sub_right_comm] at hy'
  replace hR := (norm_sub_le_norm_sub_add_norm_sub _ _ _).trans (add_le_add hy' hR)
  -- the piece of the solution between both grid points
  have hin : ∀ s ∈ Ico (k * dt) (k * dt + dt), s ∈ Icc 0 T := fun s hs => ⟨ht.1.trans hs.1, hs.2.le.trans (by rw [← e1]; exact ht1.2)⟩
  have hzp : ∀ s ∈ Ico (k * dt) (k * dt + dt), HasDerivWithinAt z (aff B (a s) (c s) (z s)) (Ici s) s := fun s hs =>
    hz s ⟨(hin s hs).1, hs.2.trans_le (by rw [← e1]; exact ht1.2)⟩
  have hlp : ∀ s ∈ Ioo (k * dt) (k * dt + dt), Tendsto z (𝓝[<] s) (𝓝 (z s)) := by
    intro s hs
    have := hJ s ⟨ht.1.trans_lt hs.1, (hin s ⟨hs.1.le, hs.2⟩).2⟩
    rwa [hJ0 k hk s (by rw [e1]; exact hs), sub_zero] at this
  have hΛ : ∀ s ∈ Ico (k * dt) (k * dt + dt), ‖aff B (a s) (c s) (z s) - aff B (a (k * dt)) (c (k * dt)) (z (k * dt))‖ ≤ Λ * (s - k * dt) := by
    intro s hs
    have h1 := aff_lip hβ hB (hα s (hin s hs)) (c s) (z s) (z (k * dt))
    have h2 := hdiff b s (hin s hs) _ ht (z (k * dt)) (hb _ ht)
    rw [abs_of_nonneg (by linarith [hs.1])] at h2
    have h4 := lip_piece hzp hlp (fun x hx => hM1 x (hin x hx)) hs
    have h3 : aff B (a s) (c s) (z s) - aff B (a (k * dt)) (c (k * dt)) (z (k * dt))
        = (aff B (a s) (c s) (z s) - aff B (a s) (c s) (z (k * dt))) + (aff B (a s) (c s) (z (k * dt)) - aff B (a (k * dt)) (c (k * dt)) (z (k * dt))) := by abel
    rw [h3]
    calc _ ≤ _ := norm_add_le _ _
      _ ≤ β * α * (M1 * (s - k * dt)) + (β * L * b + L) * (s - k * dt) := add_le_add (h1.trans (by gcongr)) h2
      _ = _ := by simp only [Λ]; ring
  have hloc := local_error_jump hdt hΛ0 hzp hlp (hJ _ (by rw [← e1]; exact ⟨by positivity, ht1.2⟩)) hΛ
  rw [← e1] at hloc
  obtain ⟨θ, hθ⟩ : ∃ θ, θ = endShare meth := ⟨_, rfl⟩
  have hθb := endShare_bounds meth
  rw [← hθ] at hR hθb
  have havg : ‖aff B (a (k * dt) + θ • (a ((k + 1 : ℕ) * dt) - a (k * dt))) (c (k * dt) + θ • (c ((k + 1 : ℕ) * dt) - c (k * dt))) (y k)
      - aff B (a (k * dt)) (c (k * dt)) (y k)‖ ≤ (β * L * (b + 1) + L) * dt := by
    have e : aff B (a (k * dt) + θ • (a ((k + 1 : ℕ) * dt) - a (k * dt))) (c (k * dt) + θ • (c ((k + 1 : ℕ) * dt) - c (k * dt))) (y k)
        - aff B (a (k * dt)) (c (k * dt)) (y k)
        = θ • (aff B (a ((k + 1 : ℕ) * dt)) (c ((k + 1 : ℕ) * dt)) (y k) - aff B (a (k * dt)) (c (k * dt)) (y k)) := by
      simp only [aff, map_smul, map_add, map_sub, LinearMap.smul_apply, LinearMap.add_apply, LinearMap.sub_apply]
      module
    have h := hdiff (b + 1) _ ht1 _ ht (y k) hyk
    rw [e1, add_sub_cancel_left, abs_of_pos hdt, ← e1] at h
    rw [e, norm_smul, Real.norm_eq_abs, abs_of_nonneg hθb.1]
    calc _ ≤ 1 * ‖_‖ := by gcongr; exact hθb.2
      _ ≤ _ := by rw [one_mul]; exact h
  have hlip := aff_lip hβ hB (hα _ ht) (c (k * dt)) (y k) (z (k * dt))
  have split : y (k + 1) - z ((k + 1 : ℕ) * dt)
      = (y k - z (k * dt)) + dt • (aff B (a (k * dt)) (c (k * dt)) (y k) - aff B (a (k * dt)) (c (k * dt)) (z (k * dt)))
        + (y (k + 1) - J ((k + 1 : ℕ) * dt)
          - (y k + dt • aff B (a (k * dt) + θ • (a ((k + 1 : ℕ) * dt) - a (k * dt))) (c (k * dt) + θ • (c ((k + 1 : ℕ) * dt) - c (k * dt))) (y k)))
        + dt • (aff B (a (k * dt) + θ • (a ((k + 1 : ℕ) * dt) - a (k * dt))) (c (k * dt) + θ • (c ((k + 1 : ℕ) * dt) - c (k * dt))) (y k)
          - aff B (a (k * dt)) (c (k * dt)) (y k))
        - (z ((k + 1 : ℕ) * dt) - J ((k + 1 : ℕ) * dt) - (z (k * dt) + dt • aff B (a (k * dt)) (c (k * dt)) (z (k * dt)))) := by module
  show ‖y (k + 1) - z ((k + 1 : ℕ) * dt)‖ ≤ (1 + β * α * dt) * ‖y k - z (k * dt)‖ + dt * (D * (dt + u / dt))
  rw [split]
  refine (norm_sub_le _ _).trans ?_
  refine (add_le_add (norm_add₃_le.trans (add_le_add (add_le_add (norm_add_le _ _) hR) le_rfl)) hloc).trans ?_
  rw [norm_smul, norm_smul, Real.norm_eq_abs, abs_of_pos hdt]
  have i1 := mul_le_mul_of_nonneg_left hlip hdt.le
  have i2 := mul_le_mul_of_nonneg_left havg hdt.le
  have : dt * (D * (dt + u / dt)) = β * α * κ * (1 + β * α) ^ 2 * dt ^ 2 + dt * ((β * L * (b + 1) + L) * dt) + Λ * dt ^ 2 + |Ε (b + 1)| * u
      + (|Ε (b + 1)| * dt ^ 2 + (β * α * κ * (1 + β * α) ^ 2 + (β * L * (b + 1) + L) + Λ) * u) := by simp only [D]; field_simp; ring
  have hrest : 0 ≤ |Ε (b + 1)| * dt ^ 2 + (β * α * κ * (1 + β * α) ^ 2 + (β * L * (b + 1) + L) + Λ) * u := by positivity
  rw [this]
  linarith [i1, i2, hrest]

/-- Every method converges with at least the first order to the solution of a linear equation with Lipschitz coefficients and jumps at grid points. -/
theorem affine_converges_jumps {B : W →ₗ[ℝ] X →ₗ[ℝ] X} {β : ℝ} (hβ : 0 ≤ β) (hB : ∀ a y, ‖B a y‖ ≤ β * ‖a‖ * ‖y‖) {T L : ℝ} (hT : 0 ≤ T) (hL : 0 ≤ L)
    {a : ℝ → W} {c z J : ℝ → X} (hLa : ∀ s ∈ Icc 0 T, ∀ t ∈ Icc 0 T, ‖a s - a t‖ ≤ L * |s - t|)
    (hLc : ∀ s ∈ Icc 0 T, ∀ t ∈ Icc 0 T, ‖c s - c t‖ ≤ L * |s - t|)
    (hz : ∀ t ∈ Ico 0 T, HasDerivWithinAt z (aff B (a t) (c t) (z t)) (Ici t) t)
    (hJ : ∀ t ∈ Ioc 0 T, Tendsto z (𝓝[<] t) (𝓝 (z t - J t))) :
    ∃ C δ, 0 ≤ C ∧ 0 < δ ∧ ∀ (meth : Method) (dt : ℝ) (n : ℕ) (y : ℕ → X), 0 < dt → dt < δ → n * dt ≤ T → y 0 = z 0 →
      (∀ k < n, ∀ t ∈ Ioo (k * dt) ((k + 1 : ℕ) * dt), J t = 0) →
      (∀ k < n, y (k + 1) = gStep meth dt (aff B (a (k * dt)) (c (k * dt)))
        (aff B ((0.5 : ℝ) • (a (k * dt) + a ((k + 1 : ℕ) * dt))) ((0.5 : ℝ) • (c (k * dt) + c ((k + 1 : ℕ) * dt))))
        (aff B (a ((k + 1 : ℕ) * dt)) (c ((k + 1 : ℕ) * dt))) (aff B (a (k * dt)) (c (k * dt))) (y k) + J ((k + 1 : ℕ) * dt)) →
      ∀ k ≤ n, ‖y k - z (k * dt)‖ ≤ C * dt := by
  obtain ⟨C, δ, hC, hδ, h⟩ := affine_converges_jumps_pert hβ hB hT hL hLa hLc hz hJ fun _ => 0
  refine ⟨C, δ, hC, hδ, fun meth dt n y hdt hd hn h0 hg hy k hk => ?_⟩
  have := h meth dt 0 n y hdt hd le_rfl (by positivity) hn h0 hg (fun k hk r _ => by rw [hy k hk, sub_self, norm_zero, mul_zero]) k hk
  rwa [zero_div, add_zero] at this

end generic

section bwd
variable {V W : Type} [NormedAddCommGroup V] [NormedSpace ℝ V] [NormedAddCommGroup W] [NormedSpace ℝ W]

/-- The right-hand sides of a backward sweep are affine, with bounded bilinear parts. -/
structure BwdBilin (F : Rhs V W) (β : ℝ) where
  lam : W →ₗ[ℝ] V →ₗ[ℝ] V
  psi : W →ₗ[ℝ] W →ₗ[ℝ] W
  nonneg : 0 ≤ β
  lam_eq : ∀ e a l, F.fun_lam e a l = -aff lam a e l
  psi_eq : ∀ e a p, F.fun_psi e a p = -aff psi a e p
  lam_le : ∀ a l, ‖lam a l‖ ≤ β * ‖a‖ * ‖l‖
  psi_le : ∀ a p, ‖psi a p‖ ≤ β * ‖a‖ * ‖p‖

theorem bwdStep_lam (F : Rhs V W) {β : ℝ} (hF : BwdBilin F β) (meth : Method) (dt : ℝ) (a : ℕ → W) (em : ℕ → V) (es : ℕ → W) (om : ℕ → V) (os : ℕ → W)
    (t : ℕ) (x : V × W) :
    (bwdStep meth F dt a em es om os t x).1 = gStep meth dt (aff hF.lam (a t) (em t))
      (aff hF.lam ((0.5 : ℝ) • (a t + a (t - 1))) ((0.5 : ℝ) • (em t + em (t - 1)))) (aff hF.lam (a (t - 1)) (em (t - 1)))
        (aff hF.lam (a t) (em t)) x.1 + om (t - 1) := by
  rw [add_comm (a t), add_comm (em t)]
  cases meth <;> simp only [bwdStep, gStep, hF.lam_eq, smul_neg, sub_neg_eq_add]
  · module
  · module

theorem bwdStep_psi (F : Rhs V W) {β : ℝ} (hF : BwdBilin F β) (meth : Method) (dt : ℝ) (a : ℕ → W) (em : ℕ → V) (es : ℕ → W) (om : ℕ → V) (os : ℕ → W)
    (t : ℕ) (x : V × W) :
    (bwdStep meth F dt a em es om os t x).2 = gStep meth dt (aff hF.psi (a t) (es t))
      (aff hF.psi ((0.5 : ℝ) • (a t + a (t - 1))) ((0.5 : ℝ) • (es t + es (t - 1)))) (aff hF.psi (a (t - 1)) (es (t - 1)))
        (aff hF.psi (a t) (es t)) x.2 + os (t - 1) := by
  rw [add_comm (a t), add_comm (es t)]
  cases meth <;> simp only [bwdStep, gStep, hF.psi_eq, smul_neg, sub_neg_eq_add]
  · module
  · module

theorem reverse_deriv {z : ℝ → V} {v : V} {T s : ℝ} (h : HasDerivWithinAt z (-v) (Iic (T - s)) (T - s)) :
    HasDerivWithinAt (fun s => z (T - s)) v (Ici s) s := by
  have h1 : HasDerivWithinAt (fun s : ℝ => T - s) (-1) (Ici s) s := by simpa using (hasDerivWithinAt_id s (Ici s)).const_sub T
  have := HasDerivWithinAt.scomp s h h1 (fun x hx => by
    have : s ≤ x := hx
    show T - x ≤ T - s
    linarith)
  simp only [neg_smul, one_smul, neg_neg] at this
  exact this

omit [NormedSpace ℝ V] in
theorem reverse_limit {z : ℝ → V} {v : V} {T s : ℝ} (h : Tendsto z (𝓝[>] (T - s)) (𝓝 v)) : Tendsto (fun s => z (T - s)) (𝓝[<] s) (𝓝 v) := by
  refine h.comp (tendsto_nhdsWithin_iff.2 ⟨?_, eventually_nhdsWithin_of_forall fun x hx => ?_⟩)
  · exact ((continuous_const.sub continuous_id).tendsto s).mono_left nhdsWithin_le_nhds
  · have : x < s := hx
    show T - s < T - x
    linarith

theorem bwd_converges (F : Rhs V W) {β : ℝ} (hF : BwdBilin F β) {T L : ℝ} (hT : 0 ≤ T) (hL : 0 ≤ L) {a es psi Js : ℝ → W} {em lam Jm : ℝ → V}
    (hLa : ∀ s ∈ Icc 0 T, ∀ t ∈ Icc 0 T, ‖a s - a t‖ ≤ L * |s - t|)
    (hLm : ∀ s ∈ Icc 0 T, ∀ t ∈ Icc 0 T, ‖em s - em t‖ ≤ L * |s - t|)
    (hLs : ∀ s ∈ Icc 0 T, ∀ t ∈ Icc 0 T, ‖es s - es t‖ ≤ L * |s - t|)
    (hlam : ∀ t ∈ Ioc 0 T, HasDerivWithinAt lam (F.fun_lam (em t) (a t) (lam t)) (Iic t) t)
    (hpsi : ∀ t ∈ Ioc 0 T, HasDerivWithinAt psi (F.fun_psi (es t) (a t) (psi t)) (Iic t) t)
    (hJm : ∀ t ∈ Ico 0 T, Tendsto lam (𝓝[>] t) (𝓝 (lam t - Jm t))) (hJs : ∀ t ∈ Ico 0 T, Tendsto psi (𝓝[>] t) (𝓝 (psi t - Js t)))
    (hlamT : lam T = 0) (hpsiT : psi T = 0) :
    ∃ C δ, 0 < δ ∧ ∀ (meth : Method) (dt : ℝ) (n : ℕ), 0 < dt → dt < δ → n * dt = T →
      (∀ t ∈ Ico 0 T, Jm t ≠ 0 ∨ Js t ≠ 0 → ∃ k : ℕ, t = k * dt) →
      ∃ (Λ : ℕ → V) (Ψ : ℕ → W),
        solveBwd meth F dt (List.ofFn fun k : Fin (n + 1) => a (k * dt)) (List.ofFn fun k : Fin (n + 1) => em (k * dt))
            (List.ofFn fun k : Fin (n + 1) => es (k * dt)) (List.ofFn fun k : Fin (n + 1) => Jm (k * dt)) (List.ofFn fun k : Fin (n + 1) => Js (k * dt))
          = .ok (List.ofFn fun k : Fin (n + 1) => Λ k, List.ofFn fun k : Fin (n + 1) => Ψ k)
        ∧ ∀ k ≤ n, ‖Λ k - lam (k * dt)‖ ≤ C * dt ∧ ‖Ψ k - psi (k * dt)‖ ≤ C * dt := by
  simp only [hF.lam_eq] at hlam
  simp only [hF.psi_eq] at hpsi
  have hr : ∀ s ∈ Icc 0 T, T - s ∈ Icc 0 T := fun s hs => ⟨by linarith [hs.2], by linarith [hs.1]⟩
  have habs : ∀ s t : ℝ, |T - s - (T - t)| = |s - t| := fun s t => by
    rw [show T - s - (T - t) = -(s - t) by ring, abs_neg]
  have rev : ∀ {E : Type} [NormedAddCommGroup E] {f : ℝ → E}, (∀ s ∈ Icc 0 T, ∀ t ∈ Icc 0 T, ‖f s - f t‖ ≤ L * |s - t|) →
      ∀ s ∈ Icc 0 T, ∀ t ∈ Icc 0 T, ‖f (T - s) - f (T - t)‖ ≤ L * |s - t| := fun h s hs t ht => by
    rw [← habs s t]; exact h _ (hr s hs) _ (hr t ht)
  obtain ⟨C1, δ1, hC1, hδ1, h1⟩ := affine_converges_jumps (a := fun s => a (T - s)) (c := fun s => em (T - s)) (z := fun s => lam (T - s))
    (J := fun s => Jm (T - s)) hF.nonneg hF.lam_le hT hL (rev hLa) (rev hLm)
    (fun t ht => reverse_deriv (hlam _ ⟨by linarith [ht.2], by linarith [ht.1]⟩))
    (fun t ht => reverse_limit (hJm _ ⟨by linarith [ht.2], by linarith [ht.1]⟩))
  obtain ⟨C2, δ2, hC2, hδ2, h2⟩ := affine_converges_jumps (a := fun s => a (T - s)) (c := fun s => es (T - s)) (z := fun s => psi (T - s))
    (J := fun s => Js (T - s)) hF.nonneg hF.psi_le hT hL (rev hLa) (rev hLs)
    (fun t ht => reverse_deriv (hpsi _ ⟨by linarith [ht.2], by linarith [ht.1]⟩))
    (fun t ht => reverse_limit (hJs _ ⟨by linarith [ht.2], by linarith [ht.1]⟩))
  refine ⟨max C1 C2, min δ1 δ2, lt_min hδ1 hδ2, ?_⟩
  intro meth dt n hdt hδ hn hgrid
  let A := List.ofFn fun k : Fin (n + 1) => a (k * dt)
  let em' := List.ofFn fun k : Fin (n + 1) => em (k * dt)
  let es' := List.ofFn fun k : Fin (n + 1) => es (k * dt)
  let om' := List.ofFn fun k : Fin (n + 1) => Jm (k * dt)
  let os' := List.ofFn fun k : Fin (n + 1) => Js (k * dt)
  have asf : ∀ {E : Type} [Zero E] (f : ℝ → E) (k : ℕ), k ≤ n → asFun (List.ofFn fun k : Fin (n + 1) => f (k * dt)) k = f (k * dt) := by
    intro E _ f k hk
    rw [asFun_eq (by rw [List.length_ofFn]; omega), List.getElem_ofFn]
  have hTs : ∀ k ≤ n, T - (k : ℝ) * dt = ((n - k : ℕ) : ℝ) * dt := fun k hk => by
    rw [Nat.cast_sub hk, ← hn]; ring
  -- no jumps inside a step
  have hno : ∀ k < n, ∀ t ∈ Ioo (k * dt) ((k + 1 : ℕ) * dt), ¬ (Jm (T - t) ≠ 0 ∨ Js (T - t) ≠ 0) := by
    intro k hk t ht hne
    have ht1 : ((k + 1 : ℕ) : ℝ) * dt ≤ T := by rw [← hn]; gcongr; omega
    have ht0 : 0 ≤ (k : ℝ) * dt := by positivity
    obtain ⟨j, hj⟩ := hgrid (T - t) ⟨by linarith [ht.2], by linarith [ht.1]⟩ hne
    have e : t = ((n : ℝ) - j) * dt := by rw [← hn] at hj; linarith
    rw [e] at ht
    have l1 := lt_of_mul_lt_mul_right ht.1 hdt.le
    have l2 := lt_of_mul_lt_mul_right ht.2 hdt.le
    have l1' : (k : ℤ) < n - j := by exact_mod_cast (by push_cast; linarith : ((k : ℤ) : ℝ) < ((n - j : ℤ) : ℝ))
    have l2' : (n - j : ℤ) < (k + 1 : ℕ) := by exact_mod_cast (by push_cast; push_cast at l2; linarith : ((n - j : ℤ) : ℝ) < (((k + 1 : ℕ) : ℤ) : ℝ))
    push_cast at l2'
    omega
  have hl : em'.length = n + 1 := List.length_ofFn
  let x := traj (0 : V × W) (fun k => bwdStep meth F dt (asFun A) (asFun em') (asFun es') (asFun om') (asFun os') (n - k))
  refine ⟨fun k => (x (n - k)).1, fun k => (x (n - k)).2, ?_, ?_⟩
  · rw [solveBwd_ok meth F dt A em' es' om' os' (by
      right
      simp only [A, em', es', om', os', List.length_ofFn]
      omega)]
    rw [hl]
    refine congrArg Except.ok (congrArg₂ Prod.mk ?_ ?_) <;>
    · apply List.ext_getElem (by rw [List.length_map, List.length_range, List.length_ofFn])
      intro i h1 h2
      rw [List.getElem_map, List.getElem_range, List.getElem_ofFn]
      rfl
  · have hstep : ∀ k < n, n - (k + 1) = n - k - 1 := fun k _ => by omega
    have k1 := h1 meth dt n (fun k => (x k).1) hdt (hδ.trans_le (min_le_left _ _)) hn.le (by simp [x, traj, hlamT])
      (fun k hk t ht => by by_contra h; exact hno k hk t ht (.inl h)) (by
        intro k hk
        show (bwdStep meth F dt (asFun A) (asFun em') (asFun es') (asFun om') (asFun os') (n - k) (x k)).1 = _
        rw [bwdStep_lam F hF]
        simp only [A, em', om']
        rw [asf a (n - k) (by omega), asf a (n - k - 1) (by omega), asf em (n - k) (by omega), asf em (n - k - 1) (by omega), asf Jm (n - k - 1) (by omega),
          hTs k hk.le, hTs (k + 1) hk, hstep k hk])
    have k2 := h2 meth dt n (fun k => (x k).2) hdt (hδ.trans_le (min_le_right _ _)) hn.le (by simp [x, traj, hpsiT])
      (fun k hk t ht => by by_contra h; exact hno k hk t ht (.inr h)) (by
        intro k hk
        show (bwdStep meth F dt (asFun A) (asFun em') (asFun es') (asFun om') (asFun os') (n - k) (x k)).2 = _
        rw [bwdStep_psi F hF]
        simp only [A, es', os']
        rw [asf a (n - k) (by omega), asf a (n - k - 1) (by omega), asf es (n - k) (by omega), asf es (n - k - 1) (by omega), asf Js (n - k - 1) (by omega),
          hTs k hk.le, hTs (k + 1) hk, hstep k hk])
    intro k hk
    have e : T - ((n - k : ℕ) : ℝ) * dt = k * dt := by rw [Nat.cast_sub hk, ← hn]; ring
    have j1 := k1 (n - k) (by omega)
    have j2 := k2 (n - k) (by omega)
    rw [e] at j1 j2
    exact ⟨j1.trans (by gcongr; exact le_max_left _ _), j2.trans (by gcongr; exact le_max_right _ _)⟩

end bwd

/-- The scalar right-hand sides. -/
def bwdBilin1 : BwdBilin rhs1 2 where
  lam := -LinearMap.mul ℝ ℝ
  psi := (-2 : ℝ) • LinearMap.mul ℝ ℝ
  nonneg := by norm_num
  lam_eq e a l := by simp [rhs1, aff]; ring
  psi_eq e a p := by simp [rhs1, aff]; ring
  lam_le a m := by
    simp only [LinearMap.neg_apply, LinearMap.mul_apply', norm_neg, norm_mul]
    nlinarith [mul_nonneg (norm_nonneg a) (norm_nonneg m)]
  psi_le a s := by
    simp only [LinearMap.smul_apply, LinearMap.mul_apply', norm_smul, norm_mul]
    norm_num
    linarith

section matrices

attribute [local instance] Matrix.normedAddCommGroup Matrix.normedSpace

/-- Vectors and matrices. -/
def bwdBilinN (d : ℕ) : BwdBilin (rhsN d) (2 * d) where
  lam := LinearMap.mk₂ ℝ (fun a l => -(l ᵥ* aᵀ)) (fun a a' m => by rw [Matrix.transpose_add, Matrix.vecMul_add]; abel)
    (fun c a m => by rw [Matrix.transpose_smul, Matrix.vecMul_smul]; simp)
    (fun a m m' => by rw [Matrix.add_vecMul]; abel) (fun c a m => by rw [Matrix.smul_vecMul]; simp)
  psi := LinearMap.mk₂ ℝ (fun a p => -(p * a) - aᵀ * p) (fun a a' s => by rw [Matrix.transpose_add, add_mul, mul_add]; abel)
    (fun c a s => by rw [Matrix.transpose_smul, Matrix.smul_mul, Matrix.mul_smul]; module)
    (fun a s s' => by rw [add_mul, mul_add]; abel) (fun c a s => by rw [Matrix.smul_mul, Matrix.mul_smul]; module)
  nonneg := by positivity
  lam_eq e a l := by simp only [rhsN, aff, LinearMap.mk₂_apply]; abel
  psi_eq e a p := by simp only [rhsN, aff, LinearMap.mk₂_apply]; abel
  lam_le a m := by
    rw [LinearMap.mk₂_apply, norm_neg, Matrix.vecMul_transpose]
    have h := norm_mulVec_sup a m
    have : 0 ≤ d * ‖a‖ * ‖m‖ := by positivity
    linarith
  psi_le a s := by
    rw [LinearMap.mk₂_apply]
    refine (norm_sub_le _ _).trans ?_
    rw [norm_neg]
    have h1 := norm_mul_sup s a
    have h2 := norm_mul_sup aᵀ s
    rw [norm_transpose_sup] at h2
    linarith

/-! ## C107 -/

/-- C107 in one dimension. Let `a`, `em`, `es` be Lipschitz continuous on `[0, T]`. Let `lam`, `psi` vanish at `T`, solve
`dlam/dt = -em + lam a`, `dpsi/dt = -es + 2 psi a` (with derivatives from the left), and let their values at `t` exceed their limits from the right by `Jm t`,
`Js t`. Then all four methods, applied to the values on a grid with a small step that contains all times with jumps, return multipliers that
differ from `lam`, `psi` by at most a constant times `dt`. -/
theorem C107_converges_1D (T L : ℝ) (hT : 0 ≤ T) (a em es lam psi Jm Js : ℝ → ℝ)
    (ha : ∀ s ∈ Icc 0 T, ∀ t ∈ Icc 0 T, |a s - a t| ≤ L * |s - t|) (hem : ∀ s ∈ Icc 0 T, ∀ t ∈ Icc 0 T, |em s - em t| ≤ L * |s - t|)
    (hes : ∀ s ∈ Icc 0 T, ∀ t ∈ Icc 0 T, |es s - es t| ≤ L * |s - t|)
    (hlam : ∀ t ∈ Ioc 0 T, HasDerivWithinAt lam (-em t + lam t * a t) (Iic t) t)
    (hpsi : ∀ t ∈ Ioc 0 T, HasDerivWithinAt psi (-es t + 2 * psi t * a t) (Iic t) t)
    (hJm : ∀ t ∈ Ico 0 T, Tendsto lam (𝓝[>] t) (𝓝 (lam t - Jm t))) (hJs : ∀ t ∈ Ico 0 T, Tendsto psi (𝓝[>] t) (𝓝 (psi t - Js t)))
    (hlamT : lam T = 0) (hpsiT : psi T = 0) :
    ∃ C δ, 0 < δ ∧ ∀ (meth : Method) (dt : ℝ) (n : ℕ), 0 < dt → dt < δ → n * dt = T →
      (∀ t ∈ Ico 0 T, Jm t ≠ 0 ∨ Js t ≠ 0 → ∃ k : ℕ, t = k * dt) →
      ∃ Λ Ψ : ℕ → ℝ,
        solveBwd meth rhs1 dt (List.ofFn fun k : Fin (n + 1) => a (k * dt)) (List.ofFn fun k : Fin (n + 1) => em (k * dt))
            (List.ofFn fun k : Fin (n + 1) => es (k * dt)) (List.ofFn fun k : Fin (n + 1) => Jm (k * dt)) (List.ofFn fun k : Fin (n + 1) => Js (k * dt))
          = .ok (List.ofFn fun k : Fin (n + 1) => Λ k, List.ofFn fun k : Fin (n + 1) => Ψ k)
        ∧ ∀ k ≤ n, |Λ k - lam (k * dt)| ≤ C * dt ∧ |Ψ k - psi (k * dt)| ≤ C * dt := by
  have wk : ∀ {f : ℝ → ℝ}, (∀ s ∈ Icc 0 T, ∀ t ∈ Icc 0 T, |f s - f t| ≤ L * |s - t|) →
      ∀ s ∈ Icc 0 T, ∀ t ∈ Icc 0 T, ‖f s - f t‖ ≤ |L| * |s - t| := fun h s hs t ht =>
    (h s hs t ht).trans (mul_le_mul_of_nonneg_right (le_abs_self L) (abs_nonneg _))
  exact bwd_converges rhs1 bwdBilin1 hT (abs_nonneg L) (wk ha) (wk hem) (wk hes) hlam hpsi hJm hJs hlamT hpsiT

/-- C107 in `d` dimensions, entry by entry, for the equations `dlam/dt = -em + A lam`, `dpsi/dt = -es + psi A + Aᵀ psi`. -/
theorem C107_converges_nD (d : ℕ) (T L : ℝ) (hT : 0 ≤ T) (A es psi Js : ℝ → Matrix (Fin d) (Fin d) ℝ) (em lam Jm : ℝ → Fin d → ℝ)
    (hA : ∀ s ∈ Icc 0 T, ∀ t ∈ Icc 0 T, ∀ i j, |A s i j - A t i j| ≤ L * |s - t|)
    (hem : ∀ s ∈ Icc 0 T, ∀ t ∈ Icc 0 T, ∀ i, |em s i - em t i| ≤ L * |s - t|)
    (hes : ∀ s ∈ Icc 0 T, ∀ t ∈ Icc 0 T, ∀ i j, |es s i j - es t i j| ≤ L * |s - t|)
    (hlam : ∀ t ∈ Ioc 0 T, ∀ i, HasDerivWithinAt (fun s => lam s i) ((-em t + A t *ᵥ lam t) i) (Iic t) t)
    (hpsi : ∀ t ∈ Ioc 0 T, ∀ i j, HasDerivWithinAt (fun s => psi s i j) ((-es t + psi t * A t + (A t)ᵀ * psi t) i j) (Iic t) t)
    (hJm : ∀ t ∈ Ico 0 T, ∀ i, Tendsto (fun s => lam s i) (𝓝[>] t) (𝓝 (lam t i - Jm t i)))
    (hJs : ∀ t ∈ Ico 0 T, ∀ i j, Tendsto (fun s => psi s i j) (𝓝[>] t) (𝓝 (psi t i j - Js t i j)))
    (hlamT : lam T = 0) (hpsiT : psi T = 0) :
    ∃ C δ, 0 < δ ∧ ∀ (meth : Method) (dt : ℝ) (n : ℕ), 0 < dt → dt < δ → n * dt = T →
      (∀ t ∈ Ico 0 T, Jm t ≠ 0 ∨ Js t ≠ 0 → ∃ k : ℕ, t = k * dt) →
      ∃ (Λ : ℕ → Fin d → ℝ) (Ψ : ℕ → Matrix (Fin d) (Fin d) ℝ),
        solveBwd meth (rhsN d) dt (List.ofFn fun k : Fin (n + 1) => A (k * dt)) (List.ofFn fun k : Fin (n + 1) => em (k * dt))
            (List.ofFn fun k : Fin (n + 1) => es (k * dt)) (List.ofFn fun k : Fin (n + 1) => Jm (k * dt)) (List.ofFn fun k : Fin (n + 1) => Js (k * dt))
          = .ok (List.ofFn fun k : Fin (n + 1) => Λ k, List.ofFn fun k : Fin (n + 1) => Ψ k)
        ∧ ∀ k ≤ n, (∀ i, |Λ k i - lam (k * dt) i| ≤ C * dt) ∧ ∀ i j, |Ψ k i j - psi (k * dt) i j| ≤ C * dt := by
  have hL : ∀ s t : ℝ, L * |s - t| ≤ |L| * |s - t| := fun s t => mul_le_mul_of_nonneg_right (le_abs_self L) (abs_nonneg _)
  obtain ⟨C, δ, hδ, h⟩ := bwd_converges (rhsN d) (bwdBilinN d) hT (abs_nonneg L) (a := A) (em := em) (es := es) (lam := lam) (psi := psi) (Jm := Jm) (Js := Js)
    (fun s hs t ht => (Matrix.norm_le_iff (by positivity)).2 fun i j => (hA s hs t ht i j).trans (hL s t))
    (fun s hs t ht => (pi_norm_le_iff_of_nonneg (by positivity)).2 fun i => (hem s hs t ht i).trans (hL s t))
    (fun s hs t ht => (Matrix.norm_le_iff (by positivity)).2 fun i j => (hes s hs t ht i j).trans (hL s t))
    (fun t ht => hasDerivWithinAt_pi.2 fun i => by
      have := hlam t ht i
      simpa only [rhsN, Matrix.vecMul_transpose] using this)
    (fun t ht => hasDerivWithinAt_pi.2 fun i => hasDerivWithinAt_pi.2 (hpsi t ht i))
    (fun t ht => tendsto_pi_nhds.2 (hJm t ht))
    (fun t ht => tendsto_pi_nhds.2 fun i => tendsto_pi_nhds.2 (hJs t ht i)) hlamT hpsiT
  refine ⟨C, δ, hδ, fun meth dt n hdt hdδ hn hg => ?_⟩
  obtain ⟨Λ, Ψ, hrun, hk⟩ := h meth dt n hdt hdδ hn hg
  refine ⟨Λ, Ψ, hrun, fun k hkn => ⟨fun i => (norm_le_pi_norm (Λ k - lam (k * dt)) i).trans (hk k hkn).1, fun i j => ?_⟩⟩
  exact (Matrix.norm_entry_le_entrywise_sup_norm (Ψ k - psi (k * dt))).trans (hk k hkn).2

/-! Non-vacuity: `a = 1 / (1 + t)` on `[0, 1]` with one observation at time 1/2. -/

theorem example_jump_deriv {g g' : ℝ → ℝ} (hg : ∀ t, HasDerivAt g (g' t) t) (t : ℝ) :
    HasDerivWithinAt (fun s => if s ≤ 1 / 2 then g s else 0) (if t ≤ 1 / 2 then g' t else 0) (Iic t) t := by
  by_cases h : t ≤ 1 / 2
  · rw [if_pos h]
    refine (hg t).hasDerivWithinAt.congr (fun s hs => if_pos (le_trans hs h)) (if_pos h)
  · rw [if_neg h]
    refine (hasDerivWithinAt_const t (Iic t) (0 : ℝ)).congr_of_eventuallyEq ?_ (if_neg h)
    exact mem_nhdsWithin.2 ⟨Ioi (1 / 2), isOpen_Ioi, not_le.1 h, fun s hs => if_neg (not_le.2 hs.1)⟩

theorem example_jump_limit {g : ℝ → ℝ} (hg : Continuous g) (t : ℝ) :
    Tendsto (fun s => if s ≤ 1 / 2 then g s else 0) (𝓝[>] t) (𝓝 ((if t ≤ 1 / 2 then g t else 0) - if t = 1 / 2 then g t else 0)) := by
  rcases lt_or_ge t (1 / 2) with h | h
  · rw [if_pos h.le, if_neg h.ne, sub_zero]
    refine ((hg.tendsto t).mono_left nhdsWithin_le_nhds).congr' ?_
    exact mem_nhdsWithin.2 ⟨Iio (1 / 2), isOpen_Iio, h, fun s hs => (if_pos (le_of_lt hs.1)).symm⟩
  · have e : (if t ≤ 1 / 2 then g t else 0) - (if t = 1 / 2 then g t else 0) = 0 := by
      rcases eq_or_lt_of_le h with h' | h'
      · rw [if_pos h'.ge, if_pos h'.symm, sub_self]
      · rw [if_neg (not_le.2 h'), if_neg h'.ne', sub_zero]
    rw [e]
    refine tendsto_const_nhds.congr' (eventually_nhdsWithin_of_forall fun s hs => ?_)
    exact (if_neg (not_le.2 (h.trans_lt hs))).symm

example : ∃ C δ : ℝ, 0 < δ ∧ ∀ (meth : Method) (dt : ℝ) (n : ℕ), 0 < dt → dt < δ → n * dt = 1 → (∃ k : ℕ, 1 / 2 = k * dt) →
    ∃ Λ Ψ : ℕ → ℝ,
      solveBwd meth rhs1 dt (List.ofFn fun k : Fin (n + 1) => 1 / (1 + k * dt)) (List.ofFn fun k : Fin (n + 1) => 2 * (1 / (1 + k * dt)))
          (List.ofFn fun _ : Fin (n + 1) => 0) (List.ofFn fun k : Fin (n + 1) => if k * dt = 1 / 2 then 3 * (1 + k * dt) else 0)
          (List.ofFn fun k : Fin (n + 1) => if k * dt = 1 / 2 then 2 * (1 + k * dt) ^ 2 else 0)
        = .ok (List.ofFn fun k : Fin (n + 1) => Λ k, List.ofFn fun k : Fin (n + 1) => Ψ k)
      ∧ ∀ k ≤ n, |Λ k - ((1 - k * dt) + if k * dt ≤ 1 / 2 then 3 * (1 + k * dt) else 0)| ≤ C * dt
        ∧ |Ψ k - (if k * dt ≤ 1 / 2 then 2 * (1 + k * dt) ^ 2 else 0)| ≤ C * dt := by
  obtain ⟨C, δ, hδ, h⟩ := C107_converges_1D 1 2 zero_le_one (fun t => 1 / (1 + t)) (fun t => 2 * (1 / (1 + t))) (fun _ => 0)
    (fun t => (1 - t) + if t ≤ 1 / 2 then 3 * (1 + t) else 0) (fun t => if t ≤ 1 / 2 then 2 * (1 + t) ^ 2 else 0)
    (fun t => if t = 1 / 2 then 3 * (1 + t) else 0) (fun t => if t = 1 / 2 then 2 * (1 + t) ^ 2 else 0)
    (fun s hs t ht => (example_lip s hs t ht).trans (by gcongr; norm_num))
    (fun s hs t ht => by rw [← mul_sub, abs_mul, abs_two]; have := example_lip s hs t ht; linarith)
    (fun s _ t _ => by simp)
    (fun t ht => by
      have h1 := (hasDerivWithinAt_id t (Iic t)).const_sub 1
      have h2 := example_jump_deriv (g := fun t => 3 * (1 + t)) (g' := fun _ => 3) (fun t => by simpa using ((hasDerivAt_id t).const_add 1).const_mul 3) t
      have h0 : 1 + t ≠ 0 := by linarith [ht.1]
      have e : -(2 * (1 / (1 + t))) + ((1 - t) + if t ≤ 1 / 2 then 3 * (1 + t) else 0) * (1 / (1 + t)) = -1 + if t ≤ 1 / 2 then 3 else 0 := by
        split_ifs <;> field_simp <;> ring
      rw [e]
      exact h1.add h2)
    (fun t ht => by
      have h2 := example_jump_deriv (g := fun t => 2 * (1 + t) ^ 2) (g' := fun t => 4 * (1 + t)) (fun t => by
        have := (((hasDerivAt_id t).const_add 1).pow 2).const_mul 2
        have e : 4 * (1 + t) = 2 * (((2 : ℕ) : ℝ) * (1 + id t) ^ (2 - 1) * 1) := by norm_num; ring
        rw [e]
        exact this) t
      have h0 : 1 + t ≠ 0 := by linarith [ht.1]
      have e : -0 + 2 * (if t ≤ 1 / 2 then 2 * (1 + t) ^ 2 else 0) * (1 / (1 + t)) = if t ≤ 1 / 2 then 4 * (1 + t) else 0 := by
        split_ifs <;> field_simp <;> ring
      rw [e]
      exact h2)
    (fun t ht => by
      have h1 : Tendsto (fun s : ℝ => 1 - s) (𝓝[>] t) (𝓝 (1 - t)) := ((continuous_const.sub continuous_id).tendsto t).mono_left nhdsWithin_le_nhds
      have h2 := example_jump_limit (g := fun t => 3 * (1 + t)) (by fun_prop) t
      have h3 := h1.add h2
      rw [← add_sub_assoc] at h3
      exact h3)
    (fun t ht => example_jump_limit (g := fun t => 2 * (1 + t) ^ 2) (by fun_prop) t)
    (by norm_num) (by norm_num)
  refine ⟨C, δ, hδ, fun meth dt n hdt hd hn hk => h meth dt n hdt hd hn ?_⟩
  rintro t - hne
  have : t = 1 / 2 := by
    by_contra hc
    rw [if_neg hc, if_neg hc] at hne
    simp at hne
  rw [this]
  exact hk

end matrices

end

end VGPA
