import Verif.Props.OdeLaws
import Verif.Lemmas.OneStep
import Mathlib.Analysis.Calculus.Deriv.Prod
import Mathlib.Analysis.Calculus.Deriv.Mul

/-!
# C106: the sweeps converge to the solutions of the differential equations
-/

namespace VGPA

noncomputable section

open Matrix Set

section generic
variable {X W : Type} [NormedAddCommGroup X] [NormedSpace ℝ X] [NormedAddCommGroup W] [NormedSpace ℝ W]

/-- An affine right-hand side. -/
def aff (B : W →ₗ[ℝ] X →ₗ[ℝ] X) (a : W) (c : X) (y : X) : X := B a y + c

theorem aff_lip {B : W →ₗ[ℝ] X →ₗ[ℝ] X} {β α : ℝ} (hβ : 0 ≤ β) (hB : ∀ a y, ‖B a y‖ ≤ β * ‖a‖ * ‖y‖) {a : W} (ha : ‖a‖ ≤ α) (c x z : X) :
    ‖aff B a c x - aff B a c z‖ ≤ β * α * ‖x - z‖ := by
  have e : aff B a c x - aff B a c z = B a (x - z) := by
    simp only [aff, map_sub]; abel
  rw [e]
  exact (hB a _).trans (by gcongr)

theorem aff_bound {B : W →ₗ[ℝ] X →ₗ[ℝ] X} {β α γ r : ℝ} (hβ : 0 ≤ β) (hB : ∀ a y, ‖B a y‖ ≤ β * ‖a‖ * ‖y‖) {a : W} (ha : ‖a‖ ≤ α) {c : X}
    (hc : ‖c‖ ≤ γ) {y : X} (hy : ‖y‖ ≤ r) : ‖aff B a c y‖ ≤ β * α * r + γ := by
  have hα : 0 ≤ α := (norm_nonneg _).trans ha
  refine (norm_add_le _ _).trans (add_le_add ?_ hc)
  exact (hB a y).trans (by gcongr)

theorem norm_mid {E : Type} [NormedAddCommGroup E] [NormedSpace ℝ E] {x y : E} {r : ℝ} (hx : ‖x‖ ≤ r) (hy : ‖y‖ ≤ r) : ‖(0.5 : ℝ) • (x + y)‖ ≤ r := by
  rw [norm_smul, Real.norm_eq_abs, abs_of_pos (by norm_num)]
  have := norm_add_le x y
  linarith

/-- One step with affine right-hand sides, whose middle is the mean of both ends. -/
theorem affStep_remainder {B : W →ₗ[ℝ] X →ₗ[ℝ] X} {β α γ r κ dt : ℝ} (hβ : 0 ≤ β) (hB : ∀ a y, ‖B a y‖ ≤ β * ‖a‖ * ‖y‖) (meth : Method)
    (hdt : |dt| ≤ 1) {a0 a1 : W} (ha0 : ‖a0‖ ≤ α) (ha1 : ‖a1‖ ≤ α) {c0 c1 : X} (hc0 : ‖c0‖ ≤ γ) (hc1 : ‖c1‖ ≤ γ) {g : X → X} {y : X}
    (hy : ‖y‖ ≤ r) (hκ : β * α * r + γ ≤ κ) (hg : ‖g y‖ ≤ κ) :
    ‖gStep meth dt (aff B a0 c0) (aff B ((0.5 : ℝ) • (a0 + a1)) ((0.5 : ℝ) • (c0 + c1))) (aff B a1 c1) g y
      - (y + dt • aff B (a0 + endShare meth • (a1 - a0)) (c0 + endShare meth • (c1 - c0)) y)‖
      ≤ β * α * κ * (1 + β * α) ^ 2 * dt ^ 2 := by
  have hα : 0 ≤ α := (norm_nonneg _).trans ha0
  have h := gStep_remainder (f0 := aff B a0 c0) (fm := aff B ((0.5 : ℝ) • (a0 + a1)) ((0.5 : ℝ) • (c0 + c1))) (f1 := aff B a1 c1) (g := g)
    meth hdt (mul_nonneg hβ hα) (fun x z => aff_lip hβ hB (norm_mid ha0 ha1) _ x z) (fun x z => aff_lip hβ hB ha1 _ x z)
    ((aff_bound hβ hB ha0 hc0 hy).trans hκ) ((aff_bound hβ hB (norm_mid ha0 ha1) (norm_mid hc0 hc1) hy).trans hκ) hg
    (by simp only [aff, map_smul, map_add, LinearMap.smul_apply, LinearMap.add_apply]; module)
  have e : aff B (a0 + endShare meth • (a1 - a0)) (c0 + endShare meth • (c1 - c0)) y
      = aff B a0 c0 y + endShare meth • (aff B a1 c1 y - aff B a0 c0 y) := by
    simp only [aff, map_smul, map_add, map_sub, LinearMap.smul_apply, LinearMap.add_apply, LinearMap.sub_apply]
    module
  rw [e]
  exact h

/-- The local error of Euler's rule for a solution with a Lipschitz derivative. -/
theorem local_error {z z' : ℝ → X} {T Λ : ℝ} (hz : ∀ t ∈ Icc 0 T, HasDerivWithinAt z (z' t) (Icc 0 T) t)
    (hΛ : ∀ s ∈ Icc 0 T, ∀ t ∈ Icc 0 T, ‖z' s - z' t‖ ≤ Λ * |s - t|) (hΛ0 : 0 ≤ Λ) {t h : ℝ} (ht : 0 ≤ t) (hh : 0 ≤ h) (hth : t + h ≤ T) :
    ‖z (t + h) - (z t + h • z' t)‖ ≤ Λ * h ^ 2 := by
  have hsub : Icc t (t + h) ⊆ Icc 0 T := fun s hs => ⟨ht.trans hs.1, hs.2.trans hth⟩
  have hd : ∀ s ∈ Icc t (t + h), HasDerivWithinAt (fun s => z s - s • z' t) (z' s - z' t) (Icc t (t + h)) s := by
    intro s hs
    have h1 := (hz s (hsub hs)).mono hsub
    have h2 : HasDerivWithinAt (fun s : ℝ => s • z' t) ((1 : ℝ) • z' t) (Icc t (t + h)) s := (hasDerivWithinAt_id s _).smul_const (z' t)
    rw [one_smul] at h2
    exact h1.sub h2
  have hb : ∀ s ∈ Icc t (t + h), ‖z' s - z' t‖ ≤ Λ * h := by
    intro s hs
    refine (hΛ s (hsub hs) t (hsub ⟨le_rfl, by linarith⟩)).trans ?_
    rw [abs_of_nonneg (by linarith [hs.1])]
    gcongr
    linarith [hs.2]
  have := (convex_Icc t (t + h)).norm_image_sub_le_of_norm_hasDerivWithin_le hd hb (x := t) (y := t + h) ⟨le_rfl, by linarith⟩ ⟨by linarith, le_rfl⟩
  have e : z (t + h) - (t + h) • z' t - (z t - t • z' t) = z (t + h) - (z t + h • z' t) := by module
  simp only [e, add_sub_cancel_left, Real.norm_eq_abs, abs_of_nonneg hh] at this
  calc _ ≤ _ := this
    _ = _ := by ring

/-- Perturbed by errors of size `u` in each step: Every method converges with at least the first order to the solution of a linear equation with Lipschitz coefficients. -/
theorem affine_converges_pert {B : W →ₗ[ℝ] X →ₗ[ℝ] X} {β : ℝ} (hβ : 0 ≤ β) (hB : ∀ a y, ‖B a y‖ ≤ β * ‖a‖ * ‖y‖) {T L : ℝ} (hT : 0 ≤ T) (hL : 0 ≤ L)
    {a : ℝ → W} {c z : ℝ → X} (hLa : ∀ s ∈ Icc 0 T, ∀ t ∈ Icc 0 T, ‖a s - a t‖ ≤ L * |s - t|)
    (hLc : ∀ s ∈ Icc 0 T, ∀ t ∈ Icc 0 T, ‖c s - c t‖ ≤ L * |s - t|)
    (hz : ∀ t ∈ Icc 0 T, HasDerivWithinAt z (aff B (a t) (c t) (z t)) (Icc 0 T) t) (Γ Ε : ℝ → ℝ) :
    ∃ C δ, 0 ≤ C ∧ 0 < δ ∧ ∀ (meth : Method) (dt u : ℝ) (n : ℕ) (y : ℕ → X) (g : ℕ → X → X), 0 < dt → dt < δ → 0 ≤ u → u < δ * dt → n * dt ≤ T → y 0 = z 0 →
      (∀ k < n, ∀ r x, ‖x‖ ≤ r → ‖g k x‖ ≤ Γ r) →
      (∀ k < n, ∀ r, ‖y k‖ ≤ r → ‖y (k + 1) - gStep meth dt (aff B (a (k * dt)) (c (k * dt)))
        (aff B ((0.5 : ℝ) • (a (k * dt) + a ((k + 1 : ℕ) * dt))) ((0.5 : ℝ) • (c (k * dt) + c ((k + 1 : ℕ) * dt))))
        (aff B (a ((k + 1 : ℕ) * dt)) (c ((k + 1 : ℕ) * dt))) (g k) (y k)‖ ≤ Ε r * u) →
      ∀ k ≤ n, ‖y k - z (k * dt)‖ ≤ C * (dt + u / dt) := by
  have h0 : (0 : ℝ) ∈ Icc 0 T := ⟨le_rfl, hT⟩
  obtain ⟨α, hα⟩ : ∃ α, ∀ t ∈ Icc 0 T, ‖a t‖ ≤ α := by
    refine ⟨‖a 0‖ + L * T, fun t ht => ?_⟩
    have h1 := hLa t ht 0 h0
    rw [sub_zero, abs_of_nonneg ht.1] at h1
    have h2 : ‖a t‖ ≤ ‖a 0‖ + ‖a t - a 0‖ := by simpa using norm_add_le (a 0) (a t - a 0)
    have h3 : L * t ≤ L * T := by gcongr; exact ht.2
    linarith
  obtain ⟨γ, hγ⟩ : ∃ γ, ∀ t ∈ Icc 0 T, ‖c t‖ ≤ γ := by
    refine ⟨‖c 0‖ + L * T, fun t ht => ?_⟩
    have h1 := hLc t ht 0 h0
    rw [sub_zero, abs_of_nonneg ht.1] at h1
    have h2 : ‖c t‖ ≤ ‖c 0‖ + ‖c t - c 0‖ := by simpa using norm_add_le (c 0) (c t - c 0)
    have h3 : L * t ≤ L * T := by gcongr; exact ht.2
    linarith
  obtain ⟨b, hb⟩ : ∃ b, ∀ t ∈ Icc 0 T, ‖z t‖ ≤ b :=
    isCompact_Icc.exists_bound_of_continuousOn fun t ht => (hz t ht).continuousWithinAt
  have hα0 : 0 ≤ α := (norm_nonneg _).trans (hα 0 h0)
  have hγ0 : 0 ≤ γ := (norm_nonneg _).trans (hγ 0 h0)
  have hb0 : 0 ≤ b := (norm_nonneg _).trans (hb 0 h0)
  have hq0 : 0 ≤ β * α := mul_nonneg hβ hα0
  -- the slope of the solution
  let M1 := β * α * b + γ
  have hM1 : ∀ t ∈ Icc 0 T, ‖aff B (a t) (c t) (z t)‖ ≤ M1 := fun t ht => aff_bound hβ hB (hα t ht) (hγ t ht) (hb t ht)
  have hM10 : 0 ≤ M1 := by positivity
  have hzl : ∀ s ∈ Icc 0 T, ∀ t ∈ Icc 0 T, ‖z s - z t‖ ≤ M1 * |s - t| := fun s hs t ht =>
    (convex_Icc 0 T).norm_image_sub_le_of_norm_hasDerivWithin_le hz hM1 ht hs
  -- differences of right-hand sides
  have hdiff : ∀ r, ∀ s ∈ Icc 0 T, ∀ t ∈ Icc 0 T, ∀ x, ‖x‖ ≤ r → ‖aff B (a s) (c s) x - aff B (a t) (c t) x‖ ≤ (β * L * r + L) * |s - t| := by
    intro r s hs t ht x hx
    have e : aff B (a s) (c s) x - aff B (a t) (c t) x = B (a s - a t) x + (c s - c t) := by
      simp only [aff, map_sub, LinearMap.sub_apply]; abel
    rw [e]
    calc _ ≤ ‖B (a s - a t) x‖ + ‖c s - c t‖ := norm_add_le _ _
      _ ≤ β * (L * |s - t|) * r + L * |s - t| := by
          refine add_le_add ((hB _ _).trans ?_) (hLc s hs t ht)
          gcongr
          exact hLa s hs t ht
      _ = _ := by ring
  let Λ := (β * L * b + L) + β * α * M1
  have hΛ0 : 0 ≤ Λ := by positivity
  have hΛ : ∀ s ∈ Icc 0 T, ∀ t ∈ Icc 0 T, ‖aff B (a s) (c s) (z s) - aff B (a t) (c t) (z t)‖ ≤ Λ * |s - t| := by
    intro s hs t ht
    have h1 := aff_lip hβ hB (hα s hs) (c s) (z s) (z t)
    have h2 := hdiff b s hs t ht (z t) (hb t ht)
    have h3 : aff B (a s) (c s) (z s) - aff B (a t) (c t) (z t)
        = (aff B (a s) (c s) (z s) - aff B (a s) (c s) (z t)) + (aff B (a s) (c s) (z t) - aff B (a t) (c t) (z t)) := by abel
    rw [h3]
    calc _ ≤ _ := norm_add_le _ _
      _ ≤ β * α * (M1 * |s - t|) + (β * L * b + L) * |s - t| := by
          refine add_le_add (h1.trans ?_) h2
          gcongr
          exact hzl s hs t ht
      _ = _ := by simp only [Λ]; ring
  let κ := max (β * α * (b + 1) + γ) (Γ (b + 1))
  have hκ0 : 0 ≤ κ := le_trans (by positivity) (le_max_left _ _)
  let D := β * α * κ * (1 + β * α) ^ 2 + (β * L * (b + 1) + L) + Λ + |Ε (b + 1)|
  have hD0 : 0 ≤ D := by positivity
  let C := Real.exp (β * α * T) * (T * D)
  have hC0 : 0 ≤ C := by positivity
  refine ⟨C, min 1 (1 / (2 * (C + 1))), hC0, lt_min one_pos (by positivity), ?_⟩
  intro meth dt u n y g hdt hδ hu0 hδu hn hy0 hg hy k hk
  have hdt1 : dt ≤ 1 := (hδ.trans_le (min_le_left _ _)).le
  have hε0 : 0 ≤ dt + u / dt := by positivity
  have hCdt : C * (dt + u / dt) ≤ 1 := by
    have h1 : dt < 1 / (2 * (C + 1)) := hδ.trans_le (min_le_right _ _)
    have h2 : u / dt < 1 / (2 * (C + 1)) := ((div_lt_iff₀ hdt).2 hδu).trans_le (min_le_right _ _)
    have h3 : (C + 1) * (1 / (2 * (C + 1)) + 1 / (2 * (C + 1))) = 1 := by field_simp; norm_num
    have h4 : (C + 1) * (dt + u / dt) ≤ (C + 1) * (1 / (2 * (C + 1)) + 1 / (2 * (C + 1))) := by gcongr
    nlinarith
  have hmem : ∀ k ≤ n, (k : ℝ) * dt ∈ Icc 0 T := fun k hk => ⟨by positivity, le_trans (by gcongr) hn⟩
  have hs0 : ‖y 0 - z ((0 : ℕ) * dt)‖ = 0 := by simp [hy0]
  have hfin : C * (dt + u / dt) = Real.exp (β * α * T) * (‖y 0 - z ((0 : ℕ) * dt)‖ + T * (D * (dt + u / dt))) := by
    rw [hs0]; simp only [C]; ring
  rw [hfin]
  refine gronwall_window (u := fun k => ‖y k - z (k * dt)‖) hq0 (c := D * (dt + u / dt)) (by positivity) hdt hn (norm_nonneg _) ?_ k hk
  intro k hk hu
  have ht := hmem k hk.le
  have ht1 := hmem (k + 1) hk
  rw [← hfin] at hu
  have hyk : ‖y k‖ ≤ b + 1 := by
    have h1 : ‖y k‖ ≤ ‖z (k * dt)‖ + ‖y k - z (k * dt)‖ := by simpa using norm_add_le (z (k * dt)) (y k - z (k * dt))
    have := hb _ ht
    have hu' : ‖y k - z (k * dt)‖ ≤ C * (dt + u / dt) := hu
    linarith
  have e1 : ((k + 1 : ℕ) : ℝ) * dt = k * dt + dt := by push_cast; ring
  have hR := affStep_remainder (g := g k) (r := b + 1) (κ := κ) hβ hB meth (by rw [abs_of_pos hdt]; exact hdt1) (hα _ ht) (hα _ ht1) (hγ _ ht) (hγ _ ht1) hyk
    (le_max_left _ _) ((hg k hk _ _ hyk).trans (le_max_right _ _))
  replace hR := (norm_sub_le_norm_sub_add_norm_sub _ _ _).trans (add_le_add ((hy k hk _ hyk).trans (mul_le_mul_of_nonneg_right (le_abs_self _) hu0)) hR)
  have hloc := local_error hz hΛ hΛ0 ht.1 hdt.le (by rw [← e1]; exact ht1.2)
  rw [← e1] at hloc
  obtain ⟨θ, hθ⟩ : ∃ θ, θ = endShare meth := ⟨_, rfl⟩
  have hθb := endShare_bounds meth
  rw [← hθ] at hR hθb
  -- the averaged coefficients are close to those at the start
  have havg : ‖aff B (a (k * dt) + θ • (a ((k + 1 : ℕ) * dt) - a (k * dt))) (c (k * dt) + θ • (c ((k + 1 : ℕ) * dt) - c (k * dt))) (y k)
      - aff B (a (k * dt)) (c (k * dt)) (y k)‖ ≤ (β * L * (b + 1) + L) * dt := by
    have e : aff B (a (k * dt) + θ • (a ((k + 1 : ℕ) * dt) - a (k * dt))) (c (k * dt) + θ • (c ((k + 1 : ℕ) * dt) - c (k * dt))) (y k)
        - aff B (a (k * dt)) (c (k * dt)) (y k)
        = θ • (aff B (a ((k + 1 : ℕ) * dt)) (c ((k + 1 : ℕ) * dt)) (y k) - aff B (a (k * dt)) (c (k * dt)) (y k)) := by
      simp only [aff, map_smul, map_add, map_sub, LinearMap.smul_apply, LinearMap.add_apply, LinearMap.sub_apply]
      module
    have h := hdiff (b + 1) _ ht1 _ ht (y k) hyk
    rw [e1, add_sub_cancel_left, abs_of_pos hdt, ← e1] at h
    rw [e, norm_smul, Real.norm_eq_abs, abs_of_nonneg hθb.1]
    calc _ ≤ 1 * ‖_‖ := by gcongr; exact hθb.2
      _ ≤ _ := by rw [one_mul]; exact h
  have hlip := aff_lip hβ hB (hα _ ht) (c (k * dt)) (y k) (z (k * dt))
  have split : y (k + 1) - z ((k + 1 : ℕ) * dt)
      = (y k - z (k * dt)) + dt • (aff B (a (k * dt)) (c (k * dt)) (y k) - aff B (a (k * dt)) (c (k * dt)) (z (k * dt)))
        + (y (k + 1) - (y k + dt • aff B (a (k * dt) + θ • (a ((k + 1 : ℕ) * dt) - a (k * dt))) (c (k * dt) + θ • (c ((k + 1 : ℕ) * dt) - c (k * dt))) (y k)))
        + dt • (aff B (a (k * dt) + θ • (a ((k + 1 : ℕ) * dt) - a (k * dt))) (c (k * dt) + θ • (c ((k + 1 : ℕ) * dt) - c (k * dt))) (y k)
          - aff B (a (k * dt)) (c (k * dt)) (y k))
        - (z ((k + 1 : ℕ) * dt) - (z (k * dt) + dt • aff B (a (k * dt)) (c (k * dt)) (z (k * dt)))) := by module
  show ‖y (k + 1) - z ((k + 1 : ℕ) * dt)‖ ≤ (1 + β * α * dt) * ‖y k - z (k * dt)‖ + dt * (D * (dt + u / dt))
  rw [split]
  refine (norm_sub_le _ _).trans ?_
  refine (add_le_add (norm_add₃_le.trans (add_le_add (add_le_add (norm_add_le _ _) hR) le_rfl)) hloc).trans ?_
  rw [norm_smul, norm_smul, Real.norm_eq_abs, abs_of_pos hdt]
  have i1 := mul_le_mul_of_nonneg_left hlip hdt.le
  have i2 := mul_le_mul_of_nonneg_left havg hdt.le
  have : dt * (D * (dt + u / dt)) = β * α * κ * (1 + β * α) ^ 2 * dt ^ 2 + dt * ((β * L * (b + 1) + L) * dt) + Λ * dt ^ 2 + |Ε (b + 1)| * u
      + (|Ε (b + 1)| * dt ^ 2 + (β * α * κ * (1 + β * α) ^ 2 + (β * L * (b + 1) + L) + Λ) * u) := by simp only [D]; field_simp; ring
  have hrest : 0 ≤ |Ε (b + 1)| * dt ^ 2 + (β * α * κ * (1 + β * α) ^ 2 + (β * L * (b + 1) + L) + Λ) * u := by positivity
  rw [this]
  linarith [i1, i2, hrest]

/-- Every method converges with at least the first order to the solution of a linear equation with Lipschitz coefficients. -/
theorem affine_converges {B : W →ₗ[ℝ] X →ₗ[ℝ] X} {β : ℝ} (hβ : 0 ≤ β) (hB : ∀ a y, ‖B a y‖ ≤ β * ‖a‖ * ‖y‖) {T L : ℝ} (hT : 0 ≤ T) (hL : 0 ≤ L)
    {a : ℝ → W} {c z : ℝ → X} (hLa : ∀ s ∈ Icc 0 T, ∀ t ∈ Icc 0 T, ‖a s - a t‖ ≤ L * |s - t|)
    (hLc : ∀ s ∈ Icc 0 T, ∀ t ∈ Icc 0 T, ‖c s - c t‖ ≤ L * |s - t|)
    (hz : ∀ t ∈ Icc 0 T, HasDerivWithinAt z (aff B (a t) (c t) (z t)) (Icc 0 T) t) (Γ : ℝ → ℝ) :
    ∃ C δ, 0 ≤ C ∧ 0 < δ ∧ ∀ (meth : Method) (dt : ℝ) (n : ℕ) (y : ℕ → X) (g : ℕ → X → X), 0 < dt → dt < δ → n * dt ≤ T → y 0 = z 0 →
      (∀ k < n, ∀ r x, ‖x‖ ≤ r → ‖g k x‖ ≤ Γ r) →
      (∀ k < n, y (k + 1) = gStep meth dt (aff B (a (k * dt)) (c (k * dt)))
        (aff B ((0.5 : ℝ) • (a (k * dt) + a ((k + 1 : ℕ) * dt))) ((0.5 : ℝ) • (c (k * dt) + c ((k + 1 : ℕ) * dt))))
        (aff B (a ((k + 1 : ℕ) * dt)) (c ((k + 1 : ℕ) * dt))) (g k) (y k)) →
      ∀ k ≤ n, ‖y k - z (k * dt)‖ ≤ C * dt := by
  obtain ⟨C, δ, hC, hδ, h⟩ := affine_converges_pert hβ hB hT hL hLa hLc hz Γ fun _ => 0
  refine ⟨C, δ, hC, hδ, fun meth dt n y g hdt hd hn h0 hg hy k hk => ?_⟩
  have := h meth dt 0 n y g hdt hd le_rfl (by positivity) hn h0 hg (fun k hk r _ => by rw [hy k hk, sub_self, norm_zero, mul_zero]) k hk
  rwa [zero_div, add_zero] at this

end generic

/-! ## The right-hand sides of the code -/

section fwd
variable {V W : Type} [NormedAddCommGroup V] [NormedSpace ℝ V] [NormedAddCommGroup W] [NormedSpace ℝ W]

/-- The right-hand sides of a forward sweep are affine, with bounded bilinear parts. -/
structure FwdBilin (F : Rhs V W) (β : ℝ) where
  mean : W →ₗ[ℝ] V →ₗ[ℝ] V
  cov : W →ₗ[ℝ] W →ₗ[ℝ] W
  nonneg : 0 ≤ β
  mean_eq : ∀ m a b, F.fun_mt m a b = aff mean a b m
  cov_eq : ∀ s a c, F.fun_st s a c = aff cov a c s
  mean_le : ∀ a m, ‖mean a m‖ ≤ β * ‖a‖ * ‖m‖
  cov_le : ∀ a s, ‖cov a s‖ ≤ β * ‖a‖ * ‖s‖

theorem fwdStep_mean (F : Rhs V W) {β : ℝ} (hF : FwdBilin F β) (meth : Method) (dt : ℝ) (a : ℕ → W) (b : ℕ → V) (sigma : W) (k : ℕ) (x : V × W) :
    (fwdStep meth F dt a b sigma k x).1 = gStep meth dt (aff hF.mean (a k) (b k))
      (aff hF.mean ((0.5 : ℝ) • (a k + a (k + 1))) ((0.5 : ℝ) • (b k + b (k + 1)))) (aff hF.mean (a (k + 1)) (b (k + 1))) (aff hF.mean (a k) (b k)) x.1 := by
  cases meth <;> simp only [fwdStep, gStep, hF.mean_eq]

theorem fwdStep_cov (F : Rhs V W) {β : ℝ} (hF : FwdBilin F β) (meth : Method) (dt : ℝ) (a : ℕ → W) (b : ℕ → V) (sigma : W) (k : ℕ) (x : V × W) :
    (fwdStep meth F dt a b sigma k x).2 = gStep meth dt (aff hF.cov (a k) sigma)
      (aff hF.cov ((0.5 : ℝ) • (a k + a (k + 1))) ((0.5 : ℝ) • (sigma + sigma))) (aff hF.cov (a (k + 1)) sigma)
        (fun s => aff hF.cov s sigma s) x.2 := by
  have e : (0.5 : ℝ) • (sigma + sigma) = sigma := by
    rw [← two_smul ℝ sigma, smul_smul]; norm_num
  rw [e]
  cases meth <;> simp only [fwdStep, gStep, hF.cov_eq]

/-- Both series of a forward sweep converge. -/
theorem fwd_converges (F : Rhs V W) {β : ℝ} (hF : FwdBilin F β) {T L : ℝ} (hT : 0 ≤ T) (hL : 0 ≤ L) {a : ℝ → W} {b m : ℝ → V} {S : ℝ → W} (sigma : W)
    (hLa : ∀ s ∈ Icc 0 T, ∀ t ∈ Icc 0 T, ‖a s - a t‖ ≤ L * |s - t|)
    (hLb : ∀ s ∈ Icc 0 T, ∀ t ∈ Icc 0 T, ‖b s - b t‖ ≤ L * |s - t|)
    (hm : ∀ t ∈ Icc 0 T, HasDerivWithinAt m (F.fun_mt (m t) (a t) (b t)) (Icc 0 T) t)
    (hS : ∀ t ∈ Icc 0 T, HasDerivWithinAt S (F.fun_st (S t) (a t) sigma) (Icc 0 T) t) :
    ∃ C δ, 0 < δ ∧ ∀ (meth : Method) (dt : ℝ) (n : ℕ), 0 < dt → dt < δ → n * dt ≤ T →
      ∃ (M : ℕ → V) (P : ℕ → W),
        solveFwd meth F dt (List.ofFn fun k : Fin (n + 1) => a (k * dt)) (List.ofFn fun k : Fin (n + 1) => b (k * dt)) (m 0) (S 0) sigma
          = .ok (List.ofFn fun k : Fin (n + 1) => M k, List.ofFn fun k : Fin (n + 1) => P k)
        ∧ ∀ k ≤ n, ‖M k - m (k * dt)‖ ≤ C * dt ∧ ‖P k - S (k * dt)‖ ≤ C * dt := by
  simp only [hF.mean_eq] at hm
  simp only [hF.cov_eq] at hS
  obtain ⟨α, hα⟩ : ∃ α, ∀ t ∈ Icc 0 T, ‖a t‖ ≤ α := by
    refine ⟨‖a 0‖ + L * T, fun t ht => ?_⟩
    have h1 := hLa t ht 0 ⟨le_rfl, hT⟩
    rw [sub_zero, abs_of_nonneg ht.1] at h1
    have h2 : ‖a t‖ ≤ ‖a 0‖ + ‖a t - a 0‖ := by simpa using norm_add_le (a 0) (a t - a 0)
    have h3 : L * t ≤ L * T := by gcongr; exact ht.2
    linarith
  obtain ⟨γ, hγ⟩ : ∃ γ, ∀ t ∈ Icc 0 T, ‖b t‖ ≤ γ := by
    refine ⟨‖b 0‖ + L * T, fun t ht => ?_⟩
    have h1 := hLb t ht 0 ⟨le_rfl, hT⟩
    rw [sub_zero, abs_of_nonneg ht.1] at h1
    have h2 : ‖b t‖ ≤ ‖b 0‖ + ‖b t - b 0‖ := by simpa using norm_add_le (b 0) (b t - b 0)
    have h3 : L * t ≤ L * T := by gcongr; exact ht.2
    linarith
  obtain ⟨C1, δ1, hC1, hδ1, h1⟩ := affine_converges hF.nonneg hF.mean_le hT hL hLa hLb hm fun r => β * α * r + γ
  obtain ⟨C2, δ2, hC2, hδ2, h2⟩ := affine_converges (c := fun _ => sigma) hF.nonneg hF.cov_le hT hL hLa
    (by intro s _ t _; rw [sub_self, norm_zero]; positivity) hS fun r => β * r * r + ‖sigma‖
  refine ⟨max C1 C2, min δ1 δ2, lt_min hδ1 hδ2, ?_⟩
  intro meth dt n hdt hδ hn
  have hmem : ∀ k ≤ n, (k : ℝ) * dt ∈ Icc 0 T := fun k hk => ⟨by positivity, le_trans (by gcongr) hn⟩
  let A := List.ofFn fun k : Fin (n + 1) => a (k * dt)
  let b' := List.ofFn fun k : Fin (n + 1) => b (k * dt)
  have hA : ∀ k ≤ n, asFun A k = a (k * dt) := fun k hk => by
    rw [asFun_eq (by rw [List.length_ofFn]; omega), List.getElem_ofFn]
  have hb : ∀ k ≤ n, asFun b' k = b (k * dt) := fun k hk => by
    rw [asFun_eq (by rw [List.length_ofFn]; omega), List.getElem_ofFn]
  let x := traj (m 0, S 0) (fwdStep meth F dt (asFun A) (asFun b') sigma)
  refine ⟨fun k => (x k).1, fun k => (x k).2, ?_, ?_⟩
  · rw [solveFwd_ok meth F dt A b' (m 0) (S 0) sigma (by rw [List.length_ofFn]; omega)
      (by rw [List.length_ofFn, List.length_ofFn]; cases meth <;> simp only [needA] <;> (try split_ifs) <;> omega)]
    have hl : b'.length = n + 1 := List.length_ofFn
    rw [hl]
    refine congrArg Except.ok (congrArg₂ Prod.mk ?_ ?_) <;>
    · apply List.ext_getElem (by rw [List.length_map, List.length_range, List.length_ofFn])
      intro i h1 h2
      rw [List.getElem_map, List.getElem_range, List.getElem_ofFn]
  · intro k hk
    constructor
    · refine (h1 meth dt n (fun k => (x k).1) (fun k => aff hF.mean (a (k * dt)) (b (k * dt))) hdt (hδ.trans_le (min_le_left _ _)) hn rfl ?_ ?_ k hk).trans ?_
      · intro k hk r v hv
        exact aff_bound hF.nonneg hF.mean_le (hα _ (hmem k hk.le)) (hγ _ (hmem k hk.le)) hv
      · intro k hk
        show (fwdStep meth F dt (asFun A) (asFun b') sigma k (x k)).1 = _
        rw [fwdStep_mean F hF, hA k hk.le, hA (k + 1) hk, hb k hk.le, hb (k + 1) hk]
      · gcongr; exact le_max_left _ _
    · refine (h2 meth dt n (fun k => (x k).2) (fun _ s => aff hF.cov s sigma s) hdt (hδ.trans_le (min_le_right _ _)) hn rfl ?_ ?_ k hk).trans ?_
      · intro k hk r v hv
        exact aff_bound hF.nonneg hF.cov_le hv le_rfl hv
      · intro k hk
        show (fwdStep meth F dt (asFun A) (asFun b') sigma k (x k)).2 = _
        rw [fwdStep_cov F hF, hA k hk.le, hA (k + 1) hk]
      · gcongr; exact le_max_right _ _

end fwd

/-- Scalars. -/
def bilin1 : FwdBilin rhs1 2 where
  mean := -LinearMap.mul ℝ ℝ
  cov := (-2 : ℝ) • LinearMap.mul ℝ ℝ
  nonneg := by norm_num
  mean_eq m a b := by simp [rhs1, aff]
  cov_eq s a c := by simp [rhs1, aff]; ring
  mean_le a m := by
    simp only [LinearMap.neg_apply, LinearMap.mul_apply', norm_neg, norm_mul]
    nlinarith [mul_nonneg (norm_nonneg a) (norm_nonneg m)]
  cov_le a s := by
    simp only [LinearMap.smul_apply, LinearMap.mul_apply', norm_smul, norm_mul]
    norm_num
    linarith

section matrices

attribute [local instance] Matrix.normedAddCommGroup Matrix.normedSpace

theorem norm_mul_sup {d : ℕ} (A B : Matrix (Fin d) (Fin d) ℝ) : ‖A * B‖ ≤ d * ‖A‖ * ‖B‖ := by
  rw [Matrix.norm_le_iff (by positivity)]
  intro i j
  rw [Matrix.mul_apply]
  refine (norm_sum_le _ _).trans ?_
  calc _ ≤ ∑ _k : Fin d, ‖A‖ * ‖B‖ := Finset.sum_le_sum fun k _ => by
        rw [norm_mul]
        exact mul_le_mul (Matrix.norm_entry_le_entrywise_sup_norm A) (Matrix.norm_entry_le_entrywise_sup_norm B) (norm_nonneg _) (norm_nonneg _)
    _ = _ := by simp; ring

theorem norm_mulVec_sup {d : ℕ} (A : Matrix (Fin d) (Fin d) ℝ) (v : Fin d → ℝ) : ‖A *ᵥ v‖ ≤ d * ‖A‖ * ‖v‖ := by
  rw [pi_norm_le_iff_of_nonneg (by positivity)]
  intro i
  rw [Matrix.mulVec, dotProduct]
  refine (norm_sum_le _ _).trans ?_
  calc _ ≤ ∑ _k : Fin d, ‖A‖ * ‖v‖ := Finset.sum_le_sum fun k _ => by
        rw [norm_mul]
        exact mul_le_mul (Matrix.norm_entry_le_entrywise_sup_norm A) (norm_le_pi_norm v k) (norm_nonneg _) (norm_nonneg _)
    _ = _ := by simp; ring

theorem norm_transpose_sup {d : ℕ} (A : Matrix (Fin d) (Fin d) ℝ) : ‖Aᵀ‖ = ‖A‖ := Matrix.norm_transpose A

/-- Vectors and matrices. -/
def bilinN (d : ℕ) : FwdBilin (rhsN d) (2 * d) where
  mean := LinearMap.mk₂ ℝ (fun a m => -(a *ᵥ m)) (fun a a' m => by rw [Matrix.add_mulVec]; abel) (fun c a m => by rw [Matrix.smul_mulVec]; simp)
    (fun a m m' => by rw [Matrix.mulVec_add]; abel) (fun c a m => by rw [Matrix.mulVec_smul]; simp)
  cov := LinearMap.mk₂ ℝ (fun a s => -(a * s) - s * aᵀ) (fun a a' s => by rw [Matrix.transpose_add, add_mul, mul_add]; abel)
    (fun c a s => by rw [Matrix.transpose_smul, Matrix.smul_mul, Matrix.mul_smul]; module)
    (fun a s s' => by rw [add_mul, mul_add]; abel) (fun c a s => by rw [Matrix.smul_mul, Matrix.mul_smul]; module)
  nonneg := by positivity
  mean_eq m a b := rfl
  cov_eq s a c := rfl
  mean_le a m := by
    rw [LinearMap.mk₂_apply, norm_neg]
    have h := norm_mulVec_sup a m
    have : 0 ≤ d * ‖a‖ * ‖m‖ := by positivity
    linarith
  cov_le a s := by
    rw [LinearMap.mk₂_apply]
    refine (norm_sub_le _ _).trans ?_
    rw [norm_neg]
    have h1 := norm_mul_sup a s
    have h2 := norm_mul_sup s aᵀ
    rw [norm_transpose_sup] at h2
    linarith

/-! ## C106 -/

/-- C106 in one dimension. Let `a(t)`, `b(t)` be Lipschitz continuous on `[0, T]`, and let `m`, `s` solve `dm/dt = -a m + b`, `ds/dt = -2 a s + Sigma`
there. Then all four methods, applied to the values of `a`, `b` on a grid with a small step `dt`, return means and variances that differ from
`m`, `s` by at most a constant times `dt`. -/
theorem C106_converges_1D (T L sigma : ℝ) (hT : 0 ≤ T) (a b m S : ℝ → ℝ)
    (ha : ∀ s ∈ Icc 0 T, ∀ t ∈ Icc 0 T, |a s - a t| ≤ L * |s - t|) (hb : ∀ s ∈ Icc 0 T, ∀ t ∈ Icc 0 T, |b s - b t| ≤ L * |s - t|)
    (hm : ∀ t ∈ Icc 0 T, HasDerivWithinAt m (-(a t * m t) + b t) (Icc 0 T) t)
    (hS : ∀ t ∈ Icc 0 T, HasDerivWithinAt S (-(2 * a t * S t) + sigma) (Icc 0 T) t) :
    ∃ C δ, 0 < δ ∧ ∀ (meth : Method) (dt : ℝ) (n : ℕ), 0 < dt → dt < δ → n * dt ≤ T →
      ∃ M P : ℕ → ℝ,
        solveFwd meth rhs1 dt (List.ofFn fun k : Fin (n + 1) => a (k * dt)) (List.ofFn fun k : Fin (n + 1) => b (k * dt)) (m 0) (S 0) sigma
          = .ok (List.ofFn fun k : Fin (n + 1) => M k, List.ofFn fun k : Fin (n + 1) => P k)
        ∧ ∀ k ≤ n, |M k - m (k * dt)| ≤ C * dt ∧ |P k - S (k * dt)| ≤ C * dt := by
  have wk : ∀ {f : ℝ → ℝ}, (∀ s ∈ Icc 0 T, ∀ t ∈ Icc 0 T, |f s - f t| ≤ L * |s - t|) →
      ∀ s ∈ Icc 0 T, ∀ t ∈ Icc 0 T, ‖f s - f t‖ ≤ |L| * |s - t| := fun h s hs t ht =>
    (h s hs t ht).trans (mul_le_mul_of_nonneg_right (le_abs_self L) (abs_nonneg _))
  exact fwd_converges rhs1 bilin1 hT (abs_nonneg L) sigma (wk ha) (wk hb) hm hS

/-- C106 in `d` dimensions, entry by entry. -/
theorem C106_converges_nD (d : ℕ) (T L : ℝ) (hT : 0 ≤ T) (A : ℝ → Matrix (Fin d) (Fin d) ℝ) (b m : ℝ → Fin d → ℝ)
    (S : ℝ → Matrix (Fin d) (Fin d) ℝ) (sigma : Matrix (Fin d) (Fin d) ℝ)
    (hA : ∀ s ∈ Icc 0 T, ∀ t ∈ Icc 0 T, ∀ i j, |A s i j - A t i j| ≤ L * |s - t|)
    (hb : ∀ s ∈ Icc 0 T, ∀ t ∈ Icc 0 T, ∀ i, |b s i - b t i| ≤ L * |s - t|)
    (hm : ∀ t ∈ Icc 0 T, ∀ i, HasDerivWithinAt (fun s => m s i) ((-(A t *ᵥ m t) + b t) i) (Icc 0 T) t)
    (hS : ∀ t ∈ Icc 0 T, ∀ i j, HasDerivWithinAt (fun s => S s i j) ((-(A t * S t) - S t * (A t)ᵀ + sigma) i j) (Icc 0 T) t) :
    ∃ C δ, 0 < δ ∧ ∀ (meth : Method) (dt : ℝ) (n : ℕ), 0 < dt → dt < δ → n * dt ≤ T →
      ∃ (M : ℕ → Fin d → ℝ) (P : ℕ → Matrix (Fin d) (Fin d) ℝ),
        solveFwd meth (rhsN d) dt (List.ofFn fun k : Fin (n + 1) => A (k * dt)) (List.ofFn fun k : Fin (n + 1) => b (k * dt)) (m 0) (S 0) sigma
          = .ok (List.ofFn fun k : Fin (n + 1) => M k, List.ofFn fun k : Fin (n + 1) => P k)
        ∧ ∀ k ≤ n, (∀ i, |M k i - m (k * dt) i| ≤ C * dt) ∧ ∀ i j, |P k i j - S (k * dt) i j| ≤ C * dt := by
  have hL : ∀ s t : ℝ, L * |s - t| ≤ |L| * |s - t| := fun s t => mul_le_mul_of_nonneg_right (le_abs_self L) (abs_nonneg _)
  obtain ⟨C, δ, hδ, h⟩ := fwd_converges (rhsN d) (bilinN d) hT (abs_nonneg L) (a := A) (b := b) (m := m) (S := S) sigma
    (fun s hs t ht => (Matrix.norm_le_iff (by positivity)).2 fun i j => (hA s hs t ht i j).trans (hL s t))
    (fun s hs t ht => (pi_norm_le_iff_of_nonneg (by positivity)).2 fun i => (hb s hs t ht i).trans (hL s t))
    (fun t ht => hasDerivWithinAt_pi.2 (hm t ht))
    (fun t ht => hasDerivWithinAt_pi.2 fun i => hasDerivWithinAt_pi.2 (hS t ht i))
  refine ⟨C, δ, hδ, fun meth dt n hdt hd hn => ?_⟩
  obtain ⟨M, P, hrun, hclose⟩ := h meth dt n hdt hd hn
  refine ⟨M, P, hrun, fun k hk => ⟨fun i => ?_, fun i j => ?_⟩⟩
  · exact (norm_le_pi_norm (M k - m (k * dt)) i).trans (hclose k hk).1
  · exact (Matrix.norm_entry_le_entrywise_sup_norm (P k - S (k * dt))).trans (hclose k hk).2

/-! Non-vacuity: `a(t) = 1 / (1 + t)`, `b(t) = 2 - 1 / (1 + t)`, `Sigma = 3` and the solutions `m(t) = t`, `s(t) = 1 + t`; and the same in every
component of a `d`-dimensional state. -/

theorem example_lip : ∀ s ∈ Icc (0 : ℝ) 1, ∀ t ∈ Icc (0 : ℝ) 1, |1 / (1 + s) - 1 / (1 + t)| ≤ 1 * |s - t| := by
  intro s hs t ht
  have h1 : 0 < 1 + s := by linarith [hs.1]
  have h2 : 0 < 1 + t := by linarith [ht.1]
  have e : 1 / (1 + s) - 1 / (1 + t) = (t - s) / ((1 + s) * (1 + t)) := by field_simp; ring
  rw [e, abs_div, abs_sub_comm, one_mul, abs_of_pos (mul_pos h1 h2)]
  exact div_le_self (abs_nonneg _) (by nlinarith [hs.1, ht.1, mul_nonneg hs.1 ht.1])

theorem example_lip' : ∀ s ∈ Icc (0 : ℝ) 1, ∀ t ∈ Icc (0 : ℝ) 1, |(2 - 1 / (1 + s)) - (2 - 1 / (1 + t))| ≤ 1 * |s - t| := by
  intro s hs t ht
  have e : (2 - 1 / (1 + s)) - (2 - 1 / (1 + t)) = -(1 / (1 + s) - 1 / (1 + t)) := by ring
  rw [e, abs_neg]
  exact example_lip s hs t ht

theorem example_mean : ∀ t ∈ Icc (0 : ℝ) 1, HasDerivWithinAt (fun s : ℝ => s) (-(1 / (1 + t) * t) + (2 - 1 / (1 + t))) (Icc 0 1) t := by
  intro t ht
  have h2 : 1 + t ≠ 0 := by linarith [ht.1]
  have e : -(1 / (1 + t) * t) + (2 - 1 / (1 + t)) = 1 := by field_simp; ring
  rw [e]
  exact hasDerivWithinAt_id t _

theorem example_cov : ∀ t ∈ Icc (0 : ℝ) 1, HasDerivWithinAt (fun s : ℝ => 1 + s) (-(2 * (1 / (1 + t)) * (1 + t)) + 3) (Icc 0 1) t := by
  intro t ht
  have h2 : 1 + t ≠ 0 := by linarith [ht.1]
  have e : -(2 * (1 / (1 + t)) * (1 + t)) + 3 = (1 : ℝ) := by field_simp; ring
  rw [e]
  exact (hasDerivWithinAt_id t _).const_add 1

example := C106_converges_1D 1 1 3 zero_le_one (fun t => 1 / (1 + t)) (fun t => 2 - 1 / (1 + t)) (fun t => t) (fun t => 1 + t)
  example_lip example_lip' example_mean example_cov

example (d : ℕ) := C106_converges_nD d 1 1 zero_le_one (fun t => Matrix.diagonal fun _ => 1 / (1 + t)) (fun t _ => 2 - 1 / (1 + t)) (fun t _ => t)
  (fun t => Matrix.diagonal fun _ => 1 + t) (Matrix.diagonal fun _ => 3)
  (fun s hs t ht i j => by
    by_cases h : i = j
    · subst h
      simpa only [Matrix.diagonal_apply_eq] using example_lip s hs t ht
    · simp only [Matrix.diagonal_apply_ne _ h, sub_self, abs_zero]
      positivity)
  (fun s hs t ht i => example_lip' s hs t ht)
  (fun t ht i => by
    simpa only [Pi.add_apply, Pi.neg_apply, Matrix.mulVec_diagonal] using example_mean t ht)
  (fun t ht i j => by
    by_cases h : i = j
    · subst h
      simp only [Matrix.diagonal_apply_eq, Matrix.add_apply, Matrix.sub_apply, Matrix.neg_apply, Matrix.mul_diagonal,
        Matrix.diagonal_transpose]
      convert example_cov t ht using 1
      ring
    · simp only [Matrix.diagonal_apply_ne _ h, Matrix.add_apply, Matrix.sub_apply, Matrix.neg_apply, Matrix.mul_diagonal,
        Matrix.diagonal_transpose]
      have e : -(0 * (1 + t)) - 0 * (1 / (1 + t)) + 0 = (0 : ℝ) := by ring
      rw [e]
      exact hasDerivWithinAt_const t _ 0)

end matrices

end

end VGPA
