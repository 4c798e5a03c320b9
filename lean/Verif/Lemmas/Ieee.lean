import Verif.Model.Ieee

/-!
# Facts about double precision
-/

namespace VGPA
namespace Flt

open Classical

/-! ## Rounding -/

theorem le_nearest {y : ℝ} {k : ℕ} (h : (k : ℝ) ≤ y) : k ≤ nearest y := by
  have hf : k ≤ ⌊y⌋₊ := Nat.le_floor h
  unfold nearest
  split
  · exact hf
  · split
    · omega
    · split <;> omega

theorem nearest_eq {k : ℕ} : nearest (k : ℝ) = k := by
  unfold nearest
  rw [Nat.floor_natCast, sub_self, if_pos (by norm_num)]

theorem nearest_zero {y : ℝ} (h : nearest y = 0) : y ≤ 1 / 2 := by
  unfold nearest at h
  split at h
  · rename_i h1
    rw [h] at h1
    simp only [Nat.cast_zero, sub_zero] at h1
    exact h1.le
  · split at h
    · omega
    · rename_i _ h2
      split at h
      · rw [h] at h2
        simp only [Nat.cast_zero, sub_zero] at h2
        exact not_lt.1 h2
      · omega

theorem nearest_small {y : ℝ} (_h0 : 0 ≤ y) (h : y < 1 / 2) : nearest y = 0 := by
  have hf : ⌊y⌋₊ = 0 := Nat.floor_eq_zero.2 (by linarith)
  unfold nearest
  rw [hf, if_pos (by simpa using h)]

theorem two_zpow_pos (k : ℤ) : (0 : ℝ) < 2 ^ k := zpow_pos (by norm_num) k

theorem log_le {y : ℝ} (hy : 0 < y) : (2 : ℝ) ^ Int.log 2 y ≤ y := by
  have := Int.zpow_log_le_self (b := 2) (r := y) (by norm_num) hy
  simpa using this

theorem le_log {y : ℝ} (hy : 0 < y) {k : ℤ} (h : (2 : ℝ) ^ k ≤ y) : k ≤ Int.log 2 y :=
  (Int.zpow_le_iff_le_log (b := 2) (r := y) (by norm_num) hy).1 (by simpa using h)

theorem log_zpow (k : ℤ) : Int.log 2 ((2 : ℝ) ^ k) = k := by
  have := Int.log_zpow (R := ℝ) (b := 2) (by norm_num) k
  simpa using this

theorem roundAbs_nonneg (y : ℝ) : 0 ≤ roundAbs y := mul_nonneg (Nat.cast_nonneg _) (two_zpow_pos _).le

/-- Rounding does not cross powers of two. -/
theorem le_roundAbs {y : ℝ} {k : ℤ} (hk : -1022 ≤ k) (h : (2 : ℝ) ^ k ≤ y) : (2 : ℝ) ^ k ≤ roundAbs y := by
  have hy : 0 < y := (two_zpow_pos k).trans_le h
  have hl := le_log hy h
  have hb : lastBit y = Int.log 2 y - 52 := by unfold lastBit; rw [_root_.max_eq_left (hk.trans hl)]
  have h1 : ((2 ^ 52 : ℕ) : ℝ) ≤ y / 2 ^ lastBit y := by
    rw [le_div_iff₀ (two_zpow_pos _), hb]
    have : ((2 ^ 52 : ℕ) : ℝ) * 2 ^ (Int.log 2 y - 52) = 2 ^ Int.log 2 y := by
      rw [show ((2 ^ 52 : ℕ) : ℝ) = (2 : ℝ) ^ (52 : ℤ) by norm_num, ← zpow_add₀ (by norm_num)]
      congr 1; ring
    rw [this]
    exact log_le hy
  have h2 := le_nearest h1
  have h3 : ((2 ^ 52 : ℕ) : ℝ) ≤ (nearest (y / 2 ^ lastBit y) : ℝ) := by exact_mod_cast h2
  calc (2 : ℝ) ^ k ≤ 2 ^ Int.log 2 y := zpow_le_zpow_right₀ (by norm_num) hl
    _ = ((2 ^ 52 : ℕ) : ℝ) * 2 ^ lastBit y := by
        rw [hb, show ((2 ^ 52 : ℕ) : ℝ) = (2 : ℝ) ^ (52 : ℤ) by norm_num, ← zpow_add₀ (by norm_num)]
        congr 1; ring
    _ ≤ roundAbs y := mul_le_mul_of_nonneg_right h3 (two_zpow_pos _).le

/-- Powers of two are doubles. -/
theorem roundAbs_zpow {k : ℤ} (hk : -1022 ≤ k) : roundAbs ((2 : ℝ) ^ k) = 2 ^ k := by
  have hb : lastBit ((2 : ℝ) ^ k) = k - 52 := by unfold lastBit; rw [log_zpow, _root_.max_eq_left hk]
  have h1 : (2 : ℝ) ^ k / 2 ^ (k - 52) = ((2 ^ 52 : ℕ) : ℝ) := by
    rw [← zpow_sub₀ (by norm_num), show k - (k - 52) = 52 by ring]; norm_num
  unfold roundAbs
  rw [hb, h1, nearest_eq, show ((2 ^ 52 : ℕ) : ℝ) = (2 : ℝ) ^ (52 : ℤ) by norm_num, ← zpow_add₀ (by norm_num)]
  congr 1; ring

/-- What underflows is at most half the smallest double. -/
theorem roundAbs_zero {y : ℝ} (hy : 0 < y) (h : roundAbs y = 0) : y ≤ 2 ^ (-1075 : ℤ) := by
  have h0 : nearest (y / 2 ^ lastBit y) = 0 := by
    rcases mul_eq_zero.1 h with h | h
    · exact_mod_cast h
    · exact absurd h (two_zpow_pos _).ne'
  have h1 := nearest_zero h0
  rw [div_le_iff₀ (two_zpow_pos _)] at h1
  by_cases hl : Int.log 2 y ≤ -1022
  · rw [lastBit, _root_.max_eq_right hl, show (-1022 - 52 : ℤ) = -1075 + 1 by norm_num, zpow_add₀ (by norm_num)] at h1
    calc y ≤ _ := h1
      _ = 2 ^ (-1075 : ℤ) := by rw [zpow_one]; ring
  · exfalso
    have hk : (-1022 : ℤ) ≤ Int.log 2 y := by omega
    have := le_roundAbs hk (log_le hy)
    rw [h] at this
    exact absurd (two_zpow_pos (Int.log 2 y)) (not_lt.2 this)

theorem roundAbs_tiny {y : ℝ} (hy : 0 < y) (h : y < 2 ^ (-1075 : ℤ)) : roundAbs y = 0 := by
  have hl : Int.log 2 y ≤ -1022 := by
    by_contra hc
    have hc : (-1022 : ℤ) ≤ Int.log 2 y := by omega
    have h1 : (2 : ℝ) ^ (-1022 : ℤ) ≤ y := (zpow_le_zpow_right₀ (by norm_num) hc).trans (log_le hy)
    have h2 : (2 : ℝ) ^ (-1075 : ℤ) ≤ 2 ^ (-1022 : ℤ) := zpow_le_zpow_right₀ (by norm_num) (by norm_num)
    linarith
  unfold roundAbs
  rw [nearest_small (div_nonneg hy.le (two_zpow_pos _).le), Nat.cast_zero, zero_mul]
  rw [div_lt_iff₀ (two_zpow_pos _), lastBit, _root_.max_eq_right hl, show (-1022 - 52 : ℤ) = -1075 + 1 by norm_num, zpow_add₀ (by norm_num),
    zpow_one]
  calc y < _ := h
    _ = _ := by ring

theorem ofReal_ne_nan (s : Bool) (r : ℝ) : ofReal s r ≠ nan := by
  unfold ofReal
  split <;> simp

theorem round_ne_nan (r : ℝ) : round r ≠ nan := by
  unfold round
  by_cases h : (2 : ℝ) ^ 1024 ≤ roundAbs |r|
  · rw [if_pos h]; simp
  · rw [if_neg h]; exact ofReal_ne_nan _ _

theorem round_sgn {r : ℝ} (_hr : r ≠ 0) : (round r).sgn = decide (r < 0) := by
  have h0 := roundAbs_nonneg |r|
  unfold round
  by_cases hb : (2 : ℝ) ^ 1024 ≤ roundAbs |r|
  · rw [if_pos hb]; rfl
  · rw [if_neg hb]
    unfold ofReal
    by_cases e : roundAbs |r| = 0
    · rw [dif_pos (by rw [e]; simp)]; rfl
    · by_cases h : r < 0
      · simp only [h, if_true]
        rw [dif_neg (by rwa [neg_eq_zero])]
        simp [sgn, lt_of_le_of_ne h0 (Ne.symm e)]
      · simp only [h, if_false]
        rw [dif_neg e]
        simp [sgn, h0]

theorem round_neg {r : ℝ} (hr : r ≠ 0) : round (-r) = neg (round r) := by
  have hs : decide (-r < 0) = !decide (r < 0) := by
    rcases lt_or_gt_of_ne hr with h | h
    · simp [h, h.le]
    · simp [h, h.le]
  unfold round
  rw [abs_neg, hs]
  split
  · rfl
  · unfold ofReal
    rcases lt_or_gt_of_ne hr with h | h
    · have h' : ¬ -r < 0 := by linarith
      simp only [h, h', if_true, if_false]
      by_cases e : roundAbs |r| = 0
      · simp [e, neg]
      · simp [e, neg]
    · have h' : -r < 0 := by linarith
      have h'' : ¬ r < 0 := by linarith
      simp only [h', h'', if_true, if_false]
      by_cases e : roundAbs |r| = 0
      · simp [e, neg]
      · simp [e, neg]

/-- At least `r`, and not NaN. -/
def Ge (a : Flt) (r : ℝ) : Prop := a ≠ nan ∧ (r : EReal) ≤ a.val

theorem round_ge {r : ℝ} {k : ℤ} (hk : -1022 ≤ k) (h : (2 : ℝ) ^ k ≤ r) : Ge (round r) (2 ^ k) := by
  have hr : 0 < r := (two_zpow_pos k).trans_le h
  refine ⟨round_ne_nan r, ?_⟩
  have h1 := le_roundAbs hk h
  have e : roundAbs r ≠ 0 := fun e => absurd (two_zpow_pos k) (not_lt.2 (e ▸ h1))
  unfold round
  rw [abs_of_pos hr]
  by_cases hb : (2 : ℝ) ^ 1024 ≤ roundAbs r
  · rw [if_pos hb]
    rw [decide_eq_false (not_lt.2 hr.le)]
    exact le_top
  · rw [if_neg hb, if_neg (not_lt.2 hr.le)]
    unfold ofReal
    rw [dif_neg e]
    exact EReal.coe_le_coe_iff.2 h1

theorem round_zpow {k : ℤ} (hk : -1022 ≤ k) (hk' : k < 1024) : round ((2 : ℝ) ^ k) = num (2 ^ k) (two_zpow_pos k).ne' := by
  have h2 : ¬ (2 : ℝ) ^ 1024 ≤ 2 ^ k := by
    rw [not_le, ← zpow_natCast]
    exact zpow_lt_zpow_right₀ (by norm_num) (by exact_mod_cast hk')
  have e : ∀ s, ofReal s ((2 : ℝ) ^ k) = num (2 ^ k) (two_zpow_pos k).ne' := fun s => dif_neg (two_zpow_pos k).ne'
  unfold round
  rw [abs_of_pos (two_zpow_pos k), roundAbs_zpow hk, if_neg h2, if_neg (not_lt.2 (two_zpow_pos k).le), e]

theorem round_tiny {r : ℝ} (hr : r ≠ 0) (h : |r| < 2 ^ (-1075 : ℤ)) : round r = zero (decide (r < 0)) := by
  have h1 := roundAbs_tiny (abs_pos.2 hr) h
  unfold round ofReal
  rw [h1, if_neg (by norm_num), dif_pos (by simp)]

theorem ofReal_num {s : Bool} {r q : ℝ} {h : q ≠ 0} (e : ofReal s r = num q h) : q = r := by
  unfold ofReal at e
  by_cases hr : r = 0
  · rw [dif_pos hr] at e; cases e
  · rw [dif_neg hr] at e; cases e; rfl

theorem ofReal_zero {s t : Bool} {r : ℝ} (e : ofReal s r = zero t) : r = 0 := by
  unfold ofReal at e
  by_cases hr : r = 0
  · exact hr
  · rw [dif_neg hr] at e; cases e

theorem abs_signed (r : ℝ) : |(if r < 0 then -roundAbs |r| else roundAbs |r|)| = roundAbs |r| := by
  have h0 := roundAbs_nonneg |r|
  by_cases h : r < 0
  · rw [if_pos h, abs_neg, abs_of_nonneg h0]
  · rw [if_neg h, abs_of_nonneg h0]

/-- A finite result is below the largest power of two. -/
theorem round_lt {r q : ℝ} {h : q ≠ 0} (e : round r = num q h) : |q| < 2 ^ 1024 := by
  unfold round at e
  by_cases hb : (2 : ℝ) ^ 1024 ≤ roundAbs |r|
  · rw [if_pos hb] at e; cases e
  · rw [if_neg hb] at e
    rw [ofReal_num e, abs_signed]
    exact not_le.1 hb

theorem round_zero {r : ℝ} (hr : r ≠ 0) {s : Bool} (e : round r = zero s) : |r| ≤ 2 ^ (-1075 : ℤ) := by
  unfold round at e
  by_cases hb : (2 : ℝ) ^ 1024 ≤ roundAbs |r|
  · rw [if_pos hb] at e; cases e
  · rw [if_neg hb] at e
    refine roundAbs_zero (abs_pos.2 hr) ?_
    rw [← abs_signed, ofReal_zero e, abs_zero]

/-! ## Signs -/

theorem neg_sgn {a : Flt} (h : a ≠ nan) : (neg a).sgn = !a.sgn := by
  cases a with
  | nan => exact absurd rfl h
  | inf s => rfl
  | zero s => rfl
  | num r hr => rcases lt_or_gt_of_ne hr with h1 | h1 <;> simp [neg, sgn, h1, h1.le]

theorem neg_nan {a : Flt} : neg a = nan ↔ a = nan := by cases a <;> simp [neg]

theorem neg_neg (a : Flt) : neg (neg a) = a := by cases a <;> simp [neg]

theorem val_neg {a : Flt} (h : a ≠ nan) : (neg a).val = -a.val := by
  cases a with
  | nan => exact absurd rfl h
  | inf s => cases s <;> simp [neg, val]
  | zero s => simp [neg, val]
  | num r h => simp [neg, val]

theorem mul_nan_left (b : Flt) : mul nan b = nan := by cases b <;> rfl
theorem mul_nan_right (a : Flt) : mul a nan = nan := by cases a <;> rfl
theorem div_nan_left (b : Flt) : div nan b = nan := by cases b <;> rfl
theorem div_nan_right (a : Flt) : div a nan = nan := by cases a <;> rfl
theorem add_nan_left (b : Flt) : add nan b = nan := by cases b <;> rfl
theorem add_nan_right (a : Flt) : add a nan = nan := by cases a <;> rfl
theorem sub_nan_left (b : Flt) : sub nan b = nan := add_nan_left _
theorem sub_nan_right (a : Flt) : sub a nan = nan := add_nan_right _
theorem le_nan_left (b : Flt) : le nan b = false := by simp [le]
theorem le_nan_right (a : Flt) : le a nan = false := by simp [le]
theorem lt_nan_left (b : Flt) : lt nan b = false := by simp [lt]
theorem lt_nan_right (a : Flt) : lt a nan = false := by simp [lt]

theorem le_iff {a b : Flt} : le a b = true ↔ a ≠ nan ∧ b ≠ nan ∧ a.val ≤ b.val := decide_eq_true_iff

theorem lt_iff {a b : Flt} : lt a b = true ↔ a ≠ nan ∧ b ≠ nan ∧ a.val < b.val := decide_eq_true_iff

theorem mul_sgn {a b : Flt} (h : mul a b ≠ nan) : (mul a b).sgn = xor a.sgn b.sgn := by
  cases a <;> cases b <;> first | (exact absurd rfl h) | rfl | skip
  rename_i a ha b hb
  rw [mul, round_sgn (mul_ne_zero ha hb)]
  rcases lt_or_gt_of_ne ha with h1 | h1 <;> rcases lt_or_gt_of_ne hb with h2 | h2
  · simp [sgn, h1, h2, (mul_pos_of_neg_of_neg h1 h2).le]
  · simp [sgn, h1, h2.le, mul_neg_of_neg_of_pos h1 h2]
  · simp [sgn, h1.le, h2, mul_neg_of_pos_of_neg h1 h2]
  · simp [sgn, not_lt.2 h1.le, not_lt.2 h2.le, not_lt.2 (mul_pos h1 h2).le]

theorem div_sgn {a b : Flt} (h : div a b ≠ nan) : (div a b).sgn = xor a.sgn b.sgn := by
  cases a <;> cases b <;> first | (exact absurd rfl h) | rfl | skip
  rename_i a ha b hb
  rw [div, round_sgn (div_ne_zero ha hb)]
  rcases lt_or_gt_of_ne ha with h1 | h1 <;> rcases lt_or_gt_of_ne hb with h2 | h2
  · simp [sgn, h1, h2, (div_pos_of_neg_of_neg h1 h2).le]
  · simp [sgn, h1, h2.le, div_neg_of_neg_of_pos h1 h2]
  · simp [sgn, h1.le, h2, div_neg_of_pos_of_neg h1 h2]
  · simp [sgn, not_lt.2 h1.le, not_lt.2 h2.le, not_lt.2 (div_pos h1 h2).le]

theorem mul_ne_nan {a b : Flt} (h : mul a b ≠ nan) : a ≠ nan ∧ b ≠ nan :=
  ⟨fun e => h (by rw [e, mul_nan_left]), fun e => h (by rw [e, mul_nan_right])⟩

theorem div_ne_nan {a b : Flt} (h : div a b ≠ nan) : a ≠ nan ∧ b ≠ nan :=
  ⟨fun e => h (by rw [e, div_nan_left]), fun e => h (by rw [e, div_nan_right])⟩

theorem add_ne_nan {a b : Flt} (h : add a b ≠ nan) : a ≠ nan ∧ b ≠ nan :=
  ⟨fun e => h (by rw [e, add_nan_left]), fun e => h (by rw [e, add_nan_right])⟩

/-- A positive value has sign plus, a negative one minus. -/
theorem sgn_of_pos {a : Flt} (h : 0 < a.val) : a.sgn = false := by
  cases a with
  | nan => simp [val] at h
  | inf s => cases s <;> simp [val, sgn] at h ⊢
  | zero s => simp [val] at h
  | num r hr => simp only [val, EReal.coe_pos] at h; simp [sgn, h.le]

theorem sgn_of_neg {a : Flt} (h : a.val < 0) (hn : a ≠ nan) : a.sgn = true := by
  cases a with
  | nan => exact absurd rfl hn
  | inf s => cases s <;> simp [val, sgn] at h ⊢
  | zero s => simp [val] at h
  | num r hr => simp only [val, EReal.coe_neg'] at h; simp [sgn, h]

theorem val_nonpos_of_sgn {a : Flt} (h : a.sgn = true) : a.val ≤ 0 := by
  cases a with
  | nan => simp [val]
  | inf s => simp only [sgn] at h; simp [val, h]
  | zero s => simp [val]
  | num r hr => simp only [sgn, decide_eq_true_eq] at h; simpa [val] using h.le

theorem val_nonneg_of_sgn {a : Flt} (h : a.sgn = false) (hn : a ≠ nan) : 0 ≤ a.val := by
  cases a with
  | nan => exact absurd rfl hn
  | inf s => simp only [sgn] at h; simp [val, h]
  | zero s => simp [val]
  | num r hr => simp only [sgn, decide_eq_false_iff_not, not_lt] at h; simpa [val] using h

theorem add_comm' (a b : Flt) : add a b = add b a := by
  cases a <;> cases b <;> simp only [add]
  · rename_i s t; cases s <;> cases t <;> rfl
  · rename_i s t; rw [Bool.and_comm]
  · rename_i a _ b _; rw [_root_.add_comm]

theorem div_nonpos' {a b : Flt} (ha : a.val ≤ 0) (hb : 0 < b.val) (hn : div a b ≠ nan) : (div a b).val ≤ 0 := by
  obtain ⟨h1, h2⟩ := div_ne_nan hn
  rcases ha.lt_or_eq with h | h
  · refine val_nonpos_of_sgn ?_
    rw [div_sgn hn, sgn_of_neg h h1, sgn_of_pos hb]; rfl
  · cases a with
    | nan => exact absurd rfl h1
    | inf s => cases s <;> simp [val] at h
    | num r hr => simp [val, hr] at h
    | zero s =>
      cases b with
      | nan => exact absurd rfl h2
      | inf t => simp [div, val]
      | zero t => exact absurd rfl hn
      | num r hr => simp [div, val]

/-! ## Bounds that rounding keeps -/

theorem Ge.add {a b : Flt} {k : ℤ} (hk : -1022 ≤ k) (ha : Ge a (2 ^ k)) (hb : b ≠ nan) (hb0 : 0 ≤ b.val) : Ge (add a b) (2 ^ k) := by
  obtain ⟨hn, ha⟩ := ha
  have hp := two_zpow_pos k
  cases a with
  | nan => exact absurd rfl hn
  | inf s =>
    cases s
    · cases b with
      | nan => exact absurd rfl hb
      | inf t => cases t <;> simp [Flt.add, Ge, val] at hb0 ⊢
      | zero t => simp [Flt.add, Ge, val]
      | num r h => simp [Flt.add, Ge, val]
    · simp [val] at ha
  | zero s =>
    simp only [val] at ha
    have : (2 : ℝ) ^ k ≤ 0 := by exact_mod_cast ha
    linarith
  | num r h =>
    simp only [val, EReal.coe_le_coe_iff] at ha
    cases b with
    | nan => exact absurd rfl hb
    | inf t => cases t <;> simp [Flt.add, Ge, val] at hb0 ⊢
    | zero t => exact ⟨by simp [Flt.add], by simpa [Flt.add, val] using ha⟩
    | num q hq =>
      simp only [val, EReal.coe_nonneg] at hb0
      have : ¬ r + q = 0 := by linarith
      simp only [Flt.add, this, if_false]
      exact round_ge hk (by linarith)

theorem Ge.mul {a b : Flt} {j k : ℤ} (hk : -1022 ≤ j + k) (ha : Ge a (2 ^ j)) (hb : Ge b (2 ^ k)) : Ge (mul a b) (2 ^ (j + k)) := by
  obtain ⟨hn, ha⟩ := ha
  obtain ⟨hm, hb⟩ := hb
  have hp := two_zpow_pos j
  have hq := two_zpow_pos k
  have z : ∀ {i : ℤ} {s}, ¬ (((2 : ℝ) ^ i : ℝ) : EReal) ≤ (zero s).val := by
    intro i s h
    simp only [val] at h
    have : (2 : ℝ) ^ i ≤ 0 := by exact_mod_cast h
    linarith [two_zpow_pos i]
  cases a with
  | nan => exact absurd rfl hn
  | zero s => exact absurd ha z
  | inf s =>
    cases s
    · cases b with
      | nan => exact absurd rfl hm
      | inf t => cases t <;> simp [Flt.mul, Ge, val, sgn] at hb ⊢
      | zero t => exact absurd hb z
      | num r h =>
        have h' : 0 < (num r h).val := lt_of_lt_of_le (EReal.coe_pos.2 hq) hb
        simp only [Flt.mul, Ge, sgn_of_pos h']
        simp [val]
    · simp [val] at ha
  | num r h =>
    simp only [val, EReal.coe_le_coe_iff] at ha
    cases b with
    | nan => exact absurd rfl hm
    | inf t =>
      cases t
      · have : ¬ r < 0 := by linarith
        simp [Flt.mul, Ge, val, sgn, this]
      · simp [val] at hb
    | zero t => exact absurd hb z
    | num q hq' =>
      simp only [val, EReal.coe_le_coe_iff] at hb
      refine round_ge hk ?_
      rw [zpow_add₀ (by norm_num)]
      exact mul_le_mul ha hb hq.le (hp.le.trans ha)

end Flt
end VGPA
