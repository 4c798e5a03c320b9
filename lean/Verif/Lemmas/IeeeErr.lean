import Verif.Lemmas.Ieee
import Mathlib.Tactic.Linarith
import Mathlib.Tactic.FieldSimp

/-!
# Rounding errors of double precision
-/

namespace VGPA
namespace Flt

open Classical

/-- The number `a` is finite and has the value `r`. -/
def IsVal (a : Flt) (r : ℝ) : Prop := a ≠ nan ∧ a.val = (r : EReal)

theorem isVal_cases {a : Flt} {r : ℝ} (h : IsVal a r) : (∃ s, a = zero s ∧ r = 0) ∨ ∃ hr, a = num r hr := by
  obtain ⟨h1, h2⟩ := h
  cases a with
  | nan => exact absurd rfl h1
  | inf s => cases s <;> simp [val] at h2
  | zero s => exact .inl ⟨s, rfl, by have : (0 : EReal) = r := h2; exact_mod_cast this.symm⟩
  | num q hq =>
    have : q = r := by simpa [val] using h2
    subst this
    exact .inr ⟨hq, rfl⟩

theorem isVal_zero (s : Bool) : IsVal (zero s) 0 := ⟨by simp, by simp [val]⟩

theorem isVal_num (r : ℝ) (h : r ≠ 0) : IsVal (num r h) r := ⟨by simp, rfl⟩

theorem isVal_ofReal (s : Bool) (r : ℝ) : IsVal (ofReal s r) r := by
  unfold ofReal
  split
  · rename_i h; subst h; exact isVal_zero s
  · exact isVal_num _ _

theorem isVal_neg {a : Flt} {r : ℝ} (h : IsVal a r) : IsVal (neg a) (-r) := by
  rcases isVal_cases h with ⟨s, rfl, rfl⟩ | ⟨hr, rfl⟩
  · simpa [neg] using isVal_zero (!s)
  · exact isVal_num _ _

theorem isVal_unique {a : Flt} {r q : ℝ} (h : IsVal a r) (h' : IsVal a q) : r = q := by
  have := h.2.symm.trans h'.2
  exact_mod_cast this

theorem nearest_err {y : ℝ} (hy : 0 ≤ y) : |(nearest y : ℝ) - y| ≤ 1 / 2 := by
  have h1 := Nat.floor_le hy
  have h2 := Nat.lt_floor_add_one y
  unfold nearest
  split
  · rw [abs_le]; constructor <;> linarith
  · split
    · push_cast; rw [abs_le]; constructor <;> linarith
    · split
      · rw [abs_le]; constructor <;> linarith
      · push_cast; rw [abs_le]; constructor <;> linarith

/-- Unit roundoff. -/
noncomputable def uro : ℝ := 2 ^ (-53 : ℤ)

/-- Half the smallest double. -/
noncomputable def tiny : ℝ := 2 ^ (-1075 : ℤ)

theorem uro_pos : 0 < uro := two_zpow_pos _
theorem tiny_pos : 0 < tiny := two_zpow_pos _
theorem uro_eq : uro = 1 / 2 ^ 53 := by unfold uro; norm_num

theorem tiny_le {k : ℕ} (hk : k ≤ 1075) : tiny ≤ 1 / 2 ^ k := by
  unfold tiny
  rw [one_div, ← zpow_natCast, ← zpow_neg]
  exact zpow_le_zpow_right₀ (by norm_num) (by omega)

theorem roundAbs_err {y : ℝ} (hy : 0 < y) : |roundAbs y - y| ≤ uro * y + tiny := by
  have hb := two_zpow_pos (lastBit y)
  have h1 := nearest_err (div_nonneg hy.le hb.le)
  have e : roundAbs y - y = ((nearest (y / 2 ^ lastBit y) : ℝ) - y / 2 ^ lastBit y) * 2 ^ lastBit y := by
    unfold roundAbs
    field_simp
  rw [e, abs_mul, abs_of_pos hb]
  have h2 := mul_le_mul_of_nonneg_right h1 hb.le
  refine h2.trans ?_
  by_cases hl : Int.log 2 y ≤ -1022
  · have : (1 / 2 : ℝ) * 2 ^ lastBit y = tiny := by
      rw [lastBit, _root_.max_eq_right hl, tiny, show (-1022 - 52 : ℤ) = -1075 + 1 by norm_num, zpow_add₀ (by norm_num), zpow_one]; ring
    rw [this]
    have := mul_pos uro_pos hy
    linarith
  · have : (1 / 2 : ℝ) * 2 ^ lastBit y = uro * 2 ^ Int.log 2 y := by
      rw [lastBit, _root_.max_eq_left (by omega), uro, ← zpow_add₀ (by norm_num), show Int.log 2 y - 52 = (-53 + Int.log 2 y) + 1 by ring, zpow_add₀ (by norm_num) _ 1, zpow_one]
      ring
    rw [this]
    have := mul_le_mul_of_nonneg_left (log_le hy) uro_pos.le
    have := tiny_pos
    linarith

/-- Rounding without overflow. -/
theorem round_err {r : ℝ} (hr : r ≠ 0) (h : |r| ≤ 2 ^ 1023) : ∃ q, IsVal (Flt.round r) q ∧ |q - r| ≤ uro * |r| + tiny := by
  have hp := abs_pos.2 hr
  have h1 := roundAbs_err hp
  have hlt : ¬ (2 : ℝ) ^ 1024 ≤ roundAbs |r| := by
    intro hc
    have e : (2 : ℝ) ^ 1024 = 2 * 2 ^ 1023 := by rw [← pow_succ']
    have h2 := (abs_le.1 h1).2
    have h3 : tiny ≤ 1 / 2 ^ 0 := tiny_le (by norm_num)
    have h4 : (2 : ℝ) ^ 3 ≤ 2 ^ 1023 := pow_le_pow_right₀ (by norm_num) (by norm_num)
    have h5 : uro * |r| ≤ 1 / 2 * 2 ^ 1023 := mul_le_mul (by rw [uro_eq]; norm_num) h hp.le (by norm_num)
    rw [e] at hc
    clear e
    generalize (2 : ℝ) ^ 1023 = T at *
    norm_num at h3 h4
    linarith
  unfold Flt.round
  rw [if_neg hlt]
  refine ⟨_, isVal_ofReal _ _, ?_⟩
  by_cases hn : r < 0
  · rw [if_pos hn]
    rw [abs_of_neg hn] at h1 ⊢
    rw [show -roundAbs (-r) - r = -(roundAbs (-r) - -r) by ring, abs_neg]
    exact h1
  · rw [if_neg hn]
    rw [abs_of_pos (lt_of_le_of_ne (not_lt.1 hn) hr.symm)] at h1 ⊢
    exact h1

theorem err_nonneg (r : ℝ) : 0 ≤ uro * |r| + tiny := by
  have := mul_nonneg uro_pos.le (abs_nonneg r)
  have := tiny_pos
  linarith

theorem add_err {a b : Flt} {x y : ℝ} (ha : IsVal a x) (hb : IsVal b y) (h : |x + y| ≤ 2 ^ 1023) :
    ∃ q, IsVal (add a b) q ∧ |q - (x + y)| ≤ uro * |x + y| + tiny := by
  rcases isVal_cases ha with ⟨s, rfl, rfl⟩ | ⟨hx, rfl⟩
  · refine ⟨0 + y, ?_, by rw [sub_self, abs_zero]; exact err_nonneg _⟩
    rcases isVal_cases hb with ⟨t, rfl, rfl⟩ | ⟨hy, rfl⟩
    · simpa [add] using isVal_zero (s && t)
    · simpa [add] using isVal_num y hy
  · rcases isVal_cases hb with ⟨t, rfl, rfl⟩ | ⟨hy, rfl⟩
    · refine ⟨x + 0, ?_, by rw [sub_self, abs_zero]; exact err_nonneg _⟩
      simpa [add] using isVal_num x hx
    · by_cases h0 : x + y = 0
      · refine ⟨0, ?_, by rw [h0, sub_self, abs_zero]; have := tiny_pos; linarith⟩
        simpa [add, h0] using isVal_zero false
      · simpa [add, h0] using round_err h0 h

theorem sub_err {a b : Flt} {x y : ℝ} (ha : IsVal a x) (hb : IsVal b y) (h : |x - y| ≤ 2 ^ 1023) :
    ∃ q, IsVal (sub a b) q ∧ |q - (x - y)| ≤ uro * |x - y| + tiny := by
  have := add_err ha (isVal_neg hb) (by rwa [← sub_eq_add_neg])
  rwa [← sub_eq_add_neg] at this

theorem mul_err {a b : Flt} {x y : ℝ} (ha : IsVal a x) (hb : IsVal b y) (h : |x * y| ≤ 2 ^ 1023) :
    ∃ q, IsVal (mul a b) q ∧ |q - x * y| ≤ uro * |x * y| + tiny := by
  rcases isVal_cases ha with ⟨s, rfl, rfl⟩ | ⟨hx, rfl⟩
  · refine ⟨0 * y, ?_, by rw [sub_self, abs_zero]; exact err_nonneg _⟩
    rcases isVal_cases hb with ⟨t, rfl, rfl⟩ | ⟨hy, rfl⟩
    · simpa [mul, sgn] using isVal_zero (s ^^ t)
    · simpa [mul, sgn] using isVal_zero (s ^^ decide (y < 0))
  · rcases isVal_cases hb with ⟨t, rfl, rfl⟩ | ⟨hy, rfl⟩
    · refine ⟨x * 0, ?_, by rw [sub_self, abs_zero]; exact err_nonneg _⟩
      simpa [mul, sgn] using isVal_zero (decide (x < 0) ^^ t)
    · simpa [mul] using round_err (mul_ne_zero hx hy) h

theorem div_err {a b : Flt} {x y : ℝ} (ha : IsVal a x) (hb : IsVal b y) (hy0 : y ≠ 0) (h : |x / y| ≤ 2 ^ 1023) :
    ∃ q, IsVal (div a b) q ∧ |q - x / y| ≤ uro * |x / y| + tiny := by
  rcases isVal_cases hb with ⟨t, rfl, rfl⟩ | ⟨hy, rfl⟩
  · exact absurd rfl hy0
  · rcases isVal_cases ha with ⟨s, rfl, rfl⟩ | ⟨hx, rfl⟩
    · refine ⟨0 / y, ?_, by rw [sub_self, abs_zero]; exact err_nonneg _⟩
      simpa [div, sgn] using isVal_zero (s ^^ decide (y < 0))
    · simpa [div] using round_err (div_ne_zero hx hy) h

theorem lit_err {q : ℚ} (h : |(q : ℝ)| ≤ 2 ^ 1023) : ∃ r, IsVal (Flt.lit q) r ∧ |r - q| ≤ uro * |(q : ℝ)| + tiny := by
  unfold Flt.lit
  by_cases hq : q = 0
  · subst hq
    refine ⟨0, by simpa using isVal_zero false, ?_⟩
    simp [tiny_pos.le]
  · rw [if_neg hq]
    exact round_err (by exact_mod_cast hq) h

end Flt
end VGPA
