import Verif.Lemmas.IeeeErr

/-!
# Values of single operations in double precision
-/

namespace VGPA
namespace Flt

open Classical

theorem nearest_of_lt {y : ℝ} {k : ℕ} (h : |y - k| < 1 / 2) (hy : 0 ≤ y) : nearest y = k := by
  have h1 := nearest_err hy
  have h2 : |(nearest y : ℝ) - k| < 1 := by
    calc |(nearest y : ℝ) - k| = |((nearest y : ℝ) - y) + (y - k)| := by ring_nf
      _ ≤ _ := abs_add_le _ _
      _ < 1 := by linarith
  have h3 : |(nearest y : ℤ) - (k : ℤ)| < 1 := by exact_mod_cast h2
  have := Int.abs_lt_one_iff.1 h3
  omega

theorem log_eq {y : ℝ} {e : ℤ} (h1 : (2 : ℝ) ^ e ≤ y) (h2 : y < 2 ^ (e + 1)) : Int.log 2 y = e := by
  have hy := (two_zpow_pos e).trans_le h1
  have h3 := le_log hy h1
  have h4 := log_le hy
  have h5 : (2 : ℝ) ^ Int.log 2 y < 2 ^ (e + 1) := h4.trans_lt h2
  have := (zpow_lt_zpow_iff_right₀ (by norm_num : (1 : ℝ) < 2)).1 h5
  omega

/-- The rounded value of a number between two powers of two. -/
theorem roundAbs_eval {y : ℝ} {e : ℤ} {k : ℕ} (he : -1022 ≤ e) (h1 : (2 : ℝ) ^ e ≤ y) (h2 : y < 2 ^ (e + 1))
    (h3 : |y / 2 ^ (e - 52) - k| < 1 / 2) : roundAbs y = k * 2 ^ (e - 52) := by
  have hy := (two_zpow_pos e).trans_le h1
  have hb : lastBit y = e - 52 := by unfold lastBit; rw [log_eq h1 h2, _root_.max_eq_left he]
  unfold roundAbs
  rw [hb, nearest_of_lt h3 (div_nonneg hy.le (two_zpow_pos _).le)]

/-- A number with at most 53 bits is its own rounded value. -/
theorem roundAbs_bits {k : ℕ} {m : ℤ} (hk : k ≤ 2 ^ 53) (hm : -1074 ≤ m) : roundAbs ((k : ℝ) * 2 ^ m) = k * 2 ^ m := by
  rcases Nat.eq_zero_or_pos k with rfl | hk0
  · unfold roundAbs nearest; simp
  have hp := two_zpow_pos m
  have hk1 : (0 : ℝ) < k := by exact_mod_cast hk0
  have hy : 0 < (k : ℝ) * 2 ^ m := mul_pos hk1 hp
  rcases hk.eq_or_lt with rfl | hk'
  · have : ((2 ^ 53 : ℕ) : ℝ) * 2 ^ m = 2 ^ (53 + m) := by rw [zpow_add₀ (by norm_num)]; norm_num
    rw [this, roundAbs_zpow (by omega)]
  · have hlog : Int.log 2 ((k : ℝ) * 2 ^ m) < 53 + m := by
      have h1 := log_le hy
      have h2 : (k : ℝ) * 2 ^ m < 2 ^ (53 + m) := by
        rw [zpow_add₀ (by norm_num)]
        refine mul_lt_mul_of_pos_right ?_ hp
        have : (k : ℝ) < ((2 ^ 53 : ℕ) : ℝ) := by exact_mod_cast hk'
        norm_num at this ⊢
        exact this
      exact (zpow_lt_zpow_iff_right₀ (by norm_num : (1 : ℝ) < 2)).1 (h1.trans_lt h2)
    have hb : lastBit ((k : ℝ) * 2 ^ m) ≤ m := by
      unfold lastBit
      have := _root_.max_lt (show Int.log 2 ((k : ℝ) * 2 ^ m) < 53 + m from hlog) (show (-1022 : ℤ) < 53 + m by omega)
      omega
    obtain ⟨j, hj⟩ : ∃ j : ℕ, m = lastBit ((k : ℝ) * 2 ^ m) + j := ⟨(m - lastBit ((k : ℝ) * 2 ^ m)).toNat, by omega⟩
    set b := lastBit ((k : ℝ) * 2 ^ m) with hbdef
    have hq : (k : ℝ) * 2 ^ m / 2 ^ b = ((k * 2 ^ j : ℕ) : ℝ) := by
      rw [div_eq_iff (two_zpow_pos b).ne']
      push_cast
      rw [mul_assoc, ← zpow_natCast (2 : ℝ) j, ← zpow_add₀ (by norm_num), add_comm (j : ℤ) b, ← hj]
    unfold roundAbs
    rw [← hbdef, hq, nearest_eq, ← hq, div_mul_cancel₀ _ (two_zpow_pos b).ne']

theorem round_of_roundAbs {r q : ℝ} (hq : roundAbs |r| = |q|) (hs : (r < 0) = (q < 0)) (hlt : |q| < 2 ^ 1024) : IsVal (Flt.round r) q := by
  unfold Flt.round
  rw [hq, if_neg (not_le.2 hlt)]
  have : (if r < 0 then -|q| else |q|) = q := by
    by_cases h : q < 0
    · rw [if_pos (hs ▸ h), abs_of_neg h]; ring
    · rw [if_neg (hs ▸ h), abs_of_nonneg (not_lt.1 h)]
  rw [this]
  exact isVal_ofReal _ _

/-- The numbers with at most 53 bits in the range of doubles. -/
def Bits (r : ℝ) : Prop := ∃ (k : ℤ) (m : ℤ), |k| ≤ 2 ^ 53 ∧ -1074 ≤ m ∧ m ≤ 900 ∧ r = k * 2 ^ m

theorem Bits.lt {r : ℝ} (h : Bits r) : |r| < 2 ^ 1024 := by
  obtain ⟨k, m, hk, hm, hm', rfl⟩ := h
  rw [abs_mul, abs_of_pos (two_zpow_pos m)]
  have h1 : |(k : ℝ)| ≤ 2 ^ (53 : ℤ) := by
    have : ((|k| : ℤ) : ℝ) ≤ ((2 ^ 53 : ℤ) : ℝ) := Int.cast_le.2 hk
    rw [Int.cast_abs] at this
    norm_num at this ⊢
    exact this
  calc |(k : ℝ)| * 2 ^ m ≤ 2 ^ (53 : ℤ) * 2 ^ m := mul_le_mul_of_nonneg_right h1 (two_zpow_pos m).le
    _ = 2 ^ (53 + m) := by rw [← zpow_add₀ (by norm_num)]
    _ < 2 ^ (1024 : ℤ) := zpow_lt_zpow_right₀ (by norm_num) (by omega)
    _ = 2 ^ 1024 := by exact_mod_cast rfl

theorem round_bits {r : ℝ} (h : Bits r) : IsVal (Flt.round r) r := by
  refine round_of_roundAbs ?_ rfl h.lt
  obtain ⟨k, m, hk, hm, hm', rfl⟩ := h
  rw [abs_mul, abs_of_pos (two_zpow_pos m)]
  have h1 : |(k : ℝ)| = ((k.natAbs : ℕ) : ℝ) := by rw [Nat.cast_natAbs, Int.cast_abs]
  rw [h1]
  exact roundAbs_bits (by rw [Int.abs_eq_natAbs] at hk; exact_mod_cast hk) hm

theorem lit_bits {q : ℚ} (h : Bits (q : ℝ)) : IsVal (Flt.lit q) q := by
  unfold lit
  split
  · rename_i h0; subst h0; simpa using isVal_zero false
  · exact round_bits h

theorem add_bits {a b : Flt} {x y : ℝ} (ha : IsVal a x) (hb : IsVal b y) (h : Bits (x + y)) : IsVal (add a b) (x + y) := by
  rcases isVal_cases ha with ⟨s, rfl, rfl⟩ | ⟨hx, rfl⟩ <;> rcases isVal_cases hb with ⟨t, rfl, rfl⟩ | ⟨hy, rfl⟩
  · simpa [add] using isVal_zero _
  · simpa [add] using isVal_num y hy
  · simpa [add] using isVal_num x hx
  · simp only [add]
    split
    · rename_i h0; rw [h0]; exact isVal_zero _
    · exact round_bits h

theorem sub_bits {a b : Flt} {x y : ℝ} (ha : IsVal a x) (hb : IsVal b y) (h : Bits (x - y)) : IsVal (sub a b) (x - y) := by
  rw [sub_eq_add_neg] at h ⊢
  exact add_bits ha (isVal_neg hb) h

theorem mul_bits {a b : Flt} {x y : ℝ} (ha : IsVal a x) (hb : IsVal b y) (h : Bits (x * y)) : IsVal (mul a b) (x * y) := by
  rcases isVal_cases ha with ⟨s, rfl, rfl⟩ | ⟨hx, rfl⟩ <;> rcases isVal_cases hb with ⟨t, rfl, rfl⟩ | ⟨hy, rfl⟩
  · simpa [mul] using isVal_zero _
  · simpa [mul] using isVal_zero _
  · simpa [mul] using isVal_zero _
  · exact round_bits h

theorem div_bits {a b : Flt} {x y : ℝ} (ha : IsVal a x) (hb : IsVal b y) (hy0 : y ≠ 0) (h : Bits (x / y)) : IsVal (div a b) (x / y) := by
  rcases isVal_cases hb with ⟨t, rfl, rfl⟩ | ⟨hy, rfl⟩
  · exact absurd rfl hy0
  rcases isVal_cases ha with ⟨s, rfl, rfl⟩ | ⟨hx, rfl⟩
  · simpa [div] using isVal_zero _
  · exact round_bits h

/-- The rounded value of a positive number, computed. -/
theorem round_eval {r : ℝ} {e : ℤ} {k : ℕ} (he : -1022 ≤ e) (he' : e ≤ 900) (hk : k ≤ 2 ^ 53) (hk0 : 0 < k) (h1 : (2 : ℝ) ^ e ≤ r) (h2 : r < 2 ^ (e + 1))
    (h3 : |r / 2 ^ (e - 52) - k| < 1 / 2) : IsVal (Flt.round r) (k * 2 ^ (e - 52)) := by
  have hr := (two_zpow_pos e).trans_le h1
  have hq : (0 : ℝ) < k * 2 ^ (e - 52) := mul_pos (by exact_mod_cast hk0) (two_zpow_pos _)
  refine round_of_roundAbs ?_ ?_ ?_
  · rw [abs_of_pos hr, abs_of_pos hq, roundAbs_eval he h1 h2 h3]
  · simp [not_lt.2 hr.le, not_lt.2 hq.le]
  · exact Bits.lt ⟨k, e - 52, by rw [abs_of_nonneg (by omega)]; exact_mod_cast hk, by omega, by omega, by push_cast; rfl⟩

theorem bits_int {k : ℤ} (hk : |k| ≤ 2 ^ 53) : Bits (k : ℝ) := ⟨k, 0, hk, by norm_num, by norm_num, by simp⟩

theorem bits_nat {k : ℕ} (hk : k ≤ 2 ^ 53) : Bits (k : ℝ) := by
  have := bits_int (k := (k : ℤ)) (by rw [abs_of_nonneg (by omega)]; exact_mod_cast hk)
  simpa using this

theorem lit_nat {k : ℕ} (hk : k ≤ 2 ^ 53) : IsVal (Flt.lit (k : ℚ)) k := by
  have := lit_bits (q := (k : ℚ)) (by simpa using bits_nat hk)
  simpa using this

theorem isVal_abs {a : Flt} {r : ℝ} (h : IsVal a r) : IsVal a.abs |r| := by
  rcases isVal_cases h with ⟨s, rfl, rfl⟩ | ⟨hr, rfl⟩
  · cases s <;> simpa [Flt.abs, sgn, neg] using isVal_zero _
  · by_cases hn : r < 0
    · simp only [Flt.abs, sgn, neg, hn, decide_true, if_true]
      rw [abs_of_neg hn]
      exact isVal_num _ _
    · simp only [Flt.abs, sgn, hn, decide_false, Bool.false_eq_true, if_false]
      rw [abs_of_nonneg (not_lt.1 hn)]
      exact isVal_num _ _

/-! ## Operations on numbers that are known up to an error -/

theorem add_near {a b : Flt} {x y X Y ex ey B : ℝ} (ha : IsVal a x) (hb : IsVal b y) (hx : |x - X| ≤ ex) (hy : |y - Y| ≤ ey)
    (hB : |X + Y| + ex + ey ≤ B) (hb' : B ≤ 2 ^ 1023) : ∃ q, IsVal (add a b) q ∧ |q - (X + Y)| ≤ ex + ey + uro * B + tiny := by
  have h1 : |x + y - (X + Y)| ≤ ex + ey := by
    rw [show x + y - (X + Y) = (x - X) + (y - Y) by ring]
    exact (abs_add_le _ _).trans (by linarith)
  have h2 : |x + y| ≤ B := by
    have := abs_add_le (x + y - (X + Y)) (X + Y)
    rw [sub_add_cancel] at this
    linarith
  obtain ⟨q, hq, hq'⟩ := add_err ha hb (h2.trans hb')
  refine ⟨q, hq, ?_⟩
  have h3 := mul_le_mul_of_nonneg_left h2 uro_pos.le
  have := abs_add_le (q - (x + y)) (x + y - (X + Y))
  rw [sub_add_sub_cancel] at this
  linarith

theorem sub_near {a b : Flt} {x y X Y ex ey B : ℝ} (ha : IsVal a x) (hb : IsVal b y) (hx : |x - X| ≤ ex) (hy : |y - Y| ≤ ey)
    (hB : |X - Y| + ex + ey ≤ B) (hb' : B ≤ 2 ^ 1023) : ∃ q, IsVal (sub a b) q ∧ |q - (X - Y)| ≤ ex + ey + uro * B + tiny := by
  have := add_near ha (isVal_neg hb) hx (show |-y - -Y| ≤ ey by rw [show -y - -Y = -(y - Y) by ring, abs_neg]; exact hy) (by rwa [← sub_eq_add_neg]) hb'
  rwa [← sub_eq_add_neg] at this

theorem mul_near {a b : Flt} {x y X ex B : ℝ} (ha : IsVal a y) (hb : IsVal b x) (hx : |x - X| ≤ ex)
    (hB : |y| * (|X| + ex) ≤ B) (hb' : B ≤ 2 ^ 1023) : ∃ q, IsVal (mul a b) q ∧ |q - y * X| ≤ |y| * ex + uro * B + tiny := by
  have h1 : |y * x - y * X| ≤ |y| * ex := by
    rw [← mul_sub, abs_mul]
    exact mul_le_mul_of_nonneg_left hx (abs_nonneg y)
  have h2 : |y * x| ≤ B := by
    rw [abs_mul]
    refine le_trans (mul_le_mul_of_nonneg_left ?_ (abs_nonneg y)) hB
    have := abs_add_le (x - X) X
    rw [sub_add_cancel] at this
    linarith
  obtain ⟨q, hq, hq'⟩ := mul_err ha hb (h2.trans hb')
  refine ⟨q, hq, ?_⟩
  have h3 := mul_le_mul_of_nonneg_left h2 uro_pos.le
  have := abs_add_le (q - y * x) (y * x - y * X)
  rw [sub_add_sub_cancel] at this
  linarith

end Flt
end VGPA
