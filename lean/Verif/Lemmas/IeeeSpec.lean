import Verif.Lemmas.IeeeEval

/-!
# The arithmetic of `Verif.Model.Ieee` is that of IEEE 754

The standard describes the operations by the set of binary64 numbers: an operation gives the binary64 number nearest to the exact result, of two
the one with even significand, an infinity from `2^1024 - 2^970` on, and NaN exactly for the invalid operations. Here the functions of `Verif.Model.Ieee`, which
compute with exponents and floors, are shown to do that.
-/

namespace VGPA

open Flt

noncomputable section

/-- The finite binary64 numbers: significand of at most 53 bits, exponent of the last bit from -1074 to 971. -/
def Spec.Binary64 (r : ℝ) : Prop := ∃ k m : ℤ, |k| < 2 ^ 53 ∧ -1074 ≤ m ∧ m ≤ 971 ∧ r = k * 2 ^ m

/-- The significand has 53 bits (or the exponent is the least) and is even. -/
def Spec.EvenSignificand (r : ℝ) : Prop :=
  ∃ k m : ℤ, |k| < 2 ^ 53 ∧ (2 ^ 52 ≤ |k| ∨ m = -1074) ∧ -1074 ≤ m ∧ m ≤ 971 ∧ Even k ∧ r = k * 2 ^ m

/-- `q` is the binary64 number nearest to `r`; if there are two, the one with even significand. -/
def Spec.Nearest (r q : ℝ) : Prop :=
  Spec.Binary64 q ∧ ∀ p, Spec.Binary64 p → |q - r| ≤ |p - r| ∧ (|q - r| = |p - r| → p = q ∨ Spec.EvenSignificand q)

theorem Spec.Binary64.neg {r : ℝ} (h : Spec.Binary64 r) : Spec.Binary64 (-r) := by
  obtain ⟨k, m, h1, h2, h3, rfl⟩ := h
  exact ⟨-k, m, by rwa [abs_neg], h2, h3, by push_cast; ring⟩

theorem Spec.EvenSignificand.neg {r : ℝ} (h : Spec.EvenSignificand r) : Spec.EvenSignificand (-r) := by
  obtain ⟨k, m, h1, h2, h3, h4, h5, rfl⟩ := h
  exact ⟨-k, m, by rwa [abs_neg], by rwa [abs_neg], h3, h4, h5.neg, by push_cast; ring⟩

theorem Spec.Nearest.neg {r q : ℝ} (h : Spec.Nearest r q) : Spec.Nearest (-r) (-q) := by
  refine ⟨h.1.neg, fun p hp => ?_⟩
  have h1 := h.2 (-p) hp.neg
  have e1 : |-q - -r| = |q - r| := by rw [← abs_neg]; congr 1; ring
  have e2 : |-p - r| = |p - -r| := by rw [← abs_neg]; congr 1; ring
  rw [e2] at h1
  rw [e1]
  refine ⟨h1.1, fun h2 => ?_⟩
  rcases h1.2 h2 with h3 | h3
  · exact .inl (by linarith)
  · exact .inr h3.neg

/-- No integer is nearer than `nearest`. -/
theorem nearest_best {y : ℝ} (hy : 0 ≤ y) (j : ℤ) : |(nearest y : ℝ) - y| ≤ |(j : ℝ) - y| ∧ (|(nearest y : ℝ) - y| = |(j : ℝ) - y| → j = nearest y ∨ Even (nearest y)) := by
  by_cases hj : j = (nearest y : ℤ)
  · subst hj
    simp
  have h1 := nearest_err hy
  have h2 : (1 : ℝ) ≤ |(j : ℝ) - (nearest y : ℝ)| := by
    have h3 : (1 : ℤ) ≤ |j - (nearest y : ℤ)| := Int.one_le_abs (sub_ne_zero.2 hj)
    have h4 : ((1 : ℤ) : ℝ) ≤ ((|j - (nearest y : ℤ)| : ℤ) : ℝ) := Int.cast_le.2 h3
    push_cast at h4
    exact h4
  have h5 : |(j : ℝ) - (nearest y : ℝ)| ≤ |(j : ℝ) - y| + |(nearest y : ℝ) - y| := by
    calc |(j : ℝ) - (nearest y : ℝ)| = |((j : ℝ) - y) - ((nearest y : ℝ) - y)| := by congr 1; ring
      _ ≤ _ := abs_sub _ _
  refine ⟨by linarith, fun h6 => .inr ?_⟩
  have h7 : |(nearest y : ℝ) - y| = 1 / 2 := by linarith
  have hf := Nat.floor_le hy
  have hf' := Nat.lt_floor_add_one y
  unfold nearest at h7 ⊢
  split_ifs at h7 ⊢ with h8 h9 h10
  · rw [abs_of_nonpos (by linarith)] at h7; linarith
  · push_cast at h7
    rw [abs_of_nonneg (by linarith)] at h7; linarith
  · exact h10
  · exact (Nat.not_even_iff_odd.1 h10).add_one

theorem p970 : (2 : ℝ) ^ (970 : ℕ) = 2 ^ (970 : ℤ) := (zpow_natCast (2 : ℝ) 970).symm
theorem p971 : (2 : ℝ) ^ (971 : ℤ) = 2 * 2 ^ (970 : ℤ) := by
  rw [show (971 : ℤ) = 1 + 970 by norm_num, zpow_add₀ (by norm_num), zpow_one]
theorem p1023 : (2 : ℝ) ^ (1023 : ℤ) = 2 ^ 53 * 2 ^ (970 : ℤ) := by
  rw [show (1023 : ℤ) = (53 : ℕ) + 970 by norm_num, zpow_add₀ (by norm_num), zpow_natCast]
theorem p1024 : (2 : ℝ) ^ (1024 : ℕ) = 2 ^ 54 * 2 ^ (970 : ℤ) := by
  rw [← p970, ← pow_add]
theorem p1024z : (2 : ℝ) ^ (1024 : ℤ) = 2 ^ 54 * 2 ^ (970 : ℤ) := by
  rw [show (1024 : ℤ) = (54 : ℕ) + 970 by norm_num, zpow_add₀ (by norm_num), zpow_natCast]

theorem lt_pow_lastBit {y : ℝ} : y < 2 ^ (lastBit y + 53) := by
  have h1 : y < (2 : ℝ) ^ (Int.log 2 y + 1) := Int.lt_zpow_succ_log_self (by norm_num) y
  refine h1.trans_le (zpow_le_zpow_right₀ (by norm_num) ?_)
  unfold lastBit
  have := le_max_left (Int.log 2 y) (-1022)
  omega

theorem pow_lastBit_le {y : ℝ} (hy : 0 < y) (h : -1074 < lastBit y) : (2 : ℝ) ^ (lastBit y + 52) ≤ y := by
  have h1 := log_le hy
  unfold lastBit at h ⊢
  have h2 : Int.log 2 y = max (Int.log 2 y) (-1022) := by
    rcases le_total (Int.log 2 y) (-1022) with h3 | h3
    · rw [max_eq_right h3] at h; omega
    · rw [max_eq_left h3]
  rw [← h2]
  rwa [sub_add_cancel]

theorem neg_le_lastBit (y : ℝ) : -1074 ≤ lastBit y := by
  unfold lastBit
  have := le_max_right (Int.log 2 y) (-1022)
  omega

/-- Rounding of a positive number, without regard to overflow. -/
theorem roundAbs_spec {y : ℝ} (hy : 0 < y) (h : roundAbs y < 2 ^ 1024) : Spec.Nearest y (roundAbs y) := by
  set e := lastBit y with he
  have hp := two_zpow_pos e
  have hq : roundAbs y = nearest (y / 2 ^ e) * 2 ^ e := rfl
  set n := nearest (y / 2 ^ e) with hn
  have hy' : 0 ≤ y / 2 ^ e := by positivity
  have e0 : -1074 ≤ e := neg_le_lastBit y
  have hlt : y / 2 ^ e < 2 ^ 53 := by
    rw [div_lt_iff₀ hp]
    have := lt_pow_lastBit (y := y)
    rwa [← he, zpow_add₀ (by norm_num), mul_comm] at this
  have hn53 : n ≤ 2 ^ 53 := by
    have h1 := nearest_err hy'
    rw [← hn] at h1
    have h2 : (n : ℝ) < ((2 ^ 53 + 1 : ℕ) : ℝ) := by
      push_cast
      have := (abs_le.1 h1).2
      linarith
    have := Nat.cast_lt.1 h2
    omega
  have hn52 : -1074 < e → 2 ^ 52 ≤ n := fun h1 => by
    have h2 := pow_lastBit_le hy h1
    rw [← he, zpow_add₀ (by norm_num), mul_comm] at h2
    refine le_nearest ?_
    rw [le_div_iff₀ hp]
    push_cast
    exact_mod_cast h2
  -- the exponent is not too large
  have hn0 : 0 < n ∨ e = -1074 := by
    rcases eq_or_lt_of_le e0 with h1 | h1
    · exact .inr h1.symm
    · exact .inl (lt_of_lt_of_le (by norm_num) (hn52 h1))
  have hsig : ∃ k m : ℤ, |k| < 2 ^ 53 ∧ (2 ^ 52 ≤ |k| ∨ m = -1074) ∧ -1074 ≤ m ∧ m ≤ 971 ∧ (Even n → Even k) ∧ roundAbs y = k * 2 ^ m := by
    have e971 : e ≤ 971 := by
      by_contra h1
      push Not at h1
      have h2 := hn52 (by omega)
      have h3 : (2 : ℝ) ^ (1024 : ℕ) ≤ n * 2 ^ e := by
        calc (2 : ℝ) ^ (1024 : ℕ) = (2 : ℝ) ^ (52 : ℕ) * 2 ^ (972 : ℤ) := by rw [← zpow_natCast, ← zpow_natCast, ← zpow_add₀ (by norm_num)]; norm_num
          _ ≤ n * 2 ^ e := mul_le_mul (by exact_mod_cast h2) (zpow_le_zpow_right₀ (by norm_num) (by omega)) (by positivity) (by positivity)
      rw [hq] at h
      exact absurd h (not_lt.2 h3)
    rcases eq_or_lt_of_le hn53 with h1 | h1
    · refine ⟨2 ^ 52, e + 1, by norm_num, .inl (by norm_num), by omega, ?_, fun _ => by decide, ?_⟩
      · by_contra h2
        have h3 : e = 971 := by omega
        rw [hq, h1, h3] at h
        refine absurd h (not_lt.2 (le_of_eq ?_))
        rw [p1024, p971]
        push_cast
        ring
      · rw [hq, h1, zpow_add₀ (by norm_num)]
        push_cast
        ring
    · refine ⟨n, e, by rw [abs_of_nonneg (by positivity)]; exact_mod_cast h1, ?_, e0, e971, fun h2 => by exact_mod_cast h2, by rw [hq]; push_cast; ring⟩
      rcases eq_or_lt_of_le e0 with h2 | h2
      · exact .inr h2.symm
      · left
        rw [abs_of_nonneg (by positivity)]
        exact_mod_cast hn52 h2
  obtain ⟨k, m, k1, k2, k3, k4, k5, k6⟩ := hsig
  refine ⟨⟨k, m, k1, k3, k4, k6⟩, ?_⟩
  -- distances in units of the last bit
  have dist : ∀ z : ℝ, |z * 2 ^ e - y| = |z - y / 2 ^ e| * 2 ^ e := fun z => by
    rw [← abs_of_pos hp, ← abs_mul, abs_of_pos hp]
    congr 1
    field_simp
  have grid : ∀ j : ℤ, |roundAbs y - y| ≤ |(j : ℝ) * 2 ^ e - y| ∧ (|roundAbs y - y| = |(j : ℝ) * 2 ^ e - y| → (j : ℝ) * 2 ^ e = roundAbs y ∨ Spec.EvenSignificand (roundAbs y)) := fun j => by
    obtain ⟨h1, h2⟩ := nearest_best hy' j
    rw [hq, dist, dist]
    refine ⟨mul_le_mul_of_nonneg_right h1 hp.le, fun h3 => ?_⟩
    rcases h2 (mul_right_cancel₀ hp.ne' h3) with h4 | h4
    · left; rw [h4]; simp [hn]
    · right; rw [← hq]; exact ⟨k, m, k1, k2, k3, k4, k5 h4, k6⟩
  rintro p ⟨k', m', h1, h2, h3, rfl⟩
  rcases le_or_gt e m' with h4 | h4
  · have h5 := grid (k' * 2 ^ (m' - e).toNat)
    have h6 : (((k' * 2 ^ (m' - e).toNat : ℤ)) : ℝ) * 2 ^ e = k' * 2 ^ m' := by
      push_cast
      rw [mul_assoc, ← zpow_natCast, ← zpow_add₀ (by norm_num)]
      congr 2
      omega
    rw [h6] at h5
    exact h5
  · have h5 := pow_lastBit_le hy (by omega)
    rw [← he] at h5
    have h6 : (k' : ℝ) * 2 ^ m' < 2 ^ (e + 52) := by
      have h7 : (k' : ℝ) < 2 ^ 53 := by
        have : (k' : ℤ) < 2 ^ 53 := (abs_lt.1 h1).2
        exact_mod_cast this
      calc (k' : ℝ) * 2 ^ m' < 2 ^ 53 * 2 ^ m' := mul_lt_mul_of_pos_right h7 (two_zpow_pos _)
        _ = (2 : ℝ) ^ (m' + 53) := by rw [zpow_add₀ (by norm_num)]; norm_num; ring
        _ ≤ 2 ^ (e + 52) := zpow_le_zpow_right₀ (by norm_num) (by omega)
    have h8 := (grid (2 ^ 52)).1
    have h9 : (((2 ^ 52 : ℤ)) : ℝ) * 2 ^ e = 2 ^ (e + 52) := by rw [zpow_add₀ (by norm_num)]; push_cast; ring
    rw [h9, abs_sub_comm ((2 : ℝ) ^ (e + 52)), abs_of_nonneg (by linarith : (0:ℝ) ≤ y - 2 ^ (e + 52))] at h8
    have h10 : |(k' : ℝ) * 2 ^ m' - y| = y - k' * 2 ^ m' := by
      rw [abs_sub_comm, abs_of_nonneg (by linarith)]
    rw [h10]
    exact ⟨by linarith, fun h11 => by linarith⟩

theorem roundAbs_overflow {y : ℝ} (hy : 0 < y) : (2 : ℝ) ^ 1024 ≤ roundAbs y ↔ (2 : ℝ) ^ 1024 - 2 ^ 970 ≤ y := by
  constructor
  · intro h
    by_contra h1
    push Not at h1
    have hlog : Int.log 2 y ≤ 1023 := by
      by_contra h2
      push Not at h2
      have h3 := log_le hy
      have h4 : (2 : ℝ) ^ (1024 : ℤ) ≤ 2 ^ Int.log 2 y := zpow_le_zpow_right₀ (by norm_num) (by omega)
      have h6 := two_zpow_pos 970
      rw [p1024z] at h4
      rw [p1024, p970] at h1
      clear h
      generalize (2 : ℝ) ^ (970 : ℤ) = g at *
      generalize (2 : ℝ) ^ Int.log 2 y = z at *
      linarith
    have he : lastBit y ≤ 971 := by unfold lastBit; rcases max_cases (Int.log 2 y) (-1022) with ⟨h2, -⟩ | ⟨h2, -⟩ <;> rw [h2] <;> omega
    rcases eq_or_lt_of_le he with h2 | h2
    · have hp := two_zpow_pos (971 : ℤ)
      have h3 : y / 2 ^ (971 : ℤ) < 2 ^ 53 - 1 / 2 := by
        rw [div_lt_iff₀ hp]
        refine h1.trans_le (le_of_eq ?_)
        rw [p1024, p971, p970]
        ring
      have h4 : nearest (y / 2 ^ (971 : ℤ)) ≤ 2 ^ 53 - 1 := by
        have hy' : 0 ≤ y / 2 ^ (971 : ℤ) := by positivity
        have h5 := (abs_le.1 (nearest_err hy')).2
        have h6 : (nearest (y / 2 ^ (971 : ℤ)) : ℝ) < ((2 ^ 53 : ℕ) : ℝ) := by push_cast; linarith
        have := Nat.cast_lt.1 h6
        omega
      have h5 : roundAbs y < 2 ^ 1024 := by
        unfold roundAbs
        rw [h2]
        have h6 : (nearest (y / 2 ^ (971 : ℤ)) : ℝ) < 2 ^ 53 := by
          have h7 : nearest (y / 2 ^ (971 : ℤ)) < 2 ^ 53 := by omega
          exact_mod_cast h7
        calc (nearest (y / 2 ^ (971 : ℤ)) : ℝ) * 2 ^ (971 : ℤ) < 2 ^ 53 * 2 ^ (971 : ℤ) := mul_lt_mul_of_pos_right h6 hp
          _ = 2 ^ 1024 := by rw [p1024, p971]; ring
      exact absurd h (not_le.2 h5)
    · have h3 : roundAbs y < 2 ^ 1024 := by
        have hp := two_zpow_pos (lastBit y)
        have hy' : 0 ≤ y / 2 ^ lastBit y := by positivity
        have hlt : y / 2 ^ lastBit y < 2 ^ 53 := by
          rw [div_lt_iff₀ hp]
          have := lt_pow_lastBit (y := y)
          rwa [zpow_add₀ (by norm_num), mul_comm] at this
        have h5 := (abs_le.1 (nearest_err hy')).2
        have h6 : (nearest (y / 2 ^ lastBit y) : ℝ) < 2 ^ 54 := by linarith
        unfold roundAbs
        calc (nearest (y / 2 ^ lastBit y) : ℝ) * 2 ^ lastBit y < 2 ^ 54 * 2 ^ lastBit y := mul_lt_mul_of_pos_right h6 hp
          _ ≤ 2 ^ 54 * 2 ^ (970 : ℤ) := mul_le_mul_of_nonneg_left (zpow_le_zpow_right₀ (by norm_num) (by omega)) (by norm_num)
          _ = 2 ^ 1024 := p1024.symm
      exact absurd h (not_le.2 h3)
  · intro h
    by_cases h0 : (2 : ℝ) ^ 1024 ≤ y
    · have := le_roundAbs (y := y) (k := 1024) (by norm_num) (by exact_mod_cast h0)
      exact_mod_cast this
    · push Not at h0
      have hlog : Int.log 2 y = 1023 := by
        refine log_eq ?_ ?_
        · refine le_trans ?_ h
          rw [p1024, p1023, p970]
          have := two_zpow_pos 970
          generalize (2 : ℝ) ^ (970 : ℤ) = g at *
          linarith
        · refine h0.trans_le (le_of_eq ?_)
          rw [show (1023 + 1 : ℤ) = 1024 by norm_num, p1024z, p1024]
      have he : lastBit y = 971 := by unfold lastBit; rw [hlog]; norm_num
      have hp := two_zpow_pos (971 : ℤ)
      have h1 : 2 ^ 53 - 1 / 2 ≤ y / 2 ^ (971 : ℤ) := by
        rw [le_div_iff₀ hp]
        refine le_trans (le_of_eq ?_) h
        rw [p1024, p971, p970]
        ring
      have h2 : y / 2 ^ (971 : ℤ) < 2 ^ 53 := by
        rw [div_lt_iff₀ hp]
        refine h0.trans_le (le_of_eq ?_)
        rw [p1024, p971]
        ring
      have hf : ⌊y / 2 ^ (971 : ℤ)⌋₊ = 2 ^ 53 - 1 := by
        rw [Nat.floor_eq_iff (by positivity)]
        constructor
        · norm_num at h1 ⊢; linarith
        · norm_num at h2 ⊢; linarith
      have hn : nearest (y / 2 ^ (971 : ℤ)) = 2 ^ 53 := by
        unfold nearest
        rw [hf]
        rw [if_neg (by norm_num at h1 ⊢; linarith)]
        split_ifs with h3 h4
        · norm_num
        · exact absurd h4 (by decide)
        · norm_num
      unfold roundAbs
      rw [he, hn, p1024, p971]
      push_cast
      exact le_of_eq (by ring)

/-- Rounding: the nearest binary64 number, of two the one with even significand, with the sign of the exact result; from `2^1024 - 2^970` on an infinity. -/
theorem round_spec {r : ℝ} (hr : r ≠ 0) :
    (|r| < 2 ^ 1024 - 2 ^ 970 → (∃ q, IsVal (Flt.round r) q ∧ Spec.Nearest r q) ∧ (Flt.round r).sgn = decide (r < 0))
    ∧ (2 ^ 1024 - 2 ^ 970 ≤ |r| → Flt.round r = inf (decide (r < 0))) := by
  have hy : 0 < |r| := abs_pos.2 hr
  have ho := roundAbs_overflow hy
  constructor
  · intro h
    refine ⟨?_, round_sgn hr⟩
    have h1 : ¬ (2 : ℝ) ^ 1024 ≤ roundAbs |r| := fun h2 => absurd (ho.1 h2) (not_le.2 h)
    have h2 := roundAbs_spec hy (not_le.1 h1)
    unfold Flt.round
    rw [if_neg h1]
    refine ⟨_, isVal_ofReal _ _, ?_⟩
    split_ifs with h3
    · rw [abs_of_neg h3] at h2 ⊢
      simpa using h2.neg
    · rwa [abs_of_nonneg (not_lt.1 h3)] at h2 ⊢
  · intro h
    unfold Flt.round
    rw [if_pos (ho.2 h)]

theorem Spec.Binary64.lt {r : ℝ} (h : Spec.Binary64 r) : |r| < 2 ^ 1024 - 2 ^ 970 := by
  obtain ⟨k, m, h1, -, h3, rfl⟩ := h
  rw [abs_mul, abs_of_pos (two_zpow_pos m)]
  have h4 : |(k : ℝ)| ≤ 2 ^ 53 - 1 := by
    have : |k| ≤ 2 ^ 53 - 1 := by omega
    exact_mod_cast this
  calc |(k : ℝ)| * 2 ^ m ≤ (2 ^ 53 - 1) * 2 ^ (971 : ℤ) := mul_le_mul h4 (zpow_le_zpow_right₀ (by norm_num) h3) (two_zpow_pos m).le (by norm_num)
    _ < 2 ^ 1024 - 2 ^ 970 := by
      rw [p1024, p971, p970]
      have := two_zpow_pos 970
      generalize (2 : ℝ) ^ (970 : ℤ) = g at *
      linarith

/-- Binary64 numbers are not changed by rounding. -/
theorem round_binary64 {r : ℝ} (hr : r ≠ 0) (h : Spec.Binary64 r) : Flt.round r = num r hr := by
  obtain ⟨⟨q, hq, -, h1⟩, -⟩ := (round_spec hr).1 h.lt
  have h2 := (h1 r h).1
  rw [sub_self, abs_zero] at h2
  have h3 : q = r := by linarith [abs_nonpos_iff.1 h2, sub_eq_zero.1 (abs_nonpos_iff.1 h2)]
  subst h3
  rcases isVal_cases hq with ⟨s, -, h4⟩ | ⟨h4, h5⟩
  · exact absurd h4 hr
  · exact h5

/-- Addition of finite numbers: the exact sum, rounded; an exact zero is `+0`, and `-0` only for two negative zeros. -/
theorem add_spec {a b : Flt} {x y : ℝ} (ha : IsVal a x) (hb : IsVal b y) (hx : Spec.Binary64 x) (hy : Spec.Binary64 y) :
    (x + y ≠ 0 → a.add b = Flt.round (x + y)) ∧ (x + y = 0 → a.add b = zero (x = 0 && a.sgn && b.sgn)) := by
  rcases isVal_cases ha with ⟨s, rfl, rfl⟩ | ⟨h1, rfl⟩ <;> rcases isVal_cases hb with ⟨t, rfl, rfl⟩ | ⟨h2, rfl⟩
  · simp [add, sgn]
  · refine ⟨fun h => ?_, fun h => absurd (by linarith) h2⟩
    rw [zero_add, round_binary64 h2 hy]
    rfl
  · refine ⟨fun h => ?_, fun h => absurd (by linarith) h1⟩
    rw [add_zero, round_binary64 h1 hx]
    rfl
  · refine ⟨fun h => ?_, fun h => ?_⟩
    · simp [add, h]
    · simp [add, h, h1]

theorem add_nan_iff (a b : Flt) : a.add b = nan ↔ a = nan ∨ b = nan ∨ ∃ s, a = inf s ∧ b = inf !s := by
  rcases a with _ | s | s | ⟨x, hx⟩ <;> rcases b with _ | t | t | ⟨y, hy⟩ <;> simp [add]
  · cases s <;> cases t <;> simp
  all_goals split_ifs <;> simp [round_ne_nan]

theorem add_inf {a b : Flt} {s : Bool} (hb : b ≠ nan) (h : b ≠ inf !s) (ha : a = inf s) : a.add b = inf s ∧ b.add a = inf s := by
  subst ha
  rcases b with _ | t | t | ⟨y, hy⟩ <;> simp_all [add]

theorem mul_spec {a b : Flt} {x y : ℝ} (ha : IsVal a x) (hb : IsVal b y) :
    (x * y ≠ 0 → a.mul b = Flt.round (x * y)) ∧ (x * y = 0 → a.mul b = zero (xor a.sgn b.sgn)) := by
  rcases isVal_cases ha with ⟨s, rfl, rfl⟩ | ⟨h1, rfl⟩ <;> rcases isVal_cases hb with ⟨t, rfl, rfl⟩ | ⟨h2, rfl⟩
  · simp [mul, sgn]
  · simp [mul, sgn]
  · simp [mul, sgn]
  · refine ⟨fun h => rfl, fun h => absurd h (mul_ne_zero h1 h2)⟩

theorem mul_nan_iff (a b : Flt) : a.mul b = nan ↔ a = nan ∨ b = nan ∨ (∃ s t, a = inf s ∧ b = zero t) ∨ ∃ s t, a = zero s ∧ b = inf t := by
  rcases a with _ | s | s | ⟨x, hx⟩ <;> rcases b with _ | t | t | ⟨y, hy⟩ <;> simp [mul, round_ne_nan]

theorem mul_inf {a b : Flt} {s : Bool} (hb : b ≠ nan) (h : b.val ≠ 0) (ha : a = inf s) : a.mul b = inf (xor s b.sgn) ∧ b.mul a = inf (xor b.sgn s) := by
  subst ha
  rcases b with _ | t | t | ⟨y, hy⟩ <;> simp_all [mul, sgn, val]

theorem div_spec {a b : Flt} {x y : ℝ} (ha : IsVal a x) (hb : IsVal b y) (hy : y ≠ 0) :
    (x ≠ 0 → a.div b = Flt.round (x / y)) ∧ (x = 0 → a.div b = zero (xor a.sgn b.sgn)) := by
  rcases isVal_cases ha with ⟨s, rfl, rfl⟩ | ⟨h1, rfl⟩ <;> rcases isVal_cases hb with ⟨t, rfl, rfl⟩ | ⟨h2, rfl⟩
  · exact absurd rfl hy
  · simp [div, sgn]
  · exact absurd rfl hy
  · exact ⟨fun h => rfl, fun h => absurd h h1⟩

theorem div_nan_iff (a b : Flt) : a.div b = nan ↔ a = nan ∨ b = nan ∨ (∃ s t, a = inf s ∧ b = inf t) ∨ ∃ s t, a = zero s ∧ b = zero t := by
  rcases a with _ | s | s | ⟨x, hx⟩ <;> rcases b with _ | t | t | ⟨y, hy⟩ <;> simp [div, round_ne_nan]

/-- Division by zero gives an infinity, division by an infinity a zero; the sign is the product of the signs. -/
theorem div_special {a : Flt} {x : ℝ} (ha : IsVal a x) (s : Bool) :
    (x ≠ 0 → a.div (zero s) = inf (xor a.sgn s)) ∧ a.div (inf s) = zero (xor a.sgn s) ∧ (inf s).div a = inf (xor s a.sgn) := by
  rcases isVal_cases ha with ⟨t, rfl, rfl⟩ | ⟨h1, rfl⟩ <;> simp [div, sgn]

theorem sqrt_spec {a : Flt} {x : ℝ} (ha : IsVal a x) : (0 < x → a.sqrt = Flt.round (Real.sqrt x)) ∧ (x = 0 → a.sqrt = a) ∧ (x < 0 → a.sqrt = nan) := by
  rcases isVal_cases ha with ⟨s, rfl, rfl⟩ | ⟨h1, rfl⟩
  · simp [sqrt]
  · refine ⟨fun h => ?_, fun h => absurd h h1, fun h => ?_⟩
    · simp [sqrt, not_lt.2 h.le]
    · simp [sqrt, h]

/-- The comparisons are those of the real numbers. -/
theorem le_spec {a b : Flt} {x y : ℝ} (ha : IsVal a x) (hb : IsVal b y) : (a.le b = true ↔ x ≤ y) ∧ (a.lt b = true ↔ x < y) := by
  rw [le_iff, lt_iff, ha.2, hb.2]
  exact ⟨⟨fun h => EReal.coe_le_coe_iff.1 h.2.2, fun h => ⟨ha.1, hb.1, EReal.coe_le_coe_iff.2 h⟩⟩,
    ⟨fun h => EReal.coe_lt_coe_iff.1 h.2.2, fun h => ⟨ha.1, hb.1, EReal.coe_lt_coe_iff.2 h⟩⟩⟩

/-- A literal is the binary64 number nearest to it. -/
theorem lit_spec {q : ℚ} (h : |(q : ℝ)| < 2 ^ 1024 - 2 ^ 970) : ∃ r, IsVal (Flt.lit q) r ∧ Spec.Nearest q r := by
  by_cases h0 : q = 0
  · subst h0
    refine ⟨0, by simp [lit, isVal_zero], ⟨0, 0, by norm_num, by norm_num, by norm_num, by simp⟩, fun p hp => ?_⟩
    simp only [Rat.cast_zero, sub_zero, abs_zero]
    exact ⟨abs_nonneg _, fun h1 => .inl (abs_eq_zero.1 h1.symm)⟩
  · obtain ⟨⟨r, h1, h2⟩, -⟩ := (round_spec (r := (q : ℝ)) (by exact_mod_cast h0)).1 h
    exact ⟨r, by simpa [lit, h0] using h1, h2⟩

end

end VGPA
