import Verif.Model.IeeeGrid
import Verif.Lemmas.IeeeEval
import Mathlib.Tactic.Linarith
import Mathlib.Tactic.FieldSimp
import Mathlib.Tactic.Positivity

/-!
# C140, C141: the time window and the observation indices in double precision
-/

namespace VGPA

open Flt Classical

/-! ## Lengths and entries -/

theorem ceilLen_val {a : Flt} {r : ℝ} (h : IsVal a r) (h0 : r ≠ 0) (hr : |r| ≤ 2 ^ 60) : a.ceilLen = .ok ⌈r⌉ := by
  rcases isVal_cases h with ⟨s, rfl, rfl⟩ | ⟨hr', rfl⟩
  · exact absurd rfl h0
  · have h1 := abs_le.1 hr
    have h2 : ⌈r⌉ ≤ 2 ^ 60 := Int.ceil_le.2 (by norm_num at h1 ⊢; exact h1.2)
    have h3 : -(2 ^ 60 : ℤ) ≤ ⌈r⌉ := by
      have : (-(2 ^ 60 : ℝ)) ≤ ⌈r⌉ := h1.1.trans (Int.le_ceil r)
      exact_mod_cast this
    simp only [ceilLen]
    rw [if_neg (by norm_num at h2 h3 ⊢; omega)]

/-- The length of the window is the ceiling of the quotient that is computed. -/
theorem timeWindowF_eq {t0 tf dt : Flt} {v d : ℝ} (hd : IsVal dt d) (hd0 : d ≠ 0) (hv : IsVal (((tf.add dt).sub t0).div dt) v) (h0 : v ≠ 0) (hr : |v| ≤ 2 ^ 60) :
    timeWindowF t0 tf dt = .ok ((List.range ⌈v⌉.toNat).map fun i : ℕ =>
      if i = 0 then t0 else if i = 1 then t0.add dt else t0.add ((Flt.lit i).mul ((t0.add dt).sub t0))) := by
  unfold timeWindowF arangeF
  have hz : ∀ s, dt ≠ .zero s := by
    rintro s rfl
    exact hd0 (isVal_unique hd (isVal_zero s))
  have hz' : ∀ s, ((tf.add dt).sub t0).div dt ≠ .zero s := by
    intro s e
    rw [e] at hv
    exact h0 (isVal_unique hv (isVal_zero s))
  rw [if_neg (by simp [hz])]
  simp only [hz', and_false, if_false, ceilLen_val hv h0 hr]
  rfl

theorem tiny_le_uro {d : ℝ} (hlo : 1 / 2 ^ 100 ≤ d) : tiny ≤ uro * d := by
  have h1 : tiny ≤ 1 / 2 ^ 200 := tiny_le (by norm_num)
  rw [uro_eq]
  have h2 : (1 : ℝ) / 2 ^ 200 ≤ 1 / 2 ^ 53 * (1 / 2 ^ 100) := by norm_num
  have h3 := mul_le_mul_of_nonneg_left hlo (show (0 : ℝ) ≤ 1 / 2 ^ 53 by norm_num)
  linarith

theorem lit_near {q : ℚ} {d : ℝ} (h : |(q : ℝ)| ≤ 2 ^ 1000) (hlo : 1 / 2 ^ 100 ≤ d) : ∃ x, IsVal (Flt.lit q) x ∧ |x - q| ≤ uro * |(q : ℝ)| + uro * d := by
  have h1 : (2 : ℝ) ^ 1000 ≤ 2 ^ 1023 := pow_le_pow_right₀ (by norm_num) (by norm_num)
  obtain ⟨x, hx, hx'⟩ := lit_err (h.trans h1)
  exact ⟨x, hx, hx'.trans (by have := tiny_le_uro hlo; linarith)⟩

theorem big_le {z : ℝ} (h : z ≤ 2 ^ 300) : z ≤ 2 ^ 1023 := h.trans (pow_le_pow_right₀ (by norm_num) (by norm_num))

/-- C140, the part that holds: if `tf` lies `N` steps after `t0`, as decimal numbers, the window in double precision has `N + 1` or `N + 2` points; point `i` differs from
`t0 + i dt` by at most `(i + 1)(|t0| + dt)/2^49`, the first is `t0`; `time_step` differs from `dt` by at most `(|t0| + dt)/2^49`, and is `dt` if `t0` is zero. Missing: there are
`N + 1` points (see `C140_violated` and `C140_dyadic_partial`), and `time_step` is `dt`, for windows that start elsewhere. -/
theorem C140_points_partial (q0 qf qd : ℚ) (N : ℕ) (hd : 0 < qd) (hN : qf - q0 = N * qd) (hsize : |q0| + |qf| + qd ≤ 2 ^ 45 * qd)
    (hlo : 1 / 2 ^ 100 ≤ qd) (hhi : qd ≤ 2 ^ 100) :
    ∃ tk, timeWindowF (Flt.lit q0) (Flt.lit qf) (Flt.lit qd) = .ok tk ∧ (tk.length = N + 1 ∨ tk.length = N + 2)
      ∧ tk[0]? = some (Flt.lit q0)
      ∧ (∀ i (h : i < tk.length), ∃ r, IsVal tk[i] r ∧ |r - (q0 + i * qd)| ≤ (i + 1) * (|(q0 : ℝ)| + qd) / 2 ^ 49)
      ∧ (0 < N → ∃ s r, timeStepF tk = .ok s ∧ IsVal s r ∧ |r - qd| ≤ (|(q0 : ℝ)| + qd) / 2 ^ 49)
      ∧ (0 < N → q0 = 0 → timeStepF tk = .ok (Flt.lit qd)) := by
  have hdR : (0 : ℝ) < qd := by exact_mod_cast hd
  have hNR : (qf : ℝ) - q0 = N * qd := by exact_mod_cast hN
  have hsR : |(q0 : ℝ)| + |(qf : ℝ)| + qd ≤ 2 ^ 45 * qd := by exact_mod_cast hsize
  have hloR : (1 : ℝ) / 2 ^ 100 ≤ qd := by
    have : (((1 / 2 ^ 100 : ℚ)) : ℝ) ≤ qd := by exact_mod_cast hlo
    push_cast at this; exact this
  have hhiR : (qd : ℝ) ≤ 2 ^ 100 := by exact_mod_cast hhi
  have hq0 : q0 = 0 ↔ (q0 : ℝ) = 0 := by exact_mod_cast Iff.rfl
  set a : ℝ := |(q0 : ℝ)| with ha
  set c : ℝ := |(qf : ℝ)| with hc
  have ha0 : 0 ≤ a := abs_nonneg _
  have hc0 : 0 ≤ c := abs_nonneg _
  set d : ℝ := (qd : ℝ) with hdd
  have hT : a + c + d ≤ 2 ^ 145 := by
    calc a + c + d ≤ 2 ^ 45 * d := hsR
      _ ≤ 2 ^ 45 * 2 ^ 100 := mul_le_mul_of_nonneg_left hhiR (by norm_num)
      _ = 2 ^ 145 := by norm_num
  have hT' : ∀ z : ℝ, z ≤ 2 ^ 100 * (a + c + d) → z ≤ 2 ^ 1023 := fun z hz => big_le (by
    calc z ≤ 2 ^ 100 * (a + c + d) := hz
      _ ≤ 2 ^ 100 * 2 ^ 145 := mul_le_mul_of_nonneg_left hT (by norm_num)
      _ ≤ 2 ^ 300 := by rw [← pow_add]; exact pow_le_pow_right₀ (by norm_num) (by norm_num))
  have h1000 : ∀ z : ℝ, z ≤ a + c + d → z ≤ 2 ^ 1000 := fun z hz =>
    (hz.trans hT).trans (pow_le_pow_right₀ (by norm_num) (by norm_num))
  have ht := tiny_le_uro hloR
  obtain ⟨x0, hx0, ex0⟩ := lit_near (q := q0) (h1000 _ (by linarith)) hloR
  obtain ⟨xf, hxf, exf⟩ := lit_near (q := qf) (h1000 _ (by linarith)) hloR
  obtain ⟨xd, hxd, exd⟩ := lit_near (q := qd) (h1000 _ (by rw [abs_of_pos hdR]; linarith)) hloR
  rw [← ha] at ex0
  rw [← hc] at exf
  rw [abs_of_pos hdR, ← hdd] at exd
  clear_value a c d
  set u := uro with hu
  have hu0 : 0 < u := uro_pos
  have hu1 : u = 1 / 2 ^ 53 := uro_eq
  have ua : 0 ≤ u * a := mul_nonneg hu0.le ha0
  have uc : 0 ≤ u * c := mul_nonneg hu0.le hc0
  have ud : 0 ≤ u * d := mul_nonneg hu0.le hdR.le
  have ua' : u * a ≤ a / 1000 := by rw [hu1]; linarith
  have uc' : u * c ≤ c / 1000 := by rw [hu1]; linarith
  have ud' : u * d ≤ d / 1000 := by rw [hu1]; linarith
  have cf : |(qf : ℝ) + d| ≤ c + d := (abs_add_le _ _).trans (by rw [abs_of_pos hdR, ← hc])
  obtain ⟨s1, hs1, es1⟩ := add_near (B := 2 * (c + d)) hxf hxd exf exd (by linarith) (hT' _ (by linarith))
  have cs : |(qf : ℝ) + d - q0| ≤ a + c + d := by
    have := abs_sub (qf + d : ℝ) q0
    rw [← ha] at this
    linarith
  obtain ⟨s2, hs2, es2⟩ := sub_near (B := 2 * (a + c + d)) (ex := 6 * (u * c) + 6 * (u * d)) hs1 hx0 (es1.trans (by linarith)) ex0 (by linarith) (hT' _ (by linarith))
  have hN1 : (qf : ℝ) + d - q0 = (N + 1) * d := by linarith
  rw [hN1] at es2 cs
  have hNd : ((N : ℝ) + 1) * d ≤ a + c + d := (le_abs_self _).trans cs
  have hN45 : (N : ℝ) + 1 ≤ 2 ^ 45 := le_of_mul_le_mul_right (hNd.trans hsR) hdR
  have hNn : (0 : ℝ) ≤ N := Nat.cast_nonneg N
  have hxd1 : d / 2 ≤ xd := by have := (abs_le.1 exd).1; linarith
  have hxd0 : 0 < xd := by linarith
  have e1 : |s2 - (N + 1) * xd| ≤ d / 20 := by
    have h1 : |(N + 1) * (xd - d)| ≤ (N + 1) * (u * d + u * d) := by
      rw [abs_mul, abs_of_nonneg (by linarith)]
      exact mul_le_mul_of_nonneg_left exd (by linarith)
    have h2 : (N + 1) * (u * d + u * d) = 2 * u * ((N + 1) * d) := by ring
    have h3 : 2 * u * ((N + 1) * d) ≤ 2 * u * (a + c + d) := mul_le_mul_of_nonneg_left hNd (by linarith)
    have h4 : u * (a + c + d) ≤ d / 256 := by
      rw [hu1]; linarith
    have h5 := abs_sub (s2 - (N + 1) * d) ((N + 1) * (xd - d))
    rw [show s2 - (N + 1) * d - (N + 1) * (xd - d) = s2 - (N + 1) * xd by ring] at h5
    linarith
  have e2 : |s2 / xd - (N + 1)| ≤ 1 / 10 := by
    rw [show s2 / xd - (N + 1) = (s2 - (N + 1) * xd) / xd by field_simp, abs_div, abs_of_pos hxd0, div_le_iff₀ hxd0]
    linarith
  have e3 : |s2 / xd| ≤ 2 ^ 45 + 1 := by
    rw [abs_le] at e2 ⊢
    constructor <;> linarith [e2.1, e2.2]
  obtain ⟨v, hv, ev⟩ := div_err hs2 hxd hxd0.ne' (e3.trans (big_le (le_trans (b := (2 : ℝ) ^ 46) (by norm_num) (pow_le_pow_right₀ (by norm_num) (by norm_num)))))
  have e4 : |v - (N + 1)| ≤ 1 / 5 := by
    have h1 := mul_le_mul_of_nonneg_left e3 hu0.le
    have h2 : u * (2 ^ 45 + 1) ≤ 1 / 100 := by rw [hu1]; norm_num
    have h3 : tiny ≤ 1 / 2 ^ 10 := tiny_le (by norm_num)
    have h4 := abs_add_le (v - s2 / xd) (s2 / xd - (N + 1))
    rw [sub_add_sub_cancel] at h4
    norm_num at h3
    linarith
  have hv0 : 0 < v := by have := (abs_le.1 e4).1; linarith
  have hlen : ⌈v⌉.toNat = N + 1 ∨ ⌈v⌉.toNat = N + 2 := by
    have h1 : (N : ℤ) < ⌈v⌉ := Int.lt_ceil.2 (by have := (abs_le.1 e4).1; push_cast; linarith)
    have h2 : ⌈v⌉ ≤ (N : ℤ) + 2 := Int.ceil_le.2 (by have := (abs_le.1 e4).2; push_cast; linarith)
    omega
  have hw := timeWindowF_eq hxd hxd0.ne' hv hv0.ne' (by
    rw [abs_of_pos hv0]
    have := (abs_le.1 e4).2
    norm_num at hN45 ⊢
    linarith)
  obtain ⟨y, hy, ey⟩ := add_near (B := 2 * (a + d)) hx0 hxd ex0 exd (by
    have := abs_add_le (q0 : ℝ) d
    rw [← ha, abs_of_pos hdR] at this
    linarith) (hT' _ (by linarith))
  obtain ⟨g, hg, eg⟩ := sub_near (B := 2 * (a + d)) (ex := 6 * (u * a) + 6 * (u * d)) hy hx0 (ey.trans (by linarith)) ex0 (by
    rw [add_sub_cancel_left, abs_of_pos hdR]
    linarith) (hT' _ (by linarith))
  rw [add_sub_cancel_left] at eg
  have eg' : |g - d| ≤ 10 * (u * a + u * d) := eg.trans (by linarith)
  have h49 : ∀ z : ℝ, z * (a + d) / 2 ^ 49 = 16 * z * (u * a + u * d) := by
    intro z
    rw [hu1]; ring
  have hpos : 1 < ⌈v⌉.toNat ∨ N = 0 := by omega
  refine ⟨_, hw, by simpa using hlen, ?_, ?_, ?_, ?_⟩
  · have : 0 < ⌈v⌉.toNat := by omega
    simp [this]
  · intro i hi
    rw [h49]
    simp only [List.length_map, List.length_range] at hi
    simp only [List.getElem_map, List.getElem_range]
    split
    · rename_i h0
      subst h0
      exact ⟨x0, hx0, by push_cast; rw [zero_mul, add_zero]; linarith⟩
    split
    · rename_i h0 h1
      subst h1
      exact ⟨y, hy, by push_cast; rw [one_mul]; linarith⟩
    · have hi45 : (i : ℝ) ≤ 2 ^ 45 + 1 := by
        have : (i : ℝ) < N + 2 := by
          have : i < N + 2 := by omega
          exact_mod_cast this
        linarith
      have hi0 : (0 : ℝ) ≤ i := Nat.cast_nonneg i
      have hiv : IsVal (Flt.lit (i : ℚ)) i := lit_nat (by
        have : (i : ℝ) ≤ ((2 ^ 45 + 1 : ℕ) : ℝ) := by push_cast; norm_num at hi45 ⊢; exact hi45
        have : i ≤ 2 ^ 45 + 1 := by exact_mod_cast this
        omega)
      have hid : (0 : ℝ) ≤ i * d := mul_nonneg hi0 hdR.le
      have hia : (0 : ℝ) ≤ i * a := mul_nonneg hi0 ha0
      have hB : (i : ℝ) * (d + 10 * (u * a + u * d)) ≤ 2 * (i * a + i * d) := by
        have := mul_le_mul_of_nonneg_left (show d + 10 * (u * a + u * d) ≤ 2 * (a + d) by linarith) hi0
        linarith
      have hi100 : (i : ℝ) * a + i * d ≤ 2 ^ 50 * (a + d) := by
        rw [← mul_add]
        refine mul_le_mul_of_nonneg_right ?_ (by linarith)
        norm_num at hi45 ⊢; linarith
      have hbig : 2 * ((i : ℝ) * a + i * d) + 2 * (a + d) ≤ 2 ^ 100 * (a + c + d) := by
        norm_num at hi100 ⊢; linarith
      obtain ⟨p, hp, ep⟩ := mul_near (B := 2 * (i * a + i * d)) hiv hg eg' (by
        rw [abs_of_nonneg hi0, abs_of_pos hdR]; exact hB) (hT' _ (by linarith))
      rw [abs_of_nonneg hi0] at ep
      have e5 : u * (2 * (i * a + i * d)) = 2 * (i * (u * a + u * d)) := by ring
      have e6 : (i : ℝ) * (10 * (u * a + u * d)) = 10 * (i * (u * a + u * d)) := by ring
      have hw0 : 0 ≤ (i : ℝ) * (u * a + u * d) := mul_nonneg hi0 (by linarith)
      have hw1 : (i : ℝ) * (u * a + u * d) ≤ (i * a + i * d) / 1000 := by
        have := mul_le_mul_of_nonneg_left (show u * a + u * d ≤ (a + d) / 1000 by linarith) hi0
        linarith
      rw [e5, e6] at ep
      have ep' : |p - i * d| ≤ 12 * (i * (u * a + u * d)) + u * d := by linarith
      obtain ⟨r, hr, er⟩ := add_near (B := 2 * (i * a + i * d) + 2 * (a + d)) hx0 hp ex0 ep' (by
        have := abs_add_le (q0 : ℝ) (i * d)
        rw [← ha, abs_of_nonneg hid] at this
        linarith) (hT' _ hbig)
      refine ⟨r, hr, er.trans ?_⟩
      have e7 : u * (2 * (i * a + i * d) + 2 * (a + d)) = 2 * (i * (u * a + u * d)) + 2 * (u * a + u * d) := by ring
      have e8 : 16 * ((i : ℝ) + 1) * (u * a + u * d) = 16 * (i * (u * a + u * d)) + 16 * (u * a + u * d) := by ring
      rw [e7, e8]
      linarith
  · intro hN0
    have h2 : 1 < ⌈v⌉.toNat := by omega
    refine ⟨((Flt.lit q0).add (Flt.lit qd) |>.sub (Flt.lit q0)).abs, |g|, ?_, isVal_abs hg, ?_⟩
    · unfold timeStepF idx
      simp [h2, (show 0 < ⌈v⌉.toNat by omega)]
      rfl
    · have h3 := h49 1
      rw [one_mul] at h3
      rw [h3]
      have := abs_abs_sub_abs_le g d
      rw [abs_of_pos hdR] at this
      linarith
  · intro hN0 h0
    have h2 : 1 < ⌈v⌉.toNat := by omega
    unfold timeStepF idx
    simp [h2, (show 0 < ⌈v⌉.toNat by omega)]
    subst h0
    have hz : Flt.lit 0 = zero false := by simp [lit]
    rcases isVal_cases hxd with ⟨s, -, h⟩ | ⟨h, e⟩
    · exact absurd h hxd0.ne'
    · rw [hz, e]
      simp [Flt.add, Flt.sub, Flt.neg, Flt.abs, sgn, not_lt.2 hxd0.le, bind, Except.bind]

/-! ## A window that is one step too long -/

theorem isVal_pos {a : Flt} {r : ℝ} (h : IsVal a r) (h0 : r ≠ 0) : a = num r h0 := by
  rcases isVal_cases h with ⟨s, -, rfl⟩ | ⟨_, e⟩
  · exact absurd rfl h0
  · exact e

theorem lit_eval {q : ℚ} {e : ℤ} {k : ℕ} (he : -1022 ≤ e) (he' : e ≤ 900) (hk : k ≤ 2 ^ 53) (hk0 : 0 < k) (h1 : (2 : ℝ) ^ e ≤ q) (h2 : (q : ℝ) < 2 ^ (e + 1))
    (h3 : |(q : ℝ) / 2 ^ (e - 52) - k| < 1 / 2) : IsVal (Flt.lit q) (k * 2 ^ (e - 52)) := by
  unfold lit
  rw [if_neg]
  · exact round_eval he he' hk hk0 h1 h2 h3
  · rintro rfl
    have := two_zpow_pos e
    norm_num at h1
    linarith

theorem add_eval {a b : Flt} {x y : ℝ} {e : ℤ} {k : ℕ} (ha : IsVal a x) (hb : IsVal b y) (hx : x ≠ 0) (hy : y ≠ 0)
    (he : -1022 ≤ e) (he' : e ≤ 900) (hk : k ≤ 2 ^ 53) (hk0 : 0 < k) (h1 : (2 : ℝ) ^ e ≤ x + y) (h2 : x + y < 2 ^ (e + 1))
    (h3 : |(x + y) / 2 ^ (e - 52) - k| < 1 / 2) : IsVal (a.add b) (k * 2 ^ (e - 52)) := by
  rw [isVal_pos ha hx, isVal_pos hb hy]
  simp only [Flt.add]
  rw [if_neg (by have := two_zpow_pos e; linarith)]
  exact round_eval he he' hk hk0 h1 h2 h3

theorem div_eval {a b : Flt} {x y : ℝ} {e : ℤ} {k : ℕ} (ha : IsVal a x) (hb : IsVal b y) (hx : x ≠ 0) (hy : y ≠ 0)
    (he : -1022 ≤ e) (he' : e ≤ 900) (hk : k ≤ 2 ^ 53) (hk0 : 0 < k) (h1 : (2 : ℝ) ^ e ≤ x / y) (h2 : x / y < 2 ^ (e + 1))
    (h3 : |x / y / 2 ^ (e - 52) - k| < 1 / 2) : IsVal (a.div b) (k * 2 ^ (e - 52)) := by
  rw [isVal_pos ha hx, isVal_pos hb hy]
  exact round_eval he he' hk hk0 h1 h2 h3

theorem mul_eval {a b : Flt} {x y : ℝ} {e : ℤ} {k : ℕ} (ha : IsVal a x) (hb : IsVal b y) (hx : x ≠ 0) (hy : y ≠ 0)
    (he : -1022 ≤ e) (he' : e ≤ 900) (hk : k ≤ 2 ^ 53) (hk0 : 0 < k) (h1 : (2 : ℝ) ^ e ≤ x * y) (h2 : x * y < 2 ^ (e + 1))
    (h3 : |x * y / 2 ^ (e - 52) - k| < 1 / 2) : IsVal (a.mul b) (k * 2 ^ (e - 52)) := by
  rw [isVal_pos ha hx, isVal_pos hb hy]
  exact round_eval he he' hk hk0 h1 h2 h3

theorem dt_val : IsVal (Flt.lit (1 / 100)) (5764607523034235 * 2 ^ (-7 - 52 : ℤ)) := by
  have := lit_eval (q := 1 / 100) (e := -7) (k := 5764607523034235) (by norm_num) (by norm_num) (by norm_num) (by norm_num) (by norm_num) (by norm_num)
    (by norm_num [abs_lt])
  exact_mod_cast this

/-- C140 does not hold: the window from 0 to 20 with the step 0.01 (the default) has 2002 points in double precision, not 2001, and ends after 20.009. -/
theorem C140_violated : ∃ tk, timeWindowF (Flt.lit 0) (Flt.lit 20) (Flt.lit (1 / 100)) = .ok tk ∧ tk.length = 2002
    ∧ ∃ h : 2001 < tk.length, ∃ r, IsVal tk[2001] r ∧ 20009 / 1000 < r := by
  have h20 : IsVal (Flt.lit 20) 20 := by simpa using lit_nat (k := 20) (by norm_num)
  have h1 := add_eval (e := 4) (k := 5632314283980227) h20 dt_val (by norm_num) (by norm_num) (by norm_num) (by norm_num) (by norm_num) (by norm_num) (by norm_num) (by norm_num)
    (by norm_num [abs_lt])
  have hz : Flt.lit 0 = zero false := by simp [lit]
  have h2 : ((Flt.lit 20).add (Flt.lit (1 / 100))).sub (Flt.lit 0) = (Flt.lit 20).add (Flt.lit (1 / 100)) := by
    rw [hz, isVal_pos h1 (by norm_num)]
    rfl
  have h3 := div_eval (e := 10) (k := 8800491068719105) h1 dt_val (by norm_num) (by norm_num) (by norm_num) (by norm_num) (by norm_num) (by norm_num) (by norm_num) (by norm_num)
    (by norm_num [abs_lt])
  rw [← h2] at h3
  have hw := timeWindowF_eq dt_val (by norm_num) h3 (by norm_num) (by norm_num [abs_le])
  have hc : ⌈((8800491068719105 : ℕ) : ℝ) * 2 ^ (10 - 52 : ℤ)⌉.toNat = 2002 := by
    have : ⌈((8800491068719105 : ℕ) : ℝ) * 2 ^ (10 - 52 : ℤ)⌉ = 2002 := by
      rw [Int.ceil_eq_iff]
      norm_num
    rw [this]; rfl
  obtain ⟨tk, hk, -, -, hp, -⟩ := C140_points_partial 0 20 (1 / 100) 2000 (by norm_num) (by norm_num) (by norm_num) (by norm_num) (by norm_num)
  have he := hw.symm.trans hk
  have hl : tk.length = 2002 := by
    have := Except.ok.inj he
    rw [← this, List.length_map, List.length_range, hc]
  refine ⟨tk, hk, hl, by omega, ?_⟩
  obtain ⟨r, hr, hr'⟩ := hp 2001 (by omega)
  refine ⟨r, hr, ?_⟩
  norm_num [abs_le] at hr'
  linarith [hr'.1]

/-- C140 for binary fractions: if `t0`, `tf` and `dt` are multiples of a power of two, small enough for 53 bits, the window is exact: `N + 1` points, the points are
`t0 + i dt`, and `time_step` is `dt`. Missing: decimal fractions. -/
theorem C140_dyadic_partial (a b c k : ℤ) (N : ℕ) (hk : -1000 ≤ k) (hk' : k ≤ 900) (hc : 0 < c) (hN : b - a = N * c) (hs : |a| + |b| + c ≤ 2 ^ 52)
    {t0 tf dt : Flt} (h0 : IsVal t0 (a * 2 ^ k)) (hf : IsVal tf (b * 2 ^ k)) (hd : IsVal dt (c * 2 ^ k)) :
    ∃ tk, timeWindowF t0 tf dt = .ok tk ∧ tk.length = N + 1
      ∧ (∀ i (h : i < tk.length), IsVal tk[i] (a * 2 ^ k + i * (c * 2 ^ k)))
      ∧ (0 < N → ∃ s, timeStepF tk = .ok s ∧ IsVal s (c * 2 ^ k)) := by
  have hp := two_zpow_pos k
  have ha := abs_le.1 (le_refl |a|)
  have hb := abs_le.1 (le_refl |b|)
  have ha0 := abs_nonneg a
  have hb0 := abs_nonneg b
  have hNc : (N : ℤ) ≤ N * c := by nlinarith [Int.natCast_nonneg N]
  have hN52 : N ≤ 2 ^ 52 := by
    have : (N : ℤ) ≤ 2 ^ 52 := by omega
    exact_mod_cast this
  have bits : ∀ z : ℤ, |z| ≤ 2 ^ 53 → Bits (z * 2 ^ k) := fun z hz => ⟨z, k, hz, by omega, by omega, rfl⟩
  have hcR : (0 : ℝ) < c := by exact_mod_cast hc
  have hd0 : (c : ℝ) * 2 ^ k ≠ 0 := (mul_pos hcR hp).ne'
  have e1 : ((b : ℝ) * 2 ^ k + c * 2 ^ k) = ((b + c : ℤ) : ℝ) * 2 ^ k := by push_cast; ring
  have h1 := add_bits hf hd (by rw [e1]; exact bits _ (by rw [abs_le]; constructor <;> omega))
  rw [e1] at h1
  have e2 : ((b + c : ℤ) : ℝ) * 2 ^ k - a * 2 ^ k = ((N * c + c : ℤ) : ℝ) * 2 ^ k := by rw [← hN]; push_cast; ring
  have h2 := sub_bits h1 h0 (by rw [e2]; exact bits _ (by rw [abs_le]; constructor <;> omega))
  rw [e2] at h2
  have e3 : ((N * c + c : ℤ) : ℝ) * 2 ^ k / (c * 2 ^ k) = ((N + 1 : ℕ) : ℝ) := by
    push_cast
    field_simp
  have h3 := div_bits h2 hd hd0 (by rw [e3]; exact bits_nat (by omega))
  rw [e3] at h3
  have hw := timeWindowF_eq hd hd0 h3 (by positivity) (by
    rw [abs_of_nonneg (by positivity)]
    have h4 : N + 1 ≤ 2 ^ 60 := by omega
    have h5 : ((N + 1 : ℕ) : ℝ) ≤ ((2 ^ 60 : ℕ) : ℝ) := Nat.cast_le.2 h4
    norm_num at h5 ⊢
    exact h5)
  rw [Int.ceil_natCast, Int.toNat_natCast] at hw
  have e4 : ((a : ℝ) * 2 ^ k + c * 2 ^ k) = ((a + c : ℤ) : ℝ) * 2 ^ k := by push_cast; ring
  have h4 := add_bits h0 hd (by rw [e4]; exact bits _ (by rw [abs_le]; constructor <;> omega))
  have e5 : ((a : ℝ) * 2 ^ k + c * 2 ^ k) - a * 2 ^ k = c * 2 ^ k := by ring
  have h5 := sub_bits h4 h0 (by rw [e5]; exact bits _ (by rw [abs_le]; constructor <;> omega))
  rw [e5] at h5
  refine ⟨_, hw, by simp, ?_, ?_⟩
  · intro i hi
    simp only [List.length_map, List.length_range] at hi
    simp only [List.getElem_map, List.getElem_range]
    split
    · rename_i hi0; subst hi0; simpa using h0
    split
    · rename_i hi1; subst hi1; simpa using h4
    · have hiN : (i : ℤ) ≤ N := by omega
      have hic : (i : ℤ) * c ≤ N * c := mul_le_mul_of_nonneg_right hiN hc.le
      have hic0 : 0 ≤ (i : ℤ) * c := by positivity
      have hiv : IsVal (Flt.lit (i : ℚ)) i := lit_nat (by omega)
      have e6 : (i : ℝ) * (c * 2 ^ k) = ((i * c : ℤ) : ℝ) * 2 ^ k := by push_cast; ring
      have h6 := mul_bits hiv h5 (by rw [e6]; exact bits _ (by rw [abs_le]; constructor <;> omega))
      have e7 : (a : ℝ) * 2 ^ k + i * (c * 2 ^ k) = ((a + i * c : ℤ) : ℝ) * 2 ^ k := by push_cast; ring
      exact add_bits h0 h6 (by rw [e7]; exact bits _ (by rw [abs_le]; constructor <;> omega))
  · intro hN0
    refine ⟨((t0.add dt).sub t0).abs, ?_, ?_⟩
    · unfold timeStepF idx
      simp [hN0]
      rfl
    · have := isVal_abs h5
      rwa [abs_of_pos (mul_pos hcR hp)] at this

/-- The hypotheses of `C140_dyadic_partial` are met by the window from 0 to 10 with step 1/64, those of `C140_points_partial` by the one with step 0.01. -/
example : (∃ tk, timeWindowF (Flt.lit 0) (Flt.lit 10) (Flt.lit (1 / 64)) = .ok tk ∧ tk.length = 641)
    ∧ ∃ tk, timeWindowF (Flt.lit 0) (Flt.lit 10) (Flt.lit (1 / 100)) = .ok tk ∧ (tk.length = 1001 ∨ tk.length = 1002) := by
  constructor
  · have v : ∀ (q : ℚ) (z : ℤ), |z| ≤ 2 ^ 53 → (q : ℝ) = z * 2 ^ (-6 : ℤ) → IsVal (Flt.lit q) (z * 2 ^ (-6 : ℤ)) := fun q z hz e => by
      rw [← e]; exact lit_bits (by rw [e]; exact ⟨z, -6, hz, by norm_num, by norm_num, rfl⟩)
    obtain ⟨tk, h1, h2, -⟩ := C140_dyadic_partial 0 640 1 (-6) 640 (by norm_num) (by norm_num) (by norm_num) (by norm_num) (by norm_num)
      (v 0 0 (by norm_num) (by norm_num)) (v 10 640 (by norm_num) (by norm_num)) (v (1 / 64) 1 (by norm_num) (by norm_num))
    exact ⟨tk, h1, h2⟩
  · obtain ⟨tk, h1, h2, -⟩ := C140_points_partial 0 10 (1 / 100) 1000 (by norm_num) (by norm_num) (by norm_num) (by norm_num) (by norm_num)
    exact ⟨tk, h1, h2⟩

end VGPA
