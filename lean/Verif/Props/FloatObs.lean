import Verif.Props.FloatGrid
import Verif.Lemmas.Sweep
import Mathlib.Tactic.Ring

/-!
# C141: the observation indices in double precision
-/

namespace VGPA

open Flt Classical

theorem floorInt_val {a : Flt} {r : ℝ} (h : IsVal a r) : a.floorInt = .ok ⌊r⌋ := by
  rcases isVal_cases h with ⟨s, rfl, rfl⟩ | ⟨hr, rfl⟩
  · simp [floorInt]
  · rfl

theorem toInt_val {a : Flt} {r : ℝ} (h : IsVal a r) : a.toInt = .ok (pyInt r) := by
  rcases isVal_cases h with ⟨s, rfl, rfl⟩ | ⟨hr, rfl⟩
  · simp [toInt, pyInt]
  · rfl

theorem add_zero_val {a : Flt} {r : ℝ} (h : IsVal a r) (s : Bool) : IsVal (a.add (zero s)) r := by
  rcases isVal_cases h with ⟨t, rfl, rfl⟩ | ⟨hr, rfl⟩
  · exact isVal_zero _
  · exact h

theorem mapM_ok_map {α β : Type} (f : α → Py β) (g : α → β) : ∀ l : List α, (∀ x ∈ l, f x = .ok (g x)) → l.mapM f = .ok (l.map g)
  | [], _ => rfl
  | x :: l, h => by
    rw [List.mapM_cons, h x (by simp), mapM_ok_map f g l (fun y hy => h y (by simp [hy]))]
    rfl

/-- A number close to the quotient of two naturals has its integer part, unless the quotient is an integer; then it may be one less. -/
theorem floor_near {x : ℝ} {p D : ℕ} (hD : 0 < D) (h : |x - (p : ℝ) / D| < 1 / D) :
    ⌊x⌋ = ((p / D : ℕ) : ℤ) ∨ (D ∣ p ∧ ⌊x⌋ + 1 = ((p / D : ℕ) : ℤ)) := by
  have hDR : (0 : ℝ) < D := by exact_mod_cast hD
  have h1 := abs_lt.1 h
  have hdm : (p : ℝ) = D * ((p / D : ℕ) : ℝ) + ((p % D : ℕ) : ℝ) := by exact_mod_cast (Nat.div_add_mod p D).symm
  set w : ℕ := p / D with hw
  set m : ℕ := p % D with hmd
  have hq : (p : ℝ) / D = (w : ℝ) + (m : ℝ) / D := by
    rw [hdm]; field_simp
  have hm : (m : ℝ) / D + 1 / D ≤ 1 := by
    rw [← add_div, div_le_one hDR]
    exact_mod_cast Nat.mod_lt p hD
  have h1D : (1 : ℝ) / D ≤ 1 := by rw [div_le_one hDR]; exact_mod_cast hD
  clear_value w
  by_cases h0 : m = 0
  · rw [hq, h0] at h1
    simp only [Nat.cast_zero, zero_div, add_zero] at h1
    by_cases hx : (w : ℝ) ≤ x
    · left
      rw [Int.floor_eq_iff]
      push_cast
      exact ⟨hx, by linarith⟩
    · right
      refine ⟨Nat.dvd_of_mod_eq_zero h0, ?_⟩
      have : ⌊x⌋ = (w : ℤ) - 1 := by
        rw [Int.floor_eq_iff]
        push_cast
        constructor <;> linarith
      omega
  · left
    have : (1 : ℝ) ≤ (m : ℝ) := by exact_mod_cast Nat.one_le_iff_ne_zero.2 h0
    have h2 : (1 : ℝ) / D ≤ (m : ℝ) / D := div_le_div_of_nonneg_right this hDR.le
    rw [Int.floor_eq_iff]
    rw [hq] at h1
    push_cast
    constructor <;> linarith [h1.1, h1.2]

/-- Entry `i` of the indices before duplicates are removed. -/
theorem linspaceF_spec {n M : ℕ} (hn : M + 1 ≤ n) (hs : n * (M + 1) ≤ 2 ^ 50) :
    ∃ f : ℕ → ℕ, linspaceF n (M + 2) = .ok ((List.range M).map f) ∧ ∀ i < M,
      f i = (i + 1) * n / (M + 1) ∨ (M + 1 ∣ (i + 1) * n ∧ ¬ M + 1 ∣ n ∧ f i + 1 = (i + 1) * n / (M + 1)) := by
  have hn50 : n ≤ 2 ^ 50 := le_trans (Nat.le_mul_of_pos_right n (by omega)) hs
  have hDR : (0 : ℝ) < ((M + 1 : ℕ) : ℝ) := by positivity
  have hnR : (0 : ℝ) < n := by exact_mod_cast (show 0 < n by omega)
  have hnD : ((M + 1 : ℕ) : ℝ) ≤ n := by exact_mod_cast hn
  have hsR : (n : ℝ) * ((M + 1 : ℕ) : ℝ) ≤ 2 ^ 50 := by
    have : ((n * (M + 1) : ℕ) : ℝ) ≤ ((2 ^ 50 : ℕ) : ℝ) := Nat.cast_le.2 hs
    push_cast at this ⊢
    norm_num at this ⊢
    exact this
  have hnv : IsVal (Flt.lit (n : ℚ)) n := lit_nat (by omega)
  have hDv : IsVal (Flt.lit ((M + 1 : ℕ) : ℚ)) ((M + 1 : ℕ) : ℝ) := lit_nat (by omega)
  have hnv' : IsVal ((Flt.lit (n : ℚ)).sub (.zero false)) n := add_zero_val hnv _
  have hone : (1 : ℝ) ≤ (n : ℝ) / ((M + 1 : ℕ) : ℝ) := by rw [one_le_div hDR]; exact hnD
  have hle : (n : ℝ) / ((M + 1 : ℕ) : ℝ) ≤ n := div_le_self hnR.le (by exact_mod_cast Nat.succ_pos M)
  have hn50R : (n : ℝ) ≤ 2 ^ 50 := by
    have : ((n : ℕ) : ℝ) ≤ ((2 ^ 50 : ℕ) : ℝ) := Nat.cast_le.2 hn50
    norm_num at this ⊢
    exact this
  have big : ∀ z : ℝ, z ≤ 2 * n → z ≤ 2 ^ 1023 := fun z hz => big_le (by
    refine (hz.trans (mul_le_mul_of_nonneg_left hn50R (by norm_num))).trans ?_
    rw [← pow_succ']
    exact pow_le_pow_right₀ (by norm_num) (by norm_num))
  obtain ⟨s, hs1, hs2⟩ := div_err hnv' hDv hDR.ne' (by
    rw [abs_of_nonneg (zero_le_one.trans hone)]
    exact big _ (by linarith))
  rw [abs_of_nonneg (zero_le_one.trans hone)] at hs2
  have ht : tiny ≤ uro * 1 := tiny_le_uro (by norm_num)
  have ht0 := tiny_pos
  have hu0 := uro_pos
  have hu1 : uro = 1 / 2 ^ 53 := uro_eq
  set D : ℝ := ((M + 1 : ℕ) : ℝ) with hDdef
  set step := ((Flt.lit (n : ℚ)).sub (.zero false)).div (Flt.lit ((M + 1 : ℕ) : ℚ)) with hstep
  -- one entry
  have entry : ∀ i, i < M → ∃ x, IsVal (((Flt.lit ((i + 1 : ℕ) : ℚ)).mul step).add (.zero false)) x ∧ |x - (((i + 1) * n : ℕ) : ℝ) / D| < 1 / D
      ∧ (M + 1 ∣ n → x = ((i + 1 : ℕ) : ℝ) * ((n : ℝ) / D)) := by
    intro i hi
    have hiv : IsVal (Flt.lit ((i + 1 : ℕ) : ℚ)) ((i + 1 : ℕ) : ℝ) := lit_nat (by omega)
    have hi0 : (0 : ℝ) ≤ ((i + 1 : ℕ) : ℝ) := by positivity
    have hiD : ((i + 1 : ℕ) : ℝ) ≤ D := by rw [hDdef]; exact_mod_cast (show i + 1 ≤ M + 1 by omega)
    set y : ℝ := ((i + 1 : ℕ) : ℝ) with hy
    have hx : y * (n / D) ≤ n := by
      rw [mul_div_assoc', div_le_iff₀ hDR, mul_comm]
      exact mul_le_mul_of_nonneg_left hiD hnR.le
    have hyn : y ≤ n := hiD.trans hnD
    have hun : 0 ≤ uro * n := mul_nonneg hu0.le hnR.le
    have hex : y * (uro * (n / D) + tiny) ≤ 2 * (uro * n) := by
      have h1 : y * (uro * (n / D)) = uro * (y * (n / D)) := by ring
      have h2 := mul_le_mul_of_nonneg_left hx hu0.le
      have h3 := mul_le_mul hyn ht ht0.le hnR.le
      have h4 : (n : ℝ) * (uro * 1) = uro * n := by ring
      rw [mul_add]
      linarith
    have hun' : uro * n ≤ n / 1000 := by rw [hu1]; linarith
    obtain ⟨x, hxv, hxe⟩ := mul_near (B := 2 * n) hiv hs1 hs2 (by
      rw [abs_of_nonneg hi0, abs_of_nonneg (zero_le_one.trans hone), mul_add]
      linarith) (big _ le_rfl)
    rw [abs_of_nonneg hi0] at hxe
    have e : (((i + 1) * n : ℕ) : ℝ) / D = y * (n / D) := by rw [hy]; push_cast; ring
    by_cases hc : M + 1 ∣ n
    · obtain ⟨k, hk⟩ := hc
      have hkR : (n : ℝ) / D = ((k : ℕ) : ℝ) := by
        rw [div_eq_iff hDR.ne', hDdef, hk]; push_cast; ring
      have hkn : k ≤ 2 ^ 50 := le_trans (by rw [hk]; exact Nat.le_mul_of_pos_left k (by omega)) hn50
      have h1 := div_bits hnv' hDv hDR.ne' (by rw [hkR]; exact bits_nat (by omega))
      have h2 := mul_bits hiv h1 (by
        rw [hkR, hy, ← Nat.cast_mul]
        refine bits_nat ((?_ : (i + 1) * k ≤ n).trans (by omega))
        rw [hk]
        exact Nat.mul_le_mul_right k (by omega))
      exact ⟨y * ((n : ℝ) / D), add_zero_val h2 _, by rw [e]; simpa using hDR, fun _ => rfl⟩
    · refine ⟨x, add_zero_val hxv _, ?_, fun h1 => absurd h1 hc⟩
      rw [e]
      have h5 : uro * n * D ≤ 1 / 8 := by
        rw [mul_assoc, hu1]
        have := mul_le_mul_of_nonneg_left hsR (show (0 : ℝ) ≤ 1 / 2 ^ 53 by norm_num)
        norm_num at this ⊢
        linarith
      have h6 : uro * n ≤ 1 / 8 * (1 / D) := by
        rw [mul_one_div, le_div_iff₀ hDR]; exact h5
      have h7 : uro * 1 ≤ uro * n := mul_le_mul_of_nonneg_left (hone.trans hle) hu0.le
      have h8 : 0 < 1 / D := one_div_pos.2 hDR
      have h9 : uro * (2 * n) = 2 * (uro * n) := by ring
      rw [h9] at hxe
      linarith
  choose! g hg using entry
  refine ⟨fun i => ⌊g i⌋.toNat, ?_, ?_⟩
  · have hm : ((List.range (M + 2 - 2)).map (· + 1)).mapM (fun i : ℕ => (((Flt.lit i).mul step).add (.zero false)).floorInt)
        = .ok ((((List.range M).map (· + 1)).map fun j => ⌊g (j - 1)⌋)) := by
      refine mapM_ok_map _ _ _ fun j hj => ?_
      simp only [List.mem_map, List.mem_range] at hj
      obtain ⟨i, hi, rfl⟩ := hj
      exact floorInt_val (hg i (by omega)).1
    unfold linspaceF
    simp only [show M + 2 - 1 = M + 1 by omega]
    rw [← hstep, hm]
    simp only [bind, Except.bind, pure, Except.pure, List.map_map]
    rfl
  · intro i hi
    obtain ⟨-, h2, h3⟩ := hg i hi
    rcases floor_near (D := M + 1) (by omega) h2 with h | ⟨h4, h5⟩
    · left; show ⌊g i⌋.toNat = _; rw [h]; rfl
    · by_cases hc : M + 1 ∣ n
      · left
        have h6 := h3 hc
        show ⌊g i⌋.toNat = _
        obtain ⟨k, hk⟩ := hc
        have hkR : (n : ℝ) / D = ((k : ℕ) : ℝ) := by
          rw [div_eq_iff hDR.ne', hDdef, hk]; push_cast; ring
        rw [h6, hkR, ← Nat.cast_mul, Int.floor_natCast, Int.toNat_natCast, hk, show (i + 1) * ((M + 1) * k) = (M + 1) * ((i + 1) * k) by ring,
          Nat.mul_div_cancel_left _ (by omega)]
      · right
        refine ⟨h4, hc, ?_⟩
        show ⌊g i⌋.toNat + 1 = _
        have h7 : 1 ≤ (i + 1) * n / (M + 1) := by
          rw [Nat.le_div_iff_mul_le (by omega)]
          nlinarith
        omega

/-- The indices are distinct and in order, so that nothing is removed. -/
theorem npUnique_spec {n M : ℕ} (hn : M + 1 ≤ n) {f : ℕ → ℕ} (hf : ∀ i < M,
      f i = (i + 1) * n / (M + 1) ∨ (M + 1 ∣ (i + 1) * n ∧ ¬ M + 1 ∣ n ∧ f i + 1 = (i + 1) * n / (M + 1))) :
    (∀ i j, i < j → j < M → f i < f j) ∧ (∀ i < M, 1 ≤ f i ∧ f i < n) ∧ npUnique ((List.range M).map f) = (List.range M).map f := by
  have hD : 0 < M + 1 := by omega
  have step : ∀ i, i + 1 < M → f i < f (i + 1) := by
    intro i hi
    have e : (i + 1 + 1) * n = (i + 1) * n + n := by ring
    have h1 : f i ≤ (i + 1) * n / (M + 1) := by rcases hf i (by omega) with h | ⟨-, -, h⟩ <;> omega
    have h2 : (i + 1) * n / (M + 1) + 1 ≤ (i + 1 + 1) * n / (M + 1) := by
      rw [Nat.le_div_iff_mul_le hD, e, add_mul, one_mul]
      have := Nat.div_mul_le_self ((i + 1) * n) (M + 1)
      omega
    rcases hf (i + 1) hi with h | ⟨h3, h8, h⟩
    · omega
    · have hn' : M + 1 < n := lt_of_le_of_ne hn (by rintro rfl; exact h8 dvd_rfl)
      obtain ⟨k, hk⟩ := h3
      have hk' : (i + 1 + 1) * n / (M + 1) = k := by rw [hk, Nat.mul_div_cancel_left _ hD]
      have h4 : (i + 1) * n / (M + 1) + 1 < k := by
        by_contra hc
        have h5 : k ≤ (i + 1) * n / (M + 1) + 1 := by omega
        have h6 := Nat.div_mul_le_self ((i + 1) * n) (M + 1)
        have h7 : (M + 1) * k ≤ ((i + 1) * n / (M + 1) + 1) * (M + 1) := by
          rw [mul_comm]; exact Nat.mul_le_mul_right _ h5
        replace h7 := h7.trans_eq (add_mul _ _ _)
        rw [one_mul] at h7
        rw [← hk, e] at h7
        generalize (i + 1) * n / (M + 1) * (M + 1) = P at h6 h7
        linarith
      omega
  have mono : ∀ j i, i < j → j < M → f i < f j := by
    intro j
    induction j with
    | zero => intro i h; omega
    | succ j ih =>
      intro i h1 h2
      have h3 := step j h2
      rcases Nat.lt_succ_iff_lt_or_eq.1 h1 with h | rfl
      · exact (ih i h (by omega)).trans h3
      · exact h3
  refine ⟨fun i j h1 h2 => mono j i h1 h2, fun i hi => ⟨?_, ?_⟩, ?_⟩
  · have h0 : 1 ≤ f 0 := by
      rcases hf 0 (by omega) with h | ⟨h1, h2, -⟩
      · rw [h, zero_add, one_mul, Nat.le_div_iff_mul_le hD]; omega
      · rw [zero_add, one_mul] at h1; exact absurd h1 h2
    rcases Nat.eq_zero_or_pos i with rfl | h
    · exact h0
    · have := mono i 0 h hi; omega
  · have h1 : f i ≤ (i + 1) * n / (M + 1) := by rcases hf i hi with h | ⟨-, -, h⟩ <;> omega
    refine h1.trans_lt ?_
    rw [Nat.div_lt_iff_lt_mul hD, mul_comm]
    exact Nat.mul_lt_mul_of_pos_left (by omega) (by omega)
  · unfold npUnique
    rw [(List.toFinset_sort (r := (· ≤ ·)) ?_).2]
    · rw [List.pairwise_map]
      refine List.Pairwise.imp_of_mem ?_ (List.pairwise_lt_range (n := M))
      intro i j hi hj hij
      exact (mono j i hij (List.mem_range.1 hj)).le
    · refine List.Nodup.map_on ?_ List.nodup_range
      intro i hi j hj hij
      rw [List.mem_range] at hi hj
      rcases lt_trichotomy i j with h | h | h
      · exact absurd hij (mono j i h hj).ne
      · exact h
      · exact absurd hij (mono i j h hi).ne'

theorem mul_near' {a b : Flt} {x y X ex B : ℝ} (ha : IsVal a x) (hb : IsVal b y) (hx : |x - X| ≤ ex)
    (hB : |y| * (|X| + ex) ≤ B) (hb' : B ≤ 2 ^ 1023) : ∃ q, IsVal (mul a b) q ∧ |q - X * y| ≤ |y| * ex + uro * B + tiny := by
  have h1 : |x * y - X * y| ≤ |y| * ex := by
    rw [← sub_mul, abs_mul, mul_comm]
    exact mul_le_mul_of_nonneg_left hx (abs_nonneg y)
  have h2 : |x * y| ≤ B := by
    rw [abs_mul, mul_comm]
    refine le_trans (mul_le_mul_of_nonneg_left ?_ (abs_nonneg y)) hB
    have := abs_add_le (x - X) X
    rw [sub_add_cancel] at this
    linarith
  obtain ⟨q, hq, hq'⟩ := mul_err ha hb (h2.trans hb')
  refine ⟨q, hq, ?_⟩
  have h3 := mul_le_mul_of_nonneg_left h2 uro_pos.le
  have := abs_add_le (q - x * y) (x * y - X * y)
  rw [sub_add_sub_cancel] at this
  linarith

set_option maxHeartbeats 1000000 in
/-- What is computed from a window that was made from decimal numbers: the limit for the density, and the number of observations before rounding down. -/
theorem obs_window (q0 qf qd : ℚ) (N : ℕ) (hN0 : 0 < N) (hd : 0 < qd) (hN : qf - q0 = N * qd)
    (hsize : (N + 2) * (|q0| + |qf| + qd) ≤ 2 ^ 40 * qd) (hlo : 1 / 2 ^ 100 ≤ qd) (hhi : qd ≤ 2 ^ 100) {tk : List Flt}
    (htk : timeWindowF (Flt.lit q0) (Flt.lit qf) (Flt.lit qd) = .ok tk) :
    ∃ t0 t1 κ, idx tk 0 = .ok t0 ∧ idx tk 1 = .ok t1 ∧ IsVal ((Flt.lit 1).div (t1.sub t0)) κ ∧ |κ * qd - 1| ≤ 1 / (100 * (N + 2)) ∧ 0 < κ
      ∧ (tk.length = N + 1 ∨ tk.length = N + 2) ∧ (N + 2) * (N + 1) ≤ 2 ^ 40
      ∧ ∀ (nobs : Flt) (ρ : ℝ), IsVal nobs ρ → 0 < ρ → ρ ≤ κ →
        ∃ z, IsVal (((t0.sub (tk.getLastD .nan)).abs).mul nobs) z ∧ |z - ρ * ((tk.length - 1 : ℕ) * qd)| ≤ 1 / 100 := by
  have hT0 : 0 ≤ |q0| + |qf| + qd := by positivity
  have hsize' : |q0| + |qf| + qd ≤ 2 ^ 45 * qd := by
    have h1 : |q0| + |qf| + qd ≤ (N + 2) * (|q0| + |qf| + qd) := le_mul_of_one_le_left hT0 (by
      have : (0 : ℚ) ≤ N := Nat.cast_nonneg N
      linarith)
    linarith
  obtain ⟨tk', htk', hlen, -, hent, -⟩ := C140_points_partial q0 qf qd N hd hN hsize' hlo hhi
  obtain rfl : tk' = tk := Except.ok.inj (htk'.symm.trans htk)
  have hdR : (0 : ℝ) < qd := by exact_mod_cast hd
  have hNR : (qf : ℝ) - q0 = N * qd := by exact_mod_cast hN
  have hsR : ((N : ℝ) + 2) * (|(q0 : ℝ)| + |(qf : ℝ)| + qd) ≤ 2 ^ 40 * qd := by exact_mod_cast hsize
  have hloR : (1 : ℝ) / 2 ^ 100 ≤ qd := by
    have : (((1 / 2 ^ 100 : ℚ)) : ℝ) ≤ qd := by exact_mod_cast hlo
    push_cast at this; exact this
  have hhiR : (qd : ℝ) ≤ 2 ^ 100 := by exact_mod_cast hhi
  obtain ⟨r0, hr0, er0⟩ := hent 0 (by omega)
  obtain ⟨r1, hr1, er1⟩ := hent 1 (by omega)
  obtain ⟨rl, hrl, erl⟩ := hent (tk'.length - 1) (by omega)
  have hlast : tk'.getLastD .nan = tk'[tk'.length - 1]'(by omega) := by
    have hne : tk' ≠ [] := by rintro rfl; simp at hlen
    rw [List.getLastD_eq_getLast?, List.getLast?_eq_some_getLast hne, Option.getD_some, List.getLast_eq_getElem]
  rw [hlast]
  set n1 : ℕ := tk'.length - 1 with hn1
  have hn1R : (n1 : ℝ) ≤ N + 1 := by
    have : n1 ≤ N + 1 := by omega
    exact_mod_cast this
  have hn0 : (0 : ℝ) ≤ n1 := Nat.cast_nonneg _
  have hNn : (0 : ℝ) ≤ N := Nat.cast_nonneg _
  set a : ℝ := |(q0 : ℝ)| with ha
  set c : ℝ := |(qf : ℝ)| with hc
  have ha0 : 0 ≤ a := abs_nonneg _
  have hc0 : 0 ≤ c := abs_nonneg _
  have hcs : (N : ℝ) * qd ≤ a + c := by
    have := abs_sub (qf : ℝ) q0
    rw [hNR, abs_of_nonneg (by positivity)] at this
    linarith
  set d : ℝ := (qd : ℝ) with hdd
  clear_value a c d n1
  have h40R : ((N : ℝ) + 2) * (N + 1) ≤ 2 ^ 40 := by
    have h1 : ((N : ℝ) + 2) * ((N + 1) * d) ≤ 2 ^ 40 * d :=
      (mul_le_mul_of_nonneg_left (show ((N : ℝ) + 1) * d ≤ a + c + d by linarith) (by linarith)).trans hsR
    rw [← mul_assoc] at h1
    exact le_of_mul_le_mul_right h1 hdR
  have h40 : (N + 2) * (N + 1) ≤ 2 ^ 40 := by exact_mod_cast h40R
  have had : ((N : ℝ) + 2) * (a + d) ≤ 2 ^ 40 * d :=
    (mul_le_mul_of_nonneg_left (show a + d ≤ a + c + d by linarith) (by linarith)).trans hsR
  have ht := tiny_le_uro hloR
  have ht0 := tiny_pos
  have hu0 := uro_pos
  have hu1 : uro = 1 / 2 ^ 53 := uro_eq
  set u := uro with hu
  -- the rounding error in units of the step
  set w : ℝ := u * (a + d) with hw
  have hw0 : 0 ≤ w := mul_nonneg hu0.le (by linarith)
  have hwd : u * d ≤ w := mul_le_mul_of_nonneg_left (by linarith) hu0.le
  have hwN : ((N : ℝ) + 2) * w ≤ d / 8192 := by
    rw [hw, show ((N : ℝ) + 2) * (u * (a + d)) = u * ((N + 2) * (a + d)) by ring, hu1]
    have := mul_le_mul_of_nonneg_left had (show (0 : ℝ) ≤ 1 / 2 ^ 53 by norm_num)
    norm_num at this ⊢
    linarith
  have hwN' : (N : ℝ) * w ≤ d / 8192 := by linarith
  have hNw : 0 ≤ (N : ℝ) * w := mul_nonneg hNn hw0
  have e16 : ∀ z : ℝ, z * (a + d) / 2 ^ 49 = 16 * z * w := by
    intro z; rw [hw, hu1]; ring
  rw [e16] at er0 er1 erl
  push_cast at er0 er1
  have hT : a + d ≤ 2 ^ 40 * 2 ^ 100 := by
    have h1 : 1 * (a + d) ≤ (N + 2) * (a + d) := mul_le_mul_of_nonneg_right (by linarith) (by linarith)
    have h2 := mul_le_mul_of_nonneg_left hhiR (show (0 : ℝ) ≤ 2 ^ 40 by norm_num)
    linarith
  have big : ∀ z : ℝ, z ≤ 2 ^ 100 * (a + d) → z ≤ 2 ^ 1023 := fun z hz => big_le (by
    refine hz.trans ((mul_le_mul_of_nonneg_left hT (by norm_num)).trans ?_)
    rw [← pow_add, ← pow_add]
    exact pow_le_pow_right₀ (by norm_num) (by norm_num))
  have hwad : w ≤ (a + d) / 1000 := by rw [hw, hu1]; linarith
  have id0 : idx tk' 0 = .ok (tk'[0]'(by omega)) := idx_ok (by omega)
  have id1 : idx tk' 1 = .ok (tk'[1]'(by omega)) := idx_ok (by omega)
  -- the step
  obtain ⟨g, hg, eg⟩ := sub_near (B := 2 * (a + d)) hr1 hr0 er1 er0 (by
    rw [show (q0 : ℝ) + 1 * d - (q0 + 0 * d) = d by ring, abs_of_pos hdR]; linarith) (big _ (by norm_num; linarith))
  rw [show (q0 : ℝ) + 1 * d - (q0 + 0 * d) = d by ring, show u * (2 * (a + d)) = 2 * w by rw [hw]; ring] at eg
  have eg' : |g - d| ≤ 51 * w := by linarith
  have h2w : 2 * w ≤ (N + 2) * w := mul_le_mul_of_nonneg_right (by linarith) hw0
  have hg1 : d * (99 / 100) ≤ g := by have := (abs_le.1 eg').1; linarith
  have hg0 : 0 < g := by linarith
  -- its inverse
  have hone : IsVal (Flt.lit 1) 1 := by simpa using lit_nat (k := 1) (by norm_num)
  have hgd : 1 / g ≤ 2 / d := by
    rw [div_le_div_iff₀ hg0 hdR]; linarith
  have hd1 : 1 / d ≤ 2 ^ 100 := by
    rw [div_le_iff₀ hdR]
    have := mul_le_mul_of_nonneg_left hloR (show (0 : ℝ) ≤ 2 ^ 100 by norm_num)
    norm_num at this ⊢
    linarith
  have hd2 : 1 / 2 ^ 100 ≤ 1 / d := one_div_le_one_div_of_le hdR hhiR
  obtain ⟨κ, hκ, eκ⟩ := div_err hone hg hg0.ne' (by
    rw [abs_of_pos (one_div_pos.2 hg0)]
    refine big_le (hgd.trans ?_)
    have : 2 / d = 2 * (1 / d) := by ring
    rw [this]
    calc 2 * (1 / d) ≤ 2 * 2 ^ 100 := by linarith
      _ = 2 ^ 101 := by norm_num
      _ ≤ 2 ^ 300 := pow_le_pow_right₀ (by norm_num) (by norm_num))
  rw [abs_of_pos (one_div_pos.2 hg0)] at eκ
  have hut : tiny ≤ u * (1 / d) := tiny_le_uro hd2
  have hκd : |κ * d - 1| ≤ 1 / (100 * (N + 2)) := by
    have h1 : |κ - 1 / g| * d ≤ 3 * u := by
      have h3 : u * (1 / g) + tiny ≤ u * (2 / d) + u * (1 / d) := by
        have := mul_le_mul_of_nonneg_left hgd hu0.le
        linarith
      have h4 := mul_le_mul_of_nonneg_right (eκ.trans h3) hdR.le
      rwa [show (u * (2 / d) + u * (1 / d)) * d = 3 * u by field_simp; ring] at h4
    have h2 : |1 / g * d - 1| ≤ 52 * w / d := by
      rw [show 1 / g * d - 1 = -((g - d) / g) by field_simp; ring, abs_neg, abs_div, abs_of_pos hg0, div_le_div_iff₀ hg0 hdR]
      have h5 := mul_le_mul_of_nonneg_right eg' hdR.le
      have h6 := mul_le_mul_of_nonneg_left hg1 hw0
      have h7 : 0 ≤ w * d := mul_nonneg hw0 hdR.le
      linarith
    have h3 : |κ * d - 1| ≤ 3 * u + 52 * w / d := by
      rw [show κ * d - 1 = (κ - 1 / g) * d + (1 / g * d - 1) by ring]
      refine (abs_add_le _ _).trans ?_
      rw [abs_mul, abs_of_pos hdR]
      linarith
    refine h3.trans ?_
    have h4 : 3 * u ≤ 3 * w / d := by rw [le_div_iff₀ hdR]; linarith
    have h5 : 3 * w / d + 52 * w / d = 55 * w / d := by ring
    have h6 : 55 * w / d ≤ 1 / (100 * (N + 2)) := by
      rw [div_le_div_iff₀ hdR (by linarith), show 55 * w * (100 * ((N : ℝ) + 2)) = 5500 * ((N + 2) * w) by ring]
      linarith
    linarith
  have hκ0 : 0 < κ := by
    have h1 := (abs_le.1 hκd).1
    have h2 : (1 : ℝ) / (100 * (N + 2)) ≤ 1 / 100 := by
      apply one_div_le_one_div_of_le <;> linarith
    have h3 : 0 < κ * d := by linarith
    exact (mul_pos_iff_of_pos_right hdR).1 h3
  refine ⟨_, _, κ, id0, id1, hκ, hκd, hκ0, hlen, h40, ?_⟩
  intro nobs ρ hρ hρ0 hle
  have hn1w : (n1 : ℝ) * w ≤ (N + 1) * w := mul_le_mul_of_nonneg_right hn1R hw0
  have hn1d : (n1 : ℝ) * d ≤ (N + 1) * d := mul_le_mul_of_nonneg_right hn1R hdR.le
  have hn1d0 : 0 ≤ (n1 : ℝ) * d := mul_nonneg hn0 hdR.le
  have hNd : ((N : ℝ) + 1) * d ≤ 2 ^ 40 * (a + d) := by
    have h1 : ((N : ℝ) + 1) * d ≤ (N + 2) * (a + d) := mul_le_mul (by linarith) (by linarith) hdR.le (by linarith)
    have h2 : (2 : ℝ) ^ 40 * d ≤ 2 ^ 40 * (a + d) := mul_le_mul_of_nonneg_left (by linarith) (by norm_num)
    linarith
  obtain ⟨q, hq, eq⟩ := sub_near (B := 2 * (n1 * d) + 2 * (a + d)) hr0 hrl er0 erl (by
    rw [show (q0 : ℝ) + 0 * d - (q0 + n1 * d) = -(n1 * d) by ring, abs_neg, abs_of_nonneg hn1d0]; linarith) (big _ (by norm_num at hNd ⊢; linarith))
  rw [show (q0 : ℝ) + 0 * d - (q0 + n1 * d) = -(n1 * d) by ring] at eq
  have eq' : |q - -(n1 * d)| ≤ d / 256 := by
    have h1 : u * (2 * (n1 * d) + 2 * (a + d)) = 2 * (n1 * (u * d)) + 2 * w := by rw [hw]; ring
    have h2 : (n1 : ℝ) * (u * d) ≤ n1 * w := mul_le_mul_of_nonneg_left hwd hn0
    rw [h1] at eq
    linarith
  have eq'' : |(|q|) - n1 * d| ≤ d / 256 := by
    have := abs_abs_sub_abs_le q (-(n1 * d))
    rw [abs_neg, abs_of_nonneg hn1d0] at this
    linarith
  have hρd : ρ * d ≤ 101 / 100 := by
    have h1 := mul_le_mul_of_nonneg_right hle hdR.le
    have h2 : (1 : ℝ) / (100 * (N + 2)) ≤ 1 / 100 := by
      apply one_div_le_one_div_of_le <;> linarith
    linarith [(abs_le.1 hκd).2]
  have hρd0 : 0 ≤ ρ * d := mul_nonneg hρ0.le hdR.le
  have hN40 : (N : ℝ) + 1 ≤ 2 ^ 40 := by
    have : 1 * ((N : ℝ) + 1) ≤ (N + 2) * (N + 1) := mul_le_mul_of_nonneg_right (by linarith) (by linarith)
    linarith
  have hB : ρ * (n1 * d + d / 256) ≤ 2 ^ 41 := by
    have h1 : ρ * (n1 * d + d / 256) = n1 * (ρ * d) + ρ * d / 256 := by ring
    have h2 : (n1 : ℝ) * (ρ * d) ≤ (N + 1) * (101 / 100) := mul_le_mul hn1R hρd hρd0 (by linarith)
    rw [h1]
    norm_num at hN40 ⊢
    linarith
  obtain ⟨z, hz, ez⟩ := mul_near' (B := 2 ^ 41) (isVal_abs hq) hρ eq'' (by
    rw [abs_of_pos hρ0, abs_of_nonneg hn1d0]; exact hB) (big_le (pow_le_pow_right₀ (by norm_num) (by norm_num)))
  rw [abs_of_pos hρ0] at ez
  refine ⟨z, hz, ?_⟩
  rw [← hn1, mul_comm ρ]
  refine ez.trans ?_
  have h1 : ρ * (d / 256) = ρ * d / 256 := by ring
  have h2 : tiny ≤ 1 / 2 ^ 20 := tiny_le (by norm_num)
  rw [h1, uro_eq]
  norm_num at h2 ⊢
  linarith

/-- `collect_obs` on such a window, for a density that is accepted and one that is not. -/
theorem obs_core (q0 qf qd : ℚ) (N : ℕ) (hN0 : 0 < N) (hd : 0 < qd) (hN : qf - q0 = N * qd)
    (hsize : (N + 2) * (|q0| + |qf| + qd) ≤ 2 ^ 40 * qd) (hlo : 1 / 2 ^ 100 ≤ qd) (hhi : qd ≤ 2 ^ 100) {tk : List Flt}
    (htk : timeWindowF (Flt.lit q0) (Flt.lit qf) (Flt.lit qd) = .ok tk) (nobs : Flt) (ρ : ℝ) (hρ : IsVal nobs ρ) (hρ0 : 0 < ρ) :
    ∃ t0 t1 κ, idx tk 0 = .ok t0 ∧ idx tk 1 = .ok t1 ∧ IsVal ((Flt.lit 1).div (t1.sub t0)) κ ∧ |κ * qd - 1| ≤ 1 / 300
      ∧ ((⌊κ⌋ : ℝ) < ρ → obsIndicesF tk nobs = .error .valueError)
      ∧ ((ρ : ℝ) ≤ ⌊κ⌋ → ∃ z : ℝ, IsVal (((t0.sub (tk.getLastD .nan)).abs).mul nobs) z ∧ |z - ρ * ((tk.length - 1 : ℕ) * qd)| ≤ 1 / 100 ∧
      ((⌊z⌋ ≤ 0 ∧ obsIndicesF tk nobs = .error .typeError) ∨ (0 < ⌊z⌋ ∧ ∃ l, obsIndicesF tk nobs = .ok (⌊z⌋.toNat, l)
        ∧ linspaceF tk.length (⌊z⌋.toNat + 2) = .ok l ∧ l.length = ⌊z⌋.toNat ∧ (∀ t ∈ l, 0 < t ∧ t < tk.length) ∧ l.Pairwise (· < ·)
        ∧ ∀ i (h : i < l.length), l[i] = (i + 1) * tk.length / (⌊z⌋.toNat + 1)
            ∨ (⌊z⌋.toNat + 1 ∣ (i + 1) * tk.length ∧ ¬ ⌊z⌋.toNat + 1 ∣ tk.length ∧ l[i] + 1 = (i + 1) * tk.length / (⌊z⌋.toNat + 1))))) := by
  have hdR : (0 : ℝ) < qd := by exact_mod_cast hd
  obtain ⟨t0, t1, κ, h0, h1, hκ, hκ1, hκ0, hlen, h40, hz⟩ := obs_window q0 qf qd N hN0 hd hN hsize hlo hhi htk
  have hN3 : (3 : ℝ) ≤ N + 2 := by
    have : (1 : ℝ) ≤ N := by exact_mod_cast hN0
    linarith
  have hm : (1 : ℝ) / (100 * (N + 2)) ≤ 1 / 300 := by
    apply one_div_le_one_div_of_le <;> linarith
  have hint : pyInt κ = ⌊κ⌋ := by unfold pyInt; rw [if_pos hκ0.le]
  have hgt : nobs.gtInt ⌊κ⌋ = true ↔ (⌊κ⌋ : ℝ) < ρ := by
    unfold gtInt
    rw [decide_eq_true_iff, hρ.2]
    exact ⟨fun h => by exact_mod_cast h.2, fun h => ⟨hρ.1, by exact_mod_cast h⟩⟩
  have hfl := Int.floor_le κ
  have hfl' := Int.lt_floor_add_one κ
  have hb := abs_le.1 hκ1
  -- the program, up to the check of the density
  have prog : obsIndicesF tk nobs = if nobs.gtInt ⌊κ⌋ then .error .valueError else (do
      let dim_m ← (((t0.sub (tk.getLastD .nan)).abs).mul nobs).floorInt
      if dim_m + 2 < 0 then .error .valueError
      else if dim_m ≤ 0 then .error .typeError
      else do
        let l ← linspaceF tk.length (dim_m.toNat + 2)
        pure (dim_m.toNat, npUnique l)) := by
    unfold obsIndicesF
    rw [h0, h1]
    simp only [py_ok_bind, toInt_val hκ, hint]
  -- the rest of it, if the density is accepted
  have rest : (ρ : ℝ) ≤ ⌊κ⌋ → ∃ z : ℝ, IsVal (((t0.sub (tk.getLastD .nan)).abs).mul nobs) z ∧ |z - ρ * ((tk.length - 1 : ℕ) * qd)| ≤ 1 / 100 ∧ ⌊z⌋.toNat + 1 ≤ tk.length
      ∧ obsIndicesF tk nobs = if ⌊z⌋ ≤ 0 then .error .typeError else (do
        let l ← linspaceF tk.length (⌊z⌋.toNat + 2)
        pure (⌊z⌋.toNat, npUnique l)) := by
    intro hle
    obtain ⟨z, hz1, hz2⟩ := hz nobs ρ hρ hρ0 (hle.trans hfl)
    have hz3 := abs_le.1 hz2
    have hn1 : ((tk.length - 1 : ℕ) : ℝ) ≤ N + 1 := by
      have : tk.length - 1 ≤ N + 1 := by omega
      exact_mod_cast this
    have hρd : ρ * qd ≤ 1 + 1 / (100 * (N + 2)) := by
      have := mul_le_mul_of_nonneg_right (hle.trans hfl) hdR.le
      linarith [hb.2]
    have hnn : (0 : ℝ) ≤ ((tk.length - 1 : ℕ) : ℝ) := Nat.cast_nonneg _
    have h5 : ρ * ((tk.length - 1 : ℕ) * qd) ≤ ((tk.length - 1 : ℕ) : ℝ) + 1 / 100 := by
      have e : ρ * (((tk.length - 1 : ℕ) : ℝ) * qd) = ((tk.length - 1 : ℕ) : ℝ) * (ρ * qd) := by ring
      rw [e]
      have h6 := mul_le_mul_of_nonneg_left hρd hnn
      have h7 : ((tk.length - 1 : ℕ) : ℝ) * (1 / (100 * (N + 2))) ≤ 1 / 100 := by
        rw [mul_one_div, div_le_div_iff₀ (by linarith) (by norm_num)]
        linarith
      linarith
    have h8 : 0 ≤ ρ * (((tk.length - 1 : ℕ) : ℝ) * qd) := mul_nonneg hρ0.le (mul_nonneg hnn hdR.le)
    have h9 : -1 ≤ ⌊z⌋ := Int.le_floor.2 (by push_cast; linarith)
    have h10 : ⌊z⌋ < (tk.length : ℤ) := by
      rw [Int.floor_lt]
      have : ((tk.length - 1 : ℕ) : ℝ) = (tk.length : ℝ) - 1 := by
        rw [Nat.cast_sub (by omega)]; simp
      push_cast
      linarith
    refine ⟨z, hz1, hz2, by omega, ?_⟩
    rw [prog, if_neg (by rw [hgt]; exact not_lt.2 hle)]
    simp only [floorInt_val hz1, py_ok_bind]
    rw [if_neg (by omega)]
  have hsz : ∀ M : ℕ, M + 1 ≤ tk.length → tk.length * (M + 1) ≤ 2 ^ 50 := by
    intro M hM
    have h11 : tk.length * (M + 1) ≤ (N + 2) * (N + 2) := Nat.mul_le_mul (by omega) (by omega)
    nlinarith
  refine ⟨t0, t1, κ, h0, h1, hκ, hκ1.trans hm, fun h => by rw [prog, if_pos (hgt.2 h)], ?_⟩
  intro hle
  obtain ⟨z, h4, h5, h6, h7⟩ := rest hle
  refine ⟨z, h4, h5, ?_⟩
  by_cases h8 : ⌊z⌋ ≤ 0
  · left; rw [h7, if_pos h8]; exact ⟨h8, rfl⟩
  · right
    obtain ⟨f, hf1, hf2⟩ := linspaceF_spec h6 (hsz _ h6)
    obtain ⟨h9, h10, h11⟩ := npUnique_spec h6 hf2
    refine ⟨by omega, (List.range ⌊z⌋.toNat).map f, ?_, hf1, by simp, ?_, ?_, ?_⟩
    · rw [h7, if_neg h8, hf1]
      simp only [py_ok_bind, h11]
      rfl
    · intro t ht
      simp only [List.mem_map, List.mem_range] at ht
      obtain ⟨i, hi, rfl⟩ := ht
      exact ⟨(h10 i hi).1, (h10 i hi).2⟩
    · rw [List.pairwise_map]
      refine List.Pairwise.imp_of_mem ?_ (List.pairwise_lt_range (n := ⌊z⌋.toNat))
      intro i j _ hj hij
      exact h9 i j hij (List.mem_range.1 hj)
    · intro i hi
      simp only [List.length_map, List.length_range] at hi
      simpa using hf2 i hi

/-- C141, the part that holds: for a window that was made from decimal numbers, of moderate size, a density is accepted if one more would still be less than one
observation per step, and rejected if it is larger than one per step, with a margin of 1/256 in both cases. If it is accepted, the number of observations differs from the density times the length of the
window by at most 1.01; it is the number of indices; the indices lie in the window, after its first point, in increasing order, and index `i` is the integer part of `(i + 1) n / (M + 1)`, or one less if this
quotient is an integer but `n / (M + 1)` is none. Missing: without the exceptions, see `C141_violated`. -/
theorem C141_partial (q0 qf qd : ℚ) (N : ℕ) (hN0 : 0 < N) (hd : 0 < qd) (hN : qf - q0 = N * qd)
    (hsize : (N + 2) * (|q0| + |qf| + qd) ≤ 2 ^ 40 * qd) (hlo : 1 / 2 ^ 100 ≤ qd) (hhi : qd ≤ 2 ^ 100) {tk : List Flt}
    (htk : timeWindowF (Flt.lit q0) (Flt.lit qf) (Flt.lit qd) = .ok tk) (nobs : Flt) (ρ : ℝ) (hρ : IsVal nobs ρ) (hρ0 : 0 < ρ) :
    ((ρ + 1) * qd ≤ 1 - 1 / 256 → (∃ r, obsIndicesF tk nobs = .ok r) ∨ (obsIndicesF tk nobs = .error .typeError ∧ ρ * ((tk.length - 1 : ℕ) * qd) ≤ 1 + 1 / 100))
    ∧ (1 + 1 / 256 ≤ ρ * qd → obsIndicesF tk nobs = .error .valueError)
    ∧ (∀ M l, obsIndicesF tk nobs = .ok (M, l) → 0 < M ∧ |(M : ℝ) - ρ * ((tk.length - 1 : ℕ) * qd)| ≤ 1 + 1 / 100 ∧ l.length = M
        ∧ (∀ t ∈ l, 0 < t ∧ t < tk.length) ∧ l.Pairwise (· < ·)
        ∧ ∀ i (h : i < l.length), l[i] = (i + 1) * tk.length / (M + 1)
            ∨ (M + 1 ∣ (i + 1) * tk.length ∧ ¬ M + 1 ∣ tk.length ∧ l[i] + 1 = (i + 1) * tk.length / (M + 1))) := by
  have hdR : (0 : ℝ) < qd := by exact_mod_cast hd
  obtain ⟨t0, t1, κ, -, -, -, hκ, reject, total⟩ := obs_core q0 qf qd N hN0 hd hN hsize hlo hhi htk nobs ρ hρ hρ0
  have hfl := Int.floor_le κ
  have hfl' := Int.lt_floor_add_one κ
  have hb := abs_le.1 hκ
  refine ⟨fun h => ?_, fun h => ?_, fun M l h => ?_⟩
  · have hle : (ρ : ℝ) ≤ ⌊κ⌋ := by
      have h5 : (ρ + 1) * qd ≤ κ * qd := by linarith [hb.1]
      have := le_of_mul_le_mul_right h5 hdR
      linarith
    obtain ⟨z, -, h5, ⟨h6, h7⟩ | ⟨-, l, h7, -⟩⟩ := total hle
    · refine .inr ⟨h7, ?_⟩
      have h8 : z < 1 := by
        have := Int.lt_floor_add_one z
        have h9 : (⌊z⌋ : ℝ) ≤ 0 := by exact_mod_cast h6
        linarith
      linarith [(abs_le.1 h5).1]
    · exact .inl ⟨_, h7⟩
  · have hlt : κ < ρ := by
      have h5 : κ * qd < ρ * qd := by linarith [hb.2]
      exact lt_of_mul_lt_mul_right h5 hdR.le
    exact reject (hfl.trans_lt hlt)
  · have hle : (ρ : ℝ) ≤ ⌊κ⌋ := by
      by_contra hc
      rw [reject (not_le.1 hc)] at h
      cases h
    obtain ⟨z, -, h5, ⟨h6, h7⟩ | ⟨h6, l', h7, -, h8⟩⟩ := total hle
    · rw [h7] at h; cases h
    · rw [h7] at h
      simp only [Except.ok.injEq, Prod.mk.injEq] at h
      obtain ⟨rfl, rfl⟩ := h
      refine ⟨by omega, ?_, h8⟩
      have h9 : ((⌊z⌋.toNat : ℕ) : ℝ) = (⌊z⌋ : ℝ) := by
        have : ((⌊z⌋.toNat : ℕ) : ℤ) = ⌊z⌋ := by omega
        exact_mod_cast this
      rw [h9]
      have h10 := Int.floor_le z
      have h11 := Int.lt_floor_add_one z
      have h12 := abs_le.1 h5
      rw [abs_le]
      constructor <;> linarith [h12.1, h12.2]

/-! ## Examples -/

theorem bind_ok' {α β : Type} {x : Py α} {f : α → Py β} {r : β} (h : x >>= f = .ok r) : ∃ a, x = .ok a ∧ f a = .ok r := by
  cases x with
  | error e => cases h
  | ok a => exact ⟨a, rfl, h⟩

/-- The first two points of a window. -/
theorem timeWindowF_first {t0 tf dt : Flt} {tk : List Flt} (h : timeWindowF t0 tf dt = .ok tk) (hl : 2 ≤ tk.length) :
    idx tk 0 = .ok t0 ∧ idx tk 1 = .ok (t0.add dt) := by
  unfold timeWindowF arangeF at h
  split at h
  · cases h
  · have fin : ∃ len : ℤ, (pure ((List.range len.toNat).map fun i : ℕ =>
        if i = 0 then t0 else if i = 1 then t0.add dt else t0.add ((Flt.lit i).mul ((t0.add dt).sub t0))) : Py (List Flt)) = .ok tk := by
      dsimp only at h
      split_ifs at h
      all_goals
        obtain ⟨len, -, h2⟩ := bind_ok' h
        exact ⟨len, h2⟩
    obtain ⟨len, h2⟩ := fin
    have h3 := Except.ok.inj h2
    subst h3
    simp only [List.length_map, List.length_range] at hl
    constructor
    · rw [idx_ok (by simp; omega)]; simp
    · rw [idx_ok (by simp; omega)]; simp

theorem mapM_get {α β : Type} {f : α → Py β} : ∀ {l : List α} {r : List β}, l.mapM f = .ok r → ∀ i (h : i < l.length), ∃ h' : i < r.length, f l[i] = .ok r[i]
  | [], _, _, i, h => by simp at h
  | x :: l, r, e, i, h => by
    rw [List.mapM_cons] at e
    obtain ⟨y, h1, h2⟩ := bind_ok' e
    obtain ⟨ys, h3, h4⟩ := bind_ok' h2
    have h5 := Except.ok.inj h4
    subst h5
    cases i with
    | zero => exact ⟨by simp, h1⟩
    | succ i =>
      obtain ⟨h6, h7⟩ := mapM_get h3 i (by simpa using h)
      exact ⟨by simpa using h6, by simpa using h7⟩

theorem tenth_val : IsVal (Flt.lit (1 / 10)) (7205759403792794 * 2 ^ (-4 - 52 : ℤ)) := by
  have := lit_eval (q := 1 / 10) (e := -4) (k := 7205759403792794) (by norm_num) (by norm_num) (by norm_num) (by norm_num) (by norm_num) (by norm_num)
    (by norm_num [abs_lt])
  exact_mod_cast this

theorem lit_nat' (k : ℕ) (q : ℚ) (hk : k ≤ 2 ^ 53) (h : q = k) : IsVal (Flt.lit q) k := by subst h; exact lit_nat hk

/-- With 30 points and 21 observations the eleventh index is 14. -/
theorem linspaceF_30 {l : List ℕ} (h : linspaceF 30 (21 + 2) = .ok l) : ∃ h : 10 < l.length, l[10] = 14 := by
  unfold linspaceF at h
  obtain ⟨m, h1, h2⟩ := bind_ok' h
  have h3 := Except.ok.inj h2
  subst h3
  obtain ⟨h4, h5⟩ := mapM_get h1 10 (by simp)
  refine ⟨by simpa using h4, ?_⟩
  simp only [List.getElem_map]
  simp only [List.getElem_map, List.getElem_range] at h5
  have e30 : IsVal (Flt.lit ((30 : ℕ) : ℚ)) 30 := by simpa using lit_nat (k := 30) (by norm_num)
  have e22 : IsVal (Flt.lit ((21 + 2 - 1 : ℕ) : ℚ)) 22 := by simpa using lit_nat (k := 22) (by norm_num)
  have e11 : IsVal (Flt.lit ((10 + 1 : ℕ) : ℚ)) 11 := by simpa using lit_nat (k := 11) (by norm_num)
  have hs := div_eval (e := 0) (k := 6141272219141585) (add_zero_val e30 true) e22 (by norm_num) (by norm_num) (by norm_num) (by norm_num) (by norm_num) (by norm_num) (by norm_num)
    (by norm_num) (by norm_num [abs_lt])
  have hm := mul_eval (e := 3) (k := 8444249301319679) e11 hs (by norm_num) (by norm_num) (by norm_num) (by norm_num) (by norm_num) (by norm_num) (by norm_num)
    (by norm_num) (by norm_num [abs_lt])
  have hf := floorInt_val (add_zero_val hm false)
  have h6 := Except.ok.inj (h5.symm.trans hf)
  rw [h6]
  have : ⌊((8444249301319679 : ℕ) : ℝ) * 2 ^ (3 - 52 : ℤ)⌋ = 14 := by
    rw [Int.floor_eq_iff]
    norm_num
  rw [this]
  rfl

/-- C141 does not hold. With the step 0.1 a density of 10 is accepted for the window from 0 to 1 and rejected for the window from 1 to 2, because the step that is computed
from the window is larger there. With 30 points and 21 observations, the index 14 is used in place of 15: the step between the indices is rounded, and so is its
multiple, to just below 15. For the window from 0 to 0.29 with step 0.01 and density 100 there are 28 observations, not 29. -/
theorem C141_violated :
    (∃ tk tk', timeWindowF (Flt.lit 0) (Flt.lit 1) (Flt.lit (1 / 10)) = .ok tk ∧ timeWindowF (Flt.lit 1) (Flt.lit 2) (Flt.lit (1 / 10)) = .ok tk'
      ∧ (∃ r, obsIndicesF tk (Flt.lit 10) = .ok r) ∧ obsIndicesF tk' (Flt.lit 10) = .error .valueError)
    ∧ (∃ tk l, timeWindowF (Flt.lit 0) (Flt.lit (29 / 4)) (Flt.lit (1 / 4)) = .ok tk ∧ tk.length = 30
      ∧ obsIndicesF tk (Flt.lit 3) = .ok (21, l) ∧ ∃ h : 10 < l.length, l[10] = 14 ∧ (10 + 1) * 30 / (21 + 1) = 15)
    ∧ ∃ tk l, timeWindowF (Flt.lit 0) (Flt.lit (29 / 100)) (Flt.lit (1 / 100)) = .ok tk ∧ tk.length = 30
      ∧ obsIndicesF tk (Flt.lit 100) = .ok (28, l) ∧ ⌊(29 / 100 : ℚ) * 100⌋ = 29 := by
  have hz : Flt.lit 0 = zero false := by simp [lit]
  have h1 : IsVal (Flt.lit 1) 1 := by simpa using lit_nat' 1 1 (by norm_num) (by norm_num)
  refine ⟨?_, ?_, ?_⟩
  · have h10 : IsVal (Flt.lit 10) 10 := by simpa using lit_nat' 10 10 (by norm_num) (by norm_num)
    obtain ⟨tk, htk, hl, -⟩ := C140_points_partial 0 1 (1 / 10) 10 (by norm_num) (by norm_num) (by norm_num) (by norm_num) (by norm_num)
    obtain ⟨tk', htk', hl', -⟩ := C140_points_partial 1 2 (1 / 10) 10 (by norm_num) (by norm_num) (by norm_num) (by norm_num) (by norm_num)
    refine ⟨tk, tk', htk, htk', ?_, ?_⟩
    · obtain ⟨t0, t1, κ, e0, e1, hκ, -, -, acc⟩ := obs_core 0 1 (1 / 10) 10 (by norm_num) (by norm_num) (by norm_num) (by norm_num) (by norm_num) (by norm_num)
        htk _ 10 h10 (by norm_num)
      obtain ⟨f0, f1⟩ := timeWindowF_first htk (by omega)
      obtain rfl := Except.ok.inj (e0.symm.trans f0)
      obtain rfl := Except.ok.inj (e1.symm.trans f1)
      have hd : ((Flt.lit 0).add (Flt.lit (1 / 10))).sub (Flt.lit 0) = Flt.lit (1 / 10) := by
        rw [hz, isVal_pos tenth_val (by norm_num)]; rfl
      rw [hd] at hκ
      have hk := div_eval (e := 3) (k := 5629499534213120) h1 tenth_val (by norm_num) (by norm_num) (by norm_num) (by norm_num) (by norm_num) (by norm_num) (by norm_num)
        (by norm_num) (by norm_num [abs_lt])
      obtain rfl := isVal_unique hκ hk
      obtain ⟨z, -, h5, ⟨h6, h7⟩ | ⟨-, l, h7, -⟩⟩ := acc (by
        have : (10 : ℤ) ≤ ⌊((5629499534213120 : ℕ) : ℝ) * 2 ^ (3 - 52 : ℤ)⌋ := Int.le_floor.2 (by norm_num)
        exact_mod_cast this)
      · exfalso
        have h8 : (10 : ℝ) ≤ ((tk.length - 1 : ℕ) : ℝ) := by
          have : 10 ≤ tk.length - 1 := by omega
          exact_mod_cast this
        have h9 := (abs_le.1 h5).1
        push_cast at h9
        have h10 : (1 : ℤ) ≤ ⌊z⌋ := Int.le_floor.2 (by push_cast; linarith)
        omega
      · exact ⟨_, h7⟩
    · obtain ⟨t0, t1, κ, e0, e1, hκ, -, rej, -⟩ := obs_core 1 2 (1 / 10) 10 (by norm_num) (by norm_num) (by norm_num) (by norm_num) (by norm_num) (by norm_num)
        htk' _ 10 h10 (by norm_num)
      obtain ⟨f0, f1⟩ := timeWindowF_first htk' (by omega)
      obtain rfl := Except.ok.inj (e0.symm.trans f0)
      obtain rfl := Except.ok.inj (e1.symm.trans f1)
      have ha := add_eval (e := 0) (k := 4953959590107546) h1 tenth_val (by norm_num) (by norm_num) (by norm_num) (by norm_num) (by norm_num) (by norm_num) (by norm_num)
        (by norm_num) (by norm_num [abs_lt])
      have hg := sub_bits ha h1 ⟨450359962737050, -52, by norm_num, by norm_num, by norm_num, by norm_num⟩
      have hk := div_eval (e := 3) (k := 5629499534213115) h1 hg (by norm_num) (by norm_num) (by norm_num) (by norm_num) (by norm_num) (by norm_num) (by norm_num)
        (by norm_num) (by norm_num [abs_lt])
      obtain rfl := isVal_unique hκ hk
      refine rej ?_
      have : ⌊((5629499534213115 : ℕ) : ℝ) * 2 ^ (3 - 52 : ℤ)⌋ < (10 : ℤ) := Int.floor_lt.2 (by norm_num)
      exact_mod_cast this
  · have h3 : IsVal (Flt.lit 3) 3 := by simpa using lit_nat' 3 3 (by norm_num) (by norm_num)
    have v : ∀ (q : ℚ) (z : ℤ), |z| ≤ 2 ^ 53 → (q : ℝ) = z * 2 ^ (-2 : ℤ) → IsVal (Flt.lit q) (z * 2 ^ (-2 : ℤ)) := fun q z hz e => by
      rw [← e]; exact lit_bits (by rw [e]; exact ⟨z, -2, hz, by norm_num, by norm_num, rfl⟩)
    obtain ⟨tk, htk, hl, -⟩ := C140_dyadic_partial 0 29 1 (-2) 29 (by norm_num) (by norm_num) (by norm_num) (by norm_num) (by norm_num)
      (v 0 0 (by norm_num) (by norm_num)) (v (29 / 4) 29 (by norm_num) (by norm_num)) (v (1 / 4) 1 (by norm_num) (by norm_num))
    obtain ⟨t0, t1, κ, -, -, -, hκ, -, acc⟩ := obs_core 0 (29 / 4) (1 / 4) 29 (by norm_num) (by norm_num) (by norm_num) (by norm_num [abs_of_pos]) (by norm_num) (by norm_num)
      htk _ 3 h3 (by norm_num)
    obtain ⟨z, -, h5, h6⟩ := acc (by
      have h7 := (abs_le.1 hκ).1
      push_cast at h7
      have : (3 : ℤ) ≤ ⌊κ⌋ := Int.le_floor.2 (by push_cast; linarith)
      exact_mod_cast this)
    rw [hl] at h5
    have hfl : ⌊z⌋ = 21 := by
      have h7 := abs_le.1 h5
      push_cast at h7
      rw [Int.floor_eq_iff]
      norm_num at h7 ⊢
      constructor <;> linarith [h7.1, h7.2]
    rw [hfl] at h6
    rcases h6 with ⟨h6, -⟩ | ⟨-, l, h7, h8, -⟩
    · omega
    · rw [hl] at h8
      obtain ⟨h9, h10⟩ := linspaceF_30 h8
      exact ⟨tk, l, htk, hl, h7, h9, h10, by norm_num⟩
  · have h100 : IsVal (Flt.lit 100) 100 := by simpa using lit_nat' 100 100 (by norm_num) (by norm_num)
    have h29 := lit_eval (q := 29 / 100) (e := -2) (k := 5224175567749775) (by norm_num) (by norm_num) (by norm_num) (by norm_num) (by norm_num) (by norm_num)
      (by norm_num [abs_lt])
    have ha := add_eval (e := -2) (k := 5404319552844595) h29 dt_val (by norm_num) (by norm_num) (by norm_num) (by norm_num) (by norm_num) (by norm_num) (by norm_num)
      (by norm_num) (by norm_num [abs_lt])
    have hs : ((Flt.lit (29 / 100)).add (Flt.lit (1 / 100))).sub (Flt.lit 0) = (Flt.lit (29 / 100)).add (Flt.lit (1 / 100)) := by
      rw [hz, isVal_pos ha (by norm_num)]; rfl
    have hv := div_eval (e := 4) (k := 8444249301319680) ha dt_val (by norm_num) (by norm_num) (by norm_num) (by norm_num) (by norm_num) (by norm_num) (by norm_num)
      (by norm_num) (by norm_num [abs_lt])
    rw [← hs] at hv
    have hw := timeWindowF_eq dt_val (by norm_num) hv (by norm_num) (by norm_num [abs_le])
    have hc : ⌈((8444249301319680 : ℕ) : ℝ) * 2 ^ (4 - 52 : ℤ)⌉.toNat = 30 := by
      have : ⌈((8444249301319680 : ℕ) : ℝ) * 2 ^ (4 - 52 : ℤ)⌉ = 30 := by
        rw [Int.ceil_eq_iff]
        norm_num
      rw [this]; rfl
    rw [hc] at hw
    have hd : ((Flt.lit 0).add (Flt.lit (1 / 100))).sub (Flt.lit 0) = Flt.lit (1 / 100) := by
      rw [hz, isVal_pos dt_val (by norm_num)]; rfl
    obtain ⟨t0, t1, κ, e0, e1, hκ, -, -, acc⟩ := obs_core 0 (29 / 100) (1 / 100) 29 (by norm_num) (by norm_num) (by norm_num) (by norm_num [abs_of_pos]) (by norm_num)
      (by norm_num) hw _ 100 h100 (by norm_num)
    obtain ⟨f0, f1⟩ := timeWindowF_first hw (by simp)
    obtain rfl := Except.ok.inj (e0.symm.trans f0)
    obtain rfl := Except.ok.inj (e1.symm.trans f1)
    rw [hd] at hκ
    have hk := div_eval (e := 6) (k := 7036874417766400) h1 dt_val (by norm_num) (by norm_num) (by norm_num) (by norm_num) (by norm_num) (by norm_num) (by norm_num)
      (by norm_num) (by norm_num [abs_lt])
    obtain rfl := isVal_unique hκ hk
    obtain ⟨z, hz1, -, h6⟩ := acc (by
      have : (100 : ℤ) ≤ ⌊((7036874417766400 : ℕ) : ℝ) * 2 ^ (6 - 52 : ℤ)⌋ := Int.le_floor.2 (by norm_num)
      exact_mod_cast this)
    have hi29 : IsVal (Flt.lit ((29 : ℕ) : ℚ)) 29 := by simpa using lit_nat (k := 29) (by norm_num)
    have hm := mul_eval (e := -2) (k := 5224175567749775) hi29 dt_val (by norm_num) (by norm_num) (by norm_num) (by norm_num) (by norm_num) (by norm_num) (by norm_num)
      (by norm_num) (by norm_num [abs_lt])
    have hlast : (List.map (fun i : ℕ => if i = 0 then Flt.lit 0 else if i = 1 then (Flt.lit 0).add (Flt.lit (1 / 100))
        else (Flt.lit 0).add ((Flt.lit (i : ℚ)).mul (((Flt.lit 0).add (Flt.lit (1 / 100))).sub (Flt.lit 0)))) (List.range 30)).getLastD Flt.nan
        = (Flt.lit 0).add ((Flt.lit ((29 : ℕ) : ℚ)).mul (((Flt.lit 0).add (Flt.lit (1 / 100))).sub (Flt.lit 0))) := by
      rw [show List.range 30 = List.range 29 ++ [29] from List.range_succ, List.map_append, List.getLastD_eq_getLast?]
      simp
    rw [hlast, hd, hz, isVal_pos hm (by norm_num)] at hz1
    have hab : IsVal ((zero false).sub ((zero false).add (num _ (show ((5224175567749775 : ℕ) : ℝ) * 2 ^ (-2 - 52 : ℤ) ≠ 0 by norm_num)))).abs
        (((5224175567749775 : ℕ) : ℝ) * 2 ^ (-2 - 52 : ℤ)) := by
      have := isVal_abs (isVal_num (-(((5224175567749775 : ℕ) : ℝ) * 2 ^ (-2 - 52 : ℤ))) (by norm_num))
      rw [abs_neg, abs_of_pos (by norm_num)] at this
      exact this
    have hzz := mul_eval (e := 4) (k := 8162774324609023) hab h100 (by norm_num) (by norm_num) (by norm_num) (by norm_num) (by norm_num) (by norm_num) (by norm_num)
      (by norm_num) (by norm_num [abs_lt])
    obtain rfl := isVal_unique hz1 hzz
    have hfl : ⌊((8162774324609023 : ℕ) : ℝ) * 2 ^ (4 - 52 : ℤ)⌋ = 28 := by
      rw [Int.floor_eq_iff]
      norm_num
    rw [hfl] at h6
    rcases h6 with ⟨h6, -⟩ | ⟨-, l, h7, -⟩
    · omega
    · exact ⟨_, l, hw, by simp, h7, by norm_num⟩

/-- The hypotheses of `C141_partial` are met by the window of `sim_params_DW.json` with its density. -/
example : ∃ tk, timeWindowF (Flt.lit 0) (Flt.lit 10) (Flt.lit (1 / 100)) = .ok tk ∧ ∃ M l, obsIndicesF tk (Flt.lit 2) = .ok (M, l) ∧ l.length = M ∧ 18 ≤ M := by
  have h2 : IsVal (Flt.lit 2) 2 := by simpa using lit_nat' 2 2 (by norm_num) (by norm_num)
  obtain ⟨tk, htk, hl, -⟩ := C140_points_partial 0 10 (1 / 100) 1000 (by norm_num) (by norm_num) (by norm_num) (by norm_num) (by norm_num)
  obtain ⟨hA, -, hC⟩ := C141_partial 0 10 (1 / 100) 1000 (by norm_num) (by norm_num) (by norm_num) (by norm_num) (by norm_num) (by norm_num) htk _ 2 h2 (by norm_num)
  have h8 : (1000 : ℝ) ≤ ((tk.length - 1 : ℕ) : ℝ) := by
    have : 1000 ≤ tk.length - 1 := by omega
    exact_mod_cast this
  refine ⟨tk, htk, ?_⟩
  rcases hA (by norm_num) with ⟨⟨M, l⟩, h⟩ | ⟨-, h⟩
  · obtain ⟨-, h3, h4, -⟩ := hC M l h
    refine ⟨M, l, h, h4, ?_⟩
    have h5 := (abs_le.1 h3).1
    push_cast at h5
    have : (18 : ℝ) ≤ M := by linarith
    exact_mod_cast this
  · exfalso
    push_cast at h
    linarith

end VGPA
