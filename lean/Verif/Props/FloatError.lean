import Verif.Lemmas.Logical
import Verif.Lemmas.IeeeErr
import Verif.Props.SameProgram
import Mathlib.Analysis.Real.Pi.Bounds

/-!
# C146: rounding errors of the free energy
-/

namespace VGPA

open Flt

/-! ## Specification -/

/-- The smallest normal double. -/
noncomputable def Spec.minNormal : ℝ := 2 ^ (-1022 : ℤ)

/-- A real number, with the size of what was added up to get it. -/
structure Spec.Sized where
  x : ℝ
  size : ℝ

namespace Spec.Sized

/-! A size is what the same operations give if all numbers are replaced by their absolute values and differences by sums, except that every operation adds the smallest
normal double (so that underflow is covered). -/

noncomputable section

instance : Zero Sized := ⟨⟨0, 0⟩⟩
instance : Neg Sized := ⟨fun a => ⟨-a.x, a.size⟩⟩
instance : Add Sized := ⟨fun a b => ⟨a.x + b.x, a.size + b.size + minNormal⟩⟩
instance : Sub Sized := ⟨fun a b => ⟨a.x - b.x, a.size + b.size + minNormal⟩⟩
instance : Mul Sized := ⟨fun a b => ⟨a.x * b.x, a.size * b.size + minNormal⟩⟩
instance : Div Sized := ⟨fun a b => ⟨a.x / b.x, a.size / |b.x| + minNormal⟩⟩

/-- Powers and sums of sizes. A logarithm has its absolute value as size, plus one. -/
def lib : Libm Sized where
  lit q := ⟨q, |(q : ℝ)| + minNormal⟩
  pi := ⟨Real.pi, Real.pi⟩
  pow a k := ⟨a.x ^ k, a.size ^ k + minNormal⟩
  log a := ⟨Real.log a.x, |Real.log a.x| + 1⟩
  sum l := ⟨(l.map Sized.x).sum, (l.map fun a => a.size + minNormal).sum⟩

/-- An input. -/
def of (r : ℝ) : Sized := ⟨r, |r|⟩

end

end Spec.Sized

/-- The numbers of an object, one by one. -/
def VgpF.map {α β : Type} (f : α → β) (o : VgpF α) : VgpF β where
  proc := o.proc
  theta := f o.theta
  sigma := f o.sigma
  time_step := f o.time_step
  method := o.method
  dt := f o.dt
  obs_v := o.obs_v.map f
  obs_t := o.obs_t
  obs_n := f o.obs_n
  mu0 := f o.mu0
  tau0 := f o.tau0
  m0 := f o.m0
  s0 := f o.s0
  dim_n := o.dim_n

/-- The object with doubles holds finite numbers; these are the values. -/
structure Spec.Reads (o : VgpF Flt) (r : VgpF ℝ) : Prop where
  proc : o.proc = r.proc
  theta : IsVal o.theta r.theta
  sigma : IsVal o.sigma r.sigma
  time_step : IsVal o.time_step r.time_step
  method : o.method = r.method
  dt : IsVal o.dt r.dt
  obs_v : List.Forall₂ IsVal o.obs_v r.obs_v
  obs_t : o.obs_t = r.obs_t
  obs_n : IsVal o.obs_n r.obs_n
  mu0 : IsVal o.mu0 r.mu0
  tau0 : IsVal o.tau0 r.tau0
  m0 : IsVal o.m0 r.m0
  s0 : IsVal o.s0 r.s0
  dim_n : o.dim_n = r.dim_n

/-- Powers and logarithms with an error of at most one unit in the last place. -/
structure Spec.Accurate (L : Libm Flt) : Prop where
  pow : ∀ a v k, 0 < k → IsVal a v → Spec.Finite (L.pow a k) → ∃ r, IsVal (L.pow a k) r ∧ |r - v ^ k| ≤ (|v ^ k| + Spec.minNormal) / 2 ^ 52
  log : ∀ a v, 0 < v → IsVal a v → Spec.Finite (L.log a) → ∃ r, IsVal (L.log a) r ∧ |r - Real.log v| ≤ (|Real.log v| + Spec.minNormal) / 2 ^ 52

/-! ## Single operations -/

open Spec

theorem eta_pos : 0 < minNormal := two_zpow_pos _

theorem tiny_eq : tiny = uro * minNormal := by
  unfold tiny uro minNormal
  rw [← zpow_add₀ (by norm_num)]
  norm_num

theorem isVal_finite {a : Flt} {r : ℝ} (h : IsVal a r) : Spec.Finite a := by
  rcases isVal_cases h with ⟨s, rfl, rfl⟩ | ⟨hr, rfl⟩ <;> exact ⟨by simp, by simp⟩

theorem round_fin {r : ℝ} (hr : r ≠ 0) (h : Spec.Finite (Flt.round r)) : ∃ q, IsVal (Flt.round r) q ∧ |q - r| ≤ uro * (|r| + minNormal) := by
  have h1 := roundAbs_err (abs_pos.2 hr)
  rw [tiny_eq, ← mul_add] at h1
  unfold Flt.round at h ⊢
  by_cases hlt : (2 : ℝ) ^ 1024 ≤ roundAbs |r|
  · rw [if_pos hlt] at h
    exact absurd rfl (h.2 _)
  rw [if_neg hlt]
  refine ⟨_, isVal_ofReal _ _, ?_⟩
  by_cases hn : r < 0
  · rw [if_pos hn]
    rw [abs_of_neg hn] at h1 ⊢
    rw [show -roundAbs (-r) - r = -(roundAbs (-r) - -r) by ring, abs_neg]
    exact h1
  · rw [if_neg hn]
    rw [abs_of_pos (lt_of_le_of_ne (not_lt.1 hn) hr.symm)] at h1 ⊢
    exact h1

theorem err_nonneg' (r : ℝ) : 0 ≤ uro * (|r| + minNormal) := mul_nonneg uro_pos.le (add_nonneg (abs_nonneg _) eta_pos.le)

theorem add_fin {a b : Flt} {x y : ℝ} (ha : IsVal a x) (hb : IsVal b y) (h : Spec.Finite (a.add b)) :
    ∃ q, IsVal (a.add b) q ∧ |q - (x + y)| ≤ uro * (|x + y| + minNormal) := by
  rcases isVal_cases ha with ⟨s, rfl, rfl⟩ | ⟨hx, rfl⟩
  · refine ⟨0 + y, ?_, by rw [sub_self, abs_zero]; exact err_nonneg' _⟩
    rcases isVal_cases hb with ⟨t, rfl, rfl⟩ | ⟨hy, rfl⟩
    · simpa [Flt.add] using isVal_zero (s && t)
    · simpa [Flt.add] using isVal_num y hy
  · rcases isVal_cases hb with ⟨t, rfl, rfl⟩ | ⟨hy, rfl⟩
    · exact ⟨x + 0, by simpa [Flt.add] using isVal_num x hx, by rw [sub_self, abs_zero]; exact err_nonneg' _⟩
    · by_cases h0 : x + y = 0
      · exact ⟨0, by simpa [Flt.add, h0] using isVal_zero false, by rw [h0]; simpa using err_nonneg' 0⟩
      · simp only [Flt.add, h0, if_false] at h ⊢
        exact round_fin h0 h

theorem mul_fin {a b : Flt} {x y : ℝ} (ha : IsVal a x) (hb : IsVal b y) (h : Spec.Finite (a.mul b)) :
    ∃ q, IsVal (a.mul b) q ∧ |q - x * y| ≤ uro * (|x * y| + minNormal) := by
  rcases isVal_cases ha with ⟨s, rfl, rfl⟩ | ⟨hx, rfl⟩
  · refine ⟨0, ?_, by rw [zero_mul, sub_self, abs_zero]; simpa using err_nonneg' 0⟩
    rcases isVal_cases hb with ⟨t, rfl, rfl⟩ | ⟨hy, rfl⟩ <;> exact isVal_zero _
  · rcases isVal_cases hb with ⟨t, rfl, rfl⟩ | ⟨hy, rfl⟩
    · exact ⟨0, isVal_zero _, by rw [mul_zero, sub_self, abs_zero]; simpa using err_nonneg' 0⟩
    · simp only [Flt.mul] at h ⊢
      exact round_fin (mul_ne_zero hx hy) h

theorem div_fin {a b : Flt} {x y : ℝ} (ha : IsVal a x) (hb : IsVal b y) (hy0 : y ≠ 0) (h : Spec.Finite (a.div b)) :
    ∃ q, IsVal (a.div b) q ∧ |q - x / y| ≤ uro * (|x / y| + minNormal) := by
  rcases isVal_cases hb with ⟨t, rfl, rfl⟩ | ⟨hy, rfl⟩
  · exact absurd rfl hy0
  · rcases isVal_cases ha with ⟨s, rfl, rfl⟩ | ⟨hx, rfl⟩
    · exact ⟨0, isVal_zero _, by rw [zero_div, sub_self, abs_zero]; simpa using err_nonneg' 0⟩
    · simp only [Flt.div] at h ⊢
      exact round_fin (div_ne_zero hx hy) h

/-! ## The relation -/

/-- `v` is not finite, or differs from the exact number by at most `(1 + u)^k - 1` times the size. -/
def NearF (k : ℕ) (v : Flt) (p : Sized) : Prop :=
  |p.x| ≤ p.size ∧ (Spec.Finite v → ∃ w, IsVal v w ∧ |w - p.x| ≤ ((1 + uro) ^ k - 1) * p.size)

/-- `v` is a positive number. -/
def ExactF (v : Flt) (p : Sized) : Prop := 0 < p.x ∧ IsVal v p.x ∧ |p.x| ≤ p.size

theorem gam_nonneg (k : ℕ) : 0 ≤ (1 + uro) ^ k - 1 := by
  have := one_le_pow₀ (show 1 ≤ 1 + uro by have := uro_pos; linarith) (n := k)
  linarith

theorem gam_mono {j k : ℕ} (h : j ≤ k) : (1 + uro) ^ j - 1 ≤ (1 + uro) ^ k - 1 := by
  have := pow_le_pow_right₀ (show 1 ≤ 1 + uro by have := uro_pos; linarith) h
  linarith

theorem NearF.size_nonneg {k : ℕ} {v : Flt} {p : Sized} (h : NearF k v p) : 0 ≤ p.size := (abs_nonneg _).trans h.1

theorem NearF.mono {j k : ℕ} (hjk : j ≤ k) {v : Flt} {p : Sized} (h : NearF j v p) : NearF k v p := by
  refine ⟨h.1, fun hf => ?_⟩
  obtain ⟨w, h1, h2⟩ := h.2 hf
  exact ⟨w, h1, h2.trans (mul_le_mul_of_nonneg_right (gam_mono hjk) h.size_nonneg)⟩

theorem NearF.size {k : ℕ} {v : Flt} {x a b : ℝ} (h : NearF k v ⟨x, a⟩) (hab : a ≤ b) : NearF k v ⟨x, b⟩ := by
  refine ⟨h.1.trans hab, fun hf => ?_⟩
  obtain ⟨w, h1, h2⟩ := h.2 hf
  exact ⟨w, h1, h2.trans (mul_le_mul_of_nonneg_left hab (gam_nonneg k))⟩

theorem near_of_isVal {v : Flt} {p : Sized} (h : IsVal v p.x) (hp : |p.x| ≤ p.size) : NearF 0 v p :=
  ⟨hp, fun _ => ⟨p.x, h, by simp⟩⟩

/-- An operation: rounding comes on top of the errors of the operands. -/
theorem gam_round {k c : ℕ} {w x a q : ℝ} (h1 : |w - x| ≤ ((1 + uro) ^ k - 1) * a) (hx : |x| ≤ a) (hc : |q - w| ≤ ((1 + uro) ^ c - 1) * (|w| + minNormal)) :
    |q - x| ≤ ((1 + uro) ^ (k + c) - 1) * (a + minNormal) := by
  have e := eta_pos
  have ha : 0 ≤ a := (abs_nonneg _).trans hx
  have hw : |w| ≤ (1 + uro) ^ k * a := by
    have : |w| ≤ |w - x| + |x| := by
      calc |w| = |(w - x) + x| := by ring_nf
        _ ≤ _ := abs_add_le _ _
    linarith
  have h2 : |q - x| ≤ |q - w| + |w - x| := by
    calc |q - x| = |(q - w) + (w - x)| := by ring_nf
      _ ≤ _ := abs_add_le _ _
  have g := gam_nonneg c
  have g' := gam_nonneg k
  have h3 : |q - w| ≤ ((1 + uro) ^ c - 1) * ((1 + uro) ^ k * a + minNormal) :=
    hc.trans (mul_le_mul_of_nonneg_left (by linarith) g)
  have h4 : ((1 + uro) ^ (k + c) - 1) * (a + minNormal) =
      ((1 + uro) ^ c - 1) * ((1 + uro) ^ k * a + minNormal) + ((1 + uro) ^ k - 1) * a + (1 + uro) ^ c * ((1 + uro) ^ k - 1) * minNormal := by
    rw [pow_add]; ring
  have h5 : 0 ≤ (1 + uro) ^ c * ((1 + uro) ^ k - 1) * minNormal := by
    have := uro_pos
    positivity
  linarith

theorem NearF.neg {k : ℕ} {a : Flt} {p : Sized} (h : NearF k a p) : NearF k (-a) (-p) := by
  refine ⟨by change |-p.x| ≤ p.size; rw [abs_neg]; exact h.1, fun hf => ?_⟩
  obtain ⟨w, h1, h2⟩ := h.2 (finite_neg hf)
  exact ⟨-w, isVal_neg h1, by
    change |-w - -p.x| ≤ _ * p.size
    rw [show -w - -p.x = -(w - p.x) by ring, abs_neg]; exact h2⟩

theorem NearF.add {j k : ℕ} {a b : Flt} {p q : Sized} (h : NearF j a p) (h' : NearF k b q) : NearF (max j k + 1) (a + b) (p + q) := by
  refine ⟨?_, fun hf => ?_⟩
  · change |p.x + q.x| ≤ p.size + q.size + minNormal
    have := abs_add_le p.x q.x
    have := eta_pos
    linarith [h.1, h'.1]
  · obtain ⟨f1, f2⟩ := finite_add hf
    obtain ⟨v, h1, h2⟩ := (h.mono (le_max_left j k)).2 f1
    obtain ⟨w, h3, h4⟩ := (h'.mono (le_max_right j k)).2 f2
    obtain ⟨r, h5, h6⟩ := add_fin h1 h3 hf
    refine ⟨r, h5, ?_⟩
    change |r - (p.x + q.x)| ≤ _ * (p.size + q.size + minNormal)
    refine gam_round (c := 1) (w := v + w) ?_ ((abs_add_le _ _).trans (add_le_add h.1 h'.1)) (by simpa using h6)
    calc |v + w - (p.x + q.x)| = |(v - p.x) + (w - q.x)| := by ring_nf
      _ ≤ |v - p.x| + |w - q.x| := abs_add_le _ _
      _ ≤ _ := by linarith

theorem NearF.sub {j k : ℕ} {a b : Flt} {p q : Sized} (h : NearF j a p) (h' : NearF k b q) : NearF (max j k + 1) (a - b) (p - q) := by
  have := h.add h'.neg
  have e : p + -q = p - q := by
    change Sized.mk (p.x + -q.x) _ = Sized.mk (p.x - q.x) _
    rw [← sub_eq_add_neg]; rfl
  rw [e] at this
  exact this

theorem gam_mul {j k : ℕ} {v x a w y b : ℝ} (h1 : |v - x| ≤ ((1 + uro) ^ j - 1) * a) (hx : |x| ≤ a) (h2 : |w - y| ≤ ((1 + uro) ^ k - 1) * b) (hy : |y| ≤ b) :
    |v * w - x * y| ≤ ((1 + uro) ^ (j + k) - 1) * (a * b) := by
  have ha : 0 ≤ a := (abs_nonneg _).trans hx
  have hb : 0 ≤ b := (abs_nonneg _).trans hy
  have hw : |w| ≤ (1 + uro) ^ k * b := by
    have : |w| ≤ |w - y| + |y| := by
      calc |w| = |(w - y) + y| := by ring_nf
        _ ≤ _ := abs_add_le _ _
    linarith
  calc |v * w - x * y| = |(v - x) * w + x * (w - y)| := by ring_nf
    _ ≤ |(v - x) * w| + |x * (w - y)| := abs_add_le _ _
    _ = |v - x| * |w| + |x| * |w - y| := by rw [abs_mul, abs_mul]
    _ ≤ (((1 + uro) ^ j - 1) * a) * ((1 + uro) ^ k * b) + a * (((1 + uro) ^ k - 1) * b) := by
      have := gam_nonneg j
      have := gam_nonneg k
      gcongr
    _ = _ := by rw [pow_add]; ring

theorem NearF.mul {j k : ℕ} {a b : Flt} {p q : Sized} (h : NearF j a p) (h' : NearF k b q) : NearF (j + k + 1) (a * b) (p * q) := by
  have hpq : |p.x * q.x| ≤ p.size * q.size := by
    rw [abs_mul]
    exact mul_le_mul h.1 h'.1 (abs_nonneg _) h.size_nonneg
  refine ⟨?_, fun hf => ?_⟩
  · change |p.x * q.x| ≤ p.size * q.size + minNormal
    have := eta_pos
    linarith
  · obtain ⟨f1, f2⟩ := finite_mul hf
    obtain ⟨v, h1, h2⟩ := h.2 f1
    obtain ⟨w, h3, h4⟩ := h'.2 f2
    obtain ⟨r, h5, h6⟩ := mul_fin h1 h3 hf
    refine ⟨r, h5, ?_⟩
    change |r - p.x * q.x| ≤ _ * (p.size * q.size + minNormal)
    exact gam_round (c := 1) (w := v * w) (gam_mul h2 h.1 h4 h'.1) hpq (by simpa using h6)

theorem NearF.div {k : ℕ} {a b : Flt} {p q : Sized} (h : NearF k a p) (h' : ExactF b q) : NearF (k + 1) (a / b) (p / q) := by
  have hq := h'.1
  have hpq : |p.x / q.x| ≤ p.size / |q.x| := by
    rw [abs_div]
    exact div_le_div_of_nonneg_right h.1 (abs_nonneg _)
  refine ⟨?_, fun hf => ?_⟩
  · change |p.x / q.x| ≤ p.size / |q.x| + minNormal
    have := eta_pos
    linarith
  · obtain ⟨v, h1, h2⟩ := h.2 (finite_div hf)
    obtain ⟨r, h5, h6⟩ := div_fin h1 h'.2.1 hq.ne' hf
    refine ⟨r, h5, ?_⟩
    change |r - p.x / q.x| ≤ _ * (p.size / |q.x| + minNormal)
    refine gam_round (c := 1) (w := v / q.x) ?_ hpq (by simpa using h6)
    rw [← sub_div, abs_div, ← mul_div_assoc]
    exact div_le_div_of_nonneg_right h2 (abs_nonneg _)

theorem ulp_le : (1 : ℝ) / 2 ^ 52 ≤ (1 + uro) ^ 2 - 1 := by
  rw [uro_eq]; norm_num

theorem NearF.pow {L : Libm Flt} (hL : Spec.Library L) (hA : Spec.Accurate L) {k n : ℕ} (hn : 0 < n) {a : Flt} {p : Sized} (h : NearF k a p) :
    NearF (n * k + 2) (L.pow a n) (Sized.lib.pow p n) := by
  have hp : |p.x ^ n| ≤ p.size ^ n := by
    rw [abs_pow]
    exact pow_le_pow_left₀ (abs_nonneg _) h.1 n
  refine ⟨?_, fun hf => ?_⟩
  · change |p.x ^ n| ≤ p.size ^ n + minNormal
    have := eta_pos
    linarith
  · obtain ⟨v, h1, h2⟩ := h.2 ((tracks_finite hL).pow hn hf)
    obtain ⟨r, h5, h6⟩ := hA.pow a v n hn h1 hf
    refine ⟨r, h5, ?_⟩
    change |r - p.x ^ n| ≤ _ * (p.size ^ n + minNormal)
    refine gam_round (c := 2) (w := v ^ n) ?_ hp (h6.trans ?_)
    · clear h5 h6 hp hf hn
      induction n with
      | zero => simp
      | succ n ih =>
        rw [pow_succ, pow_succ, pow_succ, Nat.succ_mul]
        refine gam_mul ih ?_ h2 h.1
        rw [abs_pow]
        exact pow_le_pow_left₀ (abs_nonneg _) h.1 n
    · rw [div_eq_mul_one_div, mul_comm]
      exact mul_le_mul_of_nonneg_right ulp_le (add_nonneg (abs_nonneg _) eta_pos.le)

theorem eta_le_one : minNormal ≤ 1 := by
  unfold minNormal
  exact zpow_le_one_of_nonpos₀ (by norm_num) (by norm_num)

theorem near_log {L : Libm Flt} (hA : Spec.Accurate L) {a : Flt} {p : Sized} (h : ExactF a p) : NearF 2 (L.log a) (Sized.lib.log p) := by
  refine ⟨?_, fun hf => ?_⟩
  · change |Real.log p.x| ≤ |Real.log p.x| + 1
    linarith
  · obtain ⟨r, h1, h2⟩ := hA.log a p.x h.1 h.2.1 hf
    refine ⟨r, h1, h2.trans ?_⟩
    change _ ≤ _ * (|Real.log p.x| + 1)
    rw [div_eq_mul_one_div, mul_comm]
    exact mul_le_mul ulp_le (by linarith [eta_le_one]) (add_nonneg (abs_nonneg _) eta_pos.le) (gam_nonneg 2)

theorem near_lit {L : Libm Flt} (hL : Spec.Library L) (q : ℚ) : NearF 1 (L.lit q) (Sized.lib.lit q) := by
  refine ⟨?_, fun hf => ?_⟩
  · change |(q : ℝ)| ≤ |(q : ℝ)| + minNormal
    linarith [eta_pos]
  · rw [hL.lit] at hf ⊢
    change ∃ w, IsVal (Flt.lit q) w ∧ |w - (q : ℝ)| ≤ _ * (|(q : ℝ)| + minNormal)
    unfold Flt.lit at hf ⊢
    by_cases h0 : q = 0
    · subst h0
      rw [if_pos rfl]
      exact ⟨0, isVal_zero _, by simpa using mul_nonneg uro_pos.le eta_pos.le⟩
    · rw [if_neg h0] at hf ⊢
      obtain ⟨w, h1, h2⟩ := round_fin (by exact_mod_cast h0) hf
      exact ⟨w, h1, by simpa using h2⟩

theorem exact_lit {L : Libm Flt} (hL : Spec.Library L) {q : ℚ} {k : ℕ} (hq : q = k) (hk : 0 < k) (hk' : k ≤ 2 ^ 53) : ExactF (L.lit q) (Sized.lib.lit q) := by
  subst hq
  rw [hL.lit]
  refine ⟨?_, ?_, ?_⟩
  · change (0 : ℝ) < ((k : ℚ) : ℝ)
    exact_mod_cast hk
  · change IsVal _ (((k : ℚ)) : ℝ)
    simpa using lit_nat hk'
  · change |(((k : ℚ)) : ℝ)| ≤ |(((k : ℚ)) : ℝ)| + minNormal
    linarith [eta_pos]

theorem sumTree_nil {l : List Flt} {t : Flt} (h : Spec.SumTree l t) (hl : l = []) : IsVal t 0 := by
  induction h with
  | nil => exact isVal_zero _
  | one v => cases hl
  | add _ _ h1 h2 =>
    obtain ⟨e1, e2⟩ := List.append_eq_nil_iff.1 hl
    obtain ⟨s, rfl, _⟩ | ⟨h, _⟩ := isVal_cases (h1 e1)
    · obtain ⟨s', rfl, _⟩ | ⟨h, _⟩ := isVal_cases (h2 e2)
      · exact isVal_zero _
      · exact absurd rfl h
    · exact absurd rfl h
  | perm _ hp h => exact h (by subst hl; exact List.perm_nil.1 hp)

theorem sumTree_near {k : ℕ} {l : List Flt} {t : Flt} (h : Spec.SumTree l t) : ∀ ps : List Sized, List.Forall₂ (NearF k) l ps → l ≠ [] →
    NearF (k + (l.length - 1)) t ⟨(ps.map Sized.x).sum, (ps.map fun a => a.size + minNormal).sum - minNormal⟩ := by
  induction h with
  | nil => intro ps _ h; exact absurd rfl h
  | one v =>
    intro ps h _
    cases h with
    | cons h1 h2 =>
      cases h2
      simpa using h1
  | @add l l' s t h1 h2 ih1 ih2 =>
    intro ps hps hne
    have e : ps = ps.take l.length ++ ps.drop l.length := (List.take_append_drop _ _).symm
    have p1 := take_rel hps l.length
    have p2 := drop_rel hps l.length
    rw [List.take_left] at p1
    rw [List.drop_left] at p2
    rw [e]
    generalize ps.take l.length = u at *
    generalize ps.drop l.length = w at *
    clear e hps
    by_cases e1 : l = []
    · subst e1
      cases p1
      have hz := sumTree_nil h1 rfl
      have hl' : l' ≠ [] := by simpa using hne
      have h3 := ih2 w p2 hl'
      refine ⟨by simpa using h3.1, fun hf => ?_⟩
      obtain ⟨v, h4, h5⟩ := h3.2 (finite_add hf).2
      refine ⟨v, ?_, by simpa using h5⟩
      obtain ⟨s', rfl, _⟩ | ⟨h, _⟩ := isVal_cases hz
      · obtain ⟨t', rfl, rfl⟩ | ⟨hv, rfl⟩ := isVal_cases h4
        · exact isVal_zero _
        · exact isVal_num _ _
      · exact absurd rfl h
    · by_cases e2 : l' = []
      · subst e2
        cases p2
        have hz := sumTree_nil h2 rfl
        have h3 := ih1 u p1 e1
        refine ⟨by simpa using h3.1, fun hf => ?_⟩
        obtain ⟨v, h4, h5⟩ := h3.2 (finite_add hf).1
        refine ⟨v, ?_, by simpa using h5⟩
        obtain ⟨s', rfl, _⟩ | ⟨h, _⟩ := isVal_cases hz
        · obtain ⟨t', rfl, rfl⟩ | ⟨hv, rfl⟩ := isVal_cases h4
          · exact isVal_zero _
          · exact isVal_num _ _
        · exact absurd rfl h
      · have a1 := List.length_pos_iff.2 e1
        have a2 := List.length_pos_iff.2 e2
        have h9 := ((ih1 u p1 e1).add (ih2 w p2 e2)).mono (show _ ≤ k + ((l ++ l').length - 1) by simp; omega)
        refine NearF.size (a := ((u.map fun a => a.size + minNormal).sum - minNormal) + ((w.map fun a => a.size + minNormal).sum - minNormal) + minNormal) ?_
          (by simp only [List.map_append, List.sum_append]; linarith)
        rw [List.map_append, List.sum_append]
        exact h9
  | @perm l l' s h1 hp ih =>
    intro ps hps hne
    obtain ⟨u, hu, hu'⟩ := List.perm_comp_forall₂ hp hps
    have := ih u hu (fun e => hne (by subst e; exact List.nil_perm.1 hp))
    rw [hp.length_eq, (hu'.map _).sum_eq, (hu'.map _).sum_eq] at this
    exact this

theorem near_sum {L : Libm Flt} (hL : Spec.Library L) {k : ℕ} {l : List Flt} {ps : List Sized} (h : List.Forall₂ (NearF k) l ps) :
    NearF (k + l.length) (L.sum l) (Sized.lib.sum ps) := by
  by_cases hl : l = []
  · subst hl
    cases h
    exact (near_of_isVal (p := ⟨0, 0⟩) (sumTree_nil (hL.sum []) rfl) (by simp)).mono (by omega)
  · exact ((sumTree_near (hL.sum l) ps h hl).size (by linarith [eta_pos])).mono (by omega)

theorem near_log2pi {L : Libm Flt} (hL : Spec.Library L) (hA : Spec.Accurate L) :
    NearF 6 (L.log (L.lit 2 * L.pi)) (Sized.lib.log (Sized.lib.lit 2 * Sized.lib.pi)) := by
  have hu : uro = 1 / 2 ^ 53 := uro_eq
  have hx : (Sized.lib.lit 2 * Sized.lib.pi).x = 2 * Real.pi := by
    change ((2 : ℚ) : ℝ) * Real.pi = _
    norm_num
  refine ⟨?_, fun hf => ?_⟩
  · change |Real.log _| ≤ |Real.log _| + 1
    linarith
  change ∃ w, IsVal _ w ∧ |w - Real.log (Sized.lib.lit 2 * Sized.lib.pi).x| ≤ _ * (|Real.log (Sized.lib.lit 2 * Sized.lib.pi).x| + 1)
  rw [hL.lit, hL.pi] at hf
  rw [hx, hL.lit, hL.pi]
  have p1 := Real.pi_gt_d20
  have p2 := Real.pi_lt_d20
  have big : (4 : ℝ) ^ 2 ≤ 2 ^ 1023 := by
    rw [show (4 : ℝ) = 2 ^ 2 by norm_num, ← pow_mul]
    exact pow_le_pow_right₀ (by norm_num) (by norm_num)
  have ht : tiny ≤ 1 / 2 ^ 100 := tiny_le (by norm_num)
  have ht0 := tiny_pos
  obtain ⟨p, h1, h2⟩ := lit_err (q := 884279719003555 / 281474976710656) (by refine le_trans ?_ big; norm_num)
  have h2' : IsVal (Flt.lit 2) 2 := by simpa using lit_nat (k := 2) (by norm_num)
  have e1 : |p - Real.pi| ≤ 8 * uro := by
    rw [hu] at h2 ⊢
    norm_num at h2 p1 p2 ht ⊢
    rw [abs_le] at h2 ⊢
    constructor <;> linarith [h2.1, h2.2]
  have e1' := abs_le.1 e1
  have hu1 : uro ≤ 1 / 1000 := by rw [hu]; norm_num
  have hu0 := uro_pos
  have hp4 : 3 ≤ p ∧ p ≤ 4 := by
    norm_num at p1 p2
    constructor <;> linarith [e1'.1, e1'.2]
  obtain ⟨v, h3, h4⟩ := mul_err h2' h1 (by refine le_trans ?_ big; rw [abs_of_nonneg (by linarith [hp4.1])]; linarith [hp4.2])
  have h4' : |v - 2 * p| ≤ 8 * uro + uro := by
    refine h4.trans ?_
    rw [abs_of_nonneg (by linarith [hp4.1])]
    have : tiny ≤ uro := by rw [hu]; exact ht.trans (by norm_num)
    nlinarith [hp4.2]
  have e2 : |v - 2 * Real.pi| ≤ 25 * uro := by
    rw [abs_le] at h4' ⊢
    constructor <;> linarith [h4'.1, h4'.2, e1'.1, e1'.2]
  have hc6 : 6 ≤ 2 * Real.pi := by norm_num at p1; linarith
  have hv5 : 5 ≤ v := by
    have := (abs_le.1 e2).1
    linarith
  have e3 : |Real.log v - Real.log (2 * Real.pi)| ≤ 5 * uro := by
    have a1 := Real.log_le_sub_one_of_pos (show 0 < v / (2 * Real.pi) by positivity)
    have a2 := Real.log_le_sub_one_of_pos (show 0 < 2 * Real.pi / v by positivity)
    rw [Real.log_div (by positivity) (by positivity)] at a1 a2
    have b1 : v / (2 * Real.pi) - 1 ≤ 5 * uro := by
      rw [div_sub_one (by positivity), div_le_iff₀ (by positivity)]
      have := (abs_le.1 e2).2
      nlinarith
    have b2 : 2 * Real.pi / v - 1 ≤ 5 * uro := by
      rw [div_sub_one (by positivity), div_le_iff₀ (by positivity)]
      have := (abs_le.1 e2).1
      nlinarith
    rw [abs_le]
    constructor <;> linarith
  obtain ⟨r, h5, h6⟩ := hA.log _ v (by linarith) h3 hf
  refine ⟨r, h5, ?_⟩
  set c := Real.log (2 * Real.pi) with hc
  have h7 : |Real.log v| ≤ |c| + 5 * uro := by
    calc |Real.log v| = |(Real.log v - c) + c| := by ring_nf
      _ ≤ |Real.log v - c| + |c| := abs_add_le _ _
      _ ≤ _ := by linarith
  have h8 : |r - c| ≤ |r - Real.log v| + |Real.log v - c| := by
    calc |r - c| = |(r - Real.log v) + (Real.log v - c)| := by ring_nf
      _ ≤ _ := abs_add_le _ _
  have h9 : (|Real.log v| + minNormal) / 2 ^ 52 = 2 * uro * (|Real.log v| + minNormal) := by rw [hu]; ring
  have hη : minNormal ≤ uro := by
    have : minNormal ≤ 2 ^ (-53 : ℤ) := zpow_le_zpow_right₀ (by norm_num) (by norm_num)
    exact this
  have h10 : 6 * uro ≤ (1 + uro) ^ 6 - 1 := by
    have := one_add_mul_le_pow (show (-2 : ℝ) ≤ uro by linarith) 6
    push_cast at this
    linarith
  have h11 : 6 * uro * (|c| + 1) ≤ ((1 + uro) ^ 6 - 1) * (|c| + 1) := mul_le_mul_of_nonneg_right h10 (by positivity)
  have h12 : 2 * uro * (|Real.log v| + minNormal) ≤ 2 * uro * (|c| + 6 * uro) := by
    refine mul_le_mul_of_nonneg_left (by linarith) (by linarith)
  have h13 : 2 * uro * (6 * uro) ≤ uro := by nlinarith
  have h14 := abs_nonneg c
  nlinarith

theorem near_logical {L : Libm Flt} (hL : Spec.Library L) (hA : Spec.Accurate L) : Logical NearF ExactF L Sized.lib where
  mono hjk h := NearF.mono hjk h
  zero := near_of_isVal (p := 0) (isVal_zero _) (by change |(0 : ℝ)| ≤ 0; simp)
  neg := NearF.neg
  add := NearF.add
  sub := NearF.sub
  mul := NearF.mul
  div := NearF.div
  pow hn h := h.pow hL hA hn
  log := near_log hA
  log2pi := near_log2pi hL hA
  lit := near_lit hL
  two := exact_lit hL (k := 2) (by norm_num) (by norm_num) (by norm_num)
  six := exact_lit hL (k := 6) (by norm_num) (by norm_num) (by norm_num)
  sum := near_sum hL

/-- The exact numbers inside the pairs are those of the program with real numbers. -/
theorem exact_logical : Logical (fun _ (r : ℝ) (p : Sized) => p.x = r) (fun r p => p.x = r) realLibm Sized.lib where
  mono _ h := h
  zero := rfl
  neg h := by rw [← h]; rfl
  add h h' := by rw [← h, ← h']; rfl
  sub h h' := by rw [← h, ← h']; rfl
  mul h h' := by rw [← h, ← h']; rfl
  div h h' := by rw [← h, ← h']; rfl
  pow _ h := by rw [← h]; rfl
  log h := by rw [← h]; rfl
  log2pi := rfl
  lit _ := rfl
  two := rfl
  six := rfl
  sum {k l l'} h := by
    change (l'.map Sized.x).sum = l.sum
    congr 1
    induction h with
    | nil => rfl
    | cons h _ ih => rw [List.map_cons, h, ih]

/-- Small exponents: `(1 + u)^k - 1` is at most `2 k u`. -/
theorem gam_le {k : ℕ} (hk : k ≤ 2 ^ 53) : (1 + uro) ^ k - 1 ≤ k / 2 ^ 52 := by
  have hu : uro = 1 / 2 ^ 53 := uro_eq
  have hkR : (k : ℝ) ≤ 2 ^ 53 := by exact_mod_cast hk
  have h1 : (1 + uro) ^ k ≤ Real.exp (k * uro) := by
    rw [Real.exp_nat_mul]
    exact pow_le_pow_left₀ (by have := uro_pos; linarith) (by have := Real.add_one_le_exp uro; linarith) k
  have h2 : (k : ℝ) * uro ≤ 1 := by rw [hu, mul_one_div, div_le_one (by positivity)]; exact hkR
  have h0 : 0 ≤ (k : ℝ) * uro := mul_nonneg (Nat.cast_nonneg _) uro_pos.le
  have h3 := Real.abs_exp_sub_one_sub_id_le (x := k * uro) (by rw [abs_of_nonneg h0]; exact h2)
  have h4 := (abs_le.1 h3).2
  have h5 : (k : ℝ) / 2 ^ 52 = 2 * (k * uro) := by rw [hu]; ring
  rw [h5]
  nlinarith

theorem forall₂_sized {x : List Flt} {y : List ℝ} (h : List.Forall₂ IsVal x y) : List.Forall₂ (NearF 0) x (y.map Sized.of) :=
  List.forall₂_map_right_iff.2 (h.imp fun _ _ h => near_of_isVal h le_rfl)

/-- C146: with the schemes of Euler, Heun and Runge-Kutta 4, if the free energy computed in double precision is finite, it differs from the free energy computed with real numbers by
at most `(217 n + m + 30)/2^52` times the size of what is added up, for `n` points and `m` observations. Here the inputs are doubles and their values are the real inputs;
the library may sum in any order, and its powers and logarithms may be wrong by one unit in the last place. -/
theorem C146_free_energy {L : Libm Flt} (hL : Spec.Library L) (hA : Spec.Accurate L) (o : VgpF Flt) (r : VgpF ℝ) (x : List Flt) (y : List ℝ)
    (hr : Spec.Reads o r) (hx : List.Forall₂ IsVal x y) (hdim : y.length = 2 * r.dim_n) (hl : r.obs_v.length = r.obs_t.length) (hm : r.method ≠ .rk2)
    (hσ : 0 < r.sigma) (hn : 0 < r.obs_n) (hτ : 0 < r.tau0) (hs : 0 < r.s0) (hbig : 217 * r.dim_n + r.obs_t.length + 30 ≤ 2 ^ 53)
    (v : Flt) (mt st : List Flt) (h : o.freeEnergy L x = .ok (v, mt, st)) (hf : Spec.Finite v) :
    ∃ w F mt' st' S, IsVal v w ∧ r.freeEnergy realLibm y = .ok (F, mt', st') ∧
      (r.map Sized.of).freeEnergy Sized.lib (y.map Sized.of) = .ok S ∧ S.1.x = F ∧ |F| ≤ S.1.size ∧
      |w - F| ≤ (217 * r.dim_n + r.obs_t.length + 30 : ℕ) / 2 ^ 52 * S.1.size := by
  have key := (near_logical hL hA).freeEnergy o (r.map Sized.of) x (y.map Sized.of) (forall₂_sized hx) (by rw [hx.length_eq, hdim, hr.dim_n]) hr.dim_n.symm
    hr.proc.symm hr.method.symm (hr.method ▸ hm) hr.obs_t.symm (near_of_isVal hr.theta le_rfl) ⟨hσ, hr.sigma, le_rfl⟩ (near_of_isVal hr.sigma le_rfl)
    (near_of_isVal hr.time_step le_rfl) (near_of_isVal hr.dt le_rfl) (forall₂_sized hr.obs_v) (by rw [hr.obs_v.length_eq, hl, hr.obs_t]) ⟨hn, hr.obs_n, le_rfl⟩
    (near_of_isVal hr.mu0 le_rfl) ⟨hτ, hr.tau0, le_rfl⟩ (near_of_isVal hr.m0 le_rfl) ⟨hs, hr.s0, le_rfl⟩ (near_of_isVal hr.s0 le_rfl)
  have key' := exact_logical.freeEnergy r (r.map Sized.of) y (y.map Sized.of) (List.forall₂_map_right_iff.2 (List.forall₂_same.2 fun _ _ => rfl)) hdim rfl rfl rfl hm rfl
    rfl rfl rfl rfl rfl (List.forall₂_map_right_iff.2 (List.forall₂_same.2 fun _ _ => rfl)) hl rfl rfl rfl rfl rfl rfl
  rw [h] at key
  generalize hS : (r.map Sized.of).freeEnergy Sized.lib (y.map Sized.of) = A at key key'
  generalize hF : r.freeEnergy realLibm y = B at key'
  cases key with
  | @ok _ S k1 =>
  cases key' with
  | @ok F _ k2 =>
  obtain ⟨w, h1, h2⟩ := k1.1.2 hf
  obtain ⟨F, mt', st'⟩ := F
  have e : S.1.x = F := k2.1
  refine ⟨w, F, mt', st', S, h1, rfl, rfl, e, by rw [← e]; exact k1.1.1, ?_⟩
  rw [← e]
  refine h2.trans (mul_le_mul_of_nonneg_right ?_ k1.1.size_nonneg)
  rw [hr.dim_n, hr.obs_t]
  exact gam_le hbig

/-- C146, the stored moments: means and variances that are finite are exact up to `36 n/2^52` times their sizes. -/
theorem C146_moments {L : Libm Flt} (hL : Spec.Library L) (hA : Spec.Accurate L) (method : Method) (hm : method ≠ .rk2) (dt m0 s0 sigma : Flt) (a b : List Flt)
    (dt' m0' s0' sigma' : ℝ) (a' b' : List ℝ) (hdt : IsVal dt dt') (h0 : IsVal m0 m0') (hs0 : IsVal s0 s0') (hs : IsVal sigma sigma')
    (ha : List.Forall₂ IsVal a a') (hb : List.Forall₂ IsVal b b') (hbig : 36 * b.length ≤ 2 ^ 53) (mt st : List Flt)
    (h : solveFwdF L method dt a b m0 s0 sigma = .ok (mt, st)) :
    ∃ mt' st' M S, solveFwdF realLibm method dt' a' b' m0' s0' sigma' = .ok (mt', st') ∧
      solveFwdF Sized.lib method (Sized.of dt') (a'.map Sized.of) (b'.map Sized.of) (Sized.of m0') (Sized.of s0') (Sized.of sigma') = .ok (M, S) ∧
      mt' = M.map Sized.x ∧ st' = S.map Sized.x ∧
      List.Forall₂ (fun v p => Spec.Finite v → ∃ w, IsVal v w ∧ |w - p.x| ≤ (36 * b.length : ℕ) / 2 ^ 52 * p.size) mt M ∧
      List.Forall₂ (fun v p => Spec.Finite v → ∃ w, IsVal v w ∧ |w - p.x| ≤ (36 * b.length : ℕ) / 2 ^ 52 * p.size) st S := by
  have key := (near_logical hL hA).solveFwd hm (near_of_isVal (p := Sized.of dt') hdt le_rfl) (near_of_isVal (p := Sized.of m0') h0 le_rfl)
    (near_of_isVal (p := Sized.of s0') hs0 le_rfl) (near_of_isVal (p := Sized.of sigma') hs le_rfl) (forall₂_sized ha) (forall₂_sized hb)
  have key' := exact_logical.solveFwd hm (dt := dt') (m0 := m0') (s0 := s0') (sigma := sigma') (dt' := Sized.of dt') (m0' := Sized.of m0') (s0' := Sized.of s0') (sigma' := Sized.of sigma') rfl rfl rfl rfl
    (List.forall₂_map_right_iff.2 (List.forall₂_same.2 fun x (_ : x ∈ a') => (rfl : (Sized.of x).x = x)))
    (List.forall₂_map_right_iff.2 (List.forall₂_same.2 fun x (_ : x ∈ b') => (rfl : (Sized.of x).x = x)))
  rw [h] at key
  generalize hS : solveFwdF Sized.lib method (Sized.of dt') (a'.map Sized.of) (b'.map Sized.of) (Sized.of m0') (Sized.of s0') (Sized.of sigma') = A at key key'
  generalize hF : solveFwdF realLibm method dt' a' b' m0' s0' sigma' = B at key'
  cases key with
  | @ok _ S k1 =>
  cases key' with
  | @ok F _ k2 =>
  obtain ⟨M, S⟩ := S
  obtain ⟨mt', st'⟩ := F
  have hx : ∀ {l : List ℝ} {l' : List Sized}, List.Forall₂ (fun r p => p.x = r) l l' → l = l'.map Sized.x := by
    intro l l' h
    induction h with
    | nil => rfl
    | cons h _ ih => rw [List.map_cons, h, ← ih]
  have hn : ∀ (v : Flt) (p : Sized), NearF (36 * b.length) v p → Spec.Finite v → ∃ w, IsVal v w ∧ |w - p.x| ≤ (36 * b.length : ℕ) / 2 ^ 52 * p.size := by
    intro v p h hf
    obtain ⟨w, h1, h2⟩ := h.2 hf
    exact ⟨w, h1, h2.trans (mul_le_mul_of_nonneg_right (gam_le hbig) h.size_nonneg)⟩
  exact ⟨mt', st', M, S, rfl, rfl, hx k2.1, hx k2.2, k1.1.imp hn, k1.2.imp hn⟩

/-- C146 for the objects of the model, Ornstein-Uhlenbeck: `F` is what `free_energy` returns with exact arithmetic. -/
theorem C146_ornstein_uhlenbeck {G : Type} {L : Libm Flt} (hL : Spec.Library L) (hA : Spec.Accurate L) (p : OU G) (g : VarGP ℝ ℝ) (lk : Like1) (K : Prior1) (step : ℝ)
    (y : List ℝ) (F : ℝ) (c : VgpCache ℝ ℝ) (hmod : g.model = p.sde) (hstep : p.base.timeStep = .ok step) (hlk : g.likelihood = lk.toIf)
    (hK : ∀ m s, g.kl0 m s = .ok (K.gauss m s)) (ht : g.obs_t = lk.obs_t) (hg : g.eval shape1 y = .ok (F, c))
    (o : VgpF Flt) (x : List Flt) (hx : List.Forall₂ IsVal x y)
    (hr : Spec.Reads o ⟨.ou, p.theta, p.sigma, step, g.fwd_ode.solver, g.fwd_ode.dt, lk.obs_v, lk.obs_t, lk.obs_n, K.mu0, K.tau0, g.m0, g.s0, g.dim_n⟩)
    (hdim : y.length = 2 * g.dim_n) (hl : lk.obs_v.length = lk.obs_t.length) (hm : g.fwd_ode.solver ≠ .rk2)
    (hσ : 0 < p.sigma) (hn : 0 < lk.obs_n) (hτ : 0 < K.tau0) (hs : 0 < g.s0) (hbig : 217 * g.dim_n + lk.obs_t.length + 30 ≤ 2 ^ 53)
    (v : Flt) (mt st : List Flt) (h : o.freeEnergy L x = .ok (v, mt, st)) (hf : Spec.Finite v) :
    ∃ w S, IsVal v w ∧ ((⟨.ou, p.theta, p.sigma, step, g.fwd_ode.solver, g.fwd_ode.dt, lk.obs_v, lk.obs_t, lk.obs_n, K.mu0, K.tau0, g.m0, g.s0, g.dim_n⟩ :
        VgpF ℝ).map Sized.of).freeEnergy Sized.lib (y.map Sized.of) = .ok S ∧
      |w - F| ≤ (217 * g.dim_n + lk.obs_t.length + 30 : ℕ) / 2 ^ 52 * S.1.size := by
  have e := C143_same_program_ou p g lk K step y F c hmod hstep hlk hK ht hg
  obtain ⟨w, F', mt', st', S, h1, h2, h3, h4, h5, h6⟩ := C146_free_energy hL hA o _ x y hr hx hdim hl hm hσ hn hτ hs hbig v mt st h hf
  rw [e] at h2
  cases h2
  exact ⟨w, S, h1, h3, h6⟩

/-- C146 for the objects of the model, double well. -/
theorem C146_double_well {G : Type} {L : Libm Flt} (hL : Spec.Library L) (hA : Spec.Accurate L) (p : DW G) (g : VarGP ℝ ℝ) (lk : Like1) (K : Prior1) (step : ℝ)
    (y : List ℝ) (F : ℝ) (c : VgpCache ℝ ℝ) (hmod : g.model = p.sde) (hstep : p.base.timeStep = .ok step) (hlk : g.likelihood = lk.toIf)
    (hK : ∀ m s, g.kl0 m s = .ok (K.gauss m s)) (ht : g.obs_t = lk.obs_t) (hg : g.eval shape1 y = .ok (F, c))
    (o : VgpF Flt) (x : List Flt) (hx : List.Forall₂ IsVal x y)
    (hr : Spec.Reads o ⟨.dw, p.theta, p.sigma, step, g.fwd_ode.solver, g.fwd_ode.dt, lk.obs_v, lk.obs_t, lk.obs_n, K.mu0, K.tau0, g.m0, g.s0, g.dim_n⟩)
    (hdim : y.length = 2 * g.dim_n) (hl : lk.obs_v.length = lk.obs_t.length) (hm : g.fwd_ode.solver ≠ .rk2)
    (hσ : 0 < p.sigma) (hn : 0 < lk.obs_n) (hτ : 0 < K.tau0) (hs : 0 < g.s0) (hbig : 217 * g.dim_n + lk.obs_t.length + 30 ≤ 2 ^ 53)
    (v : Flt) (mt st : List Flt) (h : o.freeEnergy L x = .ok (v, mt, st)) (hf : Spec.Finite v) :
    ∃ w S, IsVal v w ∧ ((⟨.dw, p.theta, p.sigma, step, g.fwd_ode.solver, g.fwd_ode.dt, lk.obs_v, lk.obs_t, lk.obs_n, K.mu0, K.tau0, g.m0, g.s0, g.dim_n⟩ :
        VgpF ℝ).map Sized.of).freeEnergy Sized.lib (y.map Sized.of) = .ok S ∧
      |w - F| ≤ (217 * g.dim_n + lk.obs_t.length + 30 : ℕ) / 2 ^ 52 * S.1.size := by
  have e := C143_same_program_dw p g lk K step y F c hmod hstep hlk hK ht hg
  obtain ⟨w, F', mt', st', S, h1, h2, h3, h4, h5, h6⟩ := C146_free_energy hL hA o _ x y hr hx hdim hl hm hσ hn hτ hs hbig v mt st h hf
  rw [e] at h2
  cases h2
  exact ⟨w, S, h1, h3, h6⟩

/-! ## A case that meets the hypotheses -/

/-- A library whose powers and logarithms are rounded correctly. -/
noncomputable def bestLibm : Libm Flt where
  lit := Flt.lit
  pi := piF
  pow a k := match a with
    | nan => nan
    | inf s => inf (s && decide (k % 2 = 1))
    | zero s => zero (s && decide (k % 2 = 1))
    | num r _ => Flt.round (r ^ k)
  log a := match a with
    | nan => nan
    | inf s => if s then nan else inf false
    | zero _ => inf true
    | num r _ => if r < 0 then nan else if Real.log r = 0 then zero false else Flt.round (Real.log r)
  sum := toyLibm.sum

theorem bestLibm_library : Spec.Library bestLibm where
  lit _ := rfl
  pi := rfl
  sum := toyLibm_library.sum
  pow_nan _ _ := rfl
  pow_inf _ _ _ := ⟨_, rfl⟩
  log_nan := rfl
  log_pinf := rfl
  log_ninf := rfl

theorem uro_le_ulp (r : ℝ) : uro * (|r| + minNormal) ≤ (|r| + minNormal) / 2 ^ 52 := by
  have h := err_nonneg' r
  have e : (|r| + minNormal) / 2 ^ 52 = 2 * (uro * (|r| + minNormal)) := by rw [uro_eq]; ring
  linarith

theorem bestLibm_accurate : Spec.Accurate bestLibm where
  pow a v k hk ha hf := by
    rcases isVal_cases ha with ⟨s, rfl, rfl⟩ | ⟨hv, rfl⟩
    · refine ⟨0, isVal_zero _, ?_⟩
      rw [zero_pow hk.ne', sub_zero, abs_zero, zero_add]
      exact div_nonneg eta_pos.le (by positivity)
    · obtain ⟨q, h1, h2⟩ := round_fin (pow_ne_zero k hv) hf
      exact ⟨q, h1, h2.trans (uro_le_ulp _)⟩
  log a v hv ha hf := by
    rcases isVal_cases ha with ⟨s, rfl, rfl⟩ | ⟨hv0, rfl⟩
    · exact absurd hv (lt_irrefl _)
    · simp only [bestLibm, if_neg (not_lt.2 hv.le)] at hf ⊢
      by_cases h0 : Real.log v = 0
      · rw [if_pos h0]
        refine ⟨0, isVal_zero _, ?_⟩
        rw [h0, sub_zero, abs_zero, zero_add]
        exact div_nonneg eta_pos.le (by positivity)
      · rw [if_neg h0] at hf ⊢
        obtain ⟨q, h1, h2⟩ := round_fin h0 hf
        exact ⟨q, h1, h2.trans (uro_le_ulp _)⟩

theorem b_pow (s : Bool) : bestLibm.pow (zero s) 2 = zero false := by simp [bestLibm]
theorem b_log_one (h : (1 : ℝ) ≠ 0) : bestLibm.log (num 1 h) = zero false := by
  simp only [bestLibm, Real.log_one, if_true]
  rw [if_neg (by norm_num)]
theorem b_sum1 (a : Flt) : bestLibm.sum [a] = a + zero false := rfl
theorem b_sum0 : bestLibm.sum [] = zero false := rfl
theorem b_lit (q : ℚ) : bestLibm.lit q = Flt.lit q := rfl

/-- The computed logarithm of 2π is a number between 0 and 8. -/
theorem b_log2pi : ∃ q, IsVal (bestLibm.log (Flt.lit 2 * piF)) q ∧ |q| ≤ 8 := by
  have h1 : Spec.Binary64 ((884279719003555 / 281474976710656 : ℚ) : ℝ) :=
    ⟨884279719003555, -48, by norm_num, by norm_num, by norm_num, by norm_num⟩
  have h2 : Spec.Binary64 (2 * ((884279719003555 / 281474976710656 : ℚ) : ℝ)) :=
    ⟨884279719003555, -47, by norm_num, by norm_num, by norm_num, by norm_num⟩
  have e : piF = num ((884279719003555 / 281474976710656 : ℚ) : ℝ) (by norm_num) := by
    unfold piF Flt.lit
    rw [if_neg (by norm_num)]
    exact round_binary64 (by norm_num) h1
  rw [e, lit_two, e_nn, round_binary64 (by norm_num) h2]
  have p1 : 0 < Real.log (2 * ((884279719003555 / 281474976710656 : ℚ) : ℝ)) := Real.log_pos (by norm_num)
  have p2 : Real.log (2 * ((884279719003555 / 281474976710656 : ℚ) : ℝ)) ≤ 6 := by
    refine (Real.log_le_sub_one_of_pos (by norm_num)).trans ?_
    norm_num
  have big : (8 : ℝ) ≤ 2 ^ 1023 := by
    rw [show (8 : ℝ) = 2 ^ 3 by norm_num]
    exact pow_le_pow_right₀ (by norm_num) (by norm_num)
  obtain ⟨q, q1, q2⟩ := round_err p1.ne' ((abs_of_pos p1).le.trans (le_trans (by linarith) big))
  refine ⟨q, ?_, ?_⟩
  · simp only [bestLibm]
    rw [if_neg (by norm_num), if_neg p1.ne']
    exact q1
  · have hu : uro ≤ 1 / 100 := by rw [uro_eq]; norm_num
    have ht : tiny ≤ 1 / 2 ^ 100 := tiny_le (by norm_num)
    have : tiny ≤ 1 / 100 := ht.trans (by norm_num)
    rw [abs_of_pos p1] at q2
    have := uro_pos
    rw [abs_le] at q2 ⊢
    constructor <;> nlinarith [q2.1, q2.2]

theorem toy_finite : ∃ v mt st, (toyVgp (zero false) .euler).freeEnergy bestLibm (List.replicate 4 (zero false)) = .ok (v, mt, st) ∧
    Spec.Finite v := by
  have hp : priorF bestLibm (zero false) (Flt.lit 1) (zero false) (Flt.lit 1) = zero false := by
    simp only [priorF, b_lit, lit_one', lit_half', e_nn, e_dd, e_aa, e_ss, e_neg, e_negz, e_az, e_za, e_zz, e_mz, e_zm, e_zmz, b_pow]
    norm_num [e_nn, e_dd, e_aa, e_ss, e_neg, e_negz, e_az, e_za, e_zz, e_mz, e_zm, e_zmz, round_one, round_half, b_log_one, b_pow]
  have hm : zero false + funMtF (zero false) (zero false) (zero false) * Flt.lit 1 = zero false := by
    simp only [funMtF, lit_one', e_zmz, e_negz, e_zz, e_zm]
    norm_num [e_zz]
  have hs : Flt.lit 1 + funStF bestLibm (Flt.lit 1) (zero false) (Flt.lit 1) * Flt.lit 1 = Flt.lit 2 := by
    simp only [funStF, b_lit, lit_one', lit_two, e_mz, e_zm, e_negz, e_za, e_nn]
    norm_num [e_aa, round_one, round_two]
  have h1 : solveFwdF bestLibm .euler (Flt.lit 1) [zero false, zero false] [zero false, zero false] (zero false) (Flt.lit 1) (Flt.lit 1) =
      .ok ([zero false, zero false], [Flt.lit 1, Flt.lit 2]) := by
    rw [show solveFwdF bestLibm .euler (Flt.lit 1) [zero false, zero false] [zero false, zero false] (zero false) (Flt.lit 1) (Flt.lit 1) =
      .ok ([zero false, zero false + funMtF (zero false) (zero false) (zero false) * Flt.lit 1],
        [Flt.lit 1, Flt.lit 1 + funStF bestLibm (Flt.lit 1) (zero false) (Flt.lit 1) * Flt.lit 1]) from rfl, hm, hs]
  have h2 : ∃ g q, gaussF bestLibm [zero false] [0] (Flt.lit 1) [zero false, zero false] [Flt.lit 1, Flt.lit 2] = .ok g ∧ IsVal g q := by
    rw [show gaussF bestLibm [zero false] [0] (Flt.lit 1) [zero false, zero false] [Flt.lit 1, Flt.lit 2] = .ok (
        Flt.lit (1 / 2) * bestLibm.sum [bestLibm.pow (zero false) 2 - Flt.lit 2 * zero false * zero false +
        (bestLibm.pow (zero false) 2 + Flt.lit 1)] / Flt.lit 1 +
        Flt.lit (1 / 2) * Flt.lit ((1 : ℕ) : ℚ) * (bestLibm.log (Flt.lit 2 * piF) + bestLibm.log (Flt.lit 1))) from rfl]
    obtain ⟨q, q1, q2⟩ := b_log2pi
    generalize bestLibm.log (Flt.lit 2 * piF) = E at q1
    simp only [Nat.cast_one, lit_one', lit_two, lit_half', b_sum1, e_nn, e_dd, e_aa, e_ss, e_neg, e_negz, e_az, e_za, e_zz, e_mz, e_zm, e_zmz,
      b_pow, b_log_one]
    norm_num [e_nn, e_dd, e_aa, e_ss, e_neg, e_negz, e_az, e_za, e_zz, e_mz, e_zm, e_zmz, round_one, round_half, b_log_one, b_pow]
    have big : (16 : ℝ) ≤ 2 ^ 1023 := by
      rw [show (16 : ℝ) = 2 ^ 4 by norm_num]
      exact pow_le_pow_right₀ (by norm_num) (by norm_num)
    have hu : uro ≤ 1 / 100 := by rw [uro_eq]; norm_num
    have ht : tiny ≤ 1 / 100 := (tiny_le (k := 100) (by norm_num)).trans (by norm_num)
    have hu0 := uro_pos
    have q3 := abs_le.1 q2
    obtain ⟨a, a1, a2⟩ := add_err q1 (isVal_zero false) (le_trans (by rw [add_zero]; linarith) big)
    rw [add_zero] at a2
    have a3 : |a| ≤ 10 := by
      have := abs_le.1 a2
      rw [abs_le]
      constructor <;> nlinarith [abs_nonneg q]
    have hh : IsVal (num (1 / 2) (by norm_num)) (1 / 2) := isVal_num _ _
    have a4 := abs_le.1 a3
    obtain ⟨b, b1, b2⟩ := mul_err hh a1 (le_trans (abs_le.2 (by constructor <;> linarith)) big)
    have b3 : |b| ≤ 8 := by
      have h8 : |1 / 2 * a| ≤ 5 := by rw [abs_le]; constructor <;> linarith
      have h9 := abs_le.1 h8
      have := abs_le.1 b2
      rw [abs_le]
      constructor <;> nlinarith [abs_nonneg (1 / 2 * a)]
    have b4 := abs_le.1 b3
    obtain ⟨c, c1, _⟩ := add_err hh b1 (le_trans (abs_le.2 (by constructor <;> linarith)) big)
    refine ⟨c, ?_⟩
    change IsVal (add _ (mul _ (add _ _))) c
    convert c1 using 4 <;> norm_num
  have h3 : energyF bestLibm .ou (zero false) (Flt.lit 1) (Flt.lit 1) [zero false, zero false] [zero false, zero false]
      [zero false, zero false] [Flt.lit 1, Flt.lit 2] [0] = .ok (zero false) := by
    have p1 : ouPointF bestLibm (zero false) (zero false) (zero false) (zero false) (Flt.lit 1) = zero false := by
      simp [ouPointF, b_lit, lit_one', lit_two, b_pow, e_ss, e_negz, e_zmz, e_za, e_zz, e_zm, e_mz]
    have p2 : ouPointF bestLibm (zero false) (zero false) (zero false) (zero false) (Flt.lit 2) = zero false := by
      simp [ouPointF, b_lit, lit_two, b_pow, e_ss, e_negz, e_zmz, e_za, e_zz, e_zm, e_mz]
    have p3 : myTrapzF bestLibm [zero false, zero false] (Flt.lit 1) [0] = zero false := by
      rw [show myTrapzF bestLibm [zero false, zero false] (Flt.lit 1) [0] = zero false + bestLibm.sum [] +
        bestLibm.sum [Flt.lit 1 * (zero false + zero false) / Flt.lit 2] from rfl]
      simp [b_sum1, b_sum0, lit_one', lit_two, e_zz, e_mz, e_zd]
    rw [show energyF bestLibm .ou (zero false) (Flt.lit 1) (Flt.lit 1) [zero false, zero false] [zero false, zero false]
      [zero false, zero false] [Flt.lit 1, Flt.lit 2] [0] = .ok (Flt.lit (1 / 2) * myTrapzF bestLibm
        [ouPointF bestLibm (zero false) (zero false) (zero false) (zero false) (Flt.lit 1),
         ouPointF bestLibm (zero false) (zero false) (zero false) (zero false) (Flt.lit 2)] (Flt.lit 1) [0] / Flt.lit 1) from rfl, p1, p2, p3]
    rw [lit_half', lit_one', e_mz, e_zd]
    norm_num
  obtain ⟨g, q, g1, g2⟩ := h2
  refine ⟨zero false + zero false + g, [zero false, zero false], [Flt.lit 1, Flt.lit 2], ?_, ?_⟩
  · unfold VgpF.freeEnergy
    simp only [toyVgp, List.replicate, List.take, List.drop, h1, g1, h3, hp, py_ok_bind, py_pure]
  · rcases isVal_cases g2 with ⟨s, rfl, rfl⟩ | ⟨hv0, rfl⟩
    · exact ⟨by simp [e_zz], by simp [e_zz]⟩
    · exact ⟨by simp [e_zz, e_za], by simp [e_zz, e_za]⟩

/-- A finite free energy of two points and one observation is exact up to `465/2^52` times the size. -/
example : ∃ v mt st w F mt' st' S, (toyVgp (zero false) .euler).freeEnergy bestLibm (List.replicate 4 (zero false)) = .ok (v, mt, st) ∧ IsVal v w ∧
    (⟨.ou, 0, 1, 1, .euler, 1, [0], [0], 1, 0, 1, 0, 1, 2⟩ : VgpF ℝ).freeEnergy realLibm (List.replicate 4 0) = .ok (F, mt', st') ∧
    ((⟨.ou, 0, 1, 1, .euler, 1, [0], [0], 1, 0, 1, 0, 1, 2⟩ : VgpF ℝ).map Sized.of).freeEnergy Sized.lib ((List.replicate 4 0).map Sized.of) = .ok S ∧
    |w - F| ≤ 465 / 2 ^ 52 * S.1.size := by
  obtain ⟨v, mt, st, h1, h2⟩ := toy_finite
  have z : IsVal (zero false) 0 := isVal_zero _
  have u : IsVal (Flt.lit 1) 1 := by simpa using lit_nat (k := 1) (by norm_num)
  obtain ⟨w, F, mt', st', S, k1, k2, k3, -, -, k6⟩ := C146_free_energy bestLibm_library bestLibm_accurate (toyVgp (zero false) .euler)
    ⟨.ou, 0, 1, 1, .euler, 1, [0], [0], 1, 0, 1, 0, 1, 2⟩ _ (List.replicate 4 0)
    ⟨rfl, z, u, u, rfl, u, .cons z .nil, rfl, u, z, u, z, u, rfl⟩ (.cons z (.cons z (.cons z (.cons z .nil)))) rfl rfl (by simp)
    (by norm_num) (by norm_num) (by norm_num) (by norm_num) (by norm_num) v mt st h1 h2
  refine ⟨v, mt, st, w, F, mt', st', S, h1, k1, k2, k3, ?_⟩
  norm_num at k6 ⊢
  exact k6

end VGPA
