import Verif.Lemmas.ScgFloat

/-!
# C135, C136, C137: the optimizer in double precision
-/

namespace VGPA

open Flt

variable {σ A : Type} {n : ℕ} {dot : (Fin n → Flt) → (Fin n → Flt) → Flt} {o : Oracle σ A Flt (Fin n → Flt)} {args : A}

theorem lit_two : Flt.lit 2 = num 2 (by norm_num) := by
  have := round_zpow (k := 1) (by norm_num) (by norm_num)
  unfold Flt.lit
  rw [if_neg (by norm_num)]
  push_cast
  simpa using this

theorem lit_zero : Flt.lit 0 = zero false := by unfold Flt.lit; simp

theorem lit_eps : Flt.lit (1 / 2 ^ 52) = num (2 ^ (-52 : ℤ)) (two_zpow_pos _).ne' := by
  have := round_zpow (k := -52) (by norm_num) (by norm_num)
  unfold Flt.lit
  rw [if_neg (by norm_num)]
  push_cast
  rw [show (1 / 2 ^ 52 : ℝ) = 2 ^ (-52 : ℤ) by rw [zpow_neg]; norm_num]
  exact this

/-! ## The test for an accepted step -/

/-- An accepted step has a value that is not NaN, and a previous value that is not NaN. -/
theorem accept_ne_nan {fn fo P : Flt} (h : Flt.le (Flt.lit 0) (Flt.div (Flt.mul (Flt.lit 2) (Flt.sub fn fo)) P) = true) :
    fn ≠ nan ∧ fo ≠ nan := by
  obtain ⟨_, h, _⟩ := Flt.le_iff.1 h
  obtain ⟨h, _⟩ := div_ne_nan h
  obtain ⟨_, h⟩ := mul_ne_nan h
  obtain ⟨h1, h2⟩ := add_ne_nan h
  exact ⟨h1, fun e => h2 (neg_nan.2 e)⟩

theorem sub_ge {fn fo : Flt} (hn : Flt.sub fn fo ≠ nan) {k : ℤ} (hk : -1022 ≤ k) (h : fo.val + ((2 ^ k : ℝ) : EReal) < fn.val) :
    Ge (Flt.sub fn fo) (2 ^ k) := by
  have hp := two_zpow_pos k
  obtain ⟨n1, n2⟩ := add_ne_nan hn
  have n2 : fo ≠ nan := fun e => n2 (neg_nan.2 e)
  refine ⟨hn, ?_⟩
  cases fo with
  | nan => exact absurd rfl n2
  | inf s =>
    cases s
    · simp [val] at h
    · cases fn with
      | nan => exact absurd rfl n1
      | inf t => cases t <;> simp [val, Flt.sub, Flt.add, Flt.neg] at h ⊢
      | zero t => simp [val, Flt.sub, Flt.add, Flt.neg]
      | num r hr => simp [val, Flt.sub, Flt.add, Flt.neg]
  | zero s =>
    simp only [val, zero_add] at h
    cases fn with
    | nan => exact absurd rfl n1
    | inf t => cases t <;> simp [val, Flt.sub, Flt.add, Flt.neg] at h ⊢
    | zero t =>
      have h : (((2 : ℝ) ^ k : ℝ) : EReal) < 0 := h
      have : (2 : ℝ) ^ k < 0 := by exact_mod_cast h
      linarith
    | num r hr => simpa [val, Flt.sub, Flt.add, Flt.neg] using h.le
  | num q hq =>
    cases fn with
    | nan => exact absurd rfl n1
    | inf t => cases t <;> simp [val, Flt.sub, Flt.add, Flt.neg] at h ⊢
    | zero t =>
      have : q + (2 : ℝ) ^ k < 0 := by simp only [val] at h; exact_mod_cast h
      simp only [val, Flt.sub, Flt.add, Flt.neg, EReal.coe_le_coe_iff]
      linarith
    | num r hr =>
      have : q + (2 : ℝ) ^ k < r := by simp only [val] at h; exact_mod_cast h
      have h' : ¬ r + -q = 0 := by linarith
      simp only [Flt.sub, Flt.add, Flt.neg, h', if_false]
      exact (round_ge hk (by linarith)).2

/-- The slope is NaN or negative. -/
def MuOk (mu : Flt) : Prop := mu = nan ∨ (mu ≠ nan ∧ mu.val < 0)

/-- NaN, or the sign is plus. -/
def PlusOk (a : Flt) : Prop := a = nan ∨ (a ≠ nan ∧ a.sgn = false)

/-- The product of step length and slope. -/
theorem slope_sgn {mu D : Flt} (hmu : MuOk mu) (hD : PlusOk D) (h : Flt.mul (Flt.neg (Flt.div mu D)) mu ≠ nan) :
    (Flt.mul (Flt.neg (Flt.div mu D)) mu).sgn = true := by
  rw [mul_sgn h]
  obtain ⟨h1, h2⟩ := mul_ne_nan h
  have h1 : Flt.div mu D ≠ nan := fun e => h1 (neg_nan.2 e)
  obtain ⟨_, h3⟩ := div_ne_nan h1
  rw [neg_sgn h1, div_sgn h1]
  rcases hmu with e | ⟨_, hmu⟩
  · exact absurd e h2
  · rcases hD with e | ⟨_, hD⟩
    · exact absurd e h3
    · rw [sgn_of_neg hmu h2, hD]; rfl

/-- An accepted step raises the value by at most `2⁻⁵²`, unless the product of step length and slope overflows. -/
theorem accept_bound {fn fo mu D : Flt} (hmu : MuOk mu) (hD : PlusOk D) (hov : Flt.mul (Flt.neg (Flt.div mu D)) mu ≠ inf true)
    (h : Flt.le (Flt.lit 0) (Flt.div (Flt.mul (Flt.lit 2) (Flt.sub fn fo)) (Flt.mul (Flt.neg (Flt.div mu D)) mu)) = true) :
    fn.val ≤ fo.val + ((2 ^ (-52 : ℤ) : ℝ) : EReal) := by
  by_contra hc
  rw [not_le] at hc
  obtain ⟨_, hn, hv⟩ := Flt.le_iff.1 h
  obtain ⟨hu, hP⟩ := div_ne_nan hn
  have hs := slope_sgn hmu hD hP
  obtain ⟨_, ht⟩ := mul_ne_nan hu
  have h1 := sub_ge ht (by norm_num) hc
  have h2 : Ge (Flt.lit 2) (2 ^ (1 : ℤ)) := by rw [lit_two]; exact ⟨by simp, by simp [val]⟩
  have h3 := h2.mul (by norm_num) h1
  rw [lit_zero] at hv
  generalize hP' : Flt.mul (Flt.neg (Flt.div mu D)) mu = P at *
  generalize Flt.mul (Flt.lit 2) (Flt.sub fn fo) = u at *
  have hp : ∀ p hp, P = num p hp → |p| < 2 ^ 1024 := by
    intro p hp e
    rw [e] at hP'
    unfold Flt.mul at hP'
    split at hP' <;> first | exact round_lt hP' | cases hP'
  obtain ⟨_, h3⟩ := h3
  have hpos : (0 : ℝ) < 2 ^ (1 + -52 : ℤ) := two_zpow_pos _
  have hu0 : 0 < u.val := lt_of_lt_of_le (EReal.coe_pos.2 hpos) h3
  cases P with
  | nan => exact hP rfl
  | inf s =>
    simp only [sgn] at hs
    rw [hs] at hov
    exact hov rfl
  | zero s =>
    simp only [sgn] at hs
    subst hs
    cases u with
    | nan => exact hu rfl
    | inf t =>
      have := sgn_of_pos hu0
      simp only [sgn] at this
      subst this
      simp [Flt.div, val, sgn] at hv
    | zero t => simp [val] at hu0
    | num r hr =>
      have := sgn_of_pos hu0
      simp [Flt.div, val, this] at hv
  | num p hpne =>
    simp only [sgn, decide_eq_true_eq] at hs
    have hp := hp p hpne rfl
    cases u with
    | nan => exact hu rfl
    | inf t =>
      have := sgn_of_pos hu0
      simp only [sgn] at this
      subst this
      simp [Flt.div, val, sgn, hs] at hv
    | zero t => simp [val] at hu0
    | num r hr =>
      simp only [val, EReal.coe_le_coe_iff] at h3
      have hr0 : 0 < r := hpos.trans_le h3
      have hq : r / p < 0 := div_neg_of_pos_of_neg hr0 hs
      simp only [Flt.div] at hv
      have hsg := round_sgn hq.ne
      have hz : (Flt.round (r / p)).val = 0 := le_antisymm (val_nonpos_of_sgn (by rw [hsg]; simpa using hq)) hv
      have : ∃ s, Flt.round (r / p) = zero s := by
        cases e : Flt.round (r / p) with
        | nan => exact absurd e (round_ne_nan _)
        | inf s => rw [e] at hz; cases s <;> simp [val] at hz
        | zero s => exact ⟨s, rfl⟩
        | num v hv => rw [e] at hz; simp [val, hv] at hz
      obtain ⟨s, e⟩ := this
      have hb := round_zero hq.ne e
      rw [abs_div, abs_of_pos hr0, div_le_iff₀ (abs_pos.2 hpne)] at hb
      have : (2 : ℝ) ^ (-1075 : ℤ) * |p| < 2 ^ (-1075 : ℤ) * 2 ^ 1024 := mul_lt_mul_of_pos_left hp (two_zpow_pos _)
      have e2 : (2 : ℝ) ^ (-1075 : ℤ) * 2 ^ 1024 = 2 ^ (1 + -52 : ℤ) := by
        rw [← zpow_natCast, ← zpow_add₀ (by norm_num)]; norm_num
      linarith

/-- An accepted step does not reach plus infinity from another value. -/
theorem accept_ne_inf {fn fo mu D : Flt} (hmu : MuOk mu) (hD : PlusOk D) (hfo : fo ≠ inf false)
    (h : Flt.le (Flt.lit 0) (Flt.div (Flt.mul (Flt.lit 2) (Flt.sub fn fo)) (Flt.mul (Flt.neg (Flt.div mu D)) mu)) = true) :
    fn ≠ inf false := by
  rintro rfl
  obtain ⟨_, hn, hv⟩ := Flt.le_iff.1 h
  obtain ⟨hu, hP⟩ := div_ne_nan hn
  have hs := slope_sgn hmu hD hP
  obtain ⟨_, ht⟩ := mul_ne_nan hu
  have e1 : Flt.sub (inf false) fo = inf false := by
    obtain ⟨_, n2⟩ := add_ne_nan ht
    cases fo with
    | nan => exact absurd rfl n2
    | inf s => cases s <;> simp [Flt.sub, Flt.add, Flt.neg] at hfo ⊢
    | zero s => rfl
    | num r hr => rfl
  have e2 : Flt.mul (Flt.lit 2) (inf false) = inf false := by
    rw [lit_two]
    have : ¬ (2 : ℝ) < 0 := by norm_num
    simp [Flt.mul, sgn, this]
  rw [e1, e2] at hv hn
  rw [lit_zero] at hv
  generalize Flt.mul (Flt.neg (Flt.div mu D)) mu = P at *
  cases P with
  | nan => exact hP rfl
  | inf s => exact hn rfl
  | zero s =>
    simp only [sgn] at hs
    subst hs
    simp [Flt.div, val, sgn] at hv
  | num p hpne =>
    rw [Flt.div, hs] at hv
    · simp [val] at hv
    all_goals simp

/-! ## What holds in every iteration -/

/-- The inner product does not notice a sign: the product of `-g` and `g` is minus the product of `-g` with itself, up to the sign of a
zero. Round to nearest is symmetric, so this holds in whatever order products and sums are computed; `dot_odd` is the proof for
the order from left to right. -/
def Spec.OddDot (dot : (Fin n → Flt) → (Fin n → Flt) → Flt) : Prop :=
  ∀ g : Fin n → Flt, let d := fun i => Flt.neg (g i)
    (dot d g = nan ∧ dot d d = nan) ∨ (dot d g ≠ nan ∧ dot d d ≠ nan ∧ (dot d g).val = -(dot d d).val)

theorem _root_.VGPA.Flt.Ge.mono {a : Flt} {r q : ℝ} (h : Ge a r) (hq : q ≤ r) : Ge a q :=
  ⟨h.1, (EReal.coe_le_coe_iff.2 hq).trans h.2⟩

theorem _root_.VGPA.Flt.Ge.pos {a : Flt} {k : ℤ} (h : Ge a (2 ^ k)) : 0 < a.val := lt_of_lt_of_le (EReal.coe_pos.2 (two_zpow_pos k)) h.2

/-- The scale. -/
def BetaOk (b : Flt) : Prop := b = nan ∨ Ge b (2 ^ (-50 : ℤ))

/-- The squared length of the search direction. -/
def KappaOk (k : Flt) : Prop := k = nan ∨ Ge k (2 ^ (-52 : ℤ))

/-- The locals between two iterations. -/
structure FloatLoc (L : ScgLoc Flt (Fin n → Flt)) : Prop where
  beta : BetaOk L.beta
  kept : L.success = false → MuOk L.mu ∧ KappaOk L.kappa

theorem dir_float (hdot : Spec.OddDot dot) {j : ℕ} {L L1 : ScgLoc Flt (Fin n → Flt)} {w w1 : World σ Flt} (hL : FloatLoc L)
    (hd : DirPath (ieeeArith n dot) o j L w (.inl L1) w1) : BetaOk L1.beta ∧ MuOk L1.mu ∧ KappaOk L1.kappa := by
  cases hd with
  | keep h => exact ⟨hL.beta, hL.kept h⟩
  | curv h hk sigma theta g_plus st hs hg ht =>
    refine ⟨hL.beta, ?_⟩
    have kap : KappaOk (dot (dirOf (ieeeArith n dot) L).1 (dirOf (ieeeArith n dot) L).1) := by
      by_cases e : dot (dirOf (ieeeArith n dot) L).1 (dirOf (ieeeArith n dot) L).1 = nan
      · exact .inl e
      · refine .inr ⟨e, ?_⟩
        have hk : ¬ Flt.lt (dot (dirOf (ieeeArith n dot) L).1 (dirOf (ieeeArith n dot) L).1) (Flt.lit (1 / 2 ^ 52)) = true := by
          have hk : Flt.lt (dot (dirOf (ieeeArith n dot) L).1 (dirOf (ieeeArith n dot) L).1) (Flt.lit (1 / 2 ^ 52)) = false := hk
          rw [hk]; decide
        rw [Flt.lt_iff, lit_eps] at hk
        by_contra hc
        exact hk ⟨e, by simp, not_le.1 hc⟩
    refine ⟨?_, kap⟩
    show MuOk (dirOf (ieeeArith n dot) L).2
    change KappaOk (dot (dirOf (ieeeArith n dot) L).1 (dirOf (ieeeArith n dot) L).1) at kap
    unfold dirOf at kap ⊢
    by_cases hm : (ieeeArith n dot).le ((ieeeArith n dot).lit 0) ((ieeeArith n dot).dot L.d L.grad_new) = true
    · rw [if_pos hm] at kap ⊢
      dsimp only at kap ⊢
      rcases hdot L.grad_new with ⟨e, _⟩ | ⟨e1, e2, e3⟩
      · exact .inl e
      · refine .inr ⟨e1, ?_⟩
        rcases kap with kap | kap
        · exact absurd kap e2
        · show (dot (fun i => Flt.neg (L.grad_new i)) L.grad_new).val < 0
          rw [e3, ← EReal.neg_lt_neg_iff, neg_zero, _root_.neg_neg]
          exact kap.pos
    · rw [if_neg hm]
      dsimp only
      have hm : ¬ Flt.le (Flt.lit 0) (dot L.d L.grad_new) = true := hm
      rw [Flt.le_iff, lit_zero] at hm
      by_cases e : dot L.d L.grad_new = nan
      · exact .inl e
      · refine .inr ⟨e, ?_⟩
        by_contra hc
        exact hm ⟨by simp, e, not_lt.1 hc⟩

/-- The new scale and the step length. -/
theorem step_float {L1 : ScgLoc Flt (Fin n → Flt)} {beta alpha : Flt} (h : BetaOk L1.beta ∧ MuOk L1.mu ∧ KappaOk L1.kappa)
    (hst : Scg.stepSize (ieeeArith n dot) L1 = .ok (beta, alpha)) :
    BetaOk beta ∧ ∃ D, PlusOk D ∧ alpha = Flt.neg (Flt.div L1.mu D) := by
  obtain ⟨hb, hm, hk⟩ := h
  have hbk : Flt.mul L1.beta L1.kappa = nan ∨ Ge (Flt.mul L1.beta L1.kappa) (2 ^ (-50 + -52 : ℤ)) := by
    rcases hb with e | hb
    · left; rw [e, mul_nan_left]
    · rcases hk with e | hk
      · left; rw [e, mul_nan_right]
      · exact .inr (hb.mul (by norm_num) hk)
  unfold Scg.stepSize at hst
  by_cases hc : (ieeeArith n dot).le ((ieeeArith n dot).add L1.theta ((ieeeArith n dot).mul L1.beta L1.kappa)) ((ieeeArith n dot).lit 0) = true
  · simp only [hc, if_true] at hst
    simp only [ieeeArith, bind, Except.bind, pure, Except.pure, Except.ok.injEq, Prod.mk.injEq] at hst
    obtain ⟨rfl, rfl⟩ := hst
    obtain ⟨hn, _, hv⟩ := Flt.le_iff.1 hc
    rw [show (ieeeArith n dot).lit 0 = Flt.lit 0 from rfl, lit_zero] at hv
    change Flt.add L1.theta (Flt.mul L1.beta L1.kappa) ≠ nan at hn
    change (Flt.add L1.theta (Flt.mul L1.beta L1.kappa)).val ≤ 0 at hv
    obtain ⟨hn1, hn2⟩ := add_ne_nan hn
    have hbk := hbk.resolve_left hn2
    refine ⟨?_, _, .inr ⟨hn2, sgn_of_pos hbk.pos⟩, rfl⟩
    -- the curvature is not positive
    have hth : L1.theta.val ≤ 0 := by
      by_contra hc
      have := hbk.add (by norm_num) hn1 (not_le.1 hc).le
      rw [add_comm'] at this
      exact absurd this.pos (not_lt.2 hv)
    rcases hb with e | hb
    · left; rw [e, sub_nan_left]
    rcases hk with e | hk
    · left; rw [e, div_nan_right, sub_nan_right]
    by_cases hq : Flt.div L1.theta L1.kappa = nan
    · left; rw [hq, sub_nan_right]
    · right
      refine hb.add (by norm_num) (fun e => hq (neg_nan.1 e)) ?_
      rw [val_neg hq, ← neg_zero, EReal.neg_le_neg_iff]
      exact div_nonpos' hth hk.pos hq
  · simp only [hc, if_false, Bool.false_eq_true] at hst
    simp only [ieeeArith, bind, Except.bind, pure, Except.pure, Except.ok.injEq, Prod.mk.injEq] at hst
    obtain ⟨rfl, rfl⟩ := hst
    refine ⟨hb, _, ?_, rfl⟩
    have hc : ¬ Flt.le (Flt.add L1.theta (Flt.mul L1.beta L1.kappa)) (Flt.lit 0) = true := hc
    rw [Flt.le_iff, lit_zero] at hc
    by_cases e : Flt.add L1.theta (Flt.mul L1.beta L1.kappa) = nan
    · exact .inl e
    · refine .inr ⟨e, sgn_of_pos ?_⟩
      by_contra h0
      exact hc ⟨e, by simp, not_lt.1 h0⟩

theorem finish_float {m : ℕ} {delta : Flt} {L L' : ScgLoc Flt (Fin n → Flt)} (hb : BetaOk L.beta)
    (h : Scg.finish (ieeeArith n dot) m delta L = .ok L') : BetaOk L'.beta := by
  have b1 : ∀ b, BetaOk b → BetaOk (Flt.min (Flt.mul (Flt.lit 4) b) (Flt.lit (10 ^ 100))) := by
    intro b hb
    rcases hb with e | hb
    · left; rw [e, mul_nan_right]; simp [Flt.min]
    · right
      have l4 : Ge (Flt.lit 4) (2 ^ (2 : ℤ)) := by
        unfold Flt.lit
        rw [if_neg (by norm_num)]
        exact round_ge (by norm_num) (by norm_num)
      have l100 : Ge (Flt.lit (10 ^ 100)) (2 ^ (-50 : ℤ)) := by
        unfold Flt.lit
        rw [if_neg (by norm_num)]
        exact round_ge (by norm_num) (by rw [zpow_neg]; norm_num)
      have := (l4.mul (by norm_num) hb).mono (q := 2 ^ (-50 : ℤ)) (zpow_le_zpow_right₀ (by norm_num) (by norm_num))
      unfold Flt.min
      rw [if_neg (by push Not; exact ⟨this.1, l100.1⟩)]
      split
      · exact l100
      · exact this
  have b2 : ∀ b, BetaOk (Flt.max (Flt.mul (Flt.lit (1 / 2)) b) (Flt.lit (1 / 10 ^ 15))) := by
    intro b
    have l15 : Ge (Flt.lit (1 / 10 ^ 15)) (2 ^ (-50 : ℤ)) := by
      unfold Flt.lit
      rw [if_neg (by norm_num)]
      exact round_ge (by norm_num) (by push_cast; rw [zpow_neg]; norm_num)
    unfold Flt.max
    split
    · exact .inl rfl
    · rename_i hn
      push Not at hn
      split
      · exact .inr l15
      · rename_i hlt
        exact .inr ⟨hn.1, l15.2.trans (not_lt.1 hlt)⟩
  have b3 : BetaOk (if (ieeeArith n dot).lt delta ((ieeeArith n dot).lit (1 / 4)) then
      (ieeeArith n dot).min ((ieeeArith n dot).mul ((ieeeArith n dot).lit 4) L.beta) ((ieeeArith n dot).lit (10 ^ 100)) else L.beta) := by
    split
    · exact b1 _ hb
    · exact hb
  have b4 : ∀ b, BetaOk b → BetaOk (if (ieeeArith n dot).lt ((ieeeArith n dot).lit (3 / 4)) delta then
      (ieeeArith n dot).max ((ieeeArith n dot).mul ((ieeeArith n dot).lit (1 / 2)) b) ((ieeeArith n dot).lit (1 / 10 ^ 15)) else b) := by
    intro b h
    split
    · exact b2 _
    · exact h
  have b5 := b4 _ b3
  unfold Scg.finish at h
  by_cases h1 : L.count_success = m
  · simp only [h1, if_true, pure, Except.pure] at h
    injection h with h; subst h
    exact b5
  · simp only [h1, if_false] at h
    by_cases h2 : L.success = true
    · simp only [h2, if_true, bind, Except.bind, pure, Except.pure] at h
      split at h
      · cases h
      · injection h with h; subst h
        exact b5
    · simp only [h2, pure, Except.pure] at h
      injection h with h; subst h
      exact b5

theorem reach_float (hdot : Spec.OddDot dot) {p : Scg Flt} {x0 : Fin n → Flt} {s : σ} {it : ℕ} {L : ScgLoc Flt (Fin n → Flt)} {w : World σ Flt}
    (hr : Reach (ieeeArith n dot) o args p x0 s it L w) : FloatLoc L := by
  induction hr with
  | start f0 g0 s1 s2 hf hg =>
    refine ⟨.inr ?_, fun h => by cases h⟩
    show Ge (Flt.lit 1) _
    unfold Flt.lit
    rw [if_neg (by norm_num)]
    exact round_ge (by norm_num) (by push_cast; rw [zpow_neg]; norm_num)
  | step hr hit ht ih =>
    rcases (turn_ok _ o args).1 ht with ⟨q, hq, _⟩ | ⟨L1, w1, beta, alpha, hd, hst, hm⟩
    · cases hq
    · have h1 := dir_float hdot ih hd
      obtain ⟨h2, D, hD, rfl⟩ := step_float h1 hst
      cases hm with
      | reject f_new delta st hf hdl hr hj L' hfin =>
        obtain ⟨_, _, _, _, _, _, e7, _, e9⟩ := finish_ok _ hfin
        exact ⟨finish_float (L := { { L1 with beta } with f_now := L1.f_old, success := false }) h2 hfin, fun _ => by rw [e7, e9]; exact h1.2⟩
      | accept f_new delta big f_now g st st2 st3 hf hdl hr hj hb hn hf2 hg hc L' hfin =>
        obtain ⟨_, _, _, _, _, e6, _⟩ := finish_ok _ hfin
        exact ⟨finish_float (L := { { L1 with beta } with
              x := (ieeeArith n dot).vadd L1.x ((ieeeArith n dot).smul (Flt.neg (Flt.div L1.mu D)) L1.d), f_now, f_old := f_new, grad_new := g
              grad_old := L1.grad_new, success := true, count_success := L1.count_success + 1 }) h2 hfin, fun h => by rw [e6] at h; cases h⟩

theorem accept_float {R : Flt → Flt → Prop} {p : Scg Flt} {x0 : Fin n → Flt} {s : σ} (hdot : Spec.OddDot dot)
    (hR : ∀ it L w L1 w1 beta alpha f_new D, it < p.nit → Reach (ieeeArith n dot) o args p x0 s it L w → DirPath (ieeeArith n dot) o it L w (.inl L1) w1 →
      Scg.stepSize (ieeeArith n dot) L1 = .ok (beta, alpha) → MuOk L1.mu → PlusOk D → alpha = Flt.neg (Flt.div L1.mu D) →
      Flt.le (Flt.lit 0) (Flt.div (Flt.mul (Flt.lit 2) (Flt.sub f_new L1.f_old)) (Flt.mul alpha L1.mu)) = true → R L1.f_old f_new) :
    ∀ it L w, it < p.nit → Reach (ieeeArith n dot) o args p x0 s it L w → AcceptRel (ieeeArith n dot) o R it L w := by
  intro it L w hit hr L1 w1 beta alpha f_new delta hd hst hdl hle
  have h1 := dir_float hdot (reach_float hdot hr) hd
  obtain ⟨_, D, hD, e⟩ := step_float h1 hst
  have hdl := Except.ok.inj hdl
  subst hdl
  exact hR it L w L1 w1 beta alpha f_new D hit hr hd hst h1.2.1 hD e hle

/-! ## C135 -/

/-- A number, or minus infinity: what a minimisation may end with. -/
def Spec.Proper (a : Flt) : Prop := a ≠ nan ∧ a ≠ inf false

/-- C135: in double precision, with any gradient function, if the objective is neither NaN nor plus infinity at the start point, then neither
are the values recorded during the call nor the returned one, which is the value at the returned point. -/
theorem C135_stays_proper (hdot : Spec.OddDot dot) (F : (Fin n → Flt) → Flt) (hF : ∀ x s v s', o.f x args s = (.ok v, s') → v = F x)
    (p p' : Scg Flt) (hp : Spec.Arrays p) (x0 x : Fin n → Flt) (s s' : σ) (fx : Flt) (h0 : Spec.Proper (F x0))
    (h : Scg.call (ieeeArith n dot) o args p x0 s = (.ok (x, fx), p', s')) :
    (∃ vals : List Flt, vals.length ≤ p.nit ∧ p'.stats.fx = vals ++ p.stats.fx.drop vals.length ∧ ∀ v ∈ vals, Spec.Proper v)
    ∧ fx = F x ∧ Spec.Proper fx := by
  obtain ⟨vals, h1, h2, h3⟩ := call_steps (fun a b => Spec.Proper a → Spec.Proper b) (fun _ h => h) F hF hp
    (accept_float hdot fun it L w L1 w1 beta alpha f_new D hit hr hd hst hmu hD e hle ha =>
      ⟨(accept_ne_nan hle).1, accept_ne_inf hmu hD ha.2 (e ▸ hle)⟩) h
  have all : ∀ v ∈ F x0 :: vals, Spec.Proper v := by
    have hc := h3.chain
    clear h1 h2 h3 h
    generalize F x0 = f0 at *
    induction vals generalizing f0 with
    | nil => intro v hv; rw [List.mem_singleton] at hv; rw [hv]; exact h0
    | cons a l ih =>
      rw [List.isChain_cons_cons] at hc
      intro v hv
      rcases List.mem_cons.1 hv with rfl | hv
      · exact h0
      · exact ih a (hc.1 h0) hc.2 v hv
  exact ⟨⟨vals, h1, h2, fun v hv => all v (List.mem_cons_of_mem _ hv)⟩, C64_consistent_pair F hF p p' x0 s s' x fx h,
    all _ (List.mem_of_getLast? h3.last)⟩

/-- The inner product is NaN if one of the entries is. -/
def Spec.NanDot (dot : (Fin n → Flt) → (Fin n → Flt) → Flt) : Prop := ∀ u v i, u i = nan ∨ v i = nan → dot u v = nan

/-- C135, the gradient: if the gradient at the start point has an entry that is NaN, the call ends at the start point, with the value that the
objective has there. -/
theorem C135_nan_gradient (hdot : Spec.NanDot dot) (F : (Fin n → Flt) → Flt) (hF : ∀ x s v s', o.f x args s = (.ok v, s') → v = F x)
    (p p' : Scg Flt) (x0 x : Fin n → Flt) (hg : ∀ s v s', o.df x0 args s = (.ok v, s') → ∃ i, v i = nan) (s s' : σ) (fx : Flt)
    (h : Scg.call (ieeeArith n dot) o args p x0 s = (.ok (x, fx), p', s')) : x = x0 ∧ fx = F x0 := by
  have dirs : ∀ (L L1 : ScgLoc Flt (Fin n → Flt)) (w w1 : World σ Flt) (j : ℕ), (L.success = true → ∃ i, L.grad_new i = nan) →
      (L.success = false → L.mu = nan) → DirPath (ieeeArith n dot) o j L w (.inl L1) w1 → L1.mu = nan ∧ L1.x = L.x ∧ L1.f_old = L.f_old := by
    intro L L1 w w1 j h1 h2 hd
    cases hd with
    | keep h => exact ⟨h2 h, rfl, rfl⟩
    | curv h hk sigma theta g_plus st hs hg ht =>
      refine ⟨?_, rfl, rfl⟩
      obtain ⟨i, hi⟩ := h1 h
      show (dirOf (ieeeArith n dot) L).2 = nan
      unfold dirOf
      split
      · exact hdot _ _ i (.inr hi)
      · exact hdot _ _ i (.inr hi)
  have rej : ∀ (mu alpha f_new f_old delta : Flt), mu = nan → (ieeeArith n dot).div ((ieeeArith n dot).mul ((ieeeArith n dot).lit 2)
      ((ieeeArith n dot).sub f_new f_old)) ((ieeeArith n dot).mul alpha mu) = .ok delta → (ieeeArith n dot).le ((ieeeArith n dot).lit 0) delta = true
      → False := by
    intro mu alpha f_new f_old delta e hd hle
    have hd := Except.ok.inj hd
    have hle : Flt.le _ _ = true := hle
    rw [← hd, show (ieeeArith n dot).mul alpha mu = Flt.mul alpha mu from rfl, e, mul_nan_right, div_nan_right, le_nan_right] at hle
    cases hle
  have inv : ∀ it L w, Reach (ieeeArith n dot) o args p x0 s it L w → L.x = x0 ∧ (L.success = true → ∃ i, L.grad_new i = nan)
      ∧ (L.success = false → L.mu = nan) := by
    intro it L w hr
    induction hr with
    | start f0 g0 s1 s2 hf hg' => exact ⟨rfl, fun _ => hg _ _ _ hg', fun h => by cases h⟩
    | step hr hit ht ih =>
      obtain ⟨i1, i2, i3⟩ := ih
      rcases (turn_ok _ o args).1 ht with ⟨q, hq, _⟩ | ⟨L1, w1, beta, alpha, hd, _, hm⟩
      · cases hq
      · obtain ⟨d1, d2, d3⟩ := dirs _ _ _ _ _ i2 i3 hd
        cases hm with
        | reject f_new delta st hf _ _ _ L' hL =>
          obtain ⟨e1, _, _, _, _, e6, _, _, e9⟩ := finish_ok _ hL
          exact ⟨by rw [e1]; exact d2.trans i1, fun h => (by rw [e6] at h; cases h), fun _ => by rw [e9]; exact d1⟩
        | accept f_new delta big f_now g st st2 st3 hf hdl hr' _ _ _ hf2 _ _ L' hL => exact (rej _ _ _ _ _ d1 hdl hr').elim
  have hx : x = x0 := by
    obtain ⟨it, L, w, hr, hc, _⟩ := call_reach _ o args h
    obtain ⟨i1, i2, i3⟩ := inv it L w hr
    rcases hc with ⟨_, hq, _⟩ | ⟨_, ht⟩
    · cases hq; exact i1
    · rcases (turn_ok _ o args).1 ht with ⟨q, hq, hd⟩ | ⟨L1, w1, beta, alpha, hd, _, hm⟩
      · cases hq
        generalize (⟨s', p'.stats⟩ : World σ Flt) = w' at hd
        cases hd with
        | zero hs _ => exact i1
      · obtain ⟨d1, d2, d3⟩ := dirs _ _ _ _ _ i2 i3 hd
        generalize (⟨s', p'.stats⟩ : World σ Flt) = w' at hm
        cases hm with
        | tol f_new delta big st hf hdl hr' _ _ _ _ => exact (rej _ _ _ _ _ d1 hdl hr').elim
        | flat f_new delta big f_now g st st2 st3 hf hdl hr' _ _ _ hf2 _ _ => exact (rej _ _ _ _ _ d1 hdl hr').elim
  exact ⟨hx, hx ▸ C64_consistent_pair F hF p p' x0 s s' x fx h⟩

/-! ## C136 -/

theorem ieee_total (hn : n ≠ 0) (dot : (Fin n → Flt) → (Fin n → Flt) → Flt) : Spec.TotalArith (ieeeArith n dot) :=
  ⟨fun _ _ => ⟨_, rfl⟩, fun _ => ⟨_, if_neg hn⟩⟩

/-- C66 in double precision: with functions that never raise, the call never raises, whatever they return, NaN and infinities included. -/
theorem C66_never_raises_floats (hn : n ≠ 0) (p : Scg Flt) (hp : Spec.Arrays p) (ho : Spec.NeverRaises o args) (x0 : Fin n → Flt) (s : σ) :
    ∃ x fx p' s', Scg.call (ieeeArith n dot) o args p x0 s = (.ok (x, fx), p', s') := by
  obtain ⟨q, p', s', h⟩ := call_total' (ieee_total hn dot) hp ho x0 s
  exact ⟨q.1, q.2, p', s', h⟩

/-- C136, the part that holds: the returned value is NaN only if the value at the start point is; the start point is then what is
returned. Missing: that the call raises in that case. It does not, see `C136_violated`. -/
theorem C136_nan_result_partial (F : (Fin n → Flt) → Flt) (hF : ∀ x s v s', o.f x args s = (.ok v, s') → v = F x)
    (p p' : Scg Flt) (hp : Spec.Arrays p) (x0 x : Fin n → Flt) (s s' : σ) (fx : Flt)
    (h : Scg.call (ieeeArith n dot) o args p x0 s = (.ok (x, fx), p', s')) :
    (fx = nan ↔ F x0 = nan) ∧ (fx = nan → x = x0) := by
  obtain ⟨vals, h1, h2, h3⟩ := call_steps (fun a b => a = nan ↔ b = nan) (fun _ => Iff.rfl) F hF hp
    (fun it L w _ hr L1 w1 beta alpha f_new delta hd hst hdl hle => by
      have hdl := Except.ok.inj hdl
      subst hdl
      obtain ⟨a, b⟩ := accept_ne_nan hle
      exact ⟨fun e => absurd e b, fun e => absurd e a⟩) h
  have hiff : fx = nan ↔ F x0 = nan := by
    have hc := h3.chain
    have hl := h3.last
    clear h1 h2 h3 h
    generalize F x0 = f0 at *
    induction vals generalizing f0 with
    | nil => cases hl; exact Iff.rfl
    | cons a l ih =>
      rw [List.isChain_cons_cons] at hc
      exact (ih a hc.2 (by rw [List.getLast?_cons_cons] at hl; exact hl)).trans hc.1.symm
  refine ⟨hiff, fun hfx => ?_⟩
  have h0 := hiff.1 hfx
  have rej : ∀ (P f_new f_old delta : Flt), f_old = nan → (ieeeArith n dot).div ((ieeeArith n dot).mul ((ieeeArith n dot).lit 2)
      ((ieeeArith n dot).sub f_new f_old)) P = .ok delta → (ieeeArith n dot).le ((ieeeArith n dot).lit 0) delta = true → False := by
    intro P f_new f_old delta e hd hle
    have hd := Except.ok.inj hd
    subst hd
    exact (accept_ne_nan hle).2 e
  have old : ∀ (L L1 : ScgLoc Flt (Fin n → Flt)) (w w1 : World σ Flt) (j : ℕ), DirPath (ieeeArith n dot) o j L w (.inl L1) w1 →
      L1.x = L.x ∧ L1.f_old = L.f_old := by
    intro L L1 w w1 j hd
    cases hd with
    | keep h => exact ⟨rfl, rfl⟩
    | curv h hk sigma theta g_plus st hs hg ht => exact ⟨rfl, rfl⟩
  have inv : ∀ it L w, Reach (ieeeArith n dot) o args p x0 s it L w → L.x = x0 ∧ L.f_old = nan := by
    intro it L w hr
    induction hr with
    | start f0 g0 s1 s2 hf hg' => exact ⟨rfl, (hF _ _ _ _ hf).trans h0⟩
    | step hr hit ht ih =>
      obtain ⟨i1, i2⟩ := ih
      rcases (turn_ok _ o args).1 ht with ⟨q, hq, _⟩ | ⟨L1, w1, beta, alpha, hd, _, hm⟩
      · cases hq
      · obtain ⟨d2, d3⟩ := old _ _ _ _ _ hd
        cases hm with
        | reject f_new delta st hf _ _ _ L' hL =>
          obtain ⟨e1, _, e3, _⟩ := finish_ok _ hL
          exact ⟨by rw [e1]; exact d2.trans i1, by rw [e3]; exact d3.trans i2⟩
        | accept f_new delta big f_now g st st2 st3 hf hdl hr' _ _ _ hf2 _ _ L' hL => exact (rej _ _ _ _ (d3.trans i2) hdl hr').elim
  obtain ⟨it, L, w, hr, hc, _⟩ := call_reach _ o args h
  obtain ⟨i1, i2⟩ := inv it L w hr
  rcases hc with ⟨_, hq, _⟩ | ⟨_, ht⟩
  · cases hq; exact i1
  · rcases (turn_ok _ o args).1 ht with ⟨q, hq, hd⟩ | ⟨L1, w1, beta, alpha, hd, _, hm⟩
    · cases hq
      generalize (⟨s', p'.stats⟩ : World σ Flt) = w' at hd
      cases hd with
      | zero hs _ => exact i1
    · obtain ⟨d2, d3⟩ := old _ _ _ _ _ hd
      generalize (⟨s', p'.stats⟩ : World σ Flt) = w' at hm
      cases hm with
      | tol f_new delta big st hf hdl hr' _ _ _ _ => exact (rej _ _ _ _ (d3.trans i2) hdl hr').elim
      | flat f_new delta big f_now g st st2 st3 hf hdl hr' _ _ _ hf2 _ _ => exact (rej _ _ _ _ (d3.trans i2) hdl hr').elim

/-- C136 does not hold: whenever the objective is NaN at the start point, the call returns normally, with the start point and NaN. -/
theorem C136_violated (hn : n ≠ 0) (ho : Spec.NeverRaises o args) (F : (Fin n → Flt) → Flt)
    (hF : ∀ x s v s', o.f x args s = (.ok v, s') → v = F x) (p : Scg Flt) (hp : Spec.Arrays p) (x0 : Fin n → Flt) (s : σ) (h0 : F x0 = nan) :
    ∃ p' s', Scg.call (ieeeArith n dot) o args p x0 s = (.ok (x0, nan), p', s') := by
  obtain ⟨⟨x, fx⟩, p', s', h⟩ := call_total' (ieee_total hn dot) hp ho x0 s
  obtain ⟨h1, h2⟩ := C136_nan_result_partial F hF p p' hp x0 x s s' fx h
  have h3 := h1.2 h0
  exact ⟨p', s', by rw [h, h3, h2 h3]⟩

/-! ## C137 -/

/-- In no iteration of the call does the product of step length and slope overflow to minus infinity. -/
def Spec.NoOverflow (dot : (Fin n → Flt) → (Fin n → Flt) → Flt) (o : Oracle σ A Flt (Fin n → Flt)) (args : A) (p : Scg Flt)
    (x0 : Fin n → Flt) (s : σ) : Prop :=
  ∀ it L w L1 w1 beta alpha, it < p.nit → Reach (ieeeArith n dot) o args p x0 s it L w → Scg.directional (ieeeArith n dot) o it L w = (.ok (.inl L1), w1) →
    Scg.stepSize (ieeeArith n dot) L1 = .ok (beta, alpha) → Flt.mul alpha L1.mu ≠ inf true

/-- C137, the part that holds: in double precision, for every objective and every gradient function, no iteration records a value that is
more than `2⁻⁵²` above the one before, and the returned value is at most `max_it · 2⁻⁵²` above the value at the start point, as long as no product
of a step length and a slope overflows. Missing: that the value does not increase at all, which is not so: `C137_violated`. -/
theorem C137_descent_floats_partial (hdot : Spec.OddDot dot) (F : (Fin n → Flt) → Flt)
    (hF : ∀ x s v s', o.f x args s = (.ok v, s') → v = F x) (p p' : Scg Flt) (hp : Spec.Arrays p) (x0 x : Fin n → Flt) (s s' : σ) (fx : Flt)
    (hov : Spec.NoOverflow dot o args p x0 s) (h : Scg.call (ieeeArith n dot) o args p x0 s = (.ok (x, fx), p', s')) :
    (∃ vals : List Flt, vals.length ≤ p.nit ∧ p'.stats.fx = vals ++ p.stats.fx.drop vals.length
      ∧ Spec.Steps (fun a b => b.val ≤ a.val + ((1 / 2 ^ 52 : ℝ) : EReal)) (F x0) vals fx)
    ∧ fx.val ≤ (F x0).val + ((p.nit / 2 ^ 52 : ℝ) : EReal) := by
  have e52 : (1 / 2 ^ 52 : ℝ) = 2 ^ (-52 : ℤ) := by rw [zpow_neg]; norm_num
  obtain ⟨vals, h1, h2, h3⟩ := call_steps (fun a b => b.val ≤ a.val + ((1 / 2 ^ 52 : ℝ) : EReal))
    (fun a => le_add_of_nonneg_right (EReal.coe_nonneg.2 (by positivity))) F hF hp
    (accept_float hdot fun it L w L1 w1 beta alpha f_new D hit hr hd hst hmu hD e hle => by
      have hov := hov it L w L1 w1 beta alpha hit hr ((directional_ok _ o).2 hd) hst
      subst e
      rw [e52]
      exact accept_bound hmu hD hov hle) h
  refine ⟨⟨vals, h1, h2, h3⟩, ?_⟩
  have key : fx.val ≤ (F x0).val + ((vals.length / 2 ^ 52 : ℝ) : EReal) := by
    have hc := h3.chain
    have hl := h3.last
    clear h1 h2 h3 h hov hp hF
    generalize F x0 = f0 at *
    induction vals generalizing f0 with
    | nil => cases hl; simp
    | cons a l ih =>
      rw [List.isChain_cons_cons] at hc
      refine (ih a hc.2 (by rw [List.getLast?_cons_cons] at hl; exact hl)).trans ?_
      refine (add_le_add_left hc.1 _).trans ?_
      rw [add_assoc, ← EReal.coe_add]
      refine add_le_add_right (EReal.coe_le_coe_iff.2 ?_) _
      rw [List.length_cons]
      push_cast
      apply le_of_eq
      ring
  refine key.trans (add_le_add_right (EReal.coe_le_coe_iff.2 ?_) _)
  gcongr

/-! ## The inner product from left to right -/

/-- Minus, up to the sign of a zero; the second one is NaN or not negative. -/
def Minus (a b : Flt) : Prop :=
  (a = nan ∧ b = nan) ∨ ((∃ s, a = zero s) ∧ ∃ s, b = zero s) ∨ (a = inf true ∧ b = inf false) ∨ ∃ r h, 0 < r ∧ a = num (-r) h ∧ ∃ h', b = num r h'

theorem round_minus {r : ℝ} (hr : 0 < r) : Minus (Flt.round (-r)) (Flt.round r) := by
  rw [round_neg hr.ne']
  have hs := round_sgn hr.ne'
  rw [decide_eq_false (not_lt.2 hr.le)] at hs
  cases e : Flt.round r with
  | nan => exact .inl ⟨rfl, rfl⟩
  | inf s => rw [e] at hs; cases hs; exact .inr (.inr (.inl ⟨rfl, rfl⟩))
  | zero s => exact .inr (.inl ⟨⟨_, rfl⟩, _, rfl⟩)
  | num q hq =>
    rw [e] at hs
    have : 0 < q := lt_of_le_of_ne (by simpa [sgn] using hs) hq.symm
    exact .inr (.inr (.inr ⟨q, _, this, rfl, _, rfl⟩))

theorem Minus.add {a b p q : Flt} (h : Minus a b) (h' : Minus p q) : Minus (Flt.add a p) (Flt.add b q) := by
  rcases h with ⟨rfl, rfl⟩ | ⟨⟨s, rfl⟩, t, rfl⟩ | ⟨rfl, rfl⟩ | ⟨r, h1, h2, rfl, h3, rfl⟩
  · rw [add_nan_left, add_nan_left]; exact .inl ⟨rfl, rfl⟩
  all_goals rcases h' with ⟨rfl, rfl⟩ | ⟨⟨s', rfl⟩, t', rfl⟩ | ⟨rfl, rfl⟩ | ⟨r', h1', h2', rfl, h3', rfl⟩
  all_goals first
    | exact .inl ⟨rfl, rfl⟩
    | exact .inr (.inl ⟨⟨_, rfl⟩, _, rfl⟩)
    | exact .inr (.inr (.inl ⟨rfl, rfl⟩))
    | exact .inr (.inr (.inr ⟨_, _, h2', rfl, _, rfl⟩))
    | exact .inr (.inr (.inr ⟨_, _, h2, rfl, _, rfl⟩))
    | skip
  have e1 : ¬ -r + -r' = 0 := by linarith
  have e2 : ¬ r + r' = 0 := by linarith
  simp only [Flt.add, e1, e2, if_false]
  rw [show -r + -r' = -(r + r') by ring]
  exact round_minus (by linarith)

theorem minus_square (a : Flt) : Minus (Flt.mul (Flt.neg a) a) (Flt.mul (Flt.neg a) (Flt.neg a)) := by
  cases a with
  | nan => exact .inl ⟨rfl, rfl⟩
  | inf s => cases s <;> exact .inr (.inr (.inl ⟨rfl, rfl⟩))
  | zero s => exact .inr (.inl ⟨⟨_, rfl⟩, _, rfl⟩)
  | num r h =>
    simp only [Flt.mul, Flt.neg]
    rw [show -r * r = -(-r * -r) by ring]
    exact round_minus (mul_self_pos.2 (neg_ne_zero.2 h))

theorem dot_odd : Spec.OddDot (Flt.dot (n := n)) := by
  intro g d
  have key : ∀ (l : List (Fin n)) (a b : Flt), Minus a b →
      Minus ((l.map fun i => Flt.mul (d i) (g i)).foldl Flt.add a) ((l.map fun i => Flt.mul (d i) (d i)).foldl Flt.add b) := by
    intro l
    induction l with
    | nil => intro a b h; exact h
    | cons i l ih => intro a b h; exact ih _ _ (h.add (minus_square (g i)))
  have := key (List.finRange n) (zero false) (zero false) (.inr (.inl ⟨⟨_, rfl⟩, _, rfl⟩))
  unfold Flt.dot Flt.sum
  rw [List.ofFn_eq_map, List.ofFn_eq_map]
  generalize ((List.finRange n).map fun i => Flt.mul (d i) (g i)).foldl Flt.add (zero false) = a at *
  generalize ((List.finRange n).map fun i => Flt.mul (d i) (d i)).foldl Flt.add (zero false) = b at *
  rcases this with h | ⟨⟨s, rfl⟩, t, rfl⟩ | ⟨rfl, rfl⟩ | ⟨r, h1, h2, rfl, h3, rfl⟩
  · exact .inl h
  · exact .inr ⟨by simp, by simp, by simp [val]⟩
  · exact .inr ⟨by simp, by simp, by simp [val]⟩
  · exact .inr ⟨by simp, by simp, by simp [val]⟩

theorem dot_nan : Spec.NanDot (Flt.dot (n := n)) := by
  intro u v i hi
  have stay : ∀ l : List Flt, l.foldl Flt.add nan = nan := by
    intro l
    induction l with
    | nil => rfl
    | cons a l ih => rw [List.foldl_cons, add_nan_left]; exact ih
  have key : ∀ (l : List Flt) (a : Flt), nan ∈ l → l.foldl Flt.add a = nan := by
    intro l
    induction l with
    | nil => intro a h; cases h
    | cons b l ih =>
      intro a h
      rcases List.mem_cons.1 h with h | h
      · rw [List.foldl_cons, ← h, add_nan_right]; exact stay l
      · exact ih _ h
  unfold Flt.dot Flt.sum
  refine key _ _ ?_
  rw [List.mem_ofFn]
  refine ⟨i, ?_⟩
  rcases hi with e | e
  · rw [e, mul_nan_left]
  · rw [e, mul_nan_right]

/-! ## Powers of two, and the run that goes up -/

/-- `2^k`, a double for `-1022 ≤ k < 1024`. -/
noncomputable def pow2 (k : ℤ) : Flt := num (2 ^ k) (two_zpow_pos k).ne'

theorem mul_pow2 {j k : ℤ} (h : -1022 ≤ j + k) (h' : j + k < 1024) : Flt.mul (pow2 j) (pow2 k) = pow2 (j + k) := by
  unfold pow2
  rw [Flt.mul, ← zpow_add₀ (by norm_num)]
  exact round_zpow h h'

theorem mul_neg_pow2 {j k : ℤ} (h : -1022 ≤ j + k) (h' : j + k < 1024) : Flt.mul (Flt.neg (pow2 j)) (pow2 k) = Flt.neg (pow2 (j + k)) := by
  have e := round_zpow h h'
  unfold pow2
  rw [Flt.neg, Flt.mul, neg_mul, ← zpow_add₀ (by norm_num), round_neg (two_zpow_pos _).ne', e]

theorem mul_pow2_neg {j k : ℤ} (h : -1022 ≤ j + k) (h' : j + k < 1024) : Flt.mul (pow2 j) (Flt.neg (pow2 k)) = Flt.neg (pow2 (j + k)) := by
  have e := round_zpow h h'
  unfold pow2
  rw [Flt.neg, Flt.mul, mul_neg, ← zpow_add₀ (by norm_num), round_neg (two_zpow_pos _).ne', e]

theorem mul_neg_neg_pow2 {j k : ℤ} (h : -1022 ≤ j + k) (h' : j + k < 1024) :
    Flt.mul (Flt.neg (pow2 j)) (Flt.neg (pow2 k)) = pow2 (j + k) := by
  have e := round_zpow h h'
  unfold pow2
  rw [Flt.neg, Flt.neg, Flt.mul, neg_mul_neg, ← zpow_add₀ (by norm_num), e]

theorem div_neg_pow2 {j k : ℤ} (h : -1022 ≤ j - k) (h' : j - k < 1024) : Flt.div (Flt.neg (pow2 j)) (pow2 k) = Flt.neg (pow2 (j - k)) := by
  have e := round_zpow h h'
  unfold pow2
  rw [Flt.neg, Flt.div, neg_div, ← zpow_sub₀ (by norm_num), round_neg (two_zpow_pos _).ne', e]

theorem div_pow2_neg_tiny {j k : ℤ} (h : j - k < -1075) : Flt.div (pow2 j) (Flt.neg (pow2 k)) = zero true := by
  have hp := two_zpow_pos (j - k)
  unfold pow2
  rw [Flt.neg, Flt.div, div_neg, ← zpow_sub₀ (by norm_num), round_tiny (neg_ne_zero.2 hp.ne')]
  · simp [hp]
  · rw [abs_neg, abs_of_pos hp]
    exact zpow_lt_zpow_right₀ (by norm_num) h

open Classical in
/-- An objective of one variable: `0` at zero and `2^-100` elsewhere. -/
noncomputable def bump100 (x : Fin 1 → Flt) : Flt := if x 0 = zero false then zero false else pow2 (-100)

/-- This objective with the constant `2^500` as the gradient. -/
noncomputable def bumpOracle : Oracle Unit Unit Flt (Fin 1 → Flt) where
  f x _ s := (.ok (bump100 x), s)
  df _ _ s := (.ok fun _ => pow2 500, s)
  dfEval _ s := (.ok fun _ => pow2 500, s)

theorem dot_one (u v : Fin 1 → Flt) : Flt.dot u v = Flt.add (zero false) (Flt.mul (u 0) (v 0)) := by
  simp [Flt.dot, Flt.sum, List.ofFn_succ]

theorem add_zero_pow2 (s : Bool) (k : ℤ) : Flt.add (zero s) (pow2 k) = pow2 k := rfl
theorem add_zero_neg_pow2 (s : Bool) (k : ℤ) : Flt.add (zero s) (Flt.neg (pow2 k)) = Flt.neg (pow2 k) := rfl

theorem bump_mu : Flt.dot (fun _ : Fin 1 => Flt.neg (pow2 500)) (fun _ => pow2 500) = Flt.neg (pow2 1000) := by
  rw [dot_one, mul_neg_pow2 (by norm_num) (by norm_num)]; rfl

theorem bump_kappa : Flt.dot (fun _ : Fin 1 => Flt.neg (pow2 500)) (fun _ => Flt.neg (pow2 500)) = pow2 1000 := by
  rw [dot_one, mul_neg_neg_pow2 (by norm_num) (by norm_num)]; rfl

/-- The locals at the start of the run. -/
noncomputable def bumpStart : ScgLoc Flt (Fin 1 → Flt) :=
  ScgLoc.start (ieeeArith 1 Flt.dot) (fun _ => zero false) (zero false) (fun _ => pow2 500)

theorem bump_dirOf : dirOf (ieeeArith 1 Flt.dot) bumpStart = (fun _ => Flt.neg (pow2 500), Flt.neg (pow2 1000)) := by
  have hc : ¬ (ieeeArith 1 Flt.dot).le ((ieeeArith 1 Flt.dot).lit 0) ((ieeeArith 1 Flt.dot).dot bumpStart.d bumpStart.grad_new) = true := by
    show ¬ Flt.le (Flt.lit 0) (Flt.dot (fun _ : Fin 1 => Flt.neg (pow2 500)) (fun _ => pow2 500)) = true
    rw [bump_mu, Flt.le_iff, lit_zero]
    rintro ⟨_, _, h⟩
    simp only [pow2, Flt.neg, val] at h
    have h : (0 : ℝ) ≤ -2 ^ (1000 : ℤ) := by exact_mod_cast h
    exact absurd (two_zpow_pos 1000) (not_lt.2 (neg_nonneg.1 h))
  unfold dirOf
  rw [if_neg hc]
  exact Prod.ext rfl bump_mu

theorem bump_goes_on {q : (Fin 1 → Flt) × Flt} {w w1 : World Unit Flt}
    (hd : DirPath (ieeeArith 1 Flt.dot) bumpOracle 0 bumpStart w (.inr q) w1) : False := by
  generalize hL : bumpStart = L at hd
  cases hd with
  | zero h hk =>
    subst hL
    rw [bump_dirOf] at hk
    have hk : Flt.lt (Flt.dot (fun _ : Fin 1 => Flt.neg (pow2 500)) (fun _ => Flt.neg (pow2 500))) (Flt.lit (1 / 2 ^ 52)) = true := hk
    rw [bump_kappa, lit_eps, Flt.lt_iff] at hk
    simp only [pow2, val, EReal.coe_lt_coe_iff] at hk
    have h1 : (2 : ℝ) ^ (-52 : ℤ) ≤ 2 ^ (1000 : ℤ) := zpow_le_zpow_right₀ (by norm_num) (by norm_num)
    exact absurd hk.2.2 (not_lt.2 h1)

/-- The first iteration of the run. -/
theorem bump_dir {L1 : ScgLoc Flt (Fin 1 → Flt)} {w w1 : World Unit Flt}
    (hd : DirPath (ieeeArith 1 Flt.dot) bumpOracle 0 bumpStart w (.inl L1) w1) :
    L1.mu = Flt.neg (pow2 1000) ∧ L1.x = (fun _ => zero false) ∧ L1.f_old = zero false ∧ L1.d = (fun _ => Flt.neg (pow2 500))
      ∧ L1.kappa = pow2 1000 ∧ L1.beta = Flt.lit 1 ∧ ∃ s, L1.theta = zero s := by
  have hdir := bump_dirOf
  have kap := bump_kappa
  generalize hL : bumpStart = L at hd hdir
  cases hd with
  | keep h => rw [← hL] at h; cases h
  | curv h hk sigma theta g_plus st hs hg ht =>
    rw [hdir] at hs hg ht
    refine ⟨by rw [hdir], by rw [← hL]; rfl, by rw [← hL]; rfl, by rw [hdir], by rw [hdir]; exact kap, by rw [← hL]; rfl, ?_⟩
    rw [← hL] at ht
    have hg : g_plus = fun _ => pow2 500 := by
      have := congrArg Prod.fst hg
      exact (Except.ok.inj this).symm
    have hs := Except.ok.inj hs
    have ht := Except.ok.inj ht
    subst hg
    -- the step for the second derivative is positive
    have l1 : Ge (Flt.lit (1 / 1000)) (2 ^ (-10 : ℤ)) := by
      unfold Flt.lit
      rw [if_neg (by norm_num)]
      exact round_ge (by norm_num) (by push_cast; rw [zpow_neg]; norm_num)
    have hsq : Flt.sqrt (pow2 1000) = pow2 500 := by
      unfold pow2 Flt.sqrt
      dsimp only
      rw [if_neg (not_lt.2 (two_zpow_pos _).le)]
      have : Real.sqrt ((2 : ℝ) ^ (1000 : ℤ)) = 2 ^ (500 : ℤ) := by
        rw [show (2 : ℝ) ^ (1000 : ℤ) = (2 ^ (500 : ℤ)) ^ 2 by rw [← zpow_natCast, ← zpow_mul]; norm_num]
        exact Real.sqrt_sq (two_zpow_pos _).le
      rw [this]
      exact round_zpow (by norm_num) (by norm_num)
    have hs : sigma = Flt.div (Flt.lit (1 / 1000)) (pow2 500) := by
      refine hs.symm.trans ((congrArg (fun k => Flt.div (Flt.lit (1 / 1000)) (Flt.sqrt k)) kap).trans ?_)
      show Flt.div (Flt.lit (1 / 1000)) (Flt.sqrt (pow2 1000)) = _
      rw [hsq]
    have hsp : sigma ≠ nan ∧ ∀ s, sigma ≠ zero s := by
      rw [hs]
      obtain ⟨a, b⟩ := l1
      cases e : Flt.lit (1 / 1000) with
      | nan => exact absurd e a
      | inf s => simp [pow2, Flt.div]
      | zero s =>
        rw [e] at b
        have : (2 : ℝ) ^ (-10 : ℤ) ≤ 0 := by exact_mod_cast (show (((2 : ℝ) ^ (-10 : ℤ) : ℝ) : EReal) ≤ 0 from b)
        linarith [two_zpow_pos (-10)]
      | num r hr =>
        rw [e] at b
        have b : (2 : ℝ) ^ (-10 : ℤ) ≤ r := EReal.coe_le_coe_iff.1 b
        have g : Ge (Flt.round (r / 2 ^ (500 : ℤ))) (2 ^ (-510 : ℤ)) := by
          refine round_ge (by norm_num) ?_
          rw [le_div_iff₀ (two_zpow_pos _), ← zpow_add₀ (by norm_num)]
          exact b
        refine ⟨round_ne_nan _, fun s e => ?_⟩
        have e : Flt.round (r / 2 ^ (500 : ℤ)) = zero s := e
        rw [e] at g
        have : (2 : ℝ) ^ (-510 : ℤ) ≤ 0 := by exact_mod_cast (show (((2 : ℝ) ^ (-510 : ℤ) : ℝ) : EReal) ≤ 0 from g.2)
        linarith [two_zpow_pos (-510)]
    have hz : Flt.dot (fun _ : Fin 1 => Flt.neg (pow2 500)) (fun _ => Flt.sub (pow2 500) (pow2 500)) = zero false := by
      have : Flt.sub (pow2 500) (pow2 500) = zero false := by simp [pow2, Flt.sub, Flt.add, Flt.neg]
      rw [dot_one, this]
      have h2 : (decide (-(2 : ℝ) ^ (500 : ℤ) < 0)) = true := by simp [two_zpow_pos 500]
      simp [pow2, Flt.neg, Flt.mul, Flt.add]
    have ht : theta = Flt.div (zero false) sigma := by rw [← ht, ← hz]; rfl
    show ∃ s, theta = zero s
    rw [ht]
    cases sigma with
    | nan => exact absurd rfl hsp.1
    | inf s => exact ⟨_, rfl⟩
    | zero s => exact absurd rfl (hsp.2 s)
    | num r hr => exact ⟨_, rfl⟩

theorem bump_step {L1 : ScgLoc Flt (Fin 1 → Flt)} {beta alpha : Flt} (hm : L1.mu = Flt.neg (pow2 1000)) (hk : L1.kappa = pow2 1000)
    (hb : L1.beta = Flt.lit 1) (ht : ∃ s, L1.theta = zero s) (hst : Scg.stepSize (ieeeArith 1 Flt.dot) L1 = .ok (beta, alpha)) :
    alpha = pow2 0 := by
  have l1 : Flt.lit 1 = pow2 0 := by
    have := round_zpow (k := 0) (by norm_num) (by norm_num)
    unfold Flt.lit pow2
    rw [if_neg (by norm_num)]
    push_cast
    simpa using this
  obtain ⟨s, ht⟩ := ht
  have hdl : Flt.add L1.theta (Flt.mul L1.beta L1.kappa) = pow2 1000 := by
    rw [ht, hb, hk, l1, mul_pow2 (by norm_num) (by norm_num)]; rfl
  have hc : ¬ (ieeeArith 1 Flt.dot).le ((ieeeArith 1 Flt.dot).add L1.theta ((ieeeArith 1 Flt.dot).mul L1.beta L1.kappa))
      ((ieeeArith 1 Flt.dot).lit 0) = true := by
    show ¬ Flt.le (Flt.add L1.theta (Flt.mul L1.beta L1.kappa)) (Flt.lit 0) = true
    rw [hdl, Flt.le_iff, lit_zero]
    rintro ⟨_, _, h⟩
    simp only [pow2, val] at h
    have h : (2 : ℝ) ^ (1000 : ℤ) ≤ 0 := by exact_mod_cast h
    exact absurd (two_zpow_pos 1000) (not_lt.2 h)
  unfold Scg.stepSize at hst
  simp only [hc, if_false, Bool.false_eq_true] at hst
  simp only [ieeeArith, bind, Except.bind, pure, Except.pure, Except.ok.injEq, Prod.mk.injEq] at hst
  rw [hdl, hm, div_neg_pow2 (by norm_num) (by norm_num), Flt.neg_neg] at hst
  rw [← hst.2]
  norm_num

/-- C137 does not hold as it stands: there is an objective, with gradient values, for which one iteration of the optimizer takes a step that
raises the value, and the call returns a value greater than the value at the start point. No product of step length and slope overflows. The step is
accepted because the comparison ratio, `-2^-1099`, is rounded to minus zero, and `-0.0 >= 0.0` is true. -/
theorem C137_violated : let x0 : Fin 1 → Flt := fun _ => zero false
    Spec.NoOverflow Flt.dot bumpOracle () (Scg.init (ieeeArith 1 Flt.dot) (some 1) none none) x0 ()
    ∧ ∃ x fx p' s', Scg.call (ieeeArith 1 Flt.dot) bumpOracle () (Scg.init (ieeeArith 1 Flt.dot) (some 1) none none) x0 () = (.ok (x, fx), p', s')
      ∧ Flt.lt (bump100 x0) fx = true := by
  intro x0
  set p := Scg.init (ieeeArith 1 Flt.dot) (some 1) none none with hp
  have h0 : bump100 x0 = zero false := if_pos rfl
  have hprod : Flt.mul (pow2 0) (Flt.neg (pow2 1000)) = Flt.neg (pow2 1000) := mul_pow2_neg (by norm_num) (by norm_num)
  constructor
  · intro it L w L1 w1 beta alpha hit hr hd hst
    cases hr with
    | start f0 g0 s1 s2 hf hg =>
      have hf : f0 = zero false := (Except.ok.inj (congrArg Prod.fst hf)).symm.trans h0
      have hg : g0 = fun _ => pow2 500 := (Except.ok.inj (congrArg Prod.fst hg)).symm
      subst hf hg
      obtain ⟨e1, _, _, _, e5, e6, e7⟩ := bump_dir ((directional_ok _ _).1 hd)
      rw [bump_step e1 e5 e6 e7 hst, e1, hprod]
      simp [pow2, Flt.neg]
    | step _ h _ => exact absurd hit (by simp [hp, Scg.init])
  · obtain ⟨⟨x, fx⟩, p', s', h⟩ := call_total' (ar := ieeeArith 1 Flt.dot) (o := bumpOracle) (args := ()) (ieee_total one_ne_zero _)
      (Scg.init_arrays _ (some 1) none none) ⟨fun _ _ => ⟨_, _, rfl⟩, fun _ _ => ⟨_, _, rfl⟩, fun _ _ => ⟨_, _, rfl⟩⟩ x0 ()
    refine ⟨x, fx, p', s', h, ?_⟩
    have hF : fx = bump100 x := C64_consistent_pair bump100 (fun x s v s' h => (Except.ok.inj (congrArg Prod.fst h)).symm) _ _ _ _ _ _ _ h
    suffices hx : x 0 ≠ zero false by
      rw [hF, h0, bump100, if_neg hx, Flt.lt_iff]
      refine ⟨by simp, by simp [pow2], ?_⟩
      simp only [pow2, val, EReal.coe_pos]
      exact two_zpow_pos _
    have hnew : (ieeeArith 1 Flt.dot).vadd (fun _ => zero false) ((ieeeArith 1 Flt.dot).smul (pow2 0) (fun _ => Flt.neg (pow2 500))) 0
        ≠ zero false := by
      show Flt.add (zero false) (Flt.mul (pow2 0) (Flt.neg (pow2 500))) ≠ zero false
      rw [mul_pow2_neg (by norm_num) (by norm_num)]
      simp [pow2, Flt.neg, Flt.add]
    obtain ⟨f0, g0, s1, s2, t, hf, hg, hl, _⟩ := (call_ok _ _ _).1 h
    have hf : f0 = zero false := (Except.ok.inj (congrArg Prod.fst hf)).symm.trans h0
    have hg : g0 = fun _ => pow2 500 := (Except.ok.inj (congrArg Prod.fst hg)).symm
    subst hf hg
    rw [show List.range (Scg.init (ieeeArith 1 Flt.dot) (some 1) none none).nit = [0] from rfl] at hl
    simp only [Scg.loop, ScgM.bind_ok] at hl
    obtain ⟨r, w1, ht, hr⟩ := hl
    rcases (turn_ok _ _ _).1 ht with ⟨q, rfl, hd⟩ | ⟨L1, w1', beta, alpha, hd, hst, hm⟩
    · exact (bump_goes_on hd).elim
    · obtain ⟨e1, e2, e3, e4, e5, e6, e7⟩ := bump_dir hd
      obtain rfl := bump_step e1 e5 e6 e7 hst
      have xnew : (ieeeArith 1 Flt.dot).vadd L1.x ((ieeeArith 1 Flt.dot).smul (pow2 0) L1.d) 0 ≠ zero false := by rw [e2, e4]; exact hnew
      cases hm with
      | reject f_new delta st hf hdl hr' hj L' hfin =>
        exfalso
        have hf : f_new = pow2 (-100) := by
          have := (Except.ok.inj (congrArg Prod.fst hf)).symm
          rw [this, bump100, if_neg xnew]
        have hdl := Except.ok.inj hdl
        have : delta = zero true := by
          rw [← hdl, hf]
          show Flt.div (Flt.mul (Flt.lit 2) (Flt.sub (pow2 (-100)) L1.f_old)) (Flt.mul (pow2 0) L1.mu) = zero true
          have l2 : Flt.lit 2 = pow2 1 := by rw [lit_two]; simp [pow2]
          rw [e3, e1, hprod, l2, show Flt.sub (pow2 (-100)) (zero false) = pow2 (-100) from rfl, mul_pow2 (by norm_num) (by norm_num)]
          exact div_pow2_neg_tiny (by norm_num)
        have hr' : Flt.le (Flt.lit 0) delta = false := hr'
        have : Flt.le (Flt.lit 0) delta = true := by
          rw [this, Flt.le_iff, lit_zero]
          exact ⟨by simp, by simp, le_rfl⟩
        rw [this] at hr'
        cases hr'
      | tol f_new delta big st hf hdl hr' hj _ _ _ =>
        simp only [ScgM.pure_ok] at hr
        cases hr.1
        exact xnew
      | flat f_new delta big f_now g st st2 st3 hf hdl hr' hj _ _ hf2 _ _ =>
        simp only [ScgM.pure_ok] at hr
        cases hr.1
        exact xnew
      | accept f_new delta big f_now g st st2 st3 hf hdl hr' hj _ _ _ _ _ L' hfin =>
        simp only [ScgM.pure_ok] at hr
        cases hr.1
        rw [(finish_ok _ hfin).1]
        exact xnew

/-! ## Examples -/

/-- C135 for the square: started at `2`, with the default options, the optimizer returns the square of the point it returns, and neither NaN nor plus
infinity. -/
example : let F : (Fin 1 → Flt) → Flt := fun x => Flt.mul (x 0) (x 0)
    let o : Oracle Unit Unit Flt (Fin 1 → Flt) := ⟨fun x _ s => (.ok (F x), s), fun x _ s => (.ok fun i => Flt.mul (Flt.lit 2) (x i), s),
      fun x s => (.ok fun i => Flt.mul (Flt.lit 2) (x i), s)⟩
    ∃ x p' s', Scg.call (ieeeArith 1 Flt.dot) o () (Scg.init (ieeeArith 1 Flt.dot) none none none) (fun _ => pow2 1) () = (.ok (x, F x), p', s')
      ∧ Spec.Proper (F x) := by
  intro F o
  obtain ⟨x, fx, p', s', h⟩ := C66_never_raises_floats (dot := Flt.dot) (o := o) (args := ()) one_ne_zero
    (Scg.init (ieeeArith 1 Flt.dot) none none none) (Scg.init_arrays _ _ _ _)
    ⟨fun _ _ => ⟨_, _, rfl⟩, fun _ _ => ⟨_, _, rfl⟩, fun _ _ => ⟨_, _, rfl⟩⟩ (fun _ => pow2 1) ()
  have h0 : Spec.Proper (F fun _ => pow2 1) := by
    show Spec.Proper (Flt.mul (pow2 1) (pow2 1))
    rw [mul_pow2 (by norm_num) (by norm_num)]
    exact ⟨by simp [pow2], by simp [pow2]⟩
  obtain ⟨_, e, hp⟩ := C135_stays_proper dot_odd F (fun x s v s' h => (Except.ok.inj (congrArg Prod.fst h)).symm) _ _ (Scg.init_arrays _ _ _ _) _ _ _ _
    _ h0 h
  rw [e] at h hp
  exact ⟨x, p', s', h, hp⟩

/-- C135, C136: an objective that is NaN everywhere. -/
example : let o : Oracle Unit Unit Flt (Fin 2 → Flt) := ⟨fun _ _ s => (.ok nan, s), fun _ _ s => (.ok fun _ => nan, s), fun _ s => (.ok fun _ => nan, s)⟩
    ∃ p' s', Scg.call (ieeeArith 2 Flt.dot) o () (Scg.init (ieeeArith 2 Flt.dot) none none none) (fun _ => pow2 0) ()
      = (.ok (fun _ => pow2 0, nan), p', s') := by
  intro o
  exact C136_violated two_ne_zero ⟨fun _ _ => ⟨_, _, rfl⟩, fun _ _ => ⟨_, _, rfl⟩, fun _ _ => ⟨_, _, rfl⟩⟩ (fun _ => nan)
    (fun x s v s' h => (Except.ok.inj (congrArg Prod.fst h)).symm) _ (Scg.init_arrays _ _ _ _) _ () rfl

/-- C135, the gradient, and C137: the hypotheses are met. -/
example : Spec.NanDot (Flt.dot (n := 3)) ∧ Spec.OddDot (Flt.dot (n := 3))
    ∧ Spec.NoOverflow Flt.dot bumpOracle () (Scg.init (ieeeArith 1 Flt.dot) (some 1) none none) (fun _ => zero false) () :=
  ⟨dot_nan, dot_odd, C137_violated.1⟩

end VGPA
