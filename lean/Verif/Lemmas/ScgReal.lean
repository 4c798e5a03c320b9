import Verif.Lemmas.Scg

/-!
# The optimizer over the reals: invariants of the loop
-/

namespace VGPA

variable {σ A : Type} {n : ℕ} {o : Oracle σ A ℝ (Fin n → ℝ)} {args : A}

/-- What holds for the locals between two iterations. -/
structure GoodLoc (n : ℕ) (L : ScgLoc ℝ (Fin n → ℝ)) : Prop where
  beta : 1 / 10 ^ 15 ≤ L.beta
  count : L.count_success < n ∨ (n = 0 ∧ L.success = true)
  kept : L.success = false → L.mu = L.d ⬝ᵥ L.grad_new ∧ L.mu < 0 ∧ L.kappa = L.d ⬝ᵥ L.d ∧ 1 / 2 ^ 52 ≤ L.kappa

/-- What holds for the locals when the step is computed. -/
structure StepLoc (n : ℕ) (L : ScgLoc ℝ (Fin n → ℝ)) : Prop where
  beta : 1 / 10 ^ 15 ≤ L.beta
  count : L.count_success < n
  mu : L.mu = L.d ⬝ᵥ L.grad_new
  descent : L.mu < 0
  kappa : L.kappa = L.d ⬝ᵥ L.d
  big : 1 / 2 ^ 52 ≤ L.kappa

theorem GoodLoc.start (x0 : Fin n → ℝ) (f0 : ℝ) (g0 : Fin n → ℝ) : GoodLoc n (ScgLoc.start (realArith n) x0 f0 g0) := by
  refine ⟨?_, ?_, ?_⟩
  · simp only [ScgLoc.start, realArith]; norm_num
  · rcases Nat.eq_zero_or_pos n with h | h
    · exact .inr ⟨h, rfl⟩
    · exact .inl h
  · intro h; simp [ScgLoc.start] at h

theorem dotProduct_self_nonneg_real (v : Fin n → ℝ) : 0 ≤ v ⬝ᵥ v :=
  Finset.sum_nonneg fun i _ => mul_self_nonneg (v i)

theorem dirOf_real (L : ScgLoc ℝ (Fin n → ℝ)) :
    (dirOf (realArith n) L).2 = (dirOf (realArith n) L).1 ⬝ᵥ L.grad_new
      ∧ (0 < (dirOf (realArith n) L).1 ⬝ᵥ (dirOf (realArith n) L).1 → (dirOf (realArith n) L).2 < 0) := by
  unfold dirOf
  simp only [realArith, Rat.cast_zero, decide_eq_true_eq]
  split
  · refine ⟨rfl, fun h => ?_⟩
    simp only [neg_dotProduct, dotProduct_neg, neg_neg] at h ⊢
    linarith
  · next h => exact ⟨rfl, fun _ => by simpa using h⟩

theorem dirPath_good {j : ℕ} {L L1 : ScgLoc ℝ (Fin n → ℝ)} {w w1 : World σ ℝ} (hL : GoodLoc n L)
    (hd : DirPath (realArith n) o j L w (.inl L1) w1) : StepLoc n L1 := by
  cases hd with
  | keep h =>
    obtain ⟨k1, k2, k3, k4⟩ := hL.kept h
    refine ⟨hL.beta, ?_, k1, k2, k3, k4⟩
    rcases hL.count with h' | ⟨_, h'⟩
    · exact h'
    · rw [h] at h'; cases h'
  | curv h hk sigma theta g_plus st hs hg ht =>
    have hk' : (1 / 2 ^ 52 : ℝ) ≤ (dirOf (realArith n) L).1 ⬝ᵥ (dirOf (realArith n) L).1 := by
      have : ¬ ((dirOf (realArith n) L).1 ⬝ᵥ (dirOf (realArith n) L).1 < ((1 / 2 ^ 52 : ℚ) : ℝ)) := by
        simpa [realArith] using hk
      push_cast at this
      linarith [not_lt.1 this]
    obtain ⟨e1, e2⟩ := dirOf_real L
    refine ⟨hL.beta, ?_, e1, e2 (lt_of_lt_of_le (by norm_num) hk'), rfl, hk'⟩
    rcases hL.count with h' | ⟨h', _⟩
    · exact h'
    · subst h'
      exfalso
      have : (dirOf (realArith 0) L).1 ⬝ᵥ (dirOf (realArith 0) L).1 = 0 := by simp [dotProduct]
      rw [this] at hk'
      norm_num at hk'

theorem StepLoc.pos {L : ScgLoc ℝ (Fin n → ℝ)} (h : StepLoc n L) : 0 < n ∧ 0 < L.kappa ∧ 0 < L.beta := by
  have hb := h.beta
  have hk := h.big
  refine ⟨lt_of_le_of_lt (Nat.zero_le _) h.count, lt_of_lt_of_le (by norm_num) hk, lt_of_lt_of_le (by norm_num) hb⟩

/-- The step length is positive, the scale stays at least `1e-15`, and nothing is divided by zero. -/
theorem stepSize_real {L : ScgLoc ℝ (Fin n → ℝ)} (h : StepLoc n L) :
    ∃ beta delta, Scg.stepSize (realArith n) L = .ok (beta, -(L.mu / delta)) ∧ 0 < delta ∧ 0 < -(L.mu / delta) ∧ L.beta ≤ beta
      ∧ (0 < L.theta + L.beta * L.kappa → beta = L.beta ∧ delta = L.theta + L.beta * L.kappa) := by
  obtain ⟨_, hk, hb⟩ := h.pos
  have hmu := h.descent
  have key : ∀ delta : ℝ, 0 < delta → 0 < -(L.mu / delta) := fun delta hd => neg_pos.2 (div_neg_of_neg_of_pos hmu hd)
  unfold Scg.stepSize
  simp only [realArith, Rat.cast_zero, decide_eq_true_eq, bind, Except.bind, pure, Except.pure]
  by_cases hd : L.theta + L.beta * L.kappa ≤ 0
  · have hpos : 0 < L.beta * L.kappa := mul_pos hb hk
    rw [if_pos hd]
    simp only [hk.ne', if_false, hpos.ne']
    refine ⟨_, _, rfl, hpos, key _ hpos, ?_, fun h' => absurd h' (not_lt.2 hd)⟩
    have : L.theta / L.kappa ≤ 0 := by
      apply div_nonpos_of_nonpos_of_nonneg _ hk.le
      linarith
    linarith
  · rw [if_neg hd]
    have hpos := not_le.1 hd
    simp only [hpos.ne', if_false]
    exact ⟨_, _, rfl, hpos, key _ hpos, le_rfl, fun _ => ⟨rfl, rfl⟩⟩

/-- The comparison ratio is not negative exactly when the objective has not increased. -/
theorem ratio_real {f_new f_old alpha mu : ℝ} (ha : 0 < alpha) (hm : mu < 0) :
    (realArith n).div ((realArith n).mul ((realArith n).lit 2) ((realArith n).sub f_new f_old)) ((realArith n).mul alpha mu)
        = .ok (2 * (f_new - f_old) / (alpha * mu))
      ∧ ((realArith n).le ((realArith n).lit 0) (2 * (f_new - f_old) / (alpha * mu)) = true ↔ f_new ≤ f_old) := by
  have hneg : alpha * mu < 0 := mul_neg_of_pos_of_neg ha hm
  simp only [realArith, hneg.ne, if_false, Rat.cast_ofNat, Rat.cast_zero, decide_eq_true_eq, true_and]
  constructor
  · intro h
    by_contra hc
    push Not at hc
    have : 2 * (f_new - f_old) / (alpha * mu) < 0 := div_neg_of_pos_of_neg (by linarith) hneg
    linarith
  · intro h
    exact div_nonneg_of_nonpos (by linarith) hneg.le

/-- The new scale. -/
theorem newBeta_real {delta b : ℝ} (hb : 1 / 10 ^ 15 ≤ b) :
    1 / 10 ^ 15 ≤ (if (realArith n).lt ((realArith n).lit (3 / 4)) delta
      then (realArith n).max ((realArith n).mul ((realArith n).lit (1 / 2))
        (if (realArith n).lt delta ((realArith n).lit (1 / 4)) then (realArith n).min ((realArith n).mul ((realArith n).lit 4) b)
          ((realArith n).lit (10 ^ 100)) else b)) ((realArith n).lit (1 / 10 ^ 15))
      else if (realArith n).lt delta ((realArith n).lit (1 / 4)) then (realArith n).min ((realArith n).mul ((realArith n).lit 4) b)
          ((realArith n).lit (10 ^ 100)) else b) := by
  have h1 : (1 / 10 ^ 15 : ℝ) ≤ (if (realArith n).lt delta ((realArith n).lit (1 / 4)) then
      (realArith n).min ((realArith n).mul ((realArith n).lit 4) b) ((realArith n).lit (10 ^ 100)) else b) := by
    split
    · simp only [realArith]
      refine le_min ?_ ?_
      · push_cast; linarith [show (0 : ℝ) < 1 / 10 ^ 15 by norm_num]
      · push_cast; norm_num
    · exact hb
  split
  · refine le_max_of_le_right ?_
    simp only [realArith]; push_cast; exact le_rfl
  · exact h1

/-- `finish` after an accepted step. -/
theorem finish_accept {delta : ℝ} {L : ScgLoc ℝ (Fin n → ℝ)} (hb : 1 / 10 ^ 15 ≤ L.beta) (hc : L.count_success ≤ n) (hn : 0 < n)
    (hs : L.success = true) (hm : L.mu ≠ 0) : ∃ L', Scg.finish (realArith n) n delta L = .ok L' ∧ GoodLoc n L' := by
  unfold Scg.finish
  by_cases h : L.count_success = n
  · simp only [h, if_true, pure, Except.pure]
    exact ⟨_, rfl, newBeta_real hb, .inl hn, fun h' => by simp [hs] at h'⟩
  · simp only [h, if_false, hs, if_true]
    have e : (realArith n).div ((realArith n).dot L.grad_new ((realArith n).vsub L.grad_old L.grad_new)) L.mu
        = .ok ((realArith n).dot L.grad_new ((realArith n).vsub L.grad_old L.grad_new) / L.mu) := by
      simp only [realArith, hm, if_false]
    rw [e]
    simp only [bind, Except.bind, pure, Except.pure]
    exact ⟨_, rfl, newBeta_real hb, .inl (by simpa using lt_of_le_of_ne hc h), fun h' => by simp at h'⟩

/-- `finish` after a rejected step. -/
theorem finish_reject {delta : ℝ} {L : ScgLoc ℝ (Fin n → ℝ)} (h : StepLoc n L) (hs : L.success = false) :
    ∃ L', Scg.finish (realArith n) n delta L = .ok L' ∧ GoodLoc n L' := by
  unfold Scg.finish
  simp only [h.count.ne, if_false, hs, pure, Except.pure, Bool.false_eq_true]
  exact ⟨_, rfl, newBeta_real h.beta, .inl h.count, fun _ => ⟨h.mu, h.descent, h.kappa, h.big⟩⟩

theorem StepLoc.with_beta {L : ScgLoc ℝ (Fin n → ℝ)} (h : StepLoc n L) {b : ℝ} (hb : L.beta ≤ b) : StepLoc n { L with beta := b } :=
  ⟨h.beta.trans hb, h.count, h.mu, h.descent, h.kappa, h.big⟩

/-- What one iteration that goes on looks like over the reals. -/
theorem turn_good {p : Scg ℝ} {j : ℕ} {L L' : ScgLoc ℝ (Fin n → ℝ)} {w w' : World σ ℝ} (hL : GoodLoc n L)
    (ht : Scg.turn (realArith n) o args p n j L w = (.ok (.inl L'), w')) : GoodLoc n L' := by
  rcases (turn_ok _ o args).1 ht with ⟨q, hq, _⟩ | ⟨L1, w1, beta, alpha, hd, hst, hm⟩
  · cases hq
  · have h1 := dirPath_good hL hd
    obtain ⟨b, dl, e1, e2, e3, e4, _⟩ := stepSize_real h1
    rw [e1] at hst
    obtain ⟨rfl, rfl⟩ := Prod.mk.inj (Except.ok.inj hst)
    have h2 := h1.with_beta e4
    cases hm with
    | reject f_new delta st hf hdl hr hj L'' hfin =>
      obtain ⟨L3, e, g⟩ := finish_reject (delta := delta) (L := { { L1 with beta := b } with f_now := L1.f_old, success := false })
        ⟨h2.beta, h2.count, h2.mu, h2.descent, h2.kappa, h2.big⟩ rfl
      rw [e] at hfin
      cases hfin
      exact g
    | accept f_new delta big f_now g st st2 st3 hf hdl hr hj hb hn hf2 hg hc L'' hfin =>
      obtain ⟨L3, e, g⟩ := finish_accept (delta := delta) (L := { { L1 with beta := b } with
          x := (realArith n).vadd L1.x ((realArith n).smul (-(L1.mu / dl)) L1.d), f_now, f_old := f_new, grad_new := g
          grad_old := L1.grad_new, success := true, count_success := L1.count_success + 1 })
        h2.beta h2.count h2.pos.1 rfl h2.descent.ne
      rw [e] at hfin
      cases hfin
      exact g

theorem reach_good {p : Scg ℝ} {x0 : Fin n → ℝ} {s : σ} {it : ℕ} {L : ScgLoc ℝ (Fin n → ℝ)} {w : World σ ℝ}
    (hr : Reach (realArith n) o args p x0 s it L w) : GoodLoc n L := by
  induction hr with
  | start f0 g0 s1 s2 hf hg => exact GoodLoc.start x0 f0 g0
  | step hr hit ht ih => exact turn_good ih ht

/-- The functions never raise. -/
structure Spec.NeverRaises {σ A S V : Type} (o : Oracle σ A S V) (args : A) : Prop where
  f : ∀ x s, ∃ v s', o.f x args s = (.ok v, s')
  df : ∀ x s, ∃ v s', o.df x args s = (.ok v, s')
  dfEval : ∀ x s, ∃ v s', o.dfEval x s = (.ok v, s')

/-- The arrays of the statistics have `max_it` entries, as the constructor leaves them. -/
structure Spec.Arrays {S : Type} (p : Scg S) : Prop where
  fx : p.stats.fx.length = p.nit
  beta : p.stats.beta.length = p.nit
  dfx : p.stats.dfx.length = p.nit

theorem dirPath_lengths {S V : Type} {ar : Arith S V} {o : Oracle σ A S V} {j : ℕ} {L : ScgLoc S V} {w w' : World σ S} {r}
    (hd : DirPath ar o j L w r w') : w'.stats.fx = w.stats.fx ∧ w'.stats.beta = w.stats.beta ∧ w'.stats.dfx = w.stats.dfx := by
  cases hd with
  | keep _ => exact ⟨rfl, rfl, rfl⟩
  | zero _ _ => exact ⟨rfl, rfl, rfl⟩
  | curv _ _ _ _ _ _ _ _ _ => exact ⟨rfl, rfl, rfl⟩

theorem turn_lengths {S V : Type} {ar : Arith S V} {o : Oracle σ A S V} {p : Scg S} {m j : ℕ} {L : ScgLoc S V} {w w' : World σ S} {r}
    (ht : Scg.turn ar o args p m j L w = (.ok r, w')) : w'.stats.fx.length = w.stats.fx.length
      ∧ w'.stats.beta.length = w.stats.beta.length ∧ w'.stats.dfx.length = w.stats.dfx.length := by
  rcases (turn_ok ar o args).1 ht with ⟨q, rfl, hd⟩ | ⟨L1, w1, beta, alpha, hd, _, hm⟩
  · obtain ⟨e1, e2, e3⟩ := dirPath_lengths hd
    rw [e1, e2, e3]; exact ⟨rfl, rfl, rfl⟩
  · obtain ⟨e1, e2, e3⟩ := dirPath_lengths hd
    cases hm <;> simp [ScgStats.recorded, ScgStats.bumped, e1, e2, e3]

theorem reach_lengths {S V : Type} {ar : Arith S V} {o : Oracle σ A S V} {p : Scg S} {x0 : V} {s : σ} {it : ℕ} {L : ScgLoc S V}
    {w : World σ S} (hp : Spec.Arrays p) (hr : Reach ar o args p x0 s it L w) :
    w.stats.fx.length = p.nit ∧ w.stats.beta.length = p.nit ∧ w.stats.dfx.length = p.nit := by
  induction hr with
  | start f0 g0 s1 s2 hf hg => exact ⟨hp.fx, hp.beta, hp.dfx⟩
  | step hr hit ht ih =>
    obtain ⟨e1, e2, e3⟩ := turn_lengths ht
    rw [e1, e2, e3]; exact ih

/-- An iteration from good locals cannot raise. -/
theorem turn_total {p : Scg ℝ} {j : ℕ} {L : ScgLoc ℝ (Fin n → ℝ)} {w : World σ ℝ} (ho : Spec.NeverRaises o args) (hL : GoodLoc n L)
    (hj : j < w.stats.fx.length ∧ j < w.stats.beta.length ∧ j < w.stats.dfx.length) :
    ∃ r w', Scg.turn (realArith n) o args p n j L w = (.ok r, w') := by
  have hdir : ∃ r w', DirPath (realArith n) o j L w r w' := by
    cases hs : L.success with
    | false => exact ⟨_, _, .keep hs⟩
    | true =>
      cases hk : (realArith n).lt ((realArith n).dot (dirOf (realArith n) L).1 (dirOf (realArith n) L).1)
          ((realArith n).lit (1 / 2 ^ 52)) with
      | true => exact ⟨_, _, .zero hs hk⟩
      | false =>
        have hk' : (0 : ℝ) < (realArith n).dot (dirOf (realArith n) L).1 (dirOf (realArith n) L).1 := by
          have : ¬ ((dirOf (realArith n) L).1 ⬝ᵥ (dirOf (realArith n) L).1 < ((1 / 2 ^ 52 : ℚ) : ℝ)) := by
            simpa [realArith] using hk
          refine lt_of_lt_of_le ?_ (not_lt.1 this)
          push_cast; norm_num
        have hsq : (0 : ℝ) < Real.sqrt ((realArith n).dot (dirOf (realArith n) L).1 (dirOf (realArith n) L).1) := Real.sqrt_pos.2 hk'
        have hsg : ((1 / 1000 : ℚ) : ℝ) / Real.sqrt ((realArith n).dot (dirOf (realArith n) L).1 (dirOf (realArith n) L).1) ≠ 0 :=
          div_ne_zero (by push_cast; norm_num) hsq.ne'
        obtain ⟨g, st, hg⟩ := ho.dfEval ((realArith n).vadd L.x ((realArith n).smul
          (((1 / 1000 : ℚ) : ℝ) / Real.sqrt ((realArith n).dot (dirOf (realArith n) L).1 (dirOf (realArith n) L).1))
          (dirOf (realArith n) L).1)) w.st
        exact ⟨_, _, .curv hs hk _ ((realArith n).dot (dirOf (realArith n) L).1 ((realArith n).vsub g L.grad_new)
          / (((1 / 1000 : ℚ) : ℝ) / Real.sqrt ((realArith n).dot (dirOf (realArith n) L).1 (dirOf (realArith n) L).1)))
          g st (if_neg hsq.ne') hg (if_neg hsg)⟩
  obtain ⟨r, w1, hd⟩ := hdir
  cases r with
  | inr q => exact ⟨.inr q, w1, (turn_ok _ o args).2 (.inl ⟨q, rfl, hd⟩)⟩
  | inl L1 =>
    have h1 := dirPath_good hL hd
    obtain ⟨b, dl, e1, e2, e3, e4, _⟩ := stepSize_real h1
    have h2 := h1.with_beta e4
    obtain ⟨l1, l2, l3⟩ := dirPath_lengths hd
    have hj1 : j < w1.stats.fx.length ∧ j < w1.stats.beta.length ∧ j < w1.stats.dfx.length := by rw [l1, l2, l3]; exact hj
    suffices ∃ r w', MovePath (realArith n) o args p n j { L1 with beta := b } (-(L1.mu / dl)) w1 r w' by
      obtain ⟨r, w', hm⟩ := this
      exact ⟨r, w', (turn_ok _ o args).2 (.inr ⟨L1, w1, b, _, hd, e1, hm⟩)⟩
    obtain ⟨f_new, st, hf⟩ := ho.f ((realArith n).vadd L1.x ((realArith n).smul (-(L1.mu / dl)) L1.d)) w1.st
    obtain ⟨r1, r2⟩ := ratio_real (n := n) (f_new := f_new) (f_old := L1.f_old) e3 h1.descent
    cases hr : (realArith n).le ((realArith n).lit 0) (2 * (f_new - L1.f_old) / (-(L1.mu / dl) * L1.mu)) with
    | false =>
      obtain ⟨L3, e, g⟩ := finish_reject (delta := 2 * (f_new - L1.f_old) / (-(L1.mu / dl) * L1.mu))
        (L := { { L1 with beta := b } with f_now := L1.f_old, success := false })
        ⟨h2.beta, h2.count, h2.mu, h2.descent, h2.kappa, h2.big⟩ rfl
      exact ⟨_, _, MovePath.reject (L := { L1 with beta := b }) f_new _ st hf r1 hr hj1 L3 e⟩
    | true =>
      obtain ⟨big, hb⟩ : ∃ big, (realArith n).absMax ((realArith n).smul (-(L1.mu / dl)) L1.d) = .ok big :=
        ⟨_, dif_neg h1.pos.1.ne'⟩
      by_cases hn : (realArith n).le big p.x_tol = true
          ∧ (realArith n).le ((realArith n).abs ((realArith n).sub f_new L1.f_old)) p.f_tol = true
      · exact ⟨_, _, MovePath.tol (L := { L1 with beta := b }) f_new _ big st hf r1 hr hj1 hb hn.1 hn.2⟩
      · obtain ⟨f_now, st2, hf2⟩ := ho.f ((realArith n).vadd L1.x ((realArith n).smul (-(L1.mu / dl)) L1.d)) st
        obtain ⟨g, st3, hg⟩ := ho.df ((realArith n).vadd L1.x ((realArith n).smul (-(L1.mu / dl)) L1.d)) st2
        cases hc : (realArith n).isClose0 ((realArith n).dot g g) with
        | true => exact ⟨_, _, MovePath.flat (L := { L1 with beta := b }) f_new _ big f_now g st st2 st3 hf r1 hr hj1 hb hn hf2 hg hc⟩
        | false =>
          obtain ⟨L3, e, _⟩ := finish_accept (delta := 2 * (f_new - L1.f_old) / (-(L1.mu / dl) * L1.mu))
            (L := { { L1 with beta := b } with
              x := (realArith n).vadd L1.x ((realArith n).smul (-(L1.mu / dl)) L1.d), f_now, f_old := f_new, grad_new := g
              grad_old := L1.grad_new, success := true, count_success := L1.count_success + 1 })
            h2.beta h2.count h2.pos.1 rfl h2.descent.ne
          exact ⟨_, _, MovePath.accept (L := { L1 with beta := b }) f_new _ big f_now g st st2 st3 hf r1 hr hj1 hb hn hf2 hg hc L3 e⟩

/-- The whole call cannot raise. -/
theorem call_total {p : Scg ℝ} (hp : Spec.Arrays p) (ho : Spec.NeverRaises o args) (x0 : Fin n → ℝ) (s : σ) :
    ∃ q p' s', Scg.call (realArith n) o args p x0 s = (.ok q, p', s') := by
  obtain ⟨f0, s1, hf⟩ := ho.f x0 s
  obtain ⟨g0, s2, hg⟩ := ho.df x0 s1
  have loop : ∀ k it L w, Reach (realArith n) o args p x0 s it L w → it + k = p.nit →
      ∃ q w', Scg.loop (realArith n) o args p n (List.range' it k) L w = (.ok q, w') := by
    intro k
    induction k with
    | zero => intro it L w hr _; exact ⟨_, _, rfl⟩
    | succ k ih =>
      intro it L w hr hk
      obtain ⟨l1, l2, l3⟩ := reach_lengths hp hr
      obtain ⟨r, w1, ht⟩ := turn_total (p := p) (j := it) ho (reach_good hr) (w := w) ⟨by omega, by omega, by omega⟩
      rw [List.range'_succ]
      cases r with
      | inr q =>
        refine ⟨q, w1, ?_⟩
        simp only [Scg.loop, ScgM.bind_ok]
        exact ⟨_, _, ht, rfl⟩
      | inl L1 =>
        obtain ⟨q, w', h⟩ := ih (it + 1) L1 w1 (.step hr (by omega) ht) (by omega)
        refine ⟨q, w', ?_⟩
        simp only [Scg.loop, ScgM.bind_ok]
        exact ⟨_, _, ht, h⟩
  obtain ⟨q, ⟨s', t⟩, h⟩ := loop p.nit 0 _ _ (.start f0 g0 s1 s2 hf hg) (by omega)
  refine ⟨q, _, s', (call_ok _ o args).2 ⟨f0, g0, s1, s2, t, hf, hg, ?_, rfl⟩⟩
  rw [List.range_eq_range']
  exact h

end VGPA
