import Mathlib.LinearAlgebra.Matrix.PosDef
import Mathlib.Algebra.Order.Star.Real
import Verif.Lemmas.ScgReal
import Verif.Props.ScgGeneric

/-!
# C65, C66, C69, C70, C71, C72: the optimizer over the reals
-/

namespace VGPA

variable {σ A : Type} {n : ℕ} {o : Oracle σ A ℝ (Fin n → ℝ)} {args : A}

/-- What one iteration records. -/
theorem turn_record (F : (Fin n → ℝ) → ℝ) (hF : ∀ x s v s', o.f x args s = (.ok v, s') → v = F x) {p : Scg ℝ} {j : ℕ}
    {L : ScgLoc ℝ (Fin n → ℝ)} {w w' : World σ ℝ} {r} (hL : GoodLoc n L)
    (ht : Scg.turn (realArith n) o args p n j L w = (.ok r, w')) :
    (r = .inr (L.x, L.f_now) ∧ L.success = true ∧ w'.stats.fx = w.stats.fx ∧ w'.stats.beta = w.stats.beta)
    ∨ ∃ a b, w'.stats.fx = w.stats.fx.set j a ∧ w'.stats.beta = w.stats.beta.set j b ∧ j < w.stats.fx.length
      ∧ j < w.stats.beta.length ∧ a ≤ L.f_old ∧ 1 / 10 ^ 15 ≤ b ∧ (∀ L', r = .inl L' → L'.f_old = a) ∧ (∀ q, r = .inr q → q.2 = a) := by
  rcases (turn_ok _ o args).1 ht with ⟨q, rfl, hd⟩ | ⟨L1, w1, beta, alpha, hd, hst, hm⟩
  · cases hd with
    | zero hs _ => exact .inl ⟨rfl, hs, rfl, rfl⟩
  · right
    have h1 := dirPath_good hL hd
    have hfo : L1.f_old = L.f_old := by
      cases hd with
      | keep _ => rfl
      | curv _ _ _ _ _ _ _ _ _ => rfl
    obtain ⟨l1, l2, l3⟩ := dirPath_lengths hd
    obtain ⟨b, dl, e1, e2, e3, e4, _⟩ := stepSize_real h1
    rw [e1] at hst
    obtain ⟨rfl, rfl⟩ := Prod.mk.inj (Except.ok.inj hst)
    have hb := h1.beta.trans e4
    have acc : ∀ (f_new delta : ℝ), (realArith n).div ((realArith n).mul ((realArith n).lit 2) ((realArith n).sub f_new L1.f_old))
        ((realArith n).mul (-(L1.mu / dl)) L1.mu) = .ok delta → (realArith n).le ((realArith n).lit 0) delta = true → f_new ≤ L.f_old := by
      intro f_new delta hdl hr
      obtain ⟨r1, r2⟩ := ratio_real (n := n) (f_new := f_new) (f_old := L1.f_old) e3 h1.descent
      rw [r1] at hdl
      rw [← Except.ok.inj hdl] at hr
      rw [← hfo]
      exact r2.1 hr
    rw [← l1, ← l2]
    cases hm with
    | reject f_new delta st hf hdl hr hj L' hfin =>
      refine ⟨_, _, rfl, rfl, hj.1, hj.2.1, hfo.le, hb, fun L'' h => ?_, fun q h => by cases h⟩
      cases h
      exact (finish_ok _ hfin).2.2.1
    | tol f_new delta big st hf hdl hr hj _ _ _ =>
      exact ⟨_, _, rfl, rfl, hj.1, hj.2.1, acc _ _ hdl hr, hb, fun L'' h => (by cases h), fun q h => by cases h; rfl⟩
    | flat f_new delta big f_now g st st2 st3 hf hdl hr hj _ _ hf2 _ _ =>
      refine ⟨_, _, rfl, rfl, hj.1, hj.2.1, acc _ _ hdl hr, hb, fun L'' h => (by cases h), fun q h => ?_⟩
      cases h
      rw [hF _ _ _ _ hf, hF _ _ _ _ hf2]
    | accept f_new delta big f_now g st st2 st3 hf hdl hr hj _ _ _ _ _ L' hfin =>
      refine ⟨_, _, rfl, rfl, hj.1, hj.2.1, acc _ _ hdl hr, hb, fun L'' h => ?_, fun q h => by cases h⟩
      cases h
      exact (finish_ok _ hfin).2.2.1

theorem set_append_drop {α : Type} (vals l : List α) (a : α) (h : vals.length < l.length) :
    (vals ++ l.drop vals.length).set vals.length a = (vals ++ [a]) ++ l.drop (vals ++ [a]).length := by
  rw [List.set_append_right _ _ le_rfl, Nat.sub_self, List.drop_eq_getElem_cons h, List.set_cons_zero, List.append_assoc]
  simp

/-- The sequence of recorded values. -/
structure Spec.Descending (start : ℝ) (vals : List ℝ) (last : ℝ) : Prop where
  sorted : (start :: vals).Pairwise (fun a b => b ≤ a)
  last : (start :: vals).getLast? = some last

theorem Spec.Descending.snoc {f0 v a : ℝ} {vals : List ℝ} (h : Spec.Descending f0 vals v) (ha : a ≤ v) :
    Spec.Descending f0 (vals ++ [a]) a := by
  constructor
  · rw [← List.cons_append, List.pairwise_append]
    refine ⟨h.sorted, List.pairwise_singleton _ _, fun b hb c hc => ?_⟩
    rw [List.mem_singleton] at hc
    subst hc
    refine ha.trans ?_
    have hl := h.last
    have hs := h.sorted
    rw [List.getLast?_eq_some_iff] at hl
    obtain ⟨ys, hys⟩ := hl
    rw [hys] at hb hs
    rcases List.mem_append.1 hb with hb | hb
    · exact (List.pairwise_append.1 hs).2.2 b hb v (by simp)
    · rw [List.mem_singleton] at hb; exact hb.ge
  · rw [← List.cons_append, List.getLast?_append]; rfl

theorem reach_descending (F : (Fin n → ℝ) → ℝ) (hF : ∀ x s v s', o.f x args s = (.ok v, s') → v = F x) {p : Scg ℝ}
    (hp : Spec.Arrays p) {x0 : Fin n → ℝ} {s : σ} {it : ℕ} {L : ScgLoc ℝ (Fin n → ℝ)} {w : World σ ℝ}
    (hr : Reach (realArith n) o args p x0 s it L w) :
    ∃ vals, vals.length = it ∧ w.stats.fx = vals ++ p.stats.fx.drop vals.length ∧ Spec.Descending (F x0) vals L.f_old := by
  induction hr with
  | start f0 g0 s1 s2 hf hg =>
    refine ⟨[], rfl, rfl, List.pairwise_singleton _ _, ?_⟩
    rw [← hF _ _ _ _ hf]
    rfl
  | @step it L L' w w' hr hit ht ih =>
    obtain ⟨vals, h1, h2, h3⟩ := ih
    rcases turn_record F hF (reach_good hr) ht with ⟨h, _⟩ | ⟨a, b, e1, _, e3, _, e5, _, e7, _⟩
    · cases h
    · refine ⟨vals ++ [a], by simp [h1], ?_, ?_⟩
      · rw [e1, h2, ← h1]
        exact set_append_drop _ _ _ (by rw [hp.fx, h1]; exact hit)
      · rw [e7 _ rfl]
        exact h3.snoc e5

/-- C65: for every objective and every gradient function, right or wrong, the returned value is at most the value at the
start point; the values recorded during the call (the first entries of `statistics["fx"]`) do not increase, starting from
the value at the start point, and end with the returned value. -/
theorem C65_descent (F : (Fin n → ℝ) → ℝ) (hF : ∀ x s v s', o.f x args s = (.ok v, s') → v = F x) (p p' : Scg ℝ)
    (hp : Spec.Arrays p) (x0 x : Fin n → ℝ) (s s' : σ) (fx : ℝ)
    (h : Scg.call (realArith n) o args p x0 s = (.ok (x, fx), p', s')) :
    fx ≤ F x0 ∧ ∃ vals, vals.length ≤ p.nit ∧ p'.stats.fx = vals ++ p.stats.fx.drop vals.length
      ∧ Spec.Descending (F x0) vals fx := by
  suffices ∃ vals, vals.length ≤ p.nit ∧ p'.stats.fx = vals ++ p.stats.fx.drop vals.length ∧ Spec.Descending (F x0) vals fx by
    refine ⟨?_, this⟩
    obtain ⟨vals, _, _, h1, h2⟩ := this
    rw [List.getLast?_eq_some_iff] at h2
    obtain ⟨ys, h2⟩ := h2
    rw [h2] at h1
    cases ys with
    | nil => simp at h2; exact h2.1.ge
    | cons y ys =>
      simp only [List.cons_append, List.cons.injEq] at h2
      rw [h2.1]
      simp only [List.cons_append, List.pairwise_cons] at h1
      exact h1.1 fx (by simp)
  obtain ⟨it, L, w, hr, hc, _⟩ := call_reach _ o args h
  obtain ⟨vals, h1, h2, h3⟩ := reach_descending F hF hp hr
  rcases hc with ⟨rfl, hq, rfl⟩ | ⟨hit, ht⟩
  · cases hq
    exact ⟨vals, h1.le, h2, h3⟩
  · rcases turn_record F hF (reach_good hr) ht with ⟨hq, hs, e1, _⟩ | ⟨a, b, e1, _, e3, _, e5, _, _, e8⟩
    · cases hq
      obtain ⟨v1, v2⟩ := reach_value F hF hr
      refine ⟨vals, by omega, e1.trans h2, ?_⟩
      rw [v2 hs, ← v1]
      exact h3
    · refine ⟨vals ++ [a], by simp; omega, ?_, ?_⟩
      · dsimp only at e1
        rw [e1, h2, ← h1]
        exact set_append_drop _ _ _ (by rw [hp.fx, h1]; exact hit)
      · rw [show fx = a from e8 _ rfl]
        exact h3.snoc e5

/-! ## C66 -/

theorem Scg.init_arrays {S V : Type} (ar : Arith S V) (a : Option ℕ) (b c : Option S) : Spec.Arrays (Scg.init ar a b c) := by
  constructor <;> simp [Scg.init]

theorem call_arrays {S V : Type} {ar : Arith S V} {o : Oracle σ A S V} {p p' : Scg S} (hp : Spec.Arrays p) {x0 : V} {s s' : σ} {q}
    (h : Scg.call ar o args p x0 s = (.ok q, p', s')) : Spec.Arrays p' := by
  obtain ⟨it, L, w, hr, hc, hp'⟩ := call_reach _ o args h
  obtain ⟨l1, l2, l3⟩ := reach_lengths hp hr
  have hnit : p'.nit = p.nit := by rw [hp']
  rcases hc with ⟨_, _, rfl⟩ | ⟨_, ht⟩
  · exact ⟨l1.trans hnit.symm, l2.trans hnit.symm, l3.trans hnit.symm⟩
  · obtain ⟨e1, e2, e3⟩ := turn_lengths ht
    exact ⟨(e1.trans l1).trans hnit.symm, (e2.trans l2).trans hnit.symm, (e3.trans l3).trans hnit.symm⟩

/-- C66, no division by zero: in `realArith` a division by zero raises, and so does a maximum over nothing or a write
beyond the end of an array. With functions that never raise, the call never raises, whatever they return. -/
theorem C66_never_raises (p : Scg ℝ) (hp : Spec.Arrays p) (ho : Spec.NeverRaises o args) (x0 : Fin n → ℝ) (s : σ) :
    ∃ x fx p' s', Scg.call (realArith n) o args p x0 s = (.ok (x, fx), p', s') ∧ Spec.Arrays p' := by
  obtain ⟨q, p', s', h⟩ := call_total hp ho x0 s
  exact ⟨q.1, q.2, p', s', h, call_arrays hp h⟩

/-- C66, the step: in every iteration that gets to compute a step (`L1` are the locals at
`/repo/src/numerics/optim_scg.py:178`), the current gradient `grad_new` is what the gradient function returned for the
current point, the directional derivative `mu` is its product with the search direction and negative, the step
length is positive and the scale is at least `1e-15` before and after. -/
theorem C66_descent_step (G : (Fin n → ℝ) → Fin n → ℝ) (hG : ∀ x s v s', o.df x args s = (.ok v, s') → v = G x)
    (p : Scg ℝ) (x0 : Fin n → ℝ) (s : σ) (it : ℕ) (L L1 : ScgLoc ℝ (Fin n → ℝ)) (w w1 : World σ ℝ)
    (hr : Reach (realArith n) o args p x0 s it L w) (hd : Scg.directional (realArith n) o it L w = (.ok (.inl L1), w1)) :
    L1.x = L.x ∧ L1.mu = L1.d ⬝ᵥ G L1.x ∧ L1.mu < 0 ∧ 1 / 10 ^ 15 ≤ L1.beta
      ∧ ∃ beta alpha, Scg.stepSize (realArith n) L1 = .ok (beta, alpha) ∧ 0 < alpha ∧ 1 / 10 ^ 15 ≤ beta := by
  have hg : L.grad_new = G L.x := by
    clear hd
    induction hr with
    | start f0 g0 s1 s2 hf hg => exact hG _ _ _ _ hg
    | step hr hit ht ih =>
      rcases (turn_ok _ o args).1 ht with ⟨q, hq, _⟩ | ⟨L1, w1, beta, alpha, hd, hst, hm⟩
      · cases hq
      · have hL1 : L1.grad_new = G L1.x := by
          cases hd with
          | keep _ => exact ih
          | curv _ _ _ _ _ _ _ _ _ => exact ih
        cases hm with
        | reject f_new delta st hf hdl hr hj L' hfin =>
          obtain ⟨e1, _, _, e4, _⟩ := finish_ok _ hfin
          rw [e1, e4]; exact hL1
        | accept f_new delta big f_now g st st2 st3 hf hdl hr hj _ _ _ hg _ L' hfin =>
          obtain ⟨e1, _, _, e4, _⟩ := finish_ok _ hfin
          rw [e1, e4]; exact hG _ _ _ _ hg
  have hd' := (directional_ok _ o).1 hd
  have h1 := dirPath_good (reach_good hr) hd'
  obtain ⟨b, dl, e1, e2, e3, e4, _⟩ := stepSize_real h1
  have hx : L1.x = L.x ∧ L1.grad_new = L.grad_new := by
    cases hd' with
    | keep _ => exact ⟨rfl, rfl⟩
    | curv _ _ _ _ _ _ _ _ _ => exact ⟨rfl, rfl⟩
  refine ⟨hx.1, ?_, h1.descent, h1.beta, b, _, e1, e3, h1.beta.trans e4⟩
  rw [h1.mu, hx.2, hg, hx.1]

/-- C66, the statistics: the scales a call records are all at least `1e-15`. -/
theorem C66_recorded_scale (p p' : Scg ℝ) (hp : Spec.Arrays p) (x0 : Fin n → ℝ) (s s' : σ) (q : (Fin n → ℝ) × ℝ)
    (h : Scg.call (realArith n) o args p x0 s = (.ok q, p', s')) :
    ∃ betas, betas.length ≤ p.nit ∧ p'.stats.beta = betas ++ p.stats.beta.drop betas.length ∧ ∀ b ∈ betas, 1 / 10 ^ 15 ≤ b := by
  have record : ∀ {j : ℕ} {L : ScgLoc ℝ (Fin n → ℝ)} {w w' : World σ ℝ} {r}, GoodLoc n L →
      Scg.turn (realArith n) o args p n j L w = (.ok r, w') →
      (w'.stats.beta = w.stats.beta ∧ ∀ L', r ≠ .inl L') ∨ ∃ b, w'.stats.beta = w.stats.beta.set j b ∧ 1 / 10 ^ 15 ≤ b := by
    intro j L w w' r hL ht
    rcases (turn_ok _ o args).1 ht with ⟨q, rfl, hd⟩ | ⟨L1, w1, beta, alpha, hd, hst, hm⟩
    · exact .inl ⟨(dirPath_lengths hd).2.1, fun L' h => by cases h⟩
    · right
      have h1 := dirPath_good hL hd
      obtain ⟨_, l2, _⟩ := dirPath_lengths hd
      obtain ⟨b, dl, e1, e2, e3, e4, _⟩ := stepSize_real h1
      rw [e1] at hst
      obtain ⟨rfl, rfl⟩ := Prod.mk.inj (Except.ok.inj hst)
      rw [← l2]
      cases hm <;> exact ⟨_, rfl, h1.beta.trans e4⟩
  have inv : ∀ {it L w}, Reach (realArith n) o args p x0 s it L w →
      ∃ betas, betas.length = it ∧ w.stats.beta = betas ++ p.stats.beta.drop betas.length ∧ ∀ b ∈ betas, 1 / 10 ^ 15 ≤ b := by
    intro it L w hr
    induction hr with
    | start f0 g0 s1 s2 hf hg => exact ⟨[], rfl, rfl, by simp⟩
    | @step it L L' w w' hr hit ht ih =>
      obtain ⟨betas, h1, h2, h3⟩ := ih
      rcases record (reach_good hr) ht with ⟨_, h⟩ | ⟨b, e1, e2⟩
      · exact absurd rfl (h _)
      · refine ⟨betas ++ [b], by simp [h1], ?_, ?_⟩
        · rw [e1, h2, ← h1]
          exact set_append_drop _ _ _ (by rw [hp.beta, h1]; exact hit)
        · intro c hc
          rcases List.mem_append.1 hc with hc | hc
          · exact h3 c hc
          · rw [List.mem_singleton.1 hc]; exact e2
  obtain ⟨it, L, w, hr, hc, _⟩ := call_reach _ o args h
  obtain ⟨betas, h1, h2, h3⟩ := inv hr
  rcases hc with ⟨rfl, hq, rfl⟩ | ⟨hit, ht⟩
  · exact ⟨betas, h1.le, h2, h3⟩
  · rcases record (reach_good hr) ht with ⟨e, _⟩ | ⟨b, e1, e2⟩
    · exact ⟨betas, by omega, e.trans h2, h3⟩
    · refine ⟨betas ++ [b], by simp; omega, ?_, ?_⟩
      · dsimp only at e1
        rw [e1, h2, ← h1]
        exact set_append_drop _ _ _ (by rw [hp.beta, h1]; exact hit)
      · intro c hc
        rcases List.mem_append.1 hc with hc | hc
        · exact h3 c hc
        · rw [List.mem_singleton.1 hc]; exact e2

/-! ## C70 over the reals -/

/-- C70 with the meaning of the comparisons spelled out: for a deterministic objective `F` and gradient `G`, a call that
returns before the iterations are used up returns a point `x` such that the last search direction has a squared norm below
`2^-52`, or no coordinate has changed by more than `x_tol` in the last step and the objective by no more than `f_tol`, or
the gradient at `x` has a squared norm of at most `1e-8`. (`y`: the point before.) -/
theorem C70_reasons_real (F : (Fin n → ℝ) → ℝ) (hF : ∀ x s v s', o.f x args s = (.ok v, s') → v = F x)
    (G : (Fin n → ℝ) → Fin n → ℝ) (hG : ∀ x s v s', o.df x args s = (.ok v, s') → v = G x)
    (p p' : Scg ℝ) (x0 x : Fin n → ℝ) (s s' : σ) (fx : ℝ)
    (h : Scg.call (realArith n) o args p x0 s = (.ok (x, fx), p', s')) :
    (∃ L w, Reach (realArith n) o args p x0 s p.nit L w ∧ x = L.x ∧ p'.stats.MaxIt = p.stats.MaxIt)
    ∨ ∃ it L w, Reach (realArith n) o args p x0 s it L w ∧ it < p.nit ∧ p'.stats.MaxIt = it + 1
      ∧ ((x = L.x ∧ (dirOf (realArith n) L).1 ⬝ᵥ (dirOf (realArith n) L).1 < 1 / 2 ^ 52)
        ∨ ((∀ i, |x i - L.x i| ≤ p.x_tol) ∧ |F x - F L.x| ≤ p.f_tol)
        ∨ G x ⬝ᵥ G x ≤ 1 / 10 ^ 8) := by
  obtain ⟨it, L, w, hr, _, hc⟩ := C70_reasons p p' x0 s s' x fx h
  have hfx := C64_consistent_pair F hF p p' x0 s s' x fx h
  have hfo := (reach_value F hF hr).1
  rcases hc with ⟨rfl, h1, _, h2⟩ | ⟨hit, hM, hc⟩
  · exact .inl ⟨L, w, hr, h1, h2⟩
  · refine .inr ⟨it, L, w, hr, hit, hM, ?_⟩
    rcases hc with ⟨h1, h2⟩ | ⟨step, big, h1, h2, h3, h4⟩ | ⟨g, st, h1, h2⟩
    · refine .inl ⟨h2, ?_⟩
      have : (dirOf (realArith n) L).1 ⬝ᵥ (dirOf (realArith n) L).1 < ((1 / 2 ^ 52 : ℚ) : ℝ) := by simpa [realArith] using h1
      push_cast at this
      exact this
    · refine .inr (.inl ⟨fun i => ?_, ?_⟩)
      · rw [h1]
        have hn : n ≠ 0 := by rintro rfl; exact i.elim0
        simp only [realArith, hn, dite_false, Except.ok.injEq, decide_eq_true_eq] at h2 h3 ⊢
        rw [Pi.add_apply, add_sub_cancel_left]
        refine le_trans ?_ h3
        rw [← h2]
        exact Finset.le_sup' (fun i => |step i|) (Finset.mem_univ i)
      · rw [← hfx, ← hfo]
        simpa [realArith] using h4
    · refine .inr (.inr ?_)
      rw [← hG _ _ _ _ h1]
      have : |g ⬝ᵥ g| ≤ 1 / 10 ^ 8 := by simpa [realArith] using h2
      exact (le_abs_self _).trans this

/-! ## C69 -/

/-- The shared state remembers the point it was computed at: an evaluation of the objective, or of the gradient with
`eval_fun`, sets it; a plain gradient keeps it. -/
structure Spec.Remembers {σ A S V : Type} (o : Oracle σ A S V) (args : A) (At : V → σ → Prop) : Prop where
  f : ∀ x s v s', o.f x args s = (.ok v, s') → At x s'
  df : ∀ x s v s', At x s → o.df x args s = (.ok v, s') → At x s'
  dfEval : ∀ x s v s', o.dfEval x s = (.ok v, s') → At x s'

/-- C69, the part that holds: the state left behind is the one computed at the returned point, unless all iterations were
used up; then it may be that of a rejected point with a larger objective. Missing: that exception, see `C69_violated`. -/
theorem C69_state_partial (F : (Fin n → ℝ) → ℝ) (hF : ∀ x s v s', o.f x args s = (.ok v, s') → v = F x)
    (At : (Fin n → ℝ) → σ → Prop) (hA : Spec.Remembers o args At) (p p' : Scg ℝ) (x0 x : Fin n → ℝ) (s s' : σ) (fx : ℝ)
    (h : Scg.call (realArith n) o args p x0 s = (.ok (x, fx), p', s')) :
    At x s' ∨ (∃ L w, Reach (realArith n) o args p x0 s p.nit L w) ∧ ∃ y, At y s' ∧ fx < F y := by
  have inv : ∀ {it L w}, Reach (realArith n) o args p x0 s it L w →
      (L.success = true → At L.x w.st) ∧ (L.success = false → ∃ y, At y w.st ∧ L.f_old < F y) := by
    intro it L w hr
    induction hr with
    | start f0 g0 s1 s2 hf hg => exact ⟨fun _ => hA.df _ _ _ _ (hA.f _ _ _ _ hf) hg, fun h => by cases h⟩
    | @step it L L' w w' hr hit ht ih =>
      rcases (turn_ok _ o args).1 ht with ⟨q, hq, _⟩ | ⟨L1, w1, beta, alpha, hd, hst, hm⟩
      · cases hq
      · have h1 := dirPath_good (reach_good hr) hd
        obtain ⟨b, dl, e1, e2, e3, e4, _⟩ := stepSize_real h1
        rw [e1] at hst
        obtain ⟨rfl, rfl⟩ := Prod.mk.inj (Except.ok.inj hst)
        cases hm with
        | reject f_new delta st hf hdl hr hj L' hfin =>
          obtain ⟨_, _, f3, _, _, f6, _⟩ := finish_ok _ hfin
          refine ⟨fun h => (by rw [f6] at h; cases h), fun _ => ⟨_, hA.f _ _ _ _ hf, ?_⟩⟩
          rw [f3, ← hF _ _ _ _ hf]
          obtain ⟨r1, r2⟩ := ratio_real (n := n) (f_new := f_new) (f_old := L1.f_old) e3 h1.descent
          rw [r1] at hdl
          rw [← Except.ok.inj hdl] at hr
          by_contra hc
          rw [r2.2 (not_lt.1 hc)] at hr
          cases hr
        | accept f_new delta big f_now g st st2 st3 hf hdl hr hj _ _ hf2 hg _ L' hfin =>
          obtain ⟨f1, _, _, _, _, f6, _⟩ := finish_ok _ hfin
          refine ⟨fun _ => ?_, fun h => by rw [f6] at h; cases h⟩
          rw [f1]
          exact hA.df _ _ _ _ (hA.f _ _ _ _ hf2) hg
  obtain ⟨it, L, w, hr, hc, _⟩ := call_reach _ o args h
  obtain ⟨i1, i2⟩ := inv hr
  rcases hc with ⟨rfl, hq, rfl⟩ | ⟨hit, ht⟩
  · cases hq
    cases hs : L.success with
    | true => exact .inl (i1 hs)
    | false => exact .inr ⟨⟨L, _, hr⟩, i2 hs⟩
  · left
    rcases (turn_ok _ o args).1 ht with ⟨q, hq, hd⟩ | ⟨L1, w1, beta, alpha, hd, _, hm⟩
    · cases hq
      generalize hw : (⟨s', p'.stats⟩ : World σ ℝ) = w' at hd
      cases hd with
      | zero hs hk =>
        rw [World.mk.injEq] at hw
        rw [hw.1]
        exact i1 hs
    · generalize hw : (⟨s', p'.stats⟩ : World σ ℝ) = w' at hm
      generalize hq : (Sum.inr (x, fx) : ScgLoc ℝ (Fin n → ℝ) ⊕ ((Fin n → ℝ) × ℝ)) = r at hm
      cases hm with
      | reject => cases hq
      | accept => cases hq
      | tol f_new delta big st hf _ _ _ _ _ _ =>
        cases hq
        rw [World.mk.injEq] at hw
        rw [hw.1]
        exact hA.f _ _ _ _ hf
      | flat f_new delta big f_now g st st2 st3 hf _ _ _ _ _ hf2 hg _ =>
        cases hq
        rw [World.mk.injEq] at hw
        rw [hw.1]
        exact hA.df _ _ _ _ (hA.f _ _ _ _ hf2) hg

/-! ## C72 -/

theorem ScgM.bind_err {w α β : Type} {m : ScgM w α} {k : α → ScgM w β} {s : w} {e : PyErr} (h : (m s).1 = .error e) :
    ((m >>= k) s).1 = .error e := by
  show (match m s with | (.ok a, s') => k a s' | (.error e, s') => ((.error e, s') : Py β × w)).1 = _
  obtain ⟨r, s', hm⟩ : ∃ r s', m s = (r, s') := ⟨_, _, rfl⟩
  rw [hm] at h ⊢
  rw [show r = .error e from h]

theorem ScgM.bind_step {w α β : Type} {m : ScgM w α} {k : α → ScgM w β} {s s' : w} {a : α} (h : m s = (.ok a, s')) :
    (m >>= k) s = k a s' := by
  show (match m s with | (.ok a, s') => k a s' | (.error e, s') => ((.error e, s') : Py β × w)) = _
  rw [h]

/-- C72 fails: with a gradient function that has no parameter `eval_fun` (so that calling it with one raises
`TypeError`, as does a function with further required parameters), every call with at least one iteration from a point with a
gradient that is not tiny raises `TypeError`. -/
theorem C72_violated (p : Scg ℝ) (hn : 0 < p.nit) (x0 : Fin n → ℝ) (s s1 s2 : σ) (f0 : ℝ) (g0 : Fin n → ℝ)
    (hf : o.f x0 args s = (.ok f0, s1)) (hg : o.df x0 args s1 = (.ok g0, s2)) (hbig : 1 / 2 ^ 52 ≤ g0 ⬝ᵥ g0)
    (hplain : ∀ x s, (o.dfEval x s).1 = .error .typeError) :
    (Scg.call (realArith n) o args p x0 s).1 = .error .typeError := by
  obtain ⟨m, hm⟩ : ∃ m, p.nit = m + 1 := ⟨p.nit - 1, by omega⟩
  have hpos : (0 : ℝ) < g0 ⬝ᵥ g0 := lt_of_lt_of_le (by norm_num) hbig
  have hdir : dirOf (realArith n) (ScgLoc.start (realArith n) x0 f0 g0) = (-g0, -g0 ⬝ᵥ g0) := by
    unfold dirOf
    simp only [ScgLoc.start, realArith]
    exact ite_self _
  have hsq : Real.sqrt (g0 ⬝ᵥ g0) ≠ 0 := (Real.sqrt_pos.2 hpos).ne'
  have key : ∀ w, (Scg.directional (realArith n) o 0 (ScgLoc.start (realArith n) x0 f0 g0) w).1 = .error .typeError := by
    intro w
    unfold Scg.directional
    rw [if_pos (show (ScgLoc.start (realArith n) x0 f0 g0).success = true from rfl)]
    have e : (if (realArith n).le ((realArith n).lit 0) ((realArith n).dot (ScgLoc.start (realArith n) x0 f0 g0).d
          (ScgLoc.start (realArith n) x0 f0 g0).grad_new) = true then
        ((realArith n).vneg (ScgLoc.start (realArith n) x0 f0 g0).grad_new, (realArith n).dot
          ((realArith n).vneg (ScgLoc.start (realArith n) x0 f0 g0).grad_new) (ScgLoc.start (realArith n) x0 f0 g0).grad_new)
        else ((ScgLoc.start (realArith n) x0 f0 g0).d, (realArith n).dot (ScgLoc.start (realArith n) x0 f0 g0).d
          (ScgLoc.start (realArith n) x0 f0 g0).grad_new)) = (-g0, -g0 ⬝ᵥ g0) := hdir
    simp only [e]
    have hk : (realArith n).dot (-g0) (-g0) = g0 ⬝ᵥ g0 := by simp [realArith]
    rw [hk, if_neg (by simp only [realArith, decide_eq_true_eq]; push_cast; linarith)]
    have hdv : (realArith n).div ((realArith n).lit (1 / 1000)) ((realArith n).sqrt (g0 ⬝ᵥ g0))
        = .ok ((realArith n).lit (1 / 1000) / Real.sqrt (g0 ⬝ᵥ g0)) := if_neg hsq
    rw [hdv, ScgM.bind_step (m := ScgM.lift _) (a := (realArith n).lit (1 / 1000) / Real.sqrt (g0 ⬝ᵥ g0)) (s' := w) rfl]
    exact ScgM.bind_err (hplain _ _)
  have hloop : ∀ w, (Scg.loop (realArith n) o args p n (List.range p.nit) (ScgLoc.start (realArith n) x0 f0 g0) w).1
      = .error .typeError := by
    intro w
    rw [hm, List.range_succ_eq_map]
    unfold Scg.loop
    refine ScgM.bind_err ?_
    unfold Scg.turn
    exact ScgM.bind_err (key w)
  unfold Scg.call
  dsimp only
  have e1 : callF o x0 args ⟨s, p.stats⟩ = (.ok f0, ⟨s1, p.stats⟩) := by unfold callF; rw [hf]
  have e2 : callDf o x0 args (⟨s1, p.stats⟩ : World σ ℝ) = (.ok g0, ⟨s2, p.stats⟩) := by unfold callDf; rw [hg]
  rw [ScgM.bind_step e1, ScgM.bind_step e2]
  exact hloop _

/-- C72, the part that holds: with a gradient function that accepts `eval_fun=True`, the call returns. -/
theorem C72_keyword_partial (p : Scg ℝ) (hp : Spec.Arrays p) (ho : Spec.NeverRaises o args) (x0 : Fin n → ℝ) (s : σ) :
    ∃ x fx p' s', Scg.call (realArith n) o args p x0 s = (.ok (x, fx), p', s') := by
  obtain ⟨q, p', s', h⟩ := call_total hp ho x0 s
  exact ⟨q.1, q.2, p', s', h⟩

/-- The functions with the further arguments filled in. -/
def Oracle.close {S V : Type} (o : Oracle σ A S V) (args : A) : Oracle σ Unit S V where
  f x _ := o.f x args
  df x _ := o.df x args
  dfEval := o.dfEval

/-- C72, the part that holds: further arguments reach every evaluation of the objective and every plain evaluation of the
gradient; the call is the same as with the arguments filled in beforehand. Missing: the evaluation of the gradient at
the trial point, which gets none of them. -/
theorem C72_arguments_partial {S V : Type} (ar : Arith S V) (o : Oracle σ A S V) (args : A) (p : Scg S) (x0 : V) (s : σ) :
    Scg.call ar o args p x0 s = Scg.call ar (o.close args) () p x0 s := by
  have hl : ∀ m js (L : ScgLoc S V), Scg.loop ar o args p m js L = Scg.loop ar (o.close args) () p m js L := by
    intro m js
    induction js with
    | nil => intro L; rfl
    | cons j js ih =>
      intro L
      unfold Scg.loop
      have : Scg.turn ar o args p m j L = Scg.turn ar (o.close args) () p m j L := rfl
      rw [this]
      congr 1
      funext r
      cases r with
      | inl L' => exact ih L'
      | inr q => rfl
  have hf : callF o x0 args = callF (o.close args) x0 () := rfl
  have hd : callDf o x0 args = callDf (o.close args) x0 () := rfl
  unfold Scg.call
  simp only [hl, hf, hd]

end VGPA
