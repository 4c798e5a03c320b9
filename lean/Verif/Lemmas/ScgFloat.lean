import Verif.Lemmas.Ieee
import Verif.Props.ScgReal

/-!
# The optimizer in double precision: preparations
-/

namespace VGPA

variable {σ A : Type}

/-! ## Any arithmetic: the recorded values, step by step -/

section
variable {S V : Type} {ar : Arith S V} {o : Oracle σ A S V} {args : A}

/-- The values `vals` recorded one after the other, starting from `start`: every two neighbours are related, and the last one is
`last`. -/
structure Spec.Steps (R : S → S → Prop) (start : S) (vals : List S) (last : S) : Prop where
  chain : List.IsChain R (start :: vals)
  last : (start :: vals).getLast? = some last

theorem Spec.Steps.snoc {R : S → S → Prop} {f0 v a : S} {vals : List S} (h : Spec.Steps R f0 vals v) (ha : R v a) :
    Spec.Steps R f0 (vals ++ [a]) a := by
  constructor
  · rw [← List.cons_append, List.isChain_append]
    refine ⟨h.chain, List.isChain_singleton _, fun x hx y hy => ?_⟩
    rw [h.last] at hx
    cases hx
    cases hy
    exact ha
  · rw [← List.cons_append, List.getLast?_append]; rfl

/-- What accepting a step in the iteration after `L` means for the value. -/
def AcceptRel (ar : Arith S V) (o : Oracle σ A S V) (R : S → S → Prop) (j : ℕ) (L : ScgLoc S V) (w : World σ S) : Prop :=
  ∀ L1 w1 beta alpha f_new delta, DirPath ar o j L w (.inl L1) w1 → Scg.stepSize ar L1 = .ok (beta, alpha) →
    ar.div (ar.mul (ar.lit 2) (ar.sub f_new L1.f_old)) (ar.mul alpha L1.mu) = .ok delta → ar.le (ar.lit 0) delta = true → R L1.f_old f_new

/-- What one iteration records. -/
theorem turn_values (R : S → S → Prop) (hR : ∀ a, R a a) (F : V → S) (hF : ∀ x s v s', o.f x args s = (.ok v, s') → v = F x) {p : Scg S} {m j : ℕ}
    {L : ScgLoc S V} {w w' : World σ S} {r} (acc : AcceptRel ar o R j L w) (ht : Scg.turn ar o args p m j L w = (.ok r, w')) :
    (r = .inr (L.x, L.f_now) ∧ L.success = true ∧ w'.stats.fx = w.stats.fx)
    ∨ ∃ a, w'.stats.fx = w.stats.fx.set j a ∧ j < w.stats.fx.length ∧ R L.f_old a ∧ (∀ L', r = .inl L' → L'.f_old = a)
      ∧ (∀ q, r = .inr q → q.2 = a) := by
  rcases (turn_ok _ o args).1 ht with ⟨q, rfl, hd⟩ | ⟨L1, w1, beta, alpha, hd, hst, hm⟩
  · cases hd with
    | zero hs _ => exact .inl ⟨rfl, hs, rfl⟩
  · right
    have hfo : L1.f_old = L.f_old := by
      cases hd with
      | keep _ => rfl
      | curv _ _ _ _ _ _ _ _ _ => rfl
    have acc' := acc L1 w1 beta alpha
    obtain ⟨l1, l2, l3⟩ := dirPath_lengths hd
    rw [← l1]
    cases hm with
    | reject f_new delta st hf hdl hr hj L' hfin =>
      refine ⟨_, rfl, hj.1, hfo ▸ hR _, fun L'' h => ?_, fun q h => by cases h⟩
      cases h
      exact (finish_ok _ hfin).2.2.1
    | tol f_new delta big st hf hdl hr hj _ _ _ =>
      exact ⟨_, rfl, hj.1, hfo ▸ acc' _ _ hd hst hdl hr, fun L'' h => (by cases h), fun q h => by cases h; rfl⟩
    | flat f_new delta big f_now g st st2 st3 hf hdl hr hj _ _ hf2 _ _ =>
      refine ⟨_, rfl, hj.1, hfo ▸ acc' _ _ hd hst hdl hr, fun L'' h => (by cases h), fun q h => ?_⟩
      cases h
      rw [hF _ _ _ _ hf, hF _ _ _ _ hf2]
    | accept f_new delta big f_now g st st2 st3 hf hdl hr hj _ _ _ _ _ L' hfin =>
      refine ⟨_, rfl, hj.1, hfo ▸ acc' _ _ hd hst hdl hr, fun L'' h => ?_, fun q h => by cases h⟩
      cases h
      exact (finish_ok _ hfin).2.2.1

theorem reach_steps (R : S → S → Prop) (hR : ∀ a, R a a) (F : V → S) (hF : ∀ x s v s', o.f x args s = (.ok v, s') → v = F x) {p : Scg S}
    (hp : Spec.Arrays p) {x0 : V} {s : σ} (acc : ∀ it L w, it < p.nit → Reach ar o args p x0 s it L w → AcceptRel ar o R it L w) {it : ℕ}
    {L : ScgLoc S V} {w : World σ S} (hr : Reach ar o args p x0 s it L w) :
    ∃ vals, vals.length = it ∧ w.stats.fx = vals ++ p.stats.fx.drop vals.length ∧ Spec.Steps R (F x0) vals L.f_old := by
  induction hr with
  | start f0 g0 s1 s2 hf hg =>
    refine ⟨[], rfl, rfl, List.isChain_singleton _, ?_⟩
    rw [← hF _ _ _ _ hf]
    rfl
  | @step it L L' w w' hr hit ht ih =>
    obtain ⟨vals, h1, h2, h3⟩ := ih
    rcases turn_values R hR F hF (acc _ _ _ hit hr) ht with ⟨h, _⟩ | ⟨a, e1, e3, e5, e7, _⟩
    · cases h
    · refine ⟨vals ++ [a], by simp [h1], ?_, ?_⟩
      · rw [e1, h2, ← h1]
        exact set_append_drop _ _ _ (by rw [hp.fx, h1]; exact hit)
      · rw [e7 _ rfl]
        exact h3.snoc e5

/-- If every accepted step changes the value by `R`, then so do all recorded values, up to the returned one. -/
theorem call_steps (R : S → S → Prop) (hR : ∀ a, R a a) (F : V → S) (hF : ∀ x s v s', o.f x args s = (.ok v, s') → v = F x) {p p' : Scg S}
    (hp : Spec.Arrays p) {x0 : V} {s s' : σ} (acc : ∀ it L w, it < p.nit → Reach ar o args p x0 s it L w → AcceptRel ar o R it L w) {x : V} {fx : S}
    (h : Scg.call ar o args p x0 s = (.ok (x, fx), p', s')) :
    ∃ vals : List S, vals.length ≤ p.nit ∧ p'.stats.fx = vals ++ p.stats.fx.drop vals.length ∧ Spec.Steps R (F x0) vals fx := by
  obtain ⟨it, L, w, hr, hc, _⟩ := call_reach _ o args h
  obtain ⟨vals, h1, h2, h3⟩ := reach_steps R hR F hF hp acc hr
  rcases hc with ⟨rfl, hq, rfl⟩ | ⟨hit, ht⟩
  · cases hq
    exact ⟨vals, h1.le, h2, h3⟩
  · rcases turn_values R hR F hF (acc _ _ _ hit hr) ht with ⟨hq, hs, e1⟩ | ⟨a, e1, e3, e5, _, e8⟩
    · cases hq
      obtain ⟨v1, v2⟩ := reach_value F hF hr
      refine ⟨vals, by omega, e1.trans h2, ?_⟩
      rw [v2 hs, ← v1]
      exact h3
    · refine ⟨vals ++ [a], by simp; omega, ?_, ?_⟩
      · dsimp only at e1
        rw [e1, h2, ← h1]
        exact set_append_drop _ _ _ (by rw [hp.fx, h1]; exact hit)
      · rw [show fx = a from e8 _ rfl]
        exact h3.snoc e5

/-! ## Any arithmetic that never raises -/

/-- Division and `np.abs(v).max()` never raise. -/
structure Spec.TotalArith (ar : Arith S V) : Prop where
  div : ∀ a b, ∃ c, ar.div a b = .ok c
  absMax : ∀ v, ∃ c, ar.absMax v = .ok c

theorem finish_total (ha : Spec.TotalArith ar) (m : ℕ) (delta : S) (L : ScgLoc S V) : ∃ L', Scg.finish ar m delta L = .ok L' := by
  unfold Scg.finish
  by_cases h : L.count_success = m
  · simp only [h, if_true]; exact ⟨_, rfl⟩
  · simp only [h, if_false]
    by_cases hs : L.success = true
    · simp only [hs, if_true]
      obtain ⟨c, e⟩ := ha.div (ar.dot L.grad_new (ar.vsub L.grad_old L.grad_new)) L.mu
      rw [e]
      exact ⟨_, rfl⟩
    · simp only [hs]; exact ⟨_, rfl⟩

theorem turn_total' (ha : Spec.TotalArith ar) (ho : Spec.NeverRaises o args) {p : Scg S} {m j : ℕ} {L : ScgLoc S V} {w : World σ S}
    (hj : j < w.stats.fx.length ∧ j < w.stats.beta.length ∧ j < w.stats.dfx.length) :
    ∃ r w', Scg.turn ar o args p m j L w = (.ok r, w') := by
  have hdir : ∃ r w', DirPath ar o j L w r w' := by
    cases hs : L.success with
    | false => exact ⟨_, _, .keep hs⟩
    | true =>
      cases hk : ar.lt (ar.dot (dirOf ar L).1 (dirOf ar L).1) (ar.lit (1 / 2 ^ 52)) with
      | true => exact ⟨_, _, .zero hs hk⟩
      | false =>
        obtain ⟨sigma, e1⟩ := ha.div (ar.lit (1 / 1000)) (ar.sqrt (ar.dot (dirOf ar L).1 (dirOf ar L).1))
        obtain ⟨g, st, hg⟩ := ho.dfEval (ar.vadd L.x (ar.smul sigma (dirOf ar L).1)) w.st
        obtain ⟨theta, e2⟩ := ha.div (ar.dot (dirOf ar L).1 (ar.vsub g L.grad_new)) sigma
        exact ⟨_, _, .curv hs hk sigma theta g st e1 hg e2⟩
  obtain ⟨r, w1, hd⟩ := hdir
  cases r with
  | inr q => exact ⟨.inr q, w1, (turn_ok _ o args).2 (.inl ⟨q, rfl, hd⟩)⟩
  | inl L1 =>
    obtain ⟨⟨b, alpha⟩, hst⟩ : ∃ q, Scg.stepSize ar L1 = .ok q := by
      obtain ⟨q1, e1⟩ := ha.div L1.theta L1.kappa
      obtain ⟨q2, e2⟩ := ha.div L1.mu (ar.mul L1.beta L1.kappa)
      obtain ⟨q3, e3⟩ := ha.div L1.mu (ar.add L1.theta (ar.mul L1.beta L1.kappa))
      unfold Scg.stepSize
      by_cases h : ar.le (ar.add L1.theta (ar.mul L1.beta L1.kappa)) (ar.lit 0) = true
      · simp only [h, if_true, e1, bind, Except.bind, pure, Except.pure, e2]; exact ⟨_, rfl⟩
      · simp only [h, bind, Except.bind, pure, Except.pure]
        simp only [Bool.false_eq_true, if_false, e3]; exact ⟨_, rfl⟩
    obtain ⟨l1, l2, l3⟩ := dirPath_lengths hd
    have hj1 : j < w1.stats.fx.length ∧ j < w1.stats.beta.length ∧ j < w1.stats.dfx.length := by rw [l1, l2, l3]; exact hj
    suffices ∃ r w', MovePath ar o args p m j { L1 with beta := b } alpha w1 r w' by
      obtain ⟨r, w', hm⟩ := this
      exact ⟨r, w', (turn_ok _ o args).2 (.inr ⟨L1, w1, b, _, hd, hst, hm⟩)⟩
    obtain ⟨f_new, st, hf⟩ := ho.f (ar.vadd L1.x (ar.smul alpha L1.d)) w1.st
    obtain ⟨delta, r1⟩ := ha.div (ar.mul (ar.lit 2) (ar.sub f_new L1.f_old)) (ar.mul alpha L1.mu)
    cases hr : ar.le (ar.lit 0) delta with
    | false =>
      obtain ⟨L3, e⟩ := finish_total ha m delta { { L1 with beta := b } with f_now := L1.f_old, success := false }
      exact ⟨_, _, MovePath.reject (L := { L1 with beta := b }) f_new _ st hf r1 hr hj1 L3 e⟩
    | true =>
      obtain ⟨big, hb⟩ := ha.absMax (ar.smul alpha L1.d)
      by_cases hn : ar.le big p.x_tol = true ∧ ar.le (ar.abs (ar.sub f_new L1.f_old)) p.f_tol = true
      · exact ⟨_, _, MovePath.tol (L := { L1 with beta := b }) f_new _ big st hf r1 hr hj1 hb hn.1 hn.2⟩
      · obtain ⟨f_now, st2, hf2⟩ := ho.f (ar.vadd L1.x (ar.smul alpha L1.d)) st
        obtain ⟨g, st3, hg⟩ := ho.df (ar.vadd L1.x (ar.smul alpha L1.d)) st2
        cases hc : ar.isClose0 (ar.dot g g) with
        | true => exact ⟨_, _, MovePath.flat (L := { L1 with beta := b }) f_new _ big f_now g st st2 st3 hf r1 hr hj1 hb hn hf2 hg hc⟩
        | false =>
          obtain ⟨L3, e⟩ := finish_total ha m delta { { L1 with beta := b } with
              x := ar.vadd L1.x (ar.smul alpha L1.d), f_now, f_old := f_new, grad_new := g
              grad_old := L1.grad_new, success := true, count_success := L1.count_success + 1 }
          exact ⟨_, _, MovePath.accept (L := { L1 with beta := b }) f_new _ big f_now g st st2 st3 hf r1 hr hj1 hb hn hf2 hg hc L3 e⟩

theorem call_total' (ha : Spec.TotalArith ar) {p : Scg S} (hp : Spec.Arrays p) (ho : Spec.NeverRaises o args) (x0 : V) (s : σ) :
    ∃ q p' s', Scg.call ar o args p x0 s = (.ok q, p', s') := by
  obtain ⟨f0, s1, hf⟩ := ho.f x0 s
  obtain ⟨g0, s2, hg⟩ := ho.df x0 s1
  have loop : ∀ k it L w, Reach ar o args p x0 s it L w → it + k = p.nit →
      ∃ q w', Scg.loop ar o args p (ar.size x0) (List.range' it k) L w = (.ok q, w') := by
    intro k
    induction k with
    | zero => intro it L w hr _; exact ⟨_, _, rfl⟩
    | succ k ih =>
      intro it L w hr hk
      obtain ⟨l1, l2, l3⟩ := reach_lengths hp hr
      obtain ⟨r, w1, ht⟩ := turn_total' (p := p) (m := ar.size x0) (L := L) (j := it) ha ho (w := w) ⟨by omega, by omega, by omega⟩
      rw [List.range'_succ]
      cases r with
      | inr q =>
        refine ⟨q, w1, ?_⟩
        simp only [Scg.loop, ScgM.bind_ok]
        exact ⟨_, _, ht, rfl⟩
      | inl L1 =>
        obtain ⟨q, w', h⟩ := ih (it + 1) L1 w1 (.step hr (by omega) ht) (by omega)
        refine ⟨q, w', ?_⟩
        simp only [Scg.loop, ScgM.bind_ok]
        exact ⟨_, _, ht, h⟩
  obtain ⟨q, ⟨s', t⟩, h⟩ := loop p.nit 0 _ _ (.start f0 g0 s1 s2 hf hg) (by omega)
  refine ⟨q, _, s', (call_ok _ o args).2 ⟨f0, g0, s1, s2, t, hf, hg, ?_, rfl⟩⟩
  rw [List.range_eq_range']
  exact h

end

end VGPA
