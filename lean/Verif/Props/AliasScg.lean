import Verif.Model.HeapScg
import Verif.Props.Alias

/-!
# C131: the optimizer and the arrays of others
-/

set_option linter.unusedSectionVars false

namespace VGPA

noncomputable section

variable {σ σ' A S : Type} {n : ℕ}

/-! ## Specification -/

/-- `ho` is the pair of functions `o`, written as a program on memory that keeps its hands off the arrays of others: it changes no array that exists, it may
make new ones (`h <+: h'`), and the arrays that the gradients return, new or not, have the contents they should have. `Is h s v`: in memory `h`, the shared state `s` of the two functions is `v`. -/
structure Spec.Tidy (Is : Heap → σ' → σ → Prop) (ho : HOracle σ' A S) (o : Oracle σ A S (Fin n → ℝ)) : Prop where
  mono : ∀ {h h' s v}, Is h s v → h <+: h' → Is h' s v
  f : ∀ {h s v x X} (a : A), Is h s v → Holds h x (List.ofFn X) → h <+: (ho.f x a s h).2.2 ∧ (ho.f x a s h).1 = (o.f X a v).1
    ∧ Is (ho.f x a s h).2.2 (ho.f x a s h).2.1 (o.f X a v).2
  df : ∀ {h s v x X} (a : A), Is h s v → Holds h x (List.ofFn X) → h <+: (ho.df x a s h).2.2
    ∧ (match (o.df X a v).1 with
      | .error e => (ho.df x a s h).1 = .error e
      | .ok G => ∃ g, (ho.df x a s h).1 = .ok g ∧ Holds (ho.df x a s h).2.2 g (List.ofFn G))
    ∧ Is (ho.df x a s h).2.2 (ho.df x a s h).2.1 (o.df X a v).2
  dfEval : ∀ {h s v x X}, Is h s v → Holds h x (List.ofFn X) → h <+: (ho.dfEval x s h).2.2
    ∧ (match (o.dfEval X v).1 with
      | .error e => (ho.dfEval x s h).1 = .error e
      | .ok G => ∃ g, (ho.dfEval x s h).1 = .ok g ∧ Holds (ho.dfEval x s h).2.2 g (List.ofFn G))
    ∧ Is (ho.dfEval x s h).2.2 (ho.dfEval x s h).2.1 (o.dfEval X v).2

/-- The functions leave the array at `l` alone, unless it is the one they are called with. Otherwise they may overwrite what they like, also their argument, and return what they like. -/
structure Spec.LeaveAlone (ho : HOracle σ' A S) (l : ℕ) : Prop where
  f : ∀ x a s h, x.loc ≠ l → (ho.f x a s h).2.2[l]? = h[l]?
  df : ∀ x a s h, x.loc ≠ l → (ho.df x a s h).2.2[l]? = h[l]?
  dfEval : ∀ x s h, x.loc ≠ l → (ho.dfEval x s h).2.2[l]? = h[l]?

/-! ## Two programs that do the same -/

section sim

variable (Is : Heap → σ' → σ → Prop)

/-- Outcomes that correspond. -/
def Res {α β : Type} (rel : α → β → Prop) : Py α → Py β → Prop
  | .ok a, .ok b => rel a b
  | .error e, .error e' => e = e'
  | _, _ => False

/-- In memory `h` the program `hm` on memory does what `m` does on values. -/
def HSim {α β : Type} (h : Heap) (m : ScgM (World σ S) α) (hm : ScgM (HWorld σ' S) β) (rel : Heap → α → β → Prop) : Prop :=
  ∀ s w, w.heap = h → w.stats = s.stats → Is h w.st s.st →
    h <+: (hm w).2.heap ∧ (hm w).2.stats = (m s).2.stats ∧ Is (hm w).2.heap (hm w).2.st (m s).2.st ∧ Res (rel (hm w).2.heap) (m s).1 (hm w).1

variable {Is}

theorem lift_bind {w α β : Type} (x : Py α) (f : α → Py β) : (ScgM.lift (x >>= f) : ScgM w β) = ScgM.lift x >>= fun a => ScgM.lift (f a) := by
  rcases x with e | a <;> rfl

theorem scgM_bind_run {w α β : Type} (x : ScgM w α) (f : α → ScgM w β) (s : w) : (x >>= f) s = match x s with | (.ok a, s') => f a s' | (.error e, s') => (.error e, s') := rfl

theorem sim_pure {α β : Type} {h : Heap} {a : α} {b : β} {rel : Heap → α → β → Prop} (hr : rel h a b) : HSim Is (S := S) h (pure a) (pure b) rel := by
  rintro s w rfl h1 h2
  exact ⟨List.prefix_refl _, h1, h2, hr⟩

theorem sim_bind {α β α' β' : Type} {h : Heap} {m : ScgM (World σ S) α} {hm : ScgM (HWorld σ' S) β} {rel : Heap → α → β → Prop} {k : α → ScgM (World σ S) α'} {hk : β → ScgM (HWorld σ' S) β'}
    {rel' : Heap → α' → β' → Prop} (h1 : HSim Is h m hm rel) (h2 : ∀ h' a b, h <+: h' → rel h' a b → HSim Is h' (k a) (hk b) rel') : HSim Is h (m >>= k) (hm >>= hk) rel' := by
  intro s w e1 e2 e3
  obtain ⟨p1, p2, p3, p4⟩ := h1 s w e1 e2 e3
  rw [scgM_bind_run, scgM_bind_run]
  rcases hx : m s with ⟨e | a, s'⟩ <;> rcases hy : hm w with ⟨e' | b, w'⟩ <;> rw [hx, hy] at p4 <;> rw [hx] at p2 p3 <;> rw [hy] at p1 p2 p3
  · exact ⟨p1, p2, p3, p4⟩
  · exact p4.elim
  · exact p4.elim
  · obtain ⟨q1, q2, q3, q4⟩ := h2 _ a b p1 p4 s' w' rfl p2 p3
    exact ⟨p1.trans q1, q2, q3, q4⟩

theorem vec_of_holds {h : Heap} {a : HArr} {v : Fin n → ℝ} (ha : Holds h a (List.ofFn v)) : a.vec n h = v := by
  funext i
  unfold HArr.vec
  rw [contents_of_holds ha, List.getD_eq_getElem?_getD]
  simp

theorem sim_rd {α β : Type} {h : Heap} {a : HArr} {v : Fin n → ℝ} (ha : Holds h a (List.ofFn v)) {m : ScgM (World σ S) α} {k : (Fin n → ℝ) → ScgM (HWorld σ' S) β} {rel : Heap → α → β → Prop}
    (h1 : HSim Is h m (k v) rel) : HSim Is h m (HScg.rd n a >>= k) rel := by
  rintro s w rfl e2 e3
  have : (HScg.rd n a >>= k) w = k v w := by
    rw [scgM_bind_run]
    simp only [HScg.rd, vec_of_holds ha]
  rw [this]
  exact h1 s w rfl e2 e3

theorem holds_new (h : Heap) (v : Fin n → ℝ) : Holds (h ++ [List.ofFn v]) ⟨h.length, 0, n, 1⟩ (List.ofFn v) :=
  ⟨by simp, rfl, [], [], by
    simp only [List.nil_append, List.append_nil]
    rw [List.getElem?_append_right (le_refl _), Nat.sub_self]
    have : ∀ l : List ℝ, l.flatMap Cells.enc = l := fun l => by
      induction l with
      | nil => rfl
      | cons x l ih =>
        rw [List.flatMap_cons, ih]
        rfl
    rw [this]
    rfl, rfl⟩

theorem sim_lift {α : Type} {h : Heap} (p : Py α) : HSim Is (S := S) h (.lift p) (.lift p) fun _ a b => a = b := by
  rintro s w rfl h1 h2
  refine ⟨List.prefix_refl _, h1, h2, ?_⟩
  rcases p with e | a <;> rfl

theorem sim_bump {h : Heap} (a b : ℕ) : HSim Is (S := S) h (bump a b) (HScg.bump a b) fun _ _ _ => True := by
  rintro s w rfl h1 h2
  refine ⟨List.prefix_refl _, ?_, h2, trivial⟩
  simp only [HScg.bump, bump, h1]

theorem sim_setMaxIt {h : Heap} (a : ℕ) : HSim Is (S := S) h (setMaxIt a) (HScg.setMaxIt a) fun _ _ _ => True := by
  rintro s w rfl h1 h2
  refine ⟨List.prefix_refl _, ?_, h2, trivial⟩
  simp only [HScg.setMaxIt, setMaxIt, h1]

theorem sim_record {h : Heap} (j : ℕ) (a b c : S) : HSim Is (S := S) h (record j a b c) (HScg.record j a b c) fun _ _ _ => True := by
  rintro s w rfl h1 h2
  have e : ∀ st : σ', (record (σ := σ') j a b c { st, stats := s.stats }).1 = (record (σ := σ) j a b c s).1
      ∧ (record (σ := σ') j a b c { st, stats := s.stats }).2.stats = (record (σ := σ) j a b c s).2.stats ∧ (record (σ := σ) j a b c s).2.st = s.st := fun st => by
    unfold record
    simp only
    rcases setIdx s.stats.fx j a with e | fx
    · exact ⟨rfl, rfl, rfl⟩
    rcases setIdx s.stats.beta j b with e | fx
    · exact ⟨rfl, rfl, rfl⟩
    rcases setIdx s.stats.dfx j c with e | fx <;> exact ⟨rfl, rfl, rfl⟩
  obtain ⟨e1, e2, e3⟩ := e w.st
  refine ⟨List.prefix_refl _, ?_, ?_, ?_⟩
  · simp only [HScg.record, h1, e2]
  · simp only [HScg.record, e3]
    exact h2
  · simp only [HScg.record, h1, e1]
    rcases (record (σ := σ) j a b c s).1 with e | a
    · rfl
    · trivial

variable {ho : HOracle σ' A S} {o : Oracle σ A S (Fin n → ℝ)} (ht : Spec.Tidy Is ho o)
include ht

theorem sim_mk {α β : Type} {h : Heap} {v : Fin n → ℝ} {m : ScgM (World σ S) α} {k : HArr → ScgM (HWorld σ' S) β}
    {rel : Heap → α → β → Prop} (h1 : ∀ h' a, h <+: h' → Holds h' a (List.ofFn v) → h.length ≤ a.loc → HSim Is h' m (k a) rel) : HSim Is h m (HScg.mk v >>= k) rel := by
  rintro s w rfl e2 e3
  have : (HScg.mk v >>= k) w = k ⟨w.heap.length, 0, n, 1⟩ { w with heap := w.heap ++ [List.ofFn v] } := rfl
  rw [this]
  have hp : w.heap <+: w.heap ++ [List.ofFn v] := List.prefix_append _ _
  obtain ⟨q1, q2⟩ := h1 _ ⟨w.heap.length, 0, n, 1⟩ hp (holds_new _ _) (le_refl _) s { w with heap := w.heap ++ [List.ofFn v] } rfl e2 (ht.mono e3 hp)
  exact ⟨hp.trans q1, q2⟩

theorem sim_callF {h : Heap} {x : HArr} {X : Fin n → ℝ} (hx : Holds h x (List.ofFn X)) (a : A) : HSim Is h (callF o X a) (HScg.callF ho x a) fun _ a b => a = b := by
  rintro s w rfl h1 h2
  obtain ⟨p1, p2, p3⟩ := ht.f a h2 hx
  refine ⟨p1, h1, p3, ?_⟩
  simp only [HScg.callF, callF, p2]
  rcases (o.f X a s.st).1 with e | a <;> rfl

theorem sim_callDf {h : Heap} {x : HArr} {X : Fin n → ℝ} (hx : Holds h x (List.ofFn X)) (a : A) : HSim Is h (callDf o X a) (HScg.callDf ho x a) fun h' G g => Holds h' g (List.ofFn G) := by
  rintro s w rfl h1 h2
  obtain ⟨p1, p2, p3⟩ := ht.df a h2 hx
  refine ⟨p1, h1, p3, ?_⟩
  simp only [HScg.callDf, callDf]
  rcases hr : (o.df X a s.st).1 with e | G <;> rw [hr] at p2
  · simp only at p2
    rw [p2]
    rfl
  · obtain ⟨g, q1, q2⟩ := p2
    rw [q1]
    exact q2

theorem sim_callDfEval {h : Heap} {x : HArr} {X : Fin n → ℝ} (hx : Holds h x (List.ofFn X)) : HSim Is h (callDfEval o X) (HScg.callDfEval ho x) fun h' G g => Holds h' g (List.ofFn G) := by
  rintro s w rfl h1 h2
  obtain ⟨p1, p2, p3⟩ := ht.dfEval h2 hx
  refine ⟨p1, h1, p3, ?_⟩
  simp only [HScg.callDfEval, callDfEval]
  rcases hr : (o.dfEval X s.st).1 with e | G <;> rw [hr] at p2
  · simp only at p2
    rw [p2]
    rfl
  · obtain ⟨g, q1, q2⟩ := p2
    rw [q1]
    exact q2

/-! ## The steps of the optimizer -/

/-- The local variables. The array `x` is not older than memory `h0`. -/
structure LocRel (h0 h : Heap) (L : ScgLoc S (Fin n → ℝ)) (H : HScgLoc S) : Prop where
  x : Holds h H.x (List.ofFn L.x)
  new : h0.length ≤ H.x.loc
  grad_new : Holds h H.grad_new (List.ofFn L.grad_new)
  grad_old : Holds h H.grad_old (List.ofFn L.grad_old)
  d : Holds h H.d (List.ofFn L.d)
  nums : (H.f_now, H.f_old, H.success, H.count_success, H.beta, H.kappa, H.theta, H.mu) = (L.f_now, L.f_old, L.success, L.count_success, L.beta, L.kappa, L.theta, L.mu)

/-- The result of an iteration. -/
def TurnRel (h0 h : Heap) : ScgLoc S (Fin n → ℝ) ⊕ ((Fin n → ℝ) × S) → HScgLoc S ⊕ (HArr × S) → Prop
  | .inl L, .inl H => LocRel h0 h L H
  | .inr r, .inr r' => Holds h r'.1 (List.ofFn r.1) ∧ h0.length ≤ r'.1.loc ∧ r'.2 = r.2
  | _, _ => False

omit ht in
theorem LocRel.mono {h0 h h' : Heap} {L : ScgLoc S (Fin n → ℝ)} {H : HScgLoc S} (hl : LocRel h0 h L H) (hp : h <+: h') : LocRel h0 h' L H :=
  ⟨hl.x.mono hp, hl.new, hl.grad_new.mono hp, hl.grad_old.mono hp, hl.d.mono hp, hl.nums⟩

variable (ar : Arith S (Fin n → ℝ)) (args : A)

theorem sim_directional {h0 h : Heap} (j : ℕ) {L : ScgLoc S (Fin n → ℝ)} {H : HScgLoc S} (hl : LocRel h0 h L H) :
    HSim Is h (Scg.directional ar o j L) (HScg.directional ar ho j H) (TurnRel h0) := by
  obtain ⟨hx1, hf1, hf2, hgn1, hgo1, hd1, s1, c1, b1, k1, t1, m1⟩ := H
  obtain ⟨hx, hnew, hgn, hgo, hd, hnums⟩ := hl
  simp only at hx hnew hgn hgo hd
  simp only [Prod.mk.injEq] at hnums
  obtain ⟨rfl, rfl, rfl, rfl, rfl, rfl, rfl, rfl⟩ := hnums
  unfold Scg.directional HScg.directional
  by_cases hs : L.success = true
  · rw [if_pos hs, if_pos hs]
    refine sim_rd hd (sim_rd hgn ?_)
    have key : ∀ (h' : Heap) (D : HArr) (dv : Fin n → ℝ) (mu : S), h <+: h' → Holds h' D (List.ofFn dv) → HSim Is h'
        (if ar.lt (ar.dot dv dv) (ar.lit (1 / 2 ^ 52)) = true then do
          setMaxIt (j + 1)
          pure (.inr (L.x, L.f_now))
        else do
          let sigma ← .lift (ar.div (ar.lit (1 / 1000)) (ar.sqrt (ar.dot dv dv)))
          let g_plus ← callDfEval o (ar.vadd L.x (ar.smul sigma dv))
          bump 1 1
          let theta ← .lift (ar.div (ar.dot dv (ar.vsub g_plus L.grad_new)) sigma)
          pure (.inl { L with d := dv, mu, kappa := ar.dot dv dv, theta }))
        (HScg.rd n D >>= fun v1 => HScg.rd n D >>= fun v2 =>
        if ar.lt (ar.dot v1 v2) (ar.lit (1 / 2 ^ 52)) = true then do
          HScg.setMaxIt (j + 1)
          pure (.inr (hx1, L.f_now))
        else do
          let sigma ← .lift (ar.div (ar.lit (1 / 1000)) (ar.sqrt (ar.dot v1 v2)))
          let x_plus ← HScg.mk (ar.vadd (← HScg.rd n hx1) (ar.smul sigma (← HScg.rd n D)))
          let g_plus ← HScg.callDfEval ho x_plus
          HScg.bump 1 1
          let theta ← .lift (ar.div (ar.dot (← HScg.rd n D) (ar.vsub (← HScg.rd n g_plus) (← HScg.rd n hgn1))) sigma)
          pure (.inl ⟨hx1, L.f_now, L.f_old, hgn1, hgo1, D, L.success, L.count_success, L.beta, ar.dot v1 v2, theta, mu⟩))
        (TurnRel h0) := by
      intro h' D dv mu hp hD
      refine sim_rd hD (sim_rd hD ?_)
      split_ifs with hk
      · exact sim_bind (sim_setMaxIt _) fun h'' _ _ hp' _ => sim_pure ⟨hx.mono (hp.trans hp'), hnew, rfl⟩
      · refine sim_bind (sim_lift _) fun h2 sg sg' p2 e => ?_
        subst e
        refine sim_rd (hx.mono (hp.trans p2)) (sim_rd (hD.mono p2) (sim_mk ht fun h3 xp p3 hxp _ => ?_))
        refine sim_bind (sim_callDfEval ht hxp) fun h4 G g p4 hg => sim_bind (sim_bump 1 1) fun h5 _ _ p5 _ => ?_
        refine sim_rd (hD.mono (p2.trans (p3.trans (p4.trans p5)))) (sim_rd (hg.mono p5) (sim_rd (hgn.mono (hp.trans (p2.trans (p3.trans (p4.trans p5))))) ?_))
        refine sim_bind (sim_lift _) fun h6 th th' p6 e => ?_
        subst e
        have q : h <+: h6 := hp.trans (p2.trans (p3.trans (p4.trans (p5.trans p6))))
        exact sim_pure ⟨hx.mono q, hnew, hgn.mono q, hgo.mono q, hD.mono (p2.trans (p3.trans (p4.trans (p5.trans p6)))), rfl⟩
    by_cases hc : ar.le (ar.lit 0) (ar.dot L.d L.grad_new) = true
    · simp only [hc, if_true]
      refine sim_rd hgn (sim_mk ht fun h' D hp hD _ => sim_rd hD (sim_rd (hgn.mono hp) ?_))
      exact key h' D _ _ hp hD
    · simp only [hc]
      exact key h _ _ _ (List.prefix_refl _) hd
  · rw [if_neg hs, if_neg hs]
    exact sim_pure ⟨hx, hnew, hgn, hgo, hd, rfl⟩

theorem sim_finish {h0 h : Heap} (dim : ℕ) (delta : S) {L : ScgLoc S (Fin n → ℝ)} {H : HScgLoc S} (hl : LocRel h0 h L H) :
    HSim Is h (.lift (Scg.finish ar dim delta L)) (HScg.finish ar dim delta H) (LocRel h0) := by
  obtain ⟨hx1, hf1, hf2, hgn1, hgo1, hd1, s1, c1, b1, k1, t1, m1⟩ := H
  obtain ⟨hx, hnew, hgn, hgo, hd, hnums⟩ := hl
  simp only at hx hnew hgn hgo hd
  simp only [Prod.mk.injEq] at hnums
  obtain ⟨rfl, rfl, rfl, rfl, rfl, rfl, rfl, rfl⟩ := hnums
  unfold Scg.finish HScg.finish
  by_cases hc : L.count_success = dim
  · simp only [hc, if_true]
    exact sim_rd hgn (sim_mk ht fun h' D hp hD _ => sim_pure ⟨hx.mono hp, hnew, hgn.mono hp, hgo.mono hp, hD, rfl⟩)
  · by_cases hs : L.success = true
    · simp only [hc, hs, if_true, if_false]
      rw [lift_bind]
      refine sim_rd hgn (sim_rd hgo (sim_rd hgn (sim_bind (sim_lift _) fun h1 q q' p1 e => ?_)))
      subst e
      refine sim_rd (hd.mono p1) (sim_rd (hgn.mono p1) (sim_mk ht fun h2 D p2 hD _ => ?_))
      have p := p1.trans p2
      exact sim_pure ⟨hx.mono p, hnew, hgn.mono p, hgo.mono p, hD, by simp⟩
    · simp only [hc, hs, if_false]
      exact sim_pure ⟨hx, hnew, hgn, hgo, hd, by simp⟩

theorem sim_move {h0 h : Heap} (h0h : h0 <+: h) (p : Scg S) (dim j : ℕ) {L : ScgLoc S (Fin n → ℝ)} {H : HScgLoc S} (hl : LocRel h0 h L H) (alpha : S) :
    HSim Is h (Scg.move ar o args p dim j L alpha) (HScg.move ar ho args p dim j H alpha) (TurnRel h0) := by
  obtain ⟨hx1, hf1, hf2, hgn1, hgo1, hd1, s1, c1, b1, k1, t1, m1⟩ := H
  obtain ⟨hx, hnew, hgn, hgo, hd, hnums⟩ := hl
  simp only at hx hnew hgn hgo hd
  simp only [Prod.mk.injEq] at hnums
  obtain ⟨rfl, rfl, rfl, rfl, rfl, rfl, rfl, rfl⟩ := hnums
  unfold Scg.move HScg.move
  refine sim_rd hx (sim_rd hd (sim_mk ht fun h1 xn p1 hxn hxn0 => ?_))
  refine sim_bind (sim_callF ht hxn args) fun h2 fn fn' p2 e => ?_
  subst e
  refine sim_bind (sim_bump 1 0) fun h3 _ _ p3 _ => sim_bind (sim_lift _) fun h4 dl dl' p4 e => ?_
  subst e
  have q4 : h <+: h4 := p1.trans (p2.trans (p3.trans p4))
  by_cases hc : ar.le (ar.lit 0) dl = true
  · simp only [hc, if_true]
    refine sim_rd (hxn.mono (p2.trans (p3.trans p4))) (sim_mk ht fun h5 x p5 hx5 hx50 => ?_)
    refine sim_rd (hgn.mono (q4.trans p5)) (sim_mk ht fun h6 gw p6 hgw _ => sim_rd hgw ?_)
    refine sim_bind (sim_record _ _ _ _) fun h7 _ _ p7 _ => ?_
    have q7 : h <+: h7 := q4.trans (p5.trans (p6.trans p7))
    refine sim_rd (hd.mono q7) (sim_bind (sim_lift _) fun h8 bg bg' p8 e => ?_)
    subst e
    have hx0 : h0.length ≤ x.loc := le_trans (h0h.trans q4).length_le hx50
    by_cases hb : (ar.le bg p.x_tol && ar.le (ar.abs (ar.sub fn L.f_old)) p.f_tol) = true
    · simp only [hb, if_true]
      exact sim_bind (sim_setMaxIt _) fun h9 _ _ p9 _ => sim_pure ⟨hx5.mono (p6.trans (p7.trans (p8.trans p9))), hx0, rfl⟩
    · simp only [hb]
      refine sim_rd (hgn.mono (q7.trans p8)) (sim_mk ht fun h9 go p9 hgo9 _ => ?_)
      have q9 : h5 <+: h9 := p6.trans (p7.trans (p8.trans p9))
      refine sim_bind (sim_callF ht (hx5.mono q9) args) fun h10 f1 f1' p10 e => ?_
      subst e
      refine sim_bind (sim_callDf ht (hx5.mono (q9.trans p10)) args) fun h11 G g p11 hg => sim_bind (sim_bump 1 1) fun h12 _ _ p12 _ => ?_
      refine sim_rd (hg.mono p12) (sim_rd (hg.mono p12) ?_)
      have q12 : h9 <+: h12 := p10.trans (p11.trans p12)
      by_cases hz : ar.isClose0 (ar.dot G G) = true
      · simp only [hz, if_true]
        exact sim_bind (sim_setMaxIt _) fun h13 _ _ p13 _ => sim_pure ⟨hx5.mono (q9.trans (q12.trans p13)), hx0, rfl⟩
      · simp only [hz]
        refine sim_bind (sim_finish ht ar dim dl ⟨hx5.mono (q9.trans q12), hx0, hg.mono p12, hgo9.mono q12, hd.mono (q7.trans (p8.trans (p9.trans q12))), rfl⟩) fun h13 L' H' p13 hl' => ?_
        exact sim_pure hl'
  · simp only [hc]
    refine sim_rd (hgo.mono q4) (sim_mk ht fun h6 gw p6 hgw _ => sim_rd hgw ?_)
    refine sim_bind (sim_record _ _ _ _) fun h7 _ _ p7 _ => ?_
    have q7 : h <+: h7 := q4.trans (p6.trans p7)
    refine sim_bind (sim_finish ht ar dim dl ⟨hx.mono q7, hnew, hgn.mono q7, hgo.mono q7, hd.mono q7, rfl⟩) fun h13 L' H' p13 hl' => ?_
    exact sim_pure hl'

theorem sim_turn {h0 h : Heap} (h0h : h0 <+: h) (p : Scg S) (dim j : ℕ) {L : ScgLoc S (Fin n → ℝ)} {H : HScgLoc S} (hl : LocRel h0 h L H) :
    HSim Is h (Scg.turn ar o args p dim j L) (HScg.turn ar ho args p dim j H) (TurnRel h0) := by
  unfold Scg.turn HScg.turn
  refine sim_bind (sim_directional ht ar j hl) fun h1 r r' p1 hr => ?_
  match r, r', hr with
  | .inr r, .inr r', hr => exact sim_pure hr
  | .inl L, .inl H, hr =>
    have e : HScg.stepSize ar H = Scg.stepSize ar L := by
      have := hr.nums
      simp only [Prod.mk.injEq] at this
      obtain ⟨-, -, -, -, e1, e2, e3, e4⟩ := this
      unfold HScg.stepSize Scg.stepSize
      rw [e1, e2, e3, e4]
    simp only [e]
    refine sim_bind (sim_lift _) fun h2 r r' p2 e => ?_
    subst e
    refine sim_move ht ar args (h0h.trans (p1.trans p2)) p dim j ?_ _
    have := hr.mono p2
    refine ⟨this.x, this.new, this.grad_new, this.grad_old, this.d, ?_⟩
    have := hr.nums
    simp only [Prod.mk.injEq] at this ⊢
    tauto

theorem sim_loop {h0 : Heap} (p : Scg S) (dim : ℕ) : ∀ (js : List ℕ) {h : Heap} {L : ScgLoc S (Fin n → ℝ)} {H : HScgLoc S}, h0 <+: h → LocRel h0 h L H →
    HSim Is h (Scg.loop ar o args p dim js L) (HScg.loop ar ho args p dim js H) fun h' r r' => Holds h' r'.1 (List.ofFn r.1) ∧ h0.length ≤ r'.1.loc ∧ r'.2 = r.2
  | [], h, L, H, _, hl => sim_pure ⟨hl.x, hl.new, by
      have := hl.nums
      simp only [Prod.mk.injEq] at this
      exact this.2.1⟩
  | j :: js, h, L, H, h0h, hl => by
      unfold Scg.loop HScg.loop
      refine sim_bind (sim_turn ht ar args h0h p dim j hl) fun h1 r r' p1 hr => ?_
      match r, r', hr with
      | .inr r, .inr r', hr => exact sim_pure hr
      | .inl L, .inl H, hr => exact sim_loop p dim js (h0h.trans p1) hr

theorem sim_call {h : Heap} (p : Scg S) {x0 : HArr} {X0 : Fin n → ℝ} (hx : Holds h x0 (List.ofFn X0)) {s : σ'} {v : σ} (hi : Is h s v) :
    let r := HScg.call ar ho args p x0 s h
    let r' := Scg.call ar o args p X0 v
    h <+: r.2.2.2 ∧ r.2.1 = r'.2.1 ∧ Is r.2.2.2 r.2.2.1 r'.2.2
      ∧ Res (fun a b => Holds r.2.2.2 b.1 (List.ofFn a.1) ∧ h.length ≤ b.1.loc ∧ b.2 = a.2) r'.1 r.1 := by
  have key : HSim Is (S := S) h
      (do
        let f_now ← callF o X0 args
        let grad_new ← callDf o X0 args
        bump 1 1
        Scg.loop ar o args p (ar.size X0) (List.range p.nit) {
          x := X0, f_now, f_old := f_now, grad_new, grad_old := grad_new, d := ar.vneg grad_new
          success := true, count_success := 0, beta := ar.lit 1
          kappa := ar.lit 0, theta := ar.lit 0, mu := ar.lit 0 })
      (do
        let x ← HScg.mk (← HScg.rd n x0)
        let f_now ← HScg.callF ho x args
        let grad_new ← HScg.callDf ho x args
        HScg.bump 1 1
        let grad_old ← HScg.mk (← HScg.rd n grad_new)
        let d ← HScg.mk (ar.vneg (← HScg.rd n grad_new))
        HScg.loop ar ho args p (ar.size (← HScg.rd n x)) (List.range p.nit) {
          x, f_now, f_old := f_now, grad_new, grad_old, d
          success := true, count_success := 0, beta := ar.lit 1
          kappa := ar.lit 0, theta := ar.lit 0, mu := ar.lit 0 })
      fun h' r r' => Holds h' r'.1 (List.ofFn r.1) ∧ h.length ≤ r'.1.loc ∧ r'.2 = r.2 := by
    refine sim_rd hx (sim_mk ht fun h1 x p1 hx1 hx10 => ?_)
    refine sim_bind (sim_callF ht hx1 args) fun h2 f f' p2 e => ?_
    subst e
    refine sim_bind (sim_callDf ht (hx1.mono p2) args) fun h3 G g p3 hg => sim_bind (sim_bump 1 1) fun h4 _ _ p4 _ => ?_
    refine sim_rd (hg.mono p4) (sim_mk ht fun h5 go p5 hgo _ => sim_rd (hg.mono (p4.trans p5)) (sim_mk ht fun h6 d p6 hd _ => ?_))
    have q : h1 <+: h6 := p2.trans (p3.trans (p4.trans (p5.trans p6)))
    refine sim_rd (hx1.mono q) (sim_loop ht ar args p _ _ (p1.trans q) ?_)
    exact ⟨hx1.mono q, hx10, hg.mono (p4.trans (p5.trans p6)), hgo.mono p6, hd, rfl⟩
  obtain ⟨k1, k2, k3, k4⟩ := key ⟨v, p.stats⟩ ⟨h, s, p.stats⟩ rfl rfl hi
  exact ⟨k1, congrArg (fun st => ({ p with stats := st } : Scg S)) k2, k3, k4⟩

end sim

/-! ## Programs that keep one array -/

section keep

/-- The program keeps the array at `l`, and its result is `post`. -/
def Keep (l : ℕ) (b : List ℝ) {β : Type} (m : ScgM (HWorld σ' S) β) (post : β → Prop) : Prop :=
  ∀ w, w.heap[l]? = some b → (m w).2.heap[l]? = some b ∧ ∀ r, (m w).1 = .ok r → post r

variable {l : ℕ} {b : List ℝ}

theorem keep_pure {β : Type} {r : β} {post : β → Prop} (hr : post r) : Keep (σ' := σ') (S := S) l b (pure r) post := by
  intro w hw
  refine ⟨hw, fun r' h => ?_⟩
  injection h with h
  exact h ▸ hr

theorem keep_bind {α β : Type} {m : ScgM (HWorld σ' S) α} {k : α → ScgM (HWorld σ' S) β} {post : α → Prop} {post' : β → Prop} (h1 : Keep l b m post)
    (h2 : ∀ a, post a → Keep l b (k a) post') : Keep l b (m >>= k) post' := by
  intro w hw
  obtain ⟨p1, p2⟩ := h1 w hw
  rw [scgM_bind_run]
  rcases hx : m w with ⟨e | a, w'⟩ <;> rw [hx] at p1 p2
  · exact ⟨p1, fun r h => by cases h⟩
  · exact h2 a (p2 a rfl) w' p1

theorem keep_rd (a : HArr) : Keep (σ' := σ') (S := S) l b (HScg.rd n a) fun _ => True := fun _ hw => ⟨hw, fun _ _ => trivial⟩

theorem keep_mk (v : Fin n → ℝ) : Keep (σ' := σ') (S := S) l b (HScg.mk v) fun a => a.loc ≠ l := by
  intro w hw
  have hl := (List.getElem?_eq_some_iff.1 hw).1
  refine ⟨?_, fun r h => ?_⟩
  · show (w.heap ++ [List.ofFn v])[l]? = _
    rw [List.getElem?_append_left hl]
    exact hw
  · injection h with h
    rw [← h]
    exact (Nat.ne_of_lt hl).symm

theorem keep_lift {α : Type} (p : Py α) : Keep (σ' := σ') (S := S) l b (.lift p) fun _ => True := fun _ hw => ⟨hw, fun _ _ => trivial⟩

theorem keep_bump (i j : ℕ) : Keep (σ' := σ') (S := S) l b (HScg.bump i j) fun _ => True := fun _ hw => ⟨hw, fun _ _ => trivial⟩

theorem keep_setMaxIt (i : ℕ) : Keep (σ' := σ') (S := S) l b (HScg.setMaxIt i) fun _ => True := fun _ hw => ⟨hw, fun _ _ => trivial⟩

theorem keep_record (j : ℕ) (x y z : S) : Keep (σ' := σ') (S := S) l b (HScg.record j x y z) fun _ => True := fun _ hw => ⟨hw, fun _ _ => trivial⟩

variable {ho : HOracle σ' A S} (hk : Spec.LeaveAlone ho l) (ar : Arith S (Fin n → ℝ)) (args : A)
include hk

theorem keep_callF {x : HArr} (hx : x.loc ≠ l) : Keep l b (HScg.callF ho x args) fun _ => True := fun w hw => ⟨(hk.f x args w.st w.heap hx).trans hw, fun _ _ => trivial⟩

theorem keep_callDf {x : HArr} (hx : x.loc ≠ l) : Keep l b (HScg.callDf ho x args) fun _ => True := fun w hw => ⟨(hk.df x args w.st w.heap hx).trans hw, fun _ _ => trivial⟩

theorem keep_callDfEval {x : HArr} (hx : x.loc ≠ l) : Keep l b (HScg.callDfEval ho x) fun _ => True := fun w hw => ⟨(hk.dfEval x w.st w.heap hx).trans hw, fun _ _ => trivial⟩

/-- The present point is another array. -/
def Elsewhere (l : ℕ) : HScgLoc S ⊕ (HArr × S) → Prop
  | .inl H => H.x.loc ≠ l
  | .inr r => r.1.loc ≠ l

theorem keep_directional (j : ℕ) {H : HScgLoc S} (hl : H.x.loc ≠ l) : Keep l b (HScg.directional ar ho j H) (Elsewhere l) := by
  have tail : ∀ (d : HArr) (mu : S), Keep l b (do
      let v1 ← HScg.rd n d
      let v2 ← HScg.rd n d
      if ar.lt (ar.dot v1 v2) (ar.lit (1 / 2 ^ 52)) = true then do
        HScg.setMaxIt (j + 1)
        pure (.inr (H.x, H.f_now))
      else do
        let sigma ← .lift (ar.div (ar.lit (1 / 1000)) (ar.sqrt (ar.dot v1 v2)))
        let x_plus ← HScg.mk (ar.vadd (← HScg.rd n H.x) (ar.smul sigma (← HScg.rd n d)))
        let g_plus ← HScg.callDfEval ho x_plus
        HScg.bump 1 1
        let theta ← .lift (ar.div (ar.dot (← HScg.rd n d) (ar.vsub (← HScg.rd n g_plus) (← HScg.rd n H.grad_new))) sigma)
        pure (.inl { H with d, mu, kappa := ar.dot v1 v2, theta })) (Elsewhere l) := by
    intro d mu
    refine keep_bind (keep_rd _) fun _ _ => keep_bind (keep_rd _) fun _ _ => ?_
    split_ifs
    · exact keep_bind (keep_setMaxIt _) fun _ _ => keep_pure hl
    · exact keep_bind (keep_lift _) fun _ _ => keep_bind (keep_rd _) fun _ _ => keep_bind (keep_rd _) fun _ _ => keep_bind (keep_mk _) fun _ hx =>
        keep_bind (keep_callDfEval hk hx) fun _ _ => keep_bind (keep_bump _ _) fun _ _ => keep_bind (keep_rd _) fun _ _ => keep_bind (keep_rd _) fun _ _ =>
        keep_bind (keep_rd _) fun _ _ => keep_bind (keep_lift _) fun _ _ => keep_pure hl
  unfold HScg.directional
  by_cases hs : H.success = true
  · rw [if_pos hs]
    refine keep_bind (keep_rd _) fun dv _ => keep_bind (keep_rd _) fun gv _ => ?_
    dsimp only
    split_ifs
    · exact keep_bind (keep_rd _) fun _ _ => keep_bind (keep_mk _) fun _ _ => keep_bind (keep_rd _) fun _ _ => keep_bind (keep_rd _) fun _ _ =>
        keep_bind (keep_pure (post := fun _ => True) trivial) fun _ _ => tail _ _
    · exact keep_bind (keep_pure (post := fun _ => True) trivial) fun _ _ => tail _ _
  · rw [if_neg hs]
    exact keep_pure hl

theorem keep_finish (dim : ℕ) (delta : S) {H : HScgLoc S} (hl : H.x.loc ≠ l) : Keep (σ' := σ') l b (HScg.finish ar dim delta H) fun H' => H'.x.loc ≠ l := by
  unfold HScg.finish
  simp only
  split_ifs
  all_goals first
    | exact keep_pure hl
    | exact keep_bind (keep_rd _) fun _ _ => keep_bind (keep_mk _) fun _ _ => keep_pure hl
    | exact keep_bind (keep_rd _) fun _ _ => keep_bind (keep_rd _) fun _ _ => keep_bind (keep_rd _) fun _ _ => keep_bind (keep_lift _) fun _ _ => keep_bind (keep_rd _) fun _ _ =>
        keep_bind (keep_rd _) fun _ _ => keep_bind (keep_mk _) fun _ _ => keep_pure hl

theorem keep_move (p : Scg S) (dim j : ℕ) {H : HScgLoc S} (hl : H.x.loc ≠ l) (alpha : S) : Keep l b (HScg.move ar ho args p dim j H alpha) (Elsewhere l) := by
  unfold HScg.move
  refine keep_bind (keep_rd _) fun _ _ => keep_bind (keep_rd _) fun _ _ => keep_bind (keep_mk _) fun xn hxn => keep_bind (keep_callF hk args hxn) fun fn _ =>
    keep_bind (keep_bump _ _) fun _ _ => keep_bind (keep_lift _) fun dl _ => ?_
  split_ifs
  · refine keep_bind (keep_rd _) fun _ _ => keep_bind (keep_mk _) fun x hx => keep_bind (keep_rd _) fun _ _ => keep_bind (keep_mk _) fun _ _ => keep_bind (keep_rd _) fun _ _ =>
      keep_bind (keep_record _ _ _ _) fun _ _ => keep_bind (keep_rd _) fun _ _ => keep_bind (keep_lift _) fun _ _ => ?_
    split_ifs
    · exact keep_bind (keep_setMaxIt _) fun _ _ => keep_pure hx
    · refine keep_bind (keep_rd _) fun _ _ => keep_bind (keep_mk _) fun _ _ => keep_bind (keep_callF hk args hx) fun _ _ => keep_bind (keep_callDf hk args hx) fun _ _ =>
        keep_bind (keep_bump _ _) fun _ _ => keep_bind (keep_rd _) fun _ _ => keep_bind (keep_rd _) fun _ _ => ?_
      split_ifs
      · exact keep_bind (keep_setMaxIt _) fun _ _ => keep_pure hx
      · exact keep_bind (keep_finish hk ar dim dl hx) fun _ h => keep_pure h
  · exact keep_bind (keep_rd _) fun _ _ => keep_bind (keep_mk _) fun _ _ => keep_bind (keep_rd _) fun _ _ => keep_bind (keep_record _ _ _ _) fun _ _ =>
      keep_bind (keep_finish hk ar dim dl hl) fun _ h => keep_pure h

theorem keep_turn (p : Scg S) (dim j : ℕ) {H : HScgLoc S} (hl : H.x.loc ≠ l) : Keep l b (HScg.turn ar ho args p dim j H) (Elsewhere l) := by
  unfold HScg.turn
  refine keep_bind (keep_directional hk ar j hl) fun r hr => ?_
  match r, hr with
  | .inr r, hr => exact keep_pure hr
  | .inl H, hr =>
    refine keep_bind (keep_lift _) fun ba _ => ?_
    exact keep_move hk ar args p dim j (H := { H with beta := ba.1 }) hr ba.2

theorem keep_loop (p : Scg S) (dim : ℕ) : ∀ (js : List ℕ) {H : HScgLoc S}, H.x.loc ≠ l → Keep l b (HScg.loop ar ho args p dim js H) fun r => r.1.loc ≠ l
  | [], H, hl => keep_pure hl
  | j :: js, H, hl => by
      unfold HScg.loop
      refine keep_bind (keep_turn hk ar args p dim j hl) fun r hr => ?_
      match r, hr with
      | .inr r, hr => exact keep_pure hr
      | .inl H, hr => exact keep_loop p dim js hr

end keep

/-! ## Theorems -/

/-- C131, any functions that keep to their own arrays. The call of the optimizer changes no array that existed, in particular not the start; it leaves the statistics and the state of the functions that the same call
leaves when all arrays are values; it raises what that call raises, or returns what that call returns, in a new array. -/
theorem C131_values {Is : Heap → σ' → σ → Prop} {ho : HOracle σ' A S} {o : Oracle σ A S (Fin n → ℝ)} (ht : Spec.Tidy Is ho o) (ar : Arith S (Fin n → ℝ)) (args : A) (p : Scg S) {h : Heap}
    {x0 : HArr} {X0 : Fin n → ℝ} (hx : Holds h x0 (List.ofFn X0)) {s : σ'} {v : σ} (hi : Is h s v) :
    ∃ r p' s' h', HScg.call ar ho args p x0 s h = (r, p', s', h') ∧ Spec.Unchanged h h' ∧ p' = (Scg.call ar o args p X0 v).2.1 ∧ Is h' s' (Scg.call ar o args p X0 v).2.2
      ∧ match (Scg.call ar o args p X0 v).1 with
        | .error e => r = .error e
        | .ok (X, F) => ∃ x, r = .ok (x, F) ∧ Spec.NewArray h h' x (List.ofFn X) := by
  refine ⟨_, _, _, _, rfl, ?_⟩
  obtain ⟨h1, h2, h3, h4⟩ := sim_call ht ar args p hx hi
  refine ⟨unchanged_of_prefix h1, h2, h3, ?_⟩
  show match (Scg.call ar o args p X0 v).1 with
    | .error e => (HScg.call ar ho args p x0 s h).1 = .error e
    | .ok (X, F) => ∃ x, (HScg.call ar ho args p x0 s h).1 = .ok (x, F) ∧ Spec.NewArray h (HScg.call ar ho args p x0 s h).2.2.2 x (List.ofFn X)
  rcases hr : (Scg.call ar o args p X0 v).1 with e | ⟨X, F⟩ <;> rcases hr' : (HScg.call ar ho args p x0 s h).1 with e' | ⟨x, F'⟩ <;> rw [hr, hr'] at h4
  · rw [show e = e' from h4]
  · exact h4.elim
  · exact h4.elim
  · obtain ⟨q1, q2, q3⟩ := h4
    simp only at q1 q2 q3
    subst q3
    exact ⟨x, rfl, q2, q1⟩

/-- C131, functions that may do anything. As long as they leave the array at `l` alone when they are not called with it, a call of the optimizer leaves it alone too, and does not return it: the functions are never
called with an array of the caller, also not when they overwrite their argument. For the start, `l` is `x0.loc`. -/
theorem C131_start_kept {ho : HOracle σ' A S} {l : ℕ} (hk : Spec.LeaveAlone ho l) (ar : Arith S (Fin n → ℝ)) (args : A) (p : Scg S) (x0 : HArr) (s : σ') {h : Heap} (hl : l < h.length) :
    (HScg.call ar ho args p x0 s h).2.2.2[l]? = h[l]? ∧ ∀ x F, (HScg.call ar ho args p x0 s h).1 = .ok (x, F) → x.loc ≠ l := by
  have hb := List.getElem?_eq_getElem hl
  have key := (show Keep l h[l]
      (do
        let x ← HScg.mk (← HScg.rd n x0)
        let f_now ← HScg.callF ho x args
        let grad_new ← HScg.callDf ho x args
        HScg.bump 1 1
        let grad_old ← HScg.mk (← HScg.rd n grad_new)
        let d ← HScg.mk (ar.vneg (← HScg.rd n grad_new))
        HScg.loop ar ho args p (ar.size (← HScg.rd n x)) (List.range p.nit) {
          x, f_now, f_old := f_now, grad_new, grad_old, d
          success := true, count_success := 0, beta := ar.lit 1
          kappa := ar.lit 0, theta := ar.lit 0, mu := ar.lit 0 }) (fun r => r.1.loc ≠ l) from
    keep_bind (keep_rd _) fun _ _ => keep_bind (keep_mk _) fun x hx => keep_bind (keep_callF hk args hx) fun _ _ => keep_bind (keep_callDf hk args hx) fun _ _ =>
      keep_bind (keep_bump _ _) fun _ _ => keep_bind (keep_rd _) fun _ _ => keep_bind (keep_mk _) fun _ _ => keep_bind (keep_rd _) fun _ _ => keep_bind (keep_mk _) fun _ _ =>
      keep_bind (keep_rd _) fun _ _ => keep_loop hk ar args p _ _ hx) ⟨h, s, p.stats⟩ hb
  exact ⟨key.1.trans hb.symm, fun x F hr => key.2 (x, F) hr⟩

section variational

variable {V W : Type} [AddCommGroup V] [Module ℝ V] [AddCommGroup W] [Module ℝ W] [Cells V] [Cells W] [LawfulCells V] [LawfulCells W]

theorem sized_ok {h h' : Heap} {r : Py HArr} {q : Py (List ℝ)}
    (hq : match q with | .error e => r = .error e | .ok G => ∃ g, r = .ok g ∧ Spec.NewArray h h' g G) :
    match q.bind (AnyVgp.asVec n) with
      | .error e => r.bind (sized n) = .error e
      | .ok G => ∃ g, r.bind (sized n) = .ok g ∧ Holds h' g (List.ofFn G) := by
  rcases q with e | G
  · simp only at hq
    subst hq
    rfl
  · obtain ⟨g, rfl, hg⟩ := hq
    have hn : g.n = G.length := hg.2.1
    by_cases hl : G.length = n
    · have e1 : AnyVgp.asVec n G = .ok fun i => G.getD i 0 := if_pos hl
      have e2 : sized n g = .ok g := if_pos (hn.trans hl)
      show match AnyVgp.asVec n G with
        | .error e => sized n g = .error e
        | .ok G => ∃ g', sized n g = .ok g' ∧ Holds h' g' (List.ofFn G)
      rw [e1]
      refine ⟨g, e2, ?_⟩
      have : (List.ofFn fun i : Fin n => G.getD i 0) = G := by
        subst hl
        apply List.ext_getElem (by simp)
        intro i h1 h2
        rw [List.getElem_ofFn]
        simp [h2]
      rw [this]
      exact hg.2
    · have e1 : AnyVgp.asVec n G = .error .valueError := if_neg hl
      have e2 : sized n g = .error .valueError := if_neg fun h => hl (hn.symm.trans h)
      show match AnyVgp.asVec n G with
        | .error e => sized n g = .error e
        | .ok G => ∃ g', sized n g = .ok g' ∧ Holds h' g' (List.ofFn G)
      rw [e1]
      exact e2

/-- `free_energy` and `gradient` keep to their own arrays. -/
theorem tidy_vgp {sh : HShape V W} (hsh : sh.Lawful) (n : ℕ) : Spec.Tidy (fun h o v => HVarGP.Is h o v) (hOracle sh n) (vOracle sh.toShape n) where
  mono hi hp := hi.mono hp
  f _ hi hx := free_ok hsh hi hx
  df _ hi hx := by
    obtain ⟨h1, h2, h3⟩ := grad_ok hsh hi hx false
    exact ⟨h1, sized_ok h2, h3⟩
  dfEval hi hx := by
    obtain ⟨h1, h2, h3⟩ := grad_ok hsh hi hx true
    exact ⟨h1, sized_ok h2, h3⟩

/-- C131, `SCG(vgpa.free_energy, vgpa.gradient, options)(x0)`: the call changes no array that existed, neither the start nor an array of the model, of the observations or of the output dictionary; it returns what the
optimizer returns when all arrays are values, in a new array, and leaves the variational object in the same state. -/
theorem C131_variational {sh : HShape V W} (hsh : sh.Lawful) (ar : Arith ℝ (Fin n → ℝ)) (p : Scg ℝ) {h : Heap} {o : HVarGP V W} {v : VarGP V W} (hi : o.Is h v) {x0 : HArr} {X0 : Fin n → ℝ}
    (hx : Holds h x0 (List.ofFn X0)) :
    ∃ r p' o' h', HScg.call ar (hOracle sh n) () p x0 o h = (r, p', o', h') ∧ Spec.Unchanged h h' ∧ p' = (Scg.call ar (vOracle sh.toShape n) () p X0 v).2.1
      ∧ o'.Is h' (Scg.call ar (vOracle sh.toShape n) () p X0 v).2.2
      ∧ match (Scg.call ar (vOracle sh.toShape n) () p X0 v).1 with
        | .error e => r = .error e
        | .ok (X, F) => ∃ x, r = .ok (x, F) ∧ Spec.NewArray h h' x (List.ofFn X) := by
  obtain ⟨r, p', o', h', h1, h2, h3, h4, h5⟩ := C131_values (tidy_vgp hsh n) ar () p hx hi
  refine ⟨r, p', o', h', h1, h2, h3, h4, ?_⟩
  rcases hr : (Scg.call ar (vOracle sh.toShape n) () p X0 v).1 with e | ⟨X, F⟩ <;> rw [hr] at h5 <;> exact h5

end variational

/-! ## A gradient function with a buffer of its own -/

/-- `f(x) = x²` for arrays with one entry, and a gradient function that writes its result into the array at `l` each time, and returns that array: as with the `out=` argument of numpy. -/
def bufferOracle : HOracle ℕ Unit ℝ where
  f x _ l h := (.ok (x.vec 1 h 0 ^ 2), l, h)
  df x _ l h := (.ok ⟨l, 0, 1, 1⟩, l, h.set l [2 * x.vec 1 h 0])
  dfEval x l h := (.ok ⟨l, 0, 1, 1⟩, l, h.set l [2 * x.vec 1 h 0])

/-- The same functions on values. -/
def squareOracle : Oracle Unit Unit ℝ (Fin 1 → ℝ) where
  f x _ _ := (.ok (x 0 ^ 2), ())
  df x _ _ := (.ok fun _ => 2 * x 0, ())
  dfEval x _ := (.ok fun _ => 2 * x 0, ())

theorem vec_one {h : Heap} {l : ℕ} {c : ℝ} (hl : h[l]? = some [c]) : HArr.vec 1 ⟨l, 0, 1, 1⟩ h = fun _ => c := by
  have : Holds h ⟨l, 0, 1, 1⟩ (List.ofFn fun _ : Fin 1 => c) := ⟨rfl, rfl, [], [], by rw [flatMap_real]; simpa using hl, rfl⟩
  exact vec_of_holds this

section run

variable {β : Type} (w : HWorld ℕ ℝ)

theorem run_rd (a : HArr) (k : (Fin 1 → ℝ) → ScgM (HWorld ℕ ℝ) β) : (HScg.rd 1 a >>= k) w = k (a.vec 1 w.heap) w := rfl
theorem run_mk (v : Fin 1 → ℝ) (k : HArr → ScgM (HWorld ℕ ℝ) β) : (HScg.mk v >>= k) w = k ⟨w.heap.length, 0, 1, 1⟩ { w with heap := w.heap ++ [[v 0]] } := rfl
theorem run_f (x : HArr) (k : ℝ → ScgM (HWorld ℕ ℝ) β) : (HScg.callF bufferOracle x () >>= k) w = k (x.vec 1 w.heap 0 ^ 2) w := rfl
theorem run_df (x : HArr) (k : HArr → ScgM (HWorld ℕ ℝ) β) :
    (HScg.callDf bufferOracle x () >>= k) w = k ⟨w.st, 0, 1, 1⟩ { w with heap := w.heap.set w.st [2 * x.vec 1 w.heap 0] } := rfl
theorem run_dfEval (x : HArr) (k : HArr → ScgM (HWorld ℕ ℝ) β) :
    (HScg.callDfEval bufferOracle x >>= k) w = k ⟨w.st, 0, 1, 1⟩ { w with heap := w.heap.set w.st [2 * x.vec 1 w.heap 0] } := rfl
theorem run_bump (i j : ℕ) (k : Unit → ScgM (HWorld ℕ ℝ) β) :
    (HScg.bump i j >>= k) w = k () { w with stats := { w.stats with f_eval := w.stats.f_eval + i, df_eval := w.stats.df_eval + j } } := rfl
theorem run_setMaxIt (i : ℕ) (k : Unit → ScgM (HWorld ℕ ℝ) β) : (HScg.setMaxIt i >>= k) w = k () { w with stats := { w.stats with MaxIt := i } } := rfl
theorem run_lift {α : Type} (a : α) (k : α → ScgM (HWorld ℕ ℝ) β) : (ScgM.lift (.ok a) >>= k) w = k a w := rfl
theorem run_pure {α : Type} (a : α) (k : α → ScgM (HWorld ℕ ℝ) β) : ((pure a : ScgM (HWorld ℕ ℝ) α) >>= k) w = k a w := rfl
theorem run_ite {c : Prop} [Decidable c] (a b : ScgM (HWorld ℕ ℝ) β) : (if c then a else b) w = if c then a w else b w := by
  split_ifs <;> rfl

theorem run_record {st : ScgStats ℝ} (h1 : st.fx = [0]) (h2 : st.dfx = [0]) (h3 : st.beta = [0]) (i j : ℕ) (x y t : ℝ) (h : Heap) :
    ∃ st', ∀ k : Unit → ScgM (HWorld ℕ ℝ) β, (HScg.record 0 x y t >>= k) ⟨h, 1, { st with f_eval := i, df_eval := j }⟩ = k () ⟨h, 1, st'⟩ := by
  refine ⟨⟨st.MaxIt, [x], [t], [y], i, j⟩, fun k => ?_⟩
  rw [scgM_bind_run]
  unfold HScg.record record
  simp only [h1, h2, h3]
  rfl

end run

section arith

variable (a b : ℝ)

theorem dot1 : (realArith 1).dot (fun _ => a) (fun _ => b) = a * b := by simp [realArith, dotProduct]
theorem smul1 : (realArith 1).smul a (fun _ => b) = fun _ => a * b := rfl
theorem vadd1 : (realArith 1).vadd (fun _ => a) (fun _ => b) = fun _ => a + b := rfl
theorem vsub1 : (realArith 1).vsub (fun _ => a) (fun _ => b) = fun _ => a - b := rfl
theorem vneg1 : (realArith 1).vneg (fun _ => a) = fun _ => -a := rfl
theorem absMax1 : (realArith 1).absMax (fun _ => a) = .ok |a| := by simp [realArith]
theorem lit1 (q : ℚ) : (realArith 1).lit q = (q : ℝ) := rfl
theorem div1 (hb : b ≠ 0) : (realArith 1).div a b = .ok (a / b) := if_neg hb
theorem le1 : ((realArith 1).le a b = true) = (a ≤ b) := by simp [realArith]
theorem lt1 : ((realArith 1).lt a b = true) = (a < b) := by simp [realArith]

end arith

theorem buffer_directional (c : ℝ) (hc : 1 ≤ |c|) (fx : ℝ) (st : ScgStats ℝ) :
    ∃ st' z, HScg.directional (realArith 1) bufferOracle 0 ⟨⟨2, 0, 1, 1⟩, fx, fx, ⟨1, 0, 1, 1⟩, ⟨3, 0, 1, 1⟩, ⟨4, 0, 1, 1⟩, true, 0, 1, 0, 0, 0⟩
      ⟨[[c], [2 * c], [c], [2 * c], [-(2 * c)]], 1, st⟩ = (.ok (.inl ⟨⟨2, 0, 1, 1⟩, fx, fx, ⟨1, 0, 1, 1⟩, ⟨3, 0, 1, 1⟩, ⟨4, 0, 1, 1⟩, true, 0, 1, 4 * c ^ 2, 0, -(4 * c ^ 2)⟩),
      ⟨[[c], [2 * z], [c], [2 * c], [-(2 * c)], [z]], 1, st'⟩) ∧ st'.fx = st.fx ∧ st'.dfx = st.dfx ∧ st'.beta = st.beta := by
  have hc2 : 1 ≤ c ^ 2 := by
    rw [← sq_abs]
    nlinarith
  have hs : √(4 * c ^ 2) ≠ 0 := by positivity
  have hm : -(2 * c) * (2 * c) = -(4 * c ^ 2) := by ring
  have hk : -(2 * c) * -(2 * c) = 4 * c ^ 2 := by ring
  have e1 : HArr.vec 1 ⟨1, 0, 1, 1⟩ [[c], [2 * c], [c], [2 * c], [-(2 * c)]] = fun _ => 2 * c := vec_one rfl
  have e2 : HArr.vec 1 ⟨2, 0, 1, 1⟩ [[c], [2 * c], [c], [2 * c], [-(2 * c)]] = fun _ => c := vec_one rfl
  have e4 : HArr.vec 1 ⟨4, 0, 1, 1⟩ [[c], [2 * c], [c], [2 * c], [-(2 * c)]] = fun _ => -(2 * c) := vec_one rfl
  have n1 : ¬ ((((0 : ℚ) : ℝ)) ≤ -(4 * c ^ 2)) := by
    push_cast
    nlinarith
  have n2 : ¬ 4 * c ^ 2 < (((1 / 2 ^ 52 : ℚ) : ℝ)) := by
    push_cast
    nlinarith
  obtain ⟨q, hq⟩ : ∃ q, (realArith 1).div ((1 / 1000 : ℚ) : ℝ) ((realArith 1).sqrt (4 * c ^ 2)) = .ok q ∧ q ≠ 0 :=
    ⟨_, div1 _ _ hs, div_ne_zero (by norm_num) hs⟩
  obtain ⟨z, hz⟩ : ∃ z, z = c + q * -(2 * c) := ⟨_, rfl⟩
  have f1 : HArr.vec 1 ⟨1, 0, 1, 1⟩ [[c], [2 * z], [c], [2 * c], [-(2 * c)], [z]] = fun _ => 2 * z := vec_one rfl
  have f4 : HArr.vec 1 ⟨4, 0, 1, 1⟩ [[c], [2 * z], [c], [2 * c], [-(2 * c)], [z]] = fun _ => -(2 * c) := vec_one rfl
  have f5 : HArr.vec 1 ⟨5, 0, 1, 1⟩ [[c], [2 * c], [c], [2 * c], [-(2 * c)], [z]] = fun _ => z := vec_one rfl
  refine ⟨{ st with f_eval := st.f_eval + 1, df_eval := st.df_eval + 1 }, z, ?_, rfl, rfl, rfl⟩
  unfold HScg.directional
  simp only [if_true, run_rd, run_ite, run_pure, e1, e4, dot1, hm, hk, lit1, le1, lt1, n1, n2, if_false, hq.1, run_lift, run_mk, e2, smul1, vadd1, ← hz, List.length_cons, List.length_nil,
    List.cons_append, List.nil_append, run_dfEval, f5, run_bump, List.set_cons_succ, List.set_cons_zero, f4, f1, vsub1, sub_self, mul_zero, div1 _ _ hq.2, zero_div]
  rfl

theorem buffer_move (c : ℝ) (hc : 1 ≤ |c|) (z : ℝ) (p : Scg ℝ) (st : ScgStats ℝ) (h1 : st.fx = [0]) (h2 : st.dfx = [0]) (h3 : st.beta = [0]) :
    ∃ r w, HScg.move (realArith 1) bufferOracle () p 1 0 ⟨⟨2, 0, 1, 1⟩, c ^ 2, c ^ 2, ⟨1, 0, 1, 1⟩, ⟨3, 0, 1, 1⟩, ⟨4, 0, 1, 1⟩, true, 0, 1, 4 * c ^ 2, 0, -(4 * c ^ 2)⟩ 1
      ⟨[[c], [2 * z], [c], [2 * c], [-(2 * c)], [z]], 1, st⟩ = (.ok r, w) ∧ w.heap[7]? = some [-c]
      ∧ (r = .inr (⟨7, 0, 1, 1⟩, c ^ 2) ∨ ∃ H : HScgLoc ℝ, r = .inl H ∧ H.x = ⟨7, 0, 1, 1⟩ ∧ H.f_old = c ^ 2) := by
  have hc2 : 1 ≤ c ^ 2 := by
    rw [← sq_abs]
    nlinarith
  have g2 : HArr.vec 1 ⟨2, 0, 1, 1⟩ [[c], [2 * z], [c], [2 * c], [-(2 * c)], [z]] = fun _ => c := vec_one rfl
  have g4 : HArr.vec 1 ⟨4, 0, 1, 1⟩ [[c], [2 * z], [c], [2 * c], [-(2 * c)], [z]] = fun _ => -(2 * c) := vec_one rfl
  have hx : c + 1 * -(2 * c) = -c := by ring
  have g6 : HArr.vec 1 ⟨6, 0, 1, 1⟩ [[c], [2 * z], [c], [2 * c], [-(2 * c)], [z], [-c]] = fun _ => -c := vec_one rfl
  have hd : (realArith 1).div ((realArith 1).mul ((2 : ℚ) : ℝ) ((realArith 1).sub (c ^ 2) (c ^ 2))) ((realArith 1).mul 1 (-(4 * c ^ 2))) = .ok 0 := by
    rw [div1]
    · congr 1
      show (((2 : ℚ) : ℝ)) * (c ^ 2 - c ^ 2) / _ = 0
      rw [sub_self, mul_zero, zero_div]
    · show 1 * (-(4 * c ^ 2)) ≠ 0
      rw [one_mul, neg_ne_zero]
      positivity
  have n1 : (((0 : ℚ) : ℝ)) ≤ 0 := by norm_num
  unfold HScg.move
  simp only [run_rd, run_mk, g2, g4, smul1, vadd1, hx, run_f, List.length_cons, List.length_nil, List.cons_append, List.nil_append, g6, neg_sq, run_bump, lit1, hd, run_lift, run_ite, le1, n1, if_true]
  have k4 : HArr.vec 1 ⟨4, 0, 1, 1⟩ [[c], [2 * z], [c], [2 * c], [-(2 * c)], [z], [-c], [-c], [2 * z]] = fun _ => -(2 * c) := vec_one rfl
  have k8 : HArr.vec 1 ⟨8, 0, 1, 1⟩ [[c], [2 * z], [c], [2 * c], [-(2 * c)], [z], [-c], [-c], [2 * z]] = fun _ => 2 * z := vec_one rfl
  have k1 : HArr.vec 1 ⟨1, 0, 1, 1⟩ [[c], [2 * z], [c], [2 * c], [-(2 * c)], [z], [-c], [-c]] = fun _ => 2 * z := vec_one rfl
  have k1' : HArr.vec 1 ⟨1, 0, 1, 1⟩ [[c], [2 * z], [c], [2 * c], [-(2 * c)], [z], [-c], [-c], [2 * z]] = fun _ => 2 * z := vec_one rfl
  obtain ⟨st', hst⟩ := run_record (β := HScgLoc ℝ ⊕ (HArr × ℝ)) h1 h2 h3 (st.f_eval + 1) (st.df_eval + 0) (c ^ 2) 1 ((realArith 1).absSum fun _ => 2 * z) [[c], [2 * z], [c], [2 * c], [-(2 * c)], [z], [-c], [-c], [2 * z]]
  simp only [k1, k8, hst, k4, run_rd, smul1, absMax1, run_lift, run_ite]
  split_ifs with hb
  · exact ⟨_, _, rfl, rfl, .inl rfl⟩
  · have l7 : HArr.vec 1 ⟨7, 0, 1, 1⟩ [[c], [2 * z], [c], [2 * c], [-(2 * c)], [z], [-c], [-c], [2 * z], [2 * z]] = fun _ => -c := vec_one rfl
    have m1 : HArr.vec 1 ⟨1, 0, 1, 1⟩ [[c], [2 * -c], [c], [2 * c], [-(2 * c)], [z], [-c], [-c], [2 * z], [2 * z]] = fun _ => 2 * -c := vec_one rfl
    simp only [k1', run_mk, List.length_cons, List.length_nil, List.cons_append, List.nil_append, run_f, run_df, l7, List.set_cons_succ, List.set_cons_zero, run_bump, run_rd, m1, run_ite, neg_sq]
    split_ifs with hz
    · exact ⟨_, _, rfl, rfl, .inl rfl⟩
    · unfold HScg.finish
      simp only [if_true, Nat.zero_add]
      exact ⟨_, _, rfl, rfl, .inr ⟨_, rfl, rfl, rfl⟩⟩

theorem buffer_call (c : ℝ) (hc : 1 ≤ |c|) (x_tol f_tol : Option ℝ) :
    ∃ x w, HScg.call (realArith 1) bufferOracle () (Scg.init (realArith 1) (some 1) x_tol f_tol) ⟨0, 0, 1, 1⟩ 1 [[c], [0]] = (.ok (x, c ^ 2), w) ∧ Holds w.2.2 x [-c] := by
  have e0 : HArr.vec 1 ⟨0, 0, 1, 1⟩ [[c], [0]] = fun _ => c := vec_one rfl
  have e2 : HArr.vec 1 ⟨2, 0, 1, 1⟩ [[c], [0], [c]] = fun _ => c := vec_one rfl
  have e1 : HArr.vec 1 ⟨1, 0, 1, 1⟩ [[c], [2 * c], [c]] = fun _ => 2 * c := vec_one rfl
  have e1' : HArr.vec 1 ⟨1, 0, 1, 1⟩ [[c], [2 * c], [c], [2 * c]] = fun _ => 2 * c := vec_one rfl
  have hc2 : 1 ≤ c ^ 2 := by
    rw [← sq_abs]
    nlinarith
  obtain ⟨st1, z, hdir, s1, s2, s3⟩ := buffer_directional c hc (c ^ 2)
    ⟨1, [0], [0], [0], 1, 1⟩
  obtain ⟨r, w, hmove, hw, hr⟩ := buffer_move c hc z (Scg.init (realArith 1) (some 1) x_tol f_tol) st1 s1 s2 s3
  have hstep : HScg.stepSize (realArith 1) ⟨⟨2, 0, 1, 1⟩, c ^ 2, c ^ 2, ⟨1, 0, 1, 1⟩, ⟨3, 0, 1, 1⟩, ⟨4, 0, 1, 1⟩, true, 0, 1, 4 * c ^ 2, 0, -(4 * c ^ 2)⟩ = .ok (1, 1) := by
    have hd : (realArith 1).add 0 ((realArith 1).mul 1 (4 * c ^ 2)) = 4 * c ^ 2 := by
      show 0 + 1 * (4 * c ^ 2) = _
      ring
    have n : ¬ (4 * c ^ 2 ≤ ((0 : ℚ) : ℝ)) := by
      push_cast
      nlinarith
    have h4 : 4 * c ^ 2 ≠ 0 := by positivity
    unfold HScg.stepSize
    simp only [hd, lit1, le1, n, if_false, py_pure, py_ok_bind, div1 _ _ h4]
    show Except.ok ((1 : ℝ), -(-(4 * c ^ 2) / (4 * c ^ 2))) = _
    rw [neg_div, div_self h4, neg_neg]
  have hturn : HScg.turn (realArith 1) bufferOracle () (Scg.init (realArith 1) (some 1) x_tol f_tol) 1 0
      ⟨⟨2, 0, 1, 1⟩, c ^ 2, c ^ 2, ⟨1, 0, 1, 1⟩, ⟨3, 0, 1, 1⟩, ⟨4, 0, 1, 1⟩, true, 0, 1, 0, 0, 0⟩ ⟨[[c], [2 * c], [c], [2 * c], [-(2 * c)]], 1, ⟨1, [0], [0], [0], 1, 1⟩⟩ = (.ok r, w) := by
    unfold HScg.turn
    rw [scgM_bind_run, hdir]
    simp only [hstep, run_lift]
    exact hmove
  have hloop : ∃ x, HScg.loop (realArith 1) bufferOracle () (Scg.init (realArith 1) (some 1) x_tol f_tol) 1 [0]
      ⟨⟨2, 0, 1, 1⟩, c ^ 2, c ^ 2, ⟨1, 0, 1, 1⟩, ⟨3, 0, 1, 1⟩, ⟨4, 0, 1, 1⟩, true, 0, 1, 0, 0, 0⟩ ⟨[[c], [2 * c], [c], [2 * c], [-(2 * c)]], 1, ⟨1, [0], [0], [0], 1, 1⟩⟩
        = (.ok (x, c ^ 2), w) ∧ x = ⟨7, 0, 1, 1⟩ := by
    unfold HScg.loop
    rw [scgM_bind_run, hturn]
    rcases hr with rfl | ⟨H, rfl, h1, h2⟩
    · exact ⟨_, rfl, rfl⟩
    · refine ⟨H.x, ?_, h1⟩
      rw [← h2]
      rfl
  obtain ⟨x, hx, rfl⟩ := hloop
  refine ⟨⟨7, 0, 1, 1⟩, ({ (Scg.init (realArith 1) (some 1) x_tol f_tol) with stats := w.stats }, w.st, w.heap), ?_, rfl, rfl, [], [], by rw [flatMap_real]; simpa using hw, rfl⟩
  have hl : (Scg.init (realArith 1) (some 1) x_tol f_tol).stats = ⟨1, [0], [0], [0], 0, 0⟩ := by
    simp [Scg.init, realArith]
  have l0 : (((0 : ℚ) : ℝ)) = 0 := by norm_num
  have l1 : (((1 : ℚ) : ℝ)) = 1 := by norm_num
  unfold HScg.call
  simp only [run_rd, run_mk, run_f, run_df, run_bump, e0, e1, e1', e2, List.length_cons, List.length_nil, List.cons_append, List.nil_append, List.set_cons_succ, List.set_cons_zero, vneg1, hl, lit1, l0, l1]
  have hn : List.range (Scg.init (realArith 1) (some 1) x_tol f_tol).nit = [0] := rfl
  rw [hn]
  have := hx
  simp only [show ∀ v, (realArith 1).size v = 1 from fun _ => rfl] at this ⊢
  rw [this]

section vrun

variable {β : Type} (w : World Unit ℝ)

theorem vrun_f (x : ℝ) (k : ℝ → ScgM (World Unit ℝ) β) : (callF squareOracle (fun _ => x) () >>= k) w = k (x ^ 2) w := rfl
theorem vrun_df (x : ℝ) (k : (Fin 1 → ℝ) → ScgM (World Unit ℝ) β) : (callDf squareOracle (fun _ => x) () >>= k) w = k (fun _ => 2 * x) w := rfl
theorem vrun_dfEval (x : ℝ) (k : (Fin 1 → ℝ) → ScgM (World Unit ℝ) β) : (callDfEval squareOracle (fun _ => x) >>= k) w = k (fun _ => 2 * x) w := rfl
theorem vrun_bump (i j : ℕ) (k : Unit → ScgM (World Unit ℝ) β) :
    (bump i j >>= k) w = k () { w with stats := { w.stats with f_eval := w.stats.f_eval + i, df_eval := w.stats.df_eval + j } } := rfl
theorem vrun_setMaxIt (i : ℕ) (k : Unit → ScgM (World Unit ℝ) β) : (setMaxIt i >>= k) w = k () { w with stats := { w.stats with MaxIt := i } } := rfl
theorem vrun_lift {α : Type} (a : α) (k : α → ScgM (World Unit ℝ) β) : (ScgM.lift (.ok a) >>= k) w = k a w := rfl
theorem vrun_ite {c : Prop} [Decidable c] (a b : ScgM (World Unit ℝ) β) : (if c then a else b) w = if c then a w else b w := by
  split_ifs <;> rfl
theorem vrun_record (M i j : ℕ) (x y t : ℝ) (k : Unit → ScgM (World Unit ℝ) β) :
    (record 0 x y t >>= k) ⟨(), ⟨M, [0], [0], [0], i, j⟩⟩ = k () ⟨(), ⟨M, [x], [t], [y], i, j⟩⟩ := rfl

end vrun

theorem square_call (c : ℝ) (hc : 1 ≤ |c|) (x_tol f_tol : Option ℝ) :
    (Scg.call (realArith 1) squareOracle () (Scg.init (realArith 1) (some 1) x_tol f_tol) (fun _ => c) ()).1 = .ok (fun _ => c / 3, c ^ 2 / 9) := by
  have hc2 : 1 ≤ c ^ 2 := by
    rw [← sq_abs]
    nlinarith
  have hc0 : c ≠ 0 := by
    rintro rfl
    norm_num at hc2
  have h4 : 4 * c ^ 2 ≠ 0 := by positivity
  have hs : √(4 * c ^ 2) ≠ 0 := by positivity
  have hm : -(2 * c) * (2 * c) = -(4 * c ^ 2) := by ring
  have hk : -(2 * c) * -(2 * c) = 4 * c ^ 2 := by ring
  have n1 : ¬ ((((0 : ℚ) : ℝ)) ≤ -(4 * c ^ 2)) := by
    push_cast
    nlinarith
  have n2 : ¬ 4 * c ^ 2 < (((1 / 2 ^ 52 : ℚ) : ℝ)) := by
    push_cast
    nlinarith
  obtain ⟨q, hq, hq0⟩ : ∃ q, (realArith 1).div ((1 / 1000 : ℚ) : ℝ) ((realArith 1).sqrt (4 * c ^ 2)) = .ok q ∧ q ≠ 0 :=
    ⟨_, div1 _ _ hs, div_ne_zero (by norm_num) hs⟩
  have ht : -(2 * c) * (2 * (c + q * -(2 * c)) - 2 * c) / q = 8 * c ^ 2 := by
    field_simp
    ring
  have hl : (Scg.init (realArith 1) (some 1) x_tol f_tol).stats = ⟨1, [0], [0], [0], 0, 0⟩ := by
    simp [Scg.init, realArith]
  have l0 : (((0 : ℚ) : ℝ)) = 0 := by norm_num
  have l1 : (((1 : ℚ) : ℝ)) = 1 := by norm_num
  have hstep : Scg.stepSize (realArith 1) (⟨fun _ => c, c ^ 2, c ^ 2, fun _ => 2 * c, fun _ => 2 * c, fun _ => -(2 * c), true, 0, 1, 4 * c ^ 2, 8 * c ^ 2, -(4 * c ^ 2)⟩ : ScgLoc ℝ (Fin 1 → ℝ))
      = .ok (1, 1 / 3) := by
    have hd : (realArith 1).add (8 * c ^ 2) ((realArith 1).mul 1 (4 * c ^ 2)) = 12 * c ^ 2 := by
      show 8 * c ^ 2 + 1 * (4 * c ^ 2) = _
      ring
    have n : ¬ (12 * c ^ 2 ≤ ((0 : ℚ) : ℝ)) := by
      push_cast
      nlinarith
    have h12 : 12 * c ^ 2 ≠ 0 := by positivity
    unfold Scg.stepSize
    simp only [hd, lit1, le1, n, if_false, py_pure, py_ok_bind, div1 _ _ h12]
    show Except.ok ((1 : ℝ), -(-(4 * c ^ 2) / (12 * c ^ 2))) = _
    congr 2
    field_simp
    norm_num
  have hx : c + 1 / 3 * -(2 * c) = c / 3 := by ring
  have hf : (c / 3) ^ 2 = c ^ 2 / 9 := by ring
  have hd : (realArith 1).div ((realArith 1).mul ((2 : ℚ) : ℝ) ((realArith 1).sub (c ^ 2 / 9) (c ^ 2))) ((realArith 1).mul (1 / 3) (-(4 * c ^ 2))) = .ok (4 / 3) := by
    rw [div1]
    · congr 1
      show (((2 : ℚ) : ℝ)) * (c ^ 2 / 9 - c ^ 2) / (1 / 3 * -(4 * c ^ 2)) = 4 / 3
      push_cast
      field_simp
      norm_num
    · show 1 / 3 * (-(4 * c ^ 2)) ≠ 0
      exact mul_ne_zero (by norm_num) (neg_ne_zero.2 h4)
  have n3 : (((0 : ℚ) : ℝ)) ≤ 4 / 3 := by norm_num
  have hn : List.range (Scg.init (realArith 1) (some 1) x_tol f_tol).nit = [0] := rfl
  have hdir : Scg.directional (realArith 1) squareOracle 0 ⟨fun _ => c, c ^ 2, c ^ 2, fun _ => 2 * c, fun _ => 2 * c, fun _ => -(2 * c), true, 0, 1, 0, 0, 0⟩ ⟨(), ⟨1, [0], [0], [0], 1, 1⟩⟩
      = (.ok (.inl ⟨fun _ => c, c ^ 2, c ^ 2, fun _ => 2 * c, fun _ => 2 * c, fun _ => -(2 * c), true, 0, 1, 4 * c ^ 2, 8 * c ^ 2, -(4 * c ^ 2)⟩), ⟨(), ⟨1, [0], [0], [0], 2, 2⟩⟩) := by
    unfold Scg.directional
    simp only [if_true, dot1, hm, lit1, le1, n1, if_false, hk, lt1, n2, hq, vrun_lift, smul1, vadd1, vrun_dfEval, vrun_bump, vsub1, div1 _ _ hq0, ht]
    rfl
  have hmove : ∃ r w, Scg.move (realArith 1) squareOracle () (Scg.init (realArith 1) (some 1) x_tol f_tol) 1 0
      ⟨fun _ => c, c ^ 2, c ^ 2, fun _ => 2 * c, fun _ => 2 * c, fun _ => -(2 * c), true, 0, 1, 4 * c ^ 2, 8 * c ^ 2, -(4 * c ^ 2)⟩ (1 / 3) ⟨(), ⟨1, [0], [0], [0], 2, 2⟩⟩ = (.ok r, w)
        ∧ (r = .inr (fun _ => c / 3, c ^ 2 / 9) ∨ ∃ L : ScgLoc ℝ (Fin 1 → ℝ), r = .inl L ∧ L.x = (fun _ => c / 3) ∧ L.f_old = c ^ 2 / 9) := by
    unfold Scg.move
    simp only [smul1, vadd1, hx, vrun_f, hf, vrun_bump, lit1, hd, vrun_lift, le1, n3, if_true, vrun_record, absMax1, vrun_ite]
    split_ifs
    · exact ⟨_, _, rfl, .inl rfl⟩
    · simp only [vrun_df, vrun_bump, vrun_ite]
      split_ifs
      · exact ⟨_, _, rfl, .inl rfl⟩
      · unfold Scg.finish
        simp only [if_true, Nat.zero_add]
        exact ⟨_, _, rfl, .inr ⟨_, rfl, rfl, rfl⟩⟩
  obtain ⟨r, w, hmove, hr⟩ := hmove
  have hturn : Scg.turn (realArith 1) squareOracle () (Scg.init (realArith 1) (some 1) x_tol f_tol) 1 0
      ⟨fun _ => c, c ^ 2, c ^ 2, fun _ => 2 * c, fun _ => 2 * c, fun _ => -(2 * c), true, 0, 1, 0, 0, 0⟩ ⟨(), ⟨1, [0], [0], [0], 1, 1⟩⟩ = (.ok r, w) := by
    unfold Scg.turn
    rw [scgM_bind_run, hdir]
    simp only [hstep, vrun_lift]
    exact hmove
  have hloop : (Scg.loop (realArith 1) squareOracle () (Scg.init (realArith 1) (some 1) x_tol f_tol) 1 [0]
      ⟨fun _ => c, c ^ 2, c ^ 2, fun _ => 2 * c, fun _ => 2 * c, fun _ => -(2 * c), true, 0, 1, 0, 0, 0⟩ ⟨(), ⟨1, [0], [0], [0], 1, 1⟩⟩).1 = .ok (fun _ => c / 3, c ^ 2 / 9) := by
    unfold Scg.loop
    rw [scgM_bind_run, hturn]
    rcases hr with rfl | ⟨L, rfl, h1, h2⟩
    · rfl
    · rw [← h1, ← h2]
      rfl
  unfold Scg.call
  simp only [vrun_f, vrun_df, vrun_bump, vneg1, hl, lit1, l0, l1, hn, show ∀ v, (realArith 1).size v = 1 from fun _ => rfl]
  exact hloop

/-- C132, the gradient function with a buffer. Each of its calls returns an array with the right contents, `2x`. But the optimizer does not copy the first gradient (`grad_new = self.df(x, *args)`) before it asks for the
second one: it then finds no curvature, takes the step of a linear function, and after one iteration has gone from `c` to `-c`, where the objective is what it was, instead of to `c / 3`. -/
theorem C132_reused_buffer_violated (c : ℝ) (hc : 1 ≤ |c|) (x_tol f_tol : Option ℝ) :
    (∀ (x : HArr) (X : Fin 1 → ℝ) (l : ℕ) (h : Heap), Holds h x (List.ofFn X) → l < h.length →
      (bufferOracle.f x () l h).1 = (squareOracle.f X () ()).1
      ∧ (∃ g h' G, bufferOracle.df x () l h = (.ok g, l, h') ∧ (squareOracle.df X () ()).1 = .ok G ∧ Holds h' g (List.ofFn G))
      ∧ ∃ g h' G, bufferOracle.dfEval x l h = (.ok g, l, h') ∧ (squareOracle.dfEval X ()).1 = .ok G ∧ Holds h' g (List.ofFn G))
    ∧ (Scg.call (realArith 1) squareOracle () (Scg.init (realArith 1) (some 1) x_tol f_tol) (fun _ => c) ()).1 = .ok (fun _ => c / 3, c ^ 2 / 9)
    ∧ ∃ x w, HScg.call (realArith 1) bufferOracle () (Scg.init (realArith 1) (some 1) x_tol f_tol) ⟨0, 0, 1, 1⟩ 1 [[c], [0]] = (.ok (x, c ^ 2), w) ∧ Holds w.2.2 x [-c] := by
  refine ⟨fun x X l h hx hl => ?_, square_call c hc x_tol f_tol, buffer_call c hc x_tol f_tol⟩
  have hv := vec_of_holds hx
  have hg : Holds (h.set l [2 * X 0]) ⟨l, 0, 1, 1⟩ (List.ofFn fun _ : Fin 1 => 2 * X 0) := ⟨rfl, rfl, [], [], by
    rw [flatMap_real]
    simp [hl], rfl⟩
  refine ⟨?_, ⟨_, h.set l [2 * X 0], fun _ => 2 * X 0, ?_, rfl, hg⟩, _, h.set l [2 * X 0], fun _ => 2 * X 0, ?_, rfl, hg⟩
  · simp only [bufferOracle, squareOracle, hv]
  · simp only [bufferOracle, hv]
  · simp only [bufferOracle, hv]

/-- C132, gradient functions that leave their earlier results alone. Two programs on memory that compute the same functions and change no array that exists give the same result, wherever they put their arrays; in
particular it makes no difference whether a gradient is returned in a new array, in an array made long ago or, as by `lambda x: x`, in the argument itself. -/
theorem C132_no_reuse_partial {σ'' : Type} {Is : Heap → σ' → σ → Prop} {Is2 : Heap → σ'' → σ → Prop} {ho : HOracle σ' A S} {ho2 : HOracle σ'' A S} {o : Oracle σ A S (Fin n → ℝ)} (ht : Spec.Tidy Is ho o)
    (ht2 : Spec.Tidy Is2 ho2 o) (ar : Arith S (Fin n → ℝ)) (args : A) (p : Scg S) {h h2 : Heap} {x0 x2 : HArr} {X0 : Fin n → ℝ} (hx : Holds h x0 (List.ofFn X0)) (hx2 : Holds h2 x2 (List.ofFn X0))
    {s : σ'} {s2 : σ''} {v : σ} (hi : Is h s v) (hi2 : Is2 h2 s2 v) :
    ∃ r p' s' h' r2 s2' h2', HScg.call ar ho args p x0 s h = (r, p', s', h') ∧ HScg.call ar ho2 args p x2 s2 h2 = (r2, p', s2', h2')
      ∧ ((∃ e, r = .error e ∧ r2 = .error e) ∨ ∃ (x y : HArr) (F : S) (X : Fin n → ℝ), r = .ok (x, F) ∧ r2 = .ok (y, F) ∧ Holds h' x (List.ofFn X) ∧ Holds h2' y (List.ofFn X)) := by
  obtain ⟨r, p', s', h', e1, -, e2, -, e3⟩ := C131_values ht ar args p hx hi
  obtain ⟨r2, p2', s2', h2', f1, -, f2, -, f3⟩ := C131_values ht2 ar args p hx2 hi2
  refine ⟨r, p', s', h', r2, s2', h2', e1, by rw [e2, ← f2]; exact f1, ?_⟩
  rcases hr : (Scg.call ar o args p X0 v).1 with e | ⟨X, F⟩ <;> rw [hr] at e3 f3
  · exact .inl ⟨e, e3, f3⟩
  · obtain ⟨x, q1, q2⟩ := e3
    obtain ⟨y, t1, t2⟩ := f3
    exact .inr ⟨x, y, F, X, q1, t1, q2.2, t2.2⟩

/-! ## Examples -/

/-- The objective `x²/2` with the gradient `lambda x, eval_fun=False: x`, which returns its argument. -/
def aliasOracle (n : ℕ) : HOracle Unit Unit ℝ where
  f x _ _ h := (.ok (∑ i, x.vec n h i ^ 2 / 2), (), h)
  df x _ _ h := (.ok x, (), h)
  dfEval x _ h := (.ok x, (), h)

/-- The same functions on values. -/
def halfSquare (n : ℕ) : Oracle Unit Unit ℝ (Fin n → ℝ) where
  f x _ _ := (.ok (∑ i, x i ^ 2 / 2), ())
  df x _ _ := (.ok x, ())
  dfEval x _ := (.ok x, ())

theorem alias_tidy (n : ℕ) : Spec.Tidy (fun _ _ _ => True) (aliasOracle n) (halfSquare n) where
  mono _ _ := trivial
  f _ _ hx := ⟨List.prefix_refl _, by simp only [aliasOracle, halfSquare, vec_of_holds hx], trivial⟩
  df _ _ hx := ⟨List.prefix_refl _, ⟨_, rfl, hx⟩, trivial⟩
  dfEval _ hx := ⟨List.prefix_refl _, ⟨_, rfl, hx⟩, trivial⟩

/-- `C131_values` and `C132_no_reuse_partial` for a gradient that returns its argument. -/
example (c : Fin 3 → ℝ) (p : Scg ℝ) : ∃ r p' s' h', HScg.call (realArith 3) (aliasOracle 3) () p ⟨0, 0, 3, 1⟩ () [List.ofFn c] = (r, p', s', h') ∧ Spec.Unchanged [List.ofFn c] h' := by
  obtain ⟨r, p', s', h', h1, h2, -⟩ := C131_values (alias_tidy 3) (realArith 3) () p (holds_new [] c) (s := ()) (v := ()) trivial
  exact ⟨r, p', s', h', h1, h2⟩

/-- Functions that overwrite their argument, as `x *= 2` does: the start keeps its contents. -/
def spoilOracle : HOracle Unit Unit ℝ where
  f x _ _ h := (.ok (x.vec 1 h 0), (), h.set x.loc [2 * x.vec 1 h 0])
  df x _ _ h := (.ok x, (), h.set x.loc [2 * x.vec 1 h 0])
  dfEval x _ h := (.ok x, (), h.set x.loc [2 * x.vec 1 h 0])

example (c : ℝ) (p : Scg ℝ) : (HScg.call (realArith 1) spoilOracle () p ⟨0, 0, 1, 1⟩ () [[c]]).2.2.2[0]? = some [c] :=
  (C131_start_kept (l := 0) ⟨fun _ _ _ _ h => List.getElem?_set_ne h, fun _ _ _ _ h => List.getElem?_set_ne h, fun _ _ _ h => List.getElem?_set_ne h⟩ (realArith 1) () p ⟨0, 0, 1, 1⟩ () (by simp)).1

/-- A variational object in memory, and the start in the same memory. -/
example (y : Fin 2 → ℝ) (a b : Fin 4 → ℝ) (p : Scg ℝ) (X : Fin 8 → ℝ) (hX : List.ofFn X = List.ofFn a ++ List.ofFn b) :
    ∃ r p' o' h', HScg.call (realArith 8) (hOracle hshape1 8) () p ⟨7, 0, 8, 1⟩ wObj (wHeap y a b) = (r, p', o', h') ∧ Spec.Unchanged (wHeap y a b) h' := by
  obtain ⟨r, p', o', h', h1, h2, -⟩ := C131_variational hshape1_lawful (realArith 8) p (wObj_is y a b) (X0 := X) (by rw [hX]; exact wX y a b)
  exact ⟨r, p', o', h', h1, h2⟩

example : 1 ≤ |(2 : ℝ)| := by norm_num

end

end VGPA
