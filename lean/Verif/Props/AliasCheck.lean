import Verif.Model.HeapCheck
import Verif.Props.AliasScg
import Verif.Props.GradCheck

/-!
# C152: the gradient check and the arrays of others
-/

set_option linter.unusedSectionVars false

namespace VGPA

noncomputable section

variable {σ σ' A : Type} {n : ℕ}

/-! ## Specification -/

/-- What a call may do to memory: it got the array `x` and keeps the arrays `own s`. It may overwrite these and no other array that exists, and afterwards it keeps, besides what it kept before, at most the array `x` and new ones. -/
def Spec.Confined (own : σ' → ℕ → Prop) (x : HArr) (s : σ') (h : Heap) (s' : σ') (h' : Heap) : Prop :=
  h.length ≤ h'.length ∧ (∀ l < h.length, ¬ own s l → l ≠ x.loc → h'[l]? = h[l]?) ∧ ∀ l, own s' l → own s l ∨ l = x.loc ∨ h.length ≤ l

/-- `ho` is the pair of functions `o`, written as a program on memory that may overwrite the array it gets, keep it, and overwrite it later. `Is h s v`: in memory `h`, the state `s` of the functions is `v`; it depends on
the arrays `own s` alone. They do not keep the array that the gradient function returns. -/
structure Spec.Polite (Is : Heap → σ' → σ → Prop) (own : σ' → ℕ → Prop) (ho : HOracle σ' A ℝ) (o : Oracle σ A ℝ (Fin n → ℝ)) : Prop where
  exist : ∀ {h s v l}, Is h s v → own s l → l < h.length
  frame : ∀ {h h' s v}, Is h s v → (∀ l, own s l → h'[l]? = h[l]?) → Is h' s v
  f : ∀ {h s v x X} (a : A), Is h s v → Holds h x (List.ofFn X) → ¬ own s x.loc → Spec.Confined own x s h (ho.f x a s h).2.1 (ho.f x a s h).2.2
    ∧ (ho.f x a s h).1 = (o.f X a v).1 ∧ Is (ho.f x a s h).2.2 (ho.f x a s h).2.1 (o.f X a v).2
  dfEval : ∀ {h s v x X}, Is h s v → Holds h x (List.ofFn X) → ¬ own s x.loc → Spec.Confined own x s h (ho.dfEval x s h).2.1 (ho.dfEval x s h).2.2
    ∧ (match (o.dfEval X v).1 with
      | .error e => (ho.dfEval x s h).1 = .error e
      | .ok G => ∃ g, (ho.dfEval x s h).1 = .ok g ∧ Holds (ho.dfEval x s h).2.2 g (List.ofFn G) ∧ ¬ own (ho.dfEval x s h).2.1 g.loc)
    ∧ Is (ho.dfEval x s h).2.2 (ho.dfEval x s h).2.1 (o.dfEval X v).2

/-- The objective with its additional parameters, as `finite_diff` calls it. -/
def Spec.callable {S V : Type} (o : Oracle σ A S V) (a : A) : σ → V → Py (S × σ) := fun s x =>
  match o.f x a s with
  | (.ok v, s') => .ok (v, s')
  | (.error e, _) => .error e

theorem callable_unit {S V : Type} (o : Oracle σ Unit S V) : Spec.callable o () = o.asFn := rfl

/-! ## Proofs -/

/-- The arrays of others are as before, and are still arrays of others. -/
def Away (own : σ' → ℕ → Prop) (h : Heap) (s : σ') (h' : Heap) (s' : σ') : Prop :=
  h.length ≤ h'.length ∧ ∀ l < h.length, ¬ own s l → h'[l]? = h[l]? ∧ ¬ own s' l

theorem Away.refl (own : σ' → ℕ → Prop) (h : Heap) (s : σ') : Away own h s h s := ⟨le_refl _, fun _ _ h => ⟨rfl, h⟩⟩

theorem Away.trans {own : σ' → ℕ → Prop} {h h1 h2 : Heap} {s s1 s2 : σ'} (h01 : Away own h s h1 s1) (h12 : Away own h1 s1 h2 s2) : Away own h s h2 s2 :=
  ⟨h01.1.trans h12.1, fun l hl ho => by
    obtain ⟨e1, e2⟩ := h01.2 l hl ho
    obtain ⟨f1, f2⟩ := h12.2 l (lt_of_lt_of_le hl h01.1) e2
    exact ⟨f1.trans e1, f2⟩⟩

/-- A call with a new array. -/
theorem away_call {own : σ' → ℕ → Prop} {h h' : Heap} {s s' : σ'} {b : List ℝ} (hc : Spec.Confined own ⟨h.length, 0, n, 1⟩ s (h ++ [b]) s' h') : Away own h s h' s' := by
  obtain ⟨h1, h2, h3⟩ := hc
  rw [List.length_append, List.length_singleton] at *
  refine ⟨by omega, fun l hl ho => ⟨?_, fun hn => ?_⟩⟩
  · rw [h2 l (by omega) ho (by simpa using hl.ne), List.getElem?_append_left hl]
  · rcases h3 l hn with q | q | q
    · exact ho q
    · exact hl.ne q
    · omega

theorem away_put {own : σ' → ℕ → Prop} {h h' : Heap} {s s' : σ'} (ha : Away own h s h' s') {l : ℕ} (hl : h.length ≤ l) (b : List ℝ) : Away own h s (h'.set l b) s' :=
  ⟨by rw [List.length_set]; exact ha.1, fun k hk ho => by
    rw [List.getElem?_set_ne (by omega)]
    exact ha.2 k hk ho⟩

theorem set_ofFn (v : Fin n → ℝ) (i : Fin n) (c : ℝ) : (List.ofFn v).set i c = List.ofFn (Function.update v i c) := by
  apply List.ext_getElem (by simp)
  intro k h1 h2
  rw [List.getElem_set, List.getElem_ofFn, List.getElem_ofFn]
  by_cases h : (i : ℕ) = k
  · subst h; simp
  · rw [if_neg h, Function.update_of_ne]
    exact fun q => h (by rw [← q])

theorem holds_put {h : Heap} {a : HArr} {v : Fin n → ℝ} (ha : Holds h a (List.ofFn v)) (i : Fin n) (c : ℝ) :
    Holds (h.set a.loc (splice (h.getD a.loc []) (a.off + i * a.w) [c])) a (List.ofFn (Function.update v i c)) := by
  rw [← set_ofFn]
  exact ha.write (k := i) (by simp) c

theorem callF_run {S β : Type} (ho : HOracle σ' A S) (x : HArr) (a : A) (k : S → ScgM (HWorld σ' S) β) (h : Heap) (s : σ') (st : ScgStats S) :
    (HScg.callF ho x a >>= k) ⟨h, s, st⟩ = match ho.f x a s h with
      | (.ok y, s', h') => k y ⟨h', s', st⟩
      | (.error e, s', h') => (.error e, ⟨h', s', st⟩) := by
  rw [scgM_bind_run]
  unfold HScg.callF
  rcases ho.f x a s h with ⟨_ | _, s', h'⟩ <;> rfl

theorem callDfEval_run {S β : Type} (ho : HOracle σ' A S) (x : HArr) (k : HArr → ScgM (HWorld σ' S) β) (h : Heap) (s : σ') (st : ScgStats S) :
    (HScg.callDfEval ho x >>= k) ⟨h, s, st⟩ = match ho.dfEval x s h with
      | (.ok y, s', h') => k y ⟨h', s', st⟩
      | (.error e, s', h') => (.error e, ⟨h', s', st⟩) := by
  rw [scgM_bind_run]
  unfold HScg.callDfEval
  rcases ho.dfEval x s h with ⟨_ | _, s', h'⟩ <;> rfl

theorem ne_of_own {own : σ' → ℕ → Prop} {s : σ'} {l k : ℕ} (hl : own s l) (hk : ¬ own s k) : l ≠ k := fun q => hk (q ▸ hl)

/-- What is the case during `finite_diff`. -/
structure Diffing (Is : Heap → σ' → σ → Prop) (own : σ' → ℕ → Prop) (h0 : Heap) (s0 : σ') (g e : HArr) (h : Heap) (s : σ') (G E : Fin n → ℝ) (v : σ) : Prop where
  is : Is h s v
  away : Away own h0 s0 h s
  hg : Holds h g (List.ofFn G)
  he : Holds h e (List.ofFn E)
  og : ¬ own s g.loc
  oe : ¬ own s e.loc

section diff

variable {Is : Heap → σ' → σ → Prop} {own : σ' → ℕ → Prop} {ho : HOracle σ' A ℝ} {o : Oracle σ A ℝ (Fin n → ℝ)} (hp : Spec.Polite Is own ho o)
include hp

/-- The function is called with a new array. -/
theorem Diffing.call {h0 h : Heap} {s0 s : σ'} {g e : HArr} {G E : Fin n → ℝ} {v : σ} (hd : Diffing Is own h0 s0 g e h s G E v) (a : A) (X : Fin n → ℝ) :
    (ho.f ⟨h.length, 0, n, 1⟩ a s (h ++ [List.ofFn X])).1 = (o.f X a v).1
      ∧ Diffing Is own h0 s0 g e (ho.f ⟨h.length, 0, n, 1⟩ a s (h ++ [List.ofFn X])).2.2 (ho.f ⟨h.length, 0, n, 1⟩ a s (h ++ [List.ofFn X])).2.1 G E (o.f X a v).2 := by
  have hi : Is (h ++ [List.ofFn X]) s v := hp.frame hd.is fun l hl => List.getElem?_append_left (hp.exist hd.is hl)
  obtain ⟨c1, c2, c3⟩ := hp.f a hi (holds_new h X) fun hn => lt_irrefl _ (hp.exist hd.is hn)
  have ha := away_call c1
  obtain ⟨g1, g2⟩ := ha.2 g.loc hd.hg.loc_lt hd.og
  obtain ⟨e1, e2⟩ := ha.2 e.loc hd.he.loc_lt hd.oe
  exact ⟨c2, c3, hd.away.trans ha, hd.hg.congr g1, hd.he.congr e1, g2, e2⟩

theorem Diffing.putE {h0 h : Heap} {s0 s : σ'} {g e : HArr} {G E : Fin n → ℝ} {v : σ} (hd : Diffing Is own h0 s0 g e h s G E v) (hge : g.loc ≠ e.loc) (he : h0.length ≤ e.loc) (i : Fin n) (c : ℝ) :
    Diffing Is own h0 s0 g e (h.set e.loc (splice (h.getD e.loc []) (e.off + i * e.w) [c])) s G (Function.update E i c) v :=
  ⟨hp.frame hd.is fun _ hl => List.getElem?_set_ne (Ne.symm (ne_of_own hl hd.oe)), away_put hd.away he _, hd.hg.congr (List.getElem?_set_ne hge.symm), holds_put hd.he i c, hd.og, hd.oe⟩

theorem Diffing.putG {h0 h : Heap} {s0 s : σ'} {g e : HArr} {G E : Fin n → ℝ} {v : σ} (hd : Diffing Is own h0 s0 g e h s G E v) (hge : g.loc ≠ e.loc) (hg : h0.length ≤ g.loc) (i : Fin n) (c : ℝ) :
    Diffing Is own h0 s0 g e (h.set g.loc (splice (h.getD g.loc []) (g.off + i * g.w) [c])) s (Function.update G i c) E v :=
  ⟨hp.frame hd.is fun _ hl => List.getElem?_set_ne (Ne.symm (ne_of_own hl hd.og)), away_put hd.away hg _, holds_put hd.hg i c, hd.he.congr (List.getElem?_set_ne hge), hd.og, hd.oe⟩

/-- One turn of the loop. -/
theorem fdTurn_ok {h0 : Heap} {s0 : σ'} {x g e : HArr} {X : Fin n → ℝ} (hx : Holds h0 x (List.ofFn X)) (hox : ¬ own s0 x.loc) (hge : g.loc ≠ e.loc) (hg : h0.length ≤ g.loc) (he : h0.length ≤ e.loc) (a : A)
    (st : ScgStats ℝ) (i : Fin n) {h : Heap} {s : σ'} {G E : Fin n → ℝ} {v : σ} (hd : Diffing Is own h0 s0 g e h s G E v) :
    ∃ r h' s', HScg.fdTurn ho a x g e i ⟨h, s, st⟩ = (r, ⟨h', s', st⟩) ∧ Away own h0 s0 h' s' ∧ (∃ v', Is h' s' v')
      ∧ match fdBody (Spec.callable o a) X (G, E, v) i with
        | .error er => r = .error er
        | .ok (G', E', v') => r = .ok () ∧ Diffing Is own h0 s0 g e h' s' G' E' v' := by
  have hX : ∀ {h s v} {G E : Fin n → ℝ}, Diffing Is own h0 s0 g e h s G E v → x.vec n h = X := fun hd => vec_of_holds (hx.congr (hd.away.2 x.loc hx.loc_lt hox).1)
  have hE : ∀ {h s v} {G E : Fin n → ℝ}, Diffing Is own h0 s0 g e h s G E v → e.vec n h = E := fun hd => vec_of_holds hd.he
  have d1 := hd.putE hp hge he i deltaH
  set h1 := h.set e.loc (splice (h.getD e.loc []) (e.off + i * e.w) [deltaH]) with hh1
  set E1 := Function.update E i deltaH with hE1
  obtain ⟨p1, d2⟩ := d1.call hp a (X + E1)
  have run : HScg.fdTurn ho a x g e i ⟨h, s, st⟩ = (do
      let f_p ← HScg.callF ho ⟨h1.length, 0, n, 1⟩ a
      let x_m ← HScg.mk ((← HScg.rd n x) - (← HScg.rd n e))
      let f_m ← HScg.callF ho x_m a
      HScg.put g i (0.5 * (f_p - f_m) / deltaH)
      HScg.put e i 0 : ScgM (HWorld σ' ℝ) Unit) ⟨h1 ++ [List.ofFn (x.vec n h1 + e.vec n h1)], s, st⟩ := rfl
  rw [run, hX d1, hE d1, callF_run]
  have hb : fdBody (Spec.callable o a) X (G, E, v) i = (do
      let r ← Spec.callable o a v (X + E1)
      let r' ← Spec.callable o a r.2 (X - E1)
      pure (Function.update G i (0.5 * (r.1 - r'.1) / deltaH), Function.update E1 i 0, r'.2)) := rfl
  rw [hb]
  unfold Spec.callable
  generalize ho.f ⟨h1.length, 0, n, 1⟩ a s (h1 ++ [List.ofFn (X + E1)]) = R at p1 d2 ⊢
  generalize o.f (X + E1) a v = Q at p1 d2 ⊢
  obtain ⟨r2, s2, h2⟩ := R
  obtain ⟨q2, v2⟩ := Q
  change r2 = q2 at p1
  change Diffing Is own h0 s0 g e h2 s2 G E1 v2 at d2
  subst p1
  rcases r2 with er | f_p
  · exact ⟨_, _, _, rfl, d2.away, ⟨_, d2.is⟩, rfl⟩
  obtain ⟨p2, d3⟩ := d2.call hp a (X - E1)
  have run2 : (do
      let x_m ← HScg.mk ((← HScg.rd n x) - (← HScg.rd n e))
      let f_m ← HScg.callF ho x_m a
      HScg.put g i (0.5 * (f_p - f_m) / deltaH)
      HScg.put e i 0 : ScgM (HWorld σ' ℝ) Unit) ⟨h2, s2, st⟩ = (do
      let f_m ← HScg.callF ho ⟨h2.length, 0, n, 1⟩ a
      HScg.put g i (0.5 * (f_p - f_m) / deltaH)
      HScg.put e i 0 : ScgM (HWorld σ' ℝ) Unit) ⟨h2 ++ [List.ofFn (x.vec n h2 - e.vec n h2)], s2, st⟩ := rfl
  change ∃ r h' s', (do
      let x_m ← HScg.mk ((← HScg.rd n x) - (← HScg.rd n e))
      let f_m ← HScg.callF ho x_m a
      HScg.put g i (0.5 * (f_p - f_m) / deltaH)
      HScg.put e i 0 : ScgM (HWorld σ' ℝ) Unit) ⟨h2, s2, st⟩ = (r, ⟨h', s', st⟩) ∧ _
  rw [run2, hX d2, hE d2, callF_run, py_ok_bind]
  generalize ho.f ⟨h2.length, 0, n, 1⟩ a s2 (h2 ++ [List.ofFn (X - E1)]) = R at p2 d3 ⊢
  generalize o.f (X - E1) a v2 = Q at p2 d3 ⊢
  obtain ⟨r3, s3, h3⟩ := R
  obtain ⟨q3, v3⟩ := Q
  change r3 = q3 at p2
  change Diffing Is own h0 s0 g e h3 s3 G E1 v3 at d3
  subst p2
  rcases r3 with er | f_m
  · exact ⟨_, _, _, rfl, d3.away, ⟨_, d3.is⟩, rfl⟩
  have d4 := d3.putG hp hge hg i (0.5 * (f_p - f_m) / deltaH)
  have d5 := d4.putE hp hge he i 0
  exact ⟨_, _, _, rfl, d5.away, ⟨_, d5.is⟩, rfl, d5⟩

/-- The loop. -/
theorem fdLoop_ok {h0 : Heap} {s0 : σ'} {x g e : HArr} {X : Fin n → ℝ} (hx : Holds h0 x (List.ofFn X)) (hox : ¬ own s0 x.loc) (hge : g.loc ≠ e.loc) (hg : h0.length ≤ g.loc) (he : h0.length ≤ e.loc) (a : A)
    (st : ScgStats ℝ) (is : List (Fin n)) : ∀ {h : Heap} {s : σ'} {G E : Fin n → ℝ} {v : σ}, Diffing Is own h0 s0 g e h s G E v →
    ∃ r h' s', HScg.fdLoop ho a x g e is ⟨h, s, st⟩ = (r, ⟨h', s', st⟩) ∧ Away own h0 s0 h' s' ∧ (∃ v', Is h' s' v')
      ∧ match is.foldlM (fdBody (Spec.callable o a) X) (G, E, v) with
        | .error er => r = .error er
        | .ok (G', E', v') => r = .ok () ∧ Diffing Is own h0 s0 g e h' s' G' E' v' := by
  induction is with
  | nil => intro h s G E v hd; exact ⟨_, _, _, rfl, hd.away, ⟨_, hd.is⟩, rfl, hd⟩
  | cons i is ih =>
    intro h s G E v hd
    obtain ⟨r, h', s', h1, h2, hI, h3⟩ := fdTurn_ok hp hx hox hge hg he a st i hd
    have run : HScg.fdLoop ho a x g e (i :: is) ⟨h, s, st⟩ = (HScg.fdTurn ho a x g e i >>= fun _ => HScg.fdLoop ho a x g e is) ⟨h, s, st⟩ := rfl
    rw [run, scgM_bind_run, h1, List.foldlM_cons]
    rcases hb : fdBody (Spec.callable o a) X (G, E, v) i with er | ⟨G', E', v'⟩
    · rw [hb] at h3
      change r = .error er at h3
      subst h3
      exact ⟨_, _, _, rfl, h2, hI, rfl⟩
    · rw [hb] at h3
      obtain ⟨rfl, h3⟩ := h3
      exact ih h3

end diff

/-! ## Theorems -/

/-- C152, `finite_diff`. The function may overwrite the arrays it gets, keep them and overwrite them later. `finite_diff` changes no array that existed, except those that the function keeps and changes itself; it calls the
function as if arrays were values, and returns what it returns then, in a new array that the function does not have. -/
theorem C152_finite_diff {Is : Heap → σ' → σ → Prop} {own : σ' → ℕ → Prop} {ho : HOracle σ' A ℝ} {o : Oracle σ A ℝ (Fin n → ℝ)} (hp : Spec.Polite Is own ho o) (a : A) (st : ScgStats ℝ) {h : Heap} {s : σ'} {v : σ}
    (hi : Is h s v) {x : HArr} {X : Fin n → ℝ} (hx : Holds h x (List.ofFn X)) (hox : ¬ own s x.loc) :
    ∃ r s' h', HScg.finiteDiff n ho a x ⟨h, s, st⟩ = (r, ⟨h', s', st⟩) ∧ (∀ l < h.length, ¬ own s l → h'[l]? = h[l]? ∧ ¬ own s' l) ∧ (∃ v', Is h' s' v')
      ∧ match finiteDiff (Spec.callable o a) v X with
        | .error e => r = .error e
        | .ok (G, v') => Is h' s' v' ∧ ∃ g, r = .ok g ∧ Spec.NewArray h h' g (List.ofFn G) ∧ ¬ own s' g.loc := by
  set h1 := h ++ [List.ofFn (0 : Fin n → ℝ)] with hh1
  set h2 := h1 ++ [List.ofFn (0 : Fin n → ℝ)] with hh2
  set g : HArr := ⟨h.length, 0, n, 1⟩ with hg
  set e : HArr := ⟨h1.length, 0, n, 1⟩ with he
  have l1 : h1.length = h.length + 1 := by simp [hh1]
  have pre : h <+: h2 := (List.prefix_append _ _).trans (List.prefix_append _ _)
  have hpre : ∀ l < h.length, h2[l]? = h[l]? := unchanged_of_prefix pre
  have hd : Diffing Is own h s g e h2 s 0 0 v :=
    ⟨hp.frame hi fun l hl => hpre l (hp.exist hi hl), ⟨pre.length_le, fun l hl ho => ⟨hpre l hl, ho⟩⟩, (holds_new h 0).mono (List.prefix_append _ _), holds_new h1 0,
      fun q => lt_irrefl _ (hp.exist hi q), fun q => by
        have := hp.exist hi q
        simp only [he, l1] at this
        omega⟩
  obtain ⟨r, h', s', q1, q2, hI, q3⟩ := fdLoop_ok hp hx hox (g := g) (e := e) (by simp only [hg, he, l1]; omega) (le_refl _) (by simp only [he, l1]; omega) a st (List.finRange n) hd
  have run : HScg.finiteDiff n ho a x ⟨h, s, st⟩ = (HScg.fdLoop ho a x g e (List.finRange n) >>= fun _ => pure g) ⟨h2, s, st⟩ := rfl
  rw [run, scgM_bind_run, q1]
  unfold finiteDiff
  rcases hb : (List.finRange n).foldlM (fdBody (Spec.callable o a) X) (0, 0, v) with er | ⟨G', E', v'⟩
  · rw [hb] at q3
    change r = .error er at q3
    subst q3
    exact ⟨_, _, _, rfl, q2.2, hI, rfl⟩
  · rw [hb] at q3
    obtain ⟨rfl, q3⟩ := q3
    exact ⟨_, _, _, rfl, q2.2, hI, q3.is, g, rfl, ⟨le_refl _, q3.hg⟩, q3.og⟩

/-- C152, `check_gradient_function`. The two functions may overwrite the arrays they get, keep them and overwrite them later, as long as they do not keep the array that the gradient function returns. The check changes no array that existed,
except those that they keep and change themselves, in particular not `x`; it prints what it prints when arrays are values. What is missing: functions that keep that array, see `C152_violated`. -/
theorem C152_check_partial {Is : Heap → σ' → σ → Prop} {own : σ' → ℕ → Prop} {ho : HOracle σ' Unit ℝ} {o : Oracle σ Unit ℝ (Fin n → ℝ)} (hp : Spec.Polite Is own ho o) (tol : ℝ) (st : ScgStats ℝ) {h : Heap} {s : σ'} {v : σ}
    (hi : Is h s v) {x : HArr} {X : Fin n → ℝ} (hx : Holds h x (List.ofFn X)) (hox : ¬ own s x.loc) :
    ∃ r s' h', HScg.check n ho x tol ⟨h, s, st⟩ = (r, ⟨h', s', st⟩) ∧ (∀ l < h.length, ¬ own s l → h'[l]? = h[l]?) ∧ (∃ v', Is h' s' v')
      ∧ match Scg.checkGradient o X tol v with
        | .error e => r = .error e
        | .ok (lines, v') => r = .ok lines ∧ Is h' s' v' := by
  have hi1 : Is (h ++ [List.ofFn X]) s v := hp.frame hi fun l hl => List.getElem?_append_left (hp.exist hi hl)
  obtain ⟨c1, c2, c3⟩ := hp.dfEval hi1 (holds_new h X) fun hn => lt_irrefl _ (hp.exist hi hn)
  have ha := away_call c1
  have run : HScg.check n ho x tol ⟨h, s, st⟩ = (HScg.callDfEval ho ⟨h.length, 0, n, 1⟩ >>= fun grad_a => (do
      let x_n ← HScg.mk (← HScg.rd n x)
      let grad_n ← HScg.finiteDiff n ho () x_n
      let norm_a := norm2 (← HScg.rd n grad_a)
      let norm_n := norm2 (← HScg.rd n grad_n)
      let norm_diff := norm2 ((← HScg.rd n grad_a) - (← HScg.rd n grad_n))
      let rel_diff := if norm_a + norm_n = 0 then none else some (norm_diff / (norm_a + norm_n))
      let outcome := if n ≠ 0 ∧ norm_diff / n ≤ tol then CheckLine.passed else CheckLine.failed
      pure [.started, .analytic, .numeric, .relative rel_diff, outcome, .finished] : ScgM (HWorld σ' ℝ) (List CheckLine))) ⟨h ++ [List.ofFn (x.vec n h)], s, st⟩ := rfl
  rw [run, vec_of_holds hx, callDfEval_run]
  have hv : Scg.checkGradient o X tol v = (do
      let grad_a ← (o.dfEval X v).1
      let (grad_n, s) ← finiteDiff o.asFn (o.dfEval X v).2 X
      let norm_a := norm2 grad_a
      let norm_n := norm2 grad_n
      let norm_diff := norm2 (grad_a - grad_n)
      let rel_diff := if norm_a + norm_n = 0 then none else some (norm_diff / (norm_a + norm_n))
      let outcome := if n ≠ 0 ∧ norm_diff / n ≤ tol then CheckLine.passed else CheckLine.failed
      pure ([.started, .analytic, .numeric, .relative rel_diff, outcome, .finished], s)) := rfl
  rw [hv]
  generalize ho.dfEval ⟨h.length, 0, n, 1⟩ s (h ++ [List.ofFn X]) = R at c1 c2 c3 ha ⊢
  generalize o.dfEval X v = Q at c2 c3 ⊢
  obtain ⟨r1, s1, h1⟩ := R
  obtain ⟨q1, v1⟩ := Q
  change Is h1 s1 v1 at c3
  change Away own h s h1 s1 at ha
  rcases q1 with er | GA
  · change r1 = .error er at c2
    subst c2
    exact ⟨_, _, _, rfl, fun l hl ho => (ha.2 l hl ho).1, ⟨_, c3⟩, rfl⟩
  obtain ⟨ga, c2, c4, c5⟩ := c2
  change r1 = .ok ga at c2
  change Holds h1 ga (List.ofFn GA) at c4
  change ¬ own s1 ga.loc at c5
  subst c2
  obtain ⟨x1, x2⟩ := ha.2 x.loc hx.loc_lt hox
  have hx1 : Holds h1 x (List.ofFn X) := hx.congr x1
  have hi2 : Is (h1 ++ [List.ofFn X]) s1 v1 := hp.frame c3 fun l hl => List.getElem?_append_left (hp.exist c3 hl)
  have hmono : h1 <+: h1 ++ [List.ofFn X] := List.prefix_append _ _
  obtain ⟨r2, s2, h2, f1, f2, fI, f3⟩ := C152_finite_diff hp () st hi2 (holds_new h1 X) fun hn => lt_irrefl _ (hp.exist c3 hn)
  have hkeep : ∀ l < h.length, ¬ own s l → h2[l]? = h[l]? := fun l hl ho => by
    obtain ⟨e1, e2⟩ := ha.2 l hl ho
    have hl1 : l < h1.length := lt_of_lt_of_le hl ha.1
    rw [(f2 l (lt_of_lt_of_le hl1 hmono.length_le) e2).1, List.getElem?_append_left hl1, e1]
  rw [callable_unit] at f3
  change ∃ r s' h', (HScg.finiteDiff n ho () ⟨h1.length, 0, n, 1⟩ >>= fun grad_n => (do
      let norm_a := norm2 (← HScg.rd n ga)
      let norm_n := norm2 (← HScg.rd n grad_n)
      let norm_diff := norm2 ((← HScg.rd n ga) - (← HScg.rd n grad_n))
      let rel_diff := if norm_a + norm_n = 0 then none else some (norm_diff / (norm_a + norm_n))
      let outcome := if n ≠ 0 ∧ norm_diff / n ≤ tol then CheckLine.passed else CheckLine.failed
      pure [.started, .analytic, .numeric, .relative rel_diff, outcome, .finished] : ScgM (HWorld σ' ℝ) (List CheckLine))) ⟨h1 ++ [List.ofFn (x.vec n h1)], s1, st⟩ = (r, ⟨h', s', st⟩) ∧ _ ∧ _ ∧ _
  rw [vec_of_holds hx1, scgM_bind_run, f1, py_ok_bind]
  simp only
  rcases hF : finiteDiff o.asFn v1 X with er | ⟨GN, v2⟩
  · rw [hF] at f3
    change r2 = .error er at f3
    subst f3
    exact ⟨_, _, _, rfl, hkeep, fI, rfl⟩
  · rw [hF] at f3
    obtain ⟨f4, gn, rfl, f5, -⟩ := f3
    have e1 : ga.vec n h2 = GA := vec_of_holds ((c4.mono hmono).congr (f2 ga.loc (c4.mono hmono).loc_lt c5).1)
    have e2 : gn.vec n h2 = GN := vec_of_holds f5.2
    refine ⟨_, s2, h2, rfl, hkeep, fI, ?_, f4⟩
    rw [← e1, ← e2]

section variational

variable {V W : Type} [AddCommGroup V] [Module ℝ V] [AddCommGroup W] [Module ℝ W] [Cells V] [Cells W] [LawfulCells V] [LawfulCells W]

theorem held_exist {h : Heap} {o : HVarGP V W} {v : VarGP V W} (hi : o.Is h v) {l : ℕ} (hl : l ∈ Spec.held o) : l < h.length := by
  unfold Spec.held at hl
  simp only [List.mem_append] at hl
  rcases hl with (((hl | hl) | hl) | hl) | hl
  · exact hi.model.2 l hl
  · exact hi.likelihood.2 l hl
  · exact hi.kl0.2 l hl
  · simp only [List.mem_cons, List.not_mem_nil, or_false] at hl
    rcases hl with rfl | rfl | rfl | rfl | rfl
    · exact hi.sigma.2
    · exact hi.inverse_sigma.2
    · exact hi.obs_y.loc_lt
    · exact hi.m0.2
    · exact hi.s0.2
  · have hc := hi.cache
    rcases hoc : o.cache with _ | c
    · rw [hoc] at hl
      simp at hl
    · rcases hvc : v.cache with _ | c' <;> rw [hoc, hvc] at hc <;> simp only at hc
      rw [hoc] at hl
      simp only [List.mem_cons, List.not_mem_nil, or_false] at hl
      rcases hl with rfl | rfl | rfl | rfl | rfl | rfl
      · exact hc.mt.loc_lt
      · exact hc.st.loc_lt
      · exact hc.Efx.loc_lt
      · exact hc.Edf.loc_lt
      · exact hc.lamt.loc_lt
      · exact hc.psit.loc_lt

theorem held_free {sh : HShape V W} (hsh : sh.Lawful) {h : Heap} {o : HVarGP V W} {v : VarGP V W} (hi : o.Is h v) {x : HArr} {X : List ℝ} (hx : Holds h x X) {l : ℕ}
    (hl : l ∈ Spec.held (o.free sh x h).2.1) : l ∈ Spec.held o ∨ h.length ≤ l := by
  obtain ⟨-, hr⟩ := C123_free_energy hsh hi hx
  cases hV : v.eval sh.toShape X with
  | error e =>
    rw [hV] at hr
    rw [hr.2] at hl
    exact .inl hl
  | ok Fc =>
    obtain ⟨F, c'⟩ := Fc
    rw [hV] at hr
    obtain ⟨c, -, h2, -, n1, n2, n3, n4, n5, n6⟩ := hr
    rw [h2] at hl
    unfold Spec.held at hl ⊢
    simp only [List.mem_append] at hl ⊢
    rcases hl with hl | hl
    · exact .inl (.inl hl)
    · simp only [List.mem_cons, List.not_mem_nil, or_false] at hl
      refine .inr ?_
      rcases hl with rfl | rfl | rfl | rfl | rfl | rfl
      · exact n1.1
      · exact n2.1
      · exact n3.1
      · exact n4.1
      · exact n5.1
      · exact n6.1

theorem grad_eval {sh : HShape V W} (hsh : sh.Lawful) {h : Heap} {o : HVarGP V W} {v : VarGP V W} (hi : o.Is h v) {x : HArr} {X : List ℝ} (hx : Holds h x X) :
    (o.grad sh x true h).2.1 = (o.free sh x h).2.1 ∧ ∀ g, (o.grad sh x true h).1 = .ok g → (o.free sh x h).2.2.length ≤ g.loc := by
  obtain ⟨hp, -, hi'⟩ := free_ok hsh hi hx
  unfold HVarGP.grad
  rw [if_pos rfl]
  generalize o.free sh x h = R at hp hi' ⊢
  obtain ⟨r, o', h'⟩ := R
  rcases r with er | F
  · exact ⟨rfl, fun g hg => by cases hg⟩
  · refine ⟨rfl, fun g hg => ?_⟩
    obtain ⟨-, hr2⟩ := hGradBody_ok hsh hi' (hx.mono hp)
    change (exec (o'.hGradBody sh x) h').1 = .ok g at hg
    rw [show (Except.ok F, o', h').2.1 = o' from rfl, show (Except.ok F, o', h').2.2 = h' from rfl] at hr2
    rw [hg] at hr2
    split at hr2
    · cases hr2
    · obtain ⟨g', e1, -, e3⟩ := hr2
      cases e1
      exact e3

theorem confined_of_prefix {own : σ' → ℕ → Prop} {x : HArr} {s s' : σ'} {h h' : Heap} (hp : h <+: h') (ho : ∀ l, own s' l → own s l ∨ h.length ≤ l) : Spec.Confined own x s h s' h' :=
  ⟨hp.length_le, fun l hl _ _ => unchanged_of_prefix hp l hl, fun l hl => (ho l hl).imp id .inr⟩

/-- `free_energy` and `gradient` of a variational object, which keeps the arrays that `Spec.held` lists, and overwrites none of those that it had at the beginning. -/
theorem polite_vgp {sh : HShape V W} (hsh : sh.Lawful) (n : ℕ) (h0 : Heap) (o0 : HVarGP V W) (hl0 : ∀ l ∈ Spec.held o0, l < h0.length) :
    Spec.Polite (fun h o v => HVarGP.Is h o v ∧ ∀ l ∈ Spec.held o0, h[l]? = h0[l]?) (fun o l => l ∈ Spec.held o ∨ l ∈ Spec.held o0) (hOracle sh n) (vOracle sh.toShape n) where
  exist {h o v l} hi hl := by
    rcases hl with hl | hl
    · exact held_exist hi.1 hl
    · have := hi.2 l hl
      rw [List.getElem?_eq_getElem (hl0 l hl)] at this
      exact (List.getElem?_eq_some_iff.1 this).1
  frame hi he := ⟨is_of_held hi.1 fun l hl => he l (.inl hl), fun l hl => (he l (.inr hl)).trans (hi.2 l hl)⟩
  f {h o v x X} _ hi hx _ := by
    obtain ⟨h1, h2, h3⟩ := free_ok hsh hi.1 hx
    refine ⟨confined_of_prefix h1 fun l hl => ?_, h2, h3, fun l hl => ?_⟩
    · rcases hl with hl | hl
      · exact (held_free hsh hi.1 hx hl).imp .inl id
      · exact .inl (.inr hl)
    · rw [← hi.2 l hl]
      refine unchanged_of_prefix h1 l ?_
      have := hi.2 l hl
      rw [List.getElem?_eq_getElem (hl0 l hl)] at this
      exact (List.getElem?_eq_some_iff.1 this).1
  dfEval {h o v x X} hi hx _ := by
    obtain ⟨h1, h2, h3⟩ := (tidy_vgp hsh n).dfEval hi.1 hx
    obtain ⟨g1, g2⟩ := grad_eval hsh hi.1 hx
    have hlt0 : ∀ l ∈ Spec.held o0, l < h.length := fun l hl => by
      have := hi.2 l hl
      rw [List.getElem?_eq_getElem (hl0 l hl)] at this
      exact (List.getElem?_eq_some_iff.1 this).1
    have e1 : ((hOracle sh n).dfEval x o h).2.1 = (o.free sh x h).2.1 := g1
    refine ⟨confined_of_prefix h1 fun l hl => ?_, ?_, h3, fun l hl => ?_⟩
    · rcases hl with hl | hl
      · rw [e1] at hl
        exact (held_free hsh hi.1 hx hl).imp .inl id
      · exact .inl (.inr hl)
    · rcases hq : ((vOracle sh.toShape n).dfEval X v).1 with er | G
      · rw [hq] at h2
        exact h2
      · rw [hq] at h2
        obtain ⟨g, p1, p2⟩ := h2
        have hg : (o.grad sh x true h).1 = .ok g := by
          have p1' : ((o.grad sh x true h).1.bind (sized n)) = .ok g := p1
          rcases hr : (o.grad sh x true h).1 with er | g'
          · rw [hr] at p1'
            cases p1'
          · rw [hr] at p1'
            have : sized n g' = .ok g := p1'
            unfold sized at this
            split_ifs at this
            cases this
            rfl
        have hge := g2 g hg
        refine ⟨g, p1, p2, fun hl => ?_⟩
        rcases hl with hl | hl
        · rw [e1] at hl
          have := held_exist (free_ok hsh hi.1 hx).2.2 hl
          omega
        · have := hlt0 _ hl
          have := (free_ok hsh hi.1 hx).1.length_le
          omega
    · rw [← hi.2 l hl]
      exact unchanged_of_prefix h1 l (hlt0 l hl)

/-- C152, `optimize.check_gradient_function(x)` for `SCG(vgpa.free_energy, vgpa.gradient, options)`, as in the lines that `simulation.py` has for it: the check changes no array at all, and prints what it prints when arrays are values. -/
theorem C152_variational {sh : HShape V W} (hsh : sh.Lawful) (tol : ℝ) (st : ScgStats ℝ) {h : Heap} {o : HVarGP V W} {v : VarGP V W} (hi : o.Is h v) {x : HArr} {X : Fin n → ℝ} (hx : Holds h x (List.ofFn X))
    (hox : x.loc ∉ Spec.held o) :
    ∃ r o' h', HScg.check n (hOracle sh n) x tol ⟨h, o, st⟩ = (r, ⟨h', o', st⟩) ∧ Spec.Unchanged h h'
      ∧ match Scg.checkGradient (vOracle sh.toShape n) X tol v with
        | .error e => r = .error e
        | .ok (lines, v') => r = .ok lines ∧ o'.Is h' v' := by
  obtain ⟨r, o', h', h1, h2, ⟨v', h3⟩, h4⟩ := C152_check_partial (polite_vgp hsh n h o fun l hl => held_exist hi hl) tol st ⟨hi, fun _ _ => rfl⟩ hx (fun q => hox (q.elim id id))
  refine ⟨r, o', h', h1, fun l hl => ?_, ?_⟩
  · by_cases hh : l ∈ Spec.held o
    · exact h3.2 l hh
    · exact h2 l hl fun q => hh (q.elim id id)
  · rcases hq : Scg.checkGradient (vOracle sh.toShape n) X tol v with er | ⟨lines, v''⟩ <;> rw [hq] at h4
    · exact h4
    · exact ⟨h4.1, h4.2.1⟩

end variational

/-! ## A function that stores its gradient -/

/-- `f(x) = 100 x²` for arrays with one entry. The value and the gradient are computed together; the gradient goes into an array that the object keeps, and that array is what the gradient function returns. -/
def storeOracle : HOracle ℕ Unit ℝ where
  f x _ l h := (.ok (100 * x.vec 1 h 0 ^ 2), l, h.set l [200 * x.vec 1 h 0])
  df x _ l h := (.ok ⟨l, 0, 1, 1⟩, l, h.set l [200 * x.vec 1 h 0])
  dfEval x l h := (.ok ⟨l, 0, 1, 1⟩, l, h.set l [200 * x.vec 1 h 0])

section run

variable {β : Type} (h : Heap) (l : ℕ) (st : ScgStats ℝ)

theorem run_mk1 (c : ℝ) (k : HArr → ScgM (HWorld ℕ ℝ) β) : (HScg.mk (fun _ : Fin 1 => c) >>= k) ⟨h, l, st⟩ = k ⟨h.length, 0, 1, 1⟩ ⟨h ++ [[c]], l, st⟩ := by
  have : List.ofFn (fun _ : Fin 1 => c) = [c] := by simp
  rw [← this]
  rfl

theorem run_rd1 {a : ℕ} {c : ℝ} (ha : h[a]? = some [c]) (k : (Fin 1 → ℝ) → ScgM (HWorld ℕ ℝ) β) : (HScg.rd 1 ⟨a, 0, 1, 1⟩ >>= k) ⟨h, l, st⟩ = k (fun _ => c) ⟨h, l, st⟩ := by
  rw [← vec_one ha]
  rfl

theorem run_put1 {a : ℕ} {b : ℝ} (ha : h[a]? = some [b]) (c : ℝ) (i : Fin 1) (k : Unit → ScgM (HWorld ℕ ℝ) β) : (HScg.put ⟨a, 0, 1, 1⟩ i c >>= k) ⟨h, l, st⟩ = k () ⟨h.set a [c], l, st⟩ := by
  have e : splice (h.getD a []) (0 + (i : ℕ) * 1) [c] = [c] := by
    rw [List.getD_eq_getElem?_getD, ha, Fin.val_eq_zero]
    rfl
  have : (HScg.put ⟨a, 0, 1, 1⟩ i c >>= k) ⟨h, l, st⟩ = k () ⟨h.set a (splice (h.getD a []) (0 + (i : ℕ) * 1) [c]), l, st⟩ := rfl
  rw [this, e]

theorem run_store {a : ℕ} {c : ℝ} (ha : h[a]? = some [c]) (k : ℝ → ScgM (HWorld ℕ ℝ) β) :
    (HScg.callF storeOracle ⟨a, 0, 1, 1⟩ () >>= k) ⟨h, l, st⟩ = k (100 * c ^ 2) ⟨h.set l [200 * c], l, st⟩ := by
  have : (HScg.callF storeOracle ⟨a, 0, 1, 1⟩ () >>= k) ⟨h, l, st⟩ = k (100 * HArr.vec 1 ⟨a, 0, 1, 1⟩ h 0 ^ 2) ⟨h.set l [200 * HArr.vec 1 ⟨a, 0, 1, 1⟩ h 0], l, st⟩ := rfl
  rw [this, vec_one ha]

theorem run_storeDf {a : ℕ} {c : ℝ} (ha : h[a]? = some [c]) (k : HArr → ScgM (HWorld ℕ ℝ) β) :
    (HScg.callDfEval storeOracle ⟨a, 0, 1, 1⟩ >>= k) ⟨h, l, st⟩ = k ⟨l, 0, 1, 1⟩ ⟨h.set l [200 * c], l, st⟩ := by
  have : (HScg.callDfEval storeOracle ⟨a, 0, 1, 1⟩ >>= k) ⟨h, l, st⟩ = k ⟨l, 0, 1, 1⟩ ⟨h.set l [200 * HArr.vec 1 ⟨a, 0, 1, 1⟩ h 0], l, st⟩ := rfl
  rw [this, vec_one ha]

end run

/-- `finite_diff` for `storeOracle`: the array with the gradient has the gradient at the last point. -/
theorem store_diff (b c : ℝ) (st : ScgStats ℝ) : HScg.finiteDiff 1 storeOracle () ⟨3, 0, 1, 1⟩ ⟨[[c], [b], [c], [c]], 1, st⟩
    = (.ok ⟨4, 0, 1, 1⟩, ⟨[[c], [200 * (c - deltaH)], [c], [c], [0.5 * (100 * (c + deltaH) ^ 2 - 100 * (c - deltaH) ^ 2) / deltaH], [0], [c + deltaH], [c - deltaH]], 1, st⟩) := by
  have r0 : HScg.finiteDiff 1 storeOracle () ⟨3, 0, 1, 1⟩ = (do
      let grad_n ← HScg.mk fun _ : Fin 1 => 0
      let e ← HScg.mk fun _ : Fin 1 => 0
      HScg.fdLoop storeOracle () ⟨3, 0, 1, 1⟩ grad_n e [(0 : Fin 1)]
      pure grad_n : ScgM (HWorld ℕ ℝ) HArr) := by
    unfold HScg.finiteDiff
    rw [show List.finRange 1 = [0] by decide, show (0 : Fin 1 → ℝ) = fun _ => 0 from rfl]
  rw [r0, run_mk1, run_mk1]
  have l4 : ([[c], [b], [c], [c]] : Heap).length = 4 := rfl
  have l5 : (([[c], [b], [c], [c]] : Heap) ++ [[0]]).length = 5 := rfl
  have r3 : (([[c], [b], [c], [c]] : Heap) ++ [[0]]) ++ [[0]] = [[c], [b], [c], [c], [0], [0]] := rfl
  rw [l4, l5, r3]
  have r1 : ∀ w, (do
      HScg.fdLoop storeOracle () ⟨3, 0, 1, 1⟩ ⟨4, 0, 1, 1⟩ ⟨5, 0, 1, 1⟩ [(0 : Fin 1)]
      pure ⟨4, 0, 1, 1⟩ : ScgM (HWorld ℕ ℝ) HArr) w = match HScg.fdTurn storeOracle () ⟨3, 0, 1, 1⟩ ⟨4, 0, 1, 1⟩ ⟨5, 0, 1, 1⟩ (0 : Fin 1) w with
        | (.ok _, w') => (.ok ⟨4, 0, 1, 1⟩, w')
        | (.error e, w') => (.error e, w') := by
    intro w
    rw [scgM_bind_run]
    have : HScg.fdLoop storeOracle () ⟨3, 0, 1, 1⟩ ⟨4, 0, 1, 1⟩ ⟨5, 0, 1, 1⟩ [(0 : Fin 1)] w = match HScg.fdTurn storeOracle () ⟨3, 0, 1, 1⟩ ⟨4, 0, 1, 1⟩ ⟨5, 0, 1, 1⟩ (0 : Fin 1) w with
        | (.ok _, w') => (.ok (), w')
        | (.error e, w') => (.error e, w') := rfl
    rw [this]
    rcases HScg.fdTurn storeOracle () ⟨3, 0, 1, 1⟩ ⟨4, 0, 1, 1⟩ ⟨5, 0, 1, 1⟩ (0 : Fin 1) w with ⟨_ | _, w'⟩ <;> rfl
  refine (r1 _).trans ?_
  have r2 : HScg.fdTurn storeOracle () ⟨3, 0, 1, 1⟩ ⟨4, 0, 1, 1⟩ ⟨5, 0, 1, 1⟩ (0 : Fin 1) ⟨[[c], [b], [c], [c], [0], [0]], 1, st⟩
      = (.ok (), ⟨[[c], [200 * (c - deltaH)], [c], [c], [0.5 * (100 * (c + deltaH) ^ 2 - 100 * (c - deltaH) ^ 2) / deltaH], [0], [c + deltaH], [c - deltaH]], 1, st⟩) := by
    unfold HScg.fdTurn
    rw [run_put1 _ _ _ (b := 0) rfl]
    rw [run_rd1 _ _ _ (c := c) rfl, run_rd1 _ _ _ (c := deltaH) rfl]
    have f1 : ((fun _ : Fin 1 => c) + fun _ => deltaH) = fun _ => c + deltaH := rfl
    have f2 : ((fun _ : Fin 1 => c) - fun _ => deltaH) = fun _ => c - deltaH := rfl
    rw [f1, run_mk1, run_store _ _ _ (c := c + deltaH) rfl, run_rd1 _ _ _ (c := c) rfl, run_rd1 _ _ _ (c := deltaH) rfl, f2, run_mk1, run_store _ _ _ (c := c - deltaH) rfl, run_put1 _ _ _ (b := 0) rfl]
    have e : ∀ w, (HScg.put ⟨5, 0, 1, 1⟩ (0 : Fin 1) 0 : ScgM (HWorld ℕ ℝ) Unit) w = (HScg.put ⟨5, 0, 1, 1⟩ (0 : Fin 1) 0 >>= fun _ => pure ()) w := fun _ => rfl
    refine (e _).trans ?_
    rw [run_put1 _ _ _ (b := deltaH) rfl]
    rfl
  rw [r2]

/-- The check of `storeOracle`. -/
theorem store_check (c : ℝ) (st : ScgStats ℝ) : ∃ rel h', HScg.check 1 storeOracle ⟨0, 0, 1, 1⟩ 1e-4 ⟨[[c], [0]], 1, st⟩
    = (.ok [.started, .analytic, .numeric, .relative rel, .failed, .finished], ⟨h', 1, st⟩) := by
  set H : Heap := [[c], [200 * (c - deltaH)], [c], [c], [0.5 * (100 * (c + deltaH) ^ 2 - 100 * (c - deltaH) ^ 2) / deltaH], [0], [c + deltaH], [c - deltaH]] with hH
  have e : norm2 ((fun _ : Fin 1 => 200 * (c - deltaH)) - fun _ => 0.5 * (100 * (c + deltaH) ^ 2 - 100 * (c - deltaH) ^ 2) / deltaH) = 2e-4 := by
    have hd : deltaH = 1 / 1000000 := by unfold deltaH; norm_num
    unfold norm2
    rw [Fin.sum_univ_one, Pi.sub_apply, Real.sqrt_sq_eq_abs, hd, abs_of_neg]
    · norm_num
      ring
    · norm_num
      ring_nf
      norm_num
  unfold HScg.check
  rw [run_rd1 _ _ _ (c := c) rfl, run_mk1, run_storeDf _ _ _ (c := c) rfl, run_rd1 _ _ _ (c := c) rfl, run_mk1, scgM_bind_run]
  have d := store_diff (200 * c) c st
  rw [← hH] at d
  have r3 : (⟨(([[c], [0]] : Heap) ++ [[c]]).set 1 [200 * c] ++ [[c]], 1, st⟩ : HWorld ℕ ℝ) = ⟨[[c], [200 * c], [c], [c]], 1, st⟩ := rfl
  have r4 : (⟨((([[c], [0]] : Heap) ++ [[c]]).set 1 [200 * c]).length, 0, 1, 1⟩ : HArr) = ⟨3, 0, 1, 1⟩ := rfl
  rw [r3, r4, d]
  have h1 : H[1]? = some [200 * (c - deltaH)] := rfl
  have h4 : H[4]? = some [0.5 * (100 * (c + deltaH) ^ 2 - 100 * (c - deltaH) ^ 2) / deltaH] := rfl
  have hn : ¬ ((1 : ℕ) ≠ 0 ∧ (2e-4 : ℝ) / ((1 : ℕ) : ℝ) ≤ 1e-4) := by norm_num
  simp only
  rw [run_rd1 _ _ _ h1, run_rd1 _ _ _ h4, run_rd1 _ _ _ h1, run_rd1 _ _ _ h4, e, if_neg hn]
  exact ⟨_, H, rfl⟩

/-- C152 does not hold for functions that keep the array that the gradient function returns. For `f(x) = 100 x²` the values and the gradients of `storeOracle` are exact at every call, and the same functions on values pass the check with
the default tolerance; but the array with the gradient is overwritten while `finite_diff` calls the objective, and the check prints "FAILED", at every `x`. -/
theorem C152_violated (c : ℝ) (st : ScgStats ℝ) :
    (∀ (x : HArr) (X : Fin 1 → ℝ) (l : ℕ) (h : Heap), Holds h x (List.ofFn X) → l < h.length →
      (storeOracle.f x () l h).1 = .ok (100 * X 0 ^ 2)
      ∧ ∃ g h', storeOracle.dfEval x l h = (.ok g, l, h') ∧ Holds h' g (List.ofFn fun _ : Fin 1 => 200 * X 0))
    ∧ (∃ rel, Scg.checkGradient (n := 1) (pureOracle (fun x => 100 * x 0 ^ 2) (fun x _ => 200 * x 0)) (fun _ => c) 1e-4 ()
      = .ok ([.started, .analytic, .numeric, .relative rel, .passed, .finished], ()))
    ∧ ∃ rel h', HScg.check 1 storeOracle ⟨0, 0, 1, 1⟩ 1e-4 ⟨[[c], [0]], 1, st⟩
      = (.ok [.started, .analytic, .numeric, .relative rel, .failed, .finished], ⟨h', 1, st⟩) := by
  refine ⟨fun x X l h hx hl => ?_, ?_, store_check c st⟩
  · have hv := vec_of_holds hx
    refine ⟨by simp only [storeOracle, hv], ⟨l, 0, 1, 1⟩, h.set l [200 * X 0], by simp only [storeOracle, hv], rfl, rfl, [], [], ?_, rfl⟩
    rw [flatMap_real]
    simp [hl]
  · obtain ⟨rel, v, h, hv⟩ := C74_verdict (n := 1) (fun x => 100 * x 0 ^ 2) (fun x _ => 200 * x 0) (fun _ => c) 1e-4 one_pos
    rcases hv with ⟨rfl, _⟩ | ⟨_, hlt⟩
    · exact ⟨rel, h⟩
    · exfalso
      have : Spec.central (fun x : Fin 1 → ℝ => 100 * x 0 ^ 2) (fun _ => c) 0 = 200 * c := by
        unfold Spec.central
        simp only [Function.update_self]
        norm_num
        ring
      simp [this] at hlt
      norm_num at hlt

/-! ## Examples -/

/-- Functions that keep the last array they got, and overwrite it at the next call. -/
def keepOracle : HOracle (Option ℕ) Unit ℝ where
  f x _ s h := (.ok (x.vec 1 h 0 ^ 2), some x.loc, (match s with | none => h | some l => h.set l [7]).set x.loc [8])
  df x _ s h := (.ok ⟨h.length, 0, 1, 1⟩, s, h ++ [[2 * x.vec 1 h 0]])
  dfEval x s h := (.ok ⟨h.length, 0, 1, 1⟩, s, h ++ [[2 * x.vec 1 h 0]])

theorem keep_polite : Spec.Polite (fun h s _ => ∀ l, s = some l → l < h.length) (fun s l => s = some l) keepOracle squareOracle where
  exist hi hl := hi _ hl
  frame {h h' s v} hi he l hl := by
    have := he l hl
    rw [List.getElem?_eq_getElem (hi l hl)] at this
    exact (List.getElem?_eq_some_iff.1 this).1
  f {h s v x X} _ hi hx hox := by
    have hv := vec_of_holds hx
    refine ⟨⟨?_, fun l hl ho hn => ?_, fun l hl => .inr (.inl ?_)⟩, by simp only [keepOracle, squareOracle, hv], fun l hl => ?_⟩
    · rcases s with _ | k <;> simp [keepOracle]
    · rcases s with _ | k
      · simp only [keepOracle]
        rw [List.getElem?_set_ne hn.symm]
      · simp only [keepOracle]
        rw [List.getElem?_set_ne hn.symm, List.getElem?_set_ne fun q => ho (by rw [q])]
    · simp only [keepOracle, Option.some.injEq] at hl
      exact hl.symm
    · have hx' := hx.loc_lt
      simp only [keepOracle, Option.some.injEq] at hl
      subst hl
      rcases s with _ | k <;> simpa [keepOracle] using hx'
  dfEval {h s v x X} hi hx hox := by
    have hv := vec_of_holds hx
    refine ⟨⟨by simp [keepOracle], fun l hl ho hn => ?_, fun l hl => .inl hl⟩, ⟨⟨h.length, 0, 1, 1⟩, rfl, ?_, fun q => lt_irrefl _ (hi _ q)⟩, fun l hl => ?_⟩
    · simp only [keepOracle]
      rw [List.getElem?_append_left hl]
    · simp only [keepOracle, hv]
      exact holds_new h fun _ : Fin 1 => 2 * X 0
    · have := hi l hl
      simp only [keepOracle, List.length_append, List.length_singleton]
      omega

/-- `C152_finite_diff` and `C152_check_partial` for functions that spoil what they get: `x` keeps its contents, and the check passes. -/
example (c : ℝ) (st : ScgStats ℝ) : ∃ rel s' h', HScg.check 1 keepOracle ⟨0, 0, 1, 1⟩ 1e-4 ⟨[[c]], none, st⟩
    = (.ok [.started, .analytic, .numeric, .relative rel, .passed, .finished], ⟨h', s', st⟩) ∧ h'[0]? = some [c] := by
  obtain ⟨r, s', h', h1, h2, -, h3⟩ := C152_check_partial keep_polite 1e-4 st (h := [[c]]) (s := none) (v := ()) (fun l hl => by cases hl) (x := ⟨0, 0, 1, 1⟩) (X := fun _ => c) (holds_new [] fun _ : Fin 1 => c) (by simp)
  obtain ⟨rel, v, h, hv⟩ := C74_verdict (n := 1) (fun x => x 0 ^ 2) (fun x _ => 2 * x 0) (fun _ => c) 1e-4 one_pos
  have hs : Scg.checkGradient squareOracle (fun _ : Fin 1 => c) 1e-4 () = Scg.checkGradient (n := 1) (pureOracle (fun x => x 0 ^ 2) (fun x _ => 2 * x 0)) (fun _ => c) 1e-4 () := rfl
  rw [hs, h] at h3
  rcases hv with ⟨rfl, _⟩ | ⟨_, hlt⟩
  · exact ⟨rel, s', h', by rw [h1, h3.1], h2 0 (by simp) (by simp)⟩
  · exfalso
    have : Spec.central (fun x : Fin 1 → ℝ => x 0 ^ 2) (fun _ => c) 0 = 2 * c := by
      unfold Spec.central
      simp only [Function.update_self]
      norm_num
      ring
    simp [this] at hlt
    norm_num at hlt

/-- `C152_variational` for the object of `Verif/Props/Alias.lean`. -/
example (y : Fin 2 → ℝ) (a b : Fin 4 → ℝ) (tol : ℝ) (st : ScgStats ℝ) :
    ∃ r o' h', HScg.check 8 (hOracle hshape1 8) ⟨7, 0, 8, 1⟩ tol ⟨wHeap y a b, wObj, st⟩ = (r, ⟨h', o', st⟩) ∧ Spec.Unchanged (wHeap y a b) h' := by
  have hx : Holds (wHeap y a b) ⟨7, 0, 8, 1⟩ (List.ofFn (Fin.append a b)) := by
    rw [List.ofFn_fin_append]
    exact wX y a b
  obtain ⟨r, o', h', h1, h2, -⟩ := C152_variational hshape1_lawful tol st (wObj_is y a b) hx (by decide)
  exact ⟨r, o', h', h1, h2⟩

end

end VGPA
