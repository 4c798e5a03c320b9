import Verif.Lemmas.Heap

/-!
# The integrators on the heap
-/

set_option linter.unusedSectionVars false

namespace VGPA

noncomputable section

variable {V W : Type} [AddCommGroup V] [Module ℝ V] [AddCommGroup W] [Module ℝ W] [Cells V] [Cells W] [LawfulCells V] [LawfulCells W]

/-- The heap `h` differs from `h1` at most in the arrays `a` and `b`. -/
def Except2 (h1 h : Heap) (a b : HArr) : Prop :=
  h.length = h1.length ∧ ∀ l, l ≠ a.loc → l ≠ b.loc → h[l]? = h1[l]?

/-- State of a loop that fills the arrays `a` and `b`. -/
structure Filling (h1 h : Heap) (a b : HArr) (ms : List (V × W)) : Prop where
  rest : Except2 h1 h a b
  fst : Holds h a (ms.map Prod.fst)
  snd : Holds h b (ms.map Prod.snd)

omit [Module ℝ V] [Module ℝ W] in
theorem Filling.two {h1 h : Heap} {a b : HArr} {ms : List (V × W)} (hf : Filling h1 h a b ms) (hab : a.loc ≠ b.loc) {k : ℕ}
    (hk : k < ms.length) (y : V × W) : Filling h1 (wr (wr h (a.piece k) y.1) (b.piece k) y.2) a b (ms.set k y) := by
  refine ⟨⟨by rw [wr_length, wr_length]; exact hf.rest.1, fun l h2 h3 => ?_⟩, ?_, ?_⟩
  · rw [wr_other _ _ _ h3, wr_other _ _ _ h2]
    exact hf.rest.2 l h2 h3
  · rw [List.map_set]
    exact (hf.fst.write (by simpa using hk) y.1).congr (wr_other _ _ _ hab)
  · rw [List.map_set]
    exact Holds.write (hf.snd.congr (wr_other _ _ _ (Ne.symm hab))) (by simpa using hk) y.2

omit [AddCommGroup V] [Module ℝ V] [AddCommGroup W] [Module ℝ W] [LawfulCells V] [LawfulCells W] in
/-- An array that is not written. -/
theorem Filling.other {X : Type} [Cells X] {h1 h : Heap} {a b c : HArr} {ms : List (V × W)} (hf : Filling h1 h a b ms) {l : List X}
    (hc : Holds h1 c l) (h2 : c.loc ≠ a.loc) (h3 : c.loc ≠ b.loc) : Holds h c l := hc.congr (hf.rest.2 _ h2 h3)

/-- The outcome of a turn. -/
def TurnRes (h : Heap) (a b : HArr) (j : ℕ) (r : Py Unit × Heap) (q : Py (V × W)) : Prop :=
  match q with
  | .error e => r = (.error e, h)
  | .ok y => r = (.ok (), wr (wr h (a.piece j) y.1) (b.piece j) y.2)

/-- What a turn of a loop does that computes entry `j` of both arrays from entry `k`. -/
def Turn (h1 : Heap) (a b : HArr) (n k j : ℕ) (body : HPy Unit) (step : V × W → Py (V × W)) : Prop :=
  ∀ (h : Heap) (ms : List (V × W)) (x : V × W), Filling h1 h a b ms → ms.length = n → ms[k]? = some x →
    TurnRes h a b j (exec body h) (step x)

omit [Module ℝ V] [Module ℝ W] in
/-- A loop of turns. -/
theorem loop_turns {h1 : Heap} {a b : HArr} (hab : a.loc ≠ b.loc) {n : ℕ} (src dst : ℕ → ℕ) (body : ℕ → HPy Unit)
    (step : ℕ → V × W → Py (V × W)) (ks : List ℕ) (hks : ∀ t ∈ ks, src t < n ∧ dst t < n ∧ Turn h1 a b n (src t) (dst t) (body t) (step t))
    (h : Heap) (ms : List (V × W)) (hf : Filling h1 h a b ms) (hn : ms.length = n) :
    match ks.foldlM (fun buf t => do
        let x ← idx buf (src t)
        let y ← step t x
        setIdx buf (dst t) y) ms with
    | .error e => ∃ (h' : Heap) (ms' : List (V × W)), exec (ks.forM body) h = (.error e, h') ∧ Filling h1 h' a b ms'
    | .ok ms' => ∃ h', exec (ks.forM body) h = (.ok (), h') ∧ Filling h1 h' a b ms' ∧ ms'.length = n := by
  induction ks generalizing h ms with
  | nil => exact ⟨h, rfl, hf, hn⟩
  | cons t ks ih =>
    obtain ⟨hs, hd, ht⟩ := hks t (by simp)
    have hx : ms[src t]? = some ms[src t] := List.getElem?_eq_getElem (by omega)
    have htt := ht h ms _ hf hn hx
    rw [List.foldlM_cons, show (t :: ks).forM body = (body t >>= fun _ => ks.forM body) from rfl, exec_bind]
    have hi : idx ms (src t) = .ok ms[src t] := by
      unfold idx
      rw [hx]
    rw [hi]
    cases hst : step t ms[src t] with
    | error e =>
      rw [hst] at htt
      simp only [TurnRes] at htt
      rw [htt, next_error]
      simp only [bind, Except.bind, hst]
      exact ⟨h, ms, rfl, hf⟩
    | ok y =>
      rw [hst] at htt
      simp only [TurnRes] at htt
      rw [htt, next_ok]
      have hset : setIdx ms (dst t) y = .ok (ms.set (dst t) y) := by
        unfold setIdx
        rw [if_pos (by omega)]
      simp only [bind, Except.bind, hst, hset]
      exact ih (fun t' ht' => hks t' (by simp [ht'])) _ _ (hf.two hab (by omega) y) (by simpa using hn)

omit [Module ℝ V] [Module ℝ W] in
/-- The filling begins with new arrays. -/
theorem filling_zeros (h : Heap) (n : ℕ) :
    let h2 := h ++ [List.replicate (n * Cells.width V) 0] ++ [List.replicate (n * Cells.width W) 0]
    Filling h2 h2 ⟨h.length, 0, n, Cells.width V⟩ ⟨(h ++ [List.replicate (n * Cells.width V) (0 : ℝ)]).length, 0, n, Cells.width W⟩
      (List.replicate n ((0 : V), (0 : W))) := by
  intro h2
  refine ⟨⟨rfl, fun _ _ _ => rfl⟩, ?_, ?_⟩
  · rw [List.map_replicate]
    exact (holds_zeros h n).mono (List.prefix_append _ _)
  · rw [List.map_replicate]
    exact holds_zeros _ n

omit [AddCommGroup V] [Module ℝ V] [AddCommGroup W] [Module ℝ W] [LawfulCells V] [LawfulCells W] in
theorem Filling.extend {h1 h : Heap} {a b : HArr} {ms : List (V × W)} (hf : Filling h1 h a b ms) (x : List ℝ) :
    Filling (h1 ++ [x]) (h ++ [x]) a b ms := by
  refine ⟨⟨by simp [hf.rest.1], fun l h2 h3 => ?_⟩, hf.fst.mono (List.prefix_append _ _), hf.snd.mono (List.prefix_append _ _)⟩
  by_cases hl : l < h1.length
  · rw [List.getElem?_append_left hl, List.getElem?_append_left (by rw [hf.rest.1]; exact hl)]
    exact hf.rest.2 l h2 h3
  · rw [List.getElem?_append_right (by have := hf.rest.1; omega), List.getElem?_append_right (by omega), hf.rest.1]

omit [AddCommGroup V] [Module ℝ V] [AddCommGroup W] [Module ℝ W] [LawfulCells V] [LawfulCells W] in
/-- A view in a turn. -/
theorem turn_view {X : Type} [Cells X] {h : Heap} {a b c : HArr} {j k : ℕ} {l : List X} (hc : Holds h c l) (f : Piece → HPy Unit)
    (g : X → Py (V × W)) (hyp : ∀ x, l[k]? = some x → TurnRes h a b j (exec (f (c.piece k)) h) (g x)) :
    TurnRes h a b j (exec (c.view k >>= f) h) (idx l k >>= g) := by
  rw [exec_bind]
  by_cases hk : k < c.n
  · rw [exec_view_ok hk, next_ok]
    have hk' : k < l.length := by rw [← hc.1]; exact hk
    have := hyp l[k] (List.getElem?_eq_getElem hk')
    simpa [idx, List.getElem?_eq_getElem hk', bind, Except.bind] using this
  · rw [exec_view_error hk, next_error]
    have hk' : ¬ k < l.length := by rw [← hc.1]; exact hk
    have : idx l k = .error .indexError := by
      unfold idx
      rw [List.getElem?_eq_none (by omega)]
    rw [this]
    rfl

omit [AddCommGroup V] [Module ℝ V] [LawfulCells V] [Cells V] [Module ℝ W] in
theorem reads_after {X : Type} [Cells X] {h : Heap} {a c : HArr} {j k : ℕ} {l : List W} (hc : Holds h c l) (hne : c.loc ≠ a.loc) {w : W}
    (hk : l[k]? = some w) (v : X) : Reads (wr h (a.piece j) v) (c.piece k) w :=
  Holds.reads (hc.congr (wr_other _ _ _ hne)) hk

omit [AddCommGroup V] [Module ℝ V] [LawfulCells V] [Cells V] [AddCommGroup W] [Module ℝ W] [LawfulCells W] in
theorem piece_after {X : Type} [Cells X] {h : Heap} {a : HArr} {j : ℕ} {p : Piece} {w : W} (hp : Reads h p w) (hne : p.loc ≠ a.loc)
    (v : X) : Reads (wr h (a.piece j) v) p w := by
  unfold Reads at *
  rw [List.getD_eq_getElem?_getD, wr_other _ _ _ (show p.loc ≠ (a.piece j).loc from hne), ← List.getD_eq_getElem?_getD]
  exact hp

/-- What a function returns that makes two arrays: new arrays with the right contents; all older arrays are as they were. -/
def Gives2 (h : Heap) (r : Py (HArr × HArr) × Heap) (q : Py (List V × List W)) : Prop :=
  h <+: r.2 ∧ match q with
    | .error e => r.1 = .error e
    | .ok (vs, ws) => ∃ a b, r.1 = .ok (a, b) ∧ Holds r.2 a vs ∧ Holds r.2 b ws ∧ h.length ≤ a.loc ∧ h.length ≤ b.loc ∧ a.loc ≠ b.loc

omit [AddCommGroup V] [Module ℝ V] [LawfulCells V] [AddCommGroup W] [Module ℝ W] [LawfulCells W] in
/-- The old arrays after a loop that fills new ones. -/
theorem Filling.keeps {h0 h1 h : Heap} {a b : HArr} {ms : List (V × W)} (hf : Filling h1 h a b ms) (h01 : h0 <+: h1)
    (ha : h0.length ≤ a.loc) (hb : h0.length ≤ b.loc) : h0 <+: h := by
  rw [List.prefix_iff_getElem?]
  intro i hi
  have h2 := hf.rest.2 i (by omega) (by omega)
  obtain ⟨t, rfl⟩ := h01
  rw [h2, List.getElem?_append_left hi, List.getElem?_eq_getElem hi]

/-- The input of a forward integrator. -/
structure FwdIn (h : Heap) (lin_a off_b : HArr) (m0 s0 sigma : Piece) (A : List W) (B : List V) (M0 : V) (S0 sig : W) : Prop where
  a : Holds h lin_a A
  b : Holds h off_b B
  m : Reads h m0 M0 ∧ m0.loc < h.length
  s : Reads h s0 S0 ∧ s0.loc < h.length
  sigma : Reads h sigma sig ∧ sigma.loc < h.length

omit [AddCommGroup V] [Module ℝ V] [LawfulCells V] [Cells V] [AddCommGroup W] [Module ℝ W] [LawfulCells W] in
theorem Reads.mono {h h' : Heap} {p : Piece} {w : W} (hr : Reads h p w ∧ p.loc < h.length) (hp : h <+: h') : Reads h' p w ∧ p.loc < h'.length := by
  obtain ⟨t, rfl⟩ := hp
  refine ⟨?_, by have := hr.2; simp only [List.length_append]; omega⟩
  have := hr.1
  unfold Reads at *
  rw [List.getD_eq_getElem?_getD, List.getElem?_append_left hr.2, ← List.getD_eq_getElem?_getD]
  exact this

/-- The beginning of a forward integrator. -/
theorem begin_ok {h : Heap} {m0 s0 : Piece} {M0 : V} {S0 : W} (hm : Reads h m0 M0 ∧ m0.loc < h.length) (hs : Reads h s0 S0 ∧ s0.loc < h.length)
    {n : ℕ} (hn : 0 < n) : ∃ (h1 h' : Heap) (a b : HArr), exec (hBegin V W n m0 s0) h = (.ok (a, b), h') ∧ h <+: h1 ∧ h.length ≤ a.loc ∧ h.length ≤ b.loc
      ∧ a.loc ≠ b.loc ∧ a.n = n ∧ b.n = n ∧ Filling h1 h' a b ((List.replicate n ((0 : V), (0 : W))).set 0 (M0, S0)) := by
  have hf := filling_zeros (V := V) (W := W) h n
  simp only at hf
  set h2 := h ++ [List.replicate (n * Cells.width V) 0] ++ [List.replicate (n * Cells.width W) (0 : ℝ)] with hh2
  set a : HArr := ⟨h.length, 0, n, Cells.width V⟩ with ha
  set b : HArr := ⟨(h ++ [List.replicate (n * Cells.width V) (0 : ℝ)]).length, 0, n, Cells.width W⟩ with hb
  have hp : h <+: h2 := by rw [hh2, List.append_assoc]; exact List.prefix_append _ _
  have hm2 := Reads.mono hm hp
  have hs2 := Reads.mono hs hp
  have hab : a.loc ≠ b.loc := by simp [ha, hb]
  refine ⟨h2, wr (wr h2 (a.piece 0) M0) (b.piece 0) S0, a, b, ?_, hp, le_refl _, by simp [hb], hab, rfl, rfl, hf.two hab (by simpa using hn) (M0, S0)⟩
  unfold hBegin
  simp only [exec_bind, exec_zeros, next_ok]
  rw [← hh2, ← ha, ← hb, exec_get hm2.1, next_ok, exec_bind, exec_set_ok (by exact hn), next_ok,
    exec_bind, exec_get (piece_after hs2.1 (by have := hs.2; simp only [ha]; omega) _), next_ok, exec_bind, exec_set_ok (by exact hn), next_ok, exec_pure]

theorem begin_error {h : Heap} {m0 s0 : Piece} {M0 : V} (hm : Reads h m0 M0 ∧ m0.loc < h.length) :
    (exec (hBegin V W 0 m0 s0) h).1 = .error .indexError ∧ h <+: (exec (hBegin V W 0 m0 s0) h).2 := by
  have hp : ∀ x y, h <+: h ++ [x] ++ [y] := fun x y => by rw [List.append_assoc]; exact List.prefix_append _ _
  unfold hBegin
  simp only [exec_bind, exec_zeros, next_ok]
  rw [exec_get (Reads.mono hm (hp _ _)).1, next_ok, exec_bind, exec_set_error (by simp), next_error]
  exact ⟨rfl, hp _ _⟩

end

end VGPA
