import Verif.Model.Heap
import Verif.Props.VarGP

/-!
# Reasoning about programs on the heap
-/

namespace VGPA

noncomputable section

/-- Run a program. -/
def exec {α : Type} (p : HPy α) (h : Heap) : Py α × Heap := p.run.run h

variable {α β : Type}

theorem exec_pure (a : α) (h : Heap) : exec (pure a) h = (.ok a, h) := rfl

theorem exec_throw (e : PyErr) (h : Heap) : exec (throw e : HPy α) h = (.error e, h) := rfl

theorem exec_lift (p : Py α) (h : Heap) : exec (lift p) h = (p, h) := rfl

/-- What follows a result. -/
def next (f : α → HPy β) (r : Py α × Heap) : Py β × Heap :=
  match r with
  | (.ok a, h) => exec (f a) h
  | (.error e, h) => (.error e, h)

theorem next_ok (f : α → HPy β) (a : α) (h : Heap) : next f (.ok a, h) = exec (f a) h := rfl

theorem next_error (f : α → HPy β) (e : PyErr) (h : Heap) : next f (.error e, h) = (.error e, h) := rfl

theorem exec_bind (p : HPy α) (f : α → HPy β) (h : Heap) : exec (p >>= f) h = next f (exec p h) := by
  show (ExceptT.run (p >>= f)).run h = _
  rw [ExceptT.run_bind]
  show (StateT.run (ExceptT.run p >>= _) h) = _
  rw [StateT.run_bind]
  unfold next exec
  rcases hp : StateT.run (ExceptT.run p) h with ⟨r, h'⟩
  cases r <;> rfl

theorem exec_alloc (b : List ℝ) (h : Heap) : exec (alloc b) h = (.ok h.length, h ++ [b]) := rfl

/-- The contents of a piece. -/
def Reads {V : Type} [Cells V] (h : Heap) (p : Piece) (v : V) : Prop :=
  Cells.dec (((h.getD p.loc []).drop p.off).take p.w) = v

theorem exec_get {V : Type} [Cells V] {h : Heap} {p : Piece} {v : V} (hr : Reads h p v) : exec (p.get V) h = (.ok v, h) := by
  unfold Reads at hr
  rw [← hr]
  rfl

/-- The heap after an assignment. -/
def wr {V : Type} [Cells V] (h : Heap) (p : Piece) (v : V) : Heap := h.set p.loc (splice (h.getD p.loc []) p.off (Cells.enc v))

theorem exec_put {V : Type} [Cells V] (h : Heap) (p : Piece) (v : V) : exec (p.put v) h = (.ok (), wr h p v) := rfl

/-- The piece that `view` returns. -/
def HArr.piece (a : HArr) (k : ℕ) : Piece := ⟨a.loc, a.off + k * a.w, a.w⟩

theorem exec_view_ok {a : HArr} {k : ℕ} (hk : k < a.n) (h : Heap) : exec (a.view k) h = (.ok (a.piece k), h) := by
  unfold HArr.view
  rw [if_pos hk]
  rfl

theorem exec_view_error {a : HArr} {k : ℕ} (hk : ¬ k < a.n) (h : Heap) : exec (a.view k) h = (.error .indexError, h) := by
  unfold HArr.view
  rw [if_neg hk]
  rfl

theorem exec_set_ok {V : Type} [Cells V] {a : HArr} {k : ℕ} (hk : k < a.n) (v : V) (h : Heap) :
    exec (a.set k v) h = (.ok (), wr h (a.piece k) v) := by
  unfold HArr.set
  rw [exec_bind, exec_view_ok hk, next_ok, exec_put]

theorem exec_set_error {V : Type} [Cells V] {a : HArr} {k : ℕ} (hk : ¬ k < a.n) (v : V) (h : Heap) :
    exec (a.set k v) h = (.error .indexError, h) := by
  unfold HArr.set
  rw [exec_bind, exec_view_error hk, next_error]

theorem exec_zeros (V : Type) [Cells V] (n : ℕ) (h : Heap) :
    exec (zeros V n) h = (.ok ⟨h.length, 0, n, Cells.width V⟩, h ++ [List.replicate (n * Cells.width V) 0]) := by
  unfold zeros
  rw [exec_bind, exec_alloc, next_ok, exec_pure]

theorem exec_fresh {V : Type} [Cells V] (vs : List V) (h : Heap) :
    exec (fresh vs) h = (.ok ⟨h.length, 0, vs.length, Cells.width V⟩, h ++ [vs.flatMap Cells.enc]) := by
  unfold fresh
  rw [exec_bind, exec_alloc, next_ok, exec_pure]

/-! ## Encodings -/

/-- The encoding loses nothing. -/
class LawfulCells (V : Type) [Cells V] [Zero V] : Prop where
  len : ∀ v : V, (Cells.enc v).length = Cells.width V
  dec_enc : ∀ v : V, Cells.dec (Cells.enc v) = v
  zero : Cells.enc (0 : V) = List.replicate (Cells.width V) 0

instance : LawfulCells ℝ where
  len _ := rfl
  dec_enc _ := rfl
  zero := rfl

instance {d : ℕ} : LawfulCells (Fin d → ℝ) where
  len v := List.length_ofFn
  dec_enc v := by
    funext i
    show (List.ofFn v).getD i 0 = v i
    simp [List.getD]
  zero := by
    show List.ofFn (fun _ : Fin d => (0 : ℝ)) = List.replicate d 0
    exact List.ofFn_const d 0

instance {d : ℕ} : LawfulCells (Matrix (Fin d) (Fin d) ℝ) where
  len v := by
    show (List.flatten _).length = d * d
    simp [List.length_flatten, List.map_ofFn, Function.comp_def]
  dec_enc v := by
    ext i j
    show (List.getD (List.flatten _) _ _) = _
    rw [List.getD_eq_getElem?_getD, matRow_get]
    rfl
  zero := by
    show (List.ofFn fun i : Fin d => List.ofFn fun j : Fin d => (0 : ℝ)).flatten = List.replicate (d * d) 0
    rw [List.ofFn_const, List.ofFn_const, List.flatten_replicate_replicate]

/-! ## Arrays -/

/-- Array `a` has the entries `l`. -/
def Holds {V : Type} [Cells V] (h : Heap) (a : HArr) (l : List V) : Prop :=
  a.n = l.length ∧ a.w = Cells.width V ∧ ∃ pre post, h[a.loc]? = some (pre ++ l.flatMap Cells.enc ++ post) ∧ pre.length = a.off

section holds

variable {V W : Type} [Cells V] [Zero V] [LawfulCells V] [Cells W] [Zero W] [LawfulCells W]

omit [Zero V] [LawfulCells V] in
theorem Holds.loc_lt {h : Heap} {a : HArr} {l : List V} (hh : Holds h a l) : a.loc < h.length := by
  obtain ⟨-, -, pre, post, hb, -⟩ := hh
  exact (List.getElem?_eq_some_iff.1 hb).1

omit [Zero V] [LawfulCells V] in
theorem Holds.congr {h h' : Heap} {a : HArr} {l : List V} (hh : Holds h a l) (he : h'[a.loc]? = h[a.loc]?) : Holds h' a l := by
  obtain ⟨h1, h2, pre, post, hb, hp⟩ := hh
  exact ⟨h1, h2, pre, post, by rw [he, hb], hp⟩

omit [Zero V] [LawfulCells V] in
theorem Holds.mono {h h' : Heap} {a : HArr} {l : List V} (hh : Holds h a l) (hp : h <+: h') : Holds h' a l :=
  hh.congr (by
    obtain ⟨t, rfl⟩ := hp
    exact List.getElem?_append_left hh.loc_lt)

theorem flatMap_length (l : List V) : (l.flatMap Cells.enc).length = l.length * Cells.width V := by
  induction l with
  | nil => simp
  | cons v l ih => simp only [List.flatMap_cons, List.length_append, ih, LawfulCells.len, List.length_cons]; ring

theorem Holds.reads {h : Heap} {a : HArr} {l : List V} (hh : Holds h a l) {k : ℕ} {v : V} (hk : l[k]? = some v) :
    Reads h (a.piece k) v := by
  obtain ⟨h1, h2, pre, post, hb, hp⟩ := hh
  obtain ⟨hlt, hv⟩ := List.getElem?_eq_some_iff.1 hk
  have hl : l = l.take k ++ v :: l.drop (k + 1) := by
    rw [← hv, List.cons_getElem_drop_succ, List.take_append_drop]
  unfold Reads HArr.piece
  have hg : h.getD a.loc [] = pre ++ l.flatMap Cells.enc ++ post := by
    rw [List.getD_eq_getElem?_getD, hb]
    rfl
  simp only [hg, h2]
  have hlen : (pre ++ (l.take k).flatMap Cells.enc).length = a.off + k * Cells.width V := by
    rw [List.length_append, flatMap_length, hp, List.length_take, min_eq_left hlt.le]
  have : pre ++ l.flatMap Cells.enc ++ post
      = (pre ++ (l.take k).flatMap Cells.enc) ++ (Cells.enc v ++ ((l.drop (k + 1)).flatMap Cells.enc ++ post)) := by
    conv_lhs => rw [hl]
    simp [List.flatMap_append, List.append_assoc]
  rw [this, ← hlen, List.drop_left, ← LawfulCells.len v, List.take_left, LawfulCells.dec_enc]

theorem Holds.write {h : Heap} {a : HArr} {l : List V} (hh : Holds h a l) {k : ℕ} (hk : k < l.length) (v : V) :
    Holds (wr h (a.piece k) v) a (l.set k v) := by
  obtain ⟨h1, h2, pre, post, hb, hp⟩ := hh
  refine ⟨by simpa using h1, h2, pre, post, ?_, hp⟩
  have hlt := (List.getElem?_eq_some_iff.1 hb).1
  have hg : h.getD a.loc [] = pre ++ l.flatMap Cells.enc ++ post := by
    rw [List.getD_eq_getElem?_getD, hb]
    rfl
  unfold wr HArr.piece
  simp only
  rw [List.getElem?_set_self hlt, hg, h2]
  congr 1
  have hl : l = l.take k ++ l[k] :: l.drop (k + 1) := by
    rw [List.cons_getElem_drop_succ, List.take_append_drop]
  have hlen : (pre ++ (l.take k).flatMap Cells.enc).length = a.off + k * Cells.width V := by
    rw [List.length_append, flatMap_length, hp, List.length_take, min_eq_left hk.le]
  have : pre ++ l.flatMap Cells.enc ++ post
      = (pre ++ (l.take k).flatMap Cells.enc) ++ (Cells.enc l[k] ++ ((l.drop (k + 1)).flatMap Cells.enc ++ post)) := by
    have h3 := congrArg (List.flatMap Cells.enc) hl
    rw [List.flatMap_append, List.flatMap_cons] at h3
    rw [h3]
    simp only [List.append_assoc]
  unfold splice
  rw [this, ← hlen, List.take_left, LawfulCells.len, ← LawfulCells.len l[k], ← List.drop_drop, List.drop_left, List.drop_left]
  rw [List.set_eq_take_append_cons_drop, if_pos hk]
  simp [List.flatMap_append, List.append_assoc]

omit [Zero V] [LawfulCells V] in
theorem wr_length (h : Heap) (p : Piece) (v : V) : (wr h p v).length = h.length := by
  simp [wr]

omit [Zero V] [LawfulCells V] in
theorem wr_other (h : Heap) (p : Piece) (v : V) {l : ℕ} (hl : l ≠ p.loc) : (wr h p v)[l]? = h[l]? := by
  unfold wr
  rw [List.getElem?_set_ne (Ne.symm hl)]

theorem holds_zeros (h : Heap) (n : ℕ) :
    Holds (h ++ [List.replicate (n * Cells.width V) 0]) ⟨h.length, 0, n, Cells.width V⟩ (List.replicate n (0 : V)) := by
  refine ⟨by simp, rfl, [], [], ?_, rfl⟩
  simp only [List.nil_append, List.append_nil, List.getElem?_concat_length, Option.some.injEq]
  induction n with
  | zero => simp
  | succ n ih => rw [List.replicate_succ, List.flatMap_cons, ← ih, LawfulCells.zero, ← List.replicate_add]; congr 1; ring

omit [Zero V] [LawfulCells V] in
theorem holds_fresh (h : Heap) (vs : List V) :
    Holds (h ++ [vs.flatMap Cells.enc]) ⟨h.length, 0, vs.length, Cells.width V⟩ vs :=
  ⟨rfl, rfl, [], [], by simp, rfl⟩

theorem exec_all {h : Heap} {a : HArr} {l : List V} (hh : Holds h a l) : exec (a.all V) h = (.ok l, h) := by
  have key : ∀ ks : List ℕ, (∀ k ∈ ks, k < l.length) → exec (ks.mapM fun k => do
      let p ← a.view k
      p.get V) h = (.ok (ks.map fun k => l.getD k 0), h) := by
    intro ks
    induction ks with
    | nil => intro _; rfl
    | cons k ks ih =>
      intro hks
      have hk := hks k (by simp)
      rw [List.mapM_cons, exec_bind, exec_bind, exec_view_ok (by rw [hh.1]; exact hk), next_ok,
        exec_get (hh.reads (List.getElem?_eq_getElem hk)), next_ok, exec_bind, ih (fun k' hk' => hks k' (by simp [hk'])), next_ok, exec_pure]
      simp [List.getD_eq_getElem?_getD, hk]
  unfold HArr.all
  rw [key _ (by intro k hk; rw [← hh.1]; simpa using hk), hh.1]
  congr 2
  apply List.ext_getElem (by simp)
  intro i h1 h2
  simp [List.getD_eq_getElem?_getD, h2]

end holds

end

end VGPA
