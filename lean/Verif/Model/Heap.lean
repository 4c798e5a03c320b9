import Verif.Model.VarGP

/-!
# Arrays as buffers with views

In the rest of the model arrays are values. In numpy they are buffers in memory: `mt[k]` and `x[:n]` are views of the same memory, `mt[k + 1] = v` overwrites it, and everybody who holds
the array sees the new contents. This file has the functions that write into arrays once more, as programs on a heap of buffers.

Expressions like `a + b` make a new array that nobody else holds; only those that are kept get a buffer here. The creation of a view reads nothing, so views that the code makes inside an expression are
made at the beginning of the turn of the loop. In one dimension `mt[k]` is a number that is read at once; here it is read when it is used, as in `d` dimensions.
-/

namespace VGPA

noncomputable section

/-- The memory: the contents of all buffers that have been allocated, oldest first. Nothing is ever freed. -/
abbrev Heap := List (List ℝ)

/-- Programs that read and write the memory and may raise. -/
abbrev HPy := ExceptT PyErr (StateM Heap)

/-- How an entry (a number, a vector, a matrix) lies in memory. -/
class Cells (V : Type) where
  width : ℕ
  enc : V → List ℝ
  dec : List ℝ → V

instance : Cells ℝ where
  width := 1
  enc x := [x]
  dec l := l.getD 0 0

instance {d : ℕ} : Cells (Fin d → ℝ) where
  width := d
  enc x := List.ofFn x
  dec l := fun i => l.getD i 0

/-- C order. -/
instance {d : ℕ} : Cells (Matrix (Fin d) (Fin d) ℝ) where
  width := d * d
  enc M := (List.ofFn fun i : Fin d => List.ofFn fun j : Fin d => M i j).flatten
  dec l := Matrix.of fun i j => l.getD (i * d + j) 0

/-- An array, or a contiguous view of one: `n` entries of `w` numbers, beginning at position `off` of buffer `loc`. -/
structure HArr where
  loc : ℕ
  off : ℕ
  n : ℕ
  w : ℕ

/-- A view of one entry. -/
structure Piece where
  loc : ℕ
  off : ℕ
  w : ℕ

/-- A new buffer. -/
def alloc (b : List ℝ) : HPy ℕ := do
  let h ← get
  set (h ++ [b])
  pure h.length

/-- `b[off:off+len(v)] = v`. -/
def splice (b : List ℝ) (off : ℕ) (v : List ℝ) : List ℝ := b.take off ++ v ++ b.drop (off + v.length)

/-- The value of a view. -/
def Piece.get (V : Type) [Cells V] (p : Piece) : HPy V := do
  let h ← MonadState.get
  pure (Cells.dec (((h.getD p.loc []).drop p.off).take p.w))

/-- Assignment to a view. -/
def Piece.put {V : Type} [Cells V] (p : Piece) (v : V) : HPy Unit :=
  modify fun h => h.set p.loc (splice (h.getD p.loc []) p.off (Cells.enc v))

/-- `a[k]`: a view, `IndexError` past the end. -/
def HArr.view (a : HArr) (k : ℕ) : HPy Piece :=
  if k < a.n then pure ⟨a.loc, a.off + k * a.w, a.w⟩ else throw .indexError

/-- `a[k] = v`. -/
def HArr.set {V : Type} [Cells V] (a : HArr) (k : ℕ) (v : V) : HPy Unit := do
  let p ← a.view k
  p.put v

/-- `np.zeros((n, ..))`. -/
def zeros (V : Type) [Cells V] (n : ℕ) : HPy HArr := do
  let l ← alloc (List.replicate (n * Cells.width V) 0)
  pure ⟨l, 0, n, Cells.width V⟩

/-- A new array with given entries: the result of an expression. -/
def fresh {V : Type} [Cells V] (vs : List V) : HPy HArr := do
  let l ← alloc (vs.flatMap Cells.enc)
  pure ⟨l, 0, vs.length, Cells.width V⟩

/-- All entries of an array, as an expression reads them. -/
def HArr.all (V : Type) [Cells V] (a : HArr) : HPy (List V) :=
  (List.range a.n).mapM fun k => do
    let p ← a.view k
    p.get V

/-- A Python exception or value inside a program. -/
def lift {α : Type} (p : Py α) : HPy α := ExceptT.mk (pure p)

section integrators

variable {V W : Type} [AddCommGroup V] [Module ℝ V] [AddCommGroup W] [Module ℝ W] [Cells V] [Cells W]

/-- The beginning of all `solve_fwd`, `/repo/src/numerics/euler.py:45-64`. -/
def hBegin (V W : Type) [Cells V] [Cells W] (n : ℕ) (m0 s0 : Piece) : HPy (HArr × HArr) := do
  let mt ← zeros V n
  let st ← zeros W n
  mt.set 0 (← m0.get V)
  st.set 0 (← s0.get W)
  pure (mt, st)

/-- `Euler.solve_fwd`, `/repo/src/numerics/euler.py:27-92`. -/
def hEulerFwd (F : Rhs V W) (dt : ℝ) (lin_a off_b : HArr) (m0 s0 sigma : Piece) : HPy (HArr × HArr) := do
  let dim_n := off_b.n
  let (mt, st) ← hBegin V W dim_n m0 s0
  (List.range (dim_n - 1)).forM fun k => do
    let mk ← mt.view k
    let sk ← st.view k
    let ak ← lin_a.view k
    let bk ← off_b.view k
    mt.set (k + 1) ((← mk.get V) + dt • F.fun_mt (← mk.get V) (← ak.get W) (← bk.get V))
    st.set (k + 1) ((← sk.get W) + dt • F.fun_st (← sk.get W) (← ak.get W) (← sigma.get W))
  pure (mt, st)

/-- `Heun.solve_fwd`, `/repo/src/numerics/heun.py:27-111`. -/
def hHeunFwd (F : Rhs V W) (dt : ℝ) (lin_a off_b : HArr) (m0 s0 sigma : Piece) : HPy (HArr × HArr) := do
  let dim_n := off_b.n
  let (mt, st) ← hBegin V W dim_n m0 s0
  let h := 0.5 * dt
  (List.range (dim_n - 1)).forM fun k => do
    let mk ← mt.view k
    let sk ← st.view k
    let ak ← lin_a.view k
    let bk ← off_b.view k
    let a_plus ← lin_a.view (k + 1)
    let b_plus ← off_b.view (k + 1)
    let f_predict := F.fun_mt (← mk.get V) (← ak.get W) (← bk.get V)
    let f_correct := F.fun_mt ((← mk.get V) + dt • f_predict) (← a_plus.get W) (← b_plus.get V)
    mt.set (k + 1) ((← mk.get V) + h • (f_predict + f_correct))
    let f_predict := F.fun_st (← sk.get W) (← ak.get W) (← sigma.get W)
    let f_correct := F.fun_st ((← sk.get W) + dt • f_predict) (← a_plus.get W) (← sigma.get W)
    st.set (k + 1) ((← sk.get W) + h • (f_predict + f_correct))
  pure (mt, st)

/-- `RungeKutta2.solve_fwd`, `/repo/src/numerics/runge_kutta2.py:24-102`. -/
def hRK2Fwd (F : Rhs V W) (dt : ℝ) (lin_a off_b : HArr) (m0 s0 sigma : Piece) : HPy (HArr × HArr) := do
  let dim_n := off_b.n
  let (mt, st) ← hBegin V W dim_n m0 s0
  let h := 0.5 * dt
  let ak_mid ← fresh (midpoints (← lin_a.all W))
  let bk_mid ← fresh (midpoints (← off_b.all V))
  (List.range (dim_n - 1)).forM fun k => do
    let mk ← mt.view k
    let sk ← st.view k
    let ak ← lin_a.view k
    let bk ← off_b.view k
    let a_mid ← ak_mid.view k
    let b_mid ← bk_mid.view k
    mt.set (k + 1) ((← mk.get V) + dt • F.fun_mt ((← mk.get V) + h • F.fun_mt (← mk.get V) (← ak.get W) (← bk.get V))
      (← a_mid.get W) (← b_mid.get V))
    st.set (k + 1) ((← sk.get W) + dt • F.fun_st ((← sk.get W) + h • F.fun_st (← sk.get W) (← sk.get W) (← sigma.get W))
      (← a_mid.get W) (← sigma.get W))
  pure (mt, st)

/-- `RungeKutta4.solve_fwd`, `/repo/src/numerics/runge_kutta4.py:24-113`. -/
def hRK4Fwd (F : Rhs V W) (dt : ℝ) (lin_a off_b : HArr) (m0 s0 sigma : Piece) : HPy (HArr × HArr) := do
  let dim_n := off_b.n
  let (mt, st) ← hBegin V W dim_n m0 s0
  let ak_mid ← fresh (midpoints (← lin_a.all W))
  let bk_mid ← fresh (midpoints (← off_b.all V))
  let h := 0.5 * dt
  (List.range (dim_n - 1)).forM fun k => do
    let mk ← mt.view k
    let sk ← st.view k
    let ak ← lin_a.view k
    let bk ← off_b.view k
    let a_mid ← ak_mid.view k
    let b_mid ← bk_mid.view k
    let a_next ← lin_a.view (k + 1)
    let b_next ← off_b.view (k + 1)
    let K1 := F.fun_mt (← mk.get V) (← ak.get W) (← bk.get V)
    let K2 := F.fun_mt ((← mk.get V) + h • K1) (← a_mid.get W) (← b_mid.get V)
    let K3 := F.fun_mt ((← mk.get V) + h • K2) (← a_mid.get W) (← b_mid.get V)
    let K4 := F.fun_mt ((← mk.get V) + dt • K3) (← a_next.get W) (← b_next.get V)
    mt.set (k + 1) ((← mk.get V) + (1 / 6 : ℝ) • (dt • (K1 + (2 : ℝ) • (K2 + K3) + K4)))
    let L1 := F.fun_st (← sk.get W) (← ak.get W) (← sigma.get W)
    let L2 := F.fun_st ((← sk.get W) + h • L1) (← a_mid.get W) (← sigma.get W)
    let L3 := F.fun_st ((← sk.get W) + h • L2) (← a_mid.get W) (← sigma.get W)
    let L4 := F.fun_st ((← sk.get W) + dt • L3) (← a_next.get W) (← sigma.get W)
    st.set (k + 1) ((← sk.get W) + (1 / 6 : ℝ) • (dt • (L1 + (2 : ℝ) • (L2 + L3) + L4)))
  pure (mt, st)

/-- Dispatch, `/repo/src/var_bayes/fwd_ode.py:45-65`. -/
def hSolveFwd (meth : Method) (F : Rhs V W) (dt : ℝ) (lin_a off_b : HArr) (m0 s0 sigma : Piece) : HPy (HArr × HArr) :=
  match meth with
  | .euler => hEulerFwd F dt lin_a off_b m0 s0 sigma
  | .heun => hHeunFwd F dt lin_a off_b m0 s0 sigma
  | .rk2 => hRK2Fwd F dt lin_a off_b m0 s0 sigma
  | .rk4 => hRK4Fwd F dt lin_a off_b m0 s0 sigma

/-- `Euler.solve_bwd`, `/repo/src/numerics/euler.py:94-154`. -/
def hEulerBwd (F : Rhs V W) (dt : ℝ) (lin_a dEsde_dm dEsde_ds dEobs_dm dEobs_ds : HArr) : HPy (HArr × HArr) := do
  let dim_n := dEsde_dm.n
  let lam ← zeros V dim_n
  let psi ← zeros W dim_n
  ((List.range (dim_n - 1)).map (· + 1)).reverse.forM fun t => do
    let lamt ← lam.view t
    let psit ← psi.view t
    let at_ ← lin_a.view t
    let em ← dEsde_dm.view t
    let om ← dEobs_dm.view (t - 1)
    let es ← dEsde_ds.view t
    let os ← dEobs_ds.view (t - 1)
    lam.set (t - 1) ((← lamt.get V) - dt • F.fun_lam (← em.get V) (← at_.get W) (← lamt.get V) + (← om.get V))
    psi.set (t - 1) ((← psit.get W) - dt • F.fun_psi (← es.get W) (← at_.get W) (← psit.get W) + (← os.get W))
  pure (lam, psi)

/-- `Heun.solve_bwd`, `/repo/src/numerics/heun.py:113-190`. -/
def hHeunBwd (F : Rhs V W) (dt : ℝ) (lin_a dEsde_dm dEsde_ds dEobs_dm dEobs_ds : HArr) : HPy (HArr × HArr) := do
  let dim_n := dEsde_dm.n
  let lam ← zeros V dim_n
  let psi ← zeros W dim_n
  let h := 0.5 * dt
  ((List.range (dim_n - 1)).map (· + 1)).reverse.forM fun t => do
    let lamt ← lam.view t
    let psit ← psi.view t
    let at_ ← lin_a.view t
    let ak ← lin_a.view (t - 1)
    let em ← dEsde_dm.view t
    let em1 ← dEsde_dm.view (t - 1)
    let om ← dEobs_dm.view (t - 1)
    let es ← dEsde_ds.view t
    let es1 ← dEsde_ds.view (t - 1)
    let os ← dEobs_ds.view (t - 1)
    let f_predict := F.fun_lam (← em.get V) (← at_.get W) (← lamt.get V)
    let f_correct := F.fun_lam (← em1.get V) (← ak.get W) ((← lamt.get V) - dt • f_predict)
    lam.set (t - 1) ((← lamt.get V) - h • (f_predict + f_correct) + (← om.get V))
    let f_predict := F.fun_psi (← es.get W) (← at_.get W) (← psit.get W)
    let f_correct := F.fun_psi (← es1.get W) (← ak.get W) ((← psit.get W) - dt • f_predict)
    psi.set (t - 1) ((← psit.get W) - h • (f_predict + f_correct) + (← os.get W))
  pure (lam, psi)

/-- `RungeKutta2.solve_bwd`, `/repo/src/numerics/runge_kutta2.py:104-194`. -/
def hRK2Bwd (F : Rhs V W) (dt : ℝ) (lin_a dEsde_dm dEsde_ds dEobs_dm dEobs_ds : HArr) : HPy (HArr × HArr) := do
  let h := 0.5 * dt
  let dim_n := dEsde_dm.n
  let lam ← zeros V dim_n
  let psi ← zeros W dim_n
  let ak_mid ← fresh (midpoints (← lin_a.all W) ++ [0])
  let dEmk_mid ← fresh (midpoints (← dEsde_dm.all V) ++ [0])
  let dEsk_mid ← fresh (midpoints (← dEsde_ds.all W) ++ [0])
  ((List.range (dim_n - 1)).map (· + 1)).reverse.forM fun t => do
    let lam_t ← lam.view t
    let psi_t ← psi.view t
    let at_ ← lin_a.view t
    let ak ← ak_mid.view (t - 1)
    let dEmk ← dEmk_mid.view (t - 1)
    let dEsk ← dEsk_mid.view (t - 1)
    let em ← dEsde_dm.view t
    let om ← dEobs_dm.view (t - 1)
    let es ← dEsde_ds.view t
    let os ← dEobs_ds.view (t - 1)
    let lamk := (← lam_t.get V) - h • F.fun_lam (← em.get V) (← at_.get W) (← lam_t.get V)
    lam.set (t - 1) ((← lam_t.get V) - dt • F.fun_lam (← dEmk.get V) (← ak.get W) lamk + (← om.get V))
    let psik := (← psi_t.get W) - h • F.fun_psi (← es.get W) (← at_.get W) (← psi_t.get W)
    psi.set (t - 1) ((← psi_t.get W) - dt • F.fun_psi (← dEsk.get W) (← ak.get W) psik + (← os.get W))
  pure (lam, psi)

/-- `RungeKutta4.solve_bwd`, `/repo/src/numerics/runge_kutta4.py:115-211`. -/
def hRK4Bwd (F : Rhs V W) (dt : ℝ) (lin_a dEsde_dm dEsde_ds dEobs_dm dEobs_ds : HArr) : HPy (HArr × HArr) := do
  let h := 0.5 * dt
  let dim_n := dEsde_dm.n
  let lam ← zeros V dim_n
  let psi ← zeros W dim_n
  let ak_mid ← fresh (midpoints (← lin_a.all W) ++ [0])
  let dEmk_mid ← fresh (midpoints (← dEsde_dm.all V) ++ [0])
  let dEsk_mid ← fresh (midpoints (← dEsde_ds.all W) ++ [0])
  ((List.range (dim_n - 1)).map (· + 1)).reverse.forM fun t => do
    let lam_t ← lam.view t
    let psi_t ← psi.view t
    let at_ ← lin_a.view t
    let ak ← ak_mid.view (t - 1)
    let dEmk ← dEmk_mid.view (t - 1)
    let dEsk ← dEsk_mid.view (t - 1)
    let em ← dEsde_dm.view t
    let em1 ← dEsde_dm.view (t - 1)
    let a1 ← lin_a.view (t - 1)
    let om ← dEobs_dm.view (t - 1)
    let es ← dEsde_ds.view t
    let es1 ← dEsde_ds.view (t - 1)
    let os ← dEobs_ds.view (t - 1)
    let K1 := F.fun_lam (← em.get V) (← at_.get W) (← lam_t.get V)
    let K2 := F.fun_lam (← dEmk.get V) (← ak.get W) ((← lam_t.get V) - h • K1)
    let K3 := F.fun_lam (← dEmk.get V) (← ak.get W) ((← lam_t.get V) - h • K2)
    let K4 := F.fun_lam (← em1.get V) (← a1.get W) ((← lam_t.get V) - dt • K3)
    lam.set (t - 1) ((← lam_t.get V) - (1 / 6 : ℝ) • (dt • (K1 + (2 : ℝ) • (K2 + K3) + K4)) + (← om.get V))
    let L1 := F.fun_psi (← es.get W) (← at_.get W) (← psi_t.get W)
    let L2 := F.fun_psi (← dEsk.get W) (← ak.get W) ((← psi_t.get W) - h • L1)
    let L3 := F.fun_psi (← dEsk.get W) (← ak.get W) ((← psi_t.get W) - h • L2)
    let L4 := F.fun_psi (← es1.get W) (← a1.get W) ((← psi_t.get W) - dt • L3)
    psi.set (t - 1) ((← psi_t.get W) - (1 / 6 : ℝ) • (dt • (L1 + (2 : ℝ) • (L2 + L3) + L4)) + (← os.get W))
  pure (lam, psi)

/-- Dispatch, `/repo/src/var_bayes/bwd_ode.py:45-65`. -/
def hSolveBwd (meth : Method) (F : Rhs V W) (dt : ℝ) (lin_a dEsde_dm dEsde_ds dEobs_dm dEobs_ds : HArr) : HPy (HArr × HArr) :=
  match meth with
  | .euler => hEulerBwd F dt lin_a dEsde_dm dEsde_ds dEobs_dm dEobs_ds
  | .heun => hHeunBwd F dt lin_a dEsde_dm dEsde_ds dEobs_dm dEobs_ds
  | .rk2 => hRK2Bwd F dt lin_a dEsde_dm dEsde_ds dEobs_dm dEobs_ds
  | .rk4 => hRK4Bwd F dt lin_a dEsde_dm dEsde_ds dEobs_dm dEobs_ds

end integrators

end

end VGPA
