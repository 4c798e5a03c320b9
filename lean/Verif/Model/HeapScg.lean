import Verif.Model.HeapVgp
import Verif.Model.Pipeline

/-!
# The optimizer with arrays as buffers

`SCG.__call__`, `/repo/src/numerics/optim_scg.py`, once more, as a program on the heap of `Verif/Model/Heap.lean`. The names `x`, `d`, `grad_new`, `grad_old` stand for arrays and not for their values, and
the objective and its gradient are arbitrary programs that may read and overwrite all of memory. Numbers are values: the objective returns a number and not an array.
-/

namespace VGPA

noncomputable section

/-- The present value of an array of `n` numbers. -/
def HArr.vec (n : ℕ) (a : HArr) (h : Heap) : Fin n → ℝ := fun i => (a.contents ℝ h).getD i 0

/-- The objective `f(x, *args)`, its gradient `df(x, *args)` and the gradient called as `df(x, eval_fun=True)`: they get an array, and the gradients return one. -/
structure HOracle (σ A S : Type) where
  f : HArr → A → σ → Heap → Py S × σ × Heap
  df : HArr → A → σ → Heap → Py HArr × σ × Heap
  dfEval : HArr → σ → Heap → Py HArr × σ × Heap

/-- What a call changes: the memory, the state shared by the two functions, and the statistics. -/
structure HWorld (σ S : Type) where
  heap : Heap
  st : σ
  stats : ScgStats S

/-- The local variables of `__call__` that live from one iteration to the next. -/
structure HScgLoc (S : Type) where
  x : HArr
  f_now : S
  f_old : S
  grad_new : HArr
  grad_old : HArr
  d : HArr
  success : Bool
  count_success : ℕ
  beta : S
  kappa : S
  theta : S
  mu : S

namespace HScg

variable {σ A S : Type} {n : ℕ}

/-- The value of an array in an expression. -/
def rd (n : ℕ) (a : HArr) : ScgM (HWorld σ S) (Fin n → ℝ) := fun w => (.ok (a.vec n w.heap), w)

/-- A new array: the result of an expression that is kept, or of `np.copy`. -/
def mk (v : Fin n → ℝ) : ScgM (HWorld σ S) HArr := fun w => (.ok ⟨w.heap.length, 0, n, 1⟩, { w with heap := w.heap ++ [List.ofFn v] })

def callF (o : HOracle σ A S) (x : HArr) (args : A) : ScgM (HWorld σ S) S := fun w =>
  let r := o.f x args w.st w.heap
  (r.1, { w with st := r.2.1, heap := r.2.2 })

def callDf (o : HOracle σ A S) (x : HArr) (args : A) : ScgM (HWorld σ S) HArr := fun w =>
  let r := o.df x args w.st w.heap
  (r.1, { w with st := r.2.1, heap := r.2.2 })

def callDfEval (o : HOracle σ A S) (x : HArr) : ScgM (HWorld σ S) HArr := fun w =>
  let r := o.dfEval x w.st w.heap
  (r.1, { w with st := r.2.1, heap := r.2.2 })

/-- `stats["f_eval"] += a; stats["df_eval"] += b` -/
def bump (a b : ℕ) : ScgM (HWorld σ S) Unit := fun w =>
  (.ok (), { w with stats := { w.stats with f_eval := w.stats.f_eval + a, df_eval := w.stats.df_eval + b } })

/-- `stats["MaxIt"] = v` -/
def setMaxIt (v : ℕ) : ScgM (HWorld σ S) Unit := fun w => (.ok (), { w with stats := { w.stats with MaxIt := v } })

/-- `stats["fx"][j] = a; stats["beta"][j] = b; stats["dfx"][j] = c`, `/repo/src/numerics/optim_scg.py:207-209`. The arrays of the statistics were made by `__init__` and are not reachable from outside
before the call returns; they are values here. -/
def record (j : ℕ) (a b c : S) : ScgM (HWorld σ S) Unit := fun w =>
  let r := VGPA.record (σ := σ) j a b c { st := w.st, stats := w.stats }
  (r.1, { w with stats := r.2.stats })

variable (ar : Arith S (Fin n → ℝ)) (o : HOracle σ A S) (args : A)

/-- `/repo/src/numerics/optim_scg.py:135-175`. -/
def directional (j : ℕ) (L : HScgLoc S) : ScgM (HWorld σ S) (HScgLoc S ⊕ (HArr × S)) :=
  if L.success then do
    let mu := ar.dot (← rd n L.d) (← rd n L.grad_new)
    let (d, mu) ← if ar.le (ar.lit 0) mu then do
        let d ← mk (ar.vneg (← rd n L.grad_new))
        pure (d, ar.dot (← rd n d) (← rd n L.grad_new))
      else pure (L.d, mu)
    let kappa := ar.dot (← rd n d) (← rd n d)
    if ar.lt kappa (ar.lit (1 / 2 ^ 52)) then do
      setMaxIt (j + 1)
      pure (.inr (L.x, L.f_now))
    else do
      let sigma ← .lift (ar.div (ar.lit (1 / 1000)) (ar.sqrt kappa))
      let x_plus ← mk (ar.vadd (← rd n L.x) (ar.smul sigma (← rd n d)))
      let g_plus ← callDfEval o x_plus
      bump 1 1
      let theta ← .lift (ar.div (ar.dot (← rd n d) (ar.vsub (← rd n g_plus) (← rd n L.grad_new))) sigma)
      pure (.inl { L with d, mu, kappa, theta })
  else pure (.inl L)

/-- `/repo/src/numerics/optim_scg.py:178-185`. -/
def stepSize (L : HScgLoc S) : Py (S × S) := do
  let delta := ar.add L.theta (ar.mul L.beta L.kappa)
  let (delta, beta) ← if ar.le delta (ar.lit 0) then do
      let q ← ar.div L.theta L.kappa
      pure (ar.mul L.beta L.kappa, ar.sub L.beta q)
    else pure (delta, L.beta)
  let q ← ar.div L.mu delta
  pure (beta, ar.neg q)

/-- `/repo/src/numerics/optim_scg.py:255-274`. -/
def finish (dim_x : ℕ) (delta : S) (L : HScgLoc S) : ScgM (HWorld σ S) (HScgLoc S) := do
  let beta := if ar.lt delta (ar.lit (1 / 4)) then ar.min (ar.mul (ar.lit 4) L.beta) (ar.lit (10 ^ 100)) else L.beta
  let beta := if ar.lt (ar.lit (3 / 4)) delta then ar.max (ar.mul (ar.lit (1 / 2)) beta) (ar.lit (1 / 10 ^ 15)) else beta
  if L.count_success = dim_x then do
    let d ← mk (ar.vneg (← rd n L.grad_new))
    pure { L with beta, d, count_success := 0 }
  else if L.success then do
    let q ← .lift (ar.div (ar.dot (← rd n L.grad_new) (ar.vsub (← rd n L.grad_old) (← rd n L.grad_new))) L.mu)
    let gamma := ar.max q (ar.lit 0)
    let d ← mk (ar.vsub (ar.smul gamma (← rd n L.d)) (← rd n L.grad_new))
    pure { L with beta, d }
  else pure { L with beta }

/-- `/repo/src/numerics/optim_scg.py:187-274`. -/
def move (p : Scg S) (dim_x j : ℕ) (L : HScgLoc S) (alpha : S) : ScgM (HWorld σ S) (HScgLoc S ⊕ (HArr × S)) := do
  let x_new ← mk (ar.vadd (← rd n L.x) (ar.smul alpha (← rd n L.d)))
  let f_new ← callF o x_new args
  bump 1 0
  let delta ← .lift (ar.div (ar.mul (ar.lit 2) (ar.sub f_new L.f_old)) (ar.mul alpha L.mu))
  if ar.le (ar.lit 0) delta then do
    let x ← mk (← rd n x_new)
    let g_now ← mk (← rd n L.grad_new)
    record j f_new L.beta (ar.absSum (← rd n g_now))
    let big ← .lift (ar.absMax (ar.smul alpha (← rd n L.d)))
    if ar.le big p.x_tol && ar.le (ar.abs (ar.sub f_new L.f_old)) p.f_tol then do
      setMaxIt (j + 1)
      pure (.inr (x, f_new))
    else do
      let grad_old ← mk (← rd n L.grad_new)
      let f_now ← callF o x args
      let grad_new ← callDf o x args
      bump 1 1
      if ar.isClose0 (ar.dot (← rd n grad_new) (← rd n grad_new)) then do
        setMaxIt (j + 1)
        pure (.inr (x, f_now))
      else do
        let L' ← finish ar dim_x delta { L with
          x, f_now, f_old := f_new, grad_new, grad_old, success := true
          count_success := L.count_success + 1 }
        pure (.inl L')
  else do
    let g_now ← mk (← rd n L.grad_old)
    record j L.f_old L.beta (ar.absSum (← rd n g_now))
    let L' ← finish ar dim_x delta { L with f_now := L.f_old, success := false }
    pure (.inl L')

/-- One iteration, `/repo/src/numerics/optim_scg.py:131-275`. -/
def turn (p : Scg S) (dim_x j : ℕ) (L : HScgLoc S) : ScgM (HWorld σ S) (HScgLoc S ⊕ (HArr × S)) := do
  match ← directional ar o j L with
  | .inr r => pure (.inr r)
  | .inl L => do
    let (beta, alpha) ← .lift (stepSize ar L)
    move ar o args p dim_x j { L with beta } alpha

/-- `/repo/src/numerics/optim_scg.py:131,277-284`. -/
def loop (p : Scg S) (dim_x : ℕ) : List ℕ → HScgLoc S → ScgM (HWorld σ S) (HArr × S)
  | [], L => pure (L.x, L.f_old)
  | j :: js, L => do
    match ← turn ar o args p dim_x j L with
    | .inr r => pure r
    | .inl L => loop p dim_x js L

/-- `__call__(x0, *args)`, `/repo/src/numerics/optim_scg.py:75-285`: result, optimizer, shared state and memory afterwards. `x0.flatten()` makes a copy. -/
def call (p : Scg S) (x0 : HArr) (s : σ) (h : Heap) : Py (HArr × S) × Scg S × σ × Heap :=
  let m : ScgM (HWorld σ S) (HArr × S) := do
    let x ← mk (← rd n x0)
    let f_now ← callF o x args
    let grad_new ← callDf o x args
    bump 1 1
    let grad_old ← mk (← rd n grad_new)
    let d ← mk (ar.vneg (← rd n grad_new))
    loop ar o args p (ar.size (← rd n x)) (List.range p.nit) {
      x, f_now, f_old := f_now, grad_new, grad_old, d
      success := true, count_success := 0, beta := ar.lit 1
      kappa := ar.lit 0, theta := ar.lit 0, mu := ar.lit 0 }
  let r := m { heap := h, st := s, stats := p.stats }
  (r.1, { p with stats := r.2.stats }, r.2.st, r.2.heap)

end HScg

section
variable {V W : Type} [AddCommGroup V] [Module ℝ V] [AddCommGroup W] [Module ℝ W] [Cells V] [Cells W]

/-- The returned array must have `n` entries, see `AnyVgp.asVec`. -/
def sized (n : ℕ) (g : HArr) : Py HArr := if g.n = n then .ok g else .error .valueError

/-- `free_energy` and `gradient` of an object in memory as the optimizer sees them, `/repo/src/var_bayes/simulation.py:215-231`. -/
def hOracle (sh : HShape V W) (n : ℕ) : HOracle (HVarGP V W) Unit ℝ where
  f x _ o h := o.free sh x h
  df x _ o h := let r := o.grad sh x false h; (r.1.bind (sized n), r.2)
  dfEval x o h := let r := o.grad sh x true h; (r.1.bind (sized n), r.2)

/-- The same on values. -/
def vOracle (sh : Shape V W) (n : ℕ) : Oracle (VarGP V W) Unit ℝ (Fin n → ℝ) where
  f x _ v := v.freeEnergy sh (List.ofFn x)
  df x _ v := let r := v.gradient sh (List.ofFn x) false; (r.1.bind (AnyVgp.asVec n), r.2)
  dfEval x v := let r := v.gradient sh (List.ofFn x) true; (r.1.bind (AnyVgp.asVec n), r.2)

end

end

end VGPA
