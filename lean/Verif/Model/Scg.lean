import Verif.Model.Py
import Mathlib.Analysis.SpecialFunctions.Pow.Real
import Mathlib.Data.Matrix.Mul

/-!
# The optimizer, `/repo/src/numerics/optim_scg.py`

The optimizer is written over an arbitrary arithmetic (`Arith`), so that what is proved for all arithmetics
holds for floating point numbers too. `realArith` is the instance for exact real numbers.

The objective and its gradient may share and change a state of any type `σ` (a `VarGP` object does), and may raise.
`Oracle` therefore passes the state along. Printing (`display`, the final warning) is not modelled.
-/

namespace VGPA

/-- The operations on numbers (`S`) and flat arrays (`V`) that `SCG.__call__` uses. Division may raise: numpy itself
returns `inf` or `nan` (`div` then never fails), while the instance for real numbers fails on a zero divisor, so that a
division by zero cannot go unnoticed. Comparisons give a `Bool`; nothing is assumed about them. -/
structure Arith (S V : Type) where
  lit : ℚ → S
  add : S → S → S
  sub : S → S → S
  mul : S → S → S
  neg : S → S
  div : S → S → Py S
  sqrt : S → S
  abs : S → S
  max : S → S → S
  min : S → S → S
  le : S → S → Bool
  lt : S → S → Bool
  /-- `np.isclose(a, 0.0)` -/
  isClose0 : S → Bool
  vneg : V → V
  vadd : V → V → V
  vsub : V → V → V
  smul : S → V → V
  dot : V → V → S
  /-- `v.size` -/
  size : V → ℕ
  /-- `np.sum(np.abs(v))` -/
  absSum : V → S
  /-- `np.abs(v).max()`: `ValueError` for an empty array -/
  absMax : V → Py S

/-- The objective `f(x, *args)`, its gradient `df(x, *args)`, and the gradient called as `df(x, eval_fun=True)`
(`/repo/src/numerics/optim_scg.py:167`, without the additional arguments). -/
structure Oracle (σ A S V : Type) where
  f : V → A → σ → Py S × σ
  df : V → A → σ → Py V × σ
  dfEval : V → σ → Py V × σ

/-- The dictionary `stats`, `/repo/src/numerics/optim_scg.py:70-72`. The counters, floats in the code, are naturals here. -/
structure ScgStats (S : Type) where
  MaxIt : ℕ
  fx : List S
  dfx : List S
  beta : List S
  f_eval : ℕ
  df_eval : ℕ

/-- The slots of `SCG` apart from the two functions and `display`, `/repo/src/numerics/optim_scg.py:21`. -/
structure Scg (S : Type) where
  nit : ℕ
  x_tol : S
  f_tol : S
  stats : ScgStats S

/-- `__init__`, `/repo/src/numerics/optim_scg.py:23-73`, with the three optional parameters. -/
def Scg.init {S V : Type} (ar : Arith S V) (max_it : Option ℕ) (x_tol f_tol : Option S) : Scg S :=
  let nit := max_it.getD 150
  { nit
    x_tol := x_tol.getD (ar.lit (1 / 10 ^ 6))
    f_tol := f_tol.getD (ar.lit (1 / 10 ^ 8))
    stats := { MaxIt := nit, fx := List.replicate nit (ar.lit 0), dfx := List.replicate nit (ar.lit 0),
               beta := List.replicate nit (ar.lit 0), f_eval := 0, df_eval := 0 } }

/-- What a call changes: the state shared by the two functions, and the statistics. -/
structure World (σ S : Type) where
  st : σ
  stats : ScgStats S

/-- Computations that change a world and may raise; what was changed before an exception stays changed. -/
def ScgM (w α : Type) : Type := w → Py α × w

instance {w : Type} : Monad (ScgM w) where
  pure a := fun s => (.ok a, s)
  bind m k := fun s => match m s with
    | (.ok a, s') => k a s'
    | (.error e, s') => (.error e, s')

/-- A computation that does not touch the world. -/
def ScgM.lift {w α : Type} (p : Py α) : ScgM w α := fun s => (p, s)

section
variable {σ A S V : Type}

def callF (o : Oracle σ A S V) (x : V) (args : A) : ScgM (World σ S) S := fun s =>
  let r := o.f x args s.st
  (r.1, { s with st := r.2 })

def callDf (o : Oracle σ A S V) (x : V) (args : A) : ScgM (World σ S) V := fun s =>
  let r := o.df x args s.st
  (r.1, { s with st := r.2 })

def callDfEval (o : Oracle σ A S V) (x : V) : ScgM (World σ S) V := fun s =>
  let r := o.dfEval x s.st
  (r.1, { s with st := r.2 })

/-- `stats["f_eval"] += a; stats["df_eval"] += b` -/
def bump (a b : ℕ) : ScgM (World σ S) Unit := fun s =>
  (.ok (), { s with stats := { s.stats with f_eval := s.stats.f_eval + a, df_eval := s.stats.df_eval + b } })

/-- `stats["MaxIt"] = v` -/
def setMaxIt (v : ℕ) : ScgM (World σ S) Unit := fun s => (.ok (), { s with stats := { s.stats with MaxIt := v } })

/-- `stats["fx"][j] = a; stats["beta"][j] = b; stats["dfx"][j] = c`, `/repo/src/numerics/optim_scg.py:207-209`. -/
def record (j : ℕ) (a b c : S) : ScgM (World σ S) Unit := fun s =>
  match setIdx s.stats.fx j a with
  | .error e => (.error e, s)
  | .ok fx =>
    match setIdx s.stats.beta j b with
    | .error e => (.error e, { s with stats := { s.stats with fx } })
    | .ok beta =>
      match setIdx s.stats.dfx j c with
      | .error e => (.error e, { s with stats := { s.stats with fx, beta } })
      | .ok dfx => (.ok (), { s with stats := { s.stats with fx, beta, dfx } })

/-- The local variables of `__call__` that live from one iteration to the next. -/
structure ScgLoc (S V : Type) where
  x : V
  f_now : S
  f_old : S
  grad_new : V
  grad_old : V
  d : V
  success : Bool
  count_success : ℕ
  beta : S
  kappa : S
  theta : S
  mu : S

variable (ar : Arith S V) (o : Oracle σ A S V) (args : A)

/-- First and second directional derivative, `/repo/src/numerics/optim_scg.py:135-175`. Either the loop goes on, or the
call returns. -/
def Scg.directional (j : ℕ) (L : ScgLoc S V) : ScgM (World σ S) (ScgLoc S V ⊕ (V × S)) :=
  if L.success then do
    let mu := ar.dot L.d L.grad_new
    let (d, mu) := if ar.le (ar.lit 0) mu then
        let d := ar.vneg L.grad_new
        (d, ar.dot d L.grad_new)
      else (L.d, mu)
    let kappa := ar.dot d d
    if ar.lt kappa (ar.lit (1 / 2 ^ 52)) then do
      setMaxIt (j + 1)
      pure (.inr (L.x, L.f_now))
    else do
      let sigma ← .lift (ar.div (ar.lit (1 / 1000)) (ar.sqrt kappa))
      let x_plus := ar.vadd L.x (ar.smul sigma d)
      let g_plus ← callDfEval o x_plus
      bump 1 1
      let theta ← .lift (ar.div (ar.dot d (ar.vsub g_plus L.grad_new)) sigma)
      pure (.inl { L with d, mu, kappa, theta })
  else pure (.inl L)

/-- Curvature and step size, `/repo/src/numerics/optim_scg.py:178-185`: the new `beta` and `alpha`. -/
def Scg.stepSize (L : ScgLoc S V) : Py (S × S) := do
  let delta := ar.add L.theta (ar.mul L.beta L.kappa)
  let (delta, beta) ← if ar.le delta (ar.lit 0) then do
      let q ← ar.div L.theta L.kappa
      pure (ar.mul L.beta L.kappa, ar.sub L.beta q)
    else pure (delta, L.beta)
  let q ← ar.div L.mu delta
  pure (beta, ar.neg q)

/-- The new scale and search direction, `/repo/src/numerics/optim_scg.py:255-274`. `dim_x` is the size of the start
point, `delta` the comparison ratio. -/
def Scg.finish (dim_x : ℕ) (delta : S) (L : ScgLoc S V) : Py (ScgLoc S V) := do
  let beta := if ar.lt delta (ar.lit (1 / 4)) then ar.min (ar.mul (ar.lit 4) L.beta) (ar.lit (10 ^ 100)) else L.beta
  let beta := if ar.lt (ar.lit (3 / 4)) delta then ar.max (ar.mul (ar.lit (1 / 2)) beta) (ar.lit (1 / 10 ^ 15)) else beta
  if L.count_success = dim_x then
    pure { L with beta, d := ar.vneg L.grad_new, count_success := 0 }
  else if L.success then do
    let q ← ar.div (ar.dot L.grad_new (ar.vsub L.grad_old L.grad_new)) L.mu
    let gamma := ar.max q (ar.lit 0)
    pure { L with beta, d := ar.vsub (ar.smul gamma L.d) L.grad_new }
  else pure { L with beta }

/-- The iteration after the step size is known, `/repo/src/numerics/optim_scg.py:187-274`. -/
def Scg.move (p : Scg S) (dim_x j : ℕ) (L : ScgLoc S V) (alpha : S) :
    ScgM (World σ S) (ScgLoc S V ⊕ (V × S)) := do
  let x_new := ar.vadd L.x (ar.smul alpha L.d)
  let f_new ← callF o x_new args
  bump 1 0
  let delta ← .lift (ar.div (ar.mul (ar.lit 2) (ar.sub f_new L.f_old)) (ar.mul alpha L.mu))
  if ar.le (ar.lit 0) delta then do
    record j f_new L.beta (ar.absSum L.grad_new)
    let big ← .lift (ar.absMax (ar.smul alpha L.d))
    if ar.le big p.x_tol && ar.le (ar.abs (ar.sub f_new L.f_old)) p.f_tol then do
      setMaxIt (j + 1)
      pure (.inr (x_new, f_new))
    else do
      let f_now ← callF o x_new args
      let grad_new ← callDf o x_new args
      bump 1 1
      if ar.isClose0 (ar.dot grad_new grad_new) then do
        setMaxIt (j + 1)
        pure (.inr (x_new, f_now))
      else do
        let L' ← .lift (Scg.finish ar dim_x delta { L with
          x := x_new, f_now, f_old := f_new, grad_new, grad_old := L.grad_new, success := true
          count_success := L.count_success + 1 })
        pure (.inl L')
  else do
    record j L.f_old L.beta (ar.absSum L.grad_old)
    let L' ← .lift (Scg.finish ar dim_x delta { L with f_now := L.f_old, success := false })
    pure (.inl L')

/-- One iteration, `/repo/src/numerics/optim_scg.py:131-275`. -/
def Scg.turn (p : Scg S) (dim_x j : ℕ) (L : ScgLoc S V) : ScgM (World σ S) (ScgLoc S V ⊕ (V × S)) := do
  match ← Scg.directional ar o j L with
  | .inr r => pure (.inr r)
  | .inl L => do
    let (beta, alpha) ← .lift (Scg.stepSize ar L)
    Scg.move ar o args p dim_x j { L with beta } alpha

/-- `for j in range(self.nit)`, and the return after it, `/repo/src/numerics/optim_scg.py:131,277-284`. -/
def Scg.loop (p : Scg S) (dim_x : ℕ) : List ℕ → ScgLoc S V → ScgM (World σ S) (V × S)
  | [], L => pure (L.x, L.f_old)
  | j :: js, L => do
    match ← Scg.turn ar o args p dim_x j L with
    | .inr r => pure r
    | .inl L => Scg.loop p dim_x js L

/-- `__call__(x0, *args)`, `/repo/src/numerics/optim_scg.py:75-285`, for a flat `x0`: result, object and shared state
afterwards. -/
def Scg.call (p : Scg S) (x0 : V) (s : σ) : Py (V × S) × Scg S × σ :=
  let m : ScgM (World σ S) (V × S) := do
    let f_now ← callF o x0 args
    let grad_new ← callDf o x0 args
    bump 1 1
    Scg.loop ar o args p (ar.size x0) (List.range p.nit) {
      x := x0, f_now, f_old := f_now, grad_new, grad_old := grad_new, d := ar.vneg grad_new
      success := true, count_success := 0, beta := ar.lit 1
      kappa := ar.lit 0, theta := ar.lit 0, mu := ar.lit 0 }
  let r := m { st := s, stats := p.stats }
  (r.1, { p with stats := r.2.stats }, r.2.st)

end

open Classical in
/-- Exact real arithmetic on vectors with `n` entries. A zero divisor raises. -/
noncomputable def realArith (n : ℕ) : Arith ℝ (Fin n → ℝ) where
  lit q := q
  add := (· + ·)
  sub := (· - ·)
  mul := (· * ·)
  neg := (- ·)
  div a b := if b = 0 then .error .zeroDivisionError else .ok (a / b)
  sqrt := Real.sqrt
  abs := abs
  max := max
  min := min
  le a b := decide (a ≤ b)
  lt a b := decide (a < b)
  isClose0 a := decide (|a| ≤ 1 / 10 ^ 8)
  vneg := (- ·)
  vadd := (· + ·)
  vsub := (· - ·)
  smul := (· • ·)
  dot := (· ⬝ᵥ ·)
  size _ := n
  absSum v := ∑ i, |v i|
  absMax v := if h : n = 0 then .error .valueError
    else .ok (Finset.univ.sup' ⟨⟨0, Nat.pos_of_ne_zero h⟩, Finset.mem_univ _⟩ fun i => |v i|)

end VGPA
