import Verif.Model.Scg

/-!
# What the optimizer prints

`SCG.__call__`, `/repo/src/numerics/optim_scg.py:75-285`, once more with the lines that it prints (`display`, lines 212-214, and the warning after the last iteration, line 278). The parts that print nothing are taken from `Model/Scg`.
-/

namespace VGPA

/-- A printed line. Simplification: the numbers are those that are handed to the format, `"{1:.3f}"` rounds them to three digits. -/
inductive ScgLine (S : Type)
  /-- `" {0}: fx={1:.3f}\tsum(gx)={2:.3f}"`, `/repo/src/numerics/optim_scg.py:213` -/
  | progress (j : ℕ) (fx total_grad : S)
  /-- `" SGC: Maximum number of iterations has been reached."`, `/repo/src/numerics/optim_scg.py:278` -/
  | exhausted

/-- The world of a call, and what has been printed. -/
structure PWorld (σ S : Type) where
  base : World σ S
  out : List (ScgLine S)

section
variable {σ A S V : Type}

/-- A part of the program that prints nothing. -/
def quiet {α : Type} (m : ScgM (World σ S) α) : ScgM (PWorld σ S) α := fun w =>
  let r := m w.base
  (r.1, { w with base := r.2 })

/-- `print(...)` -/
def say (l : ScgLine S) : ScgM (PWorld σ S) Unit := fun w => (.ok (), { w with out := w.out ++ [l] })

/-- `if self.display and (np.mod(j, 10) == 0): print(...)`, `/repo/src/numerics/optim_scg.py:212-214`. -/
def sayProgress (display : Bool) (j : ℕ) (fx total_grad : S) : ScgM (PWorld σ S) Unit :=
  if display ∧ j % 10 = 0 then say (.progress j fx total_grad) else pure ()

variable (ar : Arith S V) (o : Oracle σ A S V) (args : A)

/-- The iteration after the step size is known, `/repo/src/numerics/optim_scg.py:187-274`. -/
def Scg.pMove (p : Scg S) (display : Bool) (dim_x j : ℕ) (L : ScgLoc S V) (alpha : S) : ScgM (PWorld σ S) (ScgLoc S V ⊕ (V × S)) := do
  let x_new := ar.vadd L.x (ar.smul alpha L.d)
  let f_new ← quiet (callF o x_new args)
  quiet (bump 1 0)
  let delta ← .lift (ar.div (ar.mul (ar.lit 2) (ar.sub f_new L.f_old)) (ar.mul alpha L.mu))
  if ar.le (ar.lit 0) delta then do
    quiet (record j f_new L.beta (ar.absSum L.grad_new))
    sayProgress display j f_new (ar.absSum L.grad_new)
    let big ← .lift (ar.absMax (ar.smul alpha L.d))
    if ar.le big p.x_tol && ar.le (ar.abs (ar.sub f_new L.f_old)) p.f_tol then do
      quiet (setMaxIt (j + 1))
      pure (.inr (x_new, f_new))
    else do
      let f_now ← quiet (callF o x_new args)
      let grad_new ← quiet (callDf o x_new args)
      quiet (bump 1 1)
      if ar.isClose0 (ar.dot grad_new grad_new) then do
        quiet (setMaxIt (j + 1))
        pure (.inr (x_new, f_now))
      else do
        let L' ← .lift (Scg.finish ar dim_x delta { L with
          x := x_new, f_now, f_old := f_new, grad_new, grad_old := L.grad_new, success := true
          count_success := L.count_success + 1 })
        pure (.inl L')
  else do
    quiet (record j L.f_old L.beta (ar.absSum L.grad_old))
    sayProgress display j L.f_old (ar.absSum L.grad_old)
    let L' ← .lift (Scg.finish ar dim_x delta { L with f_now := L.f_old, success := false })
    pure (.inl L')

/-- One iteration, `/repo/src/numerics/optim_scg.py:131-275`. -/
def Scg.pTurn (p : Scg S) (display : Bool) (dim_x j : ℕ) (L : ScgLoc S V) : ScgM (PWorld σ S) (ScgLoc S V ⊕ (V × S)) := do
  match ← quiet (Scg.directional ar o j L) with
  | .inr r => pure (.inr r)
  | .inl L => do
    let (beta, alpha) ← .lift (Scg.stepSize ar L)
    Scg.pMove ar o args p display dim_x j { L with beta } alpha

/-- `for j in range(self.nit)`, the warning and the return after it, `/repo/src/numerics/optim_scg.py:131,277-284`. -/
def Scg.pLoop (p : Scg S) (display : Bool) (dim_x : ℕ) : List ℕ → ScgLoc S V → ScgM (PWorld σ S) (V × S)
  | [], L => do
    say .exhausted
    pure (L.x, L.f_old)
  | j :: js, L => do
    match ← Scg.pTurn ar o args p display dim_x j L with
    | .inr r => pure r
    | .inl L => Scg.pLoop p display dim_x js L

/-- `__call__(x0, *args)`, `/repo/src/numerics/optim_scg.py:75-285`: result, object and shared state afterwards, and the printed lines. -/
def Scg.pCall (p : Scg S) (display : Bool) (x0 : V) (s : σ) : (Py (V × S) × Scg S × σ) × List (ScgLine S) :=
  let m : ScgM (PWorld σ S) (V × S) := do
    let f_now ← quiet (callF o x0 args)
    let grad_new ← quiet (callDf o x0 args)
    quiet (bump 1 1)
    Scg.pLoop ar o args p display (ar.size x0) (List.range p.nit) {
      x := x0, f_now, f_old := f_now, grad_new, grad_old := grad_new, d := ar.vneg grad_new
      success := true, count_success := 0, beta := ar.lit 1
      kappa := ar.lit 0, theta := ar.lit 0, mu := ar.lit 0 }
  let r := m { base := { st := s, stats := p.stats }, out := [] }
  ((r.1, { p with stats := r.2.base.stats }, r.2.base.st), r.2.out)

end

end VGPA
