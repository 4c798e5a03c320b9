import Verif.Model.GradCheck
import Verif.Model.HeapScg

/-!
# The gradient check with arrays as buffers

`finite_diff`, `/repo/src/numerics/utilities.py`, and `check_gradient_function`, `/repo/src/numerics/optim_scg.py`, once more, as programs on the heap of `Verif/Model/Heap.lean`. The function that is differentiated is an
arbitrary program: it may overwrite the array it gets, keep it, and overwrite it later.
-/

namespace VGPA

noncomputable section

namespace HScg

variable {σ A : Type} {n : ℕ}

/-- `a[i] = v` for an array of numbers. -/
def put {S : Type} (a : HArr) (i : ℕ) (v : ℝ) : ScgM (HWorld σ S) Unit := fun w =>
  (.ok (), { w with heap := w.heap.set a.loc (splice (w.heap.getD a.loc []) (a.off + i * a.w) [v]) })

/-- Body of the loop of `finite_diff`, `/repo/src/numerics/utilities.py:47-61`. `x + e` and `x - e` are new arrays, and the function gets them. -/
def fdTurn (o : HOracle σ A ℝ) (args : A) (x grad_n e : HArr) (i : Fin n) : ScgM (HWorld σ ℝ) Unit := do
  put e i deltaH
  let x_p ← mk ((← rd n x) + (← rd n e))
  let f_p ← callF o x_p args
  let x_m ← mk ((← rd n x) - (← rd n e))
  let f_m ← callF o x_m args
  put grad_n i (0.5 * (f_p - f_m) / deltaH)
  put e i 0

/-- The loop of `finite_diff`. -/
def fdLoop (o : HOracle σ A ℝ) (args : A) (x grad_n e : HArr) : List (Fin n) → ScgM (HWorld σ ℝ) Unit
  | [] => pure ()
  | i :: is => do
    fdTurn o args x grad_n e i
    fdLoop o args x grad_n e is

/-- `finite_diff(fun, x, *args)`, `/repo/src/numerics/utilities.py:15-66`, for an array of `n` numbers: `np.atleast_1d` returns the array it gets. Simplification: for a single parameter the array is returned, and not the number
in it. -/
def finiteDiff (n : ℕ) (o : HOracle σ A ℝ) (args : A) (x : HArr) : ScgM (HWorld σ ℝ) HArr := do
  let grad_n ← mk (n := n) 0
  let e ← mk (n := n) 0
  fdLoop o args x grad_n e (List.finRange n)
  pure grad_n

open Classical in
/-- `check_gradient_function(x, tol)`, `/repo/src/numerics/optim_scg.py:297-344`: the printed lines, with the simplification of `Scg.checkGradient`. Both functions get a copy of `x`; the array that the gradient function returns
is not copied, and its entries are read after `finite_diff` has finished. -/
def check (n : ℕ) (o : HOracle σ Unit ℝ) (x : HArr) (tol : ℝ) : ScgM (HWorld σ ℝ) (List CheckLine) := do
  let x_a ← mk (← rd n x)
  let grad_a ← callDfEval o x_a
  let x_n ← mk (← rd n x)
  let grad_n ← finiteDiff n o () x_n
  let norm_a := norm2 (← rd n grad_a)
  let norm_n := norm2 (← rd n grad_n)
  let norm_diff := norm2 ((← rd n grad_a) - (← rd n grad_n))
  let rel_diff := if norm_a + norm_n = 0 then none else some (norm_diff / (norm_a + norm_n))
  let outcome := if n ≠ 0 ∧ norm_diff / n ≤ tol then CheckLine.passed else CheckLine.failed
  pure [.started, .analytic, .numeric, .relative rel_diff, outcome, .finished]

end HScg

end

end VGPA
