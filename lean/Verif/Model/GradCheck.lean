import Mathlib.Analysis.SpecialFunctions.Pow.NNReal
import Verif.Model.Scg
import Verif.Model.Numerics

/-!
# Model of the gradient checker of `/repo/src/numerics/optim_scg.py`
-/

namespace VGPA

/-- The lines that `check_gradient_function` prints. -/
inductive CheckLine
  /-- " GRAD_CHECK_STARTED: " -/
  | started
  /-- " > Calculating gradient(s) analytically ... done." -/
  | analytic
  /-- " > Calculating gradient(s) numerically  ... done." -/
  | numeric
  /-- " > Relative difference is: ...", `none` for `nan` -/
  | relative (r : Option ℝ)
  /-- " > Gradient test PASSED." -/
  | passed
  /-- " > Gradient test FAILED." -/
  | failed
  /-- " GRAD_CHECK_FINISHED:" -/
  | finished

/-- `np.linalg.norm` of a vector. -/
noncomputable def norm2 {n : ℕ} (v : Fin n → ℝ) : ℝ := Real.sqrt (∑ i, v i ^ 2)

/-- The objective as `finite_diff` calls it. -/
def Oracle.asFn {σ S V : Type} (o : Oracle σ Unit S V) : σ → V → Py (S × σ) := fun s x =>
  match o.f x () s with
  | (.ok v, s') => .ok (v, s')
  | (.error e, _) => .error e

open Classical in
/-- `check_gradient_function(x, tol)`, `/repo/src/numerics/optim_scg.py:297-344`: the printed lines. For an array without
entries `norm_diff / x.size` is `nan` and the test fails; the relative difference of two zero vectors is `nan`.
Simplifications: if one of the functions raises, the lines printed before are not recorded. -/
noncomputable def Scg.checkGradient {σ : Type} {n : ℕ} (o : Oracle σ Unit ℝ (Fin n → ℝ)) (x : Fin n → ℝ) (tol : ℝ) (s : σ) :
    Py (List CheckLine × σ) := do
  let (r, s) := o.dfEval x s
  let grad_a ← r
  let (grad_n, s) ← finiteDiff o.asFn s x
  let norm_a := norm2 grad_a
  let norm_n := norm2 grad_n
  let norm_diff := norm2 (grad_a - grad_n)
  let rel_diff := if norm_a + norm_n = 0 then none else some (norm_diff / (norm_a + norm_n))
  let outcome := if n ≠ 0 ∧ norm_diff / n ≤ tol then CheckLine.passed else CheckLine.failed
  pure ([.started, .analytic, .numeric, .relative rel_diff, outcome, .finished], s)

end VGPA
