import Verif.Model.Py
import Mathlib.Algebra.Module.Basic
import Mathlib.Data.Real.Basic
import Mathlib.Analysis.SpecialFunctions.Log.Basic
import Mathlib.Data.Fin.Tuple.Basic

/-!
# `/repo/src/numerics/utilities.py`: integration, finite differences, `safe_log`
-/

namespace VGPA

noncomputable section

/-- `scipy.integrate.trapezoid(y, dx=dx, axis=0)`: the sum over adjacent pairs of
`dx * (y[i] + y[i+1]) / 2`; zero for fewer than two samples.
The entries may be scalars, vectors or matrices (any real vector space). -/
def trapezoid {V : Type} [AddCommGroup V] [Module ℝ V] (dx : ℝ) (y : List V) : V :=
  (List.zipWith (fun p q => (dx / 2) • (q + p)) y.dropLast y.tail).sum

/-- Python slice `fx[f:t]` for `0 <= f`, `0 <= t`: clamps at the end. -/
def slice {V : Type} (fx : List V) (f t : ℕ) : List V := (fx.drop f).take (t - f)

/-- `my_trapz(fx, dx, obs_t)`, `/repo/src/numerics/utilities.py:144-201`.
Observation indices are natural numbers (Python's negative indices are not modelled). -/
def myTrapz {V : Type} [AddCommGroup V] [Module ℝ V] (fx : List V) (dx : ℝ) (obs_t : Option (List ℕ)) : V :=
  match obs_t with
  | none => trapezoid dx fx
  | some obs =>
    let (tot_area, f) := obs.foldl
      (fun (acc : V × ℕ) l => (acc.1 + trapezoid dx (slice fx acc.2 (l + 1)), l)) (0, 0)
    if (f : ℤ) ≠ (fx.length : ℤ) - 1 then tot_area + trapezoid dx (fx.drop f) else tot_area

/-- Step size of `finite_diff`, `/repo/src/numerics/utilities.py:41`. -/
def deltaH : ℝ := 1.0e-6

/-- Body of the loop of `finite_diff`, `/repo/src/numerics/utilities.py:47-61`. The perturbation vector `e`
is one mutable array: it is switched on and off, so it is part of the loop state. -/
def fdBody {S : Type} {n : ℕ} (fn : S → (Fin n → ℝ) → Py (ℝ × S)) (x : Fin n → ℝ)
    (acc : (Fin n → ℝ) × (Fin n → ℝ) × S) (i : Fin n) : Py ((Fin n → ℝ) × (Fin n → ℝ) × S) := do
  let e := Function.update acc.2.1 i deltaH
  let r ← fn acc.2.2 (x + e)
  let r' ← fn r.2 (x - e)
  pure (Function.update acc.1 i (0.5 * (r.1 - r'.1) / deltaH), Function.update e i 0, r'.2)

/-- `finite_diff(fun, x)`, `/repo/src/numerics/utilities.py:15-66`. The callable may raise and may
carry state `S` (Python callables can).
Simplifications: `*args` are part of the callable; for a single parameter the code returns the bare number
`grad_n[0]` instead of a one-element array, here the vector is returned in both cases. -/
def finiteDiff {S : Type} {n : ℕ} (fn : S → (Fin n → ℝ) → Py (ℝ × S)) (s : S) (x : Fin n → ℝ) :
    Py ((Fin n → ℝ) × S) := do
  let r ← (List.finRange n).foldlM (fdBody fn x) (0, 0, s)
  pure (r.1, r.2.2)

/-- `safe_log(x)` on one entry, `/repo/src/numerics/utilities.py:107-142`. -/
def safeLog (x : ℝ) : ℝ := Real.log (max (min x (10 ^ 300)) (1 / 10 ^ 300))

end

end VGPA
