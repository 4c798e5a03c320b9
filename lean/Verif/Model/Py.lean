import Mathlib.Data.Real.Basic
import Mathlib.Algebra.Module.Basic

/-!
# Python conventions used by the model

Errors as values, list indexing, buffer updates and the two "sweep" loops that all
integrators of the repository share.
-/

namespace VGPA

/-- The exception classes that the modelled code (or the numpy calls it makes) can raise. -/
inductive PyErr
  | valueError | indexError | keyError | runtimeError | typeError
  | notImplementedError | linAlgError | attributeError | zeroDivisionError
  | overflowError | unboundLocalError | fileNotFoundError | osError | jsonDecodeError
  deriving DecidableEq, Repr

/-- Result of a Python call: a value or a raised exception. -/
abbrev Py (α : Type*) := Except PyErr α

/-- `l[k]` for a non-negative index: `IndexError` past the end. -/
def idx {α : Type*} (l : List α) (k : ℕ) : Py α :=
  match l[k]? with
  | some x => .ok x
  | none => .error .indexError

/-- `l[k] = v` for a non-negative index: `IndexError` past the end. -/
def setIdx {α : Type*} (l : List α) (k : ℕ) (v : α) : Py (List α) :=
  if k < l.length then .ok (l.set k v) else .error .indexError

/-- `str.lower()`, restricted to ASCII letter case. -/
def pyLower (s : String) : String := String.ofList (s.toList.map Char.toLower)

/-- The forward loop shared by all `solve_fwd` methods
(`/repo/src/numerics/euler.py:46-91` and the same lines of the siblings):
`buf = np.zeros(n); buf[0] = x0; for k in range(n-1): buf[k+1] = step(k, buf[k])`.
The two arrays `mt` and `st` of the code are one buffer of pairs here. -/
def fwdSweep {X : Type} [Zero X] (n : ℕ) (x0 : X) (step : ℕ → X → Py X) : Py (List X) := do
  let buf ← setIdx (List.replicate n 0) 0 x0
  (List.range (n - 1)).foldlM (fun buf k => do
    let x ← idx buf k
    let y ← step k x
    setIdx buf (k + 1) y) buf

/-- The backward loop shared by all `solve_bwd` methods
(`/repo/src/numerics/euler.py:114-153` and siblings):
`buf = np.zeros(n); for t in range(n-1, 0, -1): buf[t-1] = step(t, buf[t])`. -/
def bwdSweep {X : Type} [Zero X] (n : ℕ) (step : ℕ → X → Py X) : Py (List X) :=
  ((List.range (n - 1)).map (· + 1)).reverse.foldlM (fun buf t => do
    let x ← idx buf t
    let y ← step t x
    setIdx buf (t - 1) y) (List.replicate n 0)

end VGPA
