import Verif.Model.Ieee
import Verif.Model.Process

/-!
# Time window and observation indices in double precision

The lines of `make_trajectory` and `collect_obs` that decide how many time points and observations there are, as in `Verif.Model.Process`, with the numbers
that Python has.
-/

namespace VGPA

noncomputable section

open Classical

namespace Flt

/-- `int(math.ceil(x))` in NumPy's length of `arange`: NaN, and what is outside the 64-bit integers, raise `ValueError`. -/
def ceilLen : Flt → Py ℤ
  | nan => .error .valueError
  | inf _ => .error .valueError
  | zero _ => .ok 0
  | num r _ => if 2 ^ 63 ≤ ⌈r⌉ ∨ ⌈r⌉ < -2 ^ 63 then .error .valueError else .ok ⌈r⌉

/-- Python's `int(x)`: `ValueError` for NaN, `OverflowError` for infinity, otherwise truncation towards zero. -/
def toInt : Flt → Py ℤ
  | nan => .error .valueError
  | inf _ => .error .overflowError
  | zero _ => .ok 0
  | num r _ => .ok (pyInt r)

/-- `int(np.floor(x))`. -/
def floorInt : Flt → Py ℤ
  | nan => .error .valueError
  | inf _ => .error .overflowError
  | zero _ => .ok 0
  | num r _ => .ok ⌊r⌋

/-- `x > c` for an integer `c`: Python compares with the exact integer. -/
def gtInt (x : Flt) (c : ℤ) : Bool := decide (x ≠ nan ∧ (((c : ℝ)) : EReal) < x.val)

end Flt

/-- `np.arange(start, stop, step)` for doubles, as in NumPy's `PyArray_ArangeObj` and `DOUBLE_fill`: the length is the ceiling of the rounded
quotient `(stop - start)/step` (one if a positive quotient underflows, none if a negative one does), the second entry is `start + step`, and entry `i` from the third on is
`start + i * delta` with the rounded difference `delta` of the first two. A zero step raises `ZeroDivisionError`.
Simplification: no fused multiply-add (some compilers use one on processors other than x86-64), and no limit of memory. -/
def arangeF (start stop step : Flt) : Py (List Flt) :=
  if step = .zero false ∨ step = .zero true then .error .zeroDivisionError
  else do
    let span := stop.sub start
    let v := span.div step
    let len ←
      if (∃ r h, span = .num r h) ∧ v = .zero false then pure 1
      else if (∃ r h, span = .num r h) ∧ v = .zero true then pure 0
      else v.ceilLen
    let second := start.add step
    let delta := second.sub start
    pure ((List.range len.toNat).map fun i : ℕ =>
      if i = 0 then start else if i = 1 then second else start.add ((Flt.lit i).mul delta))

/-- `tk` of `make_trajectory`, the same line in the four processes: `/repo/src/dynamics/double_well.py:133`, `ornstein_uhlenbeck.py:139`, `lorenz_63.py:188`,
`lorenz_96.py:264`. -/
def timeWindowF (t0 tf dt : Flt) : Py (List Flt) := arangeF t0 (tf.add dt) dt

/-- `time_step`, `/repo/src/dynamics/stochastic_process.py:103-118`, of a window. -/
def timeStepF (tk : List Flt) : Py Flt := do
  let t1 ← idx tk 1
  let t0 ← idx tk 0
  pure (t1.sub t0).abs

/-- `np.linspace(0, n, num, dtype=int)` without its first and last entry, for `n ≥ 1` and `num ≥ 2`, as in NumPy: `step = n / (num - 1)`, then
`floor(i * step + 0.0)`. -/
def linspaceF (n num : ℕ) : Py (List ℕ) := do
  let step := ((Flt.lit n).sub (.zero false)).div (Flt.lit ((num - 1 : ℕ) : ℚ))
  let l ← ((List.range (num - 2)).map (· + 1)).mapM fun i : ℕ => (((Flt.lit i).mul step).add (.zero false)).floorInt
  pure (l.map Int.toNat)

/-- The observation indices of `collect_obs`, `/repo/src/dynamics/stochastic_process.py:154-177`: the number `dim_m` and the list `obs_t`. The density is a Python
integer or float. See `obsIndices` for the exceptions. -/
def obsIndicesF (tk : List Flt) (n_obs : Flt) : Py (ℕ × List ℕ) := do
  let t1 ← idx tk 1
  let t0 ← idx tk 0
  let dt := t1.sub t0
  let cap ← ((Flt.lit 1).div dt).toInt
  if n_obs.gtInt cap then .error .valueError
  else do
    let dim_m ← (((t0.sub (tk.getLastD .nan)).abs).mul n_obs).floorInt
    if dim_m + 2 < 0 then .error .valueError
    else if dim_m ≤ 0 then .error .typeError
    else do
      let l ← linspaceF tk.length (dim_m.toNat + 2)
      pure (dim_m.toNat, npUnique l)

end

end VGPA
