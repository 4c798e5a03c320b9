import Mathlib.LinearAlgebra.Matrix.NonsingularInverse
import Mathlib.Data.Real.Basic

/-!
`scipy.interpolate.CubicSpline(x, y)` with its default arguments (`bc_type='not-a-knot'`, extrapolation on), as
`/repo/src/var_bayes/variational.py:98-99,107-108` calls it and evaluates it on the time window. SciPy is not part of
`/repo`: this file follows `CubicSpline.__init__`, `CubicHermiteSpline.__init__` and `PPoly.__call__` of SciPy (`requirements.txt` names no
version). The checks of its input are in `Model/VarGP` (`cubicSpline`). Arithmetic is exact; `solve` and `solve_banded` are the
multiplication with the inverse matrix, `Props/Spline` proves that the matrix has one.

Knots and values are functions on `ℕ` of which the entries below `n` count, `x i` for `x[i]`.
-/

namespace VGPA
namespace Spline

/-- `dx = np.diff(x)`. -/
def dx (x : ℕ → ℝ) (i : ℕ) : ℝ := x (i + 1) - x i

/-- `slope = np.diff(y, axis=0) / dxr`. -/
noncomputable def slope (x y : ℕ → ℝ) (i : ℕ) : ℝ := (y (i + 1) - y i) / dx x i

/-- The entry `(i, j)` of the matrix of the system for the derivatives at the `n` knots. Two knots: both conditions at
the ends become `s[i] = slope[0]`. Three knots: the special case of a parabola. Otherwise the matrix that SciPy stores by
its diagonals, `A[1, 1:-1] = 2 * (dx[:-1] + dx[1:])`, `A[0, 2:] = dx[:-1]`, `A[-1, :-2] = dx[1:]`, and the two rows of the
not-a-knot condition. -/
def entry (n : ℕ) (x : ℕ → ℝ) (i j : ℕ) : ℝ :=
  if n = 2 then (if j = i then 1 else 0)
  else if i = 0 then
    if j = 0 then (if n = 3 then 1 else dx x 1)
    else if j = 1 then (if n = 3 then 1 else x 2 - x 0)
    else 0
  else if i = n - 1 then
    if j = n - 1 then (if n = 3 then 1 else dx x (n - 3))
    else if j = n - 2 then (if n = 3 then 1 else x (n - 1) - x (n - 3))
    else 0
  else if j = i - 1 then dx x i
  else if j = i then 2 * (dx x (i - 1) + dx x i)
  else if j = i + 1 then dx x (i - 1)
  else 0

/-- The right hand side `b` of that system. -/
noncomputable def rhs (n : ℕ) (x y : ℕ → ℝ) (i : ℕ) : ℝ :=
  if n = 2 then slope x y 0
  else if i = 0 then
    if n = 3 then 2 * slope x y 0
    else
      let d := x 2 - x 0
      ((dx x 0 + 2 * d) * dx x 1 * slope x y 0 + dx x 0 ^ 2 * slope x y 1) / d
  else if i = n - 1 then
    if n = 3 then 2 * slope x y 1
    else
      let d := x (n - 1) - x (n - 3)
      (dx x (n - 2) ^ 2 * slope x y (n - 3) + (2 * d + dx x (n - 2)) * dx x (n - 3) * slope x y (n - 2)) / d
  else 3 * (dx x i * slope x y (i - 1) + dx x (i - 1) * slope x y i)

/-- The matrix of the system. -/
def matrix (n : ℕ) (x : ℕ → ℝ) : Matrix (Fin n) (Fin n) ℝ := Matrix.of fun i j => entry n x i j

/-- `s = solve(A, b)` or `s = solve_banded((1, 1), A, b)`: the derivatives at the knots. -/
noncomputable def derivs (n : ℕ) (x y : ℕ → ℝ) (i : ℕ) : ℝ :=
  if h : i < n then ((matrix n x)⁻¹.mulVec fun k : Fin n => rhs n x y k) ⟨i, h⟩ else 0

/-- `t = (dydx[:-1] + dydx[1:] - 2 * slope) / dxr; c[0] = t / dxr`. -/
noncomputable def c0 (x y s : ℕ → ℝ) (i : ℕ) : ℝ := (s i + s (i + 1) - 2 * slope x y i) / dx x i / dx x i

/-- `c[1] = (slope - dydx[:-1]) / dxr - t`. -/
noncomputable def c1 (x y s : ℕ → ℝ) (i : ℕ) : ℝ :=
  (slope x y i - s i) / dx x i - (s i + s (i + 1) - 2 * slope x y i) / dx x i

/-- The polynomial of interval `i`; `c[2] = dydx[:-1]; c[3] = y[:-1]`. -/
noncomputable def piece (x y s : ℕ → ℝ) (i : ℕ) (t : ℝ) : ℝ :=
  c0 x y s i * (t - x i) ^ 3 + c1 x y s i * (t - x i) ^ 2 + s i * (t - x i) + y i

open Classical in
/-- The interval in which `PPoly` evaluates: `i` with `x[i] <= t < x[i+1]`, the first one left of the knots and the last
one right of them. SciPy finds it by bisection; here it is the number of inner knots that are not right of `t`. -/
noncomputable def interval (n : ℕ) (x : ℕ → ℝ) (t : ℝ) : ℕ := ((Finset.range (n - 2)).filter fun j => x (j + 1) ≤ t).card

/-- The curve: `CubicSpline(x, y)(t)`. -/
noncomputable def curve (n : ℕ) (x y : ℕ → ℝ) (t : ℝ) : ℝ := piece x y (derivs n x y) (interval n x t) t

end Spline

/-- `CubicSpline(xs, ys)(t)` for a list of numbers `ys`, `/repo/src/var_bayes/variational.py:98-99,101`. With fewer than two
points the constructor has raised (`cubicSpline`). -/
noncomputable def splineFit (xs ys : List ℝ) (t : ℝ) : ℝ :=
  if xs.length < 2 then 0 else Spline.curve xs.length (fun i => xs.getD i 0) (fun i => ys.getD i 0) t

/-- `CubicSpline(xs, ys)(t)` for an array `ys` with a row for each point, `/repo/src/var_bayes/variational.py:107-108`: SciPy solves
one system with a right hand side for each column. -/
noncomputable def splineFitN (d : ℕ) (xs : List ℝ) (ys : List (Fin d → ℝ)) (t : ℝ) : Fin d → ℝ := fun p =>
  splineFit xs (ys.map fun v => v p) t

end VGPA
