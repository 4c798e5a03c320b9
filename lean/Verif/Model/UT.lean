import Verif.Model.LinAlg
import Mathlib.Data.Fin.Tuple.Basic

/-!
# The unscented transformation, `/repo/src/numerics/utilities.py:239-310`

The `2 d + 1` sigma points are indexed by `Fin (d + d + 1)`. The callable `fun` receives the list of all sigma
points (the rows of `chi`) and returns a list of rows; a wrong number of rows makes `weights.dot(y)` raise
`ValueError`. The state dimension is at least one in all theorems (for `d = 0` the code divides by zero).
-/

namespace VGPA

noncomputable section

open Matrix

/-- `k = 1.05 * dim_d`, `/repo/src/numerics/utilities.py:270`. -/
def utK (d : ℕ) : ℝ := 1.05 * (d : ℝ)

/-- `sPxx`, `/repo/src/numerics/utilities.py:273-279`. The product `x_cov * np.eye(dim_d)` is elementwise. -/
def utSqrt {d : ℕ} (x_cov : Matrix (Fin d) (Fin d) ℝ) : Py (Matrix (Fin d) (Fin d) ℝ) :=
  match npCholesky (((d : ℝ) + utK d) • x_cov) with
  | .ok L => .ok Lᵀ
  | .error .linAlgError => do
    let L ← npCholesky (Matrix.of fun i j => x_cov i j * (1 : Matrix (Fin d) (Fin d) ℝ) i j)
    pure Lᵀ
  | .error e => .error e

/-- `chi`, `/repo/src/numerics/utilities.py:282-288`: the mean, then the mean plus, then minus, the rows of
`sPxx`. -/
def utChi {d : ℕ} (x_bar : Fin d → ℝ) (sPxx : Matrix (Fin d) (Fin d) ℝ) : Fin (d + d + 1) → Fin d → ℝ :=
  Fin.cons x_bar (Fin.append (fun i => x_bar + sPxx i) (fun i => x_bar - sPxx i))

/-- `weights`, `/repo/src/numerics/utilities.py:290-292`. -/
def utWeights (d : ℕ) : Fin (d + d + 1) → ℝ :=
  Fin.cons (utK d / ((d : ℝ) + utK d)) (fun _ => 1.0 / (2.0 * ((d : ℝ) + utK d)))

/-- `Q`, `/repo/src/numerics/utilities.py:301-303`:
`w_m = eye - tile(weights, (dim_m, 1))`, `Q = w_m diag(weights) w_m.T`. -/
def utQ (d : ℕ) : Matrix (Fin (d + d + 1)) (Fin (d + d + 1)) ℝ :=
  let w_m : Matrix (Fin (d + d + 1)) (Fin (d + d + 1)) ℝ := 1 - Matrix.of (fun _ j => utWeights d j)
  w_m * Matrix.diagonal (utWeights d) * w_mᵀ

/-- `ut_approx(fun, x_bar, x_cov)`, `/repo/src/numerics/utilities.py:239-310`. -/
def utApprox {d k : ℕ} (f : List (Fin d → ℝ) → Py (List (Fin k → ℝ))) (x_bar : Fin d → ℝ)
    (x_cov : Matrix (Fin d) (Fin d) ℝ) : Py ((Fin k → ℝ) × Matrix (Fin k) (Fin k) ℝ) := do
  let sPxx ← utSqrt x_cov
  let y ← f (List.ofFn (utChi x_bar sPxx))
  if h : y.length = d + d + 1 then
    let Y : Matrix (Fin (d + d + 1)) (Fin k) ℝ := Matrix.of fun i => y.get (i.cast h.symm)
    let y_bar := utWeights d ᵥ* Y
    let y_cov := Yᵀ * utQ d * Y
    pure (y_bar, y_cov)
  else .error .valueError

end

end VGPA
