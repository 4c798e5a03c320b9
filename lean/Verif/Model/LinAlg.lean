import Verif.Model.Py
import Mathlib.Analysis.SpecialFunctions.Log.Basic
import Mathlib.Analysis.Real.Sqrt
import Mathlib.LinearAlgebra.Matrix.NonsingularInverse
import Mathlib.Data.Matrix.Mul

/-!
# Dense linear algebra used by the repository

`numpy.linalg.cholesky`, `numpy.linalg.solve`, `numpy.linalg.inv`, `scipy.linalg.cholesky`, and the functions
`log_det`, `chol_inv` of `/repo/src/numerics/utilities.py`. The numpy/LAPACK routines are library code; they
are modelled by their documented algorithm in exact arithmetic.
-/

namespace VGPA

noncomputable section

open Matrix

/-- The (right-looking) Cholesky algorithm of LAPACK's `potrf('L')` in exact arithmetic. It reads only the
lower triangle of its argument, and fails when a pivot is not positive. -/
def chol : (n : ℕ) → Matrix (Fin n) (Fin n) ℝ → Option (Matrix (Fin n) (Fin n) ℝ)
  | 0, _ => some (Matrix.of fun i => i.elim0)
  | n + 1, M =>
    let a := M 0 0
    if a ≤ 0 then none
    else
      let r := Real.sqrt a
      let l : Fin n → ℝ := fun i => M i.succ 0 / r
      let S : Matrix (Fin n) (Fin n) ℝ := Matrix.of fun i j => M i.succ j.succ - l i * l j
      match chol n S with
      | none => none
      | some L => some (Matrix.of
          (Fin.cons (Fin.cons r (fun _ => 0)) (fun i => Fin.cons (l i) (L i)) : Fin (n + 1) → Fin (n + 1) → ℝ))

/-- `numpy.linalg.cholesky` (also under numba): the lower factor, `LinAlgError` on failure. -/
def npCholesky {n : ℕ} (M : Matrix (Fin n) (Fin n) ℝ) : Py (Matrix (Fin n) (Fin n) ℝ) :=
  match chol n M with
  | some L => .ok L
  | none => .error .linAlgError

/-- `scipy.linalg.cholesky` with its default `lower=False`: the upper factor computed from the upper
triangle, `LinAlgError` on failure. -/
def spCholesky {n : ℕ} (M : Matrix (Fin n) (Fin n) ℝ) : Py (Matrix (Fin n) (Fin n) ℝ) :=
  match chol n Mᵀ with
  | some L => .ok Lᵀ
  | none => .error .linAlgError

/-- `numpy.linalg.solve(a, b)` for square `a`: `LinAlgError` when `a` is singular. -/
def npSolve {n m : ℕ} (A : Matrix (Fin n) (Fin n) ℝ) (B : Matrix (Fin n) (Fin m) ℝ) :
    Py (Matrix (Fin n) (Fin m) ℝ) :=
  open Classical in if A.det = 0 then .error .linAlgError else .ok (A⁻¹ * B)

/-- `numpy.linalg.inv(a)`. -/
def npInv {n : ℕ} (A : Matrix (Fin n) (Fin n) ℝ) : Py (Matrix (Fin n) (Fin n) ℝ) :=
  open Classical in if A.det = 0 then .error .linAlgError else .ok A⁻¹

/-- A numpy array, with its contents when it has at most two axes. -/
inductive NdArr
  | scalar (x : ℝ)
  | vec (n : ℕ) (v : Fin n → ℝ)
  | mat (r c : ℕ) (M : Matrix (Fin r) (Fin c) ℝ)
  | high (shape : List ℕ)

/-- `log_det(x)`, `/repo/src/numerics/utilities.py:68-105`.
`np.log` of a non-positive scalar is `nan` or `-inf` in numpy; the model's value is then meaningless, and no
theorem refers to it (the diagonal of a Cholesky factor is always positive). With three or more axes the
unpacking of `x.shape` raises `ValueError`. -/
def logDet : NdArr → Py ℝ
  | .scalar x => .ok (Real.log x)
  | .vec _ v => do
    let L ← npCholesky (Matrix.diagonal v)
    pure (2.0 * ∑ i, Real.log (L i i))
  | .mat r c M =>
    if h : r ≠ c then .error .runtimeError
    else do
      let M' : Matrix (Fin r) (Fin r) ℝ := M.submatrix id (Fin.cast (not_not.1 h))
      let L ← npCholesky M'
      pure (2.0 * ∑ i, Real.log (L i i))
  | .high _ => .error .valueError

/-- `chol_inv_fast(x)`, `/repo/src/numerics/utilities.py:203-217`. -/
def cholInvFast {n : ℕ} (x : Matrix (Fin n) (Fin n) ℝ) :
    Py (Matrix (Fin n) (Fin n) ℝ × Matrix (Fin n) (Fin n) ℝ) := do
  let L ← npCholesky x
  let c_inv ← npSolve L (1 : Matrix (Fin n) (Fin n) ℝ)
  let x_inv := c_invᵀ * c_inv
  pure (x_inv, c_inv)

/-- `chol_inv(x)` for a square matrix, `/repo/src/numerics/utilities.py:219-237`. -/
def cholInv {n : ℕ} (x : Matrix (Fin n) (Fin n) ℝ) :
    Py (Matrix (Fin n) (Fin n) ℝ × Matrix (Fin n) (Fin n) ℝ) := cholInvFast x

/-- `chol_inv(x)` for a scalar, `/repo/src/numerics/utilities.py:233-234`
(meaningful for `x > 0` only: numpy returns `inf` or `nan` otherwise). -/
def cholInvScalar (x : ℝ) : ℝ × ℝ := (1.0 / x, 1.0 / Real.sqrt x)

end

end VGPA
