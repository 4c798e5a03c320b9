import Verif.Model.Lorenz63
import Verif.Model.UT
import Mathlib.Logic.Equiv.Fin.Basic
import Mathlib.Data.Int.ModEq

/-!
# `Lorenz96`, `/repo/src/dynamics/lorenz_96.py`, and `grad_Esde_dm_ds`, `/repo/src/var_bayes/variational.py`

The forcing parameter `theta` is a number. The state dimension `dim_d` is the type parameter `d`.
-/

namespace VGPA

noncomputable section

open Matrix

/-- The index `(i - k) mod n`. -/
def rollIdx {n : ℕ} (k : ℤ) (i : Fin n) : Fin n :=
  ⟨(((i : ℤ) - k) % n).toNat, by
    have h0 : (0 : ℤ) < n := by have := i.2; omega
    have h1 := Int.emod_lt_of_pos ((i : ℤ) - k) h0
    have h2 := Int.emod_nonneg ((i : ℤ) - k) h0.ne'
    omega⟩

/-- `np.roll(x, k)` of a vector (`fwd_1`, `bwd_1`, `bwd_2`, `shift_vectors`,
`/repo/src/dynamics/lorenz_96.py:9-32`). -/
def npRoll {n : ℕ} {α : Type} (k : ℤ) (x : Fin n → α) : Fin n → α := fun i => x (rollIdx k i)

/-- `np.roll(x, k)` of a two dimensional array, without an `axis` argument: the array is flattened (row by row),
rolled, and given back its shape. -/
def npRoll2 {r c : ℕ} (k : ℤ) (X : Matrix (Fin r) (Fin c) ℝ) : Matrix (Fin r) (Fin c) ℝ :=
  Matrix.of fun i j =>
    let p := finProdFinEquiv.symm (rollIdx k (finProdFinEquiv (i, j)))
    X p.1 p.2

/-- `l96(x, u)` of a state vector, `/repo/src/dynamics/lorenz_96.py:85-101`. -/
def l96 {d : ℕ} (x : Fin d → ℝ) (u : ℝ) : Fin d → ℝ := fun i =>
  (npRoll (-1) x i - npRoll 2 x i) * npRoll 1 x i - x i + u

/-- `l96(x, u)` of an array of state vectors, the same code applied to a two dimensional array. -/
def l96Batch {r d : ℕ} (x : Matrix (Fin r) (Fin d) ℝ) (u : ℝ) : Matrix (Fin r) (Fin d) ℝ :=
  Matrix.of fun i j => (npRoll2 (-1) x i j - npRoll2 2 x i j) * npRoll2 1 x i j - x i j + u

/-- The rows of an array, as a matrix. -/
def rowsMat {d : ℕ} (x : List (Fin d → ℝ)) : Matrix (Fin x.length) (Fin d) ℝ := Matrix.of fun i => x.get i

/-- `E96_drift_dx(x)`, `/repo/src/dynamics/lorenz_96.py:34-83`. -/
def e96DriftDx {d : ℕ} (x : Fin d → ℝ) : Matrix (Fin d) (Fin d) ℝ :=
  Matrix.of fun k =>
    let fwd_1i := npRoll (-1) (id : Fin d → Fin d); let bwd_1i := npRoll 1 (id : Fin d → Fin d)
    let bwd_2i := npRoll 2 (id : Fin d → Fin d)
    let fwd_1x := npRoll (-1) x; let bwd_1x := npRoll 1 x; let bwd_2x := npRoll 2 x
    let Gx : Fin d → ℝ := 0
    let Gx := Function.update Gx k (-1)
    let Gx := Function.update Gx (fwd_1i k) (bwd_1x k)
    let Gx := Function.update Gx (bwd_2i k) (-bwd_1x k)
    let Gx := Function.update Gx (bwd_1i k) (fwd_1x k - bwd_2x k)
    Gx

/-- `E96_drift(mt, st)`, `/repo/src/dynamics/lorenz_96.py:440-462`. -/
def e96Drift {d : ℕ} (theta : ℝ) (mt : Fin d → ℝ) (st : Matrix (Fin d) (Fin d) ℝ) : Fin d → ℝ := fun i =>
  let fwd_1i := npRoll (-1) (id : Fin d → Fin d); let bwd_1i := npRoll 1 (id : Fin d → Fin d)
  let bwd_2i := npRoll 2 (id : Fin d → Fin d)
  let Cxx := st (fwd_1i i) (bwd_1i i) - st (bwd_2i i) (bwd_1i i)
  Cxx + (npRoll (-1) mt i - npRoll 2 mt i) * npRoll 1 mt i - mt i + theta

/-- `x_mat`, `/repo/src/var_bayes/variational.py:373`, and `fun_1`, `/repo/src/dynamics/lorenz_96.py:379-380`:
`(fun(x) + x.dot(at.T) - np.tile(bt, (dim_n, 1))) ** 2`. -/
def sqMismatch {r d : ℕ} (fx x : Matrix (Fin r) (Fin d) ℝ) (at_ : Matrix (Fin d) (Fin d) ℝ) (bt : Fin d → ℝ) :
    Matrix (Fin r) (Fin d) ℝ :=
  Matrix.of fun i j => ((fx + x * at_ᵀ) i j - bt j) ^ 2

/-- `grad_Esde_dm_ds(x, fun, mt, st, at, bt, diag_inv_sigma)`, `/repo/src/var_bayes/variational.py:339-400`.
The value of `fun(x)` is the argument `fx`. Each row of the result holds the `d` mean gradients and the `d * d`
covariance gradients in C order. In the loop `np.linalg.solve(st, zk)` is `st⁻¹ * zk`: `st` is not singular there,
because the first `solve` has succeeded. -/
def gradEsdeDmDs {r d : ℕ} (fx x : Matrix (Fin r) (Fin d) ℝ) (mt : Fin d → ℝ) (st at_ : Matrix (Fin d) (Fin d) ℝ)
    (bt diag_inv_sigma : Fin d → ℝ) : Py (Matrix (Fin r) (Fin (d + d * d)) ℝ) := do
  let x_mat := sqMismatch fx x at_ bt
  let var : Fin r → ℝ := diag_inv_sigma ᵥ* x_matᵀ
  let dmtT ← npSolve st (Matrix.of fun (j : Fin d) (k : Fin r) => var k * xᵀ j k)
  let inv ← cholInv st
  let inv_st := inv.1
  let dst : Matrix (Fin r) (Fin d × Fin d) ℝ := Matrix.of fun k p =>
    let zt := x k - mt
    let zk : Matrix (Fin d) (Fin d) ℝ := Matrix.of fun i j => zt i * zt j
    var k * (st⁻¹ * zk * inv_st) p.1 p.2
  pure (Matrix.of fun k => Fin.append (fun j => 0.5 * dmtT j k) (fun q => 0.5 * dst k (finProdFinEquiv.symm q)))

/-- A `Lorenz96` object. -/
abbrev L96 (G : Type) (d : ℕ) := LorenzObj G d ℝ

namespace L96

variable {G : Type} {d : ℕ}

open Classical in
/-- `__init__`, `/repo/src/dynamics/lorenz_96.py:113-180`. -/
def init (R : Rng G) (entropy : G) (sigma : NdArr) (theta : ℝ) (r_seed : Option ℤ) (d : ℕ) : Py (L96 G d) := do
  let base ← Proc.init R entropy r_seed false
  if d < 10 then .error .valueError
  else do
    let sig ← sigmaMatrix d sigma
    if ∀ z ∈ npEigvals sig, npGtZero z then do
      let inv ← cholInv sig
      pure { base := base, sigma := sig, theta := theta, sig_inv := inv.1 }
    else .error .runtimeError

/-- The default starting point of `make_trajectory`, `/repo/src/dynamics/lorenz_96.py:269-276`
(`int(dim_d / 2.0)` is below `dim_d` for every positive dimension). -/
def start (theta : ℝ) : Fin d → ℝ := fun i => theta * 1 + if (i : ℕ) = d / 2 then 1.0e-3 else 0

/-- `make_trajectory(t0, tf, dt)`, `/repo/src/dynamics/lorenz_96.py:249-314`. -/
def makeTrajectory (R : Rng G) (o : L96 G d) (t0 tf dt : ℝ) : Py Unit × L96 G d :=
  LorenzObj.makeTrajectory R o (fun x => l96 x o.theta) (start o.theta) t0 tf dt

/-- What turn `t` of the loop of `energy` stores. -/
structure Row (d : ℕ) where
  Esde : ℝ
  Efg : Fin d → ℝ
  Ef : Fin d → ℝ
  Edf : Matrix (Fin d) (Fin d) ℝ
  dm : Fin d → ℝ
  ds : Matrix (Fin d) (Fin d) ℝ
  dth : Fin d → ℝ

/-- `fun_1`, `/repo/src/dynamics/lorenz_96.py:379-380`, as called by `ut_approx`. -/
def fun1 (theta : ℝ) (at_ : Matrix (Fin d) (Fin d) ℝ) (bt : Fin d → ℝ) (x : List (Fin d → ℝ)) :
    Py (List (Fin d → ℝ)) :=
  .ok (List.ofFn (sqMismatch (l96Batch (rowsMat x) theta) (rowsMat x) at_ bt))

/-- `grad_Esde_dm_ds` with `fun_2`, `/repo/src/dynamics/lorenz_96.py:382,410-411`, as called by `ut_approx`. -/
def fun2 (theta : ℝ) (mt : Fin d → ℝ) (st at_ : Matrix (Fin d) (Fin d) ℝ) (bt diag_inv_sig : Fin d → ℝ)
    (x : List (Fin d → ℝ)) : Py (List (Fin (d + d * d) → ℝ)) := do
  let g ← gradEsdeDmDs (l96Batch (rowsMat x) theta) (rowsMat x) mt st at_ bt diag_inv_sig
  pure (List.ofFn g)

/-- Turn `t` of the loop of `energy`, `/repo/src/dynamics/lorenz_96.py:389-425`. -/
def energyRow (theta : ℝ) (diag_inv_sig : Fin d → ℝ) (linear_a : List (Matrix (Fin d) (Fin d) ℝ))
    (offset_b m : List (Fin d → ℝ)) (s : List (Matrix (Fin d) (Fin d) ℝ)) (t : ℕ) : Py (Row d) := do
  let at_ ← idx linear_a t
  let bt ← idx offset_b t
  let mt ← idx m t
  let st ← idx s t
  let u ← utApprox (fun1 theta at_ bt) mt st
  let m_bar := u.1
  let Esde := 0.5 * (diag_inv_sig ⬝ᵥ m_bar)
  let Ef := e96Drift theta mt st
  let Edf := e96DriftDx mt
  let w ← utApprox (fun2 theta mt st at_ bt diag_inv_sig) mt st
  let dmS := w.1
  let sm ← npSolve st (Matrix.of fun (i : Fin d) (_ : Fin 1) => mt i)
  let sI ← npSolve st (1 : Matrix (Fin d) (Fin d) ℝ)
  pure { Esde := Esde, Efg := m_bar, Ef := Ef, Edf := Edf
         dm := fun i => dmS (Fin.castAdd (d * d) i) - Esde * sm i 0
         ds := Matrix.of fun i j => 0.5 * (dmS (Fin.natAdd d (finProdFinEquiv (i, j))) - Esde * sI i j)
         dth := Ef + mt ᵥ* at_ᵀ - bt }

/-- `energy(linear_a, offset_b, m, s, obs_t)`, `/repo/src/dynamics/lorenz_96.py:316-438`. -/
def energy (o : L96 G d) (linear_a : List (Matrix (Fin d) (Fin d) ℝ)) (offset_b m : List (Fin d → ℝ))
    (s : List (Matrix (Fin d) (Fin d) ℝ)) (obs_t : Option (List ℕ)) : Py (EnergyN d) := do
  let tw ← o.base.timeWindow
  let dim_t := tw.length
  let dt ← o.base.timeStep
  let diag_inv_sig := o.sig_inv.diag
  let rows ← (List.range dim_t).mapM (energyRow o.theta diag_inv_sig linear_a offset_b m s)
  let dSig : Fin d → ℝ := myTrapz (rows.map Row.Efg) dt obs_t
  pure { Esde := myTrapz (rows.map Row.Esde) dt obs_t
         Ef := rows.map Row.Ef
         Edf := rows.map Row.Edf
         dm := rows.map Row.dm
         ds := rows.map Row.ds
         dtheta := diag_inv_sig * myTrapz (rows.map Row.dth) dt obs_t
         dsigma := (-0.5 : ℝ) • (o.sig_inv * Matrix.diagonal dSig * o.sig_inv) }

end L96

end

end VGPA
