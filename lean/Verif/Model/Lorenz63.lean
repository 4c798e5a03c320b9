import Verif.Model.Process
import Verif.Model.Numerics
import Mathlib.LinearAlgebra.Matrix.Notation
import Mathlib.LinearAlgebra.Matrix.Charpoly.Basic
import Mathlib.Analysis.Complex.Polynomial.Basic

/-!
# `Lorenz63`, `/repo/src/dynamics/lorenz_63.py`

The drift vector `theta` has three components here (a vector of another length is accepted by the constructor and
makes every later use fail).
-/

namespace VGPA

noncomputable section

open Matrix

/-- `np.linalg.eigvals`: the complex eigenvalues, with multiplicity. -/
def npEigvals {n : ℕ} (M : Matrix (Fin n) (Fin n) ℝ) : Multiset ℂ := (M.map Complex.ofReal).charpoly.roots

/-- numpy's `z <= 0.0`: complex numbers are compared lexicographically. -/
def npLeZero (z : ℂ) : Prop := z.re < 0 ∨ (z.re = 0 ∧ z.im ≤ 0)

/-- numpy's `z > 0.0`. -/
def npGtZero (z : ℂ) : Prop := 0 < z.re ∨ (z.re = 0 ∧ 0 < z.im)

/-- The matrix that the constructors make of their `sigma` argument, `/repo/src/dynamics/lorenz_63.py:62-88` and
`/repo/src/dynamics/lorenz_96.py:131-167`. The arguments have been through `np.asarray`, so
`np.isscalar(sigma)` is false for every input and a number ends in the last branch. -/
def sigmaMatrix (d : ℕ) : NdArr → Py (Matrix (Fin d) (Fin d) ℝ)
  | .vec n v => if h : n = d then .ok (Matrix.diagonal fun i => v (Fin.cast h.symm i)) else .error .valueError
  | .mat r c M =>
    if h : r = d ∧ c = d then .ok (Matrix.of fun i j => M (Fin.cast h.1.symm i) (Fin.cast h.2.symm j))
    else .error .valueError
  | .scalar _ => .error .valueError
  | .high _ => .error .valueError

/-- The common shape of the Lorenz objects: `Lorenz63` has `d = 3` and `theta : Fin 3 → ℝ`, `Lorenz96` has
`theta : ℝ`. Slots of `/repo/src/dynamics/lorenz_63.py:44` and `/repo/src/dynamics/lorenz_96.py:111`. -/
structure LorenzObj (G : Type) (d : ℕ) (T : Type) where
  base : Proc G (Fin d → ℝ)
  sigma : Matrix (Fin d) (Fin d) ℝ
  theta : T
  sig_inv : Matrix (Fin d) (Fin d) ℝ

namespace LorenzObj

variable {G T : Type} {d : ℕ}

/-- `theta.setter`, `/repo/src/dynamics/lorenz_63.py:114-124`, `/repo/src/dynamics/lorenz_96.py:192-202`. -/
def setTheta (o : LorenzObj G d T) (v : T) : Py Unit × LorenzObj G d T := (.ok (), { o with theta := v })

open Classical in
/-- `sigma.setter`, `/repo/src/dynamics/lorenz_63.py:136-162`, `/repo/src/dynamics/lorenz_96.py:214-237`.
The new matrix is stored before `chol_inv` may raise. -/
def setSigma (o : LorenzObj G d T) (v : NdArr) : Py Unit × LorenzObj G d T :=
  match v with
  | .mat r c M =>
    if h : r = d ∧ c = d then
      let new_value : Matrix (Fin d) (Fin d) ℝ := Matrix.of fun i j => M (Fin.cast h.1.symm i) (Fin.cast h.2.symm j)
      if ∀ z ∈ npEigvals new_value, npLeZero z then (.error .runtimeError, o)
      else
        let o' := { o with sigma := new_value }
        match cholInv new_value with
        | .error e => (.error e, o')
        | .ok inv => (.ok (), { o' with sig_inv := inv.1 })
    else (.error .valueError, o)
  | _ => (.error .valueError, o)

/-- The noise factor of `make_trajectory`, `/repo/src/dynamics/lorenz_63.py:210-220`,
`/repo/src/dynamics/lorenz_96.py:289-299`. `np.eye(d) * sigma * dt` is elementwise. -/
def noiseFactor (sigma : Matrix (Fin d) (Fin d) ℝ) (dt : ℝ) : Matrix (Fin d) (Fin d) ℝ :=
  match spCholesky (dt • sigma) with
  | .ok U => U
  | .error _ => Matrix.of fun i j => Real.sqrt ((1 : Matrix (Fin d) (Fin d) ℝ) i j * sigma i j * dt)

/-- Row `t` of `ek.dot(standard_normal((d, dim_t))).T`. -/
def noiseRow (C : Matrix (Fin d) (Fin d) ℝ) (Z : Fin d → ℕ → ℝ) (t : ℕ) : Fin d → ℝ := C *ᵥ fun l => Z l t

/-- The burn-in loop, `/repo/src/dynamics/lorenz_63.py:199-202`, `/repo/src/dynamics/lorenz_96.py:278-281`. -/
def burnIn (drift : (Fin d → ℝ) → Fin d → ℝ) (x0 : Fin d → ℝ) : Fin d → ℝ :=
  (fun x => x + (1.0e-3 : ℝ) • drift x)^[5000] x0

/-- `make_trajectory(t0, tf, dt)` for a drift and a default starting point,
`/repo/src/dynamics/lorenz_63.py:174-235`, `/repo/src/dynamics/lorenz_96.py:249-314`. -/
def makeTrajectory (R : Rng G) (o : LorenzObj G d T) (drift : (Fin d → ℝ) → Fin d → ℝ) (x0 : Fin d → ℝ)
    (t0 tf dt : ℝ) : Py Unit × LorenzObj G d T :=
  match arange t0 (tf + dt) dt with
  | .error e => (.error e, o)
  | .ok tk =>
    let dim_t := tk.length
    if dim_t = 0 then (.error .indexError, o)
    else
      let C := noiseFactor o.sigma dt
      let Z := R.normalsMat d dim_t o.base.rng
      match fwdSweep dim_t (burnIn drift x0)
          (fun k x => pure (x + dt • drift x + noiseRow C Z.1 (k + 1))) with
      | .error e => (.error e, { o with base := { o.base with rng := Z.2 } })
      | .ok x => (.ok (), { o with base := { o.base with xt := some x, tk := some tk, rng := Z.2 } })

end LorenzObj

/-- What `energy` returns for the multivariate models:
`Esde, (Ef, Edf), (dEsde_dm, dEsde_ds, dEsde_dtheta, dEsde_dsigma)`. -/
structure EnergyN (d : ℕ) where
  Esde : ℝ
  Ef : List (Fin d → ℝ)
  Edf : List (Matrix (Fin d) (Fin d) ℝ)
  dm : List (Fin d → ℝ)
  ds : List (Matrix (Fin d) (Fin d) ℝ)
  dtheta : Fin d → ℝ
  dsigma : Matrix (Fin d) (Fin d) ℝ

/-- `l63(state, u)`, `/repo/src/dynamics/lorenz_63.py:8-34`. -/
def l63 (state u : Fin 3 → ℝ) : Fin 3 → ℝ :=
  let x := state 0; let y := state 1; let z := state 2
  let sigma := u 0; let rho := u 1; let beta := u 2
  ![sigma * (y - x), (rho - z) * x - y, x * y - beta * z]

/-- A `Lorenz63` object. -/
abbrev L63 (G : Type) := LorenzObj G 3 (Fin 3 → ℝ)

namespace L63

variable {G : Type}

open Classical in
/-- `__init__`, `/repo/src/dynamics/lorenz_63.py:46-102`. -/
def init (R : Rng G) (entropy : G) (sigma : NdArr) (theta : Fin 3 → ℝ) (r_seed : Option ℤ) : Py (L63 G) := do
  let base ← Proc.init R entropy r_seed false
  let sig ← sigmaMatrix 3 sigma
  if ∃ z ∈ npEigvals sig, npLeZero z then .error .runtimeError
  else do
    let inv ← cholInv sig
    pure { base := base, sigma := sig, theta := theta, sig_inv := inv.1 }

/-- `make_trajectory(t0, tf, dt)`, `/repo/src/dynamics/lorenz_63.py:174-235`. -/
def makeTrajectory (R : Rng G) (o : L63 G) (t0 tf dt : ℝ) : Py Unit × L63 G :=
  LorenzObj.makeTrajectory R o (fun x => l63 x o.theta) (fun _ => 1) t0 tf dt

/-- `energy_dm_ds(at, bt, mt, st, diag_sig_inv)`, `/repo/src/dynamics/lorenz_63.py:348-570`. -/
def energyDmDs (theta : Fin 3 → ℝ) (at_ : Matrix (Fin 3) (Fin 3) ℝ) (bt mt : Fin 3 → ℝ)
    (st : Matrix (Fin 3) (Fin 3) ℝ) (diag_sig_inv : Fin 3 → ℝ) :
    (Fin 3 → ℝ) × (Fin 3 → ℝ) × Matrix (Fin 3) (Fin 3) ℝ :=
  let vS := theta 0; let vR := theta 1; let vB := theta 2
  let A11 := at_ 0 0; let A12 := at_ 0 1; let A13 := at_ 0 2
  let A21 := at_ 1 0; let A22 := at_ 1 1; let A23 := at_ 1 2
  let A31 := at_ 2 0; let A32 := at_ 2 1; let A33 := at_ 2 2
  let b1 := bt 0; let b2 := bt 1; let b3 := bt 2
  let mx := mt 0; let my := mt 1; let mz := mt 2
  let Sxx := st 0 0; let Sxy := st 0 1; let Sxz := st 0 2
  let Syy := st 1 1; let Syz := st 1 2
  let Szz := st 2 2
  let Exx : ℝ := Sxx + mx ^ 2
  let Exy : ℝ := Sxy + mx * my
  let Exz : ℝ := Sxz + mx * mz
  let Eyy : ℝ := Syy + my ^ 2
  let Eyz : ℝ := Syz + my * mz
  let Ezz : ℝ := Szz + mz ^ 2
  let Exxy : ℝ := Sxx * my + 2 * Sxy * mx + (mx ^ 2) * my
  let Exxz : ℝ := Sxx * mz + 2 * Sxz * mx + (mx ^ 2) * mz
  let Exyy : ℝ := Syy * mx + 2 * Sxy * my + (my ^ 2) * mx
  let Exzz : ℝ := Szz * mx + 2 * Sxz * mz + (mz ^ 2) * mx
  let Exyz : ℝ := Sxy * mz + Sxz * my + Syz * mx + mx * my * mz
  let Exxyy : ℝ := Sxx * (my ^ 2 + Syy) + Syy * (mx ^ 2) + 4.0 * Sxy * mx * my + (mx * my) ^ 2 + 2 * (Sxy ^ 2)
  let Exxzz : ℝ := Sxx * (mz ^ 2 + Szz) + Szz * (mx ^ 2) + 4.0 * Sxz * mx * mz + (mx * mz) ^ 2 + 2 * (Sxz ^ 2)
  let EX : ℝ := (vS ^ 2) * (Eyy + Exx - 2 * Exy) + (A11 ^ 2) * Exx + (A12 ^ 2) * Eyy + (A13 ^ 2) * Ezz + b1 ^ 2
    + 2 * (A11 * A12 * Exy + A11 * A13 * Exz - b1 * A11 * mx + A12 * A13 * Eyz - b1 * A12 * my - b1 * A13 * mz +
    vS * (A11 * Exy + A12 * Eyy + A13 * Eyz - b1 * my - A11 * Exx - A12 * Exy - A13 * Exz + b1 * mx))
  let EY : ℝ := (vR ^ 2) * Exx + Eyy + Exxzz + (A21 ^ 2) * Exx + (A22 ^ 2) * Eyy + (A23 ^ 2) * Ezz + b2 ^ 2 + 2
    * (Exyz - A21 * Exy - A22 * Eyy - A23 * Eyz - A21 * Exxz - A22 * Exyz - A23 * Exzz + A21 * A22 * Exy + A21 *
    A23 * Exz + A22 * A23 * Eyz - vR * (Exy + Exxz - A21 * Exx - A22 * Exy - A23 * Exz) - b2 * (vR * mx - my -
    Exz + A21 * mx + A22 * my + A23 * mz))
  let EZ : ℝ := Exxyy + (vB ^ 2) * Ezz + (A31 ^ 2) * Exx + (A32 ^ 2) * Eyy + (A33 ^ 2) * Ezz + b3 ^ 2 + 2 * (A31
    * Exxy + A32 * Exyy + A33 * Exyz + A31 * A32 * Exy + A31 * A33 * Exz + A32 * A33 * Eyz - vB * (Exyz + A31 *
    Exz + A32 * Eyz + A33 * Ezz) - b3 * (Exy - vB * mz + A31 * mx + A32 * my + A33 * mz))
  let Efg : Fin 3 → ℝ := ![EX, EY, EZ]
  let dExx_dmx : ℝ := 2.0 * mx
  let dExy_dmx : ℝ := my
  let dExz_dmx : ℝ := mz
  let dEyy_dmy : ℝ := 2.0 * my
  let dExy_dmy : ℝ := mx
  let dEyz_dmy : ℝ := mz
  let dEzz_dmz : ℝ := 2.0 * mz
  let dExz_dmz : ℝ := mx
  let dEyz_dmz : ℝ := my
  let dExx_dSxx : ℝ := 1
  let dEyy_dSyy : ℝ := 1
  let dEzz_dSzz : ℝ := 1
  let dExy_dSxy : ℝ := 1
  let dExz_dSxz : ℝ := 1
  let dEyz_dSyz : ℝ := 1
  let dExxy_dmx : ℝ := 2.0 * Exy
  let dExxz_dmx : ℝ := 2.0 * Exz
  let dExyy_dmx : ℝ := Eyy
  let dExzz_dmx : ℝ := Ezz
  let dExyz_dmx : ℝ := Eyz
  let dExxy_dmy : ℝ := Exx
  let dExyy_dmy : ℝ := 2.0 * Exy
  let dExyz_dmy : ℝ := Exz
  let dExxz_dmz : ℝ := Exx
  let dExzz_dmz : ℝ := 2.0 * Exz
  let dExyz_dmz : ℝ := Exy
  let dExxy_dSxx : ℝ := my
  let dExxz_dSxx : ℝ := mz
  let dExxy_dSxy : ℝ := 2.0 * mx
  let dExyy_dSxy : ℝ := 2.0 * my
  let dExyz_dSxy : ℝ := mz
  let dExzz_dSxz : ℝ := 2.0 * mz
  let dExyz_dSxz : ℝ := my
  let dExxz_dSxz : ℝ := 2.0 * mx
  let dExyy_dSyy : ℝ := mx
  let dExyz_dSyz : ℝ := mx
  let dExzz_dSzz : ℝ := mx
  let dExxyy_dmx : ℝ := 2.0 * Exyy
  let dExxzz_dmx : ℝ := 2.0 * Exzz
  let dExxyy_dmy : ℝ := 2.0 * Exxy
  let dExxzz_dmz : ℝ := 2.0 * Exxz
  let dExxyy_dSxx : ℝ := Eyy
  let dExxzz_dSxx : ℝ := Ezz
  let dExxyy_dSxy : ℝ := 4.0 * Exy
  let dExxzz_dSxz : ℝ := 4.0 * Exz
  let dExxyy_dSyy : ℝ := Exx
  let dExxzz_dSzz : ℝ := Exx
  let dmx1 : ℝ := dExx_dmx * (vS ^ 2 + A11 ^ 2) + 2 * (dExy_dmx * (-vS ^ 2 + vS * A11 - vS * A12 + A11 * A12) +
    dExz_dmx * (A11 - vS) * A13 - vS * A11 * dExx_dmx + b1 * (vS - A11))
  let dmx2 : ℝ := dExxzz_dmx + dExx_dmx * (vR ^ 2 + A21 ^ 2) + 2 * (dExy_dmx * (-vR + vR * A22 - A21 + A21 *
    A22) + dExz_dmx * (vR * A23 + b2 + A21 * A23) + dExyz_dmx * (1 - A22) - vR * dExxz_dmx + vR * A21 * dExx_dmx
    - A21 * dExxz_dmx - A23 * dExzz_dmx - b2 * (vR + A21))
  let dmx3 : ℝ := dExxyy_dmx + (A31 ^ 2) * dExx_dmx + 2 * (dExy_dmx * (A31 * A32 - b3) + dExz_dmx * (A33 - vB) *
    A31 + dExyz_dmx * (A33 - vB) + A31 * dExxy_dmx + A32 * dExyy_dmx - A31 * b3)
  let dmy1 : ℝ := dEyy_dmy * (vS ^ 2 + A12 ^ 2) + 2 * (dExy_dmy * (-(vS ^ 2) + vS * A11 - vS * A12 + A11 * A12)
    + dEyz_dmy * (vS + A12) * A13 + vS * A12 * dEyy_dmy - b1 * (vS + A12))
  let dmy2 : ℝ := dEyy_dmy * (1 + A22 ^ 2) + 2 * (dExy_dmy * (-vR + vR * A22 - A21 + A21 * A22) + dExyz_dmy * (1
    - A22) - A22 * dEyy_dmy + dEyz_dmy * (A22 * A23 - A23) + b2 * (1 - A22))
  let dmy3 : ℝ := dExxyy_dmy + (A32 ^ 2) * dEyy_dmy + 2 * (dExyz_dmy * (A33 - vB) + A31 * dExxy_dmy + A32 *
    dExyy_dmy + dExy_dmy * (A31 * A32 - b3) + dEyz_dmy * (A33 - vB) * A32 - A32 * b3)
  let dmz1 : ℝ := (A13 ^ 2) * dEzz_dmz + 2 * (dEyz_dmz * (vS + A12) + dExz_dmz * (A11 - vS) - b1) * A13
  let dmz2 : ℝ := dExxzz_dmz + (A23 ^ 2) * dEzz_dmz + 2 * (dExxz_dmz * (-vR - A21) + dExz_dmz * (vR * A23 + b2 +
    A21 * A23) + dExyz_dmz * (1 - A22) + dEyz_dmz * (A22 * A23 - A23) - A23 * (dExzz_dmz + b2))
  let dmz3 : ℝ := dEzz_dmz * (vB ^ 2 + A33 ^ 2) + 2 * ((A33 - vB) * (dExyz_dmz + dExz_dmz * A31 + dEyz_dmz * A32
    - b3) - vB * A33 * dEzz_dmz)
  let dEsde_dm : Fin 3 → ℝ := (0.5 : ℝ) • (!![dmx1, dmx2, dmx3; dmy1, dmy2, dmy3; dmz1, dmz2, dmz3] *ᵥ diag_sig_inv)
  let iSx := diag_sig_inv 0; let iSy := diag_sig_inv 1; let iSz := diag_sig_inv 2
  let dSxx : ℝ := iSx * ((vS - A11) ^ 2) * dExx_dSxx + iSy * (dExxzz_dSxx + dExx_dSxx * ((vR + A21) ^ 2) - 2 *
    dExxz_dSxx * (vR + A21)) + iSz * (dExxyy_dSxx + (A31 ^ 2) * dExx_dSxx + 2 * A31 * dExxy_dSxx)
  let dSxy : ℝ := iSx * 2 * (vS * A11 - vS ^ 2 - vS * A12 + A11 * A12) * dExy_dSxy + iSy * 2 * (dExy_dSxy * (vR
    * A22 - vR - A21 + A21 * A22) + dExyz_dSxy * (1 - A22)) + iSz * (dExxyy_dSxy + 2 * (dExyz_dSxy * (A33 - vB)
    + A31 * dExxy_dSxy + A32 * dExyy_dSxy + dExy_dSxy * (A31 * A32 - b3)))
  let dSxz : ℝ := iSx * 2 * (A11 - vS) * A13 * dExz_dSxz + iSy * (dExxzz_dSxz + 2 * (dExz_dSxz * (vR * A23 + b2
    + A21 * A23) + dExyz_dSxz * (1 - A22) - dExxz_dSxz * (vR + A21) - A23 * dExzz_dSxz)) + iSz * 2 * (dExz_dSxz
    * (A33 - vB) * A31 + dExyz_dSxz * (A33 - vB))
  let dSyy : ℝ := iSx * ((vS + A12) ^ 2) * dEyy_dSyy + iSy * ((1 - A22) ^ 2) * dEyy_dSyy + iSz * (dExxyy_dSyy +
    (A32 ^ 2) * dEyy_dSyy + 2 * A32 * dExyy_dSyy)
  let dSyz : ℝ := iSx * 2 * (vS + A12) * A13 * dEyz_dSyz + iSy * 2 * (dExyz_dSyz * (1 - A22) + dEyz_dSyz * (A22
    - 1) * A23) + iSz * 2 * (dExyz_dSyz * (A33 - vB) + dEyz_dSyz * (A33 - vB) * A32)
  let dSzz : ℝ := iSx * (A13 ^ 2) * dEzz_dSzz + iSy * (dExxzz_dSzz + (A23 ^ 2) * dEzz_dSzz - 2 * A23 *
    dExzz_dSzz) + iSz * ((vB - A33) ^ 2) * dEzz_dSzz
  let dEsde_ds : Matrix (Fin 3) (Fin 3) ℝ := (0.5 : ℝ) • !![dSxx, dSxy, dSxz; dSxy, dSyy, dSyz; dSxz, dSyz, dSzz]
  (Efg, dEsde_dm, dEsde_ds)

/-- `Efg_drift_theta(at, bt, mt, st)`, `/repo/src/dynamics/lorenz_63.py:572-633`. -/
def efgDriftTheta (theta : Fin 3 → ℝ) (at_ : Matrix (Fin 3) (Fin 3) ℝ) (bt mt : Fin 3 → ℝ)
    (st : Matrix (Fin 3) (Fin 3) ℝ) : Fin 3 → ℝ :=
  let vS := theta 0; let vR := theta 1; let vB := theta 2
  let A11 := at_ 0 0; let A12 := at_ 0 1; let A13 := at_ 0 2
  let A21 := at_ 1 0; let A22 := at_ 1 1; let A23 := at_ 1 2
  let A31 := at_ 2 0; let A32 := at_ 2 1; let A33 := at_ 2 2
  let b1 := bt 0; let b2 := bt 1; let b3 := bt 2
  let mx := mt 0; let my := mt 1; let mz := mt 2
  let Sxx := st 0 0; let Sxy := st 0 1; let Sxz := st 0 2
  let Syy := st 1 1; let Syz := st 1 2
  let Szz := st 2 2
  let Exx : ℝ := Sxx + mx ^ 2
  let Exy : ℝ := Sxy + mx * my
  let Eyy : ℝ := Syy + my ^ 2
  let Exz : ℝ := Sxz + mx * mz
  let Ezz : ℝ := Szz + mz ^ 2
  let Eyz : ℝ := Syz + my * mz
  let Exxz : ℝ := Sxx * mz + 2 * Sxz * mx + (mx ^ 2) * mz
  let Exyz : ℝ := Sxy * mz + Sxz * my + Syz * mx + mx * my * mz
  let V1 : ℝ := Eyy * (vS + A12) + Exx * (vS - A11) + Exy * (A11 - 2 * vS - A12) + A13 * (Eyz - Exz) + b1 * (mx
    - my)
  let V2 : ℝ := vR * Exx - Exy - Exxz + A21 * Exx + A22 * Exy + A23 * Exz - b2 * mx
  let V3 : ℝ := -Exyz + vB * Ezz - A31 * Exz - A32 * Eyz - A33 * Ezz + b3 * mz
  ![V1, V2, V3]

/-- The average drift and average Jacobian of the loop of `energy`, `/repo/src/dynamics/lorenz_63.py:318-326`. -/
def avgDrift (theta mt : Fin 3 → ℝ) (st : Matrix (Fin 3) (Fin 3) ℝ) : Fin 3 → ℝ :=
  let v_sigma := theta 0; let v_rho := theta 1; let v_beta := theta 2
  ![v_sigma * (mt 1 - mt 0),
    v_rho * mt 0 - mt 1 - st 2 0 - mt 0 * mt 2,
    st 1 0 + mt 0 * mt 1 - v_beta * mt 2]

/-- See `avgDrift`. -/
def avgJac (theta mt : Fin 3 → ℝ) : Matrix (Fin 3) (Fin 3) ℝ :=
  let v_sigma := theta 0; let v_rho := theta 1; let v_beta := theta 2
  !![-v_sigma, v_sigma, 0; v_rho - mt 2, -1, -mt 0; mt 1, mt 0, -v_beta]

/-- What turn `t` of the loop of `energy` stores. -/
structure Row where
  Esde : ℝ
  Efg : Fin 3 → ℝ
  Ef : Fin 3 → ℝ
  Edf : Matrix (Fin 3) (Fin 3) ℝ
  dm : Fin 3 → ℝ
  ds : Matrix (Fin 3) (Fin 3) ℝ
  dth : Fin 3 → ℝ

/-- Turn `t` of the loop of `energy`, `/repo/src/dynamics/lorenz_63.py:298-333`. -/
def energyRow (theta diag_sig_inv : Fin 3 → ℝ) (linear_a : List (Matrix (Fin 3) (Fin 3) ℝ))
    (offset_b m : List (Fin 3 → ℝ)) (s : List (Matrix (Fin 3) (Fin 3) ℝ)) (t : ℕ) : Py Row := do
  let at_ ← idx linear_a t
  let bt ← idx offset_b t
  let mt ← idx m t
  let st ← idx s t
  let r := energyDmDs theta at_ bt mt st diag_sig_inv
  pure { Esde := 0.5 * (diag_sig_inv ⬝ᵥ r.1), Efg := r.1, dm := r.2.1, ds := r.2.2,
         Ef := avgDrift theta mt st, Edf := avgJac theta mt, dth := efgDriftTheta theta at_ bt mt st }

/-- `energy(linear_a, offset_b, m, s, obs_t)`, `/repo/src/dynamics/lorenz_63.py:237-346`. -/
def energy (o : L63 G) (linear_a : List (Matrix (Fin 3) (Fin 3) ℝ)) (offset_b m : List (Fin 3 → ℝ))
    (s : List (Matrix (Fin 3) (Fin 3) ℝ)) (obs_t : Option (List ℕ)) : Py (EnergyN 3) := do
  let tw ← o.base.timeWindow
  let dim_t := tw.length
  let dt ← o.base.timeStep
  let diag_sig_inv := o.sig_inv.diag
  let rows ← (List.range dim_t).mapM (energyRow o.theta diag_sig_inv linear_a offset_b m s)
  let dSig : Fin 3 → ℝ := myTrapz (rows.map Row.Efg) dt obs_t
  pure { Esde := myTrapz (rows.map Row.Esde) dt obs_t
         Ef := rows.map Row.Ef
         Edf := rows.map Row.Edf
         dm := rows.map Row.dm
         ds := rows.map Row.ds
         dtheta := diag_sig_inv * myTrapz (rows.map Row.dth) dt obs_t
         dsigma := (-0.5 : ℝ) • (o.sig_inv * Matrix.diagonal dSig * o.sig_inv) }

end L63

end

end VGPA
