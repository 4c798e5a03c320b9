import Verif.Model.Process
import Verif.Model.Numerics
import Verif.Model.GaussianMoments

/-!
# `DoubleWell`, `/repo/src/dynamics/double_well.py`, and `OrnsteinUhlenbeck`,
`/repo/src/dynamics/ornstein_uhlenbeck.py`

Methods that may raise after having changed the object return the pair (result, object as left behind).
-/

namespace VGPA

noncomputable section

/-- Elementwise array of length `n`. -/
def tab (n : ℕ) (f : ℕ → ℝ) : List ℝ := (List.range n).map f

/-- Entry `i` of an array (only used below the length). -/
def ent (l : List ℝ) (i : ℕ) : ℝ := l.getD i 0

/-- What `energy` returns for the one dimensional models:
`Esde, (Ef, Edf), (dEsde_dm, dEsde_ds, dEsde_dtheta, dEsde_dsigma)`. -/
structure Energy1 where
  Esde : ℝ
  Ef : List ℝ
  Edf : List ℝ
  dm : List ℝ
  ds : List ℝ
  dtheta : ℝ
  dsigma : ℝ

/-- Slots of `DoubleWell`, `/repo/src/dynamics/double_well.py:21`. -/
structure DW (G : Type) where
  base : Proc G ℝ
  sigma : ℝ
  theta : ℝ
  sig_inv : ℝ

namespace DW

variable {G : Type}

/-- `__init__`, `/repo/src/dynamics/double_well.py:23-52`. -/
def init (R : Rng G) (entropy : G) (sigma theta : ℝ) (r_seed : Option ℤ) : Py (DW G) := do
  let base ← Proc.init R entropy r_seed true
  if sigma ≤ 0.0 then .error .valueError
  else pure { base := base, sigma := sigma, sig_inv := 1.0 / sigma, theta := theta }

/-- `theta.setter`, `/repo/src/dynamics/double_well.py:64-74`. -/
def setTheta (o : DW G) (v : ℝ) : Py Unit × DW G := (.ok (), { o with theta := v })

/-- `sigma.setter`, `/repo/src/dynamics/double_well.py:86-106`. -/
def setSigma (o : DW G) (v : ℝ) : Py Unit × DW G :=
  if v ≤ 0.0 then (.error .valueError, o)
  else (.ok (), { o with sigma := v, sig_inv := 1.0 / v })

/-- Turn `t = k + 1` of the path loop, `/repo/src/dynamics/double_well.py:157-160`. -/
def pathStep (o : DW G) (dt : ℝ) (ek : List ℝ) (k : ℕ) (x : ℝ) : Py ℝ := do
  let e ← idx ek (k + 1)
  pure (x + 4.0 * x * (o.theta - x ^ 2) * dt + e)

/-- `make_trajectory(t0, tf, dt)`, `/repo/src/dynamics/double_well.py:118-167`.
`np.sqrt` of a negative number is `nan` in numpy: theorems ask for `dt > 0`. -/
def makeTrajectory (R : Rng G) (o : DW G) (t0 tf dt : ℝ) : Py Unit × DW G :=
  match arange t0 (tf + dt) dt with
  | .error e => (.error e, o)
  | .ok tk =>
    let dim_t := tk.length
    let u := R.random o.base.rng
    let start := if u.1 > 0.5 then o.theta else -o.theta
    if dim_t = 0 then (.error .indexError, { o with base := { o.base with rng := u.2 } })
    else
      let z := R.normal u.2
      let x0 := start + Real.sqrt (0.5 * o.sigma * dt) * z.1
      let zs := R.normals dim_t z.2
      let ek := zs.1.map fun v => Real.sqrt (o.sigma * dt) * v
      match fwdSweep dim_t x0 (o.pathStep dt ek) with
      | .error e => (.error e, { o with base := { o.base with rng := zs.2 } })
      | .ok x => (.ok (), { o with base := { o.base with xt := some x, tk := some tk, rng := zs.2 } })

/-- `energy(linear_a, offset_b, m, s, obs_t)`, `/repo/src/dynamics/double_well.py:169-260`.
Arrays must have equal lengths (`ValueError` otherwise; numpy's broadcasting of length-one arrays is not
modelled). -/
def energy (o : DW G) (linear_a offset_b m s : List ℝ) (obs_t : Option (List ℕ)) : Py Energy1 := do
  let gauss_mom ← GaussianMoments.init m s
  let dt ← o.base.timeStep
  let Ex2 ← gauss_mom.call 2
  let Ex3 ← gauss_mom.call 3
  let Ex4 ← gauss_mom.call 4
  let Ex6 ← gauss_mom.call 6
  if linear_a.length ≠ m.length ∨ offset_b.length ≠ m.length then .error .valueError
  else
    let n := m.length
    let c := tab n fun i => (4.0 * o.theta) + ent linear_a i
    let c2 := tab n fun i => ent c i ^ 2
    let var_q := tab n fun i =>
      8.0 * (ent Ex6 i - ent c i * ent Ex4 i + ent offset_b i * ent Ex3 i) + (ent c2 i * ent Ex2 i)
        - (2.0 * ent offset_b i * ent c i * ent m i) + (ent offset_b i ^ 2)
    let Esde := 0.5 * myTrapz var_q dt obs_t / o.sigma
    let Ef := tab n fun i => 4.0 * (o.theta * ent m i - ent Ex3 i)
    let Edf := tab n fun i => 4.0 * (o.theta - 3.0 * ent Ex2 i)
    let Dm2 ← gauss_mom.dm 2
    let Ds2 ← gauss_mom.ds 2
    let Dm3 ← gauss_mom.dm 3
    let Ds3 ← gauss_mom.ds 3
    let Dm4 ← gauss_mom.dm 4
    let Ds4 ← gauss_mom.ds 4
    let Dm6 ← gauss_mom.dm 6
    let Ds6 ← gauss_mom.ds 6
    let dEsde_dm := tab n fun i =>
      0.5 * (16.0 * ent Dm6 i - 8.0 * ent c i * ent Dm4 i + 8.0 * ent offset_b i * ent Dm3 i + ent c2 i * ent Dm2 i
        - 2.0 * ent offset_b i * ent c i) / o.sigma
    let dEsde_ds := tab n fun i =>
      0.5 * (16.0 * ent Ds6 i - 8.0 * ent c i * ent Ds4 i + 8.0 * ent offset_b i * ent Ds3 i
        + ent c2 i * ent Ds2 i) / o.sigma
    let dEsde_dtheta := 4.0 * myTrapz (tab n fun i => ent c i * ent Ex2 i - 4.0 * ent Ex4 i
      - ent offset_b i * ent m i) dt obs_t / o.sigma
    let dEsde_dsigma := -Esde / o.sigma
    pure { Esde := Esde, Ef := Ef, Edf := Edf, dm := dEsde_dm, ds := dEsde_ds, dtheta := dEsde_dtheta,
           dsigma := dEsde_dsigma }

end DW

/-- Slots of `OrnsteinUhlenbeck`, `/repo/src/dynamics/ornstein_uhlenbeck.py:15`. -/
structure OU (G : Type) where
  base : Proc G ℝ
  sigma : ℝ
  theta : ℝ
  sig_inv : ℝ

namespace OU

variable {G : Type}

/-- `__init__`, `/repo/src/dynamics/ornstein_uhlenbeck.py:17-51`. -/
def init (R : Rng G) (entropy : G) (sigma theta : ℝ) (r_seed : Option ℤ) : Py (OU G) := do
  let base ← Proc.init R entropy r_seed true
  if sigma ≤ 0.0 then .error .valueError
  else if theta ≤ 0.0 then .error .valueError
  else pure { base := base, sigma := sigma, theta := theta, sig_inv := 1.0 / sigma }

/-- `theta.setter`, `/repo/src/dynamics/ornstein_uhlenbeck.py:63-79`. -/
def setTheta (o : OU G) (v : ℝ) : Py Unit × OU G :=
  if v ≤ 0.0 then (.error .valueError, o) else (.ok (), { o with theta := v })

/-- `sigma.setter`, `/repo/src/dynamics/ornstein_uhlenbeck.py:91-110`. -/
def setSigma (o : OU G) (v : ℝ) : Py Unit × OU G :=
  if v ≤ 0.0 then (.error .valueError, o)
  else (.ok (), { o with sigma := v, sig_inv := 1.0 / v })

/-- Turn `t = k + 1` of the path loop, `/repo/src/dynamics/ornstein_uhlenbeck.py:153-156`. -/
def pathStep (o : OU G) (dt mu : ℝ) (ek : List ℝ) (k : ℕ) (x : ℝ) : Py ℝ := do
  let e ← idx ek (k + 1)
  pure (x + o.theta * (mu - x) * dt + e)

/-- `make_trajectory(t0, tf, dt, mu)`, `/repo/src/dynamics/ornstein_uhlenbeck.py:122-163`. -/
def makeTrajectory (R : Rng G) (o : OU G) (t0 tf dt mu : ℝ) : Py Unit × OU G :=
  match arange t0 (tf + dt) dt with
  | .error e => (.error e, o)
  | .ok tk =>
    let dim_t := tk.length
    if dim_t = 0 then (.error .indexError, o)
    else
      let zs := R.normals dim_t o.base.rng
      let ek := zs.1.map fun v => Real.sqrt (o.sigma * dt) * v
      match fwdSweep dim_t mu (o.pathStep dt mu ek) with
      | .error e => (.error e, { o with base := { o.base with rng := zs.2 } })
      | .ok x => (.ok (), { o with base := { o.base with xt := some x, tk := some tk, rng := zs.2 } })

/-- `energy(linear_a, offset_b, m, s, obs_t)`, `/repo/src/dynamics/ornstein_uhlenbeck.py:165-232`. -/
def energy (o : OU G) (linear_a offset_b m s : List ℝ) (obs_t : Option (List ℕ)) : Py Energy1 := do
  let gauss_moments ← GaussianMoments.init m s
  let dt ← o.base.timeStep
  let Ex2 ← gauss_moments.call 2
  if linear_a.length ≠ m.length ∨ offset_b.length ≠ m.length then .error .valueError
  else
    let n := m.length
    let Q1 := tab n fun i => (o.theta - ent linear_a i) ^ 2
    let Q2 := tab n fun i => ent linear_a i * ent offset_b i
    let var_q := tab n fun i =>
      ent Ex2 i * ent Q1 i + 2.0 * ent m i * (o.theta - ent linear_a i) * ent offset_b i + (ent offset_b i ^ 2)
    let Esde := 0.5 * myTrapz var_q dt obs_t / o.sigma
    let Ef := tab n fun i => -o.theta * ent m i
    let Edf := tab n fun _ => -o.theta * 1
    let dEsde_dm := tab n fun i =>
      (ent m i * (o.theta - ent linear_a i) ^ 2 + o.theta * ent offset_b i - ent Q2 i) / o.sigma
    let dEsde_dS := tab n fun i => 0.5 * ent Q1 i / o.sigma
    let dEsde_dth := myTrapz (tab n fun i =>
      ent Ex2 i * (o.theta - ent linear_a i) + ent m i * ent offset_b i) dt obs_t / o.sigma
    let dEsde_dSig := -Esde / o.sigma
    pure { Esde := Esde, Ef := Ef, Edf := Edf, dm := dEsde_dm, ds := dEsde_dS, dtheta := dEsde_dth,
           dsigma := dEsde_dSig }

end OU

end

end VGPA
