import Verif.Model.Py
import Verif.Model.LinAlg
import Mathlib.Analysis.Real.Sqrt
import Mathlib.Algebra.Order.Floor.Ring
import Mathlib.Algebra.Order.Archimedean.Real.Basic

/-!
# `StochasticProcess`, `/repo/src/dynamics/stochastic_process.py`

Random numbers come from an abstract generator: a state machine `G` with a seeding function and two draw
functions. Array draws are repeated scalar draws, in C order, as numpy makes them.
-/

namespace VGPA

noncomputable section

/-- The generator interface used by the code: `default_rng(SeedSequence(seed))`, `random()`,
`standard_normal()`. -/
structure Rng (G : Type) where
  seed : ℤ → G
  random : G → ℝ × G
  normal : G → ℝ × G

/-- `rng.standard_normal(n)`. -/
def Rng.normals {G : Type} (R : Rng G) : ℕ → G → List ℝ × G
  | 0, g => ([], g)
  | n + 1, g =>
    let r := R.normal g
    let rest := R.normals n r.2
    (r.1 :: rest.1, rest.2)

/-- `rng.standard_normal((r, c))`: entry `(i, j)` is draw number `i * c + j`. -/
def Rng.normalsMat {G : Type} (R : Rng G) (r c : ℕ) (g : G) : (Fin r → ℕ → ℝ) × G :=
  let z := R.normals (r * c) g
  (fun i j => z.1.getD (i * c + j) 0, z.2)

/-- The slots of the base class, `/repo/src/dynamics/stochastic_process.py:10`. `X` is the type of one path
entry (`ℝ` or `Fin d → ℝ`). -/
structure Proc (G X : Type) where
  xt : Option (List X)
  tk : Option (List ℝ)
  rng : G
  single_dimension : Bool

namespace Proc

variable {G X : Type}

/-- `__init__(r_seed, single_dim)`, `/repo/src/dynamics/stochastic_process.py:12-35`. The argument `entropy` is
the state that `default_rng()` draws from the operating system. The truth test `if r_seed:` is false for `None`
and for `0`; `SeedSequence` rejects negative seeds with `ValueError`. -/
def init (R : Rng G) (entropy : G) (r_seed : Option ℤ) (single_dim : Bool) : Py (Proc G X) :=
  match r_seed with
  | none => .ok ⟨none, none, entropy, single_dim⟩
  | some s =>
    if s = 0 then .ok ⟨none, none, entropy, single_dim⟩
    else if s < 0 then .error .valueError
    else .ok ⟨none, none, R.seed s, single_dim⟩

/-- `sample_path`, `/repo/src/dynamics/stochastic_process.py:47-61`. -/
def samplePath (p : Proc G X) : Py (List X) :=
  match p.xt with
  | none => .error .notImplementedError
  | some x => .ok x

/-- `sample_path.setter`, `/repo/src/dynamics/stochastic_process.py:63-73`. -/
def setSamplePath (p : Proc G X) (v : List X) : Proc G X := { p with xt := some v }

/-- `time_window`, `/repo/src/dynamics/stochastic_process.py:75-89`. -/
def timeWindow (p : Proc G X) : Py (List ℝ) :=
  match p.tk with
  | none => .error .notImplementedError
  | some t => .ok t

/-- `time_window.setter`, `/repo/src/dynamics/stochastic_process.py:91-101`. -/
def setTimeWindow (p : Proc G X) (v : List ℝ) : Proc G X := { p with tk := some v }

/-- `time_step`, `/repo/src/dynamics/stochastic_process.py:103-118`. -/
def timeStep (p : Proc G X) : Py ℝ :=
  match p.tk with
  | none => .error .notImplementedError
  | some t => do
    let t1 ← idx t 1
    let t0 ← idx t 0
    pure |t1 - t0|

end Proc

/-- `np.arange(start, stop, step)`: `ceil((stop - start)/step)` entries `start + i * step`.
A zero step raises `ZeroDivisionError`. -/
def arange (start stop step : ℝ) : Py (List ℝ) :=
  open Classical in
  if step = 0 then .error .zeroDivisionError
  else .ok ((List.range ⌈(stop - start) / step⌉.toNat).map fun i : ℕ => start + i * step)

/-- Python's `int(x)` for a float: truncation towards zero. -/
def pyInt (x : ℝ) : ℤ := if 0 ≤ x then ⌊x⌋ else ⌈x⌉

/-- `sorted(np.unique(l))`. -/
def npUnique (l : List ℕ) : List ℕ := l.toFinset.sort (· ≤ ·)

open Classical in
/-- The observation indices of `collect_obs`, `/repo/src/dynamics/stochastic_process.py:156-177`: the number
`dim_m` and the list `obs_t`. `np.linspace(0, dim_t, num, dtype=int)` floors `i * dim_t / (num - 1)`; a negative
`num` raises `ValueError`; with `dim_m <= 0` the list is empty and `np.take` rejects the (float) empty index array
with `TypeError`. A zero time step makes `int(1.0 / dt)` raise `OverflowError`. The density need not be an integer. -/
def obsIndices (tk : List ℝ) (n_obs : ℝ) : Py (ℕ × List ℕ) := do
  let t1 ← idx tk 1
  let t0 ← idx tk 0
  let dt := t1 - t0
  if dt = 0 then .error .overflowError
  else if n_obs > pyInt (1.0 / dt) then .error .valueError
  else
    let dim_m : ℤ := ⌊|t0 - tk.getLastD 0| * n_obs⌋
    let dim_t := tk.length
    if dim_m + 2 < 0 then .error .valueError
    else if dim_m ≤ 0 then .error .typeError
    else
      let num := dim_m.toNat + 2
      let all := (List.range num).map fun i => i * dim_t / (num - 1)
      pure (dim_m.toNat, npUnique ((all.drop 1).dropLast))

/-- `np.take(xt, obs_t, axis=0)`: `IndexError` outside the array. -/
def npTake {X : Type} (xt : List X) (obs_t : List ℕ) : Py (List X) := obs_t.mapM fun t => idx xt t

/-- Result of `collect_obs` on a one dimensional path. -/
structure Obs1 where
  obs_t : List ℕ
  obs_y : List ℝ
  obs_noise : NdArr

/-- The two arguments of an elementwise in-place `y += z` must have equal length, or `z` length one. -/
def addInPlace (y z : List ℝ) : Py (List ℝ) :=
  if y.length = z.length then .ok (List.zipWith (· + ·) y z)
  else if z.length = 1 then .ok (y.map fun v => v + z.getD 0 0)
  else .error .valueError

/-- `sq_rn * z` for the `np.sqrt` of `rn` and a one dimensional `z`, when the result is one dimensional;
a two (or more) dimensional result cannot be added in place and is reported as `ValueError` here. -/
def sqrtScale (rn : NdArr) (z : List ℝ) : Py (List ℝ) :=
  match rn with
  | .scalar r => .ok (z.map fun v => Real.sqrt r * v)
  | .vec k r =>
    if k = z.length then .ok (List.zipWith (fun a v => Real.sqrt a * v) (List.ofFn r) z)
    else if k = 1 then .ok (z.map fun v => Real.sqrt ((List.ofFn r).getD 0 0) * v)
    else if z.length = 1 then .ok ((List.ofFn r).map fun a => Real.sqrt a * z.getD 0 0)
    else .error .valueError
  | .mat _ _ _ => .error .valueError
  | .high _ => .error .valueError

/-- `collect_obs(n_obs, rn, h_mask)` on a path of numbers, `/repo/src/dynamics/stochastic_process.py:130-230`.
A non-empty mask indexes a second axis that does not exist (`IndexError`). -/
def Proc.collectObs1 {G : Type} (R : Rng G) (p : Proc G ℝ) (n_obs : ℝ) (rn : NdArr)
    (h_mask : Option (List Bool)) : Py Obs1 × Proc G ℝ :=
  match p.tk, p.xt with
  | some tk, some xt =>
    match obsIndices tk n_obs with
    | .error e => (.error e, p)
    | .ok (dim_m, obs_t) =>
      match npTake xt obs_t with
      | .error e => (.error e, p)
      | .ok obs_y =>
        if h_mask.getD [] ≠ [] then (.error .indexError, p)
        else
          let z := R.normals dim_m p.rng
          let p' := { p with rng := z.2 }
          match (do let w ← sqrtScale rn z.1; addInPlace obs_y w) with
          | .error e => (.error e, p')
          | .ok y => (.ok { obs_t := obs_t, obs_y := y, obs_noise := rn }, p')
  | _, _ => (.error .notImplementedError, p)

/-- The columns selected by a boolean mask. -/
def maskCols {d : ℕ} (mask : List Bool) : List (Fin d) :=
  (List.finRange d).filter fun j => mask.getD j false

/-- Result of `collect_obs` on a multivariate path: `k` observed components. -/
structure ObsN where
  obs_t : List ℕ
  k : ℕ
  obs_y : List (Fin k → ℝ)
  obs_noise : NdArr

/-- The index on an axis of length `r` that numpy's broadcasting uses for index `i` of an axis of length `k`. -/
def bcIdx {r k : ℕ} (h : r = k ∨ r = 1) (i : Fin k) : Fin r :=
  if hr : r = k then Fin.cast hr.symm i else ⟨0, by omega⟩

/-- The noise matrix of the multidimensional branch, `/repo/src/dynamics/stochastic_process.py:201-222`.
A matrix argument is multiplied elementwise with the identity; a single row or a single column is repeated. Shapes that do
not fit raise `ValueError`. -/
def obsNoise (k : ℕ) (rn : NdArr) : Py (Matrix (Fin k) (Fin k) ℝ) :=
  match rn with
  | .scalar r => .ok (Matrix.of fun i j => r * (1 : Matrix (Fin k) (Fin k) ℝ) i j)
  | .vec c r => if h : c = k then .ok (Matrix.diagonal fun i => r (Fin.cast h.symm i)) else .error .valueError
  | .mat r c M =>
    if h : r = k ∧ c = k then
      .ok (Matrix.of fun i j => M (Fin.cast h.1.symm i) (Fin.cast h.2.symm j) * (1 : Matrix (Fin k) (Fin k) ℝ) i j)
    else if h : (r = k ∨ r = 1) ∧ (c = k ∨ c = 1) then
      .ok (Matrix.of fun i j => M (bcIdx h.1 i) (bcIdx h.2 j) * (1 : Matrix (Fin k) (Fin k) ℝ) i j)
    else .error .valueError
  | .high _ => .error .valueError

/-- `sq_rn * z` for a single draw `z`, when the result is a single number: `np.sqrt(rn)` must have one entry. -/
def sqrtOne (rn : NdArr) (z : List ℝ) : Py ℝ :=
  match rn with
  | .scalar r => .ok (Real.sqrt r * z.getD 0 0)
  | .vec 1 r => .ok (Real.sqrt (r 0) * z.getD 0 0)
  | .mat 1 1 M => .ok (Real.sqrt (M 0 0) * z.getD 0 0)
  | _ => .error .valueError

/-- `collect_obs(n_obs, rn, h_mask)` on a path of vectors, `/repo/src/dynamics/stochastic_process.py:130-230`.
A mask whose length is not the number of components raises `IndexError`. With one observed component the code adds
an array of shape `(dim_m,)` to one of shape `(dim_m, 1)`, which numpy rejects unless `dim_m = 1`. -/
def Proc.collectObsN {G : Type} {d : ℕ} (R : Rng G) (p : Proc G (Fin d → ℝ)) (n_obs : ℝ) (rn : NdArr)
    (h_mask : Option (List Bool)) : Py ObsN × Proc G (Fin d → ℝ) :=
  match p.tk, p.xt with
  | some tk, some xt =>
    match obsIndices tk n_obs with
    | .error e => (.error e, p)
    | .ok (dim_m, obs_t) =>
      match npTake xt obs_t with
      | .error e => (.error e, p)
      | .ok taken =>
        let mask := h_mask.getD []
        if mask ≠ [] ∧ mask.length ≠ d then (.error .indexError, p)
        else
          let cols : List (Fin d) := if mask ≠ [] then maskCols mask else List.finRange d
          let k := cols.length
          let obs_y : List (Fin k → ℝ) := taken.map fun x i => x (cols.get i)
          if k = 1 then
            let z := R.normals dim_m p.rng
            let p' := { p with rng := z.2 }
            if dim_m = 1 then
              match sqrtOne rn z.1 with
              | .error e => (.error e, p')
              | .ok w =>
                (.ok { obs_t := obs_t, k := k, obs_y := obs_y.map (fun y i => y i + w), obs_noise := rn }, p')
            else (.error .valueError, p')
          else
            let z := R.normalsMat k dim_m p.rng
            let p' := { p with rng := z.2 }
            match obsNoise k rn with
            | .error e => (.error e, match rn with | .vec _ _ => p' | _ => p)
            | .ok N =>
              if obs_y.length ≠ dim_m then (.error .valueError, p')
              else
                let y := obs_y.mapIdx fun j (y : Fin k → ℝ) (i : Fin k) =>
                  y i + ∑ l, Real.sqrt (N i l) * z.1 l j
                (.ok { obs_t := obs_t, k := k, obs_y := y, obs_noise := .mat k k N }, p')
  | _, _ => (.error .notImplementedError, p)

end

end VGPA
