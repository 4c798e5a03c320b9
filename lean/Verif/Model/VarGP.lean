import Verif.Model.Ode
import Verif.Model.Likelihood
import Verif.Model.DoubleWell
import Verif.Model.Lorenz96

/-!
# The variational object, `/repo/src/var_bayes/variational.py`

`VarGP` is handed a process, two integrators, a likelihood and a prior. It only calls them, so the model takes the
part of each interface that is called (`SdeModel`, `LikeIf`, and a function for the prior). The instances for the four
processes, the two likelihoods and the two priors follow the structure definitions. One-dimensional and
multivariate arrays differ in shape; everything that depends on the shape is collected in `Shape`.
-/

namespace VGPA

noncomputable section

open Matrix

/-- `x.reshape(n, d)` of a flat array in C order: `ValueError` when the size is wrong. -/
def reshape2 (n d : ℕ) (x : List ℝ) : Py (List (Fin d → ℝ)) :=
  if x.length = n * d then .ok ((List.range n).map fun k => fun i : Fin d => x.getD (k * d + i) 0)
  else .error .valueError

/-- `x.reshape(n, d, d)` of a flat array in C order: `ValueError` when the size is wrong. -/
def reshape3 (n d : ℕ) (x : List ℝ) : Py (List (Matrix (Fin d) (Fin d) ℝ)) :=
  if x.length = n * d * d then
    .ok ((List.range n).map fun k => Matrix.of fun i j : Fin d => x.getD (k * (d * d) + (i * d + j)) 0)
  else .error .valueError

/-- `a.ravel()` (or `flatten()`) of an array of vectors. -/
def ravel2 {d : ℕ} (l : List (Fin d → ℝ)) : List ℝ := l.flatMap fun v => List.ofFn v

/-- `a.ravel()` (or `flatten()`) of an array of matrices, row after row. -/
def ravel3 {d : ℕ} (l : List (Matrix (Fin d) (Fin d) ℝ)) : List ℝ :=
  l.flatMap fun M => (List.ofFn fun i : Fin d => List.ofFn fun j : Fin d => M i j).flatten

/-- What depends on the array shape. `dim` is `dim_d`. -/
structure Shape (V W : Type) where
  dim : ℕ
  rhs : Rhs V W
  /-- Unpacking in `free_energy`, by `dim_d`. The argument is `dim_n`. -/
  unpackF : ℕ → List ℝ → Py (List W × List V)
  /-- Unpacking in `gradient`, by `single_dim`. -/
  unpackG : ℕ → List ℝ → Py (List W × List V)
  ravelA : List W → List ℝ
  ravelB : List V → List ℝ
  /-- `_dEsde_db(inv_sigma, Efx, mt, at, bt)` -/
  dEsde_db : W → V → V → W → V → V
  /-- `_dEsde_da(inv_sigma, at, mt, st, Edf, dEsde_dbt)` -/
  dEsde_da : W → W → V → W → W → V → W
  /-- `_grad_at(dEsde_dak, lamk, mk, psik, sk)` -/
  grad_at : W → V → V → W → W → W

/-- `single_dim = True`: `/repo/src/var_bayes/variational.py:153-156,228-231,305-306,317-318,329-330`. -/
def shape1 : Shape ℝ ℝ where
  dim := 1
  rhs := rhs1
  unpackF dim_n x := .ok (x.take (dim_n * 1 * 1), x.drop (dim_n * 1 * 1))
  unpackG dim_n x := .ok (x.take (dim_n * 1 * 1), x.drop (dim_n * 1 * 1))
  ravelA := id
  ravelB := id
  dEsde_db inv_sigma Efx mt at_ bt := inv_sigma * (-Efx - (at_ * mt) + bt)
  dEsde_da inv_sigma at_ mt st Edf dEsde_dbt := inv_sigma * (Edf + at_) * st - (dEsde_dbt * mt)
  grad_at dEsde_dak lamk mk psik sk := dEsde_dak - (lamk * mk) - (2.0 * psik * sk)

/-- `single_dim = False`: `/repo/src/var_bayes/variational.py:157-162,236-239,307-308,319-320,331-332`. A multivariate
process with `dim_d == 1` (none of the four classes) would take the flat branch of `free_energy`, and the
integrators would reject the flat array with `ValueError`. -/
def shapeN (d : ℕ) : Shape (Fin d → ℝ) (Matrix (Fin d) (Fin d) ℝ) where
  dim := d
  rhs := rhsN d
  unpackF dim_n x :=
    if d = 1 then .error .valueError
    else do
      let a ← reshape3 dim_n d (x.take (dim_n * d * d))
      let b ← reshape2 dim_n d (x.drop (dim_n * d * d))
      pure (a, b)
  unpackG dim_n x := do
    let a ← reshape3 dim_n d (x.take (dim_n * d * d))
    let b ← reshape2 dim_n d (x.drop (dim_n * d * d))
    pure (a, b)
  ravelA := ravel3
  ravelB := ravel2
  dEsde_db inv_sigma Efx mt at_ bt := inv_sigma *ᵥ (-Efx - at_ *ᵥ mt + bt)
  dEsde_da inv_sigma at_ mt st Edf dEsde_dbt := inv_sigma * (Edf + at_) * st - vecMulVec dEsde_dbt mt
  grad_at dEsde_dak lamk mk psik sk := dEsde_dak - vecMulVec lamk mk - (2.0 : ℝ) • (psik * sk)

/-- What `free_energy` takes from `energy`: `Esde, (Efx, Edf), (dEsde_dm, dEsde_ds, *_)`. -/
structure SdeTerms (V W : Type) where
  Esde : ℝ
  Efx : List V
  Edf : List W
  dm : List V
  ds : List W

/-- The part of a process that `VarGP` uses. -/
structure SdeModel (V W : Type) where
  sigma : W
  inverse_sigma : W
  time_window : Py (List ℝ)
  time_step : Py ℝ
  sample_path : Py (List V)
  energy : List W → List V → List V → List W → List ℕ → Py (SdeTerms V W)

/-- The part of a likelihood that `VarGP` uses: the call and the first two results of `gradients`. -/
structure LikeIf (V W : Type) where
  call : List V → List W → Py ℝ
  gradients : List V → List W → Py (List V × List W)

/-- A `DoubleWell` in the role of the model, `/repo/src/dynamics/double_well.py:76-116,169-260`. -/
def DW.sde {G : Type} (o : DW G) : SdeModel ℝ ℝ where
  sigma := o.sigma
  inverse_sigma := o.sig_inv
  time_window := o.base.timeWindow
  time_step := o.base.timeStep
  sample_path := o.base.samplePath
  energy a b m s obs_t := do
    let e ← o.energy a b m s (some obs_t)
    pure ⟨e.Esde, e.Ef, e.Edf, e.dm, e.ds⟩

/-- An `OrnsteinUhlenbeck` in the role of the model, `/repo/src/dynamics/ornstein_uhlenbeck.py:81-120,165-232`. -/
def OU.sde {G : Type} (o : OU G) : SdeModel ℝ ℝ where
  sigma := o.sigma
  inverse_sigma := o.sig_inv
  time_window := o.base.timeWindow
  time_step := o.base.timeStep
  sample_path := o.base.samplePath
  energy a b m s obs_t := do
    let e ← o.energy a b m s (some obs_t)
    pure ⟨e.Esde, e.Ef, e.Edf, e.dm, e.ds⟩

/-- A `Lorenz63` in the role of the model, `/repo/src/dynamics/lorenz_63.py:126-172,237-346`. -/
def L63.sde {G : Type} (o : L63 G) : SdeModel (Fin 3 → ℝ) (Matrix (Fin 3) (Fin 3) ℝ) where
  sigma := o.sigma
  inverse_sigma := o.sig_inv
  time_window := o.base.timeWindow
  time_step := o.base.timeStep
  sample_path := o.base.samplePath
  energy a b m s obs_t := do
    let e ← L63.energy o a b m s (some obs_t)
    pure ⟨e.Esde, e.Ef, e.Edf, e.dm, e.ds⟩

/-- A `Lorenz96` in the role of the model, `/repo/src/dynamics/lorenz_96.py:204-247,316-438`. -/
def L96.sde {G : Type} {d : ℕ} (o : L96 G d) : SdeModel (Fin d → ℝ) (Matrix (Fin d) (Fin d) ℝ) where
  sigma := o.sigma
  inverse_sigma := o.sig_inv
  time_window := o.base.timeWindow
  time_step := o.base.timeStep
  sample_path := o.base.samplePath
  energy a b m s obs_t := do
    let e ← L96.energy o a b m s (some obs_t)
    pure ⟨e.Esde, e.Ef, e.Edf, e.dm, e.ds⟩

/-- `GaussianLikelihood.__call__` and `gradients` in one dimension, `/repo/src/var_bayes/gaussian_like.py:39-65`. -/
def Like1.toIf (o : Like1) : LikeIf ℝ ℝ where
  call := o.gauss
  gradients m s := do
    let g ← o.gradients m s
    pure (g.1, g.2.1)

/-- `GaussianLikelihood.__call__` and `gradients` in `d` dimensions, `/repo/src/var_bayes/gaussian_like.py:39-65`. -/
def LikeN.toIf {d : ℕ} (o : LikeN d) : LikeIf (Fin d → ℝ) (Matrix (Fin d) (Fin d) ℝ) where
  call := o.gauss
  gradients m _ := do
    let g ← o.gradients m
    pure (g.1, g.2.1)

/-- `GaussianLikelihood.__call__` and `gradients` in `d` dimensions with a vector as operator, `/repo/src/var_bayes/gaussian_like.py:39-65`. -/
def LikeV.toIf {d : ℕ} (o : LikeV d) : LikeIf (Fin d → ℝ) (Matrix (Fin d) (Fin d) ℝ) where
  call := o.gauss
  gradients m _ := do
    let g ← o.gradients m
    pure (g.1, g.2.1)

/-- The six entries that `free_energy` writes into the dictionary `output`,
`/repo/src/var_bayes/variational.py:188-196`. They are always written together. -/
structure VgpCache (V W : Type) where
  mt : List V
  st : List W
  Efx : List V
  Edf : List W
  lamt : List V
  psit : List W

/-- The slots of `VarGP`, `/repo/src/var_bayes/variational.py:11-13`. Of the two integrators the time step and the
method are kept. `m0`, `s0` and `cache` are the dictionary `output`. `dim_d` and `dim_tot` follow from the shape. -/
structure VarGP (V W : Type) where
  model : SdeModel V W
  fwd_ode : OdeFrontEnd
  bwd_ode : OdeFrontEnd
  likelihood : LikeIf V W
  kl0 : V → W → Py ℝ
  obs_y : List V
  obs_t : List ℕ
  dt : ℝ
  dim_n : ℕ
  m0 : V
  s0 : W
  cache : Option (VgpCache V W)

namespace VarGP

variable {V W : Type} [AddCommGroup V] [Module ℝ V] [AddCommGroup W] [Module ℝ W]

omit [AddCommGroup V] [Module ℝ V] [AddCommGroup W] [Module ℝ W] in
/-- `__init__`, `/repo/src/var_bayes/variational.py:15-71`. -/
def init (model : SdeModel V W) (m0 : V) (s0 : W) (fwd_ode bwd_ode : OdeFrontEnd) (likelihood : LikeIf V W)
    (kl0 : V → W → Py ℝ) (obs_y : List V) (obs_t : List ℕ) : Py (VarGP V W) := do
  let dt ← model.time_step
  let path ← model.sample_path
  pure { model, fwd_ode, bwd_ode, likelihood, kl0, obs_y, obs_t, dt, dim_n := path.length, m0, s0, cache := none }

/-- The computation of `free_energy(x)`, `/repo/src/var_bayes/variational.py:152-199`: the returned value and what is
stored. The dictionary is written after the last call that can fail. -/
def eval (sh : Shape V W) (o : VarGP V W) (x : List ℝ) : Py (ℝ × VgpCache V W) := do
  let (linear_a, offset_b) ← sh.unpackF o.dim_n x
  let (mt, st) ← solveFwd o.fwd_ode.solver sh.rhs o.fwd_ode.dt linear_a offset_b o.m0 o.s0 o.model.sigma
  let Eobs ← o.likelihood.call mt st
  let e ← o.model.energy linear_a offset_b mt st o.obs_t
  let (dEobs_dm, dEobs_ds) ← o.likelihood.gradients mt st
  let (lamt, psit) ← solveBwd o.bwd_ode.solver sh.rhs o.bwd_ode.dt linear_a e.dm e.ds dEobs_dm dEobs_ds
  let E0 ← o.kl0 o.m0 o.s0
  pure (E0 + e.Esde + Eobs, { mt, st, Efx := e.Efx, Edf := e.Edf, lamt, psit })

/-- `free_energy(x)`, `/repo/src/var_bayes/variational.py:141-200`: result and object afterwards. -/
def freeEnergy (sh : Shape V W) (o : VarGP V W) (x : List ℝ) : Py ℝ × VarGP V W :=
  match o.eval sh x with
  | .ok (F, c) => (.ok F, { o with cache := some c })
  | .error e => (.error e, o)

omit [Module ℝ V] [AddCommGroup W] [Module ℝ W] in
/-- The body of the loop in `gradient`, `/repo/src/var_bayes/variational.py:263-279`, for index `k`: the entries
`gLa[k]`, `gLb[k]`. -/
def gradRow (sh : Shape V W) (o : VarGP V W) (c : VgpCache V W) (at_ : List W) (bt : List V) (k : ℕ) :
    Py (W × V) := do
  let ak ← idx at_ k
  let sk ← idx c.st k
  let mk ← idx c.mt k
  let lamk ← idx c.lamt k
  let ef ← idx c.Efx k
  let bk ← idx bt k
  let dEsde_dbt := sh.dEsde_db o.model.inverse_sigma ef mk ak bk
  let edf ← idx c.Edf k
  let dEsde_dat := sh.dEsde_da o.model.inverse_sigma ak mk sk edf dEsde_dbt
  let psik ← idx c.psit k
  pure (sh.grad_at dEsde_dat lamk mk psik sk, dEsde_dbt + lamk)

/-- `gradient(x)` after the optional evaluation, `/repo/src/var_bayes/variational.py:227-288`: `KeyError` when `output`
has no moments yet. -/
def gradBody (sh : Shape V W) (o : VarGP V W) (x : List ℝ) : Py (List ℝ) := do
  let (at_, bt) ← sh.unpackG o.dim_n x
  match o.cache with
  | none => .error .keyError
  | some c => do
    let rows ← (List.range o.dim_n).mapM (gradRow sh o c at_ bt)
    let gLa := rows.map fun r => o.dt • r.1
    let gLb := rows.map fun r => o.dt • r.2
    pure (sh.ravelA gLa ++ sh.ravelB gLb)

/-- `gradient(x, eval_fun)`, `/repo/src/var_bayes/variational.py:202-289`. -/
def gradient (sh : Shape V W) (o : VarGP V W) (x : List ℝ) (eval_fun : Bool) : Py (List ℝ) × VarGP V W :=
  if eval_fun then
    match o.freeEnergy sh x with
    | (.ok _, o') => (o'.gradBody sh x, o')
    | (.error e, o') => (.error e, o')
  else (o.gradBody sh x, o)

/-- `arg_out`, `/repo/src/var_bayes/variational.py:291-298`. The caller receives the dictionary itself; writing to its
arrays from outside is in `Model/HeapVgp`. -/
def argOut (o : VarGP V W) : V × W × Option (VgpCache V W) := (o.m0, o.s0, o.cache)

end VarGP

open Classical in
/-- `scipy.interpolate.CubicSpline(xs, ys)`. Its input checks are modelled: equally many points, at least two, strictly
increasing abscissae, `ValueError` otherwise. Which interpolating curve comes out is left to the parameter
`fit`; theorems state what they assume of it. -/
def cubicSpline {V : Type} (fit : List ℝ → List V → ℝ → V) (xs : List ℝ) (ys : List V) : Py (ℝ → V) :=
  if xs.length ≠ ys.length then .error .valueError
  else if xs.length < 2 then .error .valueError
  else if xs.Pairwise (· < ·) then .ok (fit xs ys)
  else .error .valueError

/-- `l[-1]`. -/
def lastIdx {α : Type} (l : List α) : Py α :=
  match l.getLast? with
  | some x => .ok x
  | none => .error .indexError

namespace VarGP

/-- The abscissae and ordinates given to the spline, `/repo/src/var_bayes/variational.py:84-92,105`: first and last
point of the window and first and last observation are repeated. -/
def splineData {V W : Type} (o : VarGP V W) (tw : List ℝ) : Py (List ℝ × List V) := do
  let t0 ← idx tw 0
  let ts ← fancy tw o.obs_t
  let t1 ← lastIdx tw
  let y0 ← idx o.obs_y 0
  let y1 ← lastIdx o.obs_y
  pure (t0 :: (ts ++ [t1]), y0 :: (o.obs_y ++ [y1]))

/-- `initialization()` in one dimension, `/repo/src/var_bayes/variational.py:73-139`. -/
def initialization1 (fit : List ℝ → List ℝ → ℝ → ℝ) (o : VarGP ℝ ℝ) : Py (List ℝ) := do
  let tw ← o.model.time_window
  let (time_x, obs_z) ← o.splineData tw
  let a0 := List.replicate o.dim_n (0.5 * (o.model.sigma / 0.25) * 1)
  let fb0 ← cubicSpline fit time_x obs_z
  let b0 := tw.map fb0
  pure (a0 ++ b0)

/-- `initialization()` in `d` dimensions, `/repo/src/var_bayes/variational.py:73-139`. -/
def initializationN {d : ℕ} (fit : List ℝ → List (Fin d → ℝ) → ℝ → Fin d → ℝ)
    (o : VarGP (Fin d → ℝ) (Matrix (Fin d) (Fin d) ℝ)) : Py (List ℝ) := do
  let tw ← o.model.time_window
  let (time_x, obs_z) ← o.splineData tw
  let fb0 ← cubicSpline fit time_x obs_z
  let mt0 := tw.map fb0
  let dmt0 := (List.zipWith (fun q p => q - p) mt0.tail mt0).map fun v => o.dt⁻¹ • v
  let s0 : Matrix (Fin d) (Fin d) ℝ := (0.25 : ℝ) • 1
  let diag_k : Matrix (Fin d) (Fin d) ℝ := Matrix.diagonal fun i => o.model.sigma.diag i / s0.diag i
  let a0k : Matrix (Fin d) (Fin d) ℝ := (0.5 : ℝ) • diag_k
  let rows ← (List.range (o.dim_n - 1)).mapM (fun k => do
    let dk ← idx dmt0 k
    let mk ← idx mt0 k
    pure (a0k, dk + a0k.diag * mk))
  if o.dim_n = 0 then .error .indexError
  else do
    let ml ← lastIdx mt0
    let all := rows ++ [(a0k, a0k.diag * ml)]
    pure (ravel3 (all.map Prod.fst) ++ ravel2 (all.map Prod.snd))

end VarGP

end

end VGPA
