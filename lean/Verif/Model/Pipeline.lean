import Verif.Model.Simulation
import Verif.Model.VarGP
import Verif.Model.Scg

/-!
# The classes that `Simulation` works with

`/repo/src/var_bayes/simulation.py` creates a process, integrators, a likelihood, a prior, a variational object and an
optimizer from a JSON dictionary. `pyClasses` is the instance of `Classes` made of their models. What is added
here is the passage from JSON values to the arguments of the constructors, and the choice between the one
dimensional and the multivariate classes.

A JSON value of a type or shape that the constructors do not expect raises here where it is first read. In the code
some of them raise later, but still inside the same `setup()` or `run()`. A list with one entry in the place of a single
number (`theta`, `t0`, `density`) can work in the code, since numpy repeats it; here it raises. A number is a real number: whether it
was written as `7` or as `7.0` makes no difference here, in the code it does for the seed (`TypeError` for `7.0`).
-/

namespace VGPA

noncomputable section

open Matrix

namespace Json

/-- A number. `True` and `False` count as `1` and `0`. -/
def real : Json → Py ℝ
  | .num x => .ok x
  | .bool b => .ok (if b then 1 else 0)
  | _ => .error .typeError

open Classical in
/-- An integer. -/
def int (v : Json) : Py ℤ := do
  let x ← v.real
  if x = ⌊x⌋ then .ok ⌊x⌋ else .error .typeError

/-- The seed: `None` or an integer. -/
def seed : Json → Py (Option ℤ)
  | .null => .ok none
  | v => do pure (some (← v.int))

/-- A list of `n` numbers. -/
def vec (n : ℕ) : Json → Py (Fin n → ℝ)
  | .arr l => do
    let xs ← l.mapM real
    if xs.length = n then .ok (fun i => xs.getD i 0) else .error .valueError
  | _ => .error .typeError

/-- `np.asarray(v)`: a number, a list of numbers, or a list of equally long lists of numbers. -/
def ndArr : Json → Py NdArr
  | .arr l =>
    match l.mapM real with
    | .ok xs => .ok (.vec xs.length fun i => xs.getD i 0)
    | .error _ => do
      let rows ← l.mapM fun
        | .arr r => r.mapM real
        | _ => .error .valueError
      let c := (rows.headD []).length
      if rows.all fun r => r.length == c then
        .ok (.mat rows.length c (Matrix.of fun i j => (rows.getD i []).getD j 0))
      else .error .valueError
  | v => do pure (.scalar (← v.real))

open Classical in
/-- The argument `h_mask` of `collect_obs`, which is tested with `if h_mask`: `None`, `False`, `0` and the empty list are
no mask. A list of truth values is a mask; other true values are no valid index (lists of integers,
which would be an index of another kind, are not modelled). -/
def mask : Json → Py (Option (List Bool))
  | .null => .ok none
  | .bool false => .ok none
  | .num x => if x = 0 then .ok none else .error .indexError
  | .arr l => do
    let bs ← l.mapM fun
      | .bool b => .ok b
      | _ => .error .indexError
    pure (some bs)
  | _ => .error .indexError

end Json

/-- An object of one of the four process classes. `Simulation` creates a `Lorenz96` with the default dimension,
`/repo/src/dynamics/lorenz_96.py:113-114`. -/
inductive AnyProc (G : Type)
  | dw (o : DW G)
  | ou (o : OU G)
  | l63 (o : L63 G)
  | l96 (o : L96 G 40)

/-- The arrays that `Simulation` keeps in `m_data`. -/
inductive Arr
  /-- `obs_t` -/
  | times (l : List ℕ)
  /-- one dimensional `obs_y` -/
  | series (l : List ℝ)
  /-- multivariate `obs_y` -/
  | path (d : ℕ) (l : List (Fin d → ℝ))
  /-- everything else -/
  | nd (a : NdArr)

/-- A variational object. -/
inductive AnyVgp
  | one (o : VarGP ℝ ℝ)
  | many (d : ℕ) (o : VarGP (Fin d → ℝ) (Matrix (Fin d) (Fin d) ℝ))

/-- A likelihood object. -/
inductive AnyLike
  | one (o : Like1)
  | many (d : ℕ) (o : LikeN d)
  | vecOp (d : ℕ) (o : LikeV d)

/-- A prior object. -/
inductive AnyPrior
  | one (o : Prior1)
  | many (d : ℕ) (o : PriorN d)

/-- What comes from outside: the generator of numpy, the state it takes from the operating system when no seed is given,
and the interpolation of scipy. -/
structure Env (G : Type) where
  R : Rng G
  entropy : G
  fit1 : List ℝ → List ℝ → ℝ → ℝ
  fitN : ∀ d, List ℝ → List (Fin d → ℝ) → ℝ → Fin d → ℝ

variable {G : Type}

namespace AnyProc

/-- The four constructors, called with `(sigma, theta, r_seed)`, `/repo/src/var_bayes/simulation.py:130-135`. -/
def create (E : Env G) (k : SysName) (sys theta seed : Json) : Py (AnyProc G) :=
  match k with
  | .DW => do
    let o ← DW.init E.R E.entropy (← sys.real) (← theta.real) (← seed.seed)
    pure (.dw o)
  | .OU => do
    let o ← OU.init E.R E.entropy (← sys.real) (← theta.real) (← seed.seed)
    pure (.ou o)
  | .L63 => do
    let o ← L63.init E.R E.entropy (← sys.ndArr) (← theta.vec 3) (← seed.seed)
    pure (.l63 o)
  | .L96 => do
    let o ← L96.init E.R E.entropy (← sys.ndArr) (← theta.real) (← seed.seed) 40
    pure (.l96 o)

/-- `single_dim`, `/repo/src/dynamics/stochastic_process.py:37-45`. -/
def singleDim : AnyProc G → Bool
  | .dw o => o.base.single_dimension
  | .ou o => o.base.single_dimension
  | .l63 o => o.base.single_dimension
  | .l96 o => o.base.single_dimension

/-- `make_trajectory(t0, tf, dt)`; for `OrnsteinUhlenbeck` the fourth argument `mu` has the default `0.0`,
`/repo/src/dynamics/ornstein_uhlenbeck.py:122`. -/
def makeTrajectory (E : Env G) (p : AnyProc G) (t0 tf dt : Json) : Py Unit × AnyProc G :=
  match (do pure ((← t0.real), (← tf.real), (← dt.real))) with
  | .error e => (.error e, p)
  | .ok (t0, tf, dt) =>
    match p with
    | .dw o => let r := DW.makeTrajectory E.R o t0 tf dt; (r.1, .dw r.2)
    | .ou o => let r := OU.makeTrajectory E.R o t0 tf dt 0.0; (r.1, .ou r.2)
    | .l63 o => let r := L63.makeTrajectory E.R o t0 tf dt; (r.1, .l63 r.2)
    | .l96 o => let r := L96.makeTrajectory E.R o t0 tf dt; (r.1, .l96 r.2)

/-- What `collect_obs` returns, as arrays. -/
def obs1 (r : Obs1) : Arr × Arr × Arr := (.times r.obs_t, .series r.obs_y, .nd r.obs_noise)

/-- What `collect_obs` returns, as arrays. -/
def obsN (r : ObsN) : Arr × Arr × Arr := (.times r.obs_t, .path r.k r.obs_y, .nd r.obs_noise)

/-- `collect_obs(n_obs, rn, h_mask)`, `/repo/src/dynamics/stochastic_process.py:130-230`. -/
def collectObs (E : Env G) (p : AnyProc G) (density noise operator : Json) : Py (Arr × Arr × Arr) × AnyProc G :=
  match (do pure ((← density.real), (← noise.ndArr), (← operator.mask))) with
  | .error e => (.error e, p)
  | .ok (n, rn, mask) =>
    match p with
    | .dw o => let r := o.base.collectObs1 E.R n rn mask; (r.1.map obs1, .dw { o with base := r.2 })
    | .ou o => let r := o.base.collectObs1 E.R n rn mask; (r.1.map obs1, .ou { o with base := r.2 })
    | .l63 o => let r := o.base.collectObsN E.R n rn mask; (r.1.map obsN, .l63 { o with base := r.2 })
    | .l96 o => let r := o.base.collectObsN E.R n rn mask; (r.1.map obsN, .l96 { o with base := r.2 })

/-- `sample_path[0] + 0.1 * rng.standard_normal()`, `/repo/src/var_bayes/simulation.py:162-163`. -/
def firstMean1 (R : Rng G) (p : Proc G ℝ) : Py Arr × Proc G ℝ :=
  match (do idx (← p.samplePath) 0) with
  | .error e => (.error e, p)
  | .ok x => let z := R.normal p.rng; (.ok (.nd (.scalar (x + 0.1 * z.1))), { p with rng := z.2 })

/-- `sample_path[0] + 0.1 * rng.standard_normal(dim_d)`, `/repo/src/var_bayes/simulation.py:167-171`. -/
def firstMeanN {d : ℕ} (R : Rng G) (p : Proc G (Fin d → ℝ)) : Py Arr × Proc G (Fin d → ℝ) :=
  match (do idx (← p.samplePath) 0) with
  | .error e => (.error e, p)
  | .ok x =>
    let z := R.normals d p.rng
    (.ok (.nd (.vec d fun i => x i + 0.1 * z.1.getD i 0)), { p with rng := z.2 })

/-- The initial mean, `/repo/src/var_bayes/simulation.py:161-171`. -/
def firstMean (E : Env G) : AnyProc G → Py Arr × AnyProc G
  | .dw o => let r := firstMean1 E.R o.base; (r.1, .dw { o with base := r.2 })
  | .ou o => let r := firstMean1 E.R o.base; (r.1, .ou { o with base := r.2 })
  | .l63 o => let r := firstMeanN E.R o.base; (r.1, .l63 { o with base := r.2 })
  | .l96 o => let r := firstMeanN E.R o.base; (r.1, .l96 { o with base := r.2 })

/-- The number of components of the state. -/
def dim : AnyProc G → ℕ
  | .dw _ => 1
  | .ou _ => 1
  | .l63 _ => 3
  | .l96 _ => 40

/-- The initial variance, `/repo/src/var_bayes/simulation.py:164,172`. -/
def firstVar : AnyProc G → Arr
  | .dw _ => .nd (.scalar 0.2)
  | .ou _ => .nd (.scalar 0.2)
  | .l63 _ => .nd (.mat 3 3 ((0.2 : ℝ) • 1))
  | .l96 _ => .nd (.mat 40 40 ((0.2 : ℝ) • 1))

/-- The value of a prior parameter. -/
def priorArr : PriorVal Arr → Py NdArr
  | .given j => j.ndArr
  | .arr (.nd a) => .ok a
  | .arr _ => .error .valueError

/-- `mu0 *= np.ones(dim_d)`, `/repo/src/var_bayes/simulation.py:175`: a number or a single entry is repeated; another vector
must have `dim_d` entries, and so must the rows of a matrix. -/
def timesOnes (p : AnyProc G) (v : PriorVal Arr) : Py (PriorVal Arr) := do
  match ← priorArr v with
  | .scalar c => pure (.arr (.nd (.vec p.dim fun _ => c * 1)))
  | .vec n w =>
    if n = p.dim then pure (.arr (.nd (.vec n fun i => w i * 1)))
    else if h : n = 1 then pure (.arr (.nd (.vec p.dim fun _ => w ⟨0, by omega⟩ * 1)))
    else .error .valueError
  | .mat r c M =>
    if h : c = p.dim ∨ c = 1 then pure (.arr (.nd (.mat r p.dim (Matrix.of fun i j => M i (bcIdx h j) * 1))))
    else .error .valueError
  | .high _ => .error .valueError

/-- `tau0 *= np.eye(dim_d)`, `/repo/src/var_bayes/simulation.py:176`: elementwise; a number gives a multiple of the identity,
a vector or a matrix a diagonal matrix. A single entry, row or column is repeated. -/
def timesEye (p : AnyProc G) (v : PriorVal Arr) : Py (PriorVal Arr) := do
  match ← priorArr v with
  | .scalar c => pure (.arr (.nd (.mat p.dim p.dim (c • 1))))
  | .vec n w =>
    if n = p.dim then pure (.arr (.nd (.mat n n (Matrix.diagonal w))))
    else if h : n = 1 then pure (.arr (.nd (.mat p.dim p.dim (Matrix.diagonal fun _ => w ⟨0, by omega⟩))))
    else .error .valueError
  | .mat r c M =>
    if h : r = p.dim ∧ c = p.dim then
      pure (.arr (.nd (.mat p.dim p.dim (Matrix.diagonal fun i => M (Fin.cast h.1.symm i) (Fin.cast h.2.symm i)))))
    else if h : (r = p.dim ∨ r = 1) ∧ (c = p.dim ∨ c = 1) then
      pure (.arr (.nd (.mat p.dim p.dim (Matrix.diagonal fun i => M (bcIdx h.1 i) (bcIdx h.2 i)))))
    else .error .valueError
  | .high _ => .error .valueError

end AnyProc

/-- The method name as given to the integrators: `str(method).lower()` of anything but a string is none of the names. -/
def methodName : Json → String
  | .str s => s
  | _ => ""

/-- `FwdOde(dt, method, single_dim)`, `/repo/src/var_bayes/simulation.py:189-191`. -/
def mkFwd (dt method : Json) : Py OdeFrontEnd := do FwdOde.init (← dt.real) (methodName method)

/-- `BwdOde(dt, method, single_dim)`, `/repo/src/var_bayes/simulation.py:194-196`. -/
def mkBwd (dt method : Json) : Py OdeFrontEnd := do BwdOde.init (← dt.real) (methodName method)

/-- A square matrix, read from an array of any shape. -/
def squareOf (d : ℕ) : NdArr → Py (Matrix (Fin d) (Fin d) ℝ)
  | .mat r c H =>
    if h : r = d ∧ c = d then .ok (Matrix.of fun i j => H (Fin.cast h.1.symm i) (Fin.cast h.2.symm j))
    else .error .valueError
  | _ => .error .valueError

/-- The operator in one dimension: `None` or a number. -/
def operator1 : Json → Py (Option ℝ)
  | .null => .ok none
  | v => do pure (some (← v.real))

/-- The operator for observations with `d` components: `None`, a square matrix, or a vector. A number acts as a multiple of the identity. For an
array of another size the code raises `ValueError` not here but in `initialization` or at the first evaluation, which belong to
`run()` too (one observed component, where numpy would repeat the column, is not modelled). -/
def operatorN (d : ℕ) : Json → Py (Option (Matrix (Fin d) (Fin d) ℝ) ⊕ (Fin d → ℝ))
  | .null => .ok (.inl none)
  | v => do
    match ← v.ndArr with
    | .scalar c => pure (.inl (some (c • 1)))
    | .vec n h => if e : n = d then pure (.inr fun i => h (Fin.cast e.symm i)) else .error .valueError
    | H => do pure (.inl (some (← squareOf d H)))

/-- `GaussianLikelihood(obs_y, obs_t, obs_noise, operator, single_dim)`, `/repo/src/var_bayes/simulation.py:199-203`. -/
def mkLike (obs_y obs_t obs_noise : Arr) (operator : Json) (single_dim : Bool) : Py AnyLike :=
  match single_dim, obs_y, obs_t, obs_noise with
  | true, .series y, .times t, .nd (.scalar r) => do
    let o ← Like1.init y t r (← operator1 operator)
    pure (.one o)
  | false, .path d y, .times t, .nd N => do
    let R ← squareOf d N
    match ← operatorN d operator with
    | .inl H => do
      let o ← LikeN.init y t R H
      pure (.many d o)
    | .inr h => pure (.vecOp d ⟨y, t, R, h⟩)
  | _, _, _, _ => .error .valueError

/-- `PriorKL0(mu0, tau0, single_dim)`, `/repo/src/var_bayes/simulation.py:205-206`. -/
def mkPrior (mu0 tau0 : PriorVal Arr) (single_dim : Bool) : Py AnyPrior := do
  match single_dim, ← AnyProc.priorArr mu0, ← AnyProc.priorArr tau0 with
  | true, .scalar m, .scalar t => pure (.one ⟨m, t⟩)
  | false, .vec d m, T => do pure (.many d ⟨m, ← squareOf d T⟩)
  | _, _, _ => .error .valueError

namespace AnyVgp

/-- A one dimensional variational object. -/
def mk1 (sde : SdeModel ℝ ℝ) (m0 s0 : Arr) (fwd bwd : OdeFrontEnd) (like : AnyLike) (kl0 : AnyPrior) (obs_y obs_t : Arr) :
    Py AnyVgp :=
  match m0, s0, like, kl0, obs_y, obs_t with
  | .nd (.scalar m), .nd (.scalar s), .one L, .one K, .series y, .times t => do
    let o ← VarGP.init sde m s fwd bwd L.toIf (fun m s => .ok (K.gauss m s)) y t
    pure (.one o)
  | _, _, _, _, _, _ => .error .valueError

/-- A likelihood for states with `d` components. For observations with another number of components `run()` raises `ValueError` in
`initialization`, `/repo/src/var_bayes/variational.py:128-132`. -/
def likeIf (d : ℕ) : AnyLike → Py (LikeIf (Fin d → ℝ) (Matrix (Fin d) (Fin d) ℝ))
  | .one _ => .error .valueError
  | .many n L => if h : n = d then .ok (h ▸ L).toIf else .error .valueError
  | .vecOp n L => if h : n = d then .ok (h ▸ L).toIf else .error .valueError

/-- A multivariate variational object. -/
def mkN {d : ℕ} (sde : SdeModel (Fin d → ℝ) (Matrix (Fin d) (Fin d) ℝ)) (m0 s0 : Arr) (fwd bwd : OdeFrontEnd)
    (like : AnyLike) (kl0 : AnyPrior) (obs_y obs_t : Arr) : Py AnyVgp :=
  match m0, s0, like, kl0, obs_y, obs_t with
  | .nd (.vec dm m), .nd (.mat r c s), L, .many dk K, .path dy y, .times t =>
    if h : dm = d ∧ (r = d ∧ c = d) ∧ dk = d ∧ dy = d then do
      let L ← likeIf d L
      let s' : Matrix (Fin d) (Fin d) ℝ := Matrix.of fun i j => s (Fin.cast h.2.1.1.symm i) (Fin.cast h.2.1.2.symm j)
      let o ← VarGP.init sde (fun i => m (Fin.cast h.1.symm i)) s' fwd bwd L (h.2.2.1 ▸ K).gauss
        (y.map fun v i => v (Fin.cast h.2.2.2.symm i)) t
      pure (.many d o)
    else .error .valueError
  | _, _, _, _, _, _ => .error .valueError

/-- `VarGP(model, m0, s0, fwd_ode, bwd_ode, likelihood, kl0, obs_y, obs_t)`, `/repo/src/var_bayes/simulation.py:209-212`. -/
def create (p : AnyProc G) (m0 s0 : Arr) (fwd bwd : OdeFrontEnd) (like : AnyLike) (kl0 : AnyPrior) (obs_y obs_t : Arr) :
    Py AnyVgp :=
  match p with
  | .dw o => mk1 o.sde m0 s0 fwd bwd like kl0 obs_y obs_t
  | .ou o => mk1 o.sde m0 s0 fwd bwd like kl0 obs_y obs_t
  | .l63 o => mkN o.sde m0 s0 fwd bwd like kl0 obs_y obs_t
  | .l96 o => mkN o.sde m0 s0 fwd bwd like kl0 obs_y obs_t

/-- `initialization()`, `/repo/src/var_bayes/variational.py:73-139`. -/
def initialization (E : Env G) : AnyVgp → Py (List ℝ)
  | .one o => o.initialization1 E.fit1
  | .many d o => o.initializationN (E.fitN d)

/-- `free_energy(x)`, `/repo/src/var_bayes/variational.py:141-200`. -/
def freeEnergy (v : AnyVgp) (x : List ℝ) : Py ℝ × AnyVgp :=
  match v with
  | .one o => let r := o.freeEnergy shape1 x; (r.1, .one r.2)
  | .many d o => let r := o.freeEnergy (shapeN d) x; (r.1, .many d r.2)

/-- `gradient(x, eval_fun)`, `/repo/src/var_bayes/variational.py:202-289`. -/
def gradient (v : AnyVgp) (x : List ℝ) (eval_fun : Bool) : Py (List ℝ) × AnyVgp :=
  match v with
  | .one o => let r := o.gradient shape1 x eval_fun; (r.1, .one r.2)
  | .many d o => let r := o.gradient (shapeN d) x eval_fun; (r.1, .many d r.2)

/-- A flat array with `n` entries. The optimizer adds and multiplies its vectors entry by entry: another
size raises `ValueError`. -/
def asVec (n : ℕ) (l : List ℝ) : Py (Fin n → ℝ) :=
  if l.length = n then .ok (fun i => l.getD i 0) else .error .valueError

/-- The two methods as the optimizer sees them, on vectors with `n` entries. -/
def oracle (n : ℕ) : Oracle AnyVgp Unit ℝ (Fin n → ℝ) where
  f x _ v := v.freeEnergy (List.ofFn x)
  df x _ v := let r := v.gradient (List.ofFn x) false; (r.1.bind (asVec n), r.2)
  dfEval x v := let r := v.gradient (List.ofFn x) true; (r.1.bind (asVec n), r.2)

/-- `SCG(vgpa.free_energy, vgpa.gradient, options)(x0.copy())`, `/repo/src/var_bayes/simulation.py:215-231`. -/
def optimize (v : AnyVgp) (x0 : List ℝ) : Py (List ℝ × ℝ) × AnyVgp :=
  let n := x0.length
  let p := Scg.init (realArith n) (some 500) (some 1.0e-6) (some 1.0e-8)
  let r := Scg.call (realArith n) (oracle n) () p (fun i => x0.getD i 0) v
  (r.1.map fun q => (List.ofFn q.1, q.2), r.2.2)

/-- A scalar, a vector or a matrix as an entry of `output`. -/
def nd : NdArr → Val
  | .scalar x => .scalar x
  | .vec n v => .array ⟨[n], List.ofFn v⟩
  | .mat r c M => .array ⟨[r, c], (List.ofFn fun i => List.ofFn fun j => M i j).flatten⟩
  | .high s => .array ⟨s, []⟩

/-- An array of numbers. -/
def arr1 (l : List ℝ) : Val := .array ⟨[l.length], l⟩

/-- An array of vectors. -/
def arr2 {d : ℕ} (l : List (Fin d → ℝ)) : Val := .array ⟨[l.length, d], ravel2 l⟩

/-- An array of matrices. -/
def arr3 {d : ℕ} (l : List (Matrix (Fin d) (Fin d) ℝ)) : Val := .array ⟨[l.length, d, d], ravel3 l⟩

/-- `arg_out`, `/repo/src/var_bayes/variational.py:70,188-196,291-298`. -/
def argOut : AnyVgp → Dict Val
  | .one o => [("m0", .scalar o.m0), ("s0", .scalar o.s0)] ++ match o.cache with
    | none => []
    | some c => [("mt", arr1 c.mt), ("st", arr1 c.st), ("Efx", arr1 c.Efx), ("Edf", arr1 c.Edf), ("lamt", arr1 c.lamt),
        ("psit", arr1 c.psit)]
  | .many d o => [("m0", nd (.vec d o.m0)), ("s0", nd (.mat d d o.s0))] ++ match o.cache with
    | none => []
    | some c => [("mt", arr2 c.mt), ("st", arr3 c.st), ("Efx", arr2 c.Efx), ("Edf", arr3 c.Edf), ("lamt", arr2 c.lamt),
        ("psit", arr3 c.psit)]

end AnyVgp

namespace AnyProc

/-- The number of points of the path. -/
def pathLength : AnyProc G → Py ℕ
  | .dw o => o.base.samplePath.map List.length
  | .ou o => o.base.samplePath.map List.length
  | .l63 o => o.base.samplePath.map List.length
  | .l96 o => o.base.samplePath.map List.length

/-- `x[:dim_n]`, or `x[:dim_tot].reshape(dim_n, dim_d, dim_d)`, `/repo/src/var_bayes/simulation.py:243-258`. -/
def unpackA (p : AnyProc G) (x : List ℝ) : Py NdArray := do
  let n ← p.pathLength
  if p.singleDim then pure ⟨[(x.take n).length], x.take n⟩
  else
    let d := p.dim
    let a := x.take (n * d * d)
    if a.length = n * d * d then pure ⟨[n, d, d], a⟩ else .error .valueError

/-- `x[dim_n:]`, or `x[dim_tot:].reshape(dim_n, dim_d)`, `/repo/src/var_bayes/simulation.py:243-259`. -/
def unpackB (p : AnyProc G) (x : List ℝ) : Py NdArray := do
  let n ← p.pathLength
  if p.singleDim then pure ⟨[(x.drop n).length], x.drop n⟩
  else
    let d := p.dim
    let b := x.drop (n * d * d)
    if b.length = n * d then pure ⟨[n, d], b⟩ else .error .valueError

end AnyProc

/-- The modelled classes, as `Simulation` calls them. -/
def pyClasses (E : Env G) :
    Classes (AnyProc G) Arr OdeFrontEnd OdeFrontEnd AnyLike AnyPrior AnyVgp (List ℝ) where
  create := AnyProc.create E
  single_dim := AnyProc.singleDim
  make_trajectory := AnyProc.makeTrajectory E
  collect_obs := AnyProc.collectObs E
  first_mean := AnyProc.firstMean E
  first_var := AnyProc.firstVar
  times_ones := AnyProc.timesOnes
  times_eye := AnyProc.timesEye
  fwd_ode dt method _ := mkFwd dt method
  bwd_ode dt method _ := mkBwd dt method
  likelihood := mkLike
  prior := mkPrior
  var_gp := AnyVgp.create
  initialization := AnyVgp.initialization E
  optimize := AnyVgp.optimize
  unpack_a := AnyProc.unpackA
  unpack_b := AnyProc.unpackB
  arg_out := AnyVgp.argOut

end

end VGPA
