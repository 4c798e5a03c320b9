import Verif.Model.Scg

/-!
# The front end, `/repo/src/var_bayes/simulation.py`

`Simulation` only calls the process classes, the integrators, the likelihood, the prior, the variational object and the
optimizer. The calls it makes are collected in `Classes`; theorems that quantify over `Classes` hold whatever these
parts do, including every way in which they may raise. `Model/Pipeline.lean` gives the instance made of the
modelled classes.
-/

namespace VGPA

noncomputable section

/-- What `json.load` returns. Dictionary keys are unique in Python; `lookup` below takes the first. -/
inductive Json
  | null
  | bool (b : Bool)
  | num (x : ℝ)
  | str (s : String)
  | arr (l : List Json)
  | obj (kv : List (String × Json))

/-- `v["key"]`: `KeyError` for a dictionary without that key, `TypeError` for everything that is not a dictionary. -/
def Json.item (v : Json) (key : String) : Py Json :=
  match v with
  | .obj kv => match kv.lookup key with
    | some w => .ok w
    | none => .error .keyError
  | _ => .error .typeError

/-- A numpy array as it is stored in a file. -/
structure NdArray where
  shape : List ℕ
  data : List ℝ

/-- An entry of the dictionary `output`. -/
inductive Val
  | scalar (x : ℝ)
  | array (a : NdArray)

/-- A dictionary with string keys, in insertion order. -/
abbrev Dict (α : Type) := List (String × α)

/-- `d[key] = v`: an existing key keeps its place. -/
def Dict.put {α : Type} (d : Dict α) (key : String) (v : α) : Dict α :=
  match d with
  | [] => [(key, v)]
  | (k, w) :: rest => if k = key then (k, v) :: rest else (k, w) :: Dict.put rest key v

/-- `d.update(e)`. -/
def Dict.update {α : Type} (d e : Dict α) : Dict α := e.foldl (fun d kv => d.put kv.1 kv.2) d

/-- The argument `data` of `setup`: a sequence of arrays (list, tuple), or a pandas table with named columns. -/
inductive Data (A : Type)
  | seq (l : List A)
  | frame (cols : Dict A)

/-- `data[k]` for an integer `k`. A table looks for a column with the label `k`; its labels are strings: `KeyError`. -/
def Data.item {A : Type} (d : Data A) (k : ℕ) : Py A :=
  match d with
  | .seq l => idx l k
  | .frame _ => .error .keyError

/-- A prior parameter: as given, or after the multiplication with an array. -/
inductive PriorVal (A : Type)
  | given (j : Json)
  | arr (a : A)

/-- The four process classes of `dynamical_systems`. -/
inductive SysName
  | DW | OU | L63 | L96
  deriving DecidableEq

/-- `dynamical_systems`, `/repo/src/var_bayes/simulation.py:20-21`. -/
def dynamicalSystems : List (String × SysName) := [("DW", .DW), ("OU", .OU), ("L63", .L63), ("L96", .L96)]

/-- `str.upper()` on ASCII letters. (The characters outside ASCII whose upper case contains ASCII letters give none of the
letters of the four names.) -/
def pyUpper (s : String) : String := String.ofList (s.toList.map Char.toUpper)

/-- What `Simulation` calls. `M` are process objects, `A` arrays, `F`, `B`, `L`, `K` integrators, likelihoods and priors,
`Vg` variational objects, `X` flat parameter vectors. A process is a mutable object: its methods return its new state. -/
structure Classes (M A F B L K Vg X : Type) where
  create : SysName → Json → Json → Json → Py M
  single_dim : M → Bool
  make_trajectory : M → Json → Json → Json → Py Unit × M
  collect_obs : M → Json → Json → Json → Py (A × A × A) × M
  /-- `sample_path[0] + 0.1 * rng.standard_normal(..)` -/
  first_mean : M → Py A × M
  /-- `0.2` or `0.2 * np.eye(dim_d)` -/
  first_var : M → A
  /-- `v *= np.ones(dim_d)` -/
  times_ones : M → PriorVal A → Py (PriorVal A)
  /-- `v *= np.eye(dim_d)` -/
  times_eye : M → PriorVal A → Py (PriorVal A)
  fwd_ode : Json → Json → Bool → Py F
  bwd_ode : Json → Json → Bool → Py B
  likelihood : A → A → A → Json → Bool → Py L
  prior : PriorVal A → PriorVal A → Bool → Py K
  var_gp : M → A → A → F → B → L → K → A → A → Py Vg
  /-- `initialization()` -/
  initialization : Vg → Py X
  /-- `SCG(vgpa.free_energy, vgpa.gradient, options)(x0.copy())` with the options of
  `/repo/src/var_bayes/simulation.py:215-216` -/
  optimize : Vg → X → Py (X × ℝ) × Vg
  /-- `x[:dim_tot].reshape(..)` -/
  unpack_a : M → X → Py NdArray
  /-- `x[dim_tot:].reshape(..)` -/
  unpack_b : M → X → Py NdArray
  /-- `arg_out`, whose keys are distinct -/
  arg_out : Vg → Dict Val

/-- The dictionary `m_data`: a key that has not been set is `none`. -/
structure MData (M A : Type) where
  drift : Option Json := none
  noise : Option Json := none
  time_window : Option Json := none
  ode_solver : Option Json := none
  random_seed : Option Json := none
  obs_setup : Option Json := none
  mu0 : Option (PriorVal A) := none
  tau0 : Option (PriorVal A) := none
  model : Option M := none
  single_dim : Option Bool := none
  obs_t : Option A := none
  obs_y : Option A := none
  obs_noise : Option A := none
  m0 : Option A := none
  s0 : Option A := none

/-- The slots of `Simulation`, `/repo/src/var_bayes/simulation.py:46`. -/
structure Sim (M A : Type) where
  name : String
  m_data : MData M A
  output : Dict Val

/-- The files, by path. -/
abbrev Files := String → Option (Dict NdArray)

/-- `m_data["key"]` -/
def need {α : Type} (v : Option α) : Py α :=
  match v with
  | some a => .ok a
  | none => .error .keyError

variable {M A F B L K Vg X : Type}

namespace Sim

/-- `__init__(name)`, `/repo/src/var_bayes/simulation.py:48-64`. `None` and the empty string are false. -/
def init (name : Option String) : Sim M A :=
  { name := match name with
      | none => "ID_None"
      | some s => if s = "" then "ID_None" else s
    m_data := {}, output := [] }

/-- The class for the name `params["Model"]`. `str` of anything but a string is none of the four names. -/
def findSystem (model : Json) : Option SysName :=
  match model with
  | .str s => dynamicalSystems.lookup (pyUpper s)
  | _ => none

/-- `_stochastic_model(model, *args)`, `/repo/src/var_bayes/simulation.py:66-89`. The constructor is called inside the
`try` block, so a `KeyError` raised by it becomes a `ValueError` too. -/
def stochasticModel (C : Classes M A F B L K Vg X) (model : Json) (sys theta seed : Json) : Py M :=
  match findSystem model with
  | none => .error .valueError
  | some k => match C.create k sys theta seed with
    | .error .keyError => .error .valueError
    | r => r

/-- A step on `m_data`: what was written before an exception stays written. -/
abbrev Step (M A α : Type) := ScgM (MData M A) α

/-- A change of `m_data`. -/
def write (g : MData M A → MData M A) : Step M A Unit := fun m => (.ok (), g m)

/-- A method of the process in `m_data["model"]`. -/
def onModel {α : Type} (meth : M → Py α × M) : Step M A α := fun m =>
  match m.model with
  | none => (.error .keyError, m)
  | some p => let r := meth p; (r.1, { m with model := some r.2 })

/-- A value computed from `m_data`. -/
def view {α : Type} (g : MData M A → Py α) : Step M A α := fun m => (g m, m)

/-- The observations, `/repo/src/var_bayes/simulation.py:146-158`. -/
def setupObs (C : Classes M A F B L K Vg X) (data : Option (Data A)) : Step M A Unit :=
  match data with
  | some d => do
    let t ← .lift (d.item 0)
    write fun m => { m with obs_t := some t }
    let y ← .lift (d.item 1)
    write fun m => { m with obs_y := some y }
  | none => do
    let density ← view fun m => do (← need m.obs_setup).item "density"
    let rn ← view fun m => do (← need m.noise).item "obs"
    let operator ← view fun m => do (← need m.obs_setup).item "operator"
    let (t, y, r) ← onModel fun p => C.collect_obs p density rn operator
    write fun m => { m with obs_t := some t }
    write fun m => { m with obs_y := some y }
    write fun m => { m with obs_noise := some r }

/-- The initial moments and the prior, `/repo/src/var_bayes/simulation.py:160-177`. -/
def setupMoments (C : Classes M A F B L K Vg X) : Step M A Unit := do
  let one ← view fun m => need m.single_dim
  let m0 ← onModel C.first_mean
  write fun m => { m with m0 := some m0 }
  let s0 ← view fun m => do let p ← need m.model; pure (C.first_var p)
  write fun m => { m with s0 := some s0 }
  if one then pure ()
  else do
    let mu0 ← view fun m => do let p ← need m.model; let v ← need m.mu0; C.times_ones p v
    write fun m => { m with mu0 := some mu0 }
    let tau0 ← view fun m => do let p ← need m.model; let v ← need m.tau0; C.times_eye p v
    write fun m => { m with tau0 := some tau0 }

/-- The body of `setup(params, data)`, `/repo/src/var_bayes/simulation.py:106-177`. -/
def setupBody (C : Classes M A F B L K Vg X) (params : Json) (data : Option (Data A)) : Step M A Unit := do
  let v ← .lift (params.item "Drift")
  write fun m => { m with drift := some v }
  let v ← .lift (params.item "Noise")
  write fun m => { m with noise := some v }
  let v ← .lift (params.item "Time-window")
  write fun m => { m with time_window := some v }
  let v ← .lift (params.item "Ode-method")
  write fun m => { m with ode_solver := some v }
  let v ← .lift (params.item "Random-Seed")
  write fun m => { m with random_seed := some v }
  let v ← .lift (params.item "Observations")
  write fun m => { m with obs_setup := some v }
  let v ← .lift (do (← params.item "Prior").item "mu0")
  write fun m => { m with mu0 := some (.given v) }
  let v ← .lift (do (← params.item "Prior").item "tau0")
  write fun m => { m with tau0 := some (.given v) }
  let system_noise ← view fun m => do (← need m.noise).item "sys"
  let drift_vector ← view fun m => do (← need m.drift).item "theta"
  let random_seed ← view fun m => need m.random_seed
  let name ← .lift (params.item "Model")
  let p ← .lift (stochasticModel C name system_noise drift_vector random_seed)
  write fun m => { m with model := some p }
  write fun m => { m with single_dim := some (C.single_dim p) }
  let t0 ← view fun m => do (← need m.time_window).item "t0"
  let tf ← view fun m => do (← need m.time_window).item "tf"
  let dt ← view fun m => do (← need m.time_window).item "dt"
  onModel fun p => C.make_trajectory p t0 tf dt
  setupObs C data
  setupMoments C

/-- `setup(params, data)`, `/repo/src/var_bayes/simulation.py:92-178`. -/
def setup (C : Classes M A F B L K Vg X) (params : Json) (data : Option (Data A)) (s : Sim M A) : Py Unit × Sim M A :=
  let r := setupBody C params data s.m_data
  (r.1, { s with m_data := r.2 })

/-- The part of `run()` before `output` is written, `/repo/src/var_bayes/simulation.py:188-240`: the process, the optimal
vector with its value, and the variational object. -/
def runBody (C : Classes M A F B L K Vg X) (m : MData M A) : Py (M × X × ℝ × Vg) := do
  let dt ← (← need m.time_window).item "dt"
  let fwd_ode ← C.fwd_ode dt (← need m.ode_solver) (← need m.single_dim)
  let bwd_ode ← C.bwd_ode dt (← need m.ode_solver) (← need m.single_dim)
  let obs_y ← need m.obs_y
  let obs_t ← need m.obs_t
  let obs_noise ← need m.obs_noise
  let operator ← (← need m.obs_setup).item "operator"
  let likelihood ← C.likelihood obs_y obs_t obs_noise operator (← need m.single_dim)
  let mu0 ← need m.mu0
  let tau0 ← need m.tau0
  let kl0 ← C.prior mu0 tau0 (← need m.single_dim)
  let model ← need m.model
  let m0 ← need m.m0
  let s0 ← need m.s0
  let vgpa ← C.var_gp model m0 s0 fwd_ode bwd_ode likelihood kl0 obs_y obs_t
  let x0 ← C.initialization vgpa
  match C.optimize vgpa x0 with
  | (.error e, _) => .error e
  | (.ok (x, fx), vgpa) => pure (model, x, fx, vgpa)

/-- `run()`, `/repo/src/var_bayes/simulation.py:180-267`. -/
def run (C : Classes M A F B L K Vg X) (s : Sim M A) : Py Unit × Sim M A :=
  match runBody C s.m_data with
  | .error e => (.error e, s)
  | .ok (model, x, fx, vgpa) =>
    match C.unpack_a model x with
    | .error e => (.error e, s)
    | .ok a =>
      let s := { s with output := s.output.put "at" (.array a) }
      match C.unpack_b model x with
      | .error e => (.error e, s)
      | .ok b =>
        let out := (s.output.put "bt" (.array b)).put "fx" (.scalar fx)
        (.ok (), { s with output := out.update (C.arg_out vgpa) })

/-- The characters removed by `str.strip()`. -/
def isSpace (c : Char) : Bool :=
  let n := c.toNat
  (9 ≤ n && n ≤ 13) || (28 ≤ n && n ≤ 32) || n == 133 || n == 160 || n == 5760 || (8192 ≤ n && n ≤ 8202)
    || n == 8232 || n == 8233 || n == 8239 || n == 8287 || n == 12288

/-- `str.strip()`. -/
def strip (s : List Char) : List Char := ((s.dropWhile isSpace).reverse.dropWhile isSpace).reverse

/-- `str(Path(name.strip().replace(" ", "_") + ".h5"))`, `/repo/src/var_bayes/simulation.py:289`. The path is the string
itself; `pathlib`'s removal of repeated slashes and single dots between slashes is not modelled. -/
def fileName (name : String) : String :=
  String.ofList ((strip name.toList).map fun c => if c = ' ' then '_' else c) ++ ".h5"

/-- `np.atleast_1d` of a scalar; an array stays what it is, `/repo/src/var_bayes/simulation.py:301-303`. -/
def toArray (v : Val) : NdArray :=
  match v with
  | .scalar x => ⟨[1], [x]⟩
  | .array a => a

/-- `create_dataset(key, ..)`: `ValueError` when the file has the name already. -/
def createDataset (f : Dict NdArray) (key : String) (a : NdArray) : Py (Dict NdArray) :=
  if (f.lookup key).isSome then .error .valueError else .ok (f ++ [(key, a)])

/-- The loop over the keys, `/repo/src/var_bayes/simulation.py:298-309`: what has been written, and what is left to write
of `output`, are passed along. -/
def saveLoop : Dict Val → Dict Val → Dict NdArray → Py Unit × Dict Val × Dict NdArray
  | [], done, f => (.ok (), done, f)
  | (k, v) :: rest, done, f =>
    let a := toArray v
    match createDataset f k a with
    | .error e => (.error e, done ++ (k, .array a) :: rest, f)
    | .ok f => saveLoop rest (done ++ [(k, .array a)]) f

/-- `save()`, `/repo/src/var_bayes/simulation.py:269-312`. The argument `canOpen` says which paths can be opened for
writing (otherwise `h5py.File` raises). Opening truncates the file. Failures of the disk while writing are in
`Model/Disk`. -/
def save (canOpen : String → Py Unit) (s : Sim M A) (files : Files) : Py Unit × Sim M A × Files :=
  if s.output.isEmpty then (.ok (), s, files)
  else
    let path := fileName s.name
    match canOpen path with
    | .error e => (.error e, s, files)
    | .ok () =>
      let r := saveLoop s.output [] []
      (r.1, { s with output := r.2.1 }, Function.update files path (some r.2.2))

end Sim

/-- `load(filename)`, `/repo/src/var_bayes/simulation.py:317-347`. The order in which h5py lists the keys is not
modelled. -/
def load (files : Files) (filename : Option String) : Py (Dict NdArray) :=
  match filename with
  | none => .error .runtimeError
  | some path => match files path with
    | none => .error .fileNotFoundError
    | some d => .ok (d.foldl (fun acc kv => Dict.put acc kv.1 kv.2) [])

end

end VGPA
