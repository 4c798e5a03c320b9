import Verif.Model.Simulation

/-!
# The parameters of a simulation as objects in memory

`Simulation.setup` and `Simulation.run`, `/repo/src/var_bayes/simulation.py:92-267`, once more. The dictionary `params` and the dictionaries, lists, numbers and strings in it are objects that the caller keeps and may change between the two calls:
`setup` stores references to them in `m_data`, and `run` looks at the objects again. Simplification: `params` holds what `json.load` returns, no numpy arrays (into which `*=`, lines 175-176, would write), and `data` is a value.
-/

namespace VGPA

noncomputable section

/-- A reference to an object. -/
abbrev Ref := ℕ

/-- The objects of the caller: what each shows at the moment, and which object `d[key]` is. -/
structure Objects where
  val : Ref → Json
  item : Ref → String → Py Ref

/-- `m_data` with references to the objects of the caller. `*=` makes a new array. -/
structure RData (M A : Type) where
  drift : Option Ref := none
  noise : Option Ref := none
  time_window : Option Ref := none
  ode_solver : Option Ref := none
  random_seed : Option Ref := none
  obs_setup : Option Ref := none
  mu0 : Option (Ref ⊕ PriorVal A) := none
  tau0 : Option (Ref ⊕ PriorVal A) := none
  model : Option M := none
  single_dim : Option Bool := none
  obs_t : Option A := none
  obs_y : Option A := none
  obs_noise : Option A := none
  m0 : Option A := none
  s0 : Option A := none

/-- A prior parameter, as it is at the moment. -/
def priorNow {A : Type} (val : Ref → Json) : Ref ⊕ PriorVal A → PriorVal A
  | .inl r => .given (val r)
  | .inr v => v

/-- `m_data` as one sees it through the references. -/
def RData.look {M A : Type} (val : Ref → Json) (m : RData M A) : MData M A where
  drift := m.drift.map val
  noise := m.noise.map val
  time_window := m.time_window.map val
  ode_solver := m.ode_solver.map val
  random_seed := m.random_seed.map val
  obs_setup := m.obs_setup.map val
  mu0 := m.mu0.map (priorNow val)
  tau0 := m.tau0.map (priorNow val)
  model := m.model
  single_dim := m.single_dim
  obs_t := m.obs_t
  obs_y := m.obs_y
  obs_noise := m.obs_noise
  m0 := m.m0
  s0 := m.s0

/-- `Simulation` with references. -/
structure RSim (M A : Type) where
  name : String
  m_data : RData M A
  output : Dict Val

namespace RSim

variable {M A F B L K Vg X : Type}

abbrev Step (M A α : Type) := ScgM (RData M A) α

/-- A change of `m_data`. -/
def write (g : RData M A → RData M A) : Step M A Unit := fun m => (.ok (), g m)

/-- A method of the process in `m_data["model"]`. -/
def onModel {α : Type} (meth : M → Py α × M) : Step M A α := fun m =>
  match m.model with
  | none => (.error .keyError, m)
  | some p => let r := meth p; (r.1, { m with model := some r.2 })

/-- A value computed from `m_data`. -/
def view {α : Type} (g : RData M A → Py α) : Step M A α := fun m => (g m, m)

/-- The observations, `/repo/src/var_bayes/simulation.py:146-158`. -/
def setupObs (C : Classes M A F B L K Vg X) (ob : Objects) (data : Option (Data A)) : Step M A Unit :=
  match data with
  | some d => do
    let t ← .lift (d.item 0)
    write fun m => { m with obs_t := some t }
    let y ← .lift (d.item 1)
    write fun m => { m with obs_y := some y }
  | none => do
    let density ← view fun m => do (ob.val (← need m.obs_setup)).item "density"
    let rn ← view fun m => do (ob.val (← need m.noise)).item "obs"
    let operator ← view fun m => do (ob.val (← need m.obs_setup)).item "operator"
    let (t, y, r) ← onModel fun p => C.collect_obs p density rn operator
    write fun m => { m with obs_t := some t }
    write fun m => { m with obs_y := some y }
    write fun m => { m with obs_noise := some r }

/-- The initial moments and the prior, `/repo/src/var_bayes/simulation.py:160-177`. -/
def setupMoments (C : Classes M A F B L K Vg X) (ob : Objects) : Step M A Unit := do
  let one ← view fun m => need m.single_dim
  let m0 ← onModel C.first_mean
  write fun m => { m with m0 := some m0 }
  let s0 ← view fun m => do let p ← need m.model; pure (C.first_var p)
  write fun m => { m with s0 := some s0 }
  if one then pure ()
  else do
    let mu0 ← view fun m => do let p ← need m.model; let v ← need m.mu0; C.times_ones p (priorNow ob.val v)
    write fun m => { m with mu0 := some (.inr mu0) }
    let tau0 ← view fun m => do let p ← need m.model; let v ← need m.tau0; C.times_eye p (priorNow ob.val v)
    write fun m => { m with tau0 := some (.inr tau0) }

/-- The body of `setup(params, data)`, `/repo/src/var_bayes/simulation.py:106-177`. -/
def setupBody (C : Classes M A F B L K Vg X) (ob : Objects) (params : Ref) (data : Option (Data A)) : Step M A Unit := do
  let v ← .lift (ob.item params "Drift")
  write fun m => { m with drift := some v }
  let v ← .lift (ob.item params "Noise")
  write fun m => { m with noise := some v }
  let v ← .lift (ob.item params "Time-window")
  write fun m => { m with time_window := some v }
  let v ← .lift (ob.item params "Ode-method")
  write fun m => { m with ode_solver := some v }
  let v ← .lift (ob.item params "Random-Seed")
  write fun m => { m with random_seed := some v }
  let v ← .lift (ob.item params "Observations")
  write fun m => { m with obs_setup := some v }
  let v ← .lift (do ob.item (← ob.item params "Prior") "mu0")
  write fun m => { m with mu0 := some (.inl v) }
  let v ← .lift (do ob.item (← ob.item params "Prior") "tau0")
  write fun m => { m with tau0 := some (.inl v) }
  let system_noise ← view fun m => do (ob.val (← need m.noise)).item "sys"
  let drift_vector ← view fun m => do (ob.val (← need m.drift)).item "theta"
  let random_seed ← view fun m => do pure (ob.val (← need m.random_seed))
  let name ← .lift (do pure (ob.val (← ob.item params "Model")))
  let p ← .lift (Sim.stochasticModel C name system_noise drift_vector random_seed)
  write fun m => { m with model := some p }
  write fun m => { m with single_dim := some (C.single_dim p) }
  let t0 ← view fun m => do (ob.val (← need m.time_window)).item "t0"
  let tf ← view fun m => do (ob.val (← need m.time_window)).item "tf"
  let dt ← view fun m => do (ob.val (← need m.time_window)).item "dt"
  onModel fun p => C.make_trajectory p t0 tf dt
  setupObs C ob data
  setupMoments C ob

/-- `setup(params, data)`, `/repo/src/var_bayes/simulation.py:92-178`. -/
def setup (C : Classes M A F B L K Vg X) (ob : Objects) (params : Ref) (data : Option (Data A)) (s : RSim M A) : Py Unit × RSim M A :=
  let r := setupBody C ob params data s.m_data
  (r.1, { s with m_data := r.2 })

/-- A simulation as one sees it through its references. -/
def look (val : Ref → Json) (s : RSim M A) : Sim M A := ⟨s.name, s.m_data.look val, s.output⟩

/-- `run()`, `/repo/src/var_bayes/simulation.py:180-267`: every `self.m_data[...]` that is a reference shows the present state of its object. The method changes nothing but `output`. -/
def run (C : Classes M A F B L K Vg X) (ob : Objects) (s : RSim M A) : Py Unit × RSim M A :=
  let r := Sim.run C (s.look ob.val)
  (r.1, { s with output := r.2.output })

end RSim

end

end VGPA
