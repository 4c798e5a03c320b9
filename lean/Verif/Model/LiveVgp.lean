import Verif.Model.VarGP
import Verif.Model.Api

/-!
# A `VarGP` object and the process it refers to

`VarGP.__init__` keeps a reference to the process (`self.model`, `/repo/src/var_bayes/variational.py:42`), so assignments to the attributes of the
process and new trajectories are seen by later calls, while the time step and the number of grid points are copied
(`/repo/src/var_bayes/variational.py:57-68`).
-/

namespace VGPA

noncomputable section

/-- A process class: the assignments and `make_trajectory`, which change the object, and what a `VarGP` object reads from it. -/
structure LiveApi (V W : Type) where
  Obj : Type
  Sig : Type
  Th : Type
  setSigma : Obj → Sig → Py Unit × Obj
  setTheta : Obj → Th → Py Unit × Obj
  makeTrajectory : Obj → ℝ → ℝ → ℝ → ℝ → Py Unit × Obj
  sde : Obj → SdeModel V W

variable {G : Type}

/-- `DoubleWell`, `/repo/src/dynamics/double_well.py`. -/
def dwLive (R : Rng G) : LiveApi ℝ ℝ where
  Obj := DW G
  Sig := ℝ
  Th := ℝ
  setSigma := DW.setSigma
  setTheta := DW.setTheta
  makeTrajectory := fun o t0 tf dt _ => DW.makeTrajectory R o t0 tf dt
  sde := DW.sde

/-- `OrnsteinUhlenbeck`, `/repo/src/dynamics/ornstein_uhlenbeck.py`. Only here `make_trajectory` has the argument `mu`. -/
def ouLive (R : Rng G) : LiveApi ℝ ℝ where
  Obj := OU G
  Sig := ℝ
  Th := ℝ
  setSigma := OU.setSigma
  setTheta := OU.setTheta
  makeTrajectory := OU.makeTrajectory R
  sde := OU.sde

/-- `Lorenz63`, `/repo/src/dynamics/lorenz_63.py`. -/
def l63Live (R : Rng G) : LiveApi (Fin 3 → ℝ) (Matrix (Fin 3) (Fin 3) ℝ) where
  Obj := L63 G
  Sig := NdArr
  Th := Fin 3 → ℝ
  setSigma := LorenzObj.setSigma
  setTheta := LorenzObj.setTheta
  makeTrajectory := fun o t0 tf dt _ => L63.makeTrajectory R o t0 tf dt
  sde := L63.sde

/-- `Lorenz96`, `/repo/src/dynamics/lorenz_96.py`. -/
def l96Live (R : Rng G) (d : ℕ) : LiveApi (Fin d → ℝ) (Matrix (Fin d) (Fin d) ℝ) where
  Obj := L96 G d
  Sig := NdArr
  Th := ℝ
  setSigma := LorenzObj.setSigma
  setTheta := LorenzObj.setTheta
  makeTrajectory := fun o t0 tf dt _ => L96.makeTrajectory R o t0 tf dt
  sde := L96.sde

variable {V W : Type}

/-- A `VarGP` object together with the process that its slot `model` refers to, `/repo/src/var_bayes/variational.py:11-71`. The field `model` of
`vgp` is what it was at the last call and is not read. -/
structure LiveVgp (A : LiveApi V W) where
  proc : A.Obj
  vgp : VarGP V W

/-- The object as a call of one of its methods finds it: `self.model` is the process as it is now, `/repo/src/var_bayes/variational.py:42`. -/
def LiveVgp.now {A : LiveApi V W} (h : LiveVgp A) : VarGP V W := { h.vgp with model := A.sde h.proc }

/-- `VarGP(model, m0, s0, ...)`, `/repo/src/var_bayes/variational.py:15-71`. -/
def LiveVgp.init (A : LiveApi V W) (p : A.Obj) (m0 : V) (s0 : W) (fwd bwd : OdeFrontEnd) (like : LikeIf V W) (kl0 : V → W → Py ℝ)
    (obs_y : List V) (obs_t : List ℕ) : Py (LiveVgp A) := do
  let v ← VarGP.init (A.sde p) m0 s0 fwd bwd like kl0 obs_y obs_t
  pure ⟨p, v⟩

/-- A call of the user, on the process or on the `VarGP` object. -/
inductive LiveOp (A : LiveApi V W)
  | setSigma (v : A.Sig)
  | setTheta (v : A.Th)
  | makeTrajectory (t0 tf dt mu : ℝ)
  | freeEnergy (x : List ℝ)
  | gradient (x : List ℝ) (eval_fun : Bool)

variable [AddCommGroup V] [Module ℝ V] [AddCommGroup W] [Module ℝ W]

/-- The two objects after a call, whether it returned or raised; the caller goes on in both cases. -/
def LiveOp.after {A : LiveApi V W} (sh : Shape V W) (h : LiveVgp A) : LiveOp A → LiveVgp A
  | .setSigma v => { h with proc := (A.setSigma h.proc v).2 }
  | .setTheta v => { h with proc := (A.setTheta h.proc v).2 }
  | .makeTrajectory t0 tf dt mu => { h with proc := (A.makeTrajectory h.proc t0 tf dt mu).2 }
  | .freeEnergy x => { h with vgp := (h.now.freeEnergy sh x).2 }
  | .gradient x e => { h with vgp := (h.now.gradient sh x e).2 }

/-- A sequence of calls. -/
def runLive {A : LiveApi V W} (sh : Shape V W) (h : LiveVgp A) (ops : List (LiveOp A)) : LiveVgp A := ops.foldl (LiveOp.after sh) h

end

end VGPA
