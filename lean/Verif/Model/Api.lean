import Verif.Model.DoubleWell
import Verif.Model.Lorenz96

/-!
# The public interface of the four process classes

The classes `DoubleWell`, `OrnsteinUhlenbeck`, `Lorenz63` and `Lorenz96`
(`/repo/src/dynamics/*.py`) share one interface; `ProcApi` collects it, so that histories of calls can be stated
once for all of them.
-/

namespace VGPA

noncomputable section

/-- One process class. -/
structure ProcApi (G : Type) where
  Obj : Type
  X : Type
  Sig : Type
  Th : Type
  Obs : Type
  create : G → Sig → Th → Option ℤ → Py Obj
  base : Obj → Proc G X
  withBase : Obj → Proc G X → Obj
  setSigma : Obj → Sig → Py Unit × Obj
  setTheta : Obj → Th → Py Unit × Obj
  makeTrajectory : Obj → ℝ → ℝ → ℝ → ℝ → Py Unit × Obj
  collectObs : Proc G X → ℝ → NdArr → Option (List Bool) → Py Obs × Proc G X

/-- The four classes. -/
inductive Kind
  | doubleWell
  | ornsteinUhlenbeck
  | lorenz63
  | lorenz96 (d : ℕ)

variable {G : Type}

/-- The interface of each class. Only `OrnsteinUhlenbeck.make_trajectory` has the extra argument `mu`. -/
def api (R : Rng G) : Kind → ProcApi G
  | .doubleWell =>
    { Obj := DW G, X := ℝ, Sig := ℝ, Th := ℝ, Obs := Obs1
      create := DW.init R, base := DW.base, withBase := fun o b => { o with base := b }
      setSigma := DW.setSigma, setTheta := DW.setTheta
      makeTrajectory := fun o t0 tf dt _ => DW.makeTrajectory R o t0 tf dt
      collectObs := Proc.collectObs1 R }
  | .ornsteinUhlenbeck =>
    { Obj := OU G, X := ℝ, Sig := ℝ, Th := ℝ, Obs := Obs1
      create := OU.init R, base := OU.base, withBase := fun o b => { o with base := b }
      setSigma := OU.setSigma, setTheta := OU.setTheta
      makeTrajectory := OU.makeTrajectory R
      collectObs := Proc.collectObs1 R }
  | .lorenz63 =>
    { Obj := L63 G, X := Fin 3 → ℝ, Sig := NdArr, Th := Fin 3 → ℝ, Obs := ObsN
      create := L63.init R, base := LorenzObj.base, withBase := fun o b => { o with base := b }
      setSigma := LorenzObj.setSigma, setTheta := LorenzObj.setTheta
      makeTrajectory := fun o t0 tf dt _ => L63.makeTrajectory R o t0 tf dt
      collectObs := Proc.collectObsN R }
  | .lorenz96 d =>
    { Obj := L96 G d, X := Fin d → ℝ, Sig := NdArr, Th := ℝ, Obs := ObsN
      create := fun g s t r => L96.init R g s t r d, base := LorenzObj.base
      withBase := fun o b => { o with base := b }
      setSigma := LorenzObj.setSigma, setTheta := LorenzObj.setTheta
      makeTrajectory := fun o t0 tf dt _ => L96.makeTrajectory R o t0 tf dt
      collectObs := Proc.collectObsN R }

/-- One call on an object. -/
inductive Op (A : ProcApi G)
  | setSigma (v : A.Sig)
  | setTheta (v : A.Th)
  | setPath (x : List A.X)
  | setWindow (t : List ℝ)
  | makeTrajectory (t0 tf dt mu : ℝ)
  | collectObs (n_obs : ℝ) (rn : NdArr) (mask : Option (List Bool))
  | samplePath
  | timeWindow
  | timeStep

/-- What a call returns. -/
inductive Out (A : ProcApi G)
  | unit
  | obs (o : A.Obs)
  | path (x : List A.X)
  | window (t : List ℝ)
  | step (dt : ℝ)

/-- Run one call: its result (or exception) and the object afterwards. -/
def Op.run {A : ProcApi G} (o : A.Obj) : Op A → Py (Out A) × A.Obj
  | .setSigma v => let r := A.setSigma o v; (r.1.map fun _ => .unit, r.2)
  | .setTheta v => let r := A.setTheta o v; (r.1.map fun _ => .unit, r.2)
  | .setPath x => (.ok .unit, A.withBase o ((A.base o).setSamplePath x))
  | .setWindow t => (.ok .unit, A.withBase o ((A.base o).setTimeWindow t))
  | .makeTrajectory t0 tf dt mu => let r := A.makeTrajectory o t0 tf dt mu; (r.1.map fun _ => .unit, r.2)
  | .collectObs n rn mask => let r := A.collectObs (A.base o) n rn mask; (r.1.map .obs, A.withBase o r.2)
  | .samplePath => ((A.base o).samplePath.map .path, o)
  | .timeWindow => ((A.base o).timeWindow.map .window, o)
  | .timeStep => ((A.base o).timeStep.map .step, o)

/-- Run a sequence of calls (the caller catches the exceptions): the history of calls with their results, and the
object afterwards. -/
def runOps {A : ProcApi G} : A.Obj → List (Op A) → List (Op A × Py (Out A)) × A.Obj
  | o, [] => ([], o)
  | o, op :: ops =>
    let r := op.run o
    let rest := runOps r.2 ops
    ((op, r.1) :: rest.1, rest.2)

end

end VGPA
