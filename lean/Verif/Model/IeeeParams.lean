import Verif.Model.Ieee
import Verif.Model.Process

/-!
# Parameters of the one dimensional processes and of the solvers, in double precision

The same constructors and setters as in `Verif.Model.DoubleWell` and `Verif.Model.Ode`, with the numbers that Python has. `json.load` accepts `NaN`,
`Infinity` and `-Infinity` in a parameter file, so these reach the constructors. Only the checks and what they store are modelled here: the generator, the
sample path and the printing are left out.
-/

namespace VGPA

noncomputable section

/-- The three parameter slots of `DoubleWell` and of `OrnsteinUhlenbeck`, `/repo/src/dynamics/double_well.py:21`,
`/repo/src/dynamics/ornstein_uhlenbeck.py:15`. -/
structure FProc where
  sigma : Flt
  theta : Flt
  sig_inv : Flt

/-- `DoubleWell.__init__`, `/repo/src/dynamics/double_well.py:40-51`. -/
def FProc.initDW (sigma theta : Flt) : Py FProc :=
  if sigma.le (.zero false) then .error .valueError
  else .ok { sigma, theta, sig_inv := (Flt.lit 1).div sigma }

/-- `OrnsteinUhlenbeck.__init__`, `/repo/src/dynamics/ornstein_uhlenbeck.py:34-50`. -/
def FProc.initOU (sigma theta : Flt) : Py FProc :=
  if sigma.le (.zero false) then .error .valueError
  else if theta.le (.zero false) then .error .valueError
  else .ok { sigma, theta, sig_inv := (Flt.lit 1).div sigma }

/-- `sigma.setter`, the same in both classes, `/repo/src/dynamics/double_well.py:97-105`,
`/repo/src/dynamics/ornstein_uhlenbeck.py:101-109`. -/
def FProc.setSigma (o : FProc) (v : Flt) : Py Unit × FProc :=
  if v.le (.zero false) then (.error .valueError, o)
  else (.ok (), { o with sigma := v, sig_inv := (Flt.lit 1).div v })

/-- `DoubleWell.theta.setter`, `/repo/src/dynamics/double_well.py:64-73`. -/
def FProc.setThetaDW (o : FProc) (v : Flt) : Py Unit × FProc := (.ok (), { o with theta := v })

/-- `OrnsteinUhlenbeck.theta.setter`, `/repo/src/dynamics/ornstein_uhlenbeck.py:73-78`. -/
def FProc.setThetaOU (o : FProc) (v : Flt) : Py Unit × FProc :=
  if v.le (.zero false) then (.error .valueError, o) else (.ok (), { o with theta := v })

/-- The check of the time step, the same in `OdeSolver.__init__`, `FwdOde.__init__` and `BwdOde.__init__`,
`/repo/src/numerics/ode_solver.py:21-25`, `/repo/src/var_bayes/fwd_ode.py:25-28`, `/repo/src/var_bayes/bwd_ode.py:25-28`: the stored step. -/
def odeStep (dt : Flt) : Py Flt := if dt.le (.zero false) then .error .valueError else .ok dt

end

end VGPA
