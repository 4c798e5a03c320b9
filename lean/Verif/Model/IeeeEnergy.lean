import Verif.Model.Ieee
import Verif.Model.Ode
import Verif.Model.Numerics
import Verif.Model.Likelihood

/-!
# The free energy in any arithmetic, one dimension

What `free_energy` computes on its way to the number that it returns, as in `Verif.Model.Ode`, `DoubleWell`, `Process`, `Likelihood` and
`VarGP`, for any kind of numbers, with the operations in the order of the source. With `Flt` these are the numbers that Python has; that
it is the program of `VarGP` with real numbers is proved (`C143_same_program`). The parts that do not enter the number (the
backward sweep, the derivatives, the stored expectations) are left out; they can only raise. So can an overflow in `**` or a zero divisor
when all operands are Python's own floats: numpy's rules are used throughout.
-/

namespace VGPA

noncomputable section

/-- Literals, `np.pi`, and what is computed by libraries: `x ** k` for a literal `k`, `np.log`, and `np.sum`. -/
structure Libm (α : Type) where
  lit : ℚ → α
  pi : α
  pow : α → ℕ → α
  log : α → α
  sum : List α → α

namespace Flt

instance : Zero Flt := ⟨Flt.zero false⟩
instance : Neg Flt := ⟨Flt.neg⟩
instance : Add Flt := ⟨Flt.add⟩
instance : Sub Flt := ⟨Flt.sub⟩
instance : Mul Flt := ⟨Flt.mul⟩
instance : Div Flt := ⟨Flt.div⟩

end Flt

variable {α : Type} [Zero α] [Neg α] [Add α] [Sub α] [Mul α] [Div α]

/-- `fun_mt`, `/repo/src/numerics/ode_solver.py:31-45`. -/
def funMtF (mt at_ bt : α) : α := -(at_ * mt) + bt

/-- `fun_st`, `/repo/src/numerics/ode_solver.py:47-60`. -/
def funStF (L : Libm α) (st at_ sn : α) : α := -(L.lit 2 * at_ * st) + sn

/-- `0.5 * (x[0:-1] + x[1:])`, `/repo/src/numerics/runge_kutta2.py:73-75`, `runge_kutta4.py:71-73`. -/
def midpointsF (L : Libm α) (x : List α) : List α := List.zipWith (fun p q => L.lit (1 / 2) * (p + q)) x.dropLast x.tail

/-- One turn of the loop of `solve_fwd`: `/repo/src/numerics/euler.py:73-88`, `heun.py:77-107`, `runge_kutta2.py:78-98`,
`runge_kutta4.py:79-109`. RK2 has the variance in place of `ak` in the predictor of the variance, as the source. -/
def stepF (L : Libm α) (method : Method) (dt : α) (lin_a off_b : List α) (sigma : α) (k : ℕ) (x : α × α) : Py (α × α) := do
  let mk := x.1
  let sk := x.2
  let h := L.lit (1 / 2) * dt
  let ak ← idx lin_a k
  let bk ← idx off_b k
  match method with
  | .euler => pure (mk + funMtF mk ak bk * dt, sk + funStF L sk ak sigma * dt)
  | .heun =>
    let a_plus ← idx lin_a (k + 1)
    let b_plus ← idx off_b (k + 1)
    let f_predict := funMtF mk ak bk
    let f_correct := funMtF (mk + f_predict * dt) a_plus b_plus
    let g_predict := funStF L sk ak sigma
    let g_correct := funStF L (sk + g_predict * dt) a_plus sigma
    pure (mk + h * (f_predict + f_correct), sk + h * (g_predict + g_correct))
  | .rk2 =>
    let a_mid ← idx (midpointsF L lin_a) k
    let b_mid ← idx (midpointsF L off_b) k
    pure (mk + dt * funMtF (mk + h * funMtF mk ak bk) a_mid b_mid, sk + dt * funStF L (sk + h * funStF L sk sk sigma) a_mid sigma)
  | .rk4 =>
    let a_mid ← idx (midpointsF L lin_a) k
    let b_mid ← idx (midpointsF L off_b) k
    let a_next ← idx lin_a (k + 1)
    let b_next ← idx off_b (k + 1)
    let K1 := funMtF mk ak bk
    let K2 := funMtF (mk + h * K1) a_mid b_mid
    let K3 := funMtF (mk + h * K2) a_mid b_mid
    let K4 := funMtF (mk + dt * K3) a_next b_next
    let L1 := funStF L sk ak sigma
    let L2 := funStF L (sk + h * L1) a_mid sigma
    let L3 := funStF L (sk + h * L2) a_mid sigma
    let L4 := funStF L (sk + dt * L3) a_next sigma
    pure (mk + dt * (K1 + L.lit 2 * (K2 + K3) + K4) / L.lit 6, sk + dt * (L1 + L.lit 2 * (L2 + L3) + L4) / L.lit 6)

/-- `solve_fwd`, `/repo/src/numerics/euler.py:27-92`, `heun.py:27-111`, `runge_kutta2.py:24-102`, `runge_kutta4.py:24-113`. -/
def solveFwdF (L : Libm α) (method : Method) (dt : α) (lin_a off_b : List α) (m0 s0 sigma : α) : Py (List α × List α) := do
  let ms ← fwdSweep off_b.length (m0, s0) (stepF L method dt lin_a off_b sigma)
  pure (ms.map Prod.fst, ms.map Prod.snd)

/-- `scipy.integrate.trapezoid(y, dx=dx, axis=0)`: `(dx * (y[1:] + y[:-1]) / 2.0).sum()`. -/
def trapezoidF (L : Libm α) (dx : α) (y : List α) : α :=
  L.sum (List.zipWith (fun p q => dx * (q + p) / L.lit 2) y.dropLast y.tail)

/-- Body of the loop of `my_trapz`, `/repo/src/numerics/utilities.py:184-190`. -/
def trapzBodyF (L : Libm α) (fx : List α) (dx : α) (acc : α × ℕ) (l : ℕ) : α × ℕ :=
  (acc.1 + trapezoidF L dx (slice fx acc.2 (l + 1)), l)

/-- `my_trapz(fx, dx, obs_t)`, `/repo/src/numerics/utilities.py:144-201`, given observation times. -/
def myTrapzF (L : Libm α) (fx : List α) (dx : α) (obs : List ℕ) : α :=
  let r := obs.foldl (trapzBodyF L fx dx) (0, 0)
  if (r.2 : ℤ) ≠ (fx.length : ℤ) - 1 then r.1 + trapezoidF L dx (fx.drop r.2) else r.1

/-- `var_q` of `OrnsteinUhlenbeck.energy` at one time, `/repo/src/dynamics/ornstein_uhlenbeck.py:190-205`, with the moment of
`/repo/src/var_bayes/gaussian_moments.py:58-74`. -/
def ouPointF (L : Libm α) (theta a b m s : α) : α :=
  let Ex2 := L.pow m 2 + s
  let Q1 := L.pow (theta - a) 2
  Ex2 * Q1 + L.lit 2 * m * (theta - a) * b + L.pow b 2

/-- `var_q` of `DoubleWell.energy` at one time, `/repo/src/dynamics/double_well.py:194-221`, with the moments of
`/repo/src/var_bayes/gaussian_moments.py:58-74`. -/
def dwPointF (L : Libm α) (theta a b m s : α) : α :=
  let c := L.lit 4 * theta + a
  let c2 := L.pow c 2
  let Ex2 := L.pow m 2 + s
  let Ex3 := L.pow m 3 + L.lit 3 * m * s
  let Ex4 := L.pow m 4 + L.lit 6 * L.pow m 2 * s + L.lit 3 * L.pow s 2
  let Ex6 := L.pow m 6 + L.lit 15 * L.pow m 4 * s + L.lit 45 * L.pow m 2 * L.pow s 2 + L.lit 15 * L.pow s 3
  L.lit 8 * (Ex6 - c * Ex4 + b * Ex3) + c2 * Ex2 - L.lit 2 * b * c * m + L.pow b 2

/-- Which of the two one-dimensional processes. -/
inductive Proc1
  | ou
  | dw

/-- `var_q` at one time. -/
def Proc1.pointF (L : Libm α) : Proc1 → α → α → α → α → α → α
  | .ou => ouPointF L
  | .dw => dwPointF L

/-- `Esde` of `energy`, `/repo/src/dynamics/ornstein_uhlenbeck.py:165-232`, `double_well.py:169-260`. Arrays of unequal length raise
(an array of length one, which numpy would stretch, is not modelled). -/
def energyF (L : Libm α) (p : Proc1) (theta sigma dt : α) (a b m s : List α) (obs_t : List ℕ) : Py α :=
  if a.length = m.length ∧ b.length = m.length ∧ s.length = m.length then
    let var_q := (List.range m.length).map fun i => p.pointF L theta (a.getD i 0) (b.getD i 0) (m.getD i 0) (s.getD i 0)
    .ok (L.lit (1 / 2) * myTrapzF L var_q dt obs_t / sigma)
  else .error .valueError

/-- `gauss_1d(m, s)`, `/repo/src/var_bayes/gaussian_like.py:67-94`. -/
def gaussF (L : Libm α) (obs_v : List α) (obs_t : List ℕ) (noise : α) (m s : List α) : Py α := do
  let mo ← fancy m obs_t
  let so ← fancy s obs_t
  let Ex2 := List.zipWith (fun m s => L.pow m 2 + s) mo so
  let q ← bcast (fun y m => L.pow y 2 - L.lit 2 * y * m) obs_v mo
  let r ← bcast (fun q e => q + e) q Ex2
  let dim_m : α := L.lit obs_t.length
  pure (L.lit (1 / 2) * L.sum r / noise + L.lit (1 / 2) * dim_m * (L.log (L.lit 2 * L.pi) + L.log noise))

/-- `gauss_1d(m0, s0)`, `/repo/src/var_bayes/prior_kl0.py:46-65`. -/
def priorF (L : Libm α) (mu0 tau0 m0 s0 : α) : α :=
  let z0 := m0 - mu0;
  -(L.log s0) - L.lit (1 / 2) * (L.lit 1 - L.log tau0) + L.lit (1 / 2) / tau0 * (L.pow z0 2 + s0)

/-- The numbers that a `VarGP` holds. -/
structure VgpF (α : Type) where
  proc : Proc1
  theta : α
  sigma : α
  /-- Time step of the process. -/
  time_step : α
  method : Method
  /-- Time step of the integrator. -/
  dt : α
  obs_v : List α
  obs_t : List ℕ
  obs_n : α
  mu0 : α
  tau0 : α
  m0 : α
  s0 : α
  dim_n : ℕ

/-- The number that `free_energy(x)` returns, with the moments that it stores, `/repo/src/var_bayes/variational.py:141-200`. -/
def VgpF.freeEnergy (L : Libm α) (o : VgpF α) (x : List α) : Py (α × List α × List α) := do
  let linear_a := x.take (o.dim_n * 1 * 1)
  let offset_b := x.drop (o.dim_n * 1 * 1)
  let ms ← solveFwdF L o.method o.dt linear_a offset_b o.m0 o.s0 o.sigma
  let Eobs ← gaussF L o.obs_v o.obs_t o.obs_n ms.1 ms.2
  let Esde ← energyF L o.proc o.theta o.sigma o.time_step linear_a offset_b ms.1 ms.2 o.obs_t
  let E0 := priorF L o.mu0 o.tau0 o.m0 o.s0
  pure (E0 + Esde + Eobs, ms.1, ms.2)

end

end VGPA
