import Verif.Model.IeeeEnergy

/-!
# The gradient in any arithmetic, one dimension

What `gradient(x, eval_fun=True)` computes, as in `Verif.Model.Ode`, `DoubleWell`, `Likelihood` and `VarGP`, for any kind of numbers, with the operations in the order of
the source. With `Flt` these are the numbers that Python has; that it is the program of `VarGP` with real numbers is proved (`C148_same_gradient_ou`,
`C148_same_gradient_dw`). The derivatives with respect to the parameters of the process and of the noise are left out: no result depends on them.
-/

namespace VGPA

noncomputable section

variable {α : Type} [Zero α] [Neg α] [Add α] [Sub α] [Mul α] [Div α]

/-- `fun_lam`, `/repo/src/numerics/ode_solver.py:62-77`. -/
def funLamF (df_dm at_ lam_t : α) : α := -df_dm + lam_t * at_

/-- `fun_psi`, `/repo/src/numerics/ode_solver.py:79-95`. -/
def funPsiF (L : Libm α) (df_ds at_ psi_t : α) : α := -df_ds + L.lit 2 * psi_t * at_

/-- One turn of the loop of `solve_bwd`: `/repo/src/numerics/euler.py:137-148`, `heun.py:156-184`, `runge_kutta2.py:168-188`, `runge_kutta4.py:174-205`. -/
def stepBwdF (L : Libm α) (method : Method) (dt : α) (lin_a dEsde_dm dEsde_ds dEobs_dm dEobs_ds : List α) (t : ℕ) (x : α × α) : Py (α × α) := do
  let lam_t := x.1
  let psi_t := x.2
  let h := L.lit (1 / 2) * dt
  let at_ ← idx lin_a t
  match method with
  | .euler =>
    let em ← idx dEsde_dm t
    let om ← idx dEobs_dm (t - 1)
    let es ← idx dEsde_ds t
    let os ← idx dEobs_ds (t - 1)
    pure (lam_t - funLamF em at_ lam_t * dt + om, psi_t - funPsiF L es at_ psi_t * dt + os)
  | .heun =>
    let ak ← idx lin_a (t - 1)
    let em ← idx dEsde_dm t
    let em1 ← idx dEsde_dm (t - 1)
    let om ← idx dEobs_dm (t - 1)
    let es ← idx dEsde_ds t
    let es1 ← idx dEsde_ds (t - 1)
    let os ← idx dEobs_ds (t - 1)
    let f_predict := funLamF em at_ lam_t
    let f_correct := funLamF em1 ak (lam_t - f_predict * dt)
    let g_predict := funPsiF L es at_ psi_t
    let g_correct := funPsiF L es1 ak (psi_t - g_predict * dt)
    pure (lam_t - h * (f_predict + f_correct) + om, psi_t - h * (g_predict + g_correct) + os)
  | .rk2 =>
    let ak ← idx (midpointsF L lin_a ++ [0]) (t - 1)
    let dEmk ← idx (midpointsF L dEsde_dm ++ [0]) (t - 1)
    let dEsk ← idx (midpointsF L dEsde_ds ++ [0]) (t - 1)
    let em ← idx dEsde_dm t
    let om ← idx dEobs_dm (t - 1)
    let es ← idx dEsde_ds t
    let os ← idx dEobs_ds (t - 1)
    let lamk := lam_t - h * funLamF em at_ lam_t
    let psik := psi_t - h * funPsiF L es at_ psi_t
    pure (lam_t - dt * funLamF dEmk ak lamk + om, psi_t - dt * funPsiF L dEsk ak psik + os)
  | .rk4 =>
    let ak ← idx (midpointsF L lin_a ++ [0]) (t - 1)
    let dEmk ← idx (midpointsF L dEsde_dm ++ [0]) (t - 1)
    let dEsk ← idx (midpointsF L dEsde_ds ++ [0]) (t - 1)
    let em ← idx dEsde_dm t
    let em1 ← idx dEsde_dm (t - 1)
    let a1 ← idx lin_a (t - 1)
    let om ← idx dEobs_dm (t - 1)
    let es ← idx dEsde_ds t
    let es1 ← idx dEsde_ds (t - 1)
    let os ← idx dEobs_ds (t - 1)
    let K1 := funLamF em at_ lam_t
    let K2 := funLamF dEmk ak (lam_t - h * K1)
    let K3 := funLamF dEmk ak (lam_t - h * K2)
    let K4 := funLamF em1 a1 (lam_t - dt * K3)
    let L1 := funPsiF L es at_ psi_t
    let L2 := funPsiF L dEsk ak (psi_t - h * L1)
    let L3 := funPsiF L dEsk ak (psi_t - h * L2)
    let L4 := funPsiF L es1 a1 (psi_t - dt * L3)
    pure (lam_t - dt * (K1 + L.lit 2 * (K2 + K3) + K4) / L.lit 6 + om, psi_t - dt * (L1 + L.lit 2 * (L2 + L3) + L4) / L.lit 6 + os)

/-- `solve_bwd`, `/repo/src/numerics/euler.py:94-154`, `heun.py:113-190`, `runge_kutta2.py:104-194`, `runge_kutta4.py:115-211`. -/
def solveBwdF (L : Libm α) (method : Method) (dt : α) (lin_a dEsde_dm dEsde_ds dEobs_dm dEobs_ds : List α) : Py (List α × List α) := do
  let lp ← bwdSweep dEsde_dm.length (stepBwdF L method dt lin_a dEsde_dm dEsde_ds dEobs_dm dEobs_ds)
  pure (lp.map Prod.fst, lp.map Prod.snd)

/-- What `energy` returns for one time, apart from the energy. -/
structure PointG (α : Type) where
  Ef : α
  Edf : α
  dm : α
  ds : α

/-- `/repo/src/dynamics/ornstein_uhlenbeck.py:200-219`. -/
def ouGradF (L : Libm α) (theta sigma a b m : α) : PointG α where
  Ef := -theta * m
  Edf := -theta * L.lit 1
  dm := (m * L.pow (theta - a) 2 + theta * b - a * b) / sigma
  ds := L.lit (1 / 2) * L.pow (theta - a) 2 / sigma

/-- `/repo/src/dynamics/double_well.py:202-250`, with the moments and derivatives of `/repo/src/var_bayes/gaussian_moments.py:58-194`. -/
def dwGradF (L : Libm α) (theta sigma a b m s : α) : PointG α :=
  let c := L.lit 4 * theta + a
  let c2 := L.pow c 2
  let Ex2 := L.pow m 2 + s
  let Ex3 := L.pow m 3 + L.lit 3 * m * s
  let Dm2 := L.lit 2 * m
  let Ds2 := L.lit 1
  let Dm3 := L.lit 3 * (L.pow m 2 + s)
  let Ds3 := L.lit 3 * m
  let Dm4 := L.lit 4 * (L.pow m 3 + L.lit 3 * m * s)
  let Ds4 := L.lit 6 * (L.pow m 2 + s)
  let Dm6 := L.lit 6 * (L.pow m 5 + L.lit 10 * L.pow m 3 * s + L.lit 15 * m * L.pow s 2)
  let Ds6 := L.lit 15 * L.pow m 4 + L.lit 90 * L.pow m 2 * s + L.lit 45 * L.pow s 2
  { Ef := L.lit 4 * (theta * m - Ex3)
    Edf := L.lit 4 * (theta - L.lit 3 * Ex2)
    dm := L.lit (1 / 2) * (L.lit 16 * Dm6 - L.lit 8 * c * Dm4 + L.lit 8 * b * Dm3 + c2 * Dm2 - L.lit 2 * b * c) / sigma
    ds := L.lit (1 / 2) * (L.lit 16 * Ds6 - L.lit 8 * c * Ds4 + L.lit 8 * b * Ds3 + c2 * Ds2) / sigma }

/-- Which of the two one-dimensional processes. -/
def Proc1.gradF (L : Libm α) : Proc1 → α → α → α → α → α → α → PointG α
  | .ou => fun theta sigma a b m _ => ouGradF L theta sigma a b m
  | .dw => dwGradF L

/-- The first two results of `gradients_1d(m, s)`, `/repo/src/var_bayes/gaussian_like.py:155-198`. -/
def gaussGradF (L : Libm α) (obs_v : List α) (obs_t : List ℕ) (noise obs_h : α) (m : List α) : Py (List α × List α) := do
  let mo ← fancy m obs_t
  let W ← bcast (fun y m => y - obs_h * m) obs_v mo
  let dm ← fancySet (List.replicate m.length 0) obs_t (W.map fun w => -w / noise)
  let ds ← fancySet (List.replicate m.length 0) obs_t (obs_t.map fun _ => L.lit (1 / 2) / noise)
  pure (dm, ds)

/-- The numbers that a `VarGP` holds, with those that only the gradient needs. -/
structure VgpG (α : Type) extends VgpF α where
  obs_h : α
  method_bwd : Method
  /-- Time step of the backward integrator. -/
  dt_bwd : α

/-- `inverse_sigma`, `/repo/src/dynamics/ornstein_uhlenbeck.py:50,108-119`, `double_well.py:48,104-115`. -/
def VgpG.invSigma (L : Libm α) (o : VgpG α) : α := L.lit 1 / o.sigma

/-- The entries `gLa[k]`, `gLb[k]`, `/repo/src/var_bayes/variational.py:263-283`, `300-333`, scaled with the time step. -/
def gradRowF (L : Libm α) (inv_sigma dt a b m s lam psi : α) (p : PointG α) : α × α :=
  let dEsde_dbt := inv_sigma * (-p.Ef - a * m + b)
  let dEsde_dat := inv_sigma * (p.Edf + a) * s - dEsde_dbt * m
  (dt * (dEsde_dat - lam * m - L.lit 2 * psi * s), dt * (dEsde_dbt + lam))

/-- `gradient(x, eval_fun=True)`, `/repo/src/var_bayes/variational.py:141-289`: the derivatives and the stored multipliers. -/
def VgpG.gradient (L : Libm α) (o : VgpG α) (x : List α) : Py (List α × List α × List α) := do
  let a := x.take (o.dim_n * 1 * 1)
  let b := x.drop (o.dim_n * 1 * 1)
  let (_, m, s) ← o.freeEnergy L x
  let pts := (List.range m.length).map fun i => o.proc.gradF L o.theta o.sigma (a.getD i 0) (b.getD i 0) (m.getD i 0) (s.getD i 0)
  let (om, os) ← gaussGradF L o.obs_v o.obs_t o.obs_n o.obs_h m
  let (lam, psi) ← solveBwdF L o.method_bwd o.dt_bwd a (pts.map PointG.dm) (pts.map PointG.ds) om os
  let rows ← (List.range o.dim_n).mapM fun k => do
    let ak ← idx a k
    let sk ← idx s k
    let mk ← idx m k
    let lamk ← idx lam k
    let pk ← idx pts k
    let bk ← idx b k
    let psik ← idx psi k
    pure (gradRowF L (o.invSigma L) o.time_step ak bk mk sk lamk psik pk)
  pure (rows.map Prod.fst ++ rows.map Prod.snd, lam, psi)

end

end VGPA
