import Verif.Model.Py
import Mathlib.Data.Matrix.Mul

/-!
# The ODE solvers: `src/numerics/{ode_solver,euler,heun,runge_kutta2,runge_kutta4}.py`
and their front-ends `src/var_bayes/{fwd_ode,bwd_ode}.py`

`V` is the type of a mean (a scalar in 1-D, a vector in n-D), `W` the type of a variance and
of a linear parameter (a scalar in 1-D, a matrix in n-D). In the Python code the two roles of
`W` have the same array shape, which is why line 96 of `runge_kutta2.py` can pass a
variance where a linear parameter belongs without raising an error.
-/

namespace VGPA

noncomputable section

/-- The four auxiliary right-hand sides of `OdeSolver`, `/repo/src/numerics/ode_solver.py:31-95`. -/
structure Rhs (V W : Type) where
  /-- `fun_mt(mt, at, bt)` -/
  fun_mt : V → W → V → V
  /-- `fun_st(st, at, sn)` -/
  fun_st : W → W → W → W
  /-- `fun_lam(df_dm, at, lam_t)` -/
  fun_lam : V → W → V → V
  /-- `fun_psi(df_ds, at, psi_t)` -/
  fun_psi : W → W → W → W

/-- `single_dim = True` branches of `/repo/src/numerics/ode_solver.py:44,60,77,94`. -/
def rhs1 : Rhs ℝ ℝ where
  fun_mt mt at_ bt := -(at_ * mt) + bt
  fun_st st at_ sn := -(2 * at_ * st) + sn
  fun_lam df_dm at_ lam_t := -df_dm + lam_t * at_
  fun_psi df_ds at_ psi_t := -df_ds + 2 * psi_t * at_

open Matrix in
/-- `single_dim = False` branches of `/repo/src/numerics/ode_solver.py:44,60,77,94`
(`-at.dot(mt)` is `-(at.dot(mt))`: attribute access binds tighter than the minus sign). -/
def rhsN (d : ℕ) : Rhs (Fin d → ℝ) (Matrix (Fin d) (Fin d) ℝ) where
  fun_mt mt at_ bt := -(at_ *ᵥ mt) + bt
  fun_st st at_ sn := -(at_ * st) - st * at_ᵀ + sn
  fun_lam df_dm at_ lam_t := -df_dm + lam_t ᵥ* at_ᵀ
  fun_psi df_ds at_ psi_t := -df_ds + psi_t * at_ + at_ᵀ * psi_t

section solvers
variable {V W : Type} [AddCommGroup V] [Module ℝ V] [AddCommGroup W] [Module ℝ W]

/-- `0.5 * (x[0:-1] + x[1:])`, e.g. `/repo/src/numerics/runge_kutta2.py:74-75`. -/
def midpoints {X : Type*} [AddCommGroup X] [Module ℝ X] (x : List X) : List X :=
  List.zipWith (fun p q => (0.5 : ℝ) • (p + q)) x.dropLast x.tail

/-- `Euler.solve_fwd`, `/repo/src/numerics/euler.py:27-92`. -/
def Euler.solveFwd (F : Rhs V W) (dt : ℝ) (lin_a : List W) (off_b : List V)
    (m0 : V) (s0 : W) (sigma : W) : Py (List V × List W) := do
  let dim_n := off_b.length
  let ms ← fwdSweep dim_n (m0, s0) fun k (mk, sk) => do
    let ak ← idx lin_a k
    let bk ← idx off_b k
    pure (mk + dt • F.fun_mt mk ak bk, sk + dt • F.fun_st sk ak sigma)
  pure (ms.map Prod.fst, ms.map Prod.snd)

/-- `Euler.solve_bwd`, `/repo/src/numerics/euler.py:94-154`. -/
def Euler.solveBwd (F : Rhs V W) (dt : ℝ) (lin_a : List W) (dEsde_dm : List V) (dEsde_ds : List W)
    (dEobs_dm : List V) (dEobs_ds : List W) : Py (List V × List W) := do
  let dim_n := dEsde_dm.length
  let lp ← bwdSweep dim_n fun t (lamt, psit) => do
    let at_ ← idx lin_a t
    let em ← idx dEsde_dm t
    let om ← idx dEobs_dm (t - 1)
    let es ← idx dEsde_ds t
    let os ← idx dEobs_ds (t - 1)
    pure (lamt - dt • F.fun_lam em at_ lamt + om, psit - dt • F.fun_psi es at_ psit + os)
  pure (lp.map Prod.fst, lp.map Prod.snd)

/-- `Heun.solve_fwd`, `/repo/src/numerics/heun.py:27-111`. -/
def Heun.solveFwd (F : Rhs V W) (dt : ℝ) (lin_a : List W) (off_b : List V)
    (m0 : V) (s0 : W) (sigma : W) : Py (List V × List W) := do
  let dim_n := off_b.length
  let h := 0.5 * dt
  let ms ← fwdSweep dim_n (m0, s0) fun k (mk, sk) => do
    let ak ← idx lin_a k
    let bk ← idx off_b k
    let a_plus ← idx lin_a (k + 1)
    let b_plus ← idx off_b (k + 1)
    let f_predict := F.fun_mt mk ak bk
    let f_correct := F.fun_mt (mk + dt • f_predict) a_plus b_plus
    let m' := mk + h • (f_predict + f_correct)
    let f_predict := F.fun_st sk ak sigma
    let f_correct := F.fun_st (sk + dt • f_predict) a_plus sigma
    let s' := sk + h • (f_predict + f_correct)
    pure (m', s')
  pure (ms.map Prod.fst, ms.map Prod.snd)

/-- `Heun.solve_bwd`, `/repo/src/numerics/heun.py:113-190`. -/
def Heun.solveBwd (F : Rhs V W) (dt : ℝ) (lin_a : List W) (dEsde_dm : List V) (dEsde_ds : List W)
    (dEobs_dm : List V) (dEobs_ds : List W) : Py (List V × List W) := do
  let dim_n := dEsde_dm.length
  let h := 0.5 * dt
  let lp ← bwdSweep dim_n fun t (lamt, psit) => do
    let at_ ← idx lin_a t
    let ak ← idx lin_a (t - 1)
    let em ← idx dEsde_dm t
    let em1 ← idx dEsde_dm (t - 1)
    let om ← idx dEobs_dm (t - 1)
    let es ← idx dEsde_ds t
    let es1 ← idx dEsde_ds (t - 1)
    let os ← idx dEobs_ds (t - 1)
    let f_predict := F.fun_lam em at_ lamt
    let f_correct := F.fun_lam em1 ak (lamt - dt • f_predict)
    let l' := lamt - h • (f_predict + f_correct) + om
    let f_predict := F.fun_psi es at_ psit
    let f_correct := F.fun_psi es1 ak (psit - dt • f_predict)
    let p' := psit - h • (f_predict + f_correct) + os
    pure (l', p')
  pure (lp.map Prod.fst, lp.map Prod.snd)

/-- `RungeKutta2.solve_fwd`, `/repo/src/numerics/runge_kutta2.py:24-102`.
Line 96 calls `fun_st(sk, sk, sigma)`: the second argument is the variance, not `ak`. -/
def RK2.solveFwd (F : Rhs V W) (dt : ℝ) (lin_a : List W) (off_b : List V)
    (m0 : V) (s0 : W) (sigma : W) : Py (List V × List W) := do
  let dim_n := off_b.length
  let h := 0.5 * dt
  let ak_mid := midpoints lin_a
  let bk_mid := midpoints off_b
  let ms ← fwdSweep dim_n (m0, s0) fun k (mk, sk) => do
    let ak ← idx lin_a k
    let bk ← idx off_b k
    let a_mid ← idx ak_mid k
    let b_mid ← idx bk_mid k
    pure (mk + dt • F.fun_mt (mk + h • F.fun_mt mk ak bk) a_mid b_mid,
          sk + dt • F.fun_st (sk + h • F.fun_st sk sk sigma) a_mid sigma)
  pure (ms.map Prod.fst, ms.map Prod.snd)

/-- `RungeKutta2.solve_bwd`, `/repo/src/numerics/runge_kutta2.py:104-194`. -/
def RK2.solveBwd (F : Rhs V W) (dt : ℝ) (lin_a : List W) (dEsde_dm : List V) (dEsde_ds : List W)
    (dEobs_dm : List V) (dEobs_ds : List W) : Py (List V × List W) := do
  let h := 0.5 * dt
  let dim_n := dEsde_dm.length
  let ak_mid : List W := midpoints lin_a ++ [0]
  let dEmk_mid : List V := midpoints dEsde_dm ++ [0]
  let dEsk_mid : List W := midpoints dEsde_ds ++ [0]
  let lp ← bwdSweep dim_n fun t (lam_t, psi_t) => do
    let at_ ← idx lin_a t
    let ak ← idx ak_mid (t - 1)
    let dEmk ← idx dEmk_mid (t - 1)
    let dEsk ← idx dEsk_mid (t - 1)
    let em ← idx dEsde_dm t
    let om ← idx dEobs_dm (t - 1)
    let es ← idx dEsde_ds t
    let os ← idx dEobs_ds (t - 1)
    let lamk := lam_t - h • F.fun_lam em at_ lam_t
    let l' := lam_t - dt • F.fun_lam dEmk ak lamk + om
    let psik := psi_t - h • F.fun_psi es at_ psi_t
    let p' := psi_t - dt • F.fun_psi dEsk ak psik + os
    pure (l', p')
  pure (lp.map Prod.fst, lp.map Prod.snd)

/-- `RungeKutta4.solve_fwd`, `/repo/src/numerics/runge_kutta4.py:24-113`
(`dt * (...) / 6.0` is written as two scalar multiplications). -/
def RK4.solveFwd (F : Rhs V W) (dt : ℝ) (lin_a : List W) (off_b : List V)
    (m0 : V) (s0 : W) (sigma : W) : Py (List V × List W) := do
  let dim_n := off_b.length
  let ak_mid := midpoints lin_a
  let bk_mid := midpoints off_b
  let h := 0.5 * dt
  let ms ← fwdSweep dim_n (m0, s0) fun k (mk, sk) => do
    let ak ← idx lin_a k
    let bk ← idx off_b k
    let a_mid ← idx ak_mid k
    let b_mid ← idx bk_mid k
    let a_next ← idx lin_a (k + 1)
    let b_next ← idx off_b (k + 1)
    let K1 := F.fun_mt mk ak bk
    let K2 := F.fun_mt (mk + h • K1) a_mid b_mid
    let K3 := F.fun_mt (mk + h • K2) a_mid b_mid
    let K4 := F.fun_mt (mk + dt • K3) a_next b_next
    let m' := mk + (1 / 6 : ℝ) • (dt • (K1 + (2 : ℝ) • (K2 + K3) + K4))
    let L1 := F.fun_st sk ak sigma
    let L2 := F.fun_st (sk + h • L1) a_mid sigma
    let L3 := F.fun_st (sk + h • L2) a_mid sigma
    let L4 := F.fun_st (sk + dt • L3) a_next sigma
    let s' := sk + (1 / 6 : ℝ) • (dt • (L1 + (2 : ℝ) • (L2 + L3) + L4))
    pure (m', s')
  pure (ms.map Prod.fst, ms.map Prod.snd)

/-- `RungeKutta4.solve_bwd`, `/repo/src/numerics/runge_kutta4.py:115-211`. -/
def RK4.solveBwd (F : Rhs V W) (dt : ℝ) (lin_a : List W) (dEsde_dm : List V) (dEsde_ds : List W)
    (dEobs_dm : List V) (dEobs_ds : List W) : Py (List V × List W) := do
  let h := 0.5 * dt
  let dim_n := dEsde_dm.length
  let ak_mid : List W := midpoints lin_a ++ [0]
  let dEmk_mid : List V := midpoints dEsde_dm ++ [0]
  let dEsk_mid : List W := midpoints dEsde_ds ++ [0]
  let lp ← bwdSweep dim_n fun t (lam_t, psi_t) => do
    let at_ ← idx lin_a t
    let ak ← idx ak_mid (t - 1)
    let dEmk ← idx dEmk_mid (t - 1)
    let dEsk ← idx dEsk_mid (t - 1)
    let em ← idx dEsde_dm t
    let em1 ← idx dEsde_dm (t - 1)
    let a1 ← idx lin_a (t - 1)
    let om ← idx dEobs_dm (t - 1)
    let es ← idx dEsde_ds t
    let es1 ← idx dEsde_ds (t - 1)
    let os ← idx dEobs_ds (t - 1)
    let K1 := F.fun_lam em at_ lam_t
    let K2 := F.fun_lam dEmk ak (lam_t - h • K1)
    let K3 := F.fun_lam dEmk ak (lam_t - h • K2)
    let K4 := F.fun_lam em1 a1 (lam_t - dt • K3)
    let l' := lam_t - (1 / 6 : ℝ) • (dt • (K1 + (2 : ℝ) • (K2 + K3) + K4)) + om
    let L1 := F.fun_psi es at_ psi_t
    let L2 := F.fun_psi dEsk ak (psi_t - h • L1)
    let L3 := F.fun_psi dEsk ak (psi_t - h • L2)
    let L4 := F.fun_psi es1 a1 (psi_t - dt • L3)
    let p' := psi_t - (1 / 6 : ℝ) • (dt • (L1 + (2 : ℝ) • (L2 + L3) + L4)) + os
    pure (l', p')
  pure (lp.map Prod.fst, lp.map Prod.snd)

/-- The four integration classes, i.e. the values of the dictionary `num_integration`,
`/repo/src/numerics/utilities.py:12-13`. -/
inductive Method | euler | heun | rk2 | rk4
  deriving DecidableEq, Repr

/-- Dispatch to the `solve_fwd` of the chosen class, `/repo/src/var_bayes/fwd_ode.py:45-65`. -/
def solveFwd (meth : Method) (F : Rhs V W) (dt : ℝ) (lin_a : List W) (off_b : List V)
    (m0 : V) (s0 : W) (sigma : W) : Py (List V × List W) :=
  match meth with
  | .euler => Euler.solveFwd F dt lin_a off_b m0 s0 sigma
  | .heun => Heun.solveFwd F dt lin_a off_b m0 s0 sigma
  | .rk2 => RK2.solveFwd F dt lin_a off_b m0 s0 sigma
  | .rk4 => RK4.solveFwd F dt lin_a off_b m0 s0 sigma

/-- Dispatch to the `solve_bwd` of the chosen class, `/repo/src/var_bayes/bwd_ode.py:45-65`. -/
def solveBwd (meth : Method) (F : Rhs V W) (dt : ℝ) (lin_a : List W) (dEsde_dm : List V)
    (dEsde_ds : List W) (dEobs_dm : List V) (dEobs_ds : List W) : Py (List V × List W) :=
  match meth with
  | .euler => Euler.solveBwd F dt lin_a dEsde_dm dEsde_ds dEobs_dm dEobs_ds
  | .heun => Heun.solveBwd F dt lin_a dEsde_dm dEsde_ds dEobs_dm dEobs_ds
  | .rk2 => RK2.solveBwd F dt lin_a dEsde_dm dEsde_ds dEobs_dm dEobs_ds
  | .rk4 => RK4.solveBwd F dt lin_a dEsde_dm dEsde_ds dEobs_dm dEobs_ds

end solvers

/-- Lookup in the dictionary `num_integration`, `/repo/src/numerics/utilities.py:12-13`. -/
def numIntegration (name : String) : Py Method :=
  if name = "euler" then .ok .euler
  else if name = "heun" then .ok .heun
  else if name = "rk2" then .ok .rk2
  else if name = "rk4" then .ok .rk4
  else .error .keyError

/-- State of a `FwdOde` / `BwdOde` object: slots `dt`, `method`, `solver`. -/
structure OdeFrontEnd where
  dt : ℝ
  method : String
  solver : Method

/-- The base-class constructor check `OdeSolver.__init__`, `/repo/src/numerics/ode_solver.py:21-25`,
run by the solver constructors. -/
def solverInit (m : Method) (dt : ℝ) : Py Method :=
  if dt ≤ 0 then .error .valueError else .ok m


/-- `FwdOde.__init__`, `/repo/src/var_bayes/fwd_ode.py:14-43`. Letter case is ASCII only here.
The `try` block only catches `KeyError`. -/
def FwdOde.init (dt : ℝ) (method : String) : Py OdeFrontEnd :=
  if dt ≤ 0 then .error .valueError
  else
    let method_str := pyLower method
    match (do let m ← numIntegration method_str; solverInit m dt) with
    | .ok s => .ok { dt := dt, method := method, solver := s }
    | .error .keyError => .error .valueError
    | .error e => .error e


/-- `BwdOde.__init__`, `/repo/src/var_bayes/bwd_ode.py:14-43` (stores the lower-cased name). -/
def BwdOde.init (dt : ℝ) (method : String) : Py OdeFrontEnd :=
  if dt ≤ 0 then .error .valueError
  else
    let method_str := pyLower method
    match (do let m ← numIntegration method_str; solverInit m dt) with
    | .ok s => .ok { dt := dt, method := method_str, solver := s }
    | .error .keyError => .error .valueError
    | .error e => .error e

end

end VGPA
