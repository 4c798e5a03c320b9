import Verif.Model.Ode

/-!
# The integrators in rounded arithmetic

The same programs as in `Verif.Model.Ode`, statement by statement, with the operations of a machine instead of exact ones. Only the
forward and backward sweeps are modelled like this. Left out: overflow, underflow and NaN.
-/

namespace VGPA

noncomputable section

/-- Element-wise operations on arrays of one shape, as numpy offers them: `x + y`, `x - y`, `c * x`, `x / c`. -/
structure ArrOps (X : Type) where
  add : X → X → X
  sub : X → X → X
  smul : ℝ → X → X
  sdiv : X → ℝ → X

/-- The operations that the integrators use: the product of two numbers, the operations on vectors and matrices, and the right-hand sides. -/
structure Machine (V W : Type) where
  mul : ℝ → ℝ → ℝ
  v : ArrOps V
  w : ArrOps W
  rhs : Rhs V W

section solvers
variable {V W : Type} [Zero V] [Zero W]

/-- `0.5 * (x[0:-1] + x[1:])`, e.g. `/repo/src/numerics/runge_kutta2.py:74-75`. -/
def ArrOps.midpoints {X : Type} (o : ArrOps X) (x : List X) : List X :=
  List.zipWith (fun p q => o.smul 0.5 (o.add p q)) x.dropLast x.tail

/-- `Euler.solve_fwd`, `/repo/src/numerics/euler.py:27-92`. -/
def Machine.eulerFwd (M : Machine V W) (dt : ℝ) (lin_a : List W) (off_b : List V) (m0 : V) (s0 : W) (sigma : W) : Py (List V × List W) := do
  let dim_n := off_b.length
  let ms ← fwdSweep dim_n (m0, s0) fun k (mk_, sk) => do
    let ak ← idx lin_a k
    let bk ← idx off_b k
    pure (M.v.add mk_ (M.v.smul dt (M.rhs.fun_mt mk_ ak bk)), M.w.add sk (M.w.smul dt (M.rhs.fun_st sk ak sigma)))
  pure (ms.map Prod.fst, ms.map Prod.snd)

/-- `Euler.solve_bwd`, `/repo/src/numerics/euler.py:94-154`. -/
def Machine.eulerBwd (M : Machine V W) (dt : ℝ) (lin_a : List W) (dEsde_dm : List V) (dEsde_ds : List W)
    (dEobs_dm : List V) (dEobs_ds : List W) : Py (List V × List W) := do
  let dim_n := dEsde_dm.length
  let lp ← bwdSweep dim_n fun t (lamt, psit) => do
    let at_ ← idx lin_a t
    let em ← idx dEsde_dm t
    let om ← idx dEobs_dm (t - 1)
    let es ← idx dEsde_ds t
    let os ← idx dEobs_ds (t - 1)
    pure (M.v.add (M.v.sub lamt (M.v.smul dt (M.rhs.fun_lam em at_ lamt))) om, M.w.add (M.w.sub psit (M.w.smul dt (M.rhs.fun_psi es at_ psit))) os)
  pure (lp.map Prod.fst, lp.map Prod.snd)

/-- `Heun.solve_fwd`, `/repo/src/numerics/heun.py:27-111`. -/
def Machine.heunFwd (M : Machine V W) (dt : ℝ) (lin_a : List W) (off_b : List V) (m0 : V) (s0 : W) (sigma : W) : Py (List V × List W) := do
  let dim_n := off_b.length
  let h := M.mul 0.5 dt
  let ms ← fwdSweep dim_n (m0, s0) fun k (mk_, sk) => do
    let ak ← idx lin_a k
    let bk ← idx off_b k
    let a_plus ← idx lin_a (k + 1)
    let b_plus ← idx off_b (k + 1)
    let f_predict := M.rhs.fun_mt mk_ ak bk
    let f_correct := M.rhs.fun_mt (M.v.add mk_ (M.v.smul dt f_predict)) a_plus b_plus
    let m' := M.v.add mk_ (M.v.smul h (M.v.add f_predict f_correct))
    let f_predict := M.rhs.fun_st sk ak sigma
    let f_correct := M.rhs.fun_st (M.w.add sk (M.w.smul dt f_predict)) a_plus sigma
    let s' := M.w.add sk (M.w.smul h (M.w.add f_predict f_correct))
    pure (m', s')
  pure (ms.map Prod.fst, ms.map Prod.snd)

/-- `Heun.solve_bwd`, `/repo/src/numerics/heun.py:113-190`. -/
def Machine.heunBwd (M : Machine V W) (dt : ℝ) (lin_a : List W) (dEsde_dm : List V) (dEsde_ds : List W)
    (dEobs_dm : List V) (dEobs_ds : List W) : Py (List V × List W) := do
  let dim_n := dEsde_dm.length
  let h := M.mul 0.5 dt
  let lp ← bwdSweep dim_n fun t (lamt, psit) => do
    let at_ ← idx lin_a t
    let ak ← idx lin_a (t - 1)
    let em ← idx dEsde_dm t
    let em1 ← idx dEsde_dm (t - 1)
    let om ← idx dEobs_dm (t - 1)
    let es ← idx dEsde_ds t
    let es1 ← idx dEsde_ds (t - 1)
    let os ← idx dEobs_ds (t - 1)
    let f_predict := M.rhs.fun_lam em at_ lamt
    let f_correct := M.rhs.fun_lam em1 ak (M.v.sub lamt (M.v.smul dt f_predict))
    let l' := M.v.add (M.v.sub lamt (M.v.smul h (M.v.add f_predict f_correct))) om
    let f_predict := M.rhs.fun_psi es at_ psit
    let f_correct := M.rhs.fun_psi es1 ak (M.w.sub psit (M.w.smul dt f_predict))
    let p' := M.w.add (M.w.sub psit (M.w.smul h (M.w.add f_predict f_correct))) os
    pure (l', p')
  pure (lp.map Prod.fst, lp.map Prod.snd)

/-- `RungeKutta2.solve_fwd`, `/repo/src/numerics/runge_kutta2.py:24-102`. -/
def Machine.rk2Fwd (M : Machine V W) (dt : ℝ) (lin_a : List W) (off_b : List V) (m0 : V) (s0 : W) (sigma : W) : Py (List V × List W) := do
  let dim_n := off_b.length
  let h := M.mul 0.5 dt
  let ak_mid := M.w.midpoints lin_a
  let bk_mid := M.v.midpoints off_b
  let ms ← fwdSweep dim_n (m0, s0) fun k (mk_, sk) => do
    let ak ← idx lin_a k
    let bk ← idx off_b k
    let a_mid ← idx ak_mid k
    let b_mid ← idx bk_mid k
    pure (M.v.add mk_ (M.v.smul dt (M.rhs.fun_mt (M.v.add mk_ (M.v.smul h (M.rhs.fun_mt mk_ ak bk))) a_mid b_mid)),
          M.w.add sk (M.w.smul dt (M.rhs.fun_st (M.w.add sk (M.w.smul h (M.rhs.fun_st sk sk sigma))) a_mid sigma)))
  pure (ms.map Prod.fst, ms.map Prod.snd)

/-- `RungeKutta2.solve_bwd`, `/repo/src/numerics/runge_kutta2.py:104-194`. -/
def Machine.rk2Bwd (M : Machine V W) (dt : ℝ) (lin_a : List W) (dEsde_dm : List V) (dEsde_ds : List W)
    (dEobs_dm : List V) (dEobs_ds : List W) : Py (List V × List W) := do
  let h := M.mul 0.5 dt
  let dim_n := dEsde_dm.length
  let ak_mid : List W := M.w.midpoints lin_a ++ [0]
  let dEmk_mid : List V := M.v.midpoints dEsde_dm ++ [0]
  let dEsk_mid : List W := M.w.midpoints dEsde_ds ++ [0]
  let lp ← bwdSweep dim_n fun t (lam_t, psi_t) => do
    let at_ ← idx lin_a t
    let ak ← idx ak_mid (t - 1)
    let dEmk ← idx dEmk_mid (t - 1)
    let dEsk ← idx dEsk_mid (t - 1)
    let em ← idx dEsde_dm t
    let om ← idx dEobs_dm (t - 1)
    let es ← idx dEsde_ds t
    let os ← idx dEobs_ds (t - 1)
    let lamk := M.v.sub lam_t (M.v.smul h (M.rhs.fun_lam em at_ lam_t))
    let l' := M.v.add (M.v.sub lam_t (M.v.smul dt (M.rhs.fun_lam dEmk ak lamk))) om
    let psik := M.w.sub psi_t (M.w.smul h (M.rhs.fun_psi es at_ psi_t))
    let p' := M.w.add (M.w.sub psi_t (M.w.smul dt (M.rhs.fun_psi dEsk ak psik))) os
    pure (l', p')
  pure (lp.map Prod.fst, lp.map Prod.snd)

/-- The combination `dt * (K1 + 2.0 * (K2 + K3) + K4) / 6.0`, e.g. `/repo/src/numerics/runge_kutta4.py:99`. -/
def ArrOps.combine {X : Type} (o : ArrOps X) (dt : ℝ) (K1 K2 K3 K4 : X) : X :=
  o.sdiv (o.smul dt (o.add (o.add K1 (o.smul 2 (o.add K2 K3))) K4)) 6

/-- `RungeKutta4.solve_fwd`, `/repo/src/numerics/runge_kutta4.py:24-113`. -/
def Machine.rk4Fwd (M : Machine V W) (dt : ℝ) (lin_a : List W) (off_b : List V) (m0 : V) (s0 : W) (sigma : W) : Py (List V × List W) := do
  let dim_n := off_b.length
  let ak_mid := M.w.midpoints lin_a
  let bk_mid := M.v.midpoints off_b
  let h := M.mul 0.5 dt
  let ms ← fwdSweep dim_n (m0, s0) fun k (mk_, sk) => do
    let ak ← idx lin_a k
    let bk ← idx off_b k
    let a_mid ← idx ak_mid k
    let b_mid ← idx bk_mid k
    let a_next ← idx lin_a (k + 1)
    let b_next ← idx off_b (k + 1)
    let K1 := M.rhs.fun_mt mk_ ak bk
    let K2 := M.rhs.fun_mt (M.v.add mk_ (M.v.smul h K1)) a_mid b_mid
    let K3 := M.rhs.fun_mt (M.v.add mk_ (M.v.smul h K2)) a_mid b_mid
    let K4 := M.rhs.fun_mt (M.v.add mk_ (M.v.smul dt K3)) a_next b_next
    let m' := M.v.add mk_ (M.v.combine dt K1 K2 K3 K4)
    let L1 := M.rhs.fun_st sk ak sigma
    let L2 := M.rhs.fun_st (M.w.add sk (M.w.smul h L1)) a_mid sigma
    let L3 := M.rhs.fun_st (M.w.add sk (M.w.smul h L2)) a_mid sigma
    let L4 := M.rhs.fun_st (M.w.add sk (M.w.smul dt L3)) a_next sigma
    let s' := M.w.add sk (M.w.combine dt L1 L2 L3 L4)
    pure (m', s')
  pure (ms.map Prod.fst, ms.map Prod.snd)

/-- `RungeKutta4.solve_bwd`, `/repo/src/numerics/runge_kutta4.py:115-211`. -/
def Machine.rk4Bwd (M : Machine V W) (dt : ℝ) (lin_a : List W) (dEsde_dm : List V) (dEsde_ds : List W)
    (dEobs_dm : List V) (dEobs_ds : List W) : Py (List V × List W) := do
  let h := M.mul 0.5 dt
  let dim_n := dEsde_dm.length
  let ak_mid : List W := M.w.midpoints lin_a ++ [0]
  let dEmk_mid : List V := M.v.midpoints dEsde_dm ++ [0]
  let dEsk_mid : List W := M.w.midpoints dEsde_ds ++ [0]
  let lp ← bwdSweep dim_n fun t (lam_t, psi_t) => do
    let at_ ← idx lin_a t
    let ak ← idx ak_mid (t - 1)
    let dEmk ← idx dEmk_mid (t - 1)
    let dEsk ← idx dEsk_mid (t - 1)
    let em ← idx dEsde_dm t
    let em1 ← idx dEsde_dm (t - 1)
    let a1 ← idx lin_a (t - 1)
    let om ← idx dEobs_dm (t - 1)
    let es ← idx dEsde_ds t
    let es1 ← idx dEsde_ds (t - 1)
    let os ← idx dEobs_ds (t - 1)
    let K1 := M.rhs.fun_lam em at_ lam_t
    let K2 := M.rhs.fun_lam dEmk ak (M.v.sub lam_t (M.v.smul h K1))
    let K3 := M.rhs.fun_lam dEmk ak (M.v.sub lam_t (M.v.smul h K2))
    let K4 := M.rhs.fun_lam em1 a1 (M.v.sub lam_t (M.v.smul dt K3))
    let l' := M.v.add (M.v.sub lam_t (M.v.combine dt K1 K2 K3 K4)) om
    let L1 := M.rhs.fun_psi es at_ psi_t
    let L2 := M.rhs.fun_psi dEsk ak (M.w.sub psi_t (M.w.smul h L1))
    let L3 := M.rhs.fun_psi dEsk ak (M.w.sub psi_t (M.w.smul h L2))
    let L4 := M.rhs.fun_psi es1 a1 (M.w.sub psi_t (M.w.smul dt L3))
    let p' := M.w.add (M.w.sub psi_t (M.w.combine dt L1 L2 L3 L4)) os
    pure (l', p')
  pure (lp.map Prod.fst, lp.map Prod.snd)

/-- Dispatch to the `solve_fwd` of the chosen class, `/repo/src/var_bayes/fwd_ode.py:45-65`. -/
def Machine.solveFwd (M : Machine V W) (meth : Method) (dt : ℝ) (lin_a : List W) (off_b : List V) (m0 : V) (s0 : W) (sigma : W) :
    Py (List V × List W) :=
  match meth with
  | .euler => M.eulerFwd dt lin_a off_b m0 s0 sigma
  | .heun => M.heunFwd dt lin_a off_b m0 s0 sigma
  | .rk2 => M.rk2Fwd dt lin_a off_b m0 s0 sigma
  | .rk4 => M.rk4Fwd dt lin_a off_b m0 s0 sigma

/-- Dispatch to the `solve_bwd` of the chosen class, `/repo/src/var_bayes/bwd_ode.py:45-65`. -/
def Machine.solveBwd (M : Machine V W) (meth : Method) (dt : ℝ) (lin_a : List W) (dEsde_dm : List V) (dEsde_ds : List W)
    (dEobs_dm : List V) (dEobs_ds : List W) : Py (List V × List W) :=
  match meth with
  | .euler => M.eulerBwd dt lin_a dEsde_dm dEsde_ds dEobs_dm dEobs_ds
  | .heun => M.heunBwd dt lin_a dEsde_dm dEsde_ds dEobs_dm dEobs_ds
  | .rk2 => M.rk2Bwd dt lin_a dEsde_dm dEsde_ds dEobs_dm dEobs_ds
  | .rk4 => M.rk4Bwd dt lin_a dEsde_dm dEsde_ds dEobs_dm dEobs_ds

end solvers

/-! ## The machines -/

/-- What the floating-point unit and the linear algebra library do: rounding of a single result, and inner products (in any order of summation,
with or without fused operations). -/
structure Floats where
  rnd : ℝ → ℝ
  dot : {d : ℕ} → (Fin d → ℝ) → (Fin d → ℝ) → ℝ

/-- Numbers: every operation is followed by a rounding. -/
def Floats.ops1 (R : Floats) : ArrOps ℝ where
  add x y := R.rnd (x + y)
  sub x y := R.rnd (x - y)
  smul c x := R.rnd (c * x)
  sdiv x c := R.rnd (x / c)

/-- Vectors, entry by entry. -/
def Floats.opsV (R : Floats) (d : ℕ) : ArrOps (Fin d → ℝ) where
  add x y := fun i => R.rnd (x i + y i)
  sub x y := fun i => R.rnd (x i - y i)
  smul c x := fun i => R.rnd (c * x i)
  sdiv x c := fun i => R.rnd (x i / c)

/-- Matrices, entry by entry. -/
def Floats.opsM (R : Floats) (d : ℕ) : ArrOps (Matrix (Fin d) (Fin d) ℝ) where
  add x y := fun i j => R.rnd (x i j + y i j)
  sub x y := fun i j => R.rnd (x i j - y i j)
  smul c x := fun i j => R.rnd (c * x i j)
  sdiv x c := fun i j => R.rnd (x i j / c)

/-- `single_dim = True` branches of `/repo/src/numerics/ode_solver.py:44,60,77,94`. A change of sign is exact. -/
def Floats.machine1 (R : Floats) : Machine ℝ ℝ where
  mul x y := R.rnd (x * y)
  v := R.ops1
  w := R.ops1
  rhs := {
    fun_mt := fun mt at_ bt => R.rnd (-(R.rnd (at_ * mt)) + bt)
    fun_st := fun st at_ sn => R.rnd (-(R.rnd (R.rnd (2 * at_) * st)) + sn)
    fun_lam := fun df_dm at_ lam_t => R.rnd (-df_dm + R.rnd (lam_t * at_))
    fun_psi := fun df_ds at_ psi_t => R.rnd (-df_ds + R.rnd (R.rnd (2 * psi_t) * at_)) }

/-- `single_dim = False` branches of `/repo/src/numerics/ode_solver.py:44,60,77,94`: products of matrices and vectors consist of inner products. -/
def Floats.machineN (R : Floats) (d : ℕ) : Machine (Fin d → ℝ) (Matrix (Fin d) (Fin d) ℝ) where
  mul x y := R.rnd (x * y)
  v := R.opsV d
  w := R.opsM d
  rhs := {
    fun_mt := fun mt at_ bt i => R.rnd (-(R.dot (at_ i) mt) + bt i)
    fun_st := fun st at_ sn i j => R.rnd (R.rnd (-(R.dot (at_ i) fun k => st k j) - R.dot (st i) (at_ j)) + sn i j)
    fun_lam := fun df_dm at_ lam_t i => R.rnd (-df_dm i + R.dot lam_t (at_ i))
    fun_psi := fun df_ds at_ psi_t i j =>
      R.rnd (R.rnd (-df_ds i j + R.dot (psi_t i) fun k => at_ k j) + R.dot (fun k => at_ k i) fun k => psi_t k j) }

end

end VGPA
