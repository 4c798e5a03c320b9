import Verif.Model.HeapVgp

/-!
# The start of the optimisation with arrays as buffers

`VarGP.initialization`, `/repo/src/var_bayes/variational.py:73-139`, once more, as a program on the heap of `Verif/Model/Heap.lean`.
-/

namespace VGPA

noncomputable section

namespace HVarGP

variable {V W : Type} [AddCommGroup V] [Module ℝ V] [AddCommGroup W] [Module ℝ W] [Cells V] [Cells W]

/-- `/repo/src/var_bayes/variational.py:84-92,105`: the list `time_x` and the array `obs_z`; `np.hstack` and `np.vstack` make a new array, whose contents go into the interpolation and are not kept. -/
def hSplineData (o : HVarGP V W) (tw : List ℝ) : HPy (List ℝ × List V) := do
  let t0 ← lift (idx tw 0)
  let ts ← lift (fancy tw o.obs_t)
  let t1 ← lift (lastIdx tw)
  let ys ← o.obs_y.all V
  let y0 ← lift (idx ys 0)
  let y1 ← lift (lastIdx ys)
  pure (t0 :: (ts ++ [t1]), y0 :: (ys ++ [y1]))

/-- `initialization()` in one dimension, `/repo/src/var_bayes/variational.py:73-100,138`: `ravel` makes views, `np.concatenate` a new array. -/
def hInitialization1 (fit : List ℝ → List ℝ → ℝ → ℝ) (o : HVarGP ℝ ℝ) : HPy HArr := do
  let m ← o.model.peek
  let tw ← lift m.time_window
  let (time_x, obs_z) ← o.hSplineData tw
  let a0 ← fresh (List.replicate o.dim_n (0.5 * ((← o.sigma.get ℝ) / 0.25) * 1))
  let fb0 ← lift (cubicSpline fit time_x obs_z)
  let b0 ← fresh (tw.map fb0)
  fresh ((← a0.all ℝ) ++ (← b0.all ℝ))

/-- One turn of the loop, `/repo/src/var_bayes/variational.py:125-128`. `a0[k].diagonal()` is a view of the entry that has just been written. -/
def hInitTurn {d : ℕ} (diag_k : Matrix (Fin d) (Fin d) ℝ) (mt0 dmt0 a0 b0 : HArr) (k : ℕ) : HPy Unit := do
  let dk ← dmt0.view k
  let mk ← mt0.view k
  let ak ← a0.view k
  a0.set k ((0.5 : ℝ) • diag_k)
  b0.set k ((← dk.get (Fin d → ℝ)) + (← ak.get (Matrix (Fin d) (Fin d) ℝ)).diag * (← mk.get (Fin d → ℝ)))

/-- `/repo/src/var_bayes/variational.py:131-133`, `a0[-1] = ...` and `b0[-1] = ...`. -/
def hInitLast {d : ℕ} (diag_k : Matrix (Fin d) (Fin d) ℝ) (mt0 a0 b0 : HArr) : HPy Unit := do
  if a0.n = 0 then throw .indexError
  if mt0.n = 0 then throw .indexError
  let ml ← mt0.view (mt0.n - 1)
  let al ← a0.view (a0.n - 1)
  a0.set (a0.n - 1) ((0.5 : ℝ) • diag_k)
  b0.set (b0.n - 1) ((← al.get (Matrix (Fin d) (Fin d) ℝ)).diag * (← ml.get (Fin d → ℝ)))

/-- `initialization()` in `d` dimensions, `/repo/src/var_bayes/variational.py:73-92,101-138`. Simplification: `a0` and `b0` are created after `dmt0`, and not before. -/
def hInitializationN {d : ℕ} (fit : List ℝ → List (Fin d → ℝ) → ℝ → Fin d → ℝ) (o : HVarGP (Fin d → ℝ) (Matrix (Fin d) (Fin d) ℝ)) : HPy HArr := do
  let m ← o.model.peek
  let tw ← lift m.time_window
  let (time_x, obs_z) ← o.hSplineData tw
  let fb0 ← lift (cubicSpline fit time_x obs_z)
  let mt0 ← fresh (tw.map fb0)
  let ms ← mt0.all (Fin d → ℝ)
  let dmt0 ← fresh ((List.zipWith (fun q p => q - p) ms.tail ms).map fun v => o.dt⁻¹ • v)
  let s0 : Matrix (Fin d) (Fin d) ℝ := (0.25 : ℝ) • 1
  let sigma ← o.sigma.get (Matrix (Fin d) (Fin d) ℝ)
  let diag_k : Matrix (Fin d) (Fin d) ℝ := Matrix.diagonal fun i => sigma.diag i / s0.diag i
  let a0 ← zeros (Matrix (Fin d) (Fin d) ℝ) o.dim_n
  let b0 ← zeros (Fin d → ℝ) o.dim_n
  (List.range (o.dim_n - 1)).forM (hInitTurn diag_k mt0 dmt0 a0 b0)
  hInitLast diag_k mt0 a0 b0
  fresh (ravel3 (← a0.all (Matrix (Fin d) (Fin d) ℝ)) ++ ravel2 (← b0.all (Fin d → ℝ)))

end HVarGP

end

end VGPA
