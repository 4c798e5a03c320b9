import Verif.Model.Heap

/-!
# The variational object with arrays as buffers

`/repo/src/var_bayes/variational.py` once more, as programs on the heap of `Verif/Model/Heap.lean`. The parameter array `x` is unpacked into views of itself, the dictionary `output` holds arrays and
not their values, and the process, the likelihood and the prior are objects that hold arrays.
-/

namespace VGPA

noncomputable section

/-- `x[:k]`: a view. -/
def HArr.head (x : HArr) (k : ℕ) : HArr := ⟨x.loc, x.off, min k x.n, x.w⟩

/-- `x[k:]`: a view. -/
def HArr.tail (x : HArr) (k : ℕ) : HArr := ⟨x.loc, x.off + min k x.n * x.w, x.n - k, x.w⟩

/-- `x.reshape(n, ..)` with `w` numbers per entry: a view, since `x` is contiguous. -/
def HArr.reshape (x : HArr) (n w : ℕ) : HPy HArr :=
  if x.n * x.w = n * w then pure ⟨x.loc, x.off, n, w⟩ else throw .valueError

/-- Unpacking on the heap: the same branches as in `Shape`. -/
structure HShape (V W : Type) extends Shape V W where
  hUnpackF : ℕ → HArr → HPy (HArr × HArr)
  hUnpackG : ℕ → HArr → HPy (HArr × HArr)

/-- `single_dim = True`: `/repo/src/var_bayes/variational.py:153-156,228-231`. -/
def hshape1 : HShape ℝ ℝ where
  toShape := shape1
  hUnpackF dim_n x := pure (x.head (dim_n * 1 * 1), x.tail (dim_n * 1 * 1))
  hUnpackG dim_n x := pure (x.head (dim_n * 1 * 1), x.tail (dim_n * 1 * 1))

/-- `single_dim = False`: `/repo/src/var_bayes/variational.py:157-162,236-239`. -/
def hshapeN (d : ℕ) : HShape (Fin d → ℝ) (Matrix (Fin d) (Fin d) ℝ) where
  toShape := shapeN d
  hUnpackF dim_n x :=
    if d = 1 then throw .valueError
    else do
      let a ← (x.head (dim_n * d * d)).reshape dim_n (d * d)
      let b ← (x.tail (dim_n * d * d)).reshape dim_n d
      pure (a, b)
  hUnpackG dim_n x := do
    let a ← (x.head (dim_n * d * d)).reshape dim_n (d * d)
    let b ← (x.tail (dim_n * d * d)).reshape dim_n d
    pure (a, b)

/-- An object that holds arrays: what it is depends on the contents of the buffers `locs`. -/
structure HObj (T : Type) where
  locs : List ℕ
  view : Heap → T
  only : ∀ h h' : Heap, (∀ l ∈ locs, h'[l]? = h[l]?) → view h' = view h

/-- The object as it is now. -/
def HObj.peek {T : Type} (o : HObj T) : HPy T := do
  let h ← MonadState.get
  pure (o.view h)

/-- The present contents of a view. -/
def Piece.content (V : Type) [Cells V] (p : Piece) (h : Heap) : V := Cells.dec (((h.getD p.loc []).drop p.off).take p.w)

/-- The present contents of an array. -/
def HArr.contents (V : Type) [Cells V] (a : HArr) (h : Heap) : List V :=
  (List.range a.n).map fun k => (⟨a.loc, a.off + k * a.w, a.w⟩ : Piece).content V h

theorem Piece.content_only {V : Type} [Cells V] (p : Piece) {h h' : Heap} (he : h'[p.loc]? = h[p.loc]?) : p.content V h' = p.content V h := by
  unfold Piece.content
  rw [List.getD_eq_getElem?_getD, he, ← List.getD_eq_getElem?_getD]

theorem HArr.contents_only {V : Type} [Cells V] (a : HArr) {h h' : Heap} (he : h'[a.loc]? = h[a.loc]?) : a.contents V h' = a.contents V h := by
  unfold HArr.contents
  exact List.map_congr_left fun k _ => Piece.content_only _ he

/-- A `GaussianLikelihood` in one dimension that holds an array of observations: `np.asarray` does not copy, `/repo/src/var_bayes/likelihood.py:32-34`. The noise and the operator are numbers. -/
def hLike1 (obs_v : HArr) (obs_t : List ℕ) (obs_n obs_h : ℝ) : HObj (LikeIf ℝ ℝ) where
  locs := [obs_v.loc]
  view h := (⟨obs_v.contents ℝ h, obs_t, obs_n, obs_h⟩ : Like1).toIf
  only h h' he := by rw [HArr.contents_only obs_v (he _ (by simp))]

/-- A `GaussianLikelihood` in `d` dimensions: observations, noise and operator are arrays of others, `/repo/src/var_bayes/likelihood.py:32-47`. -/
def hLikeN {d : ℕ} (obs_v : HArr) (obs_t : List ℕ) (obs_n obs_h : Piece) : HObj (LikeIf (Fin d → ℝ) (Matrix (Fin d) (Fin d) ℝ)) where
  locs := [obs_v.loc, obs_n.loc, obs_h.loc]
  view h := (⟨obs_v.contents _ h, obs_t, obs_n.content _ h, obs_h.content _ h⟩ : LikeN d).toIf
  only h h' he := by
    rw [HArr.contents_only obs_v (he _ (by simp)), Piece.content_only obs_n (he _ (by simp)), Piece.content_only obs_h (he _ (by simp))]

/-- A `PriorKL0` in `d` dimensions, `/repo/src/var_bayes/prior_kl0.py:22-27`: `np.asarray` does not copy. -/
def hPriorN {d : ℕ} (mu0 tau0 : Piece) : HObj ((Fin d → ℝ) → Matrix (Fin d) (Fin d) ℝ → Py ℝ) where
  locs := [mu0.loc, tau0.loc]
  view h := (⟨mu0.content _ h, tau0.content _ h⟩ : PriorN d).gauss
  only h h' he := by rw [Piece.content_only mu0 (he _ (by simp)), Piece.content_only tau0 (he _ (by simp))]

/-- A `DoubleWell` that holds its path and its window, `/repo/src/dynamics/stochastic_process.py:62-100`: the setters keep the array they get. -/
def hDW {G : Type} (o : DW G) (xt tk : HArr) : HObj (SdeModel ℝ ℝ) where
  locs := [xt.loc, tk.loc]
  view h := DW.sde { o with base := { o.base with xt := some (xt.contents ℝ h), tk := some (tk.contents ℝ h) } }
  only h h' he := by rw [HArr.contents_only xt (he _ (by simp)), HArr.contents_only tk (he _ (by simp))]

/-- A `Lorenz63` that holds its path, its window, the drift parameters, the noise and its inverse, `/repo/src/dynamics/lorenz_63.py:67-102`. -/
def hL63 {G : Type} (o : L63 G) (xt tk : HArr) (theta sigma sig_inv : Piece) : HObj (SdeModel (Fin 3 → ℝ) (Matrix (Fin 3) (Fin 3) ℝ)) where
  locs := [xt.loc, tk.loc, theta.loc, sigma.loc, sig_inv.loc]
  view h := L63.sde { o with
    base := { o.base with xt := some (xt.contents _ h), tk := some (tk.contents ℝ h) }
    theta := theta.content _ h, sigma := sigma.content _ h, sig_inv := sig_inv.content _ h }
  only h h' he := by
    rw [HArr.contents_only xt (he _ (by simp)), HArr.contents_only tk (he _ (by simp)), Piece.content_only theta (he _ (by simp)),
      Piece.content_only sigma (he _ (by simp)), Piece.content_only sig_inv (he _ (by simp))]

/-- The six arrays that `free_energy` puts into the dictionary `output`, `/repo/src/var_bayes/variational.py:188-196`. -/
structure HCache where
  mt : HArr
  st : HArr
  Efx : HArr
  Edf : HArr
  lamt : HArr
  psit : HArr

/-- `VarGP`, `/repo/src/var_bayes/variational.py:11-71`, with arrays in place of their values. `sigma` and `inverse_sigma` are arrays of the process. The observation times are kept as numbers. -/
structure HVarGP (V W : Type) where
  model : HObj (SdeModel V W)
  sigma : Piece
  inverse_sigma : Piece
  fwd_ode : OdeFrontEnd
  bwd_ode : OdeFrontEnd
  likelihood : HObj (LikeIf V W)
  kl0 : HObj (V → W → Py ℝ)
  obs_y : HArr
  obs_t : List ℕ
  dt : ℝ
  dim_n : ℕ
  m0 : Piece
  s0 : Piece
  cache : Option HCache

namespace HVarGP

variable {V W : Type} [AddCommGroup V] [Module ℝ V] [AddCommGroup W] [Module ℝ W] [Cells V] [Cells W]

/-- The call of `energy`, e.g. `/repo/src/dynamics/lorenz_63.py:237-346`. The arrays that the code makes with `np.zeros` or by an expression, and returns, get their final contents at once. -/
def hEnergy (o : HVarGP V W) (linear_a offset_b mt st : HArr) : HPy (ℝ × HArr × HArr × HArr × HArr) := do
  let m ← o.model.peek
  let e ← lift (m.energy (← linear_a.all W) (← offset_b.all V) (← mt.all V) (← st.all W) o.obs_t)
  let Efx ← fresh e.Efx
  let Edf ← fresh e.Edf
  let dm ← fresh e.dm
  let ds ← fresh e.ds
  pure (e.Esde, Efx, Edf, dm, ds)

/-- The call of `likelihood.gradients`, `/repo/src/var_bayes/gaussian_like.py:160-242`. Its arrays get their final contents at once. -/
def hGradients (o : HVarGP V W) (mt st : HArr) : HPy (HArr × HArr) := do
  let like ← o.likelihood.peek
  let g ← lift (like.gradients (← mt.all V) (← st.all W))
  let dm ← fresh g.1
  let ds ← fresh g.2
  pure (dm, ds)

/-- `free_energy(x)`, `/repo/src/var_bayes/variational.py:141-200`: the returned number and the object afterwards. When it raises, the dictionary has not been touched. -/
def hFreeEnergy (sh : HShape V W) (o : HVarGP V W) (x : HArr) : HPy (ℝ × HVarGP V W) := do
  let (linear_a, offset_b) ← sh.hUnpackF o.dim_n x
  let (mt, st) ← hSolveFwd o.fwd_ode.solver sh.rhs o.fwd_ode.dt linear_a offset_b o.m0 o.s0 o.sigma
  let like ← o.likelihood.peek
  let Eobs ← lift (like.call (← mt.all V) (← st.all W))
  let (Esde, Efx, Edf, dEsde_dm, dEsde_ds) ← o.hEnergy linear_a offset_b mt st
  let (dEobs_dm, dEobs_ds) ← o.hGradients mt st
  let (lamt, psit) ← hSolveBwd o.bwd_ode.solver sh.rhs o.bwd_ode.dt linear_a dEsde_dm dEsde_ds dEobs_dm dEobs_ds
  let kl ← o.kl0.peek
  let E0 ← lift (kl (← o.m0.get V) (← o.s0.get W))
  pure (E0 + Esde + Eobs, { o with cache := some ⟨mt, st, Efx, Edf, lamt, psit⟩ })

/-- The body of the loop in `gradient`, `/repo/src/var_bayes/variational.py:263-280`. -/
def hGradTurn (sh : HShape V W) (o : HVarGP V W) (c : HCache) (at_ bt gLa gLb : HArr) (k : ℕ) : HPy Unit := do
  let ak ← at_.view k
  let sk ← c.st.view k
  let mk ← c.mt.view k
  let lamk ← c.lamt.view k
  let ef ← c.Efx.view k
  let bk ← bt.view k
  let edf ← c.Edf.view k
  let psik ← c.psit.view k
  let dEsde_dbt := sh.dEsde_db (← o.inverse_sigma.get W) (← ef.get V) (← mk.get V) (← ak.get W) (← bk.get V)
  let dEsde_dat := sh.dEsde_da (← o.inverse_sigma.get W) (← ak.get W) (← mk.get V) (← sk.get W) (← edf.get W) dEsde_dbt
  gLa.set k (sh.grad_at dEsde_dat (← lamk.get V) (← mk.get V) (← psik.get W) (← sk.get W))
  gLb.set k (dEsde_dbt + (← lamk.get V))

/-- `gradient(x)` after the optional evaluation, `/repo/src/var_bayes/variational.py:227-288`. -/
def hGradBody (sh : HShape V W) (o : HVarGP V W) (x : HArr) : HPy HArr := do
  let (at_, bt) ← sh.hUnpackG o.dim_n x
  match o.cache with
  | none => throw .keyError
  | some c => do
    let gLa ← zeros W o.dim_n
    let gLb ← zeros V o.dim_n
    (List.range o.dim_n).forM (o.hGradTurn sh c at_ bt gLa gLb)
    let a := (← gLa.all W).map (o.dt • ·)
    let b := (← gLb.all V).map (o.dt • ·)
    fresh (sh.ravelA a ++ sh.ravelB b)

/-- The call `free_energy(x)` on an object in memory `h`: the result, the object and the memory afterwards. -/
def free (sh : HShape V W) (o : HVarGP V W) (x : HArr) (h : Heap) : Py ℝ × HVarGP V W × Heap :=
  match (o.hFreeEnergy sh x).run.run h with
  | (.ok (F, o'), h') => (.ok F, o', h')
  | (.error e, h') => (.error e, o, h')

/-- The call `gradient(x, eval_fun)`, `/repo/src/var_bayes/variational.py:202-289`. -/
def grad (sh : HShape V W) (o : HVarGP V W) (x : HArr) (eval_fun : Bool) (h : Heap) : Py HArr × HVarGP V W × Heap :=
  if eval_fun then
    match o.free sh x h with
    | (.ok _, o', h') =>
      match (o'.hGradBody sh x).run.run h' with
      | (r, h'') => (r, o', h'')
    | (.error e, o', h') => (.error e, o', h')
  else
    match (o.hGradBody sh x).run.run h with
    | (r, h') => (r, o, h')

end HVarGP

/-- The end of `collect_obs`, `/repo/src/dynamics/stochastic_process.py:179-225`: `np.take` makes a copy of the path at the observation times and `obs_y += noise` writes into that copy. -/
def hObserve {V : Type} [AddCommGroup V] [Cells V] (xt : HArr) (obs_t : List ℕ) (noise : List V) : HPy HArr := do
  let ys ← lift (fancy (← xt.all V) obs_t)
  let obs_y ← fresh ys
  (List.range ys.length).forM fun k => do
    let yk ← obs_y.view k
    let ek ← lift (idx noise k)
    obs_y.set k ((← yk.get V) + ek)
  pure obs_y

/-- `self.m_data["tau0"] *= np.eye(dim_d)`, `/repo/src/var_bayes/simulation.py:176`, when the parameter dictionary has an array there: the array is overwritten. -/
def hScalePrior (d : ℕ) (tau0 : Piece) : HPy Unit := do
  let t ← tau0.get (Matrix (Fin d) (Fin d) ℝ)
  tau0.put (Matrix.of fun i j => t i j * (1 : Matrix (Fin d) (Fin d) ℝ) i j)

end

end VGPA
