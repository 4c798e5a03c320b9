import Verif.Props.PriorShift
import Verif.Props.OdeLaws

/-!
# C127: symmetric problems have symmetric solutions

The double well and the Ornstein-Uhlenbeck process do not change when the sign of the state changes, and Lorenz-63 does not change when the
signs of the first two components change. The estimates inherit these symmetries.
-/

namespace VGPA

noncomputable section

open Matrix

section
variable {V W : Type} [AddCommGroup V] [Module ℝ V] [AddCommGroup W] [Module ℝ W]

/-- The six stored arrays, transformed. -/
def VgpCache.mapBy (P : V → V) (Q : W → W) (c : VgpCache V W) : VgpCache V W :=
  ⟨c.mt.map P, c.st.map Q, c.Efx.map P, c.Edf.map Q, c.lamt.map P, c.psit.map Q⟩

/-- What `energy` returns, transformed. -/
def SdeTerms.mapBy (P : V → V) (Q : W → W) (e : SdeTerms V W) : SdeTerms V W :=
  ⟨e.Esde, e.Efx.map P, e.Edf.map Q, e.dm.map P, e.ds.map Q⟩

/-- A linear change of means and of matrices, and of packed parameters, that commutes with everything that depends on the shape. -/
structure ShapeSym (sh : Shape V W) (P : V →ₗ[ℝ] V) (Q : W →ₗ[ℝ] W) (X : ℕ → List ℝ → List ℝ) : Prop where
  mt : ∀ m a b, sh.rhs.fun_mt (P m) (Q a) (P b) = P (sh.rhs.fun_mt m a b)
  st : ∀ s a n, sh.rhs.fun_st (Q s) (Q a) (Q n) = Q (sh.rhs.fun_st s a n)
  lam : ∀ e a l, sh.rhs.fun_lam (P e) (Q a) (P l) = P (sh.rhs.fun_lam e a l)
  psi : ∀ e a p, sh.rhs.fun_psi (Q e) (Q a) (Q p) = Q (sh.rhs.fun_psi e a p)
  db : ∀ i e m a b, sh.dEsde_db (Q i) (P e) (P m) (Q a) (P b) = P (sh.dEsde_db i e m a b)
  da : ∀ i a m s f b, sh.dEsde_da (Q i) (Q a) (P m) (Q s) (Q f) (P b) = Q (sh.dEsde_da i a m s f b)
  ga : ∀ e l m p s, sh.grad_at (Q e) (P l) (P m) (Q p) (Q s) = Q (sh.grad_at e l m p s)
  unF : ∀ n x, sh.unpackF n (X n x) = (sh.unpackF n x).map fun r => (r.1.map Q, r.2.map P)
  unG : ∀ n x, sh.unpackG n (X n x) = (sh.unpackG n x).map fun r => (r.1.map Q, r.2.map P)
  rav : ∀ n (a : List W) (b : List V), a.length = n → b.length = n → sh.ravelA (a.map Q) ++ sh.ravelB (b.map P) = X n (sh.ravelA a ++ sh.ravelB b)

/-- Two variational objects of which the second is the first one, transformed. -/
structure SymPair (P : V →ₗ[ℝ] V) (Q : W →ₗ[ℝ] W) (o o' : VarGP V W) : Prop where
  dim : o'.dim_n = o.dim_n
  dt : o'.dt = o.dt
  fwd : o'.fwd_ode = o.fwd_ode
  bwd : o'.bwd_ode = o.bwd_ode
  obs_t : o'.obs_t = o.obs_t
  m0 : o'.m0 = P o.m0
  s0 : o'.s0 = Q o.s0
  sigma : o'.model.sigma = Q o.model.sigma
  isigma : o'.model.inverse_sigma = Q o.model.inverse_sigma
  cache : o'.cache = o.cache.map (VgpCache.mapBy P Q)
  kl0 : o'.kl0 o'.m0 o'.s0 = o.kl0 o.m0 o.s0
  energy : ∀ a b m s, o'.model.energy (a.map Q) (b.map P) (m.map P) (s.map Q) o.obs_t
    = (o.model.energy a b m s o.obs_t).map (SdeTerms.mapBy P Q)
  call : ∀ m s, o'.likelihood.call (m.map P) (s.map Q) = o.likelihood.call m s
  grad : ∀ m s, o'.likelihood.gradients (m.map P) (s.map Q) = (o.likelihood.gradients m s).map fun r => (r.1.map P, r.2.map Q)

variable {sh : Shape V W} {P : V →ₗ[ℝ] V} {Q : W →ₗ[ℝ] W} {X : ℕ → List ℝ → List ℝ} {o o' : VarGP V W}

theorem eval_sym (hS : ShapeSym sh P Q X) (h : SymPair P Q o o') (x : List ℝ) :
    o'.eval sh (X o.dim_n x) = (o.eval sh x).map fun r => (r.1, r.2.mapBy P Q) := by
  unfold VarGP.eval
  rw [h.dim, hS.unF, h.m0, h.s0, h.sigma, h.fwd, h.bwd, h.obs_t, ← h.m0, ← h.s0, h.kl0, h.m0, h.s0]
  rcases sh.unpackF o.dim_n x with e | ⟨a, b⟩
  · rfl
  simp only [Except.map, py_ok_bind]
  rw [solveFwd_map o.fwd_ode.solver sh.rhs sh.rhs P Q hS.mt hS.st]
  rcases solveFwd o.fwd_ode.solver sh.rhs o.fwd_ode.dt a b o.m0 o.s0 o.model.sigma with e | ⟨mt, st⟩
  · rfl
  simp only [Except.map, py_ok_bind]
  rw [h.call]
  rcases o.likelihood.call mt st with e | Eobs
  · rfl
  simp only [py_ok_bind]
  rw [h.energy]
  rcases o.model.energy a b mt st o.obs_t with e | en
  · rfl
  simp only [Except.map, py_ok_bind]
  rw [h.grad]
  rcases o.likelihood.gradients mt st with e | ⟨gm, gs⟩
  · rfl
  simp only [Except.map, py_ok_bind, SdeTerms.mapBy]
  rw [solveBwd_map o.bwd_ode.solver sh.rhs sh.rhs P Q hS.lam hS.psi]
  rcases solveBwd o.bwd_ode.solver sh.rhs o.bwd_ode.dt a en.dm en.ds gm gs with e | ⟨lam, psi⟩
  · rfl
  simp only [Except.map, py_ok_bind]
  rcases o.kl0 o.m0 o.s0 with e | K
  · rfl
  rfl

theorem freeEnergy_sym (hS : ShapeSym sh P Q X) (h : SymPair P Q o o') (x : List ℝ) :
    (o'.freeEnergy sh (X o.dim_n x)).1 = (o.freeEnergy sh x).1 ∧ SymPair P Q (o.freeEnergy sh x).2 (o'.freeEnergy sh (X o.dim_n x)).2 := by
  unfold VarGP.freeEnergy
  rw [eval_sym hS h]
  rcases o.eval sh x with e | ⟨F, c⟩
  · exact ⟨rfl, h⟩
  · exact ⟨rfl, { h with cache := rfl }⟩

theorem idx_map {α β : Type} (f : α → β) (l : List α) (k : ℕ) : idx (l.map f) k = (idx l k).map f := by
  unfold idx
  rw [List.getElem?_map]
  cases l[k]? <;> rfl

theorem gradRow_sym (hS : ShapeSym sh P Q X) (h : SymPair P Q o o') (c : VgpCache V W) (a : List W) (b : List V) (k : ℕ) :
    VarGP.gradRow sh o' (c.mapBy P Q) (a.map Q) (b.map P) k = (VarGP.gradRow sh o c a b k).map fun r => (Q r.1, P r.2) := by
  unfold VarGP.gradRow VgpCache.mapBy
  simp only [idx_map, h.isigma]
  rcases idx a k with e | ak
  · rfl
  simp only [Except.map, py_ok_bind]
  rcases idx c.st k with e | sk
  · rfl
  simp only [Except.map, py_ok_bind]
  rcases idx c.mt k with e | mk
  · rfl
  simp only [Except.map, py_ok_bind]
  rcases idx c.lamt k with e | lk
  · rfl
  simp only [Except.map, py_ok_bind]
  rcases idx c.Efx k with e | ek
  · rfl
  simp only [Except.map, py_ok_bind]
  rcases idx b k with e | bk
  · rfl
  simp only [Except.map, py_ok_bind]
  rcases idx c.Edf k with e | fk
  · rfl
  simp only [Except.map, py_ok_bind]
  rcases idx c.psit k with e | pk
  · rfl
  simp only [Except.map, py_ok_bind, hS.db, hS.da, hS.ga, ← map_add]
  rfl

theorem mapM_map_py {α β γ : Type} (f : α → Py β) (g : β → γ) : ∀ l : List α,
    l.mapM (fun x => (f x).map g) = (l.mapM f).map (List.map g)
  | [] => rfl
  | x :: l => by
    simp only [List.mapM_cons, mapM_map_py f g l]
    rcases f x with e | y
    · rfl
    simp only [Except.map, py_ok_bind]
    rcases l.mapM f with e | ys <;> rfl

theorem gradBody_sym (hS : ShapeSym sh P Q X) (h : SymPair P Q o o') (x : List ℝ) :
    o'.gradBody sh (X o.dim_n x) = (o.gradBody sh x).map (X o.dim_n) := by
  unfold VarGP.gradBody
  rw [h.dim, hS.unG, h.cache, h.dt]
  rcases sh.unpackG o.dim_n x with e | ⟨a, b⟩
  · rfl
  simp only [Except.map, py_ok_bind]
  rcases o.cache with - | c
  · rfl
  simp only [Option.map_some, funext (gradRow_sym hS h c a b)]
  rw [mapM_map_py]
  rcases hr : (List.range o.dim_n).mapM (VarGP.gradRow sh o c a b) with e | rows
  · rfl
  have hl : rows.length = o.dim_n := by rw [mapM_length hr, List.length_range]
  simp only [Except.map, py_ok_bind, List.map_map]
  have e1 : ((fun r : W × V => o.dt • r.1) ∘ fun r : W × V => (Q r.1, P r.2)) = Q ∘ fun r : W × V => o.dt • r.1 := by
    funext r; simp
  have e2 : ((fun r : W × V => o.dt • r.2) ∘ fun r : W × V => (Q r.1, P r.2)) = P ∘ fun r : W × V => o.dt • r.2 := by
    funext r; simp
  rw [e1, e2, ← List.map_map, ← List.map_map, hS.rav o.dim_n _ _ (by simpa using hl) (by simpa using hl)]
  rfl

theorem gradient_sym (hS : ShapeSym sh P Q X) (h : SymPair P Q o o') (x : List ℝ) (ev : Bool) :
    (o'.gradient sh (X o.dim_n x) ev).1 = (o.gradient sh x ev).1.map (X o.dim_n)
      ∧ SymPair P Q (o.gradient sh x ev).2 (o'.gradient sh (X o.dim_n x) ev).2 := by
  unfold VarGP.gradient
  cases ev with
  | false => exact ⟨gradBody_sym hS h x, h⟩
  | true =>
    obtain ⟨h1, h2⟩ := freeEnergy_sym hS h x
    have hd : (o.freeEnergy sh x).2.dim_n = o.dim_n := by
      unfold VarGP.freeEnergy
      rcases o.eval sh x with e | ⟨F, c⟩ <;> rfl
    generalize o'.freeEnergy sh (X o.dim_n x) = r' at h1 h2
    generalize o.freeEnergy sh x = r at h1 h2 hd
    obtain ⟨F', q'⟩ := r'
    obtain ⟨F, q⟩ := r
    dsimp only at h1 h2 hd
    subst h1
    cases F' with
    | ok F => exact ⟨by have := gradBody_sym hS h2 x; rw [hd] at this; exact this, h2⟩
    | error e => exact ⟨rfl, h2⟩

end

/-! ## One dimension -/

/-- The change of sign. -/
def negL : ℝ →ₗ[ℝ] ℝ := -LinearMap.id

@[simp] theorem negL_apply (x : ℝ) : negL x = -x := rfl

namespace Spec

/-- The packed parameters with the signs of the offsets changed; the first `n` entries are the linear parameters. -/
def mirror (n : ℕ) (x : List ℝ) : List ℝ := x.take n ++ (x.drop n).map fun v => -v

end Spec

theorem shapeSym1 : ShapeSym shape1 negL LinearMap.id Spec.mirror := by
  have hun : ∀ n (x : List ℝ), shape1.unpackF n (Spec.mirror n x) = (shape1.unpackF n x).map fun r => (r.1.map (LinearMap.id : ℝ →ₗ[ℝ] ℝ), r.2.map negL) := by
    intro n x
    simp only [shape1, Spec.mirror, Except.map, mul_one, List.map_id']
    rcases le_total n x.length with h | h
    · rw [List.take_left' (by simpa using h), List.drop_left' (by simpa using h)]
      simp only [show (fun v : ℝ => -v) = negL from rfl, LinearMap.id_coe, List.map_id]
    · rw [List.drop_eq_nil_of_le h, List.take_of_length_le h]
      simp [h]
  constructor
  · intros; simp [shape1, rhs1]; ring
  · intros; simp [shape1, rhs1]
  · intros; simp [shape1, rhs1]; ring
  · intros; simp [shape1, rhs1]
  · intros; simp [shape1]; ring
  · intros; simp [shape1]
  · intros; simp [shape1]
  · exact hun
  · exact hun
  · intro n a b ha hb
    simp only [shape1, id, Spec.mirror]
    rw [List.take_left' ha, List.drop_left' ha]
    simp [negL_apply]

theorem zipWith_even {f : ℝ → ℝ → ℝ} (h : ∀ m v, f (-m) v = f m v) (m s : List ℝ) :
    List.zipWith f (m.map negL) s = List.zipWith f m s := by
  rw [List.zipWith_map_left]
  simp only [negL_apply, h]

theorem zipWith_odd {f : ℝ → ℝ → ℝ} (h : ∀ m v, f (-m) v = -f m v) (m s : List ℝ) :
    List.zipWith f (m.map negL) s = (List.zipWith f m s).map negL := by
  rw [List.zipWith_map_left, List.map_zipWith]
  simp only [negL_apply, h]

theorem ent_map_neg (l : List ℝ) (i : ℕ) : ent (l.map negL) i = -ent l i := by
  unfold ent
  rw [List.getD_eq_getElem?_getD, List.getD_eq_getElem?_getD, List.getElem?_map]
  cases l[i]? <;> simp

theorem tab_neg (n : ℕ) (f g : ℕ → ℝ) (h : ∀ i, f i = -g i) : tab n f = (tab n g).map negL := by
  unfold tab
  rw [List.map_map]
  exact List.map_congr_left fun i _ => h i

theorem dw_energy_mirror {G : Type} (o : DW G) (a b m s : List ℝ) (t : Option (List ℕ)) :
    o.energy a (b.map negL) (m.map negL) s t
      = (o.energy a b m s t).map fun e => { e with Ef := e.Ef.map negL, dm := e.dm.map negL } := by
  unfold DW.energy GaussianMoments.init
  simp only [List.length_map]
  split
  · rfl
  simp only [py_ok_bind]
  rcases o.base.timeStep with e | dt
  · rfl
  have c2 : ∀ g : GaussianMoments, g.call 2 = .ok (List.zipWith (fun m v => m ^ 2 + v) g.m_arr g.v_arr) := fun _ => rfl
  have c3 : ∀ g : GaussianMoments, g.call 3 = .ok (List.zipWith (fun m v => m ^ 3 + 3 * m * v) g.m_arr g.v_arr) := fun _ => rfl
  have c4 : ∀ g : GaussianMoments, g.call 4 = .ok (List.zipWith (fun m v => m ^ 4 + 6 * (m ^ 2) * v + 3 * (v ^ 2)) g.m_arr g.v_arr) := fun _ => rfl
  have c6 : ∀ g : GaussianMoments, g.call 6 = .ok (List.zipWith (fun m v =>
    m ^ 6 + 15 * (m ^ 4) * v + 45 * (m ^ 2) * (v ^ 2) + 15 * (v ^ 3)) g.m_arr g.v_arr) := fun _ => rfl
  have d2 : ∀ g : GaussianMoments, g.dm 2 = .ok (List.zipWith (fun m _ => 2 * m) g.m_arr g.v_arr) := fun _ => rfl
  have d3 : ∀ g : GaussianMoments, g.dm 3 = .ok (List.zipWith (fun m v => 3 * (m ^ 2 + v)) g.m_arr g.v_arr) := fun _ => rfl
  have d4 : ∀ g : GaussianMoments, g.dm 4 = .ok (List.zipWith (fun m v => 4 * (m ^ 3 + 3 * m * v)) g.m_arr g.v_arr) := fun _ => rfl
  have d6 : ∀ g : GaussianMoments, g.dm 6 = .ok (List.zipWith (fun m v => 6 * (m ^ 5 + 10 * (m ^ 3) * v + 15 * m * (v ^ 2))) g.m_arr g.v_arr) :=
    fun _ => rfl
  have s2 : ∀ g : GaussianMoments, g.ds 2 = .ok (List.replicate g.n_size 1) := fun _ => rfl
  have s3 : ∀ g : GaussianMoments, g.ds 3 = .ok (List.zipWith (fun m _ => 3 * m) g.m_arr g.v_arr) := fun _ => rfl
  have s4 : ∀ g : GaussianMoments, g.ds 4 = .ok (List.zipWith (fun m v => 6 * (m ^ 2 + v)) g.m_arr g.v_arr) := fun _ => rfl
  have s6 : ∀ g : GaussianMoments, g.ds 6 = .ok (List.zipWith (fun m v => 15 * (m ^ 4) + 90 * (m ^ 2) * v + 45 * (v ^ 2)) g.m_arr g.v_arr) :=
    fun _ => rfl
  simp only [py_ok_bind, c2, c3, c4, c6, d2, d3, d4, d6, s2, s3, s4, s6]
  split
  · rfl
  rw [zipWith_even (f := fun m v => m ^ 2 + v) (by intros; ring), zipWith_odd (f := fun m v => m ^ 3 + 3 * m * v) (by intros; ring),
    zipWith_even (f := fun m v => m ^ 4 + 6 * (m ^ 2) * v + 3 * (v ^ 2)) (by intros; ring),
    zipWith_even (f := fun m v => m ^ 6 + 15 * (m ^ 4) * v + 45 * (m ^ 2) * (v ^ 2) + 15 * (v ^ 3)) (by intros; ring),
    zipWith_odd (f := fun m _ => 2 * m) (by intros; ring), zipWith_even (f := fun m v => 3 * (m ^ 2 + v)) (by intros; ring),
    zipWith_odd (f := fun m v => 4 * (m ^ 3 + 3 * m * v)) (by intros; ring),
    zipWith_odd (f := fun m v => 6 * (m ^ 5 + 10 * (m ^ 3) * v + 15 * m * (v ^ 2))) (by intros; ring),
    zipWith_odd (f := fun m _ => 3 * m) (by intros; ring), zipWith_even (f := fun m v => 6 * (m ^ 2 + v)) (by intros; ring),
    zipWith_even (f := fun m v => 15 * (m ^ 4) + 90 * (m ^ 2) * v + 45 * (v ^ 2)) (by intros; ring)]
  simp only [ent_map_neg, Except.map, py_pure]
  simp only [show (8.0 : ℝ) = 8 by norm_num, show (4.0 : ℝ) = 4 by norm_num, show (2.0 : ℝ) = 2 by norm_num, show (16.0 : ℝ) = 16 by norm_num,
    show (3.0 : ℝ) = 3 by norm_num, show (0.5 : ℝ) = 1 / 2 by norm_num]
  congr 1
  rw [Energy1.mk.injEq]
  refine ⟨?_, ?_, rfl, ?_, ?_, ?_, ?_⟩
  · congr 4; funext i; ring
  · exact tab_neg _ _ _ fun i => by ring
  · exact tab_neg _ _ _ fun i => by ring
  · congr 1; funext i; ring
  · congr 4; funext i; ring
  · congr 6; funext i; ring

theorem ou_energy_mirror {G : Type} (o : OU G) (a b m s : List ℝ) (t : Option (List ℕ)) :
    o.energy a (b.map negL) (m.map negL) s t
      = (o.energy a b m s t).map fun e => { e with Ef := e.Ef.map negL, dm := e.dm.map negL } := by
  unfold OU.energy GaussianMoments.init
  simp only [List.length_map]
  split
  · rfl
  simp only [py_ok_bind]
  rcases o.base.timeStep with e | dt
  · rfl
  have c2 : ∀ g : GaussianMoments, g.call 2 = .ok (List.zipWith (fun m v => m ^ 2 + v) g.m_arr g.v_arr) := fun _ => rfl
  simp only [py_ok_bind, c2]
  split
  · rfl
  rw [zipWith_even (f := fun m v => m ^ 2 + v) (by intros; ring)]
  simp only [ent_map_neg, Except.map, py_pure]
  simp only [show (8.0 : ℝ) = 8 by norm_num, show (4.0 : ℝ) = 4 by norm_num, show (2.0 : ℝ) = 2 by norm_num, show (16.0 : ℝ) = 16 by norm_num,
    show (3.0 : ℝ) = 3 by norm_num, show (0.5 : ℝ) = 1 / 2 by norm_num]
  congr 1
  rw [Energy1.mk.injEq]
  refine ⟨?_, ?_, rfl, ?_, rfl, ?_, ?_⟩
  · congr 4; funext i; ring
  · exact tab_neg _ _ _ fun i => by ring
  · refine tab_neg _ _ _ fun i => ?_
    have : ∀ j, ent (tab m.length fun i => ent a i * -ent b i) j = -ent (tab m.length fun i => ent a i * ent b i) j := by
      intro j
      rw [← ent_map_neg, ← tab_neg _ (fun i => ent a i * -ent b i) _ fun i => by ring]
    rw [this]
    ring
  · congr 4; funext i; ring
  · congr 6; funext i; ring

/-! ## Arrays, entry by entry -/

section
variable {α β γ α' β' γ' : Type}

theorem fancy_map (f : α → β) (l : List α) (ks : List ℕ) : fancy (l.map f) ks = (fancy l ks).map (List.map f) := by
  unfold fancy
  rw [← mapM_map_py]
  congr 1
  funext k
  exact idx_map f l k

theorem bcast_map {f : α → β → γ} {f' : α' → β' → γ'} {g : α → α'} {h : β → β'} {u : γ → γ'} (hu : ∀ x y, f' (g x) (h y) = u (f x y))
    (xs : List α) (ys : List β) : bcast f' (xs.map g) (ys.map h) = (bcast f xs ys).map (List.map u) := by
  unfold bcast
  simp only [List.length_map]
  split
  · simp [Except.map, List.zipWith_map, List.map_zipWith, hu]
  · rcases xs with - | ⟨x, - | ⟨x', xs⟩⟩
    · rcases ys with - | ⟨y, - | ⟨y', ys⟩⟩ <;> simp [Except.map]
    · simp [Except.map, hu]
    · rcases ys with - | ⟨y, - | ⟨y', ys⟩⟩ <;> simp [Except.map, hu]

theorem setIdx_map (f : α → β) (l : List α) (k : ℕ) (v : α) : setIdx (l.map f) k (f v) = (setIdx l k v).map (List.map f) := by
  unfold setIdx
  rw [List.length_map]
  split
  · simp [Except.map, List.map_set]
  · rfl

theorem fancyPairs_map (f : α → β) : ∀ (ks : List ℕ) (vs : List α) (l : List α),
    fancyPairs (l.map f) ks (vs.map f) = (fancyPairs l ks vs).map (List.map f)
  | [], vs, l => by cases vs <;> rfl
  | k :: ks, [], l => rfl
  | k :: ks, v :: vs, l => by
    have ih := fancyPairs_map f ks vs
    unfold fancyPairs at ih ⊢
    simp only [List.map_cons, List.zip_cons_cons, List.foldlM_cons, setIdx_map]
    rcases setIdx l k v with e | l'
    · rfl
    · exact ih l'

theorem fancySet_map (f : α → β) (ks : List ℕ) (vs : List α) (l : List α) :
    fancySet (l.map f) ks (vs.map f) = (fancySet l ks vs).map (List.map f) := by
  unfold fancySet
  rw [List.length_map]
  split_ifs
  · exact fancyPairs_map f ks vs l
  · match vs with
    | [] => rfl
    | [v] =>
      show fancyPairs (l.map f) ks (ks.map fun _ => f v) = _
      have := fancyPairs_map f ks (ks.map fun _ => v) l
      rw [List.map_map] at this
      exact this
    | _ :: _ :: _ => rfl

end

theorem bcast_square (v mo : List ℝ) :
    bcast (fun y m : ℝ => y ^ 2 - 2.0 * y * m) (v.map negL) (mo.map negL) = bcast (fun y m : ℝ => y ^ 2 - 2.0 * y * m) v mo := by
  rw [bcast_map (f := fun y m : ℝ => y ^ 2 - 2.0 * y * m) (f' := fun y m : ℝ => y ^ 2 - 2.0 * y * m) (u := id)
    (fun x y => by simp only [negL_apply, id, neg_sq, mul_neg, neg_mul, neg_neg])]
  rcases bcast (fun y m : ℝ => y ^ 2 - 2.0 * y * m) v mo with e | q
  · rfl
  simp only [Except.map, List.map_id]

theorem like1_call_mirror (L : Like1) (m s : List ℝ) :
    ({ L with obs_v := L.obs_v.map negL } : Like1).gauss (m.map negL) s = L.gauss m s := by
  unfold Like1.gauss
  simp only [fancy_map]
  rcases fancy m L.obs_t with e | mo
  · rfl
  simp only [Except.map, py_ok_bind]
  rcases fancy s L.obs_t with e | so
  · rfl
  simp only [py_ok_bind]
  rw [zipWith_even (f := fun m s => m ^ 2 + s) (by intros; ring),
    bcast_square]

theorem like1_grad_mirror (L : Like1) (m s : List ℝ) :
    ({ L with obs_v := L.obs_v.map negL } : Like1).gradients (m.map negL) s
      = (L.gradients m s).map fun r => (r.1.map negL, r.2.1, r.2.2) := by
  unfold Like1.gradients
  simp only [fancy_map]
  rcases fancy m L.obs_t with e | mo
  · rfl
  simp only [Except.map, py_ok_bind]
  rcases fancy s L.obs_t with e | so
  · rfl
  simp only [py_ok_bind]
  rw [zipWith_even (f := fun m s => m ^ 2 + s) (by intros; ring),
    bcast_square, bcast_map (f := fun y m : ℝ => y - L.obs_h * m) (f' := fun y m : ℝ => y - L.obs_h * m) (u := negL) (fun x y => by simp only [negL_apply]; ring)]
  rcases bcast (fun y m : ℝ => y - L.obs_h * m) L.obs_v mo with e | W
  · rfl
  simp only [Except.map, py_ok_bind, List.length_map]
  have e0 : List.replicate m.length (0 : ℝ) = (List.replicate m.length (0 : ℝ)).map negL := by simp
  have e1 : (W.map negL).map (fun w => -w / L.obs_n) = (W.map fun w => -w / L.obs_n).map negL := by
    rw [List.map_map, List.map_map]
    exact List.map_congr_left fun w _ => by simp only [Function.comp, negL_apply]; ring
  rw [e1]
  have h1 : fancySet (List.replicate m.length (0 : ℝ)) L.obs_t ((W.map fun w => -w / L.obs_n).map negL)
      = (fancySet (List.replicate m.length (0 : ℝ)) L.obs_t (W.map fun w => -w / L.obs_n)).map (List.map negL) := by
    conv_lhs => rw [e0]
    exact fancySet_map _ _ _ _
  rw [h1]
  rcases fancySet (List.replicate m.length (0 : ℝ)) L.obs_t (W.map fun w => -w / L.obs_n) with e | dm
  · rfl
  simp only [Except.map, py_ok_bind]
  rcases fancySet (List.replicate m.length (0 : ℝ)) L.obs_t (L.obs_t.map fun _ => 0.5 / L.obs_n) with e | ds
  · rfl
  simp only [py_ok_bind]
  rcases bcast (fun y m : ℝ => y ^ 2 - 2.0 * y * m) L.obs_v mo with e | q
  · rfl
  simp only [py_ok_bind]
  rcases bcast (fun q e : ℝ => q + e + 1.0) q (List.zipWith (fun m s => m ^ 2 + s) mo so) with e | r
  · rfl
  simp only [py_ok_bind]
  rcases fancySet (List.replicate m.length (0 : ℝ)) L.obs_t (r.map fun r => -0.5 * r / L.obs_n) with e | r
  · rfl
  rfl

/-! ## The optimizer -/

section
variable {V W : Type} [AddCommGroup V] [Module ℝ V] [AddCommGroup W] [Module ℝ W]

/-- How a variational object of one shape is seen from outside. -/
structure Seen (sh : Shape V W) (mk : VarGP V W → AnyVgp) : Prop where
  fe : ∀ o x, (mk o).freeEnergy x = ((o.freeEnergy sh x).1, mk (o.freeEnergy sh x).2)
  gr : ∀ o x ev, (mk o).gradient x ev = ((o.gradient sh x ev).1, mk (o.gradient sh x ev).2)

theorem seen1 : Seen shape1 AnyVgp.one := ⟨fun _ _ => rfl, fun _ _ _ => rfl⟩
theorem seenN (d : ℕ) : Seen (shapeN d) (AnyVgp.many d) := ⟨fun _ _ => rfl, fun _ _ _ => rfl⟩

theorem freeEnergy_dim (sh : Shape V W) (o : VarGP V W) (x : List ℝ) : (o.freeEnergy sh x).2.dim_n = o.dim_n := by
  unfold VarGP.freeEnergy
  rcases o.eval sh x with e | ⟨F, c⟩ <;> rfl

theorem gradient_dim (sh : Shape V W) (o : VarGP V W) (x : List ℝ) (ev : Bool) : (o.gradient sh x ev).2.dim_n = o.dim_n := by
  unfold VarGP.gradient
  cases ev with
  | false => rfl
  | true =>
    have := freeEnergy_dim sh o x
    simp only [if_true]
    generalize o.freeEnergy sh x = r at this
    rcases r with ⟨_ | F, q⟩ <;> exact this

theorem freeEnergy_cache (sh : Shape V W) (o : VarGP V W) (x : List ℝ) :
    ∃ c, (o.freeEnergy sh x).2 = { o with cache := c } := by
  unfold VarGP.freeEnergy
  rcases o.eval sh x with e | ⟨F, c⟩
  · exact ⟨o.cache, rfl⟩
  · exact ⟨some c, rfl⟩

theorem gradient_cache (sh : Shape V W) (o : VarGP V W) (x : List ℝ)
    (ev : Bool) : ∃ c, (o.gradient sh x ev).2 = { o with cache := c } := by
  unfold VarGP.gradient
  cases ev with
  | false => exact ⟨o.cache, rfl⟩
  | true =>
    have := freeEnergy_cache sh o x
    simp only [if_true]
    generalize o.freeEnergy sh x = r at this
    rcases r with ⟨_ | F, q⟩ <;> exact this

variable {sh : Shape V W} {P : V →ₗ[ℝ] V} {Q : W →ₗ[ℝ] W} {X : ℕ → List ℝ → List ℝ} {mk : VarGP V W → AnyVgp}

/-- Two related objects with `N` grid points, seen from outside. -/
def SymSeen (R : VarGP V W → VarGP V W → Prop) (mk : VarGP V W → AnyVgp) (N : ℕ) (v v' : AnyVgp) : Prop :=
  ∃ o o', v = mk o ∧ v' = mk o' ∧ o.dim_n = N ∧ R o o'

/-- A relation between objects that includes `SymPair` and of which only the `SymPair` part concerns the stored moments. -/
structure SymRel (P : V →ₗ[ℝ] V) (Q : W →ₗ[ℝ] W) (R : VarGP V W → VarGP V W → Prop) : Prop where
  pair : ∀ {o o'}, R o o' → SymPair P Q o o'
  after : ∀ {o o' q q'}, R o o' → SymPair P Q q q' → (∃ c, q = { o with cache := c }) → (∃ c, q' = { o' with cache := c }) → R q q'

variable {R : VarGP V W → VarGP V W → Prop}

/-- The signs `sg` as a change of the coordinates of packed parameters. -/
def signs (sg : ℕ → ℝ) (x : List ℝ) : List ℝ := x.mapIdx fun i v => sg i * v

theorem signs_length (sg : ℕ → ℝ) (x : List ℝ) : (signs sg x).length = x.length := by simp [signs]

theorem signs_getD (sg : ℕ → ℝ) (x : List ℝ) (i : ℕ) : (signs sg x).getD i 0 = sg i * x.getD i 0 := by
  unfold signs
  rw [List.getD_eq_getElem?_getD, List.getD_eq_getElem?_getD, List.getElem?_mapIdx]
  cases x[i]? <;> simp

theorem ofFn_signs {n : ℕ} (sg : ℕ → ℝ) (x : Fin n → ℝ) :
    List.ofFn (Spec.relabel (Equiv.refl _) (fun i : Fin n => sg i) x + 0) = signs sg (List.ofFn x) := by
  apply List.ext_getElem
  · simp [signs]
  · intro i h1 h2
    simp [signs, Spec.relabel]

theorem asVec_signs {n : ℕ} (sg : ℕ → ℝ) (r : Py (List ℝ)) :
    Spec.Alike (fun g h => h = Spec.relabel (Equiv.refl _) (fun i : Fin n => sg i) g) (r.bind (AnyVgp.asVec n)) ((r.map (signs sg)).bind (AnyVgp.asVec n)) := by
  cases r with
  | error e => exact .error e
  | ok l =>
    simp only [Except.map, Except.bind, AnyVgp.asVec, signs_length]
    split
    · refine .ok ?_
      funext i
      rw [signs_getD]
      rfl
    · exact .error _

theorem symSeen_problem (hS : ShapeSym sh P Q X) (hR : SymRel P Q R) (hk : Seen sh mk) (N n : ℕ) (sg : ℕ → ℝ) (hX : X N = signs sg) :
    Spec.SameProblem (Equiv.refl _) (fun i : Fin n => sg i) 0 0 (SymSeen R mk N) (AnyVgp.oracle n) () (AnyVgp.oracle n) () := by
  have hg : ∀ (ev : Bool) (x : Fin n → ℝ) v v', SymSeen R mk N v v' →
      Spec.Alike (fun g h => h = Spec.relabel (Equiv.refl _) (fun i : Fin n => sg i) g) ((v.gradient (List.ofFn x) ev).1.bind (AnyVgp.asVec n))
        ((v'.gradient (List.ofFn (Spec.relabel (Equiv.refl _) (fun i : Fin n => sg i) x + 0)) ev).1.bind (AnyVgp.asVec n))
      ∧ SymSeen R mk N (v.gradient (List.ofFn x) ev).2
        (v'.gradient (List.ofFn (Spec.relabel (Equiv.refl _) (fun i : Fin n => sg i) x + 0)) ev).2 := by
    rintro ev x _ _ ⟨o, o', rfl, rfl, hN, h⟩
    rw [ofFn_signs, ← hX, ← hN, hk.gr, hk.gr]
    obtain ⟨h1, h2⟩ := gradient_sym hS (hR.pair h) (List.ofFn x) ev
    refine ⟨?_, _, _, rfl, rfl, gradient_dim sh o _ ev, hR.after h h2 (gradient_cache _ _ _ _) (gradient_cache _ _ _ _)⟩
    dsimp only
    rw [h1, hN, hX]
    exact asVec_signs sg _
  refine ⟨?_, hg false, hg true⟩
  rintro x _ _ ⟨o, o', rfl, rfl, hN, h⟩
  simp only [AnyVgp.oracle]
  rw [ofFn_signs, ← hX, ← hN, hk.fe, hk.fe]
  obtain ⟨h1, h2⟩ := freeEnergy_sym hS (hR.pair h) (List.ofFn x)
  refine ⟨?_, _, _, rfl, rfl, freeEnergy_dim sh o _, hR.after h h2 (freeEnergy_cache _ _ _) (freeEnergy_cache _ _ _)⟩
  dsimp only
  rw [h1]
  rcases (o.freeEnergy sh (List.ofFn x)).1 with e | F
  · exact .error e
  · exact .ok (add_zero F).symm

theorem optimize_sym (hS : ShapeSym sh P Q X) (hR : SymRel P Q R) (hk : Seen sh mk) (N : ℕ) (sg : ℕ → ℝ) (hsg : ∀ i, sg i = 1 ∨ sg i = -1) (hX : X N = signs sg)
    {v v' : AnyVgp} (h : SymSeen R mk N v v') (x0 : List ℝ) :
    Spec.Alike (fun a b => b = (X N a.1, a.2)) (v.optimize x0).1 (v'.optimize (X N x0)).1
      ∧ SymSeen R mk N (v.optimize x0).2 (v'.optimize (X N x0)).2 := by
  have := C113_coordinates (Equiv.refl _) (fun i : Fin x0.length => sg i) (fun _ => hsg _) 0 0 (SymSeen R mk N) (AnyVgp.oracle x0.length) ()
    (AnyVgp.oracle x0.length) () (symSeen_problem hS hR hk N _ sg hX) (Scg.init (realArith x0.length) (some 500) (some 1.0e-6) (some 1.0e-8))
    (fun i => x0.getD i 0) v v' h
  have e : Spec.relabel (Equiv.refl _) (fun i : Fin x0.length => sg i) (fun i : Fin x0.length => x0.getD i 0) + 0
      = fun i : Fin x0.length => (signs sg x0).getD i 0 := by
    funext i
    rw [signs_getD]
    simp [Spec.relabel]
  rw [e] at this
  obtain ⟨h1, h2, -⟩ := this
  have hl : (X N x0).length = x0.length := by rw [hX, signs_length]
  unfold AnyVgp.optimize
  dsimp only
  rw [hl, hX]
  refine ⟨?_, h2⟩
  generalize (Scg.call (realArith x0.length) (AnyVgp.oracle x0.length) () _ (fun i => x0.getD i 0) v).1 = r at h1 ⊢
  generalize (Scg.call (realArith x0.length) (AnyVgp.oracle x0.length) () _ (fun i : Fin x0.length => (signs sg x0).getD i 0) v').1 = r' at h1 ⊢
  cases h1 with
  | ok h =>
    refine .ok ?_
    dsimp only
    rw [h.1, h.2, ofFn_signs, add_zero]
  | error e => exact .error e

end

/-! ## C127 in one dimension -/

namespace Spec

/-- `o'` is the one-dimensional problem `o`, reflected. The process is a double well or an Ornstein-Uhlenbeck process, the same in both
(its stored path, of which `VarGP` takes the length, is arbitrary in the second); the integrators, the time step, the observation times, the
noises and the initial variance are the same; the observations, the initial mean and the mean of the prior have the opposite sign. Stored moments of earlier
calls, if any, belong to each other in the same way. -/
structure Reflected (G : Type) (o o' : VarGP ℝ ℝ) : Prop where
  process : (∃ p : DW G, o.model = p.sde) ∨ ∃ p : OU G, o.model = p.sde
  same : ∃ q, o'.model = { o.model with sample_path := q }
  like : ∃ L : Like1, o.likelihood = L.toIf ∧ o'.likelihood = Like1.toIf { L with obs_v := L.obs_v.map fun y => -y }
  prior : ∃ K : Prior1, o.kl0 = (fun m s => .ok (K.gauss m s)) ∧ o'.kl0 = fun m s => .ok (Prior1.gauss { K with mu0 := -K.mu0 } m s)
  m0 : o'.m0 = -o.m0
  s0 : o'.s0 = o.s0
  obs_y : o'.obs_y = o.obs_y.map fun y => -y
  obs_t : o'.obs_t = o.obs_t
  grid : o'.dim_n = o.dim_n ∧ o'.dt = o.dt
  solvers : o'.fwd_ode = o.fwd_ode ∧ o'.bwd_ode = o.bwd_ode
  stored : o'.cache = o.cache.map fun c =>
    { c with mt := c.mt.map (fun y => -y), Efx := c.Efx.map (fun y => -y), lamt := c.lamt.map (fun y => -y) }

end Spec

open Spec

theorem negL_fun : (fun y : ℝ => -y) = negL := rfl

theorem Spec.Reflected.pair {G : Type} {o o' : VarGP ℝ ℝ} (h : Reflected G o o') : SymPair negL LinearMap.id o o' := by
  obtain ⟨q, hq⟩ := h.same
  obtain ⟨L, hL, hL'⟩ := h.like
  obtain ⟨K, hK, hK'⟩ := h.prior
  rw [negL_fun] at hL'
  refine ⟨h.grid.1, h.grid.2, h.solvers.1, h.solvers.2, h.obs_t, h.m0, h.s0, by rw [hq]; rfl, by rw [hq]; rfl, ?_, ?_, ?_, ?_, ?_⟩
  · rw [h.stored]
    congr 1
    funext c
    simp only [VgpCache.mapBy, negL_fun, LinearMap.id_coe, List.map_id]
  · rw [hK, hK', h.m0, h.s0]
    simp only [Prior1.gauss]
    congr 3
    ring
  · intro a b m s
    rw [hq]
    simp only [LinearMap.id_coe, List.map_id]
    rcases h.process with ⟨p, hp⟩ | ⟨p, hp⟩
    · rw [hp]
      simp only [DW.sde, dw_energy_mirror]
      rcases p.energy a b m s (some o.obs_t) with e | en
      · rfl
      simp [Except.map, py_pure, SdeTerms.mapBy]
    · rw [hp]
      simp only [OU.sde, ou_energy_mirror]
      rcases p.energy a b m s (some o.obs_t) with e | en
      · rfl
      simp [Except.map, py_pure, SdeTerms.mapBy]
  · intro m s
    rw [hL, hL']
    simp only [LinearMap.id_coe, List.map_id]
    exact like1_call_mirror L m s
  · intro m s
    rw [hL, hL']
    simp only [LinearMap.id_coe, List.map_id, Like1.toIf, like1_grad_mirror]
    rcases L.gradients m s with e | r
    · rfl
    rfl

theorem Spec.Reflected.after {G : Type} {o o' q q' : VarGP ℝ ℝ} (h : Reflected G o o') (hq : SymPair negL LinearMap.id q q')
    (e : ∃ c, q = { o with cache := c }) (e' : ∃ c, q' = { o' with cache := c }) : Reflected G q q' := by
  obtain ⟨c, rfl⟩ := e
  obtain ⟨c', rfl⟩ := e'
  refine { h with stored := ?_ }
  rw [hq.cache]
  dsimp only
  congr 1
  funext c
  simp only [VgpCache.mapBy, negL_fun, LinearMap.id_coe, List.map_id]

/-- C127 for the double well and the Ornstein-Uhlenbeck process: at parameters with reflected offsets, the reflected problem has the same free
energy, or raises the same exception; the gradient is the same in the linear parameters and of opposite sign in the offsets; and the objects
left behind are again reflected. -/
theorem C127_free_energy_1d {G : Type} {o o' : VarGP ℝ ℝ} (h : Reflected G o o') (x : List ℝ) :
    (o'.freeEnergy shape1 (mirror o.dim_n x)).1 = (o.freeEnergy shape1 x).1
      ∧ Reflected G (o.freeEnergy shape1 x).2 (o'.freeEnergy shape1 (mirror o.dim_n x)).2
      ∧ ∀ ev, (o'.gradient shape1 (mirror o.dim_n x) ev).1 = (o.gradient shape1 x ev).1.map (mirror o.dim_n)
        ∧ Reflected G (o.gradient shape1 x ev).2 (o'.gradient shape1 (mirror o.dim_n x) ev).2 := by
  obtain ⟨h1, h2⟩ := freeEnergy_sym shapeSym1 h.pair x
  refine ⟨h1, h.after h2 (freeEnergy_cache _ _ _) (freeEnergy_cache _ _ _), fun ev => ?_⟩
  obtain ⟨h3, h4⟩ := gradient_sym shapeSym1 h.pair x ev
  exact ⟨h3, h.after h4 (gradient_cache _ _ _ _) (gradient_cache _ _ _ _)⟩

theorem mirror_signs (N : ℕ) : mirror N = signs fun i => if i < N then 1 else -1 := by
  funext x
  unfold mirror signs
  apply List.ext_getElem
  · simp; omega
  · intro i h1 h2
    simp only [List.length_mapIdx] at h2
    rw [List.getElem_mapIdx, List.getElem_append]
    by_cases hi : i < N
    · simp [hi, h2]
    · rw [dif_neg (by simp; omega)]
      simp only [List.getElem_map, List.getElem_drop, if_neg hi, neg_mul, one_mul, neg_inj, List.length_take]
      congr 1
      omega

theorem lastIdx_map {α β : Type} (f : α → β) (l : List α) : lastIdx (l.map f) = (lastIdx l).map f := by
  unfold lastIdx
  rw [List.getLast?_map]
  cases l.getLast? <;> rfl

theorem splineData_map {V W : Type} {o o' : VarGP V W} (f : V → V) (ht : o'.obs_t = o.obs_t) (hy : o'.obs_y = o.obs_y.map f) (tw : List ℝ) :
    o'.splineData tw = (o.splineData tw).map fun r => (r.1, r.2.map f) := by
  unfold VarGP.splineData
  rw [ht, hy, idx_map, lastIdx_map]
  rcases idx tw 0 with e | t0
  · rfl
  simp only [py_ok_bind]
  rcases fancy tw o.obs_t with e | ts
  · rfl
  simp only [py_ok_bind]
  rcases lastIdx tw with e | t1
  · rfl
  simp only [py_ok_bind]
  rcases idx o.obs_y 0 with e | y0
  · rfl
  simp only [Except.map, py_ok_bind]
  rcases lastIdx o.obs_y with e | y1
  · rfl
  simp [py_pure]

theorem cubicSpline_map {V : Type} (f : V → V) {fit : List ℝ → List V → ℝ → V} (hfit : ∀ xs ys t, fit xs (ys.map f) t = f (fit xs ys t))
    (xs : List ℝ) (ys : List V) : cubicSpline fit xs (ys.map f) = (cubicSpline fit xs ys).map fun g t => f (g t) := by
  unfold cubicSpline
  rw [List.length_map]
  split
  · rfl
  split
  · rfl
  split
  · exact congrArg Except.ok (funext fun t => hfit xs ys t)
  · rfl

theorem initialization1_mirror {fit : List ℝ → List ℝ → ℝ → ℝ} (hfit : ∀ xs ys t, fit xs (ys.map fun y => -y) t = -fit xs ys t)
    {G : Type} {o o' : VarGP ℝ ℝ} (h : Reflected G o o') : o'.initialization1 fit = (o.initialization1 fit).map (mirror o.dim_n) := by
  obtain ⟨q, hq⟩ := h.same
  unfold VarGP.initialization1
  rw [hq]
  simp only [h.grid.1]
  rcases o.model.time_window with e | tw
  · rfl
  simp only [py_ok_bind]
  rw [splineData_map (fun y => -y) h.obs_t h.obs_y]
  rcases o.splineData tw with e | ⟨xs, ys⟩
  · rfl
  simp only [Except.map, py_ok_bind]
  rw [cubicSpline_map (fun y => -y) hfit]
  rcases cubicSpline fit xs ys with e | g
  · rfl
  simp only [Except.map, py_ok_bind, py_pure, mirror]
  rw [List.take_left' (by simp), List.drop_left' (by simp), List.map_map]
  rfl

/-- C127 for a whole estimation with the double well or the Ornstein-Uhlenbeck process: if the interpolation of the reflected data is the reflected
interpolation, the reflected problem starts at the reflected parameters, and from reflected starting points the optimizer returns reflected parameters with
the same free energy, and leaves reflected moments behind. Exceptions are the same, too. -/
theorem C127_estimate_1d {G : Type} (E : Env G) (hfit : ∀ xs ys t, E.fit1 xs (ys.map fun y => -y) t = -E.fit1 xs ys t)
    {o o' : VarGP ℝ ℝ} (h : Reflected G o o') :
    AnyVgp.initialization E (.one o') = (AnyVgp.initialization E (.one o)).map (mirror o.dim_n)
      ∧ ∀ x0, Alike (fun r r' => r' = (mirror o.dim_n r.1, r.2)) (AnyVgp.optimize (.one o) x0).1 (AnyVgp.optimize (.one o') (mirror o.dim_n x0)).1
        ∧ ∃ q q', (AnyVgp.optimize (.one o) x0).2 = .one q ∧ (AnyVgp.optimize (.one o') (mirror o.dim_n x0)).2 = .one q' ∧ Reflected G q q' := by
  refine ⟨initialization1_mirror hfit h, fun x0 => ?_⟩
  obtain ⟨h1, q, q', e, e', -, h2⟩ := optimize_sym shapeSym1 (R := Reflected G) ⟨fun h => h.pair, fun h => h.after⟩ seen1 o.dim_n _
    (fun i => by split <;> simp) (mirror_signs o.dim_n) ⟨o, o', rfl, rfl, rfl, h⟩ x0
  exact ⟨h1, q, q', e, e', h2⟩

/-! ### The objects that `run` builds -/

theorem vgpOf_reflected {G : Type} {sde : SdeModel ℝ ℝ} (hp : (∃ p : DW G, sde = p.sde) ∨ ∃ p : OU G, sde = p.sde) (f b : OdeFrontEnd)
    (m s dt r : ℝ) (K : Prior1) (n N M : ℕ) (y : Fin M → ℝ) :
    Reflected G (vgpOf sde f b m s dt r K n N M y) (vgpOf sde f b (-m) s dt r ⟨-K.mu0, K.tau0⟩ n N M fun i => -y i) where
  process := hp
  same := ⟨_, rfl⟩
  like := ⟨_, rfl, by simp only [List.map_ofFn]; rfl⟩
  prior := ⟨K, rfl, rfl⟩
  m0 := rfl
  s0 := rfl
  obs_y := by simp only [vgpOf, List.map_ofFn]; rfl
  obs_t := rfl
  grid := ⟨rfl, rfl⟩
  solvers := ⟨rfl, rfl⟩
  stored := rfl

/-- A double well on the grid `0, 0.1, …, 1`. -/
def mirrorDW {G : Type} (g : G) : DW G :=
  ⟨⟨some (List.ofFn fun i : Fin 11 => (i : ℝ)), some (Spec.grid 0 0.1 10), g, true⟩, 0.8, 1, 1.0 / 0.8⟩

/-- An interpolation of which the value is the next observation. -/
def stepFit (xs ys : List ℝ) (t : ℝ) : ℝ := ys.getD (xs.countP fun x => decide (x ≤ t)) 0

theorem stepFit_neg (xs ys : List ℝ) (t : ℝ) : stepFit xs (ys.map fun y => -y) t = -stepFit xs ys t := by
  unfold stepFit
  rw [List.getD_eq_getElem?_getD, List.getD_eq_getElem?_getD, List.getElem?_map]
  generalize xs.countP (fun x => decide (x ≤ t)) = k
  cases ys[k]? <;> simp

/-- A reflected pair for which the hypotheses hold, and for which the estimation ends. -/
example {G : Type} (E : Env G) (g : G) (f b : OdeFrontEnd) :
    ∃ o o', Reflected G o o' ∧ o'.m0 ≠ o.m0 ∧ (∀ xs ys t, ({ E with fit1 := stepFit } : Env G).fit1 xs (ys.map fun y => -y) t = -({ E with fit1 := stepFit } : Env G).fit1 xs ys t)
      ∧ ∃ x0 r v, AnyVgp.initialization { E with fit1 := stepFit } (.one o) = .ok x0 ∧ (AnyVgp.one o).optimize x0 = (.ok r, v) := by
  have hstep : (mirrorDW g).base.timeStep = .ok 0.1 := timeStep_grid _ 0 0.1 10 (by norm_num) (by norm_num) rfl
  have hobs : (List.ofFn fun i : Fin 2 => eqIdx 10 2 i).Pairwise (· ≤ ·) := by
    rw [List.pairwise_ofFn]
    exact fun i j hij => ((eqIdx_spec 10 2 (by norm_num)).1 i j hij).le
  obtain ⟨x0, z, fx, v', -, h1, -, h2⟩ := vgp_total { E with fit1 := stepFit } (sde := (mirrorDW g).sde) (t0 := 0) (dt := 0.1) (N := 10) (M := 2)
    (by norm_num) (by norm_num) (by norm_num) hstep (path := List.ofFn fun i : Fin 11 => (i : ℝ)) rfl (by simp) rfl (dw_energyOk _ _ _ _ hstep hobs)
    1.5 0.2 0.04 f b ⟨0.3, 0.5⟩ ![1, 2]
  exact ⟨_, _, vgpOf_reflected (.inl ⟨mirrorDW g, rfl⟩) f b 1.5 0.2 0.1 0.04 ⟨0.3, 0.5⟩ (10 + 1) 10 2 ![1, 2], by norm_num [vgpOf], stepFit_neg, x0, _, _, h1, h2⟩

end

end VGPA
