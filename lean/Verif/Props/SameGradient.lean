import Verif.Model.IeeeGrad
import Verif.Props.SameProgram

/-!
# C148: the gradient in double precision and the gradient over the reals are the same program
-/

namespace VGPA

theorem real_stepBwd_euler (dt : ℝ) (a dm ds om os : List ℝ) :
    solveBwdF realLibm .euler dt a dm ds om os = Euler.solveBwd rhs1 dt a dm ds om os := by
  unfold solveBwdF Euler.solveBwd
  refine congrArg (fun f => bwdSweep dm.length f >>= fun lp => pure (lp.map Prod.fst, lp.map Prod.snd)) (funext fun t => funext fun x => ?_)
  obtain ⟨lt, pt⟩ := x
  simp only [stepBwdF]
  refine bind_congr fun _ => ?_
  refine bind_congr fun _ => ?_
  refine bind_congr fun _ => ?_
  refine bind_congr fun _ => ?_
  refine bind_congr fun _ => ?_
  simp only [py_pure, Except.ok.injEq, Prod.mk.injEq, rhs1, funLamF, funPsiF, real_lit, smul_eq_mul, show (0.5 : ℝ) = 1 / 2 by norm_num,
    show (2.0 : ℝ) = 2 by norm_num]
  push_cast
  constructor <;> ring

theorem real_stepBwd_heun (dt : ℝ) (a dm ds om os : List ℝ) :
    solveBwdF realLibm .heun dt a dm ds om os = Heun.solveBwd rhs1 dt a dm ds om os := by
  unfold solveBwdF Heun.solveBwd
  refine congrArg (fun f => bwdSweep dm.length f >>= fun lp => pure (lp.map Prod.fst, lp.map Prod.snd)) (funext fun t => funext fun x => ?_)
  obtain ⟨lt, pt⟩ := x
  simp only [stepBwdF]
  refine bind_congr fun _ => ?_
  refine bind_congr fun _ => ?_
  refine bind_congr fun _ => ?_
  refine bind_congr fun _ => ?_
  refine bind_congr fun _ => ?_
  refine bind_congr fun _ => ?_
  refine bind_congr fun _ => ?_
  refine bind_congr fun _ => ?_
  simp only [py_pure, Except.ok.injEq, Prod.mk.injEq, rhs1, funLamF, funPsiF, real_lit, smul_eq_mul, show (0.5 : ℝ) = 1 / 2 by norm_num,
    show (2.0 : ℝ) = 2 by norm_num]
  push_cast
  constructor <;> ring

theorem real_stepBwd_rk2 (dt : ℝ) (a dm ds om os : List ℝ) :
    solveBwdF realLibm .rk2 dt a dm ds om os = RK2.solveBwd rhs1 dt a dm ds om os := by
  unfold solveBwdF RK2.solveBwd
  refine congrArg (fun f => bwdSweep dm.length f >>= fun lp => pure (lp.map Prod.fst, lp.map Prod.snd)) (funext fun t => funext fun x => ?_)
  obtain ⟨lt, pt⟩ := x
  simp only [stepBwdF, real_midpoints]
  refine bind_congr fun _ => ?_
  refine bind_congr fun _ => ?_
  refine bind_congr fun _ => ?_
  refine bind_congr fun _ => ?_
  refine bind_congr fun _ => ?_
  refine bind_congr fun _ => ?_
  refine bind_congr fun _ => ?_
  refine bind_congr fun _ => ?_
  simp only [py_pure, Except.ok.injEq, Prod.mk.injEq, rhs1, funLamF, funPsiF, real_lit, smul_eq_mul, show (0.5 : ℝ) = 1 / 2 by norm_num,
    show (2.0 : ℝ) = 2 by norm_num]
  push_cast
  constructor <;> ring

theorem real_stepBwd_rk4 (dt : ℝ) (a dm ds om os : List ℝ) :
    solveBwdF realLibm .rk4 dt a dm ds om os = RK4.solveBwd rhs1 dt a dm ds om os := by
  unfold solveBwdF RK4.solveBwd
  refine congrArg (fun f => bwdSweep dm.length f >>= fun lp => pure (lp.map Prod.fst, lp.map Prod.snd)) (funext fun t => funext fun x => ?_)
  obtain ⟨lt, pt⟩ := x
  simp only [stepBwdF, real_midpoints]
  refine bind_congr fun _ => ?_
  refine bind_congr fun _ => ?_
  refine bind_congr fun _ => ?_
  refine bind_congr fun _ => ?_
  refine bind_congr fun _ => ?_
  refine bind_congr fun _ => ?_
  refine bind_congr fun _ => ?_
  refine bind_congr fun _ => ?_
  refine bind_congr fun _ => ?_
  refine bind_congr fun _ => ?_
  refine bind_congr fun _ => ?_
  simp only [py_pure, Except.ok.injEq, Prod.mk.injEq, rhs1, funLamF, funPsiF, real_lit, smul_eq_mul, show (0.5 : ℝ) = 1 / 2 by norm_num,
    show (2.0 : ℝ) = 2 by norm_num]
  push_cast
  constructor <;> ring

theorem real_solveBwd (method : Method) (dt : ℝ) (a dm ds om os : List ℝ) :
    solveBwdF realLibm method dt a dm ds om os = solveBwd method rhs1 dt a dm ds om os := by
  cases method
  · exact real_stepBwd_euler dt a dm ds om os
  · exact real_stepBwd_heun dt a dm ds om os
  · exact real_stepBwd_rk2 dt a dm ds om os
  · exact real_stepBwd_rk4 dt a dm ds om os

theorem real_gaussGrad (o : Like1) (m s : List ℝ) (g : List ℝ × List ℝ × List ℝ) (h : o.gradients m s = .ok g) :
    gaussGradF realLibm o.obs_v o.obs_t o.obs_n o.obs_h m = .ok (g.1, g.2.1) := by
  unfold Like1.gradients at h
  unfold gaussGradF
  obtain ⟨mo, h1, h⟩ := py_bind_ok.1 h
  obtain ⟨so, -, h⟩ := py_bind_ok.1 h
  obtain ⟨W, h2, h⟩ := py_bind_ok.1 h
  obtain ⟨dm, h3, h⟩ := py_bind_ok.1 h
  obtain ⟨ds, h4, h⟩ := py_bind_ok.1 h
  obtain ⟨_, -, h⟩ := py_bind_ok.1 h
  obtain ⟨_, -, h⟩ := py_bind_ok.1 h
  obtain ⟨_, -, h⟩ := py_bind_ok.1 h
  rw [h1, py_ok_bind, h2, py_ok_bind, h3, py_ok_bind]
  have e : (fun _ : ℕ => realLibm.lit (1 / 2) / o.obs_n) = fun _ => 0.5 / o.obs_n := by
    funext _
    rw [real_lit]
    norm_num
  rw [e, h4, py_ok_bind]
  cases h
  rfl

/-- What `gradient` takes from `energy`, point by point. -/
structure SamePoints (p : Proc1) (theta sigma : ℝ) (a b m s Ef Edf dm ds : List ℝ) : Prop where
  Ef : Ef = (List.range m.length).map fun i => (p.gradF realLibm theta sigma (a.getD i 0) (b.getD i 0) (m.getD i 0) (s.getD i 0)).Ef
  Edf : Edf = (List.range m.length).map fun i => (p.gradF realLibm theta sigma (a.getD i 0) (b.getD i 0) (m.getD i 0) (s.getD i 0)).Edf
  dm : dm = (List.range m.length).map fun i => (p.gradF realLibm theta sigma (a.getD i 0) (b.getD i 0) (m.getD i 0) (s.getD i 0)).dm
  ds : ds = (List.range m.length).map fun i => (p.gradF realLibm theta sigma (a.getD i 0) (b.getD i 0) (m.getD i 0) (s.getD i 0)).ds

theorem real_points_ou {G : Type} (o : OU G) {a b m s : List ℝ} {t : Option (List ℕ)} {e : Energy1} (h : o.energy a b m s t = .ok e) :
    SamePoints .ou o.theta o.sigma a b m s e.Ef e.Edf e.dm e.ds := by
  unfold OU.energy at h
  obtain ⟨g, -, h⟩ := py_bind_ok.1 h
  obtain ⟨_, -, h⟩ := py_bind_ok.1 h
  obtain ⟨_, -, h⟩ := py_bind_ok.1 h
  split at h
  · cases h
  have e2 : ∀ (f : ℕ → ℝ) (i : ℕ), i ∈ List.range m.length → ent (tab m.length f) i = f i := fun f i hi => by
    simp [ent, tab, List.getD, List.mem_range.1 hi]
  cases h
  refine ⟨?_, ?_, ?_, ?_⟩
  all_goals
    refine List.map_congr_left fun i hi => ?_
    try simp only [e2 _ i hi]
    simp only [Proc1.gradF, ouGradF, realLibm, ent, show (0.5 : ℝ) = 1 / 2 by norm_num]
    try push_cast
    try ring

theorem real_points_dw {G : Type} (o : DW G) {a b m s : List ℝ} {t : Option (List ℕ)} {e : Energy1} (h : o.energy a b m s t = .ok e) :
    SamePoints .dw o.theta o.sigma a b m s e.Ef e.Edf e.dm e.ds := by
  unfold DW.energy GaussianMoments.init at h
  split at h
  · cases h
  rename_i hl
  push Not at hl
  simp only [py_ok_bind] at h
  obtain ⟨_, -, h⟩ := py_bind_ok.1 h
  have c2 : ∀ g : GaussianMoments, g.call 2 = .ok (List.zipWith (fun m v => m ^ 2 + v) g.m_arr g.v_arr) := fun _ => rfl
  have c3 : ∀ g : GaussianMoments, g.call 3 = .ok (List.zipWith (fun m v => m ^ 3 + 3 * m * v) g.m_arr g.v_arr) := fun _ => rfl
  have c4 : ∀ g : GaussianMoments, g.call 4 = .ok (List.zipWith (fun m v => m ^ 4 + 6 * (m ^ 2) * v + 3 * (v ^ 2)) g.m_arr g.v_arr) :=
    fun _ => rfl
  have c6 : ∀ g : GaussianMoments, g.call 6 = .ok (List.zipWith (fun m v =>
    m ^ 6 + 15 * (m ^ 4) * v + 45 * (m ^ 2) * (v ^ 2) + 15 * (v ^ 3)) g.m_arr g.v_arr) := fun _ => rfl
  have d2 : ∀ g : GaussianMoments, g.dm 2 = .ok (List.zipWith (fun m _ => 2 * m) g.m_arr g.v_arr) := fun _ => rfl
  have d3 : ∀ g : GaussianMoments, g.dm 3 = .ok (List.zipWith (fun m v => 3 * (m ^ 2 + v)) g.m_arr g.v_arr) := fun _ => rfl
  have d4 : ∀ g : GaussianMoments, g.dm 4 = .ok (List.zipWith (fun m v => 4 * (m ^ 3 + 3 * m * v)) g.m_arr g.v_arr) := fun _ => rfl
  have d6 : ∀ g : GaussianMoments, g.dm 6 = .ok (List.zipWith (fun m v => 6 * (m ^ 5 + 10 * (m ^ 3) * v + 15 * m * (v ^ 2))) g.m_arr g.v_arr) := fun _ => rfl
  have k2 : ∀ g : GaussianMoments, g.ds 2 = .ok (List.replicate g.n_size 1) := fun _ => rfl
  have k3 : ∀ g : GaussianMoments, g.ds 3 = .ok (List.zipWith (fun m _ => 3 * m) g.m_arr g.v_arr) := fun _ => rfl
  have k4 : ∀ g : GaussianMoments, g.ds 4 = .ok (List.zipWith (fun m v => 6 * (m ^ 2 + v)) g.m_arr g.v_arr) := fun _ => rfl
  have k6 : ∀ g : GaussianMoments, g.ds 6 = .ok (List.zipWith (fun m v => 15 * (m ^ 4) + 90 * (m ^ 2) * v + 45 * (v ^ 2)) g.m_arr g.v_arr) := fun _ => rfl
  simp only [py_ok_bind, c2, c3, c4, c6, d2, d3, d4, d6, k2, k3, k4, k6] at h
  split at h
  · cases h
  have e1 : ∀ (f : ℝ → ℝ → ℝ) (i : ℕ), i ∈ List.range m.length → ent (List.zipWith f m s) i = f (m.getD i 0) (s.getD i 0) := fun f i hi => by
    have := List.mem_range.1 hi
    simp [ent, List.getD, this, show i < s.length by omega]
  have e2 : ∀ (f : ℕ → ℝ) (i : ℕ), i ∈ List.range m.length → ent (tab m.length f) i = f i := fun f i hi => by
    simp [ent, tab, List.getD, List.mem_range.1 hi]
  have e3 : ∀ i, i ∈ List.range m.length → ent (List.replicate m.length (1 : ℝ)) i = 1 := fun i hi => by
    simp [ent, List.getD, List.mem_range.1 hi]
  cases h
  refine ⟨?_, ?_, ?_, ?_⟩
  all_goals
    refine List.map_congr_left fun i hi => ?_
    simp only [e1 _ i hi, e2 _ i hi, e3 i hi]
    simp only [Proc1.gradF, dwGradF, realLibm, ent, show (0.5 : ℝ) = 1 / 2 by norm_num, show (2.0 : ℝ) = 2 by norm_num, show (3.0 : ℝ) = 3 by norm_num,
      show (4.0 : ℝ) = 4 by norm_num, show (8.0 : ℝ) = 8 by norm_num, show (16.0 : ℝ) = 16 by norm_num]
    push_cast
    ring

/-! ## The whole function -/

/-- The object of real numbers that stands for a `VarGP`. -/
def vgpG (p : Proc1) (theta sigma dt : ℝ) (w : VarGP ℝ ℝ) (lk : Like1) (K : Prior1) : VgpG ℝ :=
  { toVgpF := ⟨p, theta, sigma, dt, w.fwd_ode.solver, w.fwd_ode.dt, lk.obs_v, lk.obs_t, lk.obs_n, K.mu0, K.tau0, w.m0, w.s0, w.dim_n⟩
    obs_h := lk.obs_h
    method_bwd := w.bwd_ode.solver
    dt_bwd := w.bwd_ode.dt }

theorem real_gradient (w w' : VarGP ℝ ℝ) (lk : Like1) (K : Prior1) (p : Proc1) (theta dt : ℝ) (x g : List ℝ)
    (hlk : w.likelihood = lk.toIf) (hK : ∀ m s, w.kl0 m s = .ok (K.gauss m s)) (ht : w.obs_t = lk.obs_t)
    (he : ∀ a b m s e, w.model.energy a b m s w.obs_t = .ok e → energyF realLibm p theta w.model.sigma dt a b m s w.obs_t = .ok e.Esde)
    (hp : ∀ a b m s e, w.model.energy a b m s w.obs_t = .ok e → SamePoints p theta w.model.sigma a b m s e.Efx e.Edf e.dm e.ds)
    (hdt : w.dt = dt) (hinv : w.model.inverse_sigma = 1 / w.model.sigma) (h : w.gradient shape1 x true = (.ok g, w')) :
    ∃ c, w'.cache = some c ∧ (vgpG p theta w.model.sigma dt w lk K).gradient realLibm x = .ok (g, c.lamt, c.psit) := by
  unfold VarGP.gradient VarGP.freeEnergy at h
  rw [if_pos rfl] at h
  cases hev : w.eval shape1 x with
  | error e => rw [hev] at h; simp at h
  | ok r =>
  obtain ⟨F, c⟩ := r
  rw [hev] at h
  simp only [Prod.mk.injEq] at h
  obtain ⟨hg, rfl⟩ := h
  refine ⟨c, rfl, ?_⟩
  have hfe := real_freeEnergy w lk K p theta dt x F c hlk hK ht he hev
  unfold VarGP.eval at hev
  simp only [shape1, py_ok_bind] at hev
  obtain ⟨⟨mt, st⟩, -, hev⟩ := py_bind_ok.1 hev
  obtain ⟨Eobs, -, hev⟩ := py_bind_ok.1 hev
  obtain ⟨e, h3, hev⟩ := py_bind_ok.1 hev
  obtain ⟨⟨om, os⟩, h5, hev⟩ := py_bind_ok.1 hev
  obtain ⟨⟨lam, psi⟩, h6, hev⟩ := py_bind_ok.1 hev
  obtain ⟨E0, -, hev⟩ := py_bind_ok.1 hev
  simp only [py_pure, Except.ok.injEq, Prod.mk.injEq] at hev
  obtain ⟨-, rfl⟩ := hev
  have hpt := hp _ _ _ _ _ h3
  rw [hlk] at h5
  simp only [Like1.toIf] at h5
  obtain ⟨g3, h5, h5'⟩ := py_bind_ok.1 h5
  have h5 := real_gaussGrad lk mt st g3 h5
  rw [Except.ok.inj h5'] at h5
  unfold VgpG.gradient
  simp only [vgpG, hfe, py_ok_bind, h5, real_solveBwd]
  rw [hpt.dm, hpt.ds] at h6
  simp only [List.map_map, Function.comp_def]
  rw [h6, py_ok_bind]
  unfold VarGP.gradBody at hg
  simp only [shape1, py_ok_bind] at hg
  obtain ⟨rows, hrows, hg⟩ := py_bind_ok.1 hg
  have key : ∀ ks : List ℕ, ∀ rows : List (ℝ × ℝ), ks.mapM (VarGP.gradRow shape1 { w with cache := some ⟨mt, st, e.Efx, e.Edf, lam, psi⟩ }
      ⟨mt, st, e.Efx, e.Edf, lam, psi⟩ (x.take (w.dim_n * 1 * 1)) (x.drop (w.dim_n * 1 * 1))) = .ok rows →
      ks.mapM (fun k => do
        let ak ← idx (x.take (w.dim_n * 1 * 1)) k
        let sk ← idx st k
        let mk ← idx mt k
        let lamk ← idx lam k
        let pk ← idx ((List.range mt.length).map fun i => p.gradF realLibm theta w.model.sigma ((x.take (w.dim_n * 1 * 1)).getD i 0)
          ((x.drop (w.dim_n * 1 * 1)).getD i 0) (mt.getD i 0) (st.getD i 0)) k
        let bk ← idx (x.drop (w.dim_n * 1 * 1)) k
        let psik ← idx psi k
        pure (gradRowF realLibm (realLibm.lit 1 / w.model.sigma) dt ak bk mk sk lamk psik pk)) = .ok (rows.map fun r => (dt * r.1, dt * r.2)) := by
    intro ks
    induction ks with
    | nil => intro rows h; cases h; rfl
    | cons k ks ih =>
      intro rows h
      rw [List.mapM_cons] at h ⊢
      obtain ⟨r, r1, h⟩ := py_bind_ok.1 h
      obtain ⟨rs, r2, h⟩ := py_bind_ok.1 h
      cases h
      rw [ih rs r2]
      unfold VarGP.gradRow at r1
      obtain ⟨ak, q1, r1⟩ := py_bind_ok.1 r1
      obtain ⟨sk, q2, r1⟩ := py_bind_ok.1 r1
      obtain ⟨mk, q3, r1⟩ := py_bind_ok.1 r1
      obtain ⟨lk, q4, r1⟩ := py_bind_ok.1 r1
      obtain ⟨ef, q5, r1⟩ := py_bind_ok.1 r1
      obtain ⟨bk, q6, r1⟩ := py_bind_ok.1 r1
      obtain ⟨edf, q7, r1⟩ := py_bind_ok.1 r1
      obtain ⟨pk, q8, r1⟩ := py_bind_ok.1 r1
      have hk : k < mt.length := by
        by_contra hk
        rw [idx_err (not_lt.1 hk)] at q3
        cases q3
      simp only at q2 q3 q4 q5 q7 q8
      rw [hpt.Ef, idx_ok (by simpa using hk)] at q5
      rw [hpt.Edf, idx_ok (by simpa using hk)] at q7
      rw [q1, py_ok_bind, q2, py_ok_bind, q3, py_ok_bind, q4, py_ok_bind, idx_ok (by simpa using hk), py_ok_bind, q6, py_ok_bind, q8, py_ok_bind]
      simp only [List.getElem_map, List.getElem_range, Except.ok.injEq] at q5 q7 ⊢
      cases r1
      simp only [py_pure, py_ok_bind, List.map_cons, gradRowF, shape1, q5, q7, hinv, real_lit, Except.ok.injEq, List.cons.injEq, Prod.mk.injEq,
        show (2.0 : ℝ) = 2 by norm_num]
      push_cast
      simp
  have hr := key _ _ hrows
  simp only [VgpG.invSigma]
  rw [hr, py_ok_bind]
  simp only [py_pure, Except.ok.injEq, id_eq] at hg
  rw [← hg]
  simp only [hdt, smul_eq_mul, List.map_map, Function.comp_def, py_pure]

/-- C148: with real numbers in place of doubles, the gradient of `Model/IeeeGrad` is the gradient of all other theorems: whenever `gradient(x)` of the
Ornstein-Uhlenbeck process returns, they agree in the derivatives and in the stored multipliers. -/
theorem C148_same_gradient_ou {G : Type} (o : OU G) (w w' : VarGP ℝ ℝ) (lk : Like1) (K : Prior1) (dt : ℝ) (x g : List ℝ) (hm : w.model = o.sde)
    (hinv : o.sig_inv = 1 / o.sigma) (hdt : o.base.timeStep = .ok dt) (hdt' : w.dt = dt) (hlk : w.likelihood = lk.toIf)
    (hK : ∀ m s, w.kl0 m s = .ok (K.gauss m s)) (ht : w.obs_t = lk.obs_t) (h : w.gradient shape1 x true = (.ok g, w')) :
    ∃ c, w'.cache = some c ∧ (vgpG .ou o.theta o.sigma dt w lk K).gradient realLibm x = .ok (g, c.lamt, c.psit) := by
  have := real_gradient w w' lk K .ou o.theta dt x g hlk hK ht (fun a b m s e hh => by
    rw [hm] at hh ⊢
    simp only [OU.sde] at hh ⊢
    obtain ⟨e', h1, h2⟩ := py_bind_ok.1 hh
    rw [← Except.ok.inj h2]
    exact real_energy_ou o hdt h1) (fun a b m s e hh => by
    rw [hm] at hh ⊢
    simp only [OU.sde] at hh ⊢
    obtain ⟨e', h1, h2⟩ := py_bind_ok.1 hh
    rw [← Except.ok.inj h2]
    exact real_points_ou o h1) hdt' (by rw [hm]; exact hinv) h
  rwa [hm] at this

/-- The same for the double well. -/
theorem C148_same_gradient_dw {G : Type} (o : DW G) (w w' : VarGP ℝ ℝ) (lk : Like1) (K : Prior1) (dt : ℝ) (x g : List ℝ) (hm : w.model = o.sde)
    (hinv : o.sig_inv = 1 / o.sigma) (hdt : o.base.timeStep = .ok dt) (hdt' : w.dt = dt) (hlk : w.likelihood = lk.toIf)
    (hK : ∀ m s, w.kl0 m s = .ok (K.gauss m s)) (ht : w.obs_t = lk.obs_t) (h : w.gradient shape1 x true = (.ok g, w')) :
    ∃ c, w'.cache = some c ∧ (vgpG .dw o.theta o.sigma dt w lk K).gradient realLibm x = .ok (g, c.lamt, c.psit) := by
  have := real_gradient w w' lk K .dw o.theta dt x g hlk hK ht (fun a b m s e hh => by
    rw [hm] at hh ⊢
    simp only [DW.sde] at hh ⊢
    obtain ⟨e', h1, h2⟩ := py_bind_ok.1 hh
    rw [← Except.ok.inj h2]
    exact real_energy_dw o hdt h1) (fun a b m s e hh => by
    rw [hm] at hh ⊢
    simp only [DW.sde] at hh ⊢
    obtain ⟨e', h1, h2⟩ := py_bind_ok.1 hh
    rw [← Except.ok.inj h2]
    exact real_points_dw o h1) hdt' (by rw [hm]; exact hinv) h
  rwa [hm] at this

/-- The hypotheses are met by a double well on four grid points with two observations, for all parameters and integrators. -/
example (meth : Method) (a b : Fin 4 → ℝ) : ∃ (g : List ℝ) (w' : VarGP ℝ ℝ) (c : VgpCache ℝ ℝ),
    (vgpObj vgpDW.sde meth).gradient shape1 (List.ofFn a ++ List.ofFn b) true = (.ok g, w') ∧ w'.cache = some c ∧
    (vgpG .dw 1 2 (1 / 2) (vgpObj vgpDW.sde meth) ⟨[1, 2], [1, 2], 1, 1⟩ ⟨0, 1⟩).gradient realLibm (List.ofFn a ++ List.ofFn b) =
      .ok (g, c.lamt, c.psit) := by
  obtain ⟨m, s, lam, psi, c, w', h, -⟩ := vgp1_gradient (vgpObj_ok vgpDW.sde meth) (dw_energyOk vgpDW _ _ _ vgpDW_step (by simp [vgpObj])) a b
  obtain ⟨c, h1, h2⟩ := C148_same_gradient_dw vgpDW _ w' ⟨[1, 2], [1, 2], 1, 1⟩ ⟨0, 1⟩ (1 / 2) _ _ rfl rfl vgpDW_step rfl (by simp [vgpObj]) (fun _ _ => rfl)
    (by simp [vgpObj]) h
  exact ⟨_, w', c, h, h1, h2⟩

end VGPA
