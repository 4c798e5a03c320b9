import Verif.Props.SharedParams
import Verif.Props.Meaning1

/-!
# C155: a step size that is changed between `setup()` and `run()` changes the result without an error
-/

namespace VGPA

noncomputable section

variable {G : Type}

/-- A simulation that is ready to run, except that the time window shows the step `d`: the path `x`, the observations `y` at the times `eqIdx N M i` with the variance `r`, and the initial mean
`a`, wherever they come from. -/
structure StepReady (R : Rng G) (c : Spec.Config1) (d : ℝ) (N M : ℕ) (x : ℕ → ℝ) (g : G) (n : ℕ) (y : Fin M → ℝ) (r a : ℝ)
    (m : MData (AnyProc G) Arr) : Prop where
  tw : ∃ j, m.time_window = some j ∧ j.item "dt" = .ok (.num d)
  ode : m.ode_solver = some (.str c.method)
  one : m.single_dim = some true
  times : m.obs_t = some (.times (List.ofFn fun i : Fin M => eqIdx N M i))
  obs : m.obs_y = some (.series (List.ofFn y))
  noise : m.obs_noise = some (.nd (.scalar r))
  op : ∃ j, m.obs_setup = some j ∧ j.item "operator" = .ok .null
  mu0 : m.mu0 = some (.given (.num c.mu0))
  tau0 : m.tau0 = some (.given (.num c.tau0))
  model : ∃ p, m.model = some p ∧ Ready1 R c N x g n p
  m0 : m.m0 = some (.nd (.scalar a))
  s0 : m.s0 = some (.nd (.scalar 0.2))

/-- What `run` builds when the integrators get another step. -/
theorem step_builds (E : Env G) {d : ℝ} (hd : 0 < d) {c : Spec.Config1} {N : ℕ} (hv : c.Valid N) {M : ℕ} (hpos : 0 < M) (hlt : M < N)
    {x : ℕ → ℝ} {g : G} {n : ℕ} {y : Fin M → ℝ} {r m0 : ℝ} {m : MData (AnyProc G) Arr} (h : StepReady E.R c d N M x g n y r m0 m) :
    ∃ p b sde meth x0 z fx v', Sde1 c b p sde ∧ b.timeStep = .ok c.dt ∧ pyLower c.method = pyLower (docName meth)
      ∧ p.singleDim = true ∧ p.pathLength = .ok (N + 1)
      ∧ Spec.Builds (pyClasses E) m p (.one (vgpOf sde ⟨d, c.method, meth⟩ ⟨d, pyLower c.method, meth⟩ m0 0.2 c.dt r ⟨c.mu0, c.tau0⟩ (N + 1) N M
          y)) x0
      ∧ x0.length = (N + 1) + (N + 1)
      ∧ (AnyVgp.one (vgpOf sde ⟨d, c.method, meth⟩ ⟨d, pyLower c.method, meth⟩ m0 0.2 c.dt r ⟨c.mu0, c.tau0⟩ (N + 1) N M y)).optimize x0
        = (.ok (z, fx), v') := by
  obtain ⟨jt, ht1, ht2⟩ := h.tw
  have hy := h.obs
  obtain ⟨jo, ho1, ho2⟩ := h.op
  obtain ⟨p, hp, hr⟩ := h.model
  have hm0 := h.m0
  obtain ⟨meth, hmeth⟩ := hv.method
  have hf := ((C15_fwd_construction d c.method).1 _).2 ⟨hd, meth, hmeth, rfl⟩
  have hb := ((C15_bwd_construction d c.method).1 _).2 ⟨hd, meth, hmeth, rfl⟩
  obtain ⟨y0, hy0⟩ := idx_ofFn_zero hpos y
  obtain ⟨hone, -, hlen⟩ := ready_single hr
  have hcr : ∃ sde b x0 z fx v', Sde1 c b p sde ∧ b.timeStep = .ok c.dt
      ∧ AnyVgp.create p (.nd (.scalar m0)) (.nd (.scalar 0.2)) ⟨d, c.method, meth⟩ ⟨d, pyLower c.method, meth⟩
        (.one ⟨List.ofFn y, List.ofFn fun i : Fin M => eqIdx N M i, r, 1⟩) (.one ⟨c.mu0, c.tau0⟩) (.series (List.ofFn y))
        (.times (List.ofFn fun i : Fin M => eqIdx N M i))
        = .ok (.one (vgpOf sde ⟨d, c.method, meth⟩ ⟨d, pyLower c.method, meth⟩ m0 0.2 c.dt r ⟨c.mu0, c.tau0⟩ (N + 1) N M y))
      ∧ AnyVgp.initialization E (.one (vgpOf sde ⟨d, c.method, meth⟩ ⟨d, pyLower c.method, meth⟩ m0 0.2 c.dt r ⟨c.mu0, c.tau0⟩
          (N + 1) N M y)) = .ok x0
      ∧ x0.length = (N + 1) + (N + 1)
      ∧ (AnyVgp.one (vgpOf sde ⟨d, c.method, meth⟩ ⟨d, pyLower c.method, meth⟩ m0 0.2 c.dt r ⟨c.mu0, c.tau0⟩
          (N + 1) N M y)).optimize x0 = (.ok (z, fx), v') := by
    have hobs : (List.ofFn fun i : Fin M => eqIdx N M i).Pairwise (· ≤ ·) := by
      rw [List.pairwise_ofFn]
      exact fun i j hij => ((eqIdx_spec N M hlt.le).1 i j hij).le
    obtain ⟨b, hb, htk, hxt, -⟩ := hr
    have hstep := timeStep_grid b c.t0 c.dt N (by omega) hv.dt htk
    cases hb with
    | dw _ hn h1 =>
      obtain ⟨x0, z, fx, v', e⟩ := vgp_total E (t0 := c.t0) hv.dt hpos hlt (sde := DW.sde ⟨b, c.sys, c.theta, 1.0 / c.sys⟩) hstep
        (path := List.ofFn fun i : Fin (N + 1) => x i)
        (by simp only [DW.sde, Proc.samplePath, hxt]) (by simp) (by simp only [DW.sde, Proc.timeWindow, htk])
        (dw_energyOk _ _ _ _ hstep hobs) m0 0.2 r ⟨d, c.method, meth⟩ ⟨d, pyLower c.method, meth⟩ ⟨c.mu0, c.tau0⟩ y
      exact ⟨_, b, x0, z, fx, v', .dw hn, hstep, e⟩
    | ou _ hn h1 =>
      obtain ⟨x0, z, fx, v', e⟩ := vgp_total E (t0 := c.t0) hv.dt hpos hlt (sde := OU.sde ⟨b, c.sys, c.theta, 1.0 / c.sys⟩) hstep
        (path := List.ofFn fun i : Fin (N + 1) => x i)
        (by simp only [OU.sde, Proc.samplePath, hxt]) (by simp) (by simp only [OU.sde, Proc.timeWindow, htk])
        (ou_energyOk _ _ _ _ hstep hobs) m0 0.2 r ⟨d, c.method, meth⟩ ⟨d, pyLower c.method, meth⟩ ⟨c.mu0, c.tau0⟩ y
      exact ⟨_, b, x0, z, fx, v', .ou hn, hstep, e⟩
  obtain ⟨sde, b, x0, z, fx, v', hsde, hstep, hc, hi, hx0, ho⟩ := hcr
  exact ⟨p, b, sde, meth, x0, z, fx, v', hsde, hstep, hmeth, hone, hlen,
    ⟨jt, .num d, .str c.method, true, ⟨d, c.method, meth⟩, ⟨d, pyLower c.method, meth⟩, _, _, _, jo, .null,
      .one ⟨List.ofFn y, List.ofFn fun i : Fin M => eqIdx N M i, r, 1⟩, _, _, .one ⟨c.mu0, c.tau0⟩, _, _, ht1, ht2, h.ode, h.one,
      hf, hb, hy, h.times, h.noise, ho1, ho2, by simp only [pyClasses, mkLike, operator1, Like1.init, hy0, py_ok_bind]; rfl,
      h.mu0, h.tau0, rfl, hp, hm0, h.s0, hc, hi⟩, hx0, ho⟩

theorem step_run (E : Env G) {c : Spec.Config1} {d : ℝ} (hd : 0 < d) {N : ℕ} (hv : c.Valid N) {M : ℕ} (hpos : 0 < M) (hlt : M < N)
    {x : ℕ → ℝ} {g : G} {n : ℕ} {y : Fin M → ℝ} {r a : ℝ} {s : Sim (AnyProc G) Arr} (h : StepReady E.R c d N M x g n y r a s.m_data) :
    (s.run (pyClasses E)).1 = .ok () := by
  obtain ⟨p, b, sde, meth, x0, z, fx, v', -, -, -, hone, hlen, hb, -, ho⟩ := step_builds E hd hv hpos hlt h
  have hrun := runBody_builds.2 ⟨_, x0, hb, ho⟩
  unfold Sim.run
  rw [hrun]
  simp only [pyClasses, AnyProc.unpackA, AnyProc.unpackB, hlen, hone, py_ok_bind, if_true, pure, Except.pure]

/-- The moments of a run with the step `d`. -/
theorem step_meaning (E : Env G) {c : Spec.Config1} {d : ℝ} (hd : 0 < d) {N : ℕ} (hv : c.Valid N) {M : ℕ} (hpos : 0 < M) (hlt : M < N)
    {x : ℕ → ℝ} {g : G} {n : ℕ} {y : Fin M → ℝ} {r m0 : ℝ} {s : Sim (AnyProc G) Arr} (h : StepReady E.R c d N M x g n y r m0 s.m_data) :
    ∃ (p : AnyProc G) (meth : Method) (a b m v : Fin (N + 1) → ℝ), pyLower c.method = pyLower (docName meth)
      ∧ (s.run (pyClasses E)).2.output.lookup "at" = some (.array ⟨[N + 1], List.ofFn a⟩)
      ∧ (s.run (pyClasses E)).2.output.lookup "bt" = some (.array ⟨[N + 1], List.ofFn b⟩)
      ∧ Spec.MomentsFollow { c with dt := d } meth a b m0 0.2 m v
      ∧ (((s.run (pyClasses E)).2.output.lookup "mt" = some (.array ⟨[N + 1], List.ofFn m⟩)
          ∧ (s.run (pyClasses E)).2.output.lookup "st" = some (.array ⟨[N + 1], List.ofFn v⟩))
        ∨ ∃ q x0, Spec.Builds (pyClasses E) s.m_data p q x0 ∧ Spec.UsesAllIterations q x0) := by
  obtain ⟨p, pb, sde, meth, x0, z, fx, v', hsde, hstep, hmeth, hone, hlen, hb, hx0, ho⟩ := step_builds E hd hv hpos hlt h
  have hrun := runBody_builds.2 ⟨_, x0, hb, ho⟩
  obtain ⟨p', z', fx', g', A, B, hr, hA, hB, hout⟩ := run_ok_output _ s (step_run E hd hv hpos hlt h)
  rw [hrun] at hr
  injection hr with hr
  simp only [Prod.mk.injEq] at hr
  obtain ⟨rfl, rfl, rfl, rfl⟩ := hr
  replace hout : (s.run (pyClasses E)).2.output
      = (((s.output.put "at" (.array A)).put "bt" (.array B)).put "fx" (.scalar fx)).update v'.argOut := by rw [hout]; rfl
  obtain ⟨hz, hfe, -, hlast⟩ := optimize_ok ho
  rw [hx0] at hz
  obtain ⟨q, rfl⟩ := list_eq_ofFn hz
  rw [split_ofFn] at hfe hA hB hlast
  generalize (fun i : Fin (N + 1) => q (Fin.castAdd (N + 1) i)) = a at hfe hA hB hlast
  generalize (fun i : Fin (N + 1) => q (Fin.natAdd (N + 1) i)) = b at hfe hA hB hlast
  have hA' : A = ⟨[N + 1], List.ofFn a⟩ := by
    simp only [pyClasses, AnyProc.unpackA, hlen, hone, py_ok_bind, if_true, pure, Except.pure] at hA
    injection hA with hA
    rw [← hA]
    simp
  have hB' : B = ⟨[N + 1], List.ofFn b⟩ := by
    simp only [pyClasses, AnyProc.unpackB, hlen, hone, py_ok_bind, if_true, pure, Except.pure] at hB
    injection hB with hB
    rw [← hB]
    simp
  subst hA' hB'
  set w := vgpOf sde ⟨d, c.method, meth⟩ ⟨d, pyLower c.method, meth⟩ m0 0.2 c.dt r ⟨c.mu0, c.tau0⟩ (N + 1) N M y with hw
  have hfe' : ∃ ca, w.eval shape1 (List.ofFn a ++ List.ofFn b) = .ok (fx, ca) := by
    simp only [AnyVgp.freeEnergy, VarGP.freeEnergy] at hfe
    rcases he : w.eval shape1 (List.ofFn a ++ List.ofFn b) with e | ⟨F, ca⟩
    · rw [he] at hfe; cases hfe
    · rw [he] at hfe; cases hfe; exact ⟨ca, rfl⟩
  obtain ⟨ca, hev⟩ := hfe'
  obtain ⟨a', b', e, dE, E0, Eobs, h1, h2, h3, h4, h5, h6, h7, h8⟩ := eval_ok shape1 w _ _ _ hev
  have hu := (C58_pack_unpack_1d a b).2.1
  simp only [shape1, id] at hu h1
  rw [show w.dim_n = N + 1 from rfl, hu] at h1
  cases h1
  obtain ⟨mt, st, hs1, hml, hsl, -⟩ := (C16_forward_shapes w.fwd_ode.solver rhs1 w.fwd_ode.dt (List.ofFn a) (List.ofFn b)
    w.m0 w.s0 w.model.sigma).1 ⟨by simp, Or.inl (by simp)⟩
  rw [show shape1.rhs = rhs1 from rfl, hs1] at h2
  injection h2 with h2
  simp only [Prod.mk.injEq] at h2
  obtain ⟨rfl, rfl⟩ := h2
  obtain ⟨m, hm⟩ := list_eq_ofFn (hml.trans (List.length_ofFn))
  obtain ⟨v, hvv⟩ := list_eq_ofFn (hsl.trans (List.length_ofFn))
  rw [hm, hvv] at hs1 h4 h5
  have hsig : w.model.sigma = c.sys := by
    show sde.sigma = c.sys
    cases hsde <;> rfl
  rw [hsig] at hs1
  refine ⟨p, meth, a, b, m, v, hmeth, ?_, ?_, moments_follow (c := { c with dt := d }) hs1, ?_⟩
  · rw [hout, lookup_update _ _ (argOut_distinct v'), argOut_none v' _ (by simp)]
    simp [lookup_put]
  · rw [hout, lookup_update _ _ (argOut_distinct v'), argOut_none v' _ (by simp)]
    simp [lookup_put]
  · rcases hlast with hl | ⟨hall, -⟩
    · refine .inl ?_
      have hv' : v' = .one { w with cache := some ca } := by
        rw [hl]
        simp only [AnyVgp.freeEnergy, VarGP.freeEnergy, hev]
      rw [hout, lookup_update _ _ (argOut_distinct v'), lookup_update _ _ (argOut_distinct v'), hv']
      have e1 : (AnyVgp.argOut (.one { w with cache := some ca })).lookup "mt" = some (AnyVgp.arr1 ca.mt) := rfl
      have e2 : (AnyVgp.argOut (.one { w with cache := some ca })).lookup "st" = some (AnyVgp.arr1 ca.st) := rfl
      rw [e1, e2, hm, hvv]
      simp [AnyVgp.arr1]
    · exact .inr ⟨_, x0, hb, hall⟩


namespace Spec

/-- Between `setup` and `run`, the caller has set the step size in the dictionary that was `params["Time-window"]` to `d`, and has left alone the objects for the method and the prior and the operator. -/
structure StepChanged (before after : Objects) (params : Ref) (d : ℝ) : Prop where
  dt : ∀ r, before.item params "Time-window" = .ok r → (after.val r).item "dt" = .ok (.num d)
  method : ∀ r, before.item params "Ode-method" = .ok r → after.val r = before.val r
  operator : ∀ r, before.item params "Observations" = .ok r → (after.val r).item "operator" = (before.val r).item "operator"
  mu0 : ∀ p r, before.item params "Prior" = .ok p → before.item p "mu0" = .ok r → after.val r = before.val r
  tau0 : ∀ p r, before.item params "Prior" = .ok p → before.item p "tau0" = .ok r → after.val r = before.val r

end Spec

theorem step_ready (E : Env G) {c : Spec.Config1} {before after : Objects} (hb : Spec.Faithful before) {params : Ref} (hin : c.In (before.val params))
    {N : ℕ} (hv : c.Valid N) {s : RSim (AnyProc G) Arr} {d : ℝ} (hd : Spec.StepChanged before after params d) :
    ∃ M x g n y r m0, 0 < M ∧ M < N ∧ (RSim.setupBody (pyClasses E) before params none s.m_data).1 = .ok ()
      ∧ StepReady E.R c d N M x g n y r m0 ((RSim.setupBody (pyClasses E) before params none s.m_data).2.look after.val) := by
  obtain ⟨M, hM⟩ := Int.eq_ofNat_of_zero_le hv.some_obs.le
  have hpos : 0 < M := by have := hv.some_obs; omega
  have hlt : M < N := by have := hv.not_all; omega
  obtain ⟨m', x, g, k, q1, q2, -⟩ := setup_total E hin hv M hM (s.m_data.look before.val)
  obtain ⟨s1, s2⟩ := sees_body (pyClasses E) hb params none s.m_data
  rw [py_map_id, q1] at s1
  rw [q1] at s2
  have q := q2.prepared
  obtain ⟨w, o, b, p, mu, tau, hw, ho, hbb, hp, hmu, htau, r1, r2, r3, r4, r5⟩ := setup_refers (pyClasses E) s1
  generalize RSim.setupBody (pyClasses E) before params none s.m_data = R at *
  simp only at s2
  subst s2
  refine ⟨M, x, g, k + M + 1, fun i => x (eqIdx N M i) + Real.sqrt c.obs * Spec.draw E.R g (k + i), c.obs, x 0 + 0.1 * Spec.draw E.R g (k + M), hpos, hlt, s1, ?_⟩
  exact {
    tw := ⟨after.val w, by simp only [RData.look, r1, Option.map_some], hd.dt w hw⟩
    ode := by rw [← q.ode]; simp only [RData.look, r2, Option.map_some, hd.method o ho]
    one := q.one
    times := q.times
    obs := q.obs
    noise := q.noise
    op := by
      obtain ⟨j, h1, h2⟩ := q.op
      simp only [RData.look, r3, Option.map_some, Option.some.injEq] at h1
      subst h1
      exact ⟨after.val b, by simp only [RData.look, r3, Option.map_some], (hd.operator b hbb).trans h2⟩
    mu0 := (prior_look r4 (hd.mu0 p mu hp hmu)).trans q.mu0
    tau0 := (prior_look r5 (hd.tau0 p tau hp htau)).trans q.tau0
    model := q.model
    m0 := q.m0
    s0 := q.s0 }

/-- Moments that follow Euler's method with two different steps are constant. -/
theorem euler_two_steps {c : Spec.Config1} (hc : c.dt ≠ 0) {d : ℝ} (hd0 : d ≠ 0) (hd : d ≠ c.dt) {N : ℕ} {a b m v : Fin (N + 1) → ℝ} {m0 v0 : ℝ}
    (h1 : Spec.MomentsFollow c .euler a b m0 v0 m v) (h2 : Spec.MomentsFollow { c with dt := d } .euler a b m0 v0 m v) : ∀ i, m i = m0 ∧ v i = v0 := by
  obtain ⟨A1, hA1⟩ := Spec.exists_linInterp c.dt hc (List.ofFn a)
  obtain ⟨B1, hB1⟩ := Spec.exists_linInterp c.dt hc (List.ofFn b)
  obtain ⟨A2, hA2⟩ := Spec.exists_linInterp d hd0 (List.ofFn a)
  obtain ⟨B2, hB2⟩ := Spec.exists_linInterp d hd0 (List.ofFn b)
  have key : ∀ k : Fin N, m k.succ = m k.castSucc ∧ v k.succ = v k.castSucc := by
    intro k
    obtain ⟨e1, e2⟩ := h1.2.2 A1 B1 hA1 hB1 k
    obtain ⟨f1, f2⟩ := h2.2.2 A2 B2 hA2 hB2 k
    replace e2 := e2 (by decide)
    replace f2 := f2 (by decide)
    have a1 := hA1.1 k (by simp)
    have b1 := hB1.1 k (by simp)
    have a2 := hA2.1 k (by simp)
    have b2 := hB2.1 k (by simp)
    simp only [scheme, Spec.step, Spec.eulerStep, a1, b1, a2, b2, smul_eq_mul] at e1 e2 f1 f2
    have hne : d - c.dt ≠ 0 := sub_ne_zero.2 hd
    constructor
    · have : (d - c.dt) * (-((List.ofFn a)[(k : ℕ)]'(by simp) * m k.castSucc) + (List.ofFn b)[(k : ℕ)]'(by simp)) = 0 := by linarith
      rcases mul_eq_zero.1 this with h | h
      · exact absurd h hne
      · rw [e1, h]; ring
    · have : (d - c.dt) * (-(2 * (List.ofFn a)[(k : ℕ)]'(by simp) * v k.castSucc) + c.sys) = 0 := by linarith
      rcases mul_eq_zero.1 this with h | h
      · exact absurd h hne
      · rw [e2, h]; ring
  intro i
  induction i using Fin.induction with
  | zero => exact ⟨h1.1, h1.2.1⟩
  | succ k ih => exact ⟨(key k).1.trans ih.1, (key k).2.trans ih.2⟩

/-- C155 does not hold, without an error: for every valid one dimensional configuration, if the caller sets the step size in the dictionary `params["Time-window"]` to another positive number `d` after `setup`, `run` succeeds, and the moments
that belong to the reported `at` and `bt` (and that are stored, if the optimizer stops by itself) are those of an integrator with the step `d` on the grid with the step of `setup`. With Euler's method they are not those of the
parameters that `setup` was given, unless mean and variance stay constant. -/
theorem C155_silent_violated (E : Env G) (c : Spec.Config1) (before : Objects) (hb : Spec.Faithful before) (params : Ref) (hin : c.In (before.val params))
    (N : ℕ) (hv : c.Valid N) (s : RSim (AnyProc G) Arr) (after : Objects) (d : ℝ) (hd : 0 < d) (hne : d ≠ c.dt) (hs : Spec.StepChanged before after params d) :
    (s.setup (pyClasses E) before params none).1 = .ok ()
    ∧ ((s.setup (pyClasses E) before params none).2.run (pyClasses E) after).1 = .ok ()
    ∧ ∃ (meth : Method) (m0 : ℝ) (a b m v : Fin (N + 1) → ℝ), pyLower c.method = pyLower (docName meth)
      ∧ (s.setup (pyClasses E) before params none).2.m_data.m0 = some (.nd (.scalar m0))
      ∧ ((s.setup (pyClasses E) before params none).2.run (pyClasses E) after).2.output.lookup "at" = some (.array ⟨[N + 1], List.ofFn a⟩)
      ∧ ((s.setup (pyClasses E) before params none).2.run (pyClasses E) after).2.output.lookup "bt" = some (.array ⟨[N + 1], List.ofFn b⟩)
      ∧ Spec.MomentsFollow { c with dt := d } meth a b m0 0.2 m v
      ∧ (meth = .euler → Spec.MomentsFollow c meth a b m0 0.2 m v → ∀ i, m i = m0 ∧ v i = 0.2)
      ∧ ((((s.setup (pyClasses E) before params none).2.run (pyClasses E) after).2.output.lookup "mt" = some (.array ⟨[N + 1], List.ofFn m⟩)
          ∧ ((s.setup (pyClasses E) before params none).2.run (pyClasses E) after).2.output.lookup "st" = some (.array ⟨[N + 1], List.ofFn v⟩))
        ∨ ∃ p q x0, Spec.Builds (pyClasses E) ((s.setup (pyClasses E) before params none).2.look after.val).m_data p q x0 ∧ Spec.UsesAllIterations q x0) := by
  obtain ⟨M, x, g, n, y, r, m0, hpos, hlt, h1, h2⟩ := step_ready E hb hin hv (s := s) hs
  have h3 : StepReady E.R c d N M x g n y r m0 ((s.setup (pyClasses E) before params none).2.look after.val).m_data := h2
  obtain ⟨p, meth, a, b, m, v, g1, g2, g3, g4, g5⟩ := step_meaning E hd hv hpos hlt h3
  refine ⟨h1, step_run E hd hv hpos hlt h3, meth, m0, a, b, m, v, g1, h3.m0, g2, g3, g4, ?_, ?_⟩
  · rintro rfl hf
    exact euler_two_steps hv.dt.ne' hd.ne' hne hf g4
  · rcases g5 with g5 | ⟨q, x0, hq⟩
    · exact .inl g5
    · exact .inr ⟨p, q, x0, hq⟩

-- The file for the double well: the step size is set from 0.01 to 0.02 between the calls.
example (E : Env G) (s : RSim (AnyProc G) Arr) : ((s.setup (pyClasses E) (shObjects 0.01) 0 none).2.run (pyClasses E) (shObjects 0.02)).1 = .ok () :=
  (C155_silent_violated E (Spec.exampleConfig "DW") (shObjects 0.01) (sh_faithful _) 0
    ⟨rfl, ⟨_, rfl, rfl⟩, ⟨_, rfl, rfl, rfl⟩, ⟨_, rfl, rfl, rfl, rfl⟩, rfl, rfl, ⟨_, rfl, rfl, rfl⟩, _, rfl, rfl, rfl⟩ 1000 (example_valid "DW" (.inl rfl)) s (shObjects 0.02) 0.02
    (by norm_num) (by norm_num [Spec.exampleConfig])
    ⟨fun r hr => by cases hr; rfl, fun r hr => by cases hr; rfl, fun r hr => by cases hr; rfl, fun p r hp hr => by cases hp; cases hr; rfl, fun p r hp hr => by cases hp; cases hr; rfl⟩).2.1

/-! ## All four processes -/

section
variable {M A F B L K Vg X : Type}

theorem single_model {α : Type} {o : Bool} (meth : M → Py α × M) : KeepsInv (A := A) (fun m => m.single_dim = some o) (RSim.onModel meth) := by
  intro m hm
  unfold RSim.onModel
  rcases m.model with _ | p <;> exact hm

theorem single_obs {o : Bool} (C : Classes M A F B L K Vg X) (ob : Objects) (data : Option (Data A)) : KeepsInv (fun m => m.single_dim = some o) (RSim.setupObs C ob data) := by
  unfold RSim.setupObs
  rcases data with _ | d
  · exact keepsInv_bind (keepsInv_view _) fun _ => keepsInv_bind (keepsInv_view _) fun _ => keepsInv_bind (keepsInv_view _) fun _ =>
      keepsInv_bind (single_model _) fun _ => keepsInv_bind (keepsInv_write fun _ h => h) fun _ => keepsInv_bind (keepsInv_write fun _ h => h) fun _ =>
      keepsInv_write fun _ h => h
  · exact keepsInv_bind (keepsInv_lift _) fun _ => keepsInv_bind (keepsInv_write fun _ h => h) fun _ => keepsInv_bind (keepsInv_lift _) fun _ =>
      keepsInv_write fun _ h => h

theorem single_moments {o : Bool} (C : Classes M A F B L K Vg X) (ob : Objects) : KeepsInv (fun m => m.single_dim = some o) (RSim.setupMoments C ob) := by
  unfold RSim.setupMoments
  refine keepsInv_bind (keepsInv_view _) fun one => keepsInv_bind (single_model _) fun _ => keepsInv_bind (keepsInv_write fun _ h => h) fun _ =>
    keepsInv_bind (keepsInv_view _) fun _ => keepsInv_bind (keepsInv_write fun _ h => h) fun _ => ?_
  rcases one with _ | _
  · exact keepsInv_bind (keepsInv_view _) fun v => keepsInv_bind (keepsInv_write fun _ h => h) fun _ => keepsInv_bind (keepsInv_view _) fun v' => keepsInv_write fun _ h => h
  · exact keepsInv_pure

theorem setup_single (C : Classes M A F B L K Vg X) {ob : Objects} {params : Ref} {data : Option (Data A)} {m : RData M A}
    (h : (RSim.setupBody C ob params data m).1 = .ok ()) : ∃ o, (RSim.setupBody C ob params data m).2.single_dim = some o := by
  unfold RSim.setupBody at h ⊢
  iterate 20
    obtain ⟨_, -, e⟩ := ok_bind h
    rw [e] at h ⊢
    clear e
  obtain ⟨p, -, e⟩ := ok_bind h; rw [e] at h ⊢
  obtain ⟨-, -, e⟩ := ok_bind h; rw [e] at h ⊢
  obtain ⟨-, -, e⟩ := ok_bind h; rw [e] at h ⊢
  refine ⟨C.single_dim p, ?_⟩
  refine keepsInv_bind (I := fun m => m.single_dim = some (C.single_dim p)) (keepsInv_view _) ?_ _ ?_
  swap
  · rfl
  exact fun _ => keepsInv_bind (keepsInv_view _) fun _ => keepsInv_bind (keepsInv_view _) fun _ => keepsInv_bind (single_model _) fun _ =>
    keepsInv_bind (single_obs C ob data) fun _ => single_moments C ob

end

/-- C155 does not hold for any of the four processes: whatever the parameters, the data and the history, if `setup` succeeds and the caller then sets the step size in the dictionary that was `params["Time-window"]` to a number that is not positive,
`run` raises a `ValueError` and writes no output. -/
theorem C155_every_process_violated (E : Env G) (before after : Objects) (params : Ref) (data : Option (Data Arr)) (s : RSim (AnyProc G) Arr)
    (hok : (s.setup (pyClasses E) before params data).1 = .ok ()) (d : ℝ) (hd : d ≤ 0)
    (hdt : ∀ w, before.item params "Time-window" = .ok w → (after.val w).item "dt" = .ok (.num d)) :
    ((s.setup (pyClasses E) before params data).2.run (pyClasses E) after).1 = .error .valueError
    ∧ ((s.setup (pyClasses E) before params data).2.run (pyClasses E) after).2.output = s.output := by
  obtain ⟨w, o, b, p, mu, tau, hw, -, -, -, -, -, r1, r2, -⟩ := setup_refers (pyClasses E) hok
  obtain ⟨one, hone⟩ := setup_single (pyClasses E) hok
  have key : Sim.runBody (pyClasses E) ((RSim.setupBody (pyClasses E) before params data s.m_data).2.look after.val) = .error .valueError := by
    have hf : (pyClasses E).fwd_ode (.num d) (after.val o) one = .error .valueError := by
      show mkFwd (.num d) (after.val o) = _
      unfold mkFwd FwdOde.init
      simp only [Json.real, py_ok_bind, if_pos hd]
    unfold Sim.runBody
    simp only [RData.look, r1, r2, hone, Option.map_some, need_some, py_ok_bind, hdt w hw, hf]
    rfl
  constructor
  · unfold RSim.run RSim.setup RSim.look Sim.run
    simp only [key]
  · unfold RSim.run RSim.setup RSim.look Sim.run
    simp only [key]

-- Some successful `setup` and such a change.
example (E : Env G) (s : RSim (AnyProc G) Arr) : (s.setup (pyClasses E) (shObjects 0.01) 0 none).1 = .ok ()
    ∧ ((s.setup (pyClasses E) (shObjects 0.01) 0 none).2.run (pyClasses E) (shObjects (-1))).1 = .error .valueError := by
  have h := (C155_violated E (Spec.exampleConfig "DW") (shObjects 0.01) (sh_faithful _) 0
    ⟨rfl, ⟨_, rfl, rfl⟩, ⟨_, rfl, rfl, rfl⟩, ⟨_, rfl, rfl, rfl, rfl⟩, rfl, rfl, ⟨_, rfl, rfl, rfl⟩, _, rfl, rfl, rfl⟩ 1000 (example_valid "DW" (.inl rfl)) s (shObjects 0) 1 rfl 0 le_rfl rfl).1
  exact ⟨h, (C155_every_process_violated E _ _ 0 none s h (-1) (by norm_num) fun w hw => by cases hw; rfl).1⟩

end

end VGPA
