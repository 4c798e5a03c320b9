import Verif.Props.RunTotal
import Verif.Props.Energy1
import Verif.Props.Like1
import Verif.Props.Prior

/-!
# C90, C91: what `setup` and `run` compute from a one dimensional parameter file
-/

namespace VGPA

noncomputable section

variable {G : Type}

/-! ## C90 -/

/-- C90: for every valid one dimensional configuration, whatever the simulation did before, `setup(params)` simulates the configured
process: the stored object has the noise, the drift parameter, the window of the file, and its path is the Euler-Maruyama path. The observations are
the values of the path at equidistant times, each with its own normal error of the configured variance. The mean of the first time point is the first value of the path
with an error of standard deviation 0.1, its variance is 0.2. All these normal numbers are different members of one sequence, which
the generator with the configured seed yields. -/
theorem C90_setup_1d (E : Env G) (c : Spec.Config1) (params : Json) (hin : c.In params) (N : ℕ) (hv : c.Valid N)
    (s : Sim (AnyProc G) Arr) :
    ∃ (M k : ℕ) (x z : ℕ → ℝ) (b : Proc G ℝ) (p : AnyProc G) (m : MData (AnyProc G) Arr),
      (s.setup (pyClasses E) params none).2.m_data = m
      ∧ Spec.numObs N c.dt c.density = M
      ∧ Spec.PathFrom E.R c N (Spec.startState E.R E.entropy c.seed) x z k
      ∧ m.model = some p
      ∧ (Spec.SameUpToCase c.name "DW" → p = .dw ⟨b, c.sys, c.theta, 1 / c.sys⟩)
      ∧ (Spec.SameUpToCase c.name "OU" → p = .ou ⟨b, c.sys, c.theta, 1 / c.sys⟩)
      ∧ b.timeWindow = .ok (Spec.grid c.t0 c.dt N)
      ∧ b.samplePath = .ok (List.ofFn fun i : Fin (N + 1) => x i)
      ∧ m.obs_t = some (.times (List.ofFn fun i : Fin M => (i + 1) * (N + 1) / (M + 1)))
      ∧ m.obs_y = some (.series (List.ofFn fun i : Fin M => x ((i + 1) * (N + 1) / (M + 1)) + Real.sqrt c.obs * z (k + i)))
      ∧ m.obs_noise = some (.nd (.scalar c.obs))
      ∧ m.m0 = some (.nd (.scalar (x 0 + 1 / 10 * z (k + M))))
      ∧ m.s0 = some (.nd (.scalar (1 / 5)))
      ∧ m.mu0 = some (.given (.num c.mu0)) ∧ m.tau0 = some (.given (.num c.tau0)) := by
  obtain ⟨M, hM⟩ := Int.eq_ofNat_of_zero_le hv.some_obs.le
  obtain ⟨m', x, g, k, h1, h2, h3⟩ := setup_total E hin hv M hM s.m_data
  obtain ⟨p, hp, b, hb, htk, hxt, -⟩ := h2.model
  have e1 : (1.0 : ℝ) = 1 := by norm_num
  have e2 : (0.1 : ℝ) = 1 / 10 := by norm_num
  have e3 : (0.2 : ℝ) = 1 / 5 := by norm_num
  refine ⟨M, k, x, Spec.draw E.R g, b, p, m', ?_, hM, h3, hp, ?_, ?_, ?_, ?_, h2.times, h2.obs, h2.noise, ?_, ?_, h2.mu0, h2.tau0⟩
  · unfold Sim.setup
    rw [h1]
  · intro hn
    cases hb with
    | dw => rw [e1]
    | ou _ hn' => exact (not_both hn hn').elim
  · intro hn
    cases hb with
    | ou => rw [e1]
    | dw _ hn' => exact (not_both hn' hn).elim
  · simp only [Proc.timeWindow, htk]
  · simp only [Proc.samplePath, hxt]
  · rw [h2.m0, e2]
  · rw [h2.s0, e3]

/-- Non-vacuity of C90: a configuration with 1000 steps. -/
example : (Spec.exampleConfig "DW").In (Spec.exampleParams "DW") ∧ (Spec.exampleConfig "DW").Valid 1000 :=
  ⟨example_in "DW", example_valid "DW" (.inl rfl)⟩

/-! ## C91 -/

namespace Spec

/-- `m` and `v` are what the named integrator makes of `dm/dt = -A m + b`, `dv/dt = -2 A v + sys` from the moments `m0` and `v0`, where `A` and
`b` are the piecewise linear functions through the values `a` and `b`. (For the scheme `rk2` nothing is said about `v`, see C17.) -/
def MomentsFollow (c : Config1) (meth : Method) {N : ℕ} (a b : Fin (N + 1) → ℝ) (m0 v0 : ℝ) (m v : Fin (N + 1) → ℝ) : Prop :=
  m 0 = m0 ∧ v 0 = v0 ∧ ∀ at_ bt : ℝ → ℝ, LinInterp c.dt (List.ofFn a) at_ → LinInterp c.dt (List.ofFn b) bt →
    ∀ k : Fin N, m k.succ = step (scheme meth) (fun t y => -(at_ t * y) + bt t) c.dt (k * c.dt) (m k.castSucc)
      ∧ (meth ≠ .rk2 → v k.succ = step (scheme meth) (fun t y => -(2 * at_ t * y) + c.sys) c.dt (k * c.dt) (v k.castSucc))

/-- The free energy of a Gaussian process with drift `-a x + b` and moments `m`, `v`: the divergence from the prior at the first time, the integral (by
the trapezoidal rule) of the expected squared difference to the drift `f` over twice the noise, and the expected
negative log-likelihood of the observations `y` at the grid points `t`. -/
def freeEnergy1 (c : Config1) (f : ℝ → ℝ) {N M : ℕ} (y : Fin M → ℝ) (t : Fin M → Fin (N + 1)) (m0 v0 : ℝ)
    (a b m v : Fin (N + 1) → ℝ) : ℝ :=
  kl1 m0 v0 c.mu0 c.tau0
    + trapezoidRule c.dt (List.ofFn fun i => mismatch f (a i) (b i) (m i) (v i) / (2 * c.sys))
    + ∑ j, obsEnergy1 (y j) 1 c.obs (m (t j)) (v (t j))

end Spec

theorem moments_follow {c : Spec.Config1} {meth : Method} {N : ℕ} {a b m v : Fin (N + 1) → ℝ} {m0 v0 : ℝ}
    (h : solveFwd meth rhs1 c.dt (List.ofFn a) (List.ofFn b) m0 v0 c.sys = .ok (List.ofFn m, List.ofFn v)) :
    Spec.MomentsFollow c meth a b m0 v0 m v := by
  obtain ⟨hb, -, hm, hs⟩ := solveFwd_inv h
  refine ⟨?_, ?_, fun at_ bt hA hB k => ?_⟩
  · have := congrArg (fun l => l[0]?) hm
    simpa [traj] using this
  · have := congrArg (fun l => l[0]?) hs
    simpa [traj] using this
  · obtain ⟨h1, h2⟩ := C17_forward_steps_1D_partial meth c.dt _ _ m0 v0 c.sys _ _ h at_ bt hA hB
    have e1 := h1 k (by simp)
    simp only [List.getElem_ofFn] at e1
    refine ⟨e1, fun hne => ?_⟩
    have e2 := h2 hne k (by simp)
    simp only [List.getElem_ofFn] at e2
    exact e2

/-- What one evaluation of the free energy at the reported parameters computes. -/
theorem run_meaning (E : Env G) {c : Spec.Config1} {N : ℕ} (hv : c.Valid N) {M : ℕ} (hM : Spec.numObs N c.dt c.density = M)
    {x : ℕ → ℝ} {g : G} {k : ℕ} {s : Sim (AnyProc G) Arr} (h : SetUp1 E.R c N M x g k s.m_data) :
    ∃ (p : AnyProc G) (pb : Proc G ℝ) (sde : SdeModel ℝ ℝ) (meth : Method) (a b m v : Fin (N + 1) → ℝ) (fx : ℝ) (e : SdeTerms ℝ ℝ),
      Sde1 c pb p sde ∧ pb.timeStep = .ok c.dt ∧ pyLower c.method = pyLower (docName meth)
      ∧ (s.run (pyClasses E)).2.output.lookup "at" = some (.array ⟨[N + 1], List.ofFn a⟩)
      ∧ (s.run (pyClasses E)).2.output.lookup "bt" = some (.array ⟨[N + 1], List.ofFn b⟩)
      ∧ (s.run (pyClasses E)).2.output.lookup "fx" = some (.scalar fx)
      ∧ Spec.MomentsFollow c meth a b (x 0 + 0.1 * Spec.draw E.R g (k + M)) 0.2 m v
      ∧ sde.energy (List.ofFn a) (List.ofFn b) (List.ofFn m) (List.ofFn v) (List.ofFn fun i : Fin M => eqIdx N M i) = .ok e
      ∧ (∀ t : Fin M → Fin (N + 1), (∀ j, (t j : ℕ) = eqIdx N M j) →
        fx = (⟨c.mu0, c.tau0⟩ : Prior1).gauss (x 0 + 0.1 * Spec.draw E.R g (k + M)) 0.2 + e.Esde
          + ∑ j : Fin M, (0.5 * ((x (eqIdx N M j) + Real.sqrt c.obs * Spec.draw E.R g (k + j)) ^ 2
              - 2 * (x (eqIdx N M j) + Real.sqrt c.obs * Spec.draw E.R g (k + j)) * m (t j) + (m (t j) ^ 2 + v (t j))) / c.obs
            + 0.5 * (log2pi + Real.log c.obs)))
      ∧ (((s.run (pyClasses E)).2.output.lookup "mt" = some (.array ⟨[N + 1], List.ofFn m⟩)
          ∧ (s.run (pyClasses E)).2.output.lookup "st" = some (.array ⟨[N + 1], List.ofFn v⟩))
        ∨ ∃ q x0, Spec.Builds (pyClasses E) s.m_data p q x0 ∧ Spec.UsesAllIterations q x0) := by
  obtain ⟨p, pb, sde, meth, x0, z, fx, v', hsde, hstep, hmeth, hone, hlen, hb, hx0, ho⟩ := run_builds E hv hM h
  have hrun := runBody_builds.2 ⟨_, x0, hb, ho⟩
  obtain ⟨p', z', fx', g', A, B, hr, hA, hB, hout⟩ := run_ok_output _ s (run_total E hv hM h)
  rw [hrun] at hr
  injection hr with hr
  simp only [Prod.mk.injEq] at hr
  obtain ⟨rfl, rfl, rfl, rfl⟩ := hr
  replace hout : (s.run (pyClasses E)).2.output
      = (((s.output.put "at" (.array A)).put "bt" (.array B)).put "fx" (.scalar fx)).update v'.argOut := by rw [hout]; rfl
  obtain ⟨hz, hfe, -, hlast⟩ := optimize_ok ho
  rw [hx0] at hz
  obtain ⟨q, rfl⟩ := list_eq_ofFn hz
  rw [split_ofFn] at hfe hA hB hlast
  generalize (fun i : Fin (N + 1) => q (Fin.castAdd (N + 1) i)) = a at hfe hA hB hlast
  generalize (fun i : Fin (N + 1) => q (Fin.natAdd (N + 1) i)) = b at hfe hA hB hlast
  have hA' : A = ⟨[N + 1], List.ofFn a⟩ := by
    simp only [pyClasses, AnyProc.unpackA, hlen, hone, py_ok_bind, if_true, pure, Except.pure] at hA
    injection hA with hA
    rw [← hA]
    simp
  have hB' : B = ⟨[N + 1], List.ofFn b⟩ := by
    simp only [pyClasses, AnyProc.unpackB, hlen, hone, py_ok_bind, if_true, pure, Except.pure] at hB
    injection hB with hB
    rw [← hB]
    simp
  subst hA' hB'
  have hlt : M ≤ N := by have := hv.not_all; omega
  generalize hY : (fun i : Fin M => x (eqIdx N M i) + Real.sqrt c.obs * Spec.draw E.R g (k + i)) = y at hfe hlast hb
  generalize hm0 : x 0 + 0.1 * Spec.draw E.R g (k + M) = m0 at hfe hlast hb ⊢
  set w := vgpOf sde ⟨c.dt, c.method, meth⟩ ⟨c.dt, pyLower c.method, meth⟩ m0 0.2 c.dt c.obs ⟨c.mu0, c.tau0⟩ (N + 1) N M y with hw
  have hfe' : ∃ ca, w.eval shape1 (List.ofFn a ++ List.ofFn b) = .ok (fx, ca) := by
    simp only [AnyVgp.freeEnergy, VarGP.freeEnergy] at hfe
    rcases he : w.eval shape1 (List.ofFn a ++ List.ofFn b) with e | ⟨F, ca⟩
    · rw [he] at hfe; cases hfe
    · rw [he] at hfe; cases hfe; exact ⟨ca, rfl⟩
  obtain ⟨ca, hev⟩ := hfe'
  obtain ⟨a', b', e, dE, E0, Eobs, h1, h2, h3, h4, h5, h6, h7, h8⟩ := eval_ok shape1 w _ _ _ hev
  have hu := (C58_pack_unpack_1d a b).2.1
  simp only [shape1, id] at hu h1
  rw [show w.dim_n = N + 1 from rfl, hu] at h1
  cases h1
  obtain ⟨mt, st, hs1, hml, hsl, -⟩ := (C16_forward_shapes w.fwd_ode.solver rhs1 w.fwd_ode.dt (List.ofFn a) (List.ofFn b)
    w.m0 w.s0 w.model.sigma).1 ⟨by simp, Or.inl (by simp)⟩
  rw [show shape1.rhs = rhs1 from rfl, hs1] at h2
  injection h2 with h2
  simp only [Prod.mk.injEq] at h2
  obtain ⟨rfl, rfl⟩ := h2
  obtain ⟨m, hm⟩ := list_eq_ofFn (hml.trans (List.length_ofFn))
  obtain ⟨v, hvv⟩ := list_eq_ofFn (hsl.trans (List.length_ofFn))
  rw [hm, hvv] at hs1 h4 h5
  have hsig : w.model.sigma = c.sys := by
    show sde.sigma = c.sys
    cases hsde <;> rfl
  rw [hsig] at hs1
  refine ⟨p, pb, sde, meth, a, b, m, v, fx, e, hsde, hstep, hmeth, ?_, ?_, ?_, moments_follow hs1, h4, fun t ht => ?_, ?_⟩
  · rw [hout, lookup_update _ _ (argOut_distinct v'), argOut_none v' _ (by simp)]
    simp [lookup_put]
  · rw [hout, lookup_update _ _ (argOut_distinct v'), argOut_none v' _ (by simp)]
    simp [lookup_put]
  · rw [hout, lookup_update _ _ (argOut_distinct v'), argOut_none v' _ (by simp)]
    simp [lookup_put]
  · have h3' : E0 = (⟨c.mu0, c.tau0⟩ : Prior1).gauss m0 0.2 := (Except.ok.inj h3).symm
    have ht' : (fun i : Fin M => eqIdx N M i) = fun j => (t j : ℕ) := funext fun j => (ht j).symm
    have h5' : (⟨List.ofFn y, List.ofFn fun i : Fin M => eqIdx N M i, c.obs, 1⟩ : Like1).gauss (List.ofFn m) (List.ofFn v) = .ok Eobs := h5
    rw [ht', like1_gauss_eq] at h5'
    rw [h8.2.2, h3', ← Except.ok.inj h5', ← hY]
  · rcases hlast with hl | ⟨hall, -⟩
    · refine .inl ?_
      have hv' : v' = .one { w with cache := some ca } := by
        rw [hl]
        simp only [AnyVgp.freeEnergy, VarGP.freeEnergy, hev]
      rw [hout, lookup_update _ _ (argOut_distinct v'), lookup_update _ _ (argOut_distinct v'), hv']
      have e1 : (AnyVgp.argOut (.one { w with cache := some ca })).lookup "mt" = some (AnyVgp.arr1 ca.mt) := rfl
      have e2 : (AnyVgp.argOut (.one { w with cache := some ca })).lookup "st" = some (AnyVgp.arr1 ca.st) := rfl
      rw [e1, e2, hm, hvv]
      simp [AnyVgp.arr1]
    · exact .inr ⟨_, x0, hb, hall⟩

/-- What C91 says for a process with drift `f`, up to `extra`, the difference between the reported number and the free energy. -/
def Spec.EnergyMeaning (E : Env G) (c : Spec.Config1) (N : ℕ) (s : Sim (AnyProc G) Arr) (f : ℝ → ℝ)
    (extra : (m v : Fin (N + 1) → ℝ) → ℝ) : Prop :=
  ∃ (M : ℕ) (y : Fin M → ℝ) (t : Fin M → Fin (N + 1)) (m0 : ℝ) (meth : Method) (a b m v : Fin (N + 1) → ℝ) (fx : ℝ),
    s.m_data.obs_y = some (.series (List.ofFn y)) ∧ s.m_data.obs_t = some (.times (List.ofFn fun j => (t j : ℕ)))
    ∧ s.m_data.m0 = some (.nd (.scalar m0)) ∧ pyLower c.method = pyLower (docName meth)
    ∧ (s.run (pyClasses E)).2.output.lookup "at" = some (.array ⟨[N + 1], List.ofFn a⟩)
    ∧ (s.run (pyClasses E)).2.output.lookup "bt" = some (.array ⟨[N + 1], List.ofFn b⟩)
    ∧ (s.run (pyClasses E)).2.output.lookup "fx" = some (.scalar fx)
    ∧ Spec.MomentsFollow c meth a b m0 (1 / 5) m v
    ∧ ((∀ i, 0 ≤ v i) → fx = Spec.freeEnergy1 c f y t m0 (1 / 5) a b m v + extra m v)
    ∧ (((s.run (pyClasses E)).2.output.lookup "mt" = some (.array ⟨[N + 1], List.ofFn m⟩)
        ∧ (s.run (pyClasses E)).2.output.lookup "st" = some (.array ⟨[N + 1], List.ofFn v⟩))
      ∨ ∃ p q x0, Spec.Builds (pyClasses E) s.m_data p q x0 ∧ Spec.UsesAllIterations q x0)

theorem energy_meaning (E : Env G) {c : Spec.Config1} {params : Json} (hin : c.In params) {N : ℕ} (hv : c.Valid N) (hobs : 0 < c.obs)
    (hτ : 0 < c.tau0) (s : Sim (AnyProc G) Arr) (f : ℝ → ℝ) (extra : (m v : Fin (N + 1) → ℝ) → ℝ)
    (he : ∀ (b : Proc G ℝ) p sde obs (α β m v : Fin (N + 1) → ℝ) e, Sde1 c b p sde → b.timeStep = .ok c.dt → obs.Pairwise (· ≤ ·) →
      (∀ i, 0 ≤ v i) → sde.energy (List.ofFn α) (List.ofFn β) (List.ofFn m) (List.ofFn v) obs = .ok e →
      e.Esde = Spec.trapezoidRule c.dt (List.ofFn fun i => Spec.mismatch f (α i) (β i) (m i) (v i) / (2 * c.sys)) + extra m v) :
    Spec.EnergyMeaning E c N (s.setup (pyClasses E) params none).2 f (fun m v => extra m v - 1 / 2 * Real.log (1 / 5)) := by
  obtain ⟨M, hM⟩ := Int.eq_ofNat_of_zero_le hv.some_obs.le
  obtain ⟨m', x, g, k, h1, h2, h3⟩ := setup_total E hin hv M hM s.m_data
  have hs : (s.setup (pyClasses E) params none).2.m_data = m' := by
    unfold Sim.setup
    rw [h1]
  rw [← hs] at h2
  have hlt : M ≤ N := by have := hv.not_all; omega
  obtain ⟨p, pb, sde, meth, a, b, m, v, fx, e, q1, q2, q3, q4, q5, q6, q7, q8, q9, q10⟩ := run_meaning E hv hM h2
  have e3 : (0.2 : ℝ) = 1 / 5 := by norm_num
  let t : Fin M → Fin (N + 1) := fun j => ⟨eqIdx N M j, Nat.lt_succ_of_le ((eqIdx_spec N M hlt).2.1 j).2⟩
  refine ⟨M, _, t, _, meth, a, b, m, v, fx, h2.obs, h2.times, h2.m0, q3, q4, q5, q6, e3 ▸ q7, fun hv0 => ?_, ?_⟩
  · have hsort : (List.ofFn fun i : Fin M => eqIdx N M i).Pairwise (· ≤ ·) := by
      rw [List.pairwise_ofFn]
      exact fun i j hij => ((eqIdx_spec N M hlt).1 i j hij).le
    rw [q9 t (fun _ => rfl), he pb p sde _ a b m v e q1 q2 hsort hv0 q8, prior1_eq _ _ _ (by norm_num) hτ, e3]
    unfold Spec.freeEnergy1
    rw [Finset.sum_congr rfl fun j _ => obsEnergy1_eq _ 1 c.obs (m (t j)) (v (t j)) hobs (hv0 _)]
    simp only [one_mul, one_pow]
    ring
  · rcases q10 with q | ⟨q, x0, hq⟩
    · exact .inl q
    · exact .inr ⟨p, q, x0, hq⟩

theorem rule_sub_ofFn {n : ℕ} (dt : ℝ) (f h : Fin n → ℝ) : Spec.trapezoidRule dt (List.ofFn fun i => f i - h i)
    = Spec.trapezoidRule dt (List.ofFn f) - Spec.trapezoidRule dt (List.ofFn h) := by
  have := rule_linear dt 1 (-1) (List.ofFn f) (List.ofFn h) (by simp)
  rw [zipWith_ofFn] at this
  simp only [one_smul, neg_smul, ← sub_eq_add_neg] at this
  exact this

/-- C91 for the Ornstein-Uhlenbeck process: for every valid configuration with positive noise and prior variances, the reported `fx` is
the free energy of the reported `at`, `bt`, up to the constant `-1/2 log(1/5)`, which comes from the prior term (see C55). Missing: without that constant
it would be the free energy; runs in which an integrator makes a variance negative; stored moments of runs that use up the 500 iterations. -/
theorem C91_ornstein_uhlenbeck_partial (E : Env G) (c : Spec.Config1) (params : Json) (hin : c.In params) (N : ℕ) (hv : c.Valid N)
    (hn : Spec.SameUpToCase c.name "OU") (hobs : 0 < c.obs) (hτ : 0 < c.tau0) (s : Sim (AnyProc G) Arr) :
    Spec.EnergyMeaning E c N (s.setup (pyClasses E) params none).2 (Spec.ouDrift c.theta) (fun _ _ => -(1 / 2 * Real.log (1 / 5))) := by
  have := energy_meaning E hin hv hobs hτ s (Spec.ouDrift c.theta) (fun _ _ => 0) (fun pb p sde obs α β m v e h1 h2 h3 h4 h5 => ?_)
  · simpa using this
  · cases h1 with
    | dw hn' => exact (not_both hn' hn).elim
    | ou _ =>
      obtain ⟨e', he', hE, -⟩ := C40_energy ⟨pb, c.sys, c.theta, 1.0 / c.sys⟩ α β m v (some obs) c.dt h2 (fun l hl => by cases hl; exact h3) h4
      simp only [OU.sde, he', py_ok_bind] at h5
      rw [add_zero, ← hE]
      cases h5
      rfl

/-- C91 for the double well process: the same, and the integrand lacks `8 E[x^6]` (see C42). -/
theorem C91_double_well_partial (E : Env G) (c : Spec.Config1) (params : Json) (hin : c.In params) (N : ℕ) (hv : c.Valid N)
    (hn : Spec.SameUpToCase c.name "DW") (hobs : 0 < c.obs) (hτ : 0 < c.tau0) (s : Sim (AnyProc G) Arr) :
    Spec.EnergyMeaning E c N (s.setup (pyClasses E) params none).2 (Spec.dwDrift c.theta)
      (fun m v => -Spec.trapezoidRule c.dt (List.ofFn fun i => 8 * Spec.normalMoment 6 (m i) (v i) / (2 * c.sys))
        - 1 / 2 * Real.log (1 / 5)) := by
  refine energy_meaning E hin hv hobs hτ s (Spec.dwDrift c.theta) _ (fun pb p sde obs α β m v e h1 h2 h3 h4 h5 => ?_)
  cases h1 with
  | ou hn' => exact (not_both hn hn').elim
  | dw _ =>
    obtain ⟨e', he', hE⟩ := C42_energy_partial ⟨pb, c.sys, c.theta, 1.0 / c.sys⟩ α β m v (some obs) c.dt h2 (fun l hl => by cases hl; exact h3) h4
    simp only [DW.sde, he', py_ok_bind] at h5
    have e0 : e.Esde = e'.Esde := by cases h5; rfl
    rw [e0, hE, ← sub_eq_add_neg, ← rule_sub_ofFn]
    congr 2
    funext i
    ring

/-- C91 as stated fails for every valid Ornstein-Uhlenbeck configuration: whenever the variances of the reported parameters are non-negative, the reported
number is not the free energy. -/
theorem C91_ornstein_uhlenbeck_violated (E : Env G) (c : Spec.Config1) (params : Json) (hin : c.In params) (N : ℕ) (hv : c.Valid N)
    (hn : Spec.SameUpToCase c.name "OU") (hobs : 0 < c.obs) (hτ : 0 < c.tau0) (s0 s : Sim (AnyProc G) Arr) (hs : s = (s0.setup (pyClasses E) params none).2) :
    ∃ (M : ℕ) (y : Fin M → ℝ) (t : Fin M → Fin (N + 1)) (m0 : ℝ) (meth : Method) (a b m v : Fin (N + 1) → ℝ) (fx : ℝ),
      s.m_data.obs_y = some (.series (List.ofFn y)) ∧ s.m_data.obs_t = some (.times (List.ofFn fun j => (t j : ℕ)))
      ∧ s.m_data.m0 = some (.nd (.scalar m0)) ∧ pyLower c.method = pyLower (docName meth)
      ∧ (s.run (pyClasses E)).2.output.lookup "at" = some (.array ⟨[N + 1], List.ofFn a⟩)
      ∧ (s.run (pyClasses E)).2.output.lookup "bt" = some (.array ⟨[N + 1], List.ofFn b⟩)
      ∧ (s.run (pyClasses E)).2.output.lookup "fx" = some (.scalar fx)
      ∧ Spec.MomentsFollow c meth a b m0 (1 / 5) m v
      ∧ ((∀ i, 0 ≤ v i) → fx ≠ Spec.freeEnergy1 c (Spec.ouDrift c.theta) y t m0 (1 / 5) a b m v) := by
  subst hs
  obtain ⟨M, y, t, m0, meth, a, b, m, v, fx, h1, h2, h3, h4, h5, h6, h7, h8, h9, -⟩ :=
    C91_ornstein_uhlenbeck_partial E c params hin N hv hn hobs hτ s0
  refine ⟨M, y, t, m0, meth, a, b, m, v, fx, h1, h2, h3, h4, h5, h6, h7, h8, fun h e => ?_⟩
  have h10 := h9 h
  have : Real.log (1 / 5) < 0 := Real.log_neg (by norm_num) (by norm_num)
  linarith

/-- Non-vacuity of C91. -/
example : (Spec.exampleConfig "OU").In (Spec.exampleParams "OU") ∧ (Spec.exampleConfig "OU").Valid 1000
    ∧ 0 < (Spec.exampleConfig "OU").obs ∧ 0 < (Spec.exampleConfig "OU").tau0 :=
  ⟨example_in "OU", example_valid "OU" (.inr rfl), by norm_num [Spec.exampleConfig], by norm_num [Spec.exampleConfig]⟩

end

end VGPA
