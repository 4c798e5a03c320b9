import Verif.Props.Shapes
import Verif.Props.VarGPInit
import Verif.Props.VarGPGrad1
import Verif.Props.Traj
import Verif.Props.Obs

/-!
# C87: every valid one dimensional configuration runs to the end
-/

namespace VGPA

noncomputable section

variable {G : Type}

namespace Spec

/-- The entries of a parameter file for a one dimensional process. -/
structure Config1 where
  name : String
  theta : ℝ
  sys : ℝ
  obs : ℝ
  t0 : ℝ
  tf : ℝ
  dt : ℝ
  method : String
  seed : Json
  density : ℝ
  mu0 : ℝ
  tau0 : ℝ

/-- The JSON dictionary `params` has these entries (and possibly others), and no operator. -/
def Config1.In (c : Config1) (params : Json) : Prop :=
  params.item "Model" = .ok (.str c.name)
  ∧ (∃ j, params.item "Drift" = .ok j ∧ j.item "theta" = .ok (.num c.theta))
  ∧ (∃ j, params.item "Noise" = .ok j ∧ j.item "sys" = .ok (.num c.sys) ∧ j.item "obs" = .ok (.num c.obs))
  ∧ (∃ j, params.item "Time-window" = .ok j ∧ j.item "t0" = .ok (.num c.t0) ∧ j.item "tf" = .ok (.num c.tf)
      ∧ j.item "dt" = .ok (.num c.dt))
  ∧ params.item "Ode-method" = .ok (.str c.method)
  ∧ params.item "Random-Seed" = .ok c.seed
  ∧ (∃ j, params.item "Observations" = .ok j ∧ j.item "density" = .ok (.num c.density) ∧ j.item "operator" = .ok .null)
  ∧ ∃ j, params.item "Prior" = .ok j ∧ j.item "mu0" = .ok (.num c.mu0) ∧ j.item "tau0" = .ok (.num c.tau0)

/-- The entries make sense: a double well or Ornstein-Uhlenbeck process (with positive drift parameter), positive variances of the noise,
the observations and the prior, a window of `N` steps, a documented integrator, no seed or one that is not negative, and a density that gives between `1` and `N - 1` observations. -/
structure Config1.Valid (c : Config1) (N : ℕ) : Prop where
  name : SameUpToCase c.name "DW" ∨ SameUpToCase c.name "OU" ∧ 0 < c.theta
  sys : 0 < c.sys
  obs : 0 < c.obs
  tau0 : 0 < c.tau0
  dt : 0 < c.dt
  tf : c.tf = c.t0 + N * c.dt
  method : ∃ m, pyLower c.method = pyLower (docName m)
  seed : c.seed = .null ∨ ∃ n : ℕ, c.seed = .num n
  density : c.density ≤ ⌊1 / c.dt⌋
  some_obs : 0 < numObs N c.dt c.density
  not_all : numObs N c.dt c.density < N

/-- The state in which the random generator of a new process is: the one the seed gives, or the one the operating system provides when there
is no seed (or the seed zero). -/
def startState (R : Rng G) (entropy : G) : Json → G
  | .num x => if x = 0 then entropy else R.seed ⌊x⌋
  | _ => entropy

/-- The path `x` is the Euler-Maruyama path of the configured process, made from a generator in state `g`; `z 0, z 1, ...` are the normal
numbers that the generator yields after the choice of the well (in the double well case), and the path uses up the first `k` of them. -/
def PathFrom (R : Rng G) (c : Config1) (N : ℕ) (g : G) (x z : ℕ → ℝ) (k : ℕ) : Prop :=
  (SameUpToCase c.name "DW" ∧ z = draw R (R.random g).2 ∧ k = N + 2
    ∧ x 0 = (if 1 / 2 < (R.random g).1 then c.theta else -c.theta) + Real.sqrt (c.sys * c.dt / 2) * z 0
    ∧ ∀ t < N, x (t + 1) = x t + dwField c.theta (x t) * c.dt + Real.sqrt (c.sys * c.dt) * z (t + 2))
  ∨ (SameUpToCase c.name "OU" ∧ z = draw R g ∧ k = N + 1 ∧ x 0 = 0
    ∧ ∀ t < N, x (t + 1) = x t + ouField c.theta 0 (x t) * c.dt + Real.sqrt (c.sys * c.dt) * z (t + 1))

end Spec

/-- A one dimensional process with the parameters of the configuration. -/
inductive Is1 (c : Spec.Config1) : AnyProc G → Proc G ℝ → Prop
  | dw (b : Proc G ℝ) : Spec.SameUpToCase c.name "DW" → b.single_dimension = true → Is1 c (.dw ⟨b, c.sys, c.theta, 1.0 / c.sys⟩) b
  | ou (b : Proc G ℝ) : Spec.SameUpToCase c.name "OU" → b.single_dimension = true → Is1 c (.ou ⟨b, c.sys, c.theta, 1.0 / c.sys⟩) b

/-- A one dimensional process with the path `x`, whose generator is in the state after `n` normal numbers from the state `g`. -/
def Ready1 (R : Rng G) (c : Spec.Config1) (N : ℕ) (x : ℕ → ℝ) (g : G) (n : ℕ) (p : AnyProc G) : Prop :=
  ∃ b, Is1 c p b ∧ b.tk = some (Spec.grid c.t0 c.dt N) ∧ b.xt = some (List.ofFn fun i : Fin (N + 1) => x i)
    ∧ b.rng = Spec.stateAfter R g n

theorem not_both {s : String} (h : Spec.SameUpToCase s "DW") (h' : Spec.SameUpToCase s "OU") : False := by
  have e := (pyUpper_eq_iff (s := s) (t := "DW") (by decide)).2 h
  have e' := (pyUpper_eq_iff (s := s) (t := "OU") (by decide)).2 h'
  exact absurd (e.symm.trans e') (by decide)

theorem stateAfter_add (R : Rng G) (g : G) (k n : ℕ) : Spec.stateAfter R (Spec.stateAfter R g k) n = Spec.stateAfter R g (k + n) := by
  unfold Spec.stateAfter
  rw [add_comm, Function.iterate_add_apply]

theorem draw_add (R : Rng G) (g : G) (k n : ℕ) : Spec.draw R (Spec.stateAfter R g k) n = Spec.draw R g (k + n) := by
  unfold Spec.draw
  rw [stateAfter_add]

/-- The state that belongs to a seed that was read. -/
def seedState (R : Rng G) (g : G) : Option ℤ → G
  | none => g
  | some k => if k = 0 then g else R.seed k

theorem seed_ok (R : Rng G) (g : G) {s : Json} (h : s = .null ∨ ∃ n : ℕ, s = .num n) : ∃ r, s.seed = .ok r ∧ (∀ k, r = some k → 0 ≤ k)
    ∧ seedState R g r = Spec.startState R g s := by
  rcases h with rfl | ⟨n, rfl⟩
  · exact ⟨none, rfl, by simp, rfl⟩
  · refine ⟨some n, ?_, fun k hk => by cases hk; exact Int.natCast_nonneg n, ?_⟩
    · simp [Json.seed, Json.int, Json.real, bind, Except.bind, pure, Except.pure]
    · simp [seedState, Spec.startState]

theorem procInit_ok {X : Type} (R : Rng G) (g : G) {r : Option ℤ} (h : ∀ k, r = some k → 0 ≤ k) :
    ∃ b : Proc G X, Proc.init R g r true = .ok b ∧ b.single_dimension = true
      ∧ b.rng = seedState R g r := by
  unfold Proc.init
  cases r with
  | none => exact ⟨_, rfl, rfl, rfl⟩
  | some k =>
    have := h k rfl
    by_cases hk : k = 0
    · exact ⟨⟨none, none, g, true⟩, by simp only [hk, if_true], rfl, by simp only [hk, seedState, if_true]⟩
    · exact ⟨⟨none, none, R.seed k, true⟩, by simp only [hk, if_false, not_lt.2 this], rfl, by simp only [hk, seedState, if_false]⟩

theorem create_ready (E : Env G) {c : Spec.Config1} {N : ℕ} (h : c.Valid N) :
    ∃ p b, Sim.stochasticModel (pyClasses E) (.str c.name) (.num c.sys) (.num c.theta) c.seed = .ok p ∧ Is1 c p b
      ∧ b.rng = Spec.startState E.R E.entropy c.seed := by
  obtain ⟨r, hr, hr0, hst⟩ := seed_ok E.R E.entropy h.seed
  obtain ⟨b, hb, hb1, hb2⟩ := procInit_ok (X := ℝ) E.R E.entropy hr0
  have hs : ¬ c.sys ≤ 0.0 := by have := h.sys; norm_num; linarith
  rcases h.name with hn | ⟨hn, hθ⟩
  · refine ⟨.dw ⟨b, c.sys, c.theta, 1.0 / c.sys⟩, b, ?_, .dw _ hn hb1, hb2.trans hst⟩
    rw [(C75_model_names (pyClasses E) c.name _ _ _).1 "DW" .DW (by simp [Spec.modelNames]) hn]
    simp only [pyClasses, AnyProc.create, Json.real, hr, DW.init, hb, py_ok_bind, if_neg hs]
    rfl
  · have ht : ¬ c.theta ≤ 0.0 := by norm_num; linarith
    refine ⟨.ou ⟨b, c.sys, c.theta, 1.0 / c.sys⟩, b, ?_, .ou _ hn hb1, hb2.trans hst⟩
    rw [(C75_model_names (pyClasses E) c.name _ _ _).1 "OU" .OU (by simp [Spec.modelNames]) hn]
    simp only [pyClasses, AnyProc.create, Json.real, hr, OU.init, hb, py_ok_bind, if_neg hs, if_neg ht]
    rfl

theorem traj_ready (E : Env G) {c : Spec.Config1} {p : AnyProc G} {b : Proc G ℝ} (hp : Is1 c p b) (hdt : 0 < c.dt) (N : ℕ) :
    ∃ p' x g1 k, AnyProc.makeTrajectory E p (.num c.t0) (.num (c.t0 + N * c.dt)) (.num c.dt) = (.ok (), p')
      ∧ Ready1 E.R c N x g1 k p' ∧ Spec.PathFrom E.R c N b.rng x (Spec.draw E.R g1) k := by
  have hle : c.t0 ≤ c.t0 + N * c.dt := by nlinarith [(Nat.cast_nonneg N : (0 : ℝ) ≤ N)]
  have hN := gridN_exact (t0 := c.t0) hdt N
  cases hp with
  | dw _ hn h1 =>
    obtain ⟨x, he, h0, hs⟩ := dw_traj E.R ⟨b, c.sys, c.theta, 1.0 / c.sys⟩ hle hdt
    rw [hN] at he hs
    refine ⟨.dw _, x, (E.R.random b.rng).2, N + 2, by simp only [AnyProc.makeTrajectory, Json.real, py_ok_bind, pure, Except.pure, he]; rfl, ?_, ?_⟩
    · exact ⟨_, .dw _ hn h1, rfl, rfl, rfl⟩
    · exact .inl ⟨hn, rfl, rfl, h0, hs⟩
  | ou _ hn h1 =>
    obtain ⟨x, he, h0, hs⟩ := ou_traj E.R ⟨b, c.sys, c.theta, 1.0 / c.sys⟩ 0.0 hle hdt
    rw [hN] at he hs
    have e0 : (0.0 : ℝ) = 0 := by norm_num
    rw [e0] at h0 hs
    refine ⟨.ou _, x, b.rng, N + 1, by simp only [AnyProc.makeTrajectory, Json.real, py_ok_bind, pure, Except.pure, he]; rfl, ?_, ?_⟩
    · exact ⟨_, .ou _ hn h1, rfl, rfl, rfl⟩
    · exact .inr ⟨hn, rfl, rfl, h0, hs⟩

theorem collect_ready (E : Env G) {c : Spec.Config1} {N : ℕ} {x : ℕ → ℝ} {g : G} {k : ℕ} {p : AnyProc G} (hp : Ready1 E.R c N x g k p)
    (hdt : 0 < c.dt) (hN : 0 < N) (n : ℝ)
    (r : ℝ) (hn : n ≤ ⌊1 / c.dt⌋) (M : ℕ) (hM : Spec.numObs N c.dt n = M) (hpos : 0 < M) :
    ∃ p' : AnyProc G, AnyProc.collectObs E p (.num n) (.num r) .null
        = (.ok (.times (List.ofFn fun i : Fin M => eqIdx N M i),
            .series (List.ofFn fun i : Fin M => x (eqIdx N M i) + Real.sqrt r * Spec.draw E.R g (k + i)), .nd (.scalar r)), p')
      ∧ Ready1 E.R c N x g (k + M) p' := by
  obtain ⟨b, hb, htk, hxt, hg⟩ := hp
  have he := collectObs1_grid E.R b c.t0 c.dt N x hN hdt htk hxt n r hn M hM hpos
  rw [hg] at he
  simp only [draw_add, stateAfter_add] at he
  have hj : Json.real (.num n) = .ok n := rfl
  cases hb with
  | dw _ h0 h1 =>
    refine ⟨.dw ⟨{ b with rng := Spec.stateAfter E.R g (k + M) }, c.sys, c.theta, 1.0 / c.sys⟩, ?_, ?_⟩
    · simp only [AnyProc.collectObs, hj, Json.ndArr, Json.real, Json.mask, py_ok_bind, pure, Except.pure, he]
      rfl
    · exact ⟨_, .dw _ h0 h1, htk, hxt, rfl⟩
  | ou _ h0 h1 =>
    refine ⟨.ou ⟨{ b with rng := Spec.stateAfter E.R g (k + M) }, c.sys, c.theta, 1.0 / c.sys⟩, ?_, ?_⟩
    · simp only [AnyProc.collectObs, hj, Json.ndArr, Json.real, Json.mask, py_ok_bind, pure, Except.pure, he]
      rfl
    · exact ⟨_, .ou _ h0 h1, htk, hxt, rfl⟩

theorem mean_ready (E : Env G) {c : Spec.Config1} {N : ℕ} {x : ℕ → ℝ} {g : G} {k : ℕ} {p : AnyProc G} (hp : Ready1 E.R c N x g k p) :
    ∃ p' : AnyProc G, AnyProc.firstMean E p = (.ok (.nd (.scalar (x 0 + 0.1 * Spec.draw E.R g k))), p')
      ∧ Ready1 E.R c N x g (k + 1) p' := by
  obtain ⟨b, hb, htk, hxt, hg⟩ := hp
  have h0 : (do idx (← b.samplePath) 0 : Py ℝ) = .ok (x 0) := by
    simp only [Proc.samplePath, hxt, py_ok_bind]
    exact idx_ofFn (fun i : Fin (N + 1) => x i) 0
  have hd : (E.R.normal b.rng).1 = Spec.draw E.R g k := by rw [hg]; rfl
  have hr : (E.R.normal b.rng).2 = Spec.stateAfter E.R g (k + 1) := by
    rw [hg, ← stateAfter_add]; rfl
  cases hb with
  | dw _ h2 h1 =>
    refine ⟨.dw ⟨{ b with rng := (E.R.normal b.rng).2 }, c.sys, c.theta, 1.0 / c.sys⟩, ?_, ?_⟩
    · simp only [AnyProc.firstMean, AnyProc.firstMean1, h0, hd]
    · exact ⟨_, .dw _ h2 h1, htk, hxt, hr⟩
  | ou _ h2 h1 =>
    refine ⟨.ou ⟨{ b with rng := (E.R.normal b.rng).2 }, c.sys, c.theta, 1.0 / c.sys⟩, ?_, ?_⟩
    · simp only [AnyProc.firstMean, AnyProc.firstMean1, h0, hd]
    · exact ⟨_, .ou _ h2 h1, htk, hxt, hr⟩

theorem ready_single {R : Rng G} {c : Spec.Config1} {N : ℕ} {x : ℕ → ℝ} {g : G} {k : ℕ} {p : AnyProc G} (hp : Ready1 R c N x g k p) :
    p.singleDim = true ∧ p.firstVar = .nd (.scalar 0.2) ∧ p.pathLength = .ok (N + 1) := by
  obtain ⟨b, hb, htk, hxt, -⟩ := hp
  cases hb with
  | dw _ _ h1 => exact ⟨h1, rfl, by simp [AnyProc.pathLength, Proc.samplePath, hxt, Except.map]⟩
  | ou _ _ h1 => exact ⟨h1, rfl, by simp [AnyProc.pathLength, Proc.samplePath, hxt, Except.map]⟩

theorem is1_single {c : Spec.Config1} {p : AnyProc G} {b : Proc G ℝ} (hp : Is1 c p b) : p.singleDim = true := by
  cases hp with
  | dw _ _ h1 => exact h1
  | ou _ _ h1 => exact h1

/-! ## The steps of `setup` -/

section
variable {M A α β : Type}

theorem step_lift {p : Py α} {a : α} {k : α → Sim.Step M A β} {m : MData M A} (h : p = .ok a) :
    ((ScgM.lift p : Sim.Step M A α) >>= k) m = k a m := by subst h; rfl

theorem step_view {g : MData M A → Py α} {a : α} {k : α → Sim.Step M A β} {m : MData M A} (h : g m = .ok a) :
    (Sim.view g >>= k) m = k a m := ScgM.bind_step (by simp only [Sim.view, h])

theorem step_write {g : MData M A → MData M A} {k : Unit → Sim.Step M A β} {m : MData M A} :
    (Sim.write g >>= k) m = k () (g m) := rfl

theorem step_model {f : M → Py α × M} {p p' : M} {a : α} {k : α → Sim.Step M A β} {m : MData M A} (hm : m.model = some p)
    (h : f p = (.ok a, p')) : (Sim.onModel f >>= k) m = k a { m with model := some p' } :=
  ScgM.bind_step (by simp only [Sim.onModel, hm, h])

end

/-- What `setup` leaves behind: `x` is the path, `z` the normal numbers, of which the path used `k`, and `n` the number of those used by all of
`setup`. -/
structure SetUp1 (R : Rng G) (c : Spec.Config1) (N M : ℕ) (x : ℕ → ℝ) (g : G) (k : ℕ) (m : MData (AnyProc G) Arr) : Prop where
  tw : ∃ j, m.time_window = some j ∧ j.item "dt" = .ok (.num c.dt)
  ode : m.ode_solver = some (.str c.method)
  one : m.single_dim = some true
  times : m.obs_t = some (.times (List.ofFn fun i : Fin M => eqIdx N M i))
  obs : m.obs_y = some (.series (List.ofFn fun i : Fin M => x (eqIdx N M i) + Real.sqrt c.obs * Spec.draw R g (k + i)))
  noise : m.obs_noise = some (.nd (.scalar c.obs))
  op : ∃ j, m.obs_setup = some j ∧ j.item "operator" = .ok .null
  mu0 : m.mu0 = some (.given (.num c.mu0))
  tau0 : m.tau0 = some (.given (.num c.tau0))
  model : ∃ p, m.model = some p ∧ Ready1 R c N x g (k + M + 1) p
  m0 : m.m0 = some (.nd (.scalar (x 0 + 0.1 * Spec.draw R g (k + M))))
  s0 : m.s0 = some (.nd (.scalar 0.2))

theorem setup_total (E : Env G) {c : Spec.Config1} {params : Json} (hin : c.In params) {N : ℕ} (hv : c.Valid N) (M : ℕ)
    (hM : Spec.numObs N c.dt c.density = M) (m : MData (AnyProc G) Arr) :
    ∃ m' x g k, Sim.setupBody (pyClasses E) params none m = (.ok (), m') ∧ SetUp1 E.R c N M x g k m'
      ∧ Spec.PathFrom E.R c N (Spec.startState E.R E.entropy c.seed) x (Spec.draw E.R g) k := by
  have hpos : 0 < M := by have := hv.some_obs; omega
  have hN : 0 < N := by have := hv.not_all; have := hv.some_obs; omega
  obtain ⟨hmod, ⟨jd, hd1, hd2⟩, ⟨jn, hn1, hn2, hn3⟩, ⟨jt, ht1, ht2, ht3, ht4⟩, hode, hseed, ⟨jo, ho1, ho2, ho3⟩, jp, hp1, hp2,
    hp3⟩ := hin
  obtain ⟨p, b, hc, hb, hb0⟩ := create_ready E hv
  obtain ⟨p1, x, g, k, h1, r1, hpath⟩ := traj_ready E hb hv.dt N
  rw [hb0] at hpath
  obtain ⟨p2, h2, r2⟩ := collect_ready E r1 hv.dt hN c.density c.obs hv.density M hM hpos
  obtain ⟨p3, h3, r3⟩ := mean_ready E r2
  rw [← hv.tf] at h1
  let m1 : MData (AnyProc G) Arr := { m with
    drift := some jd, noise := some jn, time_window := some jt, ode_solver := some (.str c.method), random_seed := some c.seed
    obs_setup := some jo, mu0 := some (.given (.num c.mu0)), tau0 := some (.given (.num c.tau0)), model := some p1
    single_dim := some p.singleDim }
  let m2 : MData (AnyProc G) Arr := { m1 with
    model := some p2, obs_t := some (.times (List.ofFn fun i : Fin M => eqIdx N M i)), obs_y := some (.series (List.ofFn fun i : Fin M => x (eqIdx N M i) + Real.sqrt c.obs * Spec.draw E.R g (k + i)))
    obs_noise := some (.nd (.scalar c.obs)) }
  let m3 : MData (AnyProc G) Arr := { m2 with model := some p3, m0 := some (.nd (.scalar (x 0 + 0.1 * Spec.draw E.R g (k + M)))), s0 := some (.nd (.scalar 0.2)) }
  have e2 : Sim.setupObs (pyClasses E) none m1 = (.ok (), m2) := by
    unfold Sim.setupObs
    simp only
    rw [step_view (a := .num c.density) (by exact ho2), step_view (a := .num c.obs) (by exact hn3),
      step_view (a := .null) (by exact ho3), step_model (p := p1) (p' := p2) (by rfl) (by exact h2)]
    rfl
  have e3 : Sim.setupMoments (pyClasses E) m2 = (.ok (), m3) := by
    unfold Sim.setupMoments
    rw [step_view (a := true) (by simp only [m2, m1, is1_single hb]; rfl), step_model (p := p2) (p' := p3) (by rfl) (by exact h3), step_write,
      step_view (a := .nd (.scalar 0.2)) (by
        simp only [need, py_ok_bind]
        exact congrArg Except.ok (ready_single r3).2.1)]
    rfl
  refine ⟨m3, x, g, k, ?_, ⟨⟨jt, rfl, ht4⟩, rfl, ?_, rfl, rfl, rfl, ⟨jo, rfl, ho3⟩, rfl, rfl, ⟨p3, rfl, r3⟩, rfl, rfl⟩, hpath⟩
  · unfold Sim.setupBody
    rw [step_lift hd1, step_write, step_lift hn1, step_write, step_lift ht1, step_write, step_lift hode, step_write,
      step_lift hseed, step_write, step_lift ho1, step_write, step_lift (a := .num c.mu0) (by rw [hp1]; exact hp2), step_write,
      step_lift (a := .num c.tau0) (by rw [hp1]; exact hp3), step_write, step_view (a := .num c.sys) (by exact hn2),
      step_view (a := .num c.theta) (by exact hd2), step_view (a := c.seed) (by rfl), step_lift hmod, step_lift hc, step_write, step_write,
      step_view (a := .num c.t0) (by exact ht2), step_view (a := .num c.tf) (by exact ht3), step_view (a := .num c.dt) (by exact ht4),
      step_model (p := p) (p' := p1) (a := ()) (by rfl) (by exact h1)]
    exact (ScgM.bind_step e2).trans e3
  · exact congrArg some (is1_single hb)

/-! ## The steps of `run` -/

/-- The optimizer never fails on an object whose two methods never fail. -/
theorem optimize_total {w : VarGP ℝ ℝ} {n : ℕ} (x0 : List ℝ) (hx : x0.length = n)
    (htot : ∀ x : Fin n → ℝ, ∃ F c, w.eval shape1 (List.ofFn x) = .ok (F, c)
      ∧ ∃ g, VarGP.gradBody shape1 { w with cache := some c } (List.ofFn x) = .ok g ∧ g.length = n) :
    ∃ x fx v', (AnyVgp.one w).optimize x0 = (.ok (x, fx), v') := by
  subst hx
  obtain ⟨q, p', c', h⟩ := cacheRun_total htot (scgInit_arrays (realArith x0.length) (some 500) (some 1.0e-6) (some 1.0e-8))
    (fun i => x0.getD i 0) w.cache
  refine ⟨List.ofFn q.1, q.2, .one { w with cache := c' }, ?_⟩
  unfold AnyVgp.optimize
  have := call_map (ar := realArith x0.length) (follows_one w x0.length)
    (Scg.init (realArith x0.length) (some 500) (some 1.0e-6) (some 1.0e-8)) (fun i => x0.getD i 0) w.cache
  simp only at this ⊢
  rw [this, h]
  rfl

theorem split_ofFn {n : ℕ} (x : Fin (n + n) → ℝ) :
    List.ofFn x = List.ofFn (fun i : Fin n => x (Fin.castAdd n i)) ++ List.ofFn (fun i : Fin n => x (Fin.natAdd n i)) := by
  rw [List.ofFn_add]
  rfl

theorem vgp1_total {w : VarGP ℝ ℝ} {n k : ℕ} {y : Fin k → ℝ} {t : Fin k → Fin n} {R H : ℝ} {p : Prior1}
    (ho : Vgp1Ok w n k y t R H p) {ef edf : ℝ → ℝ → ℝ} (he : EnergyOk1 w.model n w.obs_t ef edf) (x : Fin (n + n) → ℝ) :
    ∃ F c, w.eval shape1 (List.ofFn x) = .ok (F, c)
      ∧ ∃ g, VarGP.gradBody shape1 { w with cache := some c } (List.ofFn x) = .ok g ∧ g.length = n + n := by
  rw [split_ofFn]
  obtain ⟨F, m, s, lam, psi, h1, -⟩ := vgp1_eval ho he (fun i => x (Fin.castAdd n i)) (fun i => x (Fin.natAdd n i))
  refine ⟨F, _, h1, _, gradBody_ofFn shape1 _ _ _ _ m _ lam s _ psi (by exact ho.dim) rfl (C58_pack_unpack_1d _ _).2.2, ?_⟩
  simp [shape1]

/-- The one dimensional variational object of a process `sde` on `n` grid points, with these integrators, moments, prior and observations. -/
def vgpOf (sde : SdeModel ℝ ℝ) (f b : OdeFrontEnd) (m s dt r : ℝ) (K : Prior1) (n N M : ℕ) (y : Fin M → ℝ) : VarGP ℝ ℝ where
  model := sde
  fwd_ode := f
  bwd_ode := b
  likelihood := (⟨List.ofFn y, List.ofFn fun i : Fin M => eqIdx N M i, r, 1⟩ : Like1).toIf
  kl0 := fun m s => .ok (K.gauss m s)
  obs_y := List.ofFn y
  obs_t := List.ofFn fun i : Fin M => eqIdx N M i
  dt := dt
  dim_n := n
  m0 := m
  s0 := s
  cache := none

theorem vgpOf_ok (sde : SdeModel ℝ ℝ) (f b : OdeFrontEnd) (m s dt r : ℝ) (K : Prior1) {N M : ℕ} (hMN : M ≤ N) (y : Fin M → ℝ) :
    Vgp1Ok (vgpOf sde f b m s dt r K (N + 1) N M y) (N + 1) M y
      (fun j => ⟨eqIdx N M j, Nat.lt_succ_of_le ((eqIdx_spec N M hMN).2.1 j).2⟩) r 1 K := by
  have htm : StrictMono fun j : Fin M => (⟨eqIdx N M j, Nat.lt_succ_of_le ((eqIdx_spec N M hMN).2.1 j).2⟩ : Fin (N + 1)) :=
    fun i j hij => (eqIdx_spec N M hMN).1 i j hij
  exact ⟨Nat.succ_pos N, rfl, rfl, htm.injective, rfl, rfl⟩

/-- Construction, initialization and optimization of a one dimensional variational object. -/
theorem vgp_total (E : Env G) {sde : SdeModel ℝ ℝ} {t0 dt : ℝ} {N M : ℕ} (hdt : 0 < dt) (hM : 0 < M) (hMN : M < N)
    (hstep : sde.time_step = .ok dt) {path : List ℝ} (hpath : sde.sample_path = .ok path) (hlen : path.length = N + 1)
    (hwin : sde.time_window = .ok (Spec.grid t0 dt N)) {ef edf : ℝ → ℝ → ℝ}
    (he : EnergyOk1 sde (N + 1) (List.ofFn fun i : Fin M => eqIdx N M i) ef edf) (m s r : ℝ) (f b : OdeFrontEnd) (K : Prior1)
    (y : Fin M → ℝ) :
    ∃ x0 x fx v', AnyVgp.mk1 sde (.nd (.scalar m)) (.nd (.scalar s)) f b
        (.one ⟨List.ofFn y, List.ofFn fun i : Fin M => eqIdx N M i, r, 1⟩) (.one K) (.series (List.ofFn y))
        (.times (List.ofFn fun i : Fin M => eqIdx N M i)) = .ok (.one (vgpOf sde f b m s dt r K (N + 1) N M y))
      ∧ AnyVgp.initialization E (.one (vgpOf sde f b m s dt r K (N + 1) N M y)) = .ok x0
      ∧ x0.length = (N + 1) + (N + 1)
      ∧ (AnyVgp.one (vgpOf sde f b m s dt r K (N + 1) N M y)).optimize x0 = (.ok (x, fx), v') := by
  have hs := eqIdx_spec N M hMN.le
  obtain ⟨q, rfl⟩ : ∃ q, M = q + 1 := ⟨M - 1, by omega⟩
  let t : Fin (q + 1) → Fin (N + 1) := fun j => ⟨eqIdx N (q + 1) j, Nat.lt_succ_of_le (hs.2.1 j).2⟩
  have htm : StrictMono t := fun i j hij => hs.1 i j hij
  let w : VarGP ℝ ℝ := vgpOf sde f b m s dt r K (N + 1) N (q + 1) y
  have hd : Spec.HasData w (fun i : Fin (N + 1) => t0 + ((i : ℕ) : ℝ) * dt) t y :=
    ⟨by show sde.time_window = _; rw [hwin]; rfl, rfl, grid_mono hdt N, rfl, rfl, htm⟩
  have hin : ∀ j, 0 < t j ∧ t j < Fin.last N := fun j => by
    refine ⟨Fin.lt_def.2 (hs.2.1 j).1, Fin.lt_def.2 ?_⟩
    have hlast : eqIdx N (q + 1) q < N := by
      show (q + 1) * (N + 1) / (q + 1 + 1) < N
      rw [Nat.div_lt_iff_lt_mul (by omega)]
      nlinarith
    show eqIdx N (q + 1) j < N
    rcases Nat.lt_or_ge (j : ℕ) q with hj | hj
    · exact (hs.1 j ⟨q, by omega⟩ hj).trans hlast
    · have : (j : ℕ) = q := by omega
      rw [this]; exact hlast
  have h0 := (init1_eq hd E.fit1).1 hin
  have hok := vgpOf_ok sde f b m s dt r K hMN.le y
  obtain ⟨x0, hx0, h0⟩ : ∃ x0 : List ℝ, x0.length = (N + 1) + (N + 1) ∧ w.initialization1 E.fit1 = .ok x0 := by
    refine ⟨_, ?_, h0⟩
    simp
    omega
  obtain ⟨x, fx, v', hx⟩ := optimize_total (w := w) x0 hx0 (vgp1_total hok he)
  exact ⟨x0, x, fx, v', by simp only [AnyVgp.mk1, VarGP.init, hstep, hpath, hlen, py_ok_bind]; rfl, h0, hx0, hx⟩

theorem idx_ofFn_zero {n : ℕ} (hn : 0 < n) (y : Fin n → ℝ) : ∃ v, idx (List.ofFn y) 0 = .ok v :=
  ⟨_, idx_ofFn y ⟨0, hn⟩⟩

/-- The interface of a one dimensional process. -/
inductive Sde1 (c : Spec.Config1) (b : Proc G ℝ) : AnyProc G → SdeModel ℝ ℝ → Prop
  | dw : Spec.SameUpToCase c.name "DW" → Sde1 c b (.dw ⟨b, c.sys, c.theta, 1.0 / c.sys⟩) (DW.sde ⟨b, c.sys, c.theta, 1.0 / c.sys⟩)
  | ou : Spec.SameUpToCase c.name "OU" → Sde1 c b (.ou ⟨b, c.sys, c.theta, 1.0 / c.sys⟩) (OU.sde ⟨b, c.sys, c.theta, 1.0 / c.sys⟩)

/-- A simulation that is ready to run: the path `x`, the observations `y` at the times `eqIdx N M i` with the variance `r`, and the initial mean
`a`, wherever they come from. -/
structure Prepared1 (R : Rng G) (c : Spec.Config1) (N M : ℕ) (x : ℕ → ℝ) (g : G) (n : ℕ) (y : Fin M → ℝ) (r a : ℝ)
    (m : MData (AnyProc G) Arr) : Prop where
  tw : ∃ j, m.time_window = some j ∧ j.item "dt" = .ok (.num c.dt)
  ode : m.ode_solver = some (.str c.method)
  one : m.single_dim = some true
  times : m.obs_t = some (.times (List.ofFn fun i : Fin M => eqIdx N M i))
  obs : m.obs_y = some (.series (List.ofFn y))
  noise : m.obs_noise = some (.nd (.scalar r))
  op : ∃ j, m.obs_setup = some j ∧ j.item "operator" = .ok .null
  mu0 : m.mu0 = some (.given (.num c.mu0))
  tau0 : m.tau0 = some (.given (.num c.tau0))
  model : ∃ p, m.model = some p ∧ Ready1 R c N x g n p
  m0 : m.m0 = some (.nd (.scalar a))
  s0 : m.s0 = some (.nd (.scalar 0.2))

theorem SetUp1.prepared {R : Rng G} {c : Spec.Config1} {N M : ℕ} {x : ℕ → ℝ} {g : G} {k : ℕ} {m : MData (AnyProc G) Arr}
    (h : SetUp1 R c N M x g k m) :
    Prepared1 R c N M x g (k + M + 1) (fun i => x (eqIdx N M i) + Real.sqrt c.obs * Spec.draw R g (k + i)) c.obs
      (x 0 + 0.1 * Spec.draw R g (k + M)) m :=
  ⟨h.tw, h.ode, h.one, h.times, h.obs, h.noise, h.op, h.mu0, h.tau0, h.model, h.m0, h.s0⟩

/-- What `run` builds and starts the optimizer with on a simulation that is ready to run. -/
theorem prepared_builds (E : Env G) {c : Spec.Config1} {N : ℕ} (hv : c.Valid N) {M : ℕ} (hpos : 0 < M) (hlt : M < N)
    {x : ℕ → ℝ} {g : G} {n : ℕ} {y : Fin M → ℝ} {r m0 : ℝ} {m : MData (AnyProc G) Arr} (h : Prepared1 E.R c N M x g n y r m0 m) :
    ∃ p b sde meth x0 z fx v', Sde1 c b p sde ∧ b.timeStep = .ok c.dt ∧ pyLower c.method = pyLower (docName meth)
      ∧ p.singleDim = true ∧ p.pathLength = .ok (N + 1)
      ∧ Spec.Builds (pyClasses E) m p (.one (vgpOf sde ⟨c.dt, c.method, meth⟩ ⟨c.dt, pyLower c.method, meth⟩ m0 0.2 c.dt r ⟨c.mu0, c.tau0⟩ (N + 1) N M
          y)) x0
      ∧ x0.length = (N + 1) + (N + 1)
      ∧ (AnyVgp.one (vgpOf sde ⟨c.dt, c.method, meth⟩ ⟨c.dt, pyLower c.method, meth⟩ m0 0.2 c.dt r ⟨c.mu0, c.tau0⟩ (N + 1) N M y)).optimize x0
        = (.ok (z, fx), v') := by
  obtain ⟨jt, ht1, ht2⟩ := h.tw
  have hy := h.obs
  obtain ⟨jo, ho1, ho2⟩ := h.op
  obtain ⟨p, hp, hr⟩ := h.model
  have hm0 := h.m0
  obtain ⟨meth, hmeth⟩ := hv.method
  have hf := ((C15_fwd_construction c.dt c.method).1 _).2 ⟨hv.dt, meth, hmeth, rfl⟩
  have hb := ((C15_bwd_construction c.dt c.method).1 _).2 ⟨hv.dt, meth, hmeth, rfl⟩
  obtain ⟨y0, hy0⟩ := idx_ofFn_zero hpos y
  obtain ⟨hone, -, hlen⟩ := ready_single hr
  have hcr : ∃ sde b x0 z fx v', Sde1 c b p sde ∧ b.timeStep = .ok c.dt
      ∧ AnyVgp.create p (.nd (.scalar m0)) (.nd (.scalar 0.2)) ⟨c.dt, c.method, meth⟩ ⟨c.dt, pyLower c.method, meth⟩
        (.one ⟨List.ofFn y, List.ofFn fun i : Fin M => eqIdx N M i, r, 1⟩) (.one ⟨c.mu0, c.tau0⟩) (.series (List.ofFn y))
        (.times (List.ofFn fun i : Fin M => eqIdx N M i))
        = .ok (.one (vgpOf sde ⟨c.dt, c.method, meth⟩ ⟨c.dt, pyLower c.method, meth⟩ m0 0.2 c.dt r ⟨c.mu0, c.tau0⟩ (N + 1) N M y))
      ∧ AnyVgp.initialization E (.one (vgpOf sde ⟨c.dt, c.method, meth⟩ ⟨c.dt, pyLower c.method, meth⟩ m0 0.2 c.dt r ⟨c.mu0, c.tau0⟩
          (N + 1) N M y)) = .ok x0
      ∧ x0.length = (N + 1) + (N + 1)
      ∧ (AnyVgp.one (vgpOf sde ⟨c.dt, c.method, meth⟩ ⟨c.dt, pyLower c.method, meth⟩ m0 0.2 c.dt r ⟨c.mu0, c.tau0⟩
          (N + 1) N M y)).optimize x0 = (.ok (z, fx), v') := by
    have hobs : (List.ofFn fun i : Fin M => eqIdx N M i).Pairwise (· ≤ ·) := by
      rw [List.pairwise_ofFn]
      exact fun i j hij => ((eqIdx_spec N M hlt.le).1 i j hij).le
    obtain ⟨b, hb, htk, hxt, -⟩ := hr
    have hstep := timeStep_grid b c.t0 c.dt N (by omega) hv.dt htk
    cases hb with
    | dw _ hn h1 =>
      obtain ⟨x0, z, fx, v', e⟩ := vgp_total E (t0 := c.t0) hv.dt hpos hlt (sde := DW.sde ⟨b, c.sys, c.theta, 1.0 / c.sys⟩) hstep
        (path := List.ofFn fun i : Fin (N + 1) => x i)
        (by simp only [DW.sde, Proc.samplePath, hxt]) (by simp) (by simp only [DW.sde, Proc.timeWindow, htk])
        (dw_energyOk _ _ _ _ hstep hobs) m0 0.2 r ⟨c.dt, c.method, meth⟩ ⟨c.dt, pyLower c.method, meth⟩ ⟨c.mu0, c.tau0⟩ y
      exact ⟨_, b, x0, z, fx, v', .dw hn, hstep, e⟩
    | ou _ hn h1 =>
      obtain ⟨x0, z, fx, v', e⟩ := vgp_total E (t0 := c.t0) hv.dt hpos hlt (sde := OU.sde ⟨b, c.sys, c.theta, 1.0 / c.sys⟩) hstep
        (path := List.ofFn fun i : Fin (N + 1) => x i)
        (by simp only [OU.sde, Proc.samplePath, hxt]) (by simp) (by simp only [OU.sde, Proc.timeWindow, htk])
        (ou_energyOk _ _ _ _ hstep hobs) m0 0.2 r ⟨c.dt, c.method, meth⟩ ⟨c.dt, pyLower c.method, meth⟩ ⟨c.mu0, c.tau0⟩ y
      exact ⟨_, b, x0, z, fx, v', .ou hn, hstep, e⟩
  obtain ⟨sde, b, x0, z, fx, v', hsde, hstep, hc, hi, hx0, ho⟩ := hcr
  exact ⟨p, b, sde, meth, x0, z, fx, v', hsde, hstep, hmeth, hone, hlen,
    ⟨jt, .num c.dt, .str c.method, true, ⟨c.dt, c.method, meth⟩, ⟨c.dt, pyLower c.method, meth⟩, _, _, _, jo, .null,
      .one ⟨List.ofFn y, List.ofFn fun i : Fin M => eqIdx N M i, r, 1⟩, _, _, .one ⟨c.mu0, c.tau0⟩, _, _, ht1, ht2, h.ode, h.one,
      hf, hb, hy, h.times, h.noise, ho1, ho2, by simp only [pyClasses, mkLike, operator1, Like1.init, hy0, py_ok_bind]; rfl,
      h.mu0, h.tau0, rfl, hp, hm0, h.s0, hc, hi⟩, hx0, ho⟩

/-- What `run` builds and starts the optimizer with after such a `setup`. -/
theorem run_builds (E : Env G) {c : Spec.Config1} {N : ℕ} (hv : c.Valid N) {M : ℕ} (hM : Spec.numObs N c.dt c.density = M)
    {x : ℕ → ℝ} {g : G} {k : ℕ} {m : MData (AnyProc G) Arr} (h : SetUp1 E.R c N M x g k m) :
    ∃ p b sde meth x0 z fx v', Sde1 c b p sde ∧ b.timeStep = .ok c.dt ∧ pyLower c.method = pyLower (docName meth)
      ∧ p.singleDim = true ∧ p.pathLength = .ok (N + 1)
      ∧ Spec.Builds (pyClasses E) m p (.one (vgpOf sde ⟨c.dt, c.method, meth⟩ ⟨c.dt, pyLower c.method, meth⟩
          (x 0 + 0.1 * Spec.draw E.R g (k + M)) 0.2 c.dt c.obs ⟨c.mu0, c.tau0⟩ (N + 1) N M
          fun i => x (eqIdx N M i) + Real.sqrt c.obs * Spec.draw E.R g (k + i))) x0
      ∧ x0.length = (N + 1) + (N + 1)
      ∧ (AnyVgp.one (vgpOf sde ⟨c.dt, c.method, meth⟩ ⟨c.dt, pyLower c.method, meth⟩
          (x 0 + 0.1 * Spec.draw E.R g (k + M)) 0.2 c.dt c.obs ⟨c.mu0, c.tau0⟩ (N + 1) N M
          fun i => x (eqIdx N M i) + Real.sqrt c.obs * Spec.draw E.R g (k + i))).optimize x0 = (.ok (z, fx), v') := by
  have hpos : 0 < M := by have := hv.some_obs; omega
  have hlt : M < N := by have := hv.not_all; omega
  exact prepared_builds E hv hpos hlt h.prepared

theorem prepared_run (E : Env G) {c : Spec.Config1} {N : ℕ} (hv : c.Valid N) {M : ℕ} (hpos : 0 < M) (hlt : M < N)
    {x : ℕ → ℝ} {g : G} {n : ℕ} {y : Fin M → ℝ} {r a : ℝ} {s : Sim (AnyProc G) Arr} (h : Prepared1 E.R c N M x g n y r a s.m_data) :
    (s.run (pyClasses E)).1 = .ok () := by
  obtain ⟨p, b, sde, meth, x0, z, fx, v', -, -, -, hone, hlen, hb, -, ho⟩ := prepared_builds E hv hpos hlt h
  have hrun := runBody_builds.2 ⟨_, x0, hb, ho⟩
  unfold Sim.run
  rw [hrun]
  simp only [pyClasses, AnyProc.unpackA, AnyProc.unpackB, hlen, hone, py_ok_bind, if_true, pure, Except.pure]

theorem run_total (E : Env G) {c : Spec.Config1} {N : ℕ} (hv : c.Valid N) {M : ℕ} (hM : Spec.numObs N c.dt c.density = M)
    {x : ℕ → ℝ} {g : G} {k : ℕ} {s : Sim (AnyProc G) Arr} (h : SetUp1 E.R c N M x g k s.m_data) : (s.run (pyClasses E)).1 = .ok () :=
  prepared_run E hv (by have := hv.some_obs; omega) (by have := hv.not_all; omega) h.prepared

/-- C87: for every valid one dimensional configuration, whatever the generator yields, whatever the interpolation returns and
whatever happened to the simulation before, `setup(params)` succeeds, and so does the `run()` that follows. -/
theorem C87_setup_and_run (E : Env G) (c : Spec.Config1) (params : Json) (hin : c.In params) (N : ℕ) (hv : c.Valid N)
    (s : Sim (AnyProc G) Arr) :
    (s.setup (pyClasses E) params none).1 = .ok ()
    ∧ ((s.setup (pyClasses E) params none).2.run (pyClasses E)).1 = .ok () := by
  obtain ⟨M, hM⟩ := Int.eq_ofNat_of_zero_le hv.some_obs.le
  obtain ⟨m', x, g, k, h1, h2, -⟩ := setup_total E hin hv M hM s.m_data
  unfold Sim.setup
  rw [h1]
  exact ⟨rfl, run_total E hv hM (s := { s with m_data := m' }) h2⟩

/-- C87, the result: after any history, `setup` and `run` with a valid one dimensional configuration leave the eleven documented names in
the output, the arrays with `N + 1` entries. -/
theorem C87_output (E : Env G) (canOpen : String → Py Unit) (name : Option String) (files : Files)
    (h : List (Spec.Op Arr × Py Unit)) (s : Sim (AnyProc G) Arr × Files) (hist : Spec.PyHistory E canOpen name files h s)
    (c : Spec.Config1) (params : Json) (hin : c.In params) (N : ℕ) (hv : c.Valid N) :
    ∀ e ∈ [("at", some [N + 1]), ("bt", some [N + 1]), ("fx", none), ("m0", none), ("s0", none), ("mt", some [N + 1]), ("st", some [N + 1]),
        ("Efx", some [N + 1]), ("Edf", some [N + 1]), ("lamt", some [N + 1]), ("psit", some [N + 1])],
      ∃ z, (((s.1.setup (pyClasses E) params none).2.run (pyClasses E)).2.output).lookup e.1 = some z ∧ Spec.HasShape e.2 z := by
  obtain ⟨M, hM⟩ := Int.eq_ofNat_of_zero_le hv.some_obs.le
  obtain ⟨m', x, g, k, h1, h2, -⟩ := setup_total E hin hv M hM s.1.m_data
  have hr := (C87_setup_and_run E c params hin N hv s.1).2
  obtain ⟨p, n, hp, hn, _, hsh, _⟩ := C86_output_shapes E canOpen name files _ _ (hist.call (.setup params none) E.entropy) hr
  have hm : (s.1.setup (pyClasses E) params none).2.m_data = m' := by unfold Sim.setup; rw [h1]
  obtain ⟨p', hp', hr'⟩ := h2.model
  have : p = p' := by
    have hp2 : m'.model = some p := by rw [← hm]; exact hp
    rw [hp'] at hp2; cases hp2; rfl
  subst this
  have hn' : n = N + 1 := by
    rw [(ready_single hr').2.2] at hn
    cases hn; rfl
  have hd : p.dim = 1 := by
    obtain ⟨b, hb, _⟩ := hr'
    cases hb <;> rfl
  rw [hn', hd] at hsh
  intro e he
  exact hsh e (by simpa [Spec.outputShapes] using he)

/-! ## The hypotheses can be met -/

/-- The values in `/repo/sim_params_DW.json`, with the name of the model left open. -/
def Spec.exampleConfig (name : String) : Spec.Config1 where
  name := name
  theta := 1
  sys := 0.8
  obs := 0.04
  t0 := 0
  tf := 10
  dt := 0.01
  method := "Euler"
  seed := .num 31415926535
  density := 2
  mu0 := 1
  tau0 := 0.5

/-- `/repo/sim_params_DW.json`, with the name of the model left open. -/
def Spec.exampleParams (name : String) : Json :=
  .obj [("Info", .str "Input parameters file for the VGPA simulation"), ("Author", .str "Michail Vrettas, PhD"),
    ("Contact", .str "michail.vrettas@gmail.com"), ("Date", .str "2022-05-09"), ("Output_Name", .str "Sim_DW"), ("Model", .str name),
    ("Ode-method", .str "Euler"), ("Random-Seed", .num 31415926535),
    ("Time-window", .obj [("t0", .num 0), ("tf", .num 10), ("dt", .num 0.01)]), ("Noise", .obj [("sys", .num 0.8), ("obs", .num 0.04)]),
    ("Observations", .obj [("density", .num 2), ("operator", .null)]), ("Drift", .obj [("theta", .num 1)]),
    ("Prior", .obj [("tau0", .num 0.5), ("mu0", .num 1)])]

theorem example_in (name : String) : (Spec.exampleConfig name).In (Spec.exampleParams name) :=
  ⟨rfl, ⟨_, rfl, rfl⟩, ⟨_, rfl, rfl, rfl⟩, ⟨_, rfl, rfl, rfl, rfl⟩, rfl, rfl, ⟨_, rfl, rfl, rfl⟩, _, rfl, rfl, rfl⟩

theorem example_valid (name : String) (h : name = "DW" ∨ name = "OU") : (Spec.exampleConfig name).Valid 1000 where
  name := by
    rcases h with rfl | rfl
    · exact .inl ((pyUpper_eq_iff (by decide)).1 (by show pyUpper "DW" = "DW"; decide))
    · exact .inr ⟨(pyUpper_eq_iff (by decide)).1 (by show pyUpper "OU" = "OU"; decide), by norm_num [Spec.exampleConfig]⟩
  sys := by norm_num [Spec.exampleConfig]
  obs := by norm_num [Spec.exampleConfig]
  tau0 := by norm_num [Spec.exampleConfig]
  dt := by norm_num [Spec.exampleConfig]
  tf := by norm_num [Spec.exampleConfig]
  method := ⟨.euler, by show pyLower "Euler" = _; decide⟩
  seed := .inr ⟨31415926535, by norm_num [Spec.exampleConfig]⟩
  density := by norm_num [Spec.exampleConfig]
  some_obs := by norm_num [Spec.exampleConfig, Spec.numObs]
  not_all := by norm_num [Spec.exampleConfig, Spec.numObs]

/-- Non-vacuity of C84, C85 and C86: there are histories after which `run()` succeeds. -/
theorem example_run (E : Env G) (name : String) (h : name = "DW" ∨ name = "OU") (s : Sim (AnyProc G) Arr) :
    ((s.setup (pyClasses E) (Spec.exampleParams name) none).2.run (pyClasses E)).1 = .ok () :=
  (C87_setup_and_run E _ _ (example_in name) 1000 (example_valid name h) s).2

example (E : Env G) (s : Sim (AnyProc G) Arr) := C84_reported_energy E _ (example_run E "OU" (.inr rfl) s)

example (E : Env G) (s : Sim (AnyProc G) Arr) := C85_stored_moments_partial E _ (example_run E "OU" (.inr rfl) s)

example (E : Env G) (canOpen : String → Py Unit) (files : Files) :=
  C86_output_shapes E canOpen none files _ _ (Spec.PyHistory.new.call (.setup (Spec.exampleParams "DW") none) E.entropy)
    (example_run E "DW" (.inl rfl) _)

example (E : Env G) (canOpen : String → Py Unit) (files : Files) :=
  C87_output E canOpen none files _ _ Spec.PyHistory.new _ _ (example_in "DW") 1000 (example_valid "DW" (.inl rfl))

end

end VGPA
