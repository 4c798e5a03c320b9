import Verif.Props.Meaning1
import Verif.Props.VarGPGradN
import Verif.Props.LikeN

/-!
# C97: every valid Lorenz-63 configuration runs to the end
-/

namespace VGPA

noncomputable section

open Matrix

variable {G : Type}

namespace Spec

/-- A list of three numbers. -/
def list3 (v : Fin 3 → ℝ) : Json := .arr [.num (v 0), .num (v 1), .num (v 2)]

/-- The covariance matrix of the system noise in a parameter file: a list of three variances, or a list of three rows. -/
inductive CovarianceEntry : Json → Matrix (Fin 3) (Fin 3) ℝ → Prop
  | variances (v : Fin 3 → ℝ) : CovarianceEntry (list3 v) (Matrix.diagonal v)
  | rows (M : Matrix (Fin 3) (Fin 3) ℝ) : CovarianceEntry (.arr [list3 (M 0), list3 (M 1), list3 (M 2)]) M

/-- Three variances in a parameter file: one number for all of them, a list, or a list of three rows, of which the diagonal counts. -/
inductive VarianceEntry : Json → (Fin 3 → ℝ) → Prop
  | number (r : ℝ) : VarianceEntry (.num r) fun _ => r
  | list (v : Fin 3 → ℝ) : VarianceEntry (list3 v) v
  | rows (M : Matrix (Fin 3) (Fin 3) ℝ) : VarianceEntry (.arr [list3 (M 0), list3 (M 1), list3 (M 2)]) fun i => M i i

/-- Three means in a parameter file: one number for all of them, or a list. -/
inductive MeanEntry : Json → (Fin 3 → ℝ) → Prop
  | number (r : ℝ) : MeanEntry (.num r) fun _ => r
  | list (v : Fin 3 → ℝ) : MeanEntry (list3 v) v

/-- The entries of a parameter file for the Lorenz-63 process. -/
structure Config3 where
  name : String
  theta : Fin 3 → ℝ
  sys : Matrix (Fin 3) (Fin 3) ℝ
  obs : Fin 3 → ℝ
  t0 : ℝ
  tf : ℝ
  dt : ℝ
  method : String
  seed : Json
  density : ℝ
  mu0 : Fin 3 → ℝ
  tau0 : Fin 3 → ℝ

/-- The JSON dictionary `params` has these entries (and possibly others), and no operator. -/
def Config3.In (c : Config3) (params : Json) : Prop :=
  params.item "Model" = .ok (.str c.name)
  ∧ (∃ j, params.item "Drift" = .ok j ∧ j.item "theta" = .ok (list3 c.theta))
  ∧ (∃ j s o, params.item "Noise" = .ok j ∧ j.item "sys" = .ok s ∧ j.item "obs" = .ok o
      ∧ CovarianceEntry s c.sys ∧ VarianceEntry o c.obs)
  ∧ (∃ j, params.item "Time-window" = .ok j ∧ j.item "t0" = .ok (.num c.t0) ∧ j.item "tf" = .ok (.num c.tf)
      ∧ j.item "dt" = .ok (.num c.dt))
  ∧ params.item "Ode-method" = .ok (.str c.method)
  ∧ params.item "Random-Seed" = .ok c.seed
  ∧ (∃ j, params.item "Observations" = .ok j ∧ j.item "density" = .ok (.num c.density) ∧ j.item "operator" = .ok .null)
  ∧ ∃ j m t, params.item "Prior" = .ok j ∧ j.item "mu0" = .ok m ∧ j.item "tau0" = .ok t ∧ MeanEntry m c.mu0 ∧ VarianceEntry t c.tau0

/-- The entries make sense: a symmetric positive definite noise covariance, positive observation and prior variances, a window of `N` steps, a documented
integrator, no seed or one that is not negative, and a density that gives between `1` and `N - 1` observations. -/
structure Config3.Valid (c : Config3) (N : ℕ) : Prop where
  name : SameUpToCase c.name "L63"
  sys : c.sys.PosDef
  obs : ∀ i, 0 < c.obs i
  tau0 : ∀ i, 0 < c.tau0 i
  dt : 0 < c.dt
  tf : c.tf = c.t0 + N * c.dt
  method : ∃ m, pyLower c.method = pyLower (docName m)
  seed : c.seed = .null ∨ ∃ n : ℕ, c.seed = .num n
  density : c.density ≤ ⌊1 / c.dt⌋
  some_obs : 1 ≤ numObs N c.dt c.density
  not_all : numObs N c.dt c.density < N

/-- The path `x` is the Euler-Maruyama path of the Lorenz-63 process, from the point that 5000 noiseless steps of length 0.001 from `(1, 1, 1)` reach; the
increments have the factor `C`, and the generator is in state `g` before them. -/
def PathFrom3 (R : Rng G) (c : Config3) (N : ℕ) (g : G) (x : ℕ → Fin 3 → ℝ) (C : Matrix (Fin 3) (Fin 3) ℝ) : Prop :=
  x 0 = (fun y => y + (1 / 1000 : ℝ) • l63Field c.theta y)^[5000] (fun _ => 1)
  ∧ ∀ t < N, x (t + 1) = x t + c.dt • l63Field c.theta (x t) + C *ᵥ fun l => draw R g (l * (N + 1) + (t + 1))

end Spec

/-! ## Reading the entries -/

theorem list3_ndArr (v : Fin 3 → ℝ) : (Spec.list3 v).ndArr = .ok (.vec 3 v) := by
  have : (Spec.list3 v).ndArr = .ok (.vec 3 fun i => [v 0, v 1, v 2].getD i 0) := rfl
  rw [this]
  congr 2
  funext i
  fin_cases i <;> rfl

theorem list3_vec (v : Fin 3 → ℝ) : (Spec.list3 v).vec 3 = .ok v := by
  have : (Spec.list3 v).vec 3 = .ok fun i => [v 0, v 1, v 2].getD i 0 := rfl
  rw [this]
  congr 1
  funext i
  fin_cases i <;> rfl

theorem rows_ndArr (M : Matrix (Fin 3) (Fin 3) ℝ) :
    (Json.arr [Spec.list3 (M 0), Spec.list3 (M 1), Spec.list3 (M 2)]).ndArr = .ok (.mat 3 3 M) := by
  have : (Json.arr [Spec.list3 (M 0), Spec.list3 (M 1), Spec.list3 (M 2)]).ndArr = .ok (.mat 3 3 (Matrix.of fun i j =>
      ([[M 0 0, M 0 1, M 0 2], [M 1 0, M 1 1, M 1 2], [M 2 0, M 2 1, M 2 2]].getD i []).getD j 0)) := rfl
  rw [this]
  congr 2
  ext i j
  fin_cases i <;> fin_cases j <;> rfl

theorem sys_entry {s : Json} {M : Matrix (Fin 3) (Fin 3) ℝ} (h : Spec.CovarianceEntry s M) :
    ∃ a, s.ndArr = .ok a ∧ sigmaMatrix 3 a = .ok M := by
  cases h with
  | variances v => exact ⟨_, list3_ndArr v, rfl⟩
  | rows => exact ⟨_, rows_ndArr M, rfl⟩

theorem var_entry {s : Json} {v : Fin 3 → ℝ} (h : Spec.VarianceEntry s v) :
    ∃ a, s.ndArr = .ok a ∧ Spec.noiseMatrix 3 a = some (Matrix.diagonal v) := by
  cases h with
  | number r => exact ⟨_, rfl, rfl⟩
  | list => exact ⟨_, list3_ndArr v, rfl⟩
  | rows M => exact ⟨_, rows_ndArr M, rfl⟩

/-! ## The process -/

/-- The Lorenz-63 process of the configuration, with the state `b` of the base class. -/
def proc3 (c : Spec.Config3) (b : Proc G (Fin 3 → ℝ)) : AnyProc G := .l63 ⟨b, c.sys, c.theta, c.sys⁻¹⟩

/-- A process with the path `x`, whose generator is in the state after `n` normal numbers from the state `g`. -/
def Ready3 (R : Rng G) (c : Spec.Config3) (N : ℕ) (x : ℕ → Fin 3 → ℝ) (g : G) (n : ℕ) (b : Proc G (Fin 3 → ℝ)) : Prop :=
  b.single_dimension = false ∧ b.tk = some (Spec.grid c.t0 c.dt N) ∧ b.xt = some (List.ofFn fun i : Fin (N + 1) => x i)
    ∧ b.rng = Spec.stateAfter R g n

theorem procInit_ok3 {X : Type} (R : Rng G) (g : G) {r : Option ℤ} (h : ∀ k, r = some k → 0 ≤ k) :
    ∃ b : Proc G X, Proc.init R g r false = .ok b ∧ b.single_dimension = false ∧ b.rng = seedState R g r := by
  unfold Proc.init
  cases r with
  | none => exact ⟨_, rfl, rfl, rfl⟩
  | some k =>
    have := h k rfl
    by_cases hk : k = 0
    · exact ⟨⟨none, none, g, false⟩, by simp only [hk, if_true], rfl, by simp only [hk, seedState, if_true]⟩
    · exact ⟨⟨none, none, R.seed k, false⟩, by simp only [hk, if_false, not_lt.2 this], rfl, by simp only [hk, seedState, if_false]⟩

theorem create_ready3 (E : Env G) {c : Spec.Config3} {N : ℕ} (h : c.Valid N) {s : Json} (hs : Spec.CovarianceEntry s c.sys) :
    ∃ b, Sim.stochasticModel (pyClasses E) (.str c.name) s (Spec.list3 c.theta) c.seed = .ok (proc3 c b)
      ∧ b.single_dimension = false ∧ b.rng = Spec.startState E.R E.entropy c.seed := by
  obtain ⟨r, hr, hr0, hst⟩ := seed_ok E.R E.entropy h.seed
  obtain ⟨b, hb, hb1, hb2⟩ := procInit_ok3 (X := Fin 3 → ℝ) E.R E.entropy hr0
  obtain ⟨a, ha, hM⟩ := sys_entry hs
  refine ⟨b, ?_, hb1, hb2.trans hst⟩
  rw [(C75_model_names (pyClasses E) c.name _ _ _).1 "L63" .L63 (by simp [Spec.modelNames]) h.name]
  obtain ⟨C, hC⟩ := cholInv_posDef h.sys
  have he := (eig_pos_iff (posDef_iff_quad.1 h.sys).1).2.1.2 h.sys
  simp only [pyClasses, AnyProc.create, ha, list3_vec, hr, L63.init, hb, hM, py_ok_bind, if_neg he, hC]
  rfl

theorem lorenz_traj_rng {T : Type} {d : ℕ} (R : Rng G) (o : LorenzObj G d T) (drift : (Fin d → ℝ) → Fin d → ℝ) (x0 : Fin d → ℝ)
    {t0 tf dt : ℝ} (h : t0 ≤ tf) (hdt : 0 < dt) :
    (o.makeTrajectory R drift x0 t0 tf dt).2.base.rng = Spec.stateAfter R o.base.rng (d * (gridN t0 tf dt + 1)) := by
  unfold LorenzObj.makeTrajectory
  rw [arange_grid h hdt]
  have hl : (Spec.grid t0 dt (gridN t0 tf dt)).length = gridN t0 tf dt + 1 := by simp [Spec.grid]
  simp only [hl, Nat.succ_ne_zero, if_false]
  split <;> simp only [Rng.normalsMat, normals_eq]

theorem traj_ready3 (E : Env G) {c : Spec.Config3} {b : Proc G (Fin 3 → ℝ)} (hb : b.single_dimension = false) (hdt : 0 < c.dt) (N : ℕ) :
    ∃ b' x, AnyProc.makeTrajectory E (proc3 c b) (.num c.t0) (.num (c.t0 + N * c.dt)) (.num c.dt) = (.ok (), proc3 c b')
      ∧ Ready3 E.R c N x b.rng (3 * (N + 1)) b' ∧ Spec.PathFrom3 E.R c N b.rng x (LorenzObj.noiseFactor c.sys c.dt) := by
  have hle : c.t0 ≤ c.t0 + N * c.dt := by nlinarith [(Nat.cast_nonneg N : (0 : ℝ) ≤ N)]
  have hN := gridN_exact (t0 := c.t0) hdt N
  obtain ⟨x, g', he, h0, hs⟩ := lorenz_traj E.R (⟨b, c.sys, c.theta, c.sys⁻¹⟩ : L63 G) (fun x => l63 x c.theta) (fun _ => 1) hle hdt
  have hr := lorenz_traj_rng E.R (⟨b, c.sys, c.theta, c.sys⁻¹⟩ : L63 G) (fun x => l63 x c.theta) (fun _ => 1) hle hdt
  rw [he] at hr
  rw [hN] at he hs hr
  refine ⟨{ b with xt := _, tk := _, rng := g' }, x, ?_, ⟨hb, rfl, rfl, hr⟩, ?_, fun t ht => ?_⟩
  · simp only [AnyProc.makeTrajectory, proc3, Json.real, py_ok_bind, pure, Except.pure, L63.makeTrajectory, he]
  · rw [h0]
    unfold LorenzObj.burnIn
    congr 1
    funext y
    change y + (10e-4 : ℝ) • l63 y c.theta = _
    rw [l63_eq_field]
    norm_num
  · rw [hs t ht, l63_eq_field]

theorem observed_all : (Spec.observed none : List (Fin 3)) = [0, 1, 2] := by decide

theorem collect_ready3 (E : Env G) {c : Spec.Config3} {N : ℕ} {x : ℕ → Fin 3 → ℝ} {g : G} {k : ℕ} {b : Proc G (Fin 3 → ℝ)}
    (hp : Ready3 E.R c N x g k b) (hdt : 0 < c.dt) (hN : 0 < N) (n : ℝ) {o : Json} (ho : Spec.VarianceEntry o c.obs)
    (hn : n ≤ ⌊1 / c.dt⌋) (M : ℕ) (hM : Spec.numObs N c.dt n = M) (hpos : 0 < M) :
    ∃ b', AnyProc.collectObs E (proc3 c b) (.num n) o .null
        = (.ok (.times (List.ofFn fun i : Fin M => eqIdx N M i),
            .path 3 (List.ofFn fun i : Fin M => fun l : Fin 3 => x (eqIdx N M i) l + Real.sqrt (c.obs l) * Spec.draw E.R g (k + (l * M + i))),
            .nd (.mat 3 3 (Matrix.diagonal c.obs))), proc3 c b')
      ∧ Ready3 E.R c N x g (k + 3 * M) b' := by
  obtain ⟨hb, htk, hxt, hg⟩ := hp
  obtain ⟨a, ha, hM'⟩ := var_entry ho
  have he := collectObsN_grid E.R b c.t0 c.dt N x hN hdt htk hxt n a none trivial hn M hM hpos (by rw [observed_all]; decide)
    (Matrix.diagonal c.obs) hM'
  rw [hg] at he
  simp only [draw_add, stateAfter_add] at he
  have hj : Json.real (.num n) = .ok n := rfl
  refine ⟨{ b with rng := Spec.stateAfter E.R g (k + 3 * M) }, ?_, hb, htk, hxt, rfl⟩
  simp only [AnyProc.collectObs, proc3, hj, ha, Json.mask, py_ok_bind, pure, Except.pure, he, Except.map, AnyProc.obsN]
  refine congrArg₂ Prod.mk (congrArg Except.ok (congrArg₂ Prod.mk rfl (congrArg₂ Prod.mk ?_ rfl))) rfl
  change Arr.path 3 _ = Arr.path 3 _
  congr 2
  funext i
  have key : ∀ l : Fin 3, x (eqIdx N M i) ((Spec.observed none : List (Fin 3)).get l)
      + (((Matrix.diagonal c.obs : Matrix (Fin 3) (Fin 3) ℝ).map Real.sqrt)
        *ᵥ fun m : Fin 3 => Spec.draw E.R g (k + ((m : ℕ) * M + i))) l
      = x (eqIdx N M i) l + Real.sqrt (c.obs l) * Spec.draw E.R g (k + (l * M + i)) := by
    intro l
    rw [Matrix.diagonal_map Real.sqrt_zero, Matrix.mulVec_diagonal]
    congr 2
    fin_cases l <;> rfl
  exact funext key

theorem mean_ready3 (E : Env G) {c : Spec.Config3} {N : ℕ} {x : ℕ → Fin 3 → ℝ} {g : G} {k : ℕ} {b : Proc G (Fin 3 → ℝ)}
    (hp : Ready3 E.R c N x g k b) :
    ∃ b', AnyProc.firstMean E (proc3 c b) = (.ok (.nd (.vec 3 fun i => x 0 i + 0.1 * Spec.draw E.R g (k + i))), proc3 c b')
      ∧ Ready3 E.R c N x g (k + 3) b' := by
  obtain ⟨hb, htk, hxt, hg⟩ := hp
  have h0 : (do idx (← b.samplePath) 0 : Py (Fin 3 → ℝ)) = .ok (x 0) := by
    simp only [Proc.samplePath, hxt, py_ok_bind]
    exact idx_ofFn (fun i : Fin (N + 1) => x i) 0
  refine ⟨{ b with rng := Spec.stateAfter E.R g (k + 3) }, ?_, hb, htk, hxt, rfl⟩
  simp only [AnyProc.firstMean, proc3, AnyProc.firstMeanN, h0, normals_eq, hg, stateAfter_add]
  congr 4
  funext i
  congr 2
  simp [draw_add, i.2]

theorem mu0_ready {c : Spec.Config3} (b : Proc G (Fin 3 → ℝ)) {m : Json} {v : Fin 3 → ℝ} (h : Spec.MeanEntry m v) :
    AnyProc.timesOnes (proc3 c b) (.given m) = .ok (.arr (.nd (.vec 3 v))) := by
  cases h with
  | number r =>
    have : AnyProc.timesOnes (proc3 c b) (.given (.num r)) = .ok (.arr (.nd (.vec 3 fun _ => r * 1))) := rfl
    simpa using this
  | list =>
    simp only [AnyProc.timesOnes, AnyProc.priorArr, list3_ndArr, py_ok_bind, AnyProc.dim, proc3, if_true, mul_one]
    rfl

theorem tau0_ready {c : Spec.Config3} (b : Proc G (Fin 3 → ℝ)) {t : Json} {v : Fin 3 → ℝ} (h : Spec.VarianceEntry t v) :
    AnyProc.timesEye (proc3 c b) (.given t) = .ok (.arr (.nd (.mat 3 3 (Matrix.diagonal v)))) := by
  cases h with
  | number r =>
    have : AnyProc.timesEye (proc3 c b) (.given (.num r)) = .ok (.arr (.nd (.mat 3 3 (r • 1)))) := rfl
    rw [this, Matrix.smul_one_eq_diagonal]
  | list =>
    simp only [AnyProc.timesEye, AnyProc.priorArr, list3_ndArr, py_ok_bind, AnyProc.dim, proc3, if_true]
    rfl
  | rows M =>
    simp only [AnyProc.timesEye, AnyProc.priorArr, rows_ndArr, py_ok_bind, AnyProc.dim, proc3]
    rfl

/-! ## `setup` -/

/-- What `setup` leaves behind: `x` is the path, and `g` the state of the generator before the path, which uses `3 (N + 1)` normal numbers. -/
structure SetUp3 (R : Rng G) (c : Spec.Config3) (N M : ℕ) (x : ℕ → Fin 3 → ℝ) (g : G) (m : MData (AnyProc G) Arr) : Prop where
  tw : ∃ j, m.time_window = some j ∧ j.item "dt" = .ok (.num c.dt)
  ode : m.ode_solver = some (.str c.method)
  one : m.single_dim = some false
  times : m.obs_t = some (.times (List.ofFn fun i : Fin M => eqIdx N M i))
  obs : m.obs_y = some (.path 3 (List.ofFn fun i : Fin M => fun l : Fin 3 =>
    x (eqIdx N M i) l + Real.sqrt (c.obs l) * Spec.draw R g (3 * (N + 1) + (l * M + i))))
  noise : m.obs_noise = some (.nd (.mat 3 3 (Matrix.diagonal c.obs)))
  op : ∃ j, m.obs_setup = some j ∧ j.item "operator" = .ok .null
  mu0 : m.mu0 = some (.arr (.nd (.vec 3 c.mu0)))
  tau0 : m.tau0 = some (.arr (.nd (.mat 3 3 (Matrix.diagonal c.tau0))))
  model : ∃ b, m.model = some (proc3 c b) ∧ Ready3 R c N x g (3 * (N + 1) + 3 * M + 3) b
  m0 : m.m0 = some (.nd (.vec 3 fun l => x 0 l + 0.1 * Spec.draw R g (3 * (N + 1) + 3 * M + l)))
  s0 : m.s0 = some (.nd (.mat 3 3 ((0.2 : ℝ) • 1)))

theorem setup_total3 (E : Env G) {c : Spec.Config3} {params : Json} (hin : c.In params) {N : ℕ} (hv : c.Valid N) (M : ℕ)
    (hM : Spec.numObs N c.dt c.density = M) (m : MData (AnyProc G) Arr) :
    ∃ m' x, Sim.setupBody (pyClasses E) params none m = (.ok (), m')
      ∧ SetUp3 E.R c N M x (Spec.startState E.R E.entropy c.seed) m'
      ∧ Spec.PathFrom3 E.R c N (Spec.startState E.R E.entropy c.seed) x (LorenzObj.noiseFactor c.sys c.dt) := by
  have hpos : 0 < M := by have := hv.some_obs; omega
  have hN : 0 < N := by have := hv.not_all; have := hv.some_obs; omega
  obtain ⟨hmod, ⟨jd, hd1, hd2⟩, ⟨jn, sj, oj, hn1, hn2, hn3, hsj, hoj⟩, ⟨jt, ht1, ht2, ht3, ht4⟩, hode, hseed, ⟨jo, ho1, ho2, ho3⟩,
    jp, mj, tj, hp1, hp2, hp3, hmj, htj⟩ := hin
  obtain ⟨b, hc, hb, hb0⟩ := create_ready3 E hv hsj
  obtain ⟨b1, x, h1, r1, hpath⟩ := traj_ready3 E (c := c) hb hv.dt N
  rw [hb0] at hpath r1
  obtain ⟨b2, h2, r2⟩ := collect_ready3 E r1 hv.dt hN c.density hoj hv.density M hM hpos
  obtain ⟨b3, h3, r3⟩ := mean_ready3 E r2
  rw [← hv.tf] at h1
  let g := Spec.startState E.R E.entropy c.seed
  let m1 : MData (AnyProc G) Arr := { m with
    drift := some jd, noise := some jn, time_window := some jt, ode_solver := some (.str c.method), random_seed := some c.seed
    obs_setup := some jo, mu0 := some (.given mj), tau0 := some (.given tj), model := some (proc3 c b1)
    single_dim := some false }
  let m2 : MData (AnyProc G) Arr := { m1 with
    model := some (proc3 c b2), obs_t := some (.times (List.ofFn fun i : Fin M => eqIdx N M i))
    obs_y := some (.path 3 (List.ofFn fun i : Fin M => fun l : Fin 3 =>
      x (eqIdx N M i) l + Real.sqrt (c.obs l) * Spec.draw E.R g (3 * (N + 1) + (l * M + i))))
    obs_noise := some (.nd (.mat 3 3 (Matrix.diagonal c.obs))) }
  let m3 : MData (AnyProc G) Arr := { m2 with
    model := some (proc3 c b3), m0 := some (.nd (.vec 3 fun l => x 0 l + 0.1 * Spec.draw E.R g (3 * (N + 1) + 3 * M + l)))
    s0 := some (.nd (.mat 3 3 ((0.2 : ℝ) • 1))), mu0 := some (.arr (.nd (.vec 3 c.mu0)))
    tau0 := some (.arr (.nd (.mat 3 3 (Matrix.diagonal c.tau0)))) }
  have e2 : Sim.setupObs (pyClasses E) none m1 = (.ok (), m2) := by
    unfold Sim.setupObs
    simp only
    rw [step_view (a := .num c.density) (by exact ho2), step_view (a := oj) (by exact hn3),
      step_view (a := .null) (by exact ho3), step_model (p := proc3 c b1) (p' := proc3 c b2) (by rfl) (by exact h2)]
    rfl
  have e3 : Sim.setupMoments (pyClasses E) m2 = (.ok (), m3) := by
    unfold Sim.setupMoments
    rw [step_view (a := false) (by rfl), step_model (p := proc3 c b2) (p' := proc3 c b3) (by rfl) (by exact h3), step_write,
      step_view (a := .nd (.mat 3 3 ((0.2 : ℝ) • 1))) (by rfl), step_write, if_neg (by simp),
      step_view (a := .arr (.nd (.vec 3 c.mu0))) (by exact mu0_ready b3 hmj), step_write,
      step_view (a := .arr (.nd (.mat 3 3 (Matrix.diagonal c.tau0)))) (by exact tau0_ready b3 htj)]
    rfl
  refine ⟨m3, x, ?_, ⟨⟨jt, rfl, ht4⟩, rfl, rfl, rfl, rfl, rfl, ⟨jo, rfl, ho3⟩, rfl, rfl, ⟨b3, rfl, r3⟩, rfl, rfl⟩, hpath⟩
  have hone : (proc3 c b).singleDim = false := hb
  unfold Sim.setupBody
  rw [step_lift hd1, step_write, step_lift hn1, step_write, step_lift ht1, step_write, step_lift hode, step_write,
    step_lift hseed, step_write, step_lift ho1, step_write, step_lift (a := mj) (by rw [hp1]; exact hp2), step_write,
    step_lift (a := tj) (by rw [hp1]; exact hp3), step_write, step_view (a := sj) (by exact hn2),
    step_view (a := Spec.list3 c.theta) (by exact hd2), step_view (a := c.seed) (by rfl), step_lift hmod, step_lift hc, step_write, step_write,
    step_view (a := .num c.t0) (by exact ht2), step_view (a := .num c.tf) (by exact ht3), step_view (a := .num c.dt) (by exact ht4),
    step_model (p := proc3 c b) (p' := proc3 c b1) (a := ()) (by rfl) (by exact h1)]
  change (Sim.setupObs (pyClasses E) none >>= fun _ => Sim.setupMoments (pyClasses E))
    { m1 with single_dim := some (proc3 c b).singleDim } = _
  rw [hone]
  exact (ScgM.bind_step e2).trans e3

/-! ## `run` -/

/-- The optimizer never fails on an object whose two methods never fail. -/
theorem optimize_totalN {d : ℕ} {w : VarGP (Fin d → ℝ) (Matrix (Fin d) (Fin d) ℝ)} {n : ℕ} (x0 : List ℝ) (hx : x0.length = n)
    (htot : ∀ x : Fin n → ℝ, ∃ F c, w.eval (shapeN d) (List.ofFn x) = .ok (F, c)
      ∧ ∃ g, VarGP.gradBody (shapeN d) { w with cache := some c } (List.ofFn x) = .ok g ∧ g.length = n) :
    ∃ x fx v', (AnyVgp.many d w).optimize x0 = (.ok (x, fx), v') ∧ x.length = n := by
  subst hx
  obtain ⟨q, p', c', h⟩ := cacheRun_total htot (scgInit_arrays (realArith x0.length) (some 500) (some 1.0e-6) (some 1.0e-8))
    (fun i => x0.getD i 0) w.cache
  refine ⟨List.ofFn q.1, q.2, .many d { w with cache := c' }, ?_, by simp⟩
  unfold AnyVgp.optimize
  have := call_map (ar := realArith x0.length) (follows_many d w x0.length)
    (Scg.init (realArith x0.length) (some 500) (some 1.0e-6) (some 1.0e-8)) (fun i => x0.getD i 0) w.cache
  simp only at this ⊢
  rw [this, h]
  rfl

variable {n k : ℕ}

/-- The two methods of a Lorenz-63 variational object. -/
theorem vgp63_total (p : L63 G) (o : VarGP (Fin 3 → ℝ) (Matrix (Fin 3) (Fin 3) ℝ)) (y : Fin k → Fin 3 → ℝ)
    (t : Fin k → Fin n) (R : Matrix (Fin 3) (Fin 3) ℝ) (ho : VgpNOk o n k y t R) (hmodel : o.model = p.sde)
    (dt : ℝ) (hg : Spec.HasGrid p.base n dt) (ht : StrictMono t) (x : Fin (n * 3 * (3 + 1)) → ℝ) :
    ∃ F c, o.eval (shapeN 3) (List.ofFn x) = .ok (F, c)
      ∧ ∃ g, VarGP.gradBody (shapeN 3) { o with cache := some c } (List.ofFn x) = .ok g ∧ g.length = n * 3 * (3 + 1) := by
  obtain ⟨a, b, -, -, -, -, hab⟩ := (C58_unpack_pack_nd (n := n) (d := 3) (by norm_num) (List.ofFn x)).1 (by simp)
  rw [← hab]
  have hp := ho.pos
  obtain ⟨mt, st, h1, hm, hs, _⟩ := (C16_forward_shapes o.fwd_ode.solver (rhsN 3) o.fwd_ode.dt (List.ofFn a) (List.ofFn b)
    o.m0 o.s0 o.model.sigma).1 ⟨by simpa using hp, Or.inl (by simp)⟩
  obtain ⟨m, rfl⟩ := list_eq_ofFn (hm.trans (List.length_ofFn))
  obtain ⟨s, rfl⟩ := list_eq_ofFn (hs.trans (List.length_ofFn))
  have hobs : Spec.ObsSorted (some o.obs_t) := by
    intro l hl
    cases hl
    rw [ho.obs, List.pairwise_ofFn]
    intro i j hij
    exact (ht hij).le
  obtain ⟨e, dm, ds, he⟩ : ∃ e dm ds, o.model.energy (List.ofFn a) (List.ofFn b) (List.ofFn m) (List.ofFn s) o.obs_t
      = .ok ⟨e, List.ofFn fun t => L63.avgDrift p.theta (m t) (s t), List.ofFn fun t => L63.avgJac p.theta (m t),
          List.ofFn dm, List.ofFn ds⟩ := by
    rw [hmodel]
    simp only [L63.sde, l63_energy_eq p a b m s (some o.obs_t) dt hg hobs, bind, Except.bind]
    exact ⟨_, _, _, rfl⟩
  obtain ⟨F, lam, psi, hev⟩ := vgpN_eval (by norm_num) ho a b m s h1 _ _ _ _ _ he
  refine ⟨F, _, hev, _, gradBody_ofFn (shapeN 3) _ _ a b m _ lam s _ psi (by exact ho.dim) rfl
    (C58_pack_unpack_nd (by norm_num) a b).2.2, ?_⟩
  simp only [shapeN, List.length_append, ravel2_length, ravel3_length, List.length_ofFn]
  ring

/-- The variational object that `run` makes for the process `p` on `N + 1` grid points. -/
def vgpOf3 (p : L63 G) (f b : OdeFrontEnd) (m : Fin 3 → ℝ) (s : Matrix (Fin 3) (Fin 3) ℝ) (dt : ℝ) (r : Matrix (Fin 3) (Fin 3) ℝ) (K : PriorN 3)
    (N M : ℕ) (y : Fin M → Fin 3 → ℝ) : VarGP (Fin 3 → ℝ) (Matrix (Fin 3) (Fin 3) ℝ) where
  model := p.sde
  fwd_ode := f
  bwd_ode := b
  likelihood := (⟨List.ofFn y, List.ofFn fun i : Fin M => eqIdx N M i, r, 1⟩ : LikeN 3).toIf
  kl0 := K.gauss
  obs_y := List.ofFn y
  obs_t := List.ofFn fun i : Fin M => eqIdx N M i
  dt := dt
  dim_n := N + 1
  m0 := m
  s0 := s
  cache := none

/-- The grid indices of the observations are inner ones. -/
theorem eqIdx_inner {N M : ℕ} (hMN : M < N) (j : Fin M) : 0 < eqIdx N M j ∧ eqIdx N M j < N := by
  have hs := eqIdx_spec N M hMN.le
  obtain ⟨q, rfl⟩ : ∃ q, M = q + 1 := ⟨M - 1, by have := j.2; omega⟩
  refine ⟨(hs.2.1 j).1, ?_⟩
  have hlast : eqIdx N (q + 1) q < N := by
    show (q + 1) * (N + 1) / (q + 1 + 1) < N
    rw [Nat.div_lt_iff_lt_mul (by omega)]
    nlinarith
  rcases Nat.lt_or_ge (j : ℕ) q with hj | hj
  · exact (hs.1 j ⟨q, by omega⟩ hj).trans hlast
  · have : (j : ℕ) = q := by omega
    rw [this]; exact hlast

/-- The grid indices of the observations, as indices of the grid. -/
def obsIdx (N M : ℕ) (hMN : M < N) (j : Fin M) : Fin (N + 1) := ⟨eqIdx N M j, (eqIdx_inner hMN j).2.trans (Nat.lt_succ_self N)⟩

theorem obsIdx_mono {N M : ℕ} (hMN : M < N) : StrictMono (obsIdx N M hMN) :=
  fun i j hij => (eqIdx_spec N M hMN.le).1 i j hij

theorem prior3_ok {mu0 tau0 : Fin 3 → ℝ} (h : ∀ i, 0 < tau0 i) (m : Fin 3 → ℝ) :
    (⟨mu0, Matrix.diagonal tau0⟩ : PriorN 3).gauss m ((0.2 : ℝ) • 1) = .ok (1 / 2 * (Real.log (Matrix.diagonal tau0).det
      - Real.log ((0.2 : ℝ) • (1 : Matrix (Fin 3) (Fin 3) ℝ)).det
      + (∑ i, ∑ j, (Matrix.diagonal tau0)⁻¹ i j * ((0.2 : ℝ) • (1 : Matrix (Fin 3) (Fin 3) ℝ)) i j)
      + ((m - mu0) ⬝ᵥ (m - mu0)) * (∑ i, ∑ j, (Matrix.diagonal tau0)⁻¹ i j) - (3 : ℕ))) := by
  have hs : ((0.2 : ℝ) • (1 : Matrix (Fin 3) (Fin 3) ℝ)).PosDef := Matrix.PosDef.one.smul (by norm_num)
  have hi : ((0.2 : ℝ) • (1 : Matrix (Fin 3) (Fin 3) ℝ))⁻¹ = (5 : ℝ) • 1 := by
    apply Matrix.inv_eq_left_inv
    rw [Matrix.smul_mul, Matrix.one_mul, smul_smul]
    norm_num
  refine priorN_eq ⟨mu0, Matrix.diagonal tau0⟩ m _ hs (Matrix.PosDef.diagonal h) ?_
  show (Matrix.diagonal tau0 * ((0.2 : ℝ) • (1 : Matrix (Fin 3) (Fin 3) ℝ))⁻¹).IsSymm
  rw [hi, Matrix.mul_smul, Matrix.mul_one]
  exact (Matrix.isSymm_diagonal tau0).smul _

theorem vgpOf3_ok (p : L63 G) (f b : OdeFrontEnd) (m : Fin 3 → ℝ) (dt : ℝ) {r mu0 tau0 : Fin 3 → ℝ} (hr : ∀ i, 0 < r i) (ht : ∀ i, 0 < tau0 i)
    {N M : ℕ} (hMN : M < N) (y : Fin M → Fin 3 → ℝ) :
    VgpNOk (vgpOf3 p f b m ((0.2 : ℝ) • 1) dt (Matrix.diagonal r) ⟨mu0, Matrix.diagonal tau0⟩ N M y) (N + 1) M y (obsIdx N M hMN)
      (Matrix.diagonal r) :=
  ⟨Nat.succ_pos N, rfl, rfl, Matrix.PosDef.diagonal hr, (obsIdx_mono hMN).injective, ⟨_, prior3_ok ht m⟩, rfl⟩

/-- The variational object of the configuration. -/
def vgpConfig3 (R : Rng G) (c : Spec.Config3) (b : Proc G (Fin 3 → ℝ)) (meth : Method) (x : ℕ → Fin 3 → ℝ) (g : G) (N M : ℕ) :
    VarGP (Fin 3 → ℝ) (Matrix (Fin 3) (Fin 3) ℝ) :=
  vgpOf3 ⟨b, c.sys, c.theta, c.sys⁻¹⟩ ⟨c.dt, c.method, meth⟩ ⟨c.dt, pyLower c.method, meth⟩
    (fun l => x 0 l + 0.1 * Spec.draw R g (3 * (N + 1) + 3 * M + l)) ((0.2 : ℝ) • 1) c.dt (Matrix.diagonal c.obs)
    ⟨c.mu0, Matrix.diagonal c.tau0⟩ N M
    (fun i l => x (eqIdx N M i) l + Real.sqrt (c.obs l) * Spec.draw R g (3 * (N + 1) + (l * M + i)))

/-- What `run` builds and starts the optimizer with after such a `setup`. -/
theorem run_builds3 (E : Env G) {c : Spec.Config3} {N : ℕ} (hv : c.Valid N) {M : ℕ} (hM : Spec.numObs N c.dt c.density = M)
    {x : ℕ → Fin 3 → ℝ} {g : G} {m : MData (AnyProc G) Arr} (h : SetUp3 E.R c N M x g m) :
    ∃ b meth x0 z fx v', b.timeStep = .ok c.dt ∧ pyLower c.method = pyLower (docName meth)
      ∧ b.single_dimension = false ∧ b.tk = some (Spec.grid c.t0 c.dt N) ∧ b.xt = some (List.ofFn fun i : Fin (N + 1) => x i)
      ∧ Spec.Builds (pyClasses E) m (proc3 c b) (.many 3 (vgpConfig3 E.R c b meth x g N M)) x0
      ∧ x0.length = (N + 1) * 3 * (3 + 1)
      ∧ (AnyVgp.many 3 (vgpConfig3 E.R c b meth x g N M)).optimize x0 = (.ok (z, fx), v')
      ∧ z.length = (N + 1) * 3 * (3 + 1) := by
  have hpos : 0 < M := by have := hv.some_obs; omega
  have hlt : M < N := by have := hv.not_all; omega
  obtain ⟨jt, ht1, ht2⟩ := h.tw
  have hy := h.obs
  obtain ⟨jo, ho1, ho2⟩ := h.op
  obtain ⟨b, hp, hb1, htk, hxt, -⟩ := h.model
  have hm0 := h.m0
  obtain ⟨meth, hmeth⟩ := hv.method
  have hf := ((C15_fwd_construction c.dt c.method).1 _).2 ⟨hv.dt, meth, hmeth, rfl⟩
  have hb := ((C15_bwd_construction c.dt c.method).1 _).2 ⟨hv.dt, meth, hmeth, rfl⟩
  have hstep := timeStep_grid b c.t0 c.dt N (by omega) hv.dt htk
  have hwdef : vgpConfig3 E.R c b meth x g N M = vgpConfig3 E.R c b meth x g N M := rfl
  conv_rhs at hwdef => unfold vgpConfig3
  generalize hw : vgpConfig3 E.R c b meth x g N M = w at hwdef
  generalize hY : (fun (i : Fin M) (l : Fin 3) => x (eqIdx N M i) l + Real.sqrt (c.obs l) * Spec.draw E.R g (3 * (N + 1) + (l * M + i))) = y
    at hy hwdef
  generalize (fun l : Fin 3 => x 0 l + 0.1 * Spec.draw E.R g (3 * (N + 1) + 3 * M + l)) = m0 at hm0 hwdef
  have hok := vgpOf3_ok (⟨b, c.sys, c.theta, c.sys⁻¹⟩ : L63 G) ⟨c.dt, c.method, meth⟩ ⟨c.dt, pyLower c.method, meth⟩ m0 c.dt (mu0 := c.mu0)
    hv.obs hv.tau0 hlt y
  rw [← hwdef] at hok
  have hwin : (L63.sde (⟨b, c.sys, c.theta, c.sys⁻¹⟩ : L63 G)).time_window = .ok (Spec.grid c.t0 c.dt N) := by
    simp only [L63.sde, Proc.timeWindow, htk]
  obtain ⟨x0, hx0, hi⟩ : ∃ x0 : List ℝ, x0.length = (N + 1) * 3 * (3 + 1) ∧ w.initializationN (E.fitN 3) = .ok x0 := by
    obtain ⟨q, rfl⟩ : ∃ q, M = q + 1 := ⟨M - 1, by omega⟩
    have hd : Spec.HasData w (fun i : Fin (N + 1) => c.t0 + ((i : ℕ) : ℝ) * c.dt) (obsIdx N (q + 1) hlt) y := by
      subst hwdef
      exact ⟨by show (L63.sde _).time_window = _; rw [hwin]; rfl, rfl, grid_mono hv.dt N, rfl, rfl, obsIdx_mono hlt⟩
    obtain ⟨bb, h0, -⟩ := (initN_eq hd (E.fitN 3)).1 fun j =>
      ⟨Fin.lt_def.2 (eqIdx_inner hlt j).1, Fin.lt_def.2 (eqIdx_inner hlt j).2⟩
    exact ⟨_, (C58_pack_unpack_nd (by norm_num) _ bb).1, h0⟩
  have hgrid : Spec.HasGrid b (N + 1) c.dt := ⟨_, htk, by simp [Spec.grid], hstep⟩
  obtain ⟨z, fx, v', hz, hzl⟩ := optimize_totalN (w := w) x0 hx0
    (vgp63_total (⟨b, c.sys, c.theta, c.sys⁻¹⟩ : L63 G) w y _ _ hok (by rw [hwdef]; rfl) c.dt hgrid (obsIdx_mono hlt))
  obtain ⟨y0, hy0⟩ : ∃ v, idx (List.ofFn y) 0 = .ok v := ⟨_, idx_ofFn y ⟨0, hpos⟩⟩
  have hlik : mkLike (.path 3 (List.ofFn y)) (.times (List.ofFn fun i : Fin M => eqIdx N M i)) (.nd (.mat 3 3 (Matrix.diagonal c.obs))) .null
      false = .ok (.many 3 ⟨List.ofFn y, List.ofFn fun i : Fin M => eqIdx N M i, Matrix.diagonal c.obs, 1⟩) := by
    have hsq : squareOf 3 (.mat 3 3 (Matrix.diagonal c.obs)) = .ok (Matrix.diagonal c.obs) := rfl
    simp only [mkLike, hsq, operatorN, LikeN.init, hy0, py_ok_bind]
    rfl
  have hpri : mkPrior (.arr (.nd (.vec 3 c.mu0))) (.arr (.nd (.mat 3 3 (Matrix.diagonal c.tau0)))) false
      = .ok (.many 3 ⟨c.mu0, Matrix.diagonal c.tau0⟩) := rfl
  have hcr : AnyVgp.create (proc3 c b) (.nd (.vec 3 m0)) (.nd (.mat 3 3 ((0.2 : ℝ) • 1))) ⟨c.dt, c.method, meth⟩ ⟨c.dt, pyLower c.method, meth⟩
      (.many 3 ⟨List.ofFn y, List.ofFn fun i : Fin M => eqIdx N M i, Matrix.diagonal c.obs, 1⟩) (.many 3 ⟨c.mu0, Matrix.diagonal c.tau0⟩)
      (.path 3 (List.ofFn y)) (.times (List.ofFn fun i : Fin M => eqIdx N M i)) = .ok (.many 3 w) := by
    have hs1 : (L63.sde (⟨b, c.sys, c.theta, c.sys⁻¹⟩ : L63 G)).time_step = .ok c.dt := hstep
    have hs2 : (L63.sde (⟨b, c.sys, c.theta, c.sys⁻¹⟩ : L63 G)).sample_path = .ok (List.ofFn fun i : Fin (N + 1) => x i) := by
      simp only [L63.sde, Proc.samplePath, hxt]
    simp only [AnyVgp.create, proc3, AnyVgp.mkN, AnyVgp.likeIf, VarGP.init, hs1, hs2, py_ok_bind, and_self, dite_true, List.length_ofFn]
    rw [hwdef]
    rw [List.map_ofFn]
    rfl
  subst hw
  exact ⟨b, meth, x0, z, fx, v', hstep, hmeth, hb1, htk, hxt,
    ⟨jt, .num c.dt, .str c.method, false, ⟨c.dt, c.method, meth⟩, ⟨c.dt, pyLower c.method, meth⟩, _, _, _, jo, .null,
      .many 3 ⟨List.ofFn y, List.ofFn fun i : Fin M => eqIdx N M i, Matrix.diagonal c.obs, 1⟩, _, _, .many 3 ⟨c.mu0, Matrix.diagonal c.tau0⟩,
      _, _, ht1, ht2, h.ode, h.one,
      hf, hb, hy, h.times, h.noise, ho1, ho2, hlik, h.mu0, h.tau0, hpri, hp, hm0, h.s0, hcr, hi⟩, hx0, hz, hzl⟩

theorem run_total3 (E : Env G) {c : Spec.Config3} {N : ℕ} (hv : c.Valid N) {M : ℕ} (hM : Spec.numObs N c.dt c.density = M)
    {x : ℕ → Fin 3 → ℝ} {g : G} {s : Sim (AnyProc G) Arr} (h : SetUp3 E.R c N M x g s.m_data) : (s.run (pyClasses E)).1 = .ok () := by
  obtain ⟨b, meth, x0, z, fx, v', -, -, hb, htk, hxt, hbld, -, ho, hz⟩ := run_builds3 E hv hM h
  have hrun := runBody_builds.2 ⟨_, x0, hbld, ho⟩
  have hlen : (proc3 c b).pathLength = .ok (N + 1) := by
    simp [AnyProc.pathLength, proc3, Proc.samplePath, hxt, Except.map]
  have hone : (proc3 c b).singleDim = false := hb
  have hdim : (proc3 c b).dim = 3 := rfl
  have h1 : (z.take ((N + 1) * 3 * 3)).length = (N + 1) * 3 * 3 := by simp [hz]
  have h2 : (z.drop ((N + 1) * 3 * 3)).length = (N + 1) * 3 := by simp [hz]; omega
  unfold Sim.run
  rw [hrun]
  simp only [pyClasses, AnyProc.unpackA, AnyProc.unpackB, hlen, hone, hdim, py_ok_bind, Bool.false_eq_true, if_false, h1, h2, if_true, pure,
    Except.pure]

/-- C97: for every valid Lorenz-63 configuration, whatever the generator yields, whatever the interpolation returns and whatever happened
to the simulation before, `setup(params)` succeeds, and so does the `run()` that follows. -/
theorem C97_setup_and_run (E : Env G) (c : Spec.Config3) (params : Json) (hin : c.In params) (N : ℕ) (hv : c.Valid N)
    (s : Sim (AnyProc G) Arr) :
    (s.setup (pyClasses E) params none).1 = .ok ()
    ∧ ((s.setup (pyClasses E) params none).2.run (pyClasses E)).1 = .ok () := by
  obtain ⟨M, hM⟩ := Int.eq_ofNat_of_zero_le (a := Spec.numObs N c.dt c.density) (by have := hv.some_obs; omega)
  obtain ⟨m', x, h1, h2, -⟩ := setup_total3 E hin hv M hM s.m_data
  unfold Sim.setup
  rw [h1]
  exact ⟨rfl, run_total3 E hv hM (s := { s with m_data := m' }) h2⟩

/-- C97, the result: after any history, `setup` and `run` with a valid Lorenz-63 configuration leave the eleven documented names in the
output, with arrays over `N + 1` time points. -/
theorem C97_output (E : Env G) (canOpen : String → Py Unit) (name : Option String) (files : Files)
    (h : List (Spec.Op Arr × Py Unit)) (s : Sim (AnyProc G) Arr × Files) (hist : Spec.PyHistory E canOpen name files h s)
    (c : Spec.Config3) (params : Json) (hin : c.In params) (N : ℕ) (hv : c.Valid N) :
    ∀ e ∈ [("at", some [N + 1, 3, 3]), ("bt", some [N + 1, 3]), ("fx", none), ("m0", some [3]), ("s0", some [3, 3]), ("mt", some [N + 1, 3]),
        ("st", some [N + 1, 3, 3]), ("Efx", some [N + 1, 3]), ("Edf", some [N + 1, 3, 3]), ("lamt", some [N + 1, 3]),
        ("psit", some [N + 1, 3, 3])],
      ∃ z, (((s.1.setup (pyClasses E) params none).2.run (pyClasses E)).2.output).lookup e.1 = some z ∧ Spec.HasShape e.2 z := by
  obtain ⟨M, hM⟩ := Int.eq_ofNat_of_zero_le (a := Spec.numObs N c.dt c.density) (by have := hv.some_obs; omega)
  obtain ⟨m', x, h1, h2, -⟩ := setup_total3 E hin hv M hM s.1.m_data
  have hr := (C97_setup_and_run E c params hin N hv s.1).2
  obtain ⟨p, n, hp, hn, _, hsh, _⟩ := C86_output_shapes E canOpen name files _ _ (hist.call (.setup params none) E.entropy) hr
  have hm : (s.1.setup (pyClasses E) params none).2.m_data = m' := by unfold Sim.setup; rw [h1]
  obtain ⟨b, hp', hr'⟩ := h2.model
  have : p = proc3 c b := by
    have hp2 : m'.model = some p := by rw [← hm]; exact hp
    rw [hp'] at hp2; cases hp2; rfl
  subst this
  have hn' : n = N + 1 := by
    simp only [AnyProc.pathLength, proc3, Proc.samplePath, hr'.2.2.1, Except.map, List.length_ofFn] at hn
    cases hn; rfl
  have hd : (proc3 c b).dim = 3 := rfl
  rw [hn', hd] at hsh
  intro e he
  exact hsh e (by simpa [Spec.outputShapes] using he)

/-! ## The hypotheses can be met -/

/-- The values in `/repo/sim_params_L3D.json`, with the system noise as a list of three variances. -/
def Spec.exampleConfig3 : Spec.Config3 where
  name := "L63"
  theta := ![10, 28, 2.667]
  sys := Matrix.diagonal ![10, 10, 10]
  obs := fun _ => 2
  t0 := 0
  tf := 20
  dt := 0.01
  method := "Heun"
  seed := .num 31415926535
  density := 5
  mu0 := fun _ => 1
  tau0 := fun _ => 0.5

/-- `/repo/sim_params_L3D.json`, with the system noise as a list of three variances. -/
def Spec.exampleParams3 : Json :=
  .obj [("Info", .str "Input parameters file for the VGPA simulation"), ("Author", .str "Michail Vrettas, PhD"),
    ("Contact", .str "michail.vrettas@gmail.com"), ("Date", .str "2022-05-09"), ("Output_Name", .str "Sim_L3D"), ("Model", .str "L63"),
    ("Ode-method", .str "Heun"), ("Random-Seed", .num 31415926535),
    ("Time-window", .obj [("t0", .num 0), ("tf", .num 20), ("dt", .num 0.01)]),
    ("Noise", .obj [("sys", .arr [.num 10, .num 10, .num 10]), ("obs", .num 2)]),
    ("Observations", .obj [("density", .num 5), ("operator", .null)]),
    ("Drift", .obj [("theta", .arr [.num 10, .num 28, .num 2.667])]),
    ("Prior", .obj [("tau0", .num 0.5), ("mu0", .num 1)])]

theorem example_in3 : Spec.exampleConfig3.In Spec.exampleParams3 :=
  ⟨rfl, ⟨_, rfl, rfl⟩, ⟨_, _, _, rfl, rfl, rfl, .variances ![10, 10, 10], .number _⟩, ⟨_, rfl, rfl, rfl, rfl⟩, rfl, rfl, ⟨_, rfl, rfl, rfl⟩, _, _, _,
    rfl, rfl, rfl, .number _, .number _⟩

theorem example_valid3 : Spec.exampleConfig3.Valid 2000 where
  name := (pyUpper_eq_iff (by decide)).1 (by show pyUpper "L63" = "L63"; decide)
  sys := Matrix.PosDef.diagonal fun i => by fin_cases i <;> norm_num
  obs := fun _ => by norm_num [Spec.exampleConfig3]
  tau0 := fun _ => by norm_num [Spec.exampleConfig3]
  dt := by norm_num [Spec.exampleConfig3]
  tf := by norm_num [Spec.exampleConfig3]
  method := ⟨.heun, by show pyLower "Heun" = _; decide⟩
  seed := .inr ⟨31415926535, by norm_num [Spec.exampleConfig3]⟩
  density := by norm_num [Spec.exampleConfig3]
  some_obs := by norm_num [Spec.exampleConfig3, Spec.numObs]
  not_all := by norm_num [Spec.exampleConfig3, Spec.numObs]

/-- The configuration with a full covariance matrix meets the hypotheses too. -/
example : Spec.CovarianceEntry (.arr [Spec.list3 (corrS 0), Spec.list3 (corrS 1), Spec.list3 (corrS 2)]) corrS ∧ corrS.PosDef :=
  ⟨.rows _, corrS_posDef⟩

example (E : Env G) (s : Sim (AnyProc G) Arr) := C97_setup_and_run E _ _ example_in3 2000 example_valid3 s

example (E : Env G) (canOpen : String → Py Unit) (files : Files) :=
  C97_output E canOpen none files _ _ Spec.PyHistory.new _ _ example_in3 2000 example_valid3

end

end VGPA
