import Verif.Props.RunTotal63
import Verif.Props.Lorenz96
import Verif.Props.ScgRaises

/-!
# C102, C103: Lorenz-96 configurations

`Simulation` gives no dimension to `Lorenz96`, so the state has the default dimension, 40.
-/

namespace VGPA

noncomputable section

open Matrix

variable {G : Type}

namespace Spec

/-- A list of numbers. -/
def listOf {d : ℕ} (v : Fin d → ℝ) : Json := .arr (List.ofFn fun i => .num (v i))

/-- A list of rows. -/
def rowsOf {d : ℕ} (M : Matrix (Fin d) (Fin d) ℝ) : Json := .arr (List.ofFn fun i => listOf (M i))

/-- The covariance matrix of the system noise in a parameter file: a list of 40 variances, or a list of 40 rows. -/
inductive CovarianceEntry40 : Json → Matrix (Fin 40) (Fin 40) ℝ → Prop
  | variances (v : Fin 40 → ℝ) : CovarianceEntry40 (listOf v) (Matrix.diagonal v)
  | rows (M : Matrix (Fin 40) (Fin 40) ℝ) : CovarianceEntry40 (rowsOf M) M

/-- Variances in a parameter file: one number for all of them, a list, or a list of rows, of which the diagonal counts. -/
inductive VarianceEntry40 : Json → (Fin 40 → ℝ) → Prop
  | number (r : ℝ) : VarianceEntry40 (.num r) fun _ => r
  | list (v : Fin 40 → ℝ) : VarianceEntry40 (listOf v) v
  | rows (M : Matrix (Fin 40) (Fin 40) ℝ) : VarianceEntry40 (rowsOf M) fun i => M i i

/-- Means in a parameter file: one number for all of them, or a list. -/
inductive MeanEntry40 : Json → (Fin 40 → ℝ) → Prop
  | number (r : ℝ) : MeanEntry40 (.num r) fun _ => r
  | list (v : Fin 40 → ℝ) : MeanEntry40 (listOf v) v

/-- The entries of a parameter file for the Lorenz-96 process. -/
structure Config40 where
  name : String
  theta : ℝ
  sys : Matrix (Fin 40) (Fin 40) ℝ
  obs : Fin 40 → ℝ
  t0 : ℝ
  tf : ℝ
  dt : ℝ
  method : String
  seed : Json
  density : ℝ
  mu0 : Fin 40 → ℝ
  tau0 : Fin 40 → ℝ

/-- The JSON dictionary `params` has these entries (and possibly others), and no operator. -/
def Config40.In (c : Config40) (params : Json) : Prop :=
  params.item "Model" = .ok (.str c.name)
  ∧ (∃ j, params.item "Drift" = .ok j ∧ j.item "theta" = .ok (.num c.theta))
  ∧ (∃ j s o, params.item "Noise" = .ok j ∧ j.item "sys" = .ok s ∧ j.item "obs" = .ok o
      ∧ CovarianceEntry40 s c.sys ∧ VarianceEntry40 o c.obs)
  ∧ (∃ j, params.item "Time-window" = .ok j ∧ j.item "t0" = .ok (.num c.t0) ∧ j.item "tf" = .ok (.num c.tf)
      ∧ j.item "dt" = .ok (.num c.dt))
  ∧ params.item "Ode-method" = .ok (.str c.method)
  ∧ params.item "Random-Seed" = .ok c.seed
  ∧ (∃ j, params.item "Observations" = .ok j ∧ j.item "density" = .ok (.num c.density) ∧ j.item "operator" = .ok .null)
  ∧ ∃ j m t, params.item "Prior" = .ok j ∧ j.item "mu0" = .ok m ∧ j.item "tau0" = .ok t ∧ MeanEntry40 m c.mu0 ∧ VarianceEntry40 t c.tau0

/-- The entries make sense: a symmetric positive definite noise covariance, positive observation and prior variances, a window of `N` steps, a documented
integrator, no seed or one that is not negative, and a density that gives between `1` and `N - 1` observations. -/
structure Config40.Valid (c : Config40) (N : ℕ) : Prop where
  name : SameUpToCase c.name "L96"
  sys : c.sys.PosDef
  obs : ∀ i, 0 < c.obs i
  tau0 : ∀ i, 0 < c.tau0 i
  dt : 0 < c.dt
  tf : c.tf = c.t0 + N * c.dt
  method : ∃ m, pyLower c.method = pyLower (docName m)
  seed : c.seed = .null ∨ ∃ n : ℕ, c.seed = .num n
  density : c.density ≤ ⌊1 / c.dt⌋
  some_obs : 1 ≤ numObs N c.dt c.density
  not_all : numObs N c.dt c.density < N

/-- The path `x` is the Euler-Maruyama path of the Lorenz-96 process. It begins where 5000 noiseless steps of length 0.001 lead from the point with
all components `theta`, the middle one 0.001 more; the increments have the factor `C`, and the generator is in state `g` before them. -/
def PathFrom40 (R : Rng G) (c : Config40) (N : ℕ) (g : G) (x : ℕ → Fin 40 → ℝ) (C : Matrix (Fin 40) (Fin 40) ℝ) : Prop :=
  x 0 = (fun y => y + (1 / 1000 : ℝ) • l96Field c.theta y)^[5000] (fun i => if i = 20 then c.theta + 1 / 1000 else c.theta)
  ∧ ∀ t < N, x (t + 1) = x t + c.dt • l96Field c.theta (x t) + C *ᵥ fun l => draw R g (l * (N + 1) + (t + 1))

end Spec

/-! ## Reading the entries -/

theorem mapM_ofFn_ok {α β : Type} {d : ℕ} (f : α → Py β) (v : Fin d → α) (w : Fin d → β) (h : ∀ i, f (v i) = .ok (w i)) :
    (List.ofFn v).mapM f = .ok (List.ofFn w) := by
  induction d with
  | zero => rfl
  | succ d ih =>
    rw [List.ofFn_succ, List.ofFn_succ, List.mapM_cons, h 0, ih _ _ fun i => h i.succ]
    rfl

theorem vec_eq {d n : ℕ} (h : n = d) (f : Fin n → ℝ) (v : Fin d → ℝ) (hf : ∀ i, f i = v (Fin.cast h i)) : NdArr.vec n f = NdArr.vec d v := by
  subst h
  congr 1
  exact funext hf

theorem mat_eq {d n m : ℕ} (h : n = d) (h' : m = d) (F : Matrix (Fin n) (Fin m) ℝ) (M : Matrix (Fin d) (Fin d) ℝ)
    (hf : ∀ i j, F i j = M (Fin.cast h i) (Fin.cast h' j)) : NdArr.mat n m F = NdArr.mat d d M := by
  subst h
  subst h'
  congr 1
  ext i j
  exact hf i j

theorem getD_ofFn_lt {α : Type} {d : ℕ} (v : Fin d → α) (z : α) {i : ℕ} (h : i < d) : (List.ofFn v).getD i z = v ⟨i, h⟩ := by
  simp [h]

theorem list40_ndArr {d : ℕ} (v : Fin d → ℝ) : (Spec.listOf v).ndArr = .ok (.vec d v) := by
  have h := mapM_ofFn_ok Json.real (fun i => Json.num (v i)) v fun _ => rfl
  simp only [Spec.listOf, Json.ndArr, h]
  congr 1
  exact vec_eq (by simp) _ _ fun i => by
    rw [getD_ofFn_lt v _ (by simpa using i.2)]
    rfl

theorem rows40_ndArr {d : ℕ} (M : Matrix (Fin (d + 1)) (Fin (d + 1)) ℝ) : (Spec.rowsOf M).ndArr = .ok (.mat (d + 1) (d + 1) M) := by
  have h0 : (List.ofFn fun i => Spec.listOf (M i)).mapM Json.real = .error .typeError := by
    rw [List.ofFn_succ, List.mapM_cons]
    rfl
  have h := mapM_ofFn_ok (fun j : Json => match j with
      | .arr r => r.mapM Json.real
      | _ => .error .valueError) (fun i => Spec.listOf (M i)) (fun i => List.ofFn (M i))
    fun i => mapM_ofFn_ok Json.real (fun j => Json.num (M i j)) (M i) fun _ => rfl
  have hc : ((List.ofFn fun i => List.ofFn (M i)).headD []).length = d + 1 := by rw [List.ofFn_succ]; simp
  have hall : (List.ofFn fun i => List.ofFn (M i)).all (fun r => r.length == ((List.ofFn fun i => List.ofFn (M i)).headD []).length) = true := by
    rw [List.all_eq_true]
    intro r hr
    obtain ⟨i, rfl⟩ := List.mem_ofFn.1 hr
    simp [hc]
  simp only [Spec.rowsOf, Json.ndArr, h0]
  erw [h]
  simp only [py_ok_bind, hall, if_true]
  congr 1
  refine mat_eq (by simp) hc _ _ fun i j => ?_
  have hi : (i : ℕ) < d + 1 := by simpa using i.2
  have hj : (j : ℕ) < d + 1 := j.2.trans_eq hc
  rw [Matrix.of_apply, getD_ofFn_lt _ _ hi, getD_ofFn_lt _ _ hj]
  rfl

theorem sys_entry40 {s : Json} {M : Matrix (Fin 40) (Fin 40) ℝ} (h : Spec.CovarianceEntry40 s M) :
    ∃ a, s.ndArr = .ok a ∧ sigmaMatrix 40 a = .ok M := by
  cases h with
  | variances v => exact ⟨_, list40_ndArr v, rfl⟩
  | rows => exact ⟨_, rows40_ndArr M, rfl⟩

theorem var_entry40 {s : Json} {v : Fin 40 → ℝ} (h : Spec.VarianceEntry40 s v) :
    ∃ a, s.ndArr = .ok a ∧ Spec.noiseMatrix 40 a = some (Matrix.diagonal v) := by
  cases h with
  | number r => exact ⟨_, rfl, rfl⟩
  | list => exact ⟨_, list40_ndArr v, rfl⟩
  | rows M => exact ⟨_, rows40_ndArr M, rfl⟩

theorem noiseMatrix_cast {d k : ℕ} (h : k = d) (rn : NdArr) (N : Matrix (Fin d) (Fin d) ℝ) (hN : Spec.noiseMatrix d rn = some N) :
    Spec.noiseMatrix k rn = some (N.submatrix (Fin.cast h) (Fin.cast h)) := by
  subst h
  exact hN

theorem obsN_cast {d k : ℕ} (h : k = d) (t : List ℕ) {M : ℕ} (y : Fin M → Fin k → ℝ) (y' : Fin M → Fin d → ℝ) (N : Matrix (Fin d) (Fin d) ℝ)
    (hy : ∀ i l, y i l = y' i (Fin.cast h l)) :
    (⟨t, k, List.ofFn y, .mat k k (N.submatrix (Fin.cast h) (Fin.cast h))⟩ : ObsN) = ⟨t, d, List.ofFn y', .mat d d N⟩ := by
  subst h
  have : y = y' := by funext i l; exact hy i l
  rw [this]
  rfl

/-- `collect_obs` without a mask. -/
theorem collectObsN_all (R : Rng G) {d : ℕ} (hd : d ≠ 1) (p : Proc G (Fin d → ℝ)) (t0 dt : ℝ) (N : ℕ) (x : ℕ → Fin d → ℝ)
    (hN : 0 < N) (hdt : 0 < dt) (htk : p.tk = some (Spec.grid t0 dt N))
    (hxt : p.xt = some (List.ofFn fun i : Fin (N + 1) => x i)) (n : ℝ) (rn : NdArr)
    (hn : n ≤ ⌊1 / dt⌋) (M : ℕ) (hM : Spec.numObs N dt n = M) (hpos : 0 < M) (v : Fin d → ℝ)
    (hv : Spec.noiseMatrix d rn = some (Matrix.diagonal v)) :
    p.collectObsN R n rn none = (.ok
      { obs_t := List.ofFn fun i : Fin M => eqIdx N M i
        k := d
        obs_y := List.ofFn fun (i : Fin M) (l : Fin d) => x (eqIdx N M i) l + Real.sqrt (v l) * Spec.draw R p.rng (l * M + i)
        obs_noise := .mat d d (Matrix.diagonal v) },
      { p with rng := Spec.stateAfter R p.rng (d * M) }) := by
  have hlen : (Spec.observed none : List (Fin d)).length = d := List.length_finRange
  rw [collectObsN_grid R p t0 dt N x hN hdt htk hxt n rn none trivial hn M hM hpos (by rw [hlen]; exact hd) _ (noiseMatrix_cast hlen rn _ hv)]
  refine congrArg₂ Prod.mk (congrArg Except.ok (obsN_cast hlen _ _ _ _ fun i l => ?_)) (by rw [hlen])
  have hg : (Spec.observed none : List (Fin d)).get l = Fin.cast hlen l := by
    have key : ∀ (L : List (Fin d)) (hL : L = List.finRange d) (l : Fin L.length) (h : L.length = d), L.get l = Fin.cast h l := by
      rintro L rfl l h
      simp
    exact key _ rfl l hlen
  have hd' : (Matrix.diagonal v).submatrix (Fin.cast hlen) (Fin.cast hlen) = Matrix.diagonal fun l => v (Fin.cast hlen l) := by
    rw [Matrix.submatrix_diagonal _ _ (Fin.cast_injective hlen)]
    rfl
  rw [hd', Pi.add_apply, hg, Matrix.diagonal_map Real.sqrt_zero, Matrix.mulVec_diagonal]
  rfl

/-! ## The process -/

/-- The Lorenz-96 process of the configuration, with the state `b` of the base class. -/
def proc40 (c : Spec.Config40) (b : Proc G (Fin 40 → ℝ)) : AnyProc G := .l96 ⟨b, c.sys, c.theta, c.sys⁻¹⟩

/-- A process with the path `x`, whose generator is in the state after `n` normal numbers from the state `g`. -/
def Ready40 (R : Rng G) (c : Spec.Config40) (N : ℕ) (x : ℕ → Fin 40 → ℝ) (g : G) (n : ℕ) (b : Proc G (Fin 40 → ℝ)) : Prop :=
  b.single_dimension = false ∧ b.tk = some (Spec.grid c.t0 c.dt N) ∧ b.xt = some (List.ofFn fun i : Fin (N + 1) => x i)
    ∧ b.rng = Spec.stateAfter R g n

theorem create_ready40 (E : Env G) {c : Spec.Config40} {N : ℕ} (h : c.Valid N) {s : Json} (hs : Spec.CovarianceEntry40 s c.sys) :
    ∃ b, Sim.stochasticModel (pyClasses E) (.str c.name) s (.num c.theta) c.seed = .ok (proc40 c b)
      ∧ b.single_dimension = false ∧ b.rng = Spec.startState E.R E.entropy c.seed := by
  obtain ⟨r, hr, hr0, hst⟩ := seed_ok E.R E.entropy h.seed
  obtain ⟨b, hb, hb1, hb2⟩ := procInit_ok3 (X := Fin 40 → ℝ) E.R E.entropy hr0
  obtain ⟨a, ha, hM⟩ := sys_entry40 hs
  refine ⟨b, ?_, hb1, hb2.trans hst⟩
  rw [(C75_model_names (pyClasses E) c.name _ _ _).1 "L96" .L96 (by simp [Spec.modelNames]) h.name]
  obtain ⟨C, hC⟩ := cholInv_posDef h.sys
  have he := (eig_pos_iff (posDef_iff_quad.1 h.sys).1).1.2 h.sys
  have hd : ¬ 40 < 10 := by norm_num
  simp only [pyClasses, AnyProc.create, ha, Json.real, hr, L96.init, hb, hM, py_ok_bind, if_neg hd, if_pos he, hC]
  rfl

theorem traj_ready40 (E : Env G) {c : Spec.Config40} {b : Proc G (Fin 40 → ℝ)} (hb : b.single_dimension = false) (hdt : 0 < c.dt) (N : ℕ) :
    ∃ b' x, AnyProc.makeTrajectory E (proc40 c b) (.num c.t0) (.num (c.t0 + N * c.dt)) (.num c.dt) = (.ok (), proc40 c b')
      ∧ Ready40 E.R c N x b.rng (40 * (N + 1)) b' ∧ Spec.PathFrom40 E.R c N b.rng x (LorenzObj.noiseFactor c.sys c.dt) := by
  have hle : c.t0 ≤ c.t0 + N * c.dt := by nlinarith [(Nat.cast_nonneg N : (0 : ℝ) ≤ N)]
  have hN := gridN_exact (t0 := c.t0) hdt N
  obtain ⟨x, g', he, h0, hs⟩ := lorenz_traj E.R (⟨b, c.sys, c.theta, c.sys⁻¹⟩ : L96 G 40) (fun x => l96 x c.theta) (L96.start c.theta) hle hdt
  have hr := lorenz_traj_rng E.R (⟨b, c.sys, c.theta, c.sys⁻¹⟩ : L96 G 40) (fun x => l96 x c.theta) (L96.start c.theta) hle hdt
  rw [he] at hr
  rw [hN] at he hs hr
  refine ⟨{ b with xt := _, tk := _, rng := g' }, x, ?_, ⟨hb, rfl, rfl, hr⟩, ?_, fun t ht => ?_⟩
  · simp only [AnyProc.makeTrajectory, proc40, Json.real, py_ok_bind, pure, Except.pure, L96.makeTrajectory, he]
  · rw [h0]
    unfold LorenzObj.burnIn
    have h1 : (fun y : Fin 40 → ℝ => y + (10e-4 : ℝ) • l96 y c.theta) = fun y => y + (1 / 1000 : ℝ) • Spec.l96Field c.theta y := by
      funext y
      rw [l96_eq_field]
      norm_num
    have h2 : (L96.start c.theta : Fin 40 → ℝ) = fun i => if i = 20 then c.theta + 1 / 1000 else c.theta := by
      funext i
      have : ((i : ℕ) = 40 / 2) ↔ i = 20 := by
        rw [Fin.ext_iff]
        rfl
      simp only [L96.start, this]
      split <;> norm_num
    rw [← h1, ← h2]
  · rw [hs t ht, l96_eq_field]

theorem collect_ready40 (E : Env G) {c : Spec.Config40} {N : ℕ} {x : ℕ → Fin 40 → ℝ} {g : G} {k : ℕ} {b : Proc G (Fin 40 → ℝ)}
    (hp : Ready40 E.R c N x g k b) (hdt : 0 < c.dt) (hN : 0 < N) (n : ℝ) {o : Json} (ho : Spec.VarianceEntry40 o c.obs)
    (hn : n ≤ ⌊1 / c.dt⌋) (M : ℕ) (hM : Spec.numObs N c.dt n = M) (hpos : 0 < M) :
    ∃ b', AnyProc.collectObs E (proc40 c b) (.num n) o .null
        = (.ok (.times (List.ofFn fun i : Fin M => eqIdx N M i),
            .path 40 (List.ofFn fun i : Fin M => fun l : Fin 40 => x (eqIdx N M i) l + Real.sqrt (c.obs l) * Spec.draw E.R g (k + (l * M + i))),
            .nd (.mat 40 40 (Matrix.diagonal c.obs))), proc40 c b')
      ∧ Ready40 E.R c N x g (k + 40 * M) b' := by
  obtain ⟨hb, htk, hxt, hg⟩ := hp
  obtain ⟨a, ha, hM'⟩ := var_entry40 ho
  have he := collectObsN_all E.R (by norm_num) b c.t0 c.dt N x hN hdt htk hxt n a hn M hM hpos c.obs hM'
  rw [hg] at he
  simp only [draw_add, stateAfter_add] at he
  have hj : Json.real (.num n) = .ok n := rfl
  refine ⟨{ b with rng := Spec.stateAfter E.R g (k + 40 * M) }, ?_, hb, htk, hxt, rfl⟩
  simp only [AnyProc.collectObs, proc40, hj, ha, Json.mask, py_ok_bind, pure, Except.pure, he, Except.map, AnyProc.obsN]

theorem mean_ready40 (E : Env G) {c : Spec.Config40} {N : ℕ} {x : ℕ → Fin 40 → ℝ} {g : G} {k : ℕ} {b : Proc G (Fin 40 → ℝ)}
    (hp : Ready40 E.R c N x g k b) :
    ∃ b', AnyProc.firstMean E (proc40 c b) = (.ok (.nd (.vec 40 fun i => x 0 i + 0.1 * Spec.draw E.R g (k + i))), proc40 c b')
      ∧ Ready40 E.R c N x g (k + 40) b' := by
  obtain ⟨hb, htk, hxt, hg⟩ := hp
  have h0 : (do idx (← b.samplePath) 0 : Py (Fin 40 → ℝ)) = .ok (x 0) := by
    simp only [Proc.samplePath, hxt, py_ok_bind]
    exact idx_ofFn (fun i : Fin (N + 1) => x i) 0
  refine ⟨{ b with rng := Spec.stateAfter E.R g (k + 40) }, ?_, hb, htk, hxt, rfl⟩
  simp only [AnyProc.firstMean, proc40, AnyProc.firstMeanN, h0, normals_eq, hg, stateAfter_add]
  congr 4
  funext i
  congr 2
  simp [draw_add, i.2]

theorem mu0_ready40 {c : Spec.Config40} (b : Proc G (Fin 40 → ℝ)) {m : Json} {v : Fin 40 → ℝ} (h : Spec.MeanEntry40 m v) :
    AnyProc.timesOnes (proc40 c b) (.given m) = .ok (.arr (.nd (.vec 40 v))) := by
  cases h with
  | number r =>
    have : AnyProc.timesOnes (proc40 c b) (.given (.num r)) = .ok (.arr (.nd (.vec 40 fun _ => r * 1))) := rfl
    simpa using this
  | list =>
    simp only [AnyProc.timesOnes, AnyProc.priorArr, list40_ndArr, py_ok_bind, AnyProc.dim, proc40, if_true, mul_one]
    rfl

theorem tau0_ready40 {c : Spec.Config40} (b : Proc G (Fin 40 → ℝ)) {t : Json} {v : Fin 40 → ℝ} (h : Spec.VarianceEntry40 t v) :
    AnyProc.timesEye (proc40 c b) (.given t) = .ok (.arr (.nd (.mat 40 40 (Matrix.diagonal v)))) := by
  cases h with
  | number r =>
    have : AnyProc.timesEye (proc40 c b) (.given (.num r)) = .ok (.arr (.nd (.mat 40 40 (r • 1)))) := rfl
    rw [this, Matrix.smul_one_eq_diagonal]
  | list =>
    simp only [AnyProc.timesEye, AnyProc.priorArr, list40_ndArr, py_ok_bind, AnyProc.dim, proc40, if_true]
    rfl
  | rows M =>
    simp only [AnyProc.timesEye, AnyProc.priorArr, rows40_ndArr, py_ok_bind, AnyProc.dim, proc40]
    rfl

/-! ## `setup` -/

/-- What `setup` leaves behind: `x` is the path, and `g` the state of the generator before the path, which uses `40 (N + 1)` normal numbers. -/
structure SetUp40 (R : Rng G) (c : Spec.Config40) (N M : ℕ) (x : ℕ → Fin 40 → ℝ) (g : G) (m : MData (AnyProc G) Arr) : Prop where
  tw : ∃ j, m.time_window = some j ∧ j.item "dt" = .ok (.num c.dt)
  ode : m.ode_solver = some (.str c.method)
  one : m.single_dim = some false
  times : m.obs_t = some (.times (List.ofFn fun i : Fin M => eqIdx N M i))
  obs : m.obs_y = some (.path 40 (List.ofFn fun i : Fin M => fun l : Fin 40 =>
    x (eqIdx N M i) l + Real.sqrt (c.obs l) * Spec.draw R g (40 * (N + 1) + (l * M + i))))
  noise : m.obs_noise = some (.nd (.mat 40 40 (Matrix.diagonal c.obs)))
  op : ∃ j, m.obs_setup = some j ∧ j.item "operator" = .ok .null
  mu0 : m.mu0 = some (.arr (.nd (.vec 40 c.mu0)))
  tau0 : m.tau0 = some (.arr (.nd (.mat 40 40 (Matrix.diagonal c.tau0))))
  model : ∃ b, m.model = some (proc40 c b) ∧ Ready40 R c N x g (40 * (N + 1) + 40 * M + 40) b
  m0 : m.m0 = some (.nd (.vec 40 fun l => x 0 l + 0.1 * Spec.draw R g (40 * (N + 1) + 40 * M + l)))
  s0 : m.s0 = some (.nd (.mat 40 40 ((0.2 : ℝ) • 1)))

theorem setup_total40 (E : Env G) {c : Spec.Config40} {params : Json} (hin : c.In params) {N : ℕ} (hv : c.Valid N) (M : ℕ)
    (hM : Spec.numObs N c.dt c.density = M) (m : MData (AnyProc G) Arr) :
    ∃ m' x, Sim.setupBody (pyClasses E) params none m = (.ok (), m')
      ∧ SetUp40 E.R c N M x (Spec.startState E.R E.entropy c.seed) m'
      ∧ Spec.PathFrom40 E.R c N (Spec.startState E.R E.entropy c.seed) x (LorenzObj.noiseFactor c.sys c.dt) := by
  have hpos : 0 < M := by have := hv.some_obs; omega
  have hN : 0 < N := by have := hv.not_all; have := hv.some_obs; omega
  obtain ⟨hmod, ⟨jd, hd1, hd2⟩, ⟨jn, sj, oj, hn1, hn2, hn3, hsj, hoj⟩, ⟨jt, ht1, ht2, ht3, ht4⟩, hode, hseed, ⟨jo, ho1, ho2, ho3⟩,
    jp, mj, tj, hp1, hp2, hp3, hmj, htj⟩ := hin
  obtain ⟨b, hc, hb, hb0⟩ := create_ready40 E hv hsj
  obtain ⟨b1, x, h1, r1, hpath⟩ := traj_ready40 E (c := c) hb hv.dt N
  rw [hb0] at hpath r1
  obtain ⟨b2, h2, r2⟩ := collect_ready40 E r1 hv.dt hN c.density hoj hv.density M hM hpos
  obtain ⟨b3, h3, r3⟩ := mean_ready40 E r2
  rw [← hv.tf] at h1
  let g := Spec.startState E.R E.entropy c.seed
  let m1 : MData (AnyProc G) Arr := { m with
    drift := some jd, noise := some jn, time_window := some jt, ode_solver := some (.str c.method), random_seed := some c.seed
    obs_setup := some jo, mu0 := some (.given mj), tau0 := some (.given tj), model := some (proc40 c b1)
    single_dim := some false }
  let m2 : MData (AnyProc G) Arr := { m1 with
    model := some (proc40 c b2), obs_t := some (.times (List.ofFn fun i : Fin M => eqIdx N M i))
    obs_y := some (.path 40 (List.ofFn fun i : Fin M => fun l : Fin 40 =>
      x (eqIdx N M i) l + Real.sqrt (c.obs l) * Spec.draw E.R g (40 * (N + 1) + (l * M + i))))
    obs_noise := some (.nd (.mat 40 40 (Matrix.diagonal c.obs))) }
  let m3 : MData (AnyProc G) Arr := { m2 with
    model := some (proc40 c b3), m0 := some (.nd (.vec 40 fun l => x 0 l + 0.1 * Spec.draw E.R g (40 * (N + 1) + 40 * M + l)))
    s0 := some (.nd (.mat 40 40 ((0.2 : ℝ) • 1))), mu0 := some (.arr (.nd (.vec 40 c.mu0)))
    tau0 := some (.arr (.nd (.mat 40 40 (Matrix.diagonal c.tau0)))) }
  have e2 : Sim.setupObs (pyClasses E) none m1 = (.ok (), m2) := by
    unfold Sim.setupObs
    simp only
    rw [step_view (a := .num c.density) (by exact ho2), step_view (a := oj) (by exact hn3),
      step_view (a := .null) (by exact ho3), step_model (p := proc40 c b1) (p' := proc40 c b2) (by rfl) (by exact h2)]
    rfl
  have e3 : Sim.setupMoments (pyClasses E) m2 = (.ok (), m3) := by
    unfold Sim.setupMoments
    rw [step_view (a := false) (by rfl), step_model (p := proc40 c b2) (p' := proc40 c b3) (by rfl) (by exact h3), step_write,
      step_view (a := .nd (.mat 40 40 ((0.2 : ℝ) • 1))) (by rfl), step_write, if_neg (by simp),
      step_view (a := .arr (.nd (.vec 40 c.mu0))) (by exact mu0_ready40 b3 hmj), step_write,
      step_view (a := .arr (.nd (.mat 40 40 (Matrix.diagonal c.tau0)))) (by exact tau0_ready40 b3 htj)]
    rfl
  refine ⟨m3, x, ?_, ⟨⟨jt, rfl, ht4⟩, rfl, rfl, rfl, rfl, rfl, ⟨jo, rfl, ho3⟩, rfl, rfl, ⟨b3, rfl, r3⟩, rfl, rfl⟩, hpath⟩
  have hone : (proc40 c b).singleDim = false := hb
  unfold Sim.setupBody
  rw [step_lift hd1, step_write, step_lift hn1, step_write, step_lift ht1, step_write, step_lift hode, step_write,
    step_lift hseed, step_write, step_lift ho1, step_write, step_lift (a := mj) (by rw [hp1]; exact hp2), step_write,
    step_lift (a := tj) (by rw [hp1]; exact hp3), step_write, step_view (a := sj) (by exact hn2),
    step_view (a := .num c.theta) (by exact hd2), step_view (a := c.seed) (by rfl), step_lift hmod, step_lift hc, step_write, step_write,
    step_view (a := .num c.t0) (by exact ht2), step_view (a := .num c.tf) (by exact ht3), step_view (a := .num c.dt) (by exact ht4),
    step_model (p := proc40 c b) (p' := proc40 c b1) (a := ()) (by rfl) (by exact h1)]
  change (Sim.setupObs (pyClasses E) none >>= fun _ => Sim.setupMoments (pyClasses E))
    { m1 with single_dim := some (proc40 c b).singleDim } = _
  rw [hone]
  exact (ScgM.bind_step e2).trans e3

/-! ## `run` -/

variable {n k : ℕ}

/-- Nothing but `LinAlgError` is raised. -/
def OnlyLin {α : Type} (r : Py α) : Prop := ∀ e, r = .error e → e = .linAlgError

theorem OnlyLin.ok {α : Type} (x : α) : OnlyLin (.ok x : Py α) := by
  intro e h
  cases h

theorem OnlyLin.bind {α β : Type} {r : Py α} {k : α → Py β} (h : OnlyLin r) (hk : ∀ x, r = .ok x → OnlyLin (k x)) : OnlyLin (r >>= k) := by
  rcases r with e | x
  · intro e' he
    exact h e' (by cases he; rfl)
  · exact hk x rfl

theorem OnlyLin.mapM {α β : Type} {f : α → Py β} : ∀ {l : List α}, (∀ x ∈ l, OnlyLin (f x)) → OnlyLin (l.mapM f)
  | [], _ => OnlyLin.ok _
  | x :: l, h => by
    rw [List.mapM_cons]
    exact (h x (by simp)).bind fun y _ => (OnlyLin.mapM fun z hz => h z (by simp [hz])).bind fun _ _ => OnlyLin.ok _

theorem onlyLin_cholesky {d : ℕ} (S : Matrix (Fin d) (Fin d) ℝ) : OnlyLin (npCholesky S) := by
  intro e h
  unfold npCholesky at h
  split at h
  · cases h
  · cases h; rfl

theorem onlyLin_solve {d k : ℕ} (S : Matrix (Fin d) (Fin d) ℝ) (B : Matrix (Fin d) (Fin k) ℝ) : OnlyLin (npSolve S B) := by
  intro e h
  unfold npSolve at h
  split at h
  · cases h; rfl
  · cases h

theorem onlyLin_inv {d : ℕ} (S : Matrix (Fin d) (Fin d) ℝ) : OnlyLin (cholInv S) :=
  (onlyLin_cholesky S).bind fun _ _ => (onlyLin_solve _ _).bind fun _ _ => OnlyLin.ok _

theorem onlyLin_sqrt {d : ℕ} (S : Matrix (Fin d) (Fin d) ℝ) : OnlyLin (utSqrt S) := by
  unfold utSqrt
  split
  · exact OnlyLin.ok _
  · exact (onlyLin_cholesky _).bind fun _ _ => OnlyLin.ok _
  · rename_i e _ h
    intro e' he
    cases he
    exact onlyLin_cholesky _ e h

/-- `ut_approx` of a function that returns one row per point. -/
theorem onlyLin_ut {d k : ℕ} {f : List (Fin d → ℝ) → Py (List (Fin k → ℝ))} (m : Fin d → ℝ) (S : Matrix (Fin d) (Fin d) ℝ)
    (h1 : ∀ χ : Fin (d + d + 1) → Fin d → ℝ, OnlyLin (f (List.ofFn χ)))
    (h2 : ∀ (χ : Fin (d + d + 1) → Fin d → ℝ) y, f (List.ofFn χ) = .ok y → y.length = d + d + 1) : OnlyLin (utApprox f m S) :=
  (onlyLin_sqrt S).bind fun s _ => (h1 _).bind fun y hy => by
    rw [dif_pos (h2 _ y hy)]
    exact OnlyLin.ok _

theorem onlyLin_row {d n : ℕ} (θ : ℝ) (w : Fin d → ℝ) (a : Fin n → Matrix (Fin d) (Fin d) ℝ) (b m : Fin n → Fin d → ℝ)
    (s : Fin n → Matrix (Fin d) (Fin d) ℝ) (t : Fin n) :
    OnlyLin (L96.energyRow θ w (List.ofFn a) (List.ofFn b) (List.ofFn m) (List.ofFn s) t) := by
  have h1 : OnlyLin (utApprox (L96.fun1 θ (a t) (b t)) (m t) (s t)) := by
    refine onlyLin_ut _ _ (fun χ => ?_) fun χ y hy => ?_
    · rw [fun1_ofFn]; exact OnlyLin.ok _
    · rw [fun1_ofFn] at hy; cases hy; exact List.length_ofFn
  have h2 : OnlyLin (utApprox (L96.fun2 θ (m t) (s t) (a t) (b t) w) (m t) (s t)) := by
    refine onlyLin_ut _ _ (fun χ => ?_) fun χ y hy => ?_
    · exact OnlyLin.bind ((onlyLin_solve _ _).bind fun _ _ => (onlyLin_inv _).bind fun _ _ => OnlyLin.ok _) fun _ _ => OnlyLin.ok _
    · rw [fun2_ofFn] at hy
      obtain ⟨g, _, rfl⟩ : ∃ g, gradEsdeDmDs (l96Batch (Matrix.of χ) θ) (Matrix.of χ) (m t) (s t) (a t) (b t) w = .ok g ∧ List.ofFn g = y := by
        rcases hgr : gradEsdeDmDs (l96Batch (Matrix.of χ) θ) (Matrix.of χ) (m t) (s t) (a t) (b t) w with e | g
        · rw [hgr] at hy
          cases hy
        · rw [hgr] at hy
          cases hy
          exact ⟨g, rfl, rfl⟩
      exact List.length_ofFn
  unfold L96.energyRow
  simp only [idx_ofFn, py_ok_bind]
  exact h1.bind fun _ _ => h2.bind fun _ _ => (onlyLin_solve _ _).bind fun _ _ => (onlyLin_solve _ _).bind fun _ _ => OnlyLin.ok _

/-- `energy` of a Lorenz-96 process returns one value per time point or raises `LinAlgError`. -/
theorem l96_energy_or {d n : ℕ} (p : L96 G d) (a : Fin n → Matrix (Fin d) (Fin d) ℝ) (b m : Fin n → Fin d → ℝ)
    (s : Fin n → Matrix (Fin d) (Fin d) ℝ) (obs : List ℕ) (dt : ℝ) (hg : Spec.HasGrid p.base n dt) :
    (∃ (e : ℝ) (ef dm : Fin n → Fin d → ℝ) (edf ds : Fin n → Matrix (Fin d) (Fin d) ℝ),
      p.sde.energy (List.ofFn a) (List.ofFn b) (List.ofFn m) (List.ofFn s) obs
        = .ok ⟨e, List.ofFn ef, List.ofFn edf, List.ofFn dm, List.ofFn ds⟩)
      ∨ p.sde.energy (List.ofFn a) (List.ofFn b) (List.ofFn m) (List.ofFn s) obs = .error .linAlgError := by
  obtain ⟨tw, h1, h2, h3⟩ := hg
  have htw : p.base.timeWindow = .ok tw := by simp [Proc.timeWindow, h1]
  have hrows : OnlyLin ((List.range n).mapM (L96.energyRow p.theta p.sig_inv.diag (List.ofFn a) (List.ofFn b) (List.ofFn m) (List.ofFn s))) :=
    OnlyLin.mapM fun t ht => onlyLin_row _ _ a b m s ⟨t, List.mem_range.1 ht⟩
  simp only [L96.sde, L96.energy, htw, h3, h2, py_ok_bind]
  rcases hr : (List.range n).mapM (L96.energyRow p.theta p.sig_inv.diag (List.ofFn a) (List.ofFn b) (List.ofFn m) (List.ofFn s)) with e | r
  · right
    rw [hrows e hr]
    rfl
  · left
    have hl := mapM_length hr
    rw [List.length_range] at hl
    obtain ⟨ef, he1⟩ := list_eq_ofFn (l := r.map L96.Row.Ef) (n := n) (by simpa using hl)
    obtain ⟨edf, he2⟩ := list_eq_ofFn (l := r.map L96.Row.Edf) (n := n) (by simpa using hl)
    obtain ⟨dm, he3⟩ := list_eq_ofFn (l := r.map L96.Row.dm) (n := n) (by simpa using hl)
    obtain ⟨ds, he4⟩ := list_eq_ofFn (l := r.map L96.Row.ds) (n := n) (by simpa using hl)
    refine ⟨myTrapz (r.map L96.Row.Esde) dt (some obs), ef, dm, edf, ds, ?_⟩
    simp only [py_ok_bind, pure, Except.pure, he1, he2, he3, he4]

/-- The energy raises: so does the evaluation. -/
theorem vgpN_eval_error {d n k : ℕ} (hd : d ≠ 1) {o : VarGP (Fin d → ℝ) (Matrix (Fin d) (Fin d) ℝ)} {y : Fin k → Fin d → ℝ}
    {t : Fin k → Fin n} {R : Matrix (Fin d) (Fin d) ℝ} (ho : VgpNOk o n k y t R)
    (a : Fin n → Matrix (Fin d) (Fin d) ℝ) (b m : Fin n → Fin d → ℝ) (s : Fin n → Matrix (Fin d) (Fin d) ℝ)
    (hfwd : solveFwd o.fwd_ode.solver (rhsN d) o.fwd_ode.dt (List.ofFn a) (List.ofFn b) o.m0 o.s0 o.model.sigma
      = .ok (List.ofFn m, List.ofFn s)) (e : PyErr)
    (he : o.model.energy (List.ofFn a) (List.ofFn b) (List.ofFn m) (List.ofFn s) o.obs_t = .error e) :
    o.eval (shapeN d) (ravel3 (List.ofFn a) ++ ravel2 (List.ofFn b)) = .error e := by
  have hk : k ≤ n := by simpa using Fintype.card_le_of_injective t ho.inj
  have hg := likeN_gauss_eq ho.noise y t hk m s
  unfold VarGP.eval
  rw [ho.dim, ho.like]
  have hu := (C58_pack_unpack_nd hd a b).2.1
  have hr : (shapeN d).rhs = rhsN d := rfl
  simp only [hu, hr, bind, Except.bind, hfwd, LikeN.toIf, hg, he]

/-- The two methods of a Lorenz-96 variational object. -/
theorem vgp96_total (p : L96 G 40) (o : VarGP (Fin 40 → ℝ) (Matrix (Fin 40) (Fin 40) ℝ)) (y : Fin k → Fin 40 → ℝ)
    (t : Fin k → Fin n) (R : Matrix (Fin 40) (Fin 40) ℝ) (ho : VgpNOk o n k y t R) (hmodel : o.model = p.sde)
    (dt : ℝ) (hg : Spec.HasGrid p.base n dt) (x : Fin (n * 40 * (40 + 1)) → ℝ) :
    (∃ F c, o.eval (shapeN 40) (List.ofFn x) = .ok (F, c)
      ∧ ∃ g, VarGP.gradBody (shapeN 40) { o with cache := some c } (List.ofFn x) = .ok g ∧ g.length = n * 40 * (40 + 1))
    ∨ o.eval (shapeN 40) (List.ofFn x) = .error .linAlgError := by
  obtain ⟨a, b, -, -, -, -, hab⟩ := (C58_unpack_pack_nd (n := n) (d := 40) (by norm_num) (List.ofFn x)).1 (by rw [List.length_ofFn])
  rw [← hab]
  have hp := ho.pos
  obtain ⟨mt, st, h1, hm, hs, _⟩ := (C16_forward_shapes o.fwd_ode.solver (rhsN 40) o.fwd_ode.dt (List.ofFn a) (List.ofFn b)
    o.m0 o.s0 o.model.sigma).1 ⟨by simpa using hp, Or.inl (by simp)⟩
  obtain ⟨m, rfl⟩ := list_eq_ofFn (hm.trans (List.length_ofFn))
  obtain ⟨s, rfl⟩ := list_eq_ofFn (hs.trans (List.length_ofFn))
  rcases l96_energy_or p a b m s o.obs_t dt hg with ⟨e, ef, dm, edf, ds, he⟩ | he
  · left
    rw [← hmodel] at he
    obtain ⟨F, lam, psi, hev⟩ := vgpN_eval (by norm_num) ho a b m s h1 _ _ _ _ _ he
    refine ⟨F, _, hev, _, gradBody_ofFn (shapeN 40) _ _ a b m _ lam s _ psi (by exact ho.dim) rfl
      (C58_pack_unpack_nd (by norm_num) a b).2.2, ?_⟩
    simp only [shapeN, List.length_append, ravel2_length, ravel3_length, List.length_ofFn]
    ring
  · right
    rw [← hmodel] at he
    exact vgpN_eval_error (by norm_num) ho a b m s h1 _ he

/-- Functions that return or raise `e`: the optimizer returns or raises `e`. -/
theorem cacheRun_or {V W : Type} [AddCommGroup V] [Module ℝ V] [AddCommGroup W] [Module ℝ W] {sh : Shape V W} {o : VarGP V W} {e : PyErr}
    (htot : ∀ x : Fin n → ℝ, (∃ F c, o.eval sh (List.ofFn x) = .ok (F, c)
      ∧ ∃ g, VarGP.gradBody sh { o with cache := some c } (List.ofFn x) = .ok g ∧ g.length = n)
      ∨ o.eval sh (List.ofFn x) = .error e)
    {p : Scg ℝ} (hp : Spec.Arrays p) (x0 : Fin n → ℝ) (c : Option (VgpCache V W)) :
    (∃ q p' c', Scg.call (realArith n) (cacheOracle sh o n) () p x0 c = (.ok q, p', c'))
      ∨ ∃ p' c', Scg.call (realArith n) (cacheOracle sh o n) () p x0 c = (.error e, p', c') := by
  let o2 : Oracle (Option (VgpCache V W)) Unit ℝ (Fin n → ℝ) :=
    { cacheOracle sh o n with df := fun x _ c => (cacheOracle sh o n).dfEval x c }
  have heq : Scg.call (realArith n) (cacheOracle sh o n) () p x0 c = Scg.call (realArith n) o2 () p x0 c := by
    refine call_congr (o₁ := cacheOracle sh o n) (o₂ := o2) rfl rfl (fun x s v s' hf => ?_) p x0 c
    rcases htot x with ⟨F, cx, he, g, hg, hl⟩ | he
    · simp only [cacheOracle, he] at hf
      injection hf with _ hs
      subst hs
      simp only [o2, cacheOracle, he]
    · simp only [cacheOracle, he] at hf
      injection hf with hf _
      cases hf
  have hgrad : ∀ x s e', ((cacheOracle sh o n).dfEval x s).1 = .error e' → e' = e := by
    intro x s e' h
    rcases htot x with ⟨F, cx, he, g, hg, hl⟩ | he
    · simp only [cacheOracle, he, hg, Except.bind, AnyVgp.asVec, hl, if_true] at h
      cases h
    · simp only [cacheOracle, he] at h
      cases h
      rfl
  rw [heq]
  rcases C66_raises_nothing_else o2 () p hp x0 c with h | ⟨e', p', c', h, hr⟩
  · exact .inl h
  · right
    have : e' = e := by
      rcases hr with ⟨x, s, h⟩ | ⟨x, s, h⟩ | ⟨x, s, h⟩
      · rcases htot x with ⟨F, cx, he, _⟩ | he
        · simp only [o2, cacheOracle, he] at h
          cases h
        · simp only [o2, cacheOracle, he] at h
          cases h
          rfl
      · exact hgrad x s e' h
      · exact hgrad x s e' h
    subst this
    exact ⟨p', c', h⟩

theorem optimize_orN {d : ℕ} {w : VarGP (Fin d → ℝ) (Matrix (Fin d) (Fin d) ℝ)} {n : ℕ} {e : PyErr} (x0 : List ℝ) (hx : x0.length = n)
    (htot : ∀ x : Fin n → ℝ, (∃ F c, w.eval (shapeN d) (List.ofFn x) = .ok (F, c)
      ∧ ∃ g, VarGP.gradBody (shapeN d) { w with cache := some c } (List.ofFn x) = .ok g ∧ g.length = n)
      ∨ w.eval (shapeN d) (List.ofFn x) = .error e) :
    (∃ x fx v', (AnyVgp.many d w).optimize x0 = (.ok (x, fx), v') ∧ x.length = n) ∨ ∃ v', (AnyVgp.many d w).optimize x0 = (.error e, v') := by
  subst hx
  have hmap := call_map (ar := realArith x0.length) (follows_many d w x0.length)
    (Scg.init (realArith x0.length) (some 500) (some 1.0e-6) (some 1.0e-8)) (fun i => x0.getD i 0) w.cache
  rcases cacheRun_or htot (scgInit_arrays (realArith x0.length) (some 500) (some 1.0e-6) (some 1.0e-8))
    (fun i => x0.getD i 0) w.cache with ⟨q, p', c', h⟩ | ⟨p', c', h⟩
  · left
    refine ⟨List.ofFn q.1, q.2, .many d { w with cache := c' }, ?_, by simp⟩
    unfold AnyVgp.optimize
    simp only at hmap ⊢
    rw [hmap, h]
    rfl
  · right
    refine ⟨.many d { w with cache := c' }, ?_⟩
    unfold AnyVgp.optimize
    simp only at hmap ⊢
    rw [hmap, h]
    rfl

/-- The variational object that `run` makes for the process `p` on `N + 1` grid points. -/
def vgpOf40 (p : L96 G 40) (f b : OdeFrontEnd) (m : Fin 40 → ℝ) (s : Matrix (Fin 40) (Fin 40) ℝ) (dt : ℝ) (r : Matrix (Fin 40) (Fin 40) ℝ) (K : PriorN 40)
    (N M : ℕ) (y : Fin M → Fin 40 → ℝ) : VarGP (Fin 40 → ℝ) (Matrix (Fin 40) (Fin 40) ℝ) where
  model := p.sde
  fwd_ode := f
  bwd_ode := b
  likelihood := (⟨List.ofFn y, List.ofFn fun i : Fin M => eqIdx N M i, r, 1⟩ : LikeN 40).toIf
  kl0 := K.gauss
  obs_y := List.ofFn y
  obs_t := List.ofFn fun i : Fin M => eqIdx N M i
  dt := dt
  dim_n := N + 1
  m0 := m
  s0 := s
  cache := none

theorem prior40_ok {mu0 tau0 : Fin 40 → ℝ} (h : ∀ i, 0 < tau0 i) (m : Fin 40 → ℝ) :
    (⟨mu0, Matrix.diagonal tau0⟩ : PriorN 40).gauss m ((0.2 : ℝ) • 1) = .ok (1 / 2 * (Real.log (Matrix.diagonal tau0).det
      - Real.log ((0.2 : ℝ) • (1 : Matrix (Fin 40) (Fin 40) ℝ)).det
      + (∑ i, ∑ j, (Matrix.diagonal tau0)⁻¹ i j * ((0.2 : ℝ) • (1 : Matrix (Fin 40) (Fin 40) ℝ)) i j)
      + ((m - mu0) ⬝ᵥ (m - mu0)) * (∑ i, ∑ j, (Matrix.diagonal tau0)⁻¹ i j) - (40 : ℕ))) := by
  have hs : ((0.2 : ℝ) • (1 : Matrix (Fin 40) (Fin 40) ℝ)).PosDef := Matrix.PosDef.one.smul (by norm_num)
  have hi : ((0.2 : ℝ) • (1 : Matrix (Fin 40) (Fin 40) ℝ))⁻¹ = (5 : ℝ) • 1 := by
    apply Matrix.inv_eq_left_inv
    rw [Matrix.smul_mul, Matrix.one_mul, smul_smul]
    norm_num
  refine priorN_eq ⟨mu0, Matrix.diagonal tau0⟩ m _ hs (Matrix.PosDef.diagonal h) ?_
  show (Matrix.diagonal tau0 * ((0.2 : ℝ) • (1 : Matrix (Fin 40) (Fin 40) ℝ))⁻¹).IsSymm
  rw [hi, Matrix.mul_smul, Matrix.mul_one]
  exact (Matrix.isSymm_diagonal tau0).smul _

theorem vgpOf40_ok (p : L96 G 40) (f b : OdeFrontEnd) (m : Fin 40 → ℝ) (dt : ℝ) {r mu0 tau0 : Fin 40 → ℝ} (hr : ∀ i, 0 < r i) (ht : ∀ i, 0 < tau0 i)
    {N M : ℕ} (hMN : M < N) (y : Fin M → Fin 40 → ℝ) :
    VgpNOk (vgpOf40 p f b m ((0.2 : ℝ) • 1) dt (Matrix.diagonal r) ⟨mu0, Matrix.diagonal tau0⟩ N M y) (N + 1) M y (obsIdx N M hMN)
      (Matrix.diagonal r) :=
  ⟨Nat.succ_pos N, rfl, rfl, Matrix.PosDef.diagonal hr, (obsIdx_mono hMN).injective, ⟨_, prior40_ok ht m⟩, rfl⟩

/-- The variational object of the configuration. -/
def vgpConfig40 (R : Rng G) (c : Spec.Config40) (b : Proc G (Fin 40 → ℝ)) (meth : Method) (x : ℕ → Fin 40 → ℝ) (g : G) (N M : ℕ) :
    VarGP (Fin 40 → ℝ) (Matrix (Fin 40) (Fin 40) ℝ) :=
  vgpOf40 ⟨b, c.sys, c.theta, c.sys⁻¹⟩ ⟨c.dt, c.method, meth⟩ ⟨c.dt, pyLower c.method, meth⟩
    (fun l => x 0 l + 0.1 * Spec.draw R g (40 * (N + 1) + 40 * M + l)) ((0.2 : ℝ) • 1) c.dt (Matrix.diagonal c.obs)
    ⟨c.mu0, Matrix.diagonal c.tau0⟩ N M
    (fun i l => x (eqIdx N M i) l + Real.sqrt (c.obs l) * Spec.draw R g (40 * (N + 1) + (l * M + i)))

/-- What `run` builds and starts the optimizer with after such a `setup`. -/
theorem run_builds40 (E : Env G) {c : Spec.Config40} {N : ℕ} (hv : c.Valid N) {M : ℕ} (hM : Spec.numObs N c.dt c.density = M)
    {x : ℕ → Fin 40 → ℝ} {g : G} {m : MData (AnyProc G) Arr} (h : SetUp40 E.R c N M x g m) :
    ∃ b meth x0, b.timeStep = .ok c.dt ∧ pyLower c.method = pyLower (docName meth)
      ∧ b.single_dimension = false ∧ b.tk = some (Spec.grid c.t0 c.dt N) ∧ b.xt = some (List.ofFn fun i : Fin (N + 1) => x i)
      ∧ Spec.Builds (pyClasses E) m (proc40 c b) (.many 40 (vgpConfig40 E.R c b meth x g N M)) x0
      ∧ x0.length = (N + 1) * 40 * (40 + 1)
      ∧ (∃ b0 : Fin (N + 1) → Fin 40 → ℝ, x0 = ravel3 (List.ofFn fun _ : Fin (N + 1) => Matrix.diagonal fun i => 2 * c.sys i i) ++ ravel2 (List.ofFn b0))
      ∧ ((∃ z fx v', (AnyVgp.many 40 (vgpConfig40 E.R c b meth x g N M)).optimize x0 = (.ok (z, fx), v')
          ∧ z.length = (N + 1) * 40 * (40 + 1))
        ∨ ∃ v', (AnyVgp.many 40 (vgpConfig40 E.R c b meth x g N M)).optimize x0 = (.error .linAlgError, v')) := by
  have hpos : 0 < M := by have := hv.some_obs; omega
  have hlt : M < N := by have := hv.not_all; omega
  obtain ⟨jt, ht1, ht2⟩ := h.tw
  have hy := h.obs
  obtain ⟨jo, ho1, ho2⟩ := h.op
  obtain ⟨b, hp, hb1, htk, hxt, -⟩ := h.model
  have hm0 := h.m0
  obtain ⟨meth, hmeth⟩ := hv.method
  have hf := ((C15_fwd_construction c.dt c.method).1 _).2 ⟨hv.dt, meth, hmeth, rfl⟩
  have hb := ((C15_bwd_construction c.dt c.method).1 _).2 ⟨hv.dt, meth, hmeth, rfl⟩
  have hstep := timeStep_grid b c.t0 c.dt N (by omega) hv.dt htk
  have hwdef : vgpConfig40 E.R c b meth x g N M = vgpConfig40 E.R c b meth x g N M := rfl
  conv_rhs at hwdef => unfold vgpConfig40
  generalize hw : vgpConfig40 E.R c b meth x g N M = w at hwdef
  generalize hY : (fun (i : Fin M) (l : Fin 40) => x (eqIdx N M i) l + Real.sqrt (c.obs l) * Spec.draw E.R g (40 * (N + 1) + (l * M + i))) = y
    at hy hwdef
  generalize (fun l : Fin 40 => x 0 l + 0.1 * Spec.draw E.R g (40 * (N + 1) + 40 * M + l)) = m0 at hm0 hwdef
  have hok := vgpOf40_ok (⟨b, c.sys, c.theta, c.sys⁻¹⟩ : L96 G 40) ⟨c.dt, c.method, meth⟩ ⟨c.dt, pyLower c.method, meth⟩ m0 c.dt (mu0 := c.mu0)
    hv.obs hv.tau0 hlt y
  rw [← hwdef] at hok
  have hwin : (L96.sde (⟨b, c.sys, c.theta, c.sys⁻¹⟩ : L96 G 40)).time_window = .ok (Spec.grid c.t0 c.dt N) := by
    simp only [L96.sde, Proc.timeWindow, htk]
  obtain ⟨x0, ⟨hx0, hxb⟩, hi⟩ : ∃ x0 : List ℝ, (x0.length = (N + 1) * 40 * (40 + 1) ∧ ∃ b0 : Fin (N + 1) → Fin 40 → ℝ,
      x0 = ravel3 (List.ofFn fun _ : Fin (N + 1) => Matrix.diagonal fun i => 2 * c.sys i i) ++ ravel2 (List.ofFn b0))
      ∧ w.initializationN (E.fitN 40) = .ok x0 := by
    obtain ⟨q, rfl⟩ : ∃ q, M = q + 1 := ⟨M - 1, by omega⟩
    have hd : Spec.HasData w (fun i : Fin (N + 1) => c.t0 + ((i : ℕ) : ℝ) * c.dt) (obsIdx N (q + 1) hlt) y := by
      subst hwdef
      exact ⟨by show (L96.sde _).time_window = _; rw [hwin]; rfl, rfl, grid_mono hv.dt N, rfl, rfl, obsIdx_mono hlt⟩
    obtain ⟨bb, h0, -⟩ := (initN_eq hd (E.fitN 40)).1 fun j =>
      ⟨Fin.lt_def.2 (eqIdx_inner hlt j).1, Fin.lt_def.2 (eqIdx_inner hlt j).2⟩
    have hsig : w.model.sigma = c.sys := by rw [hwdef]; rfl
    rw [hsig] at h0
    exact ⟨_, ⟨(C58_pack_unpack_nd (by norm_num) _ bb).1, bb, rfl⟩, h0⟩
  have hgrid : Spec.HasGrid b (N + 1) c.dt := ⟨_, htk, by simp [Spec.grid], hstep⟩
  have hopt := optimize_orN (w := w) x0 hx0
    (vgp96_total (⟨b, c.sys, c.theta, c.sys⁻¹⟩ : L96 G 40) w y _ _ hok (by rw [hwdef]; rfl) c.dt hgrid)
  obtain ⟨y0, hy0⟩ : ∃ v, idx (List.ofFn y) 0 = .ok v := ⟨_, idx_ofFn y ⟨0, hpos⟩⟩
  have hlik : mkLike (.path 40 (List.ofFn y)) (.times (List.ofFn fun i : Fin M => eqIdx N M i)) (.nd (.mat 40 40 (Matrix.diagonal c.obs))) .null
      false = .ok (.many 40 ⟨List.ofFn y, List.ofFn fun i : Fin M => eqIdx N M i, Matrix.diagonal c.obs, 1⟩) := by
    have hsq : squareOf 40 (.mat 40 40 (Matrix.diagonal c.obs)) = .ok (Matrix.diagonal c.obs) := rfl
    simp only [mkLike, hsq, operatorN, LikeN.init, hy0, py_ok_bind]
    rfl
  have hpri : mkPrior (.arr (.nd (.vec 40 c.mu0))) (.arr (.nd (.mat 40 40 (Matrix.diagonal c.tau0)))) false
      = .ok (.many 40 ⟨c.mu0, Matrix.diagonal c.tau0⟩) := rfl
  have hcr : AnyVgp.create (proc40 c b) (.nd (.vec 40 m0)) (.nd (.mat 40 40 ((0.2 : ℝ) • 1))) ⟨c.dt, c.method, meth⟩ ⟨c.dt, pyLower c.method, meth⟩
      (.many 40 ⟨List.ofFn y, List.ofFn fun i : Fin M => eqIdx N M i, Matrix.diagonal c.obs, 1⟩) (.many 40 ⟨c.mu0, Matrix.diagonal c.tau0⟩)
      (.path 40 (List.ofFn y)) (.times (List.ofFn fun i : Fin M => eqIdx N M i)) = .ok (.many 40 w) := by
    have hs1 : (L96.sde (⟨b, c.sys, c.theta, c.sys⁻¹⟩ : L96 G 40)).time_step = .ok c.dt := hstep
    have hs2 : (L96.sde (⟨b, c.sys, c.theta, c.sys⁻¹⟩ : L96 G 40)).sample_path = .ok (List.ofFn fun i : Fin (N + 1) => x i) := by
      simp only [L96.sde, Proc.samplePath, hxt]
    simp only [AnyVgp.create, proc40, AnyVgp.mkN, AnyVgp.likeIf, VarGP.init, hs1, hs2, py_ok_bind, and_self, dite_true, List.length_ofFn]
    rw [hwdef]
    rw [List.map_ofFn]
    rfl
  subst hw
  exact ⟨b, meth, x0, hstep, hmeth, hb1, htk, hxt,
    ⟨jt, .num c.dt, .str c.method, false, ⟨c.dt, c.method, meth⟩, ⟨c.dt, pyLower c.method, meth⟩, _, _, _, jo, .null,
      .many 40 ⟨List.ofFn y, List.ofFn fun i : Fin M => eqIdx N M i, Matrix.diagonal c.obs, 1⟩, _, _, .many 40 ⟨c.mu0, Matrix.diagonal c.tau0⟩,
      _, _, ht1, ht2, h.ode, h.one,
      hf, hb, hy, h.times, h.noise, ho1, ho2, hlik, h.mu0, h.tau0, hpri, hp, hm0, h.s0, hcr, hi⟩, hx0, hxb, hopt⟩

theorem runBody_error {M A F B L K Vg X : Type} {C : Classes M A F B L K Vg X} {m : MData M A} {p : M} {v v' : Vg} {x0 : X} {e : PyErr}
    (h : Spec.Builds C m p v x0) (ho : C.optimize v x0 = (.error e, v')) : Sim.runBody C m = .error e := by
  obtain ⟨tw, dt, ode, one, f, b, y, t, r, os, op, lik, mu0, tau0, k, m0, s0, h1, h2, h3, h4, h5, h8, h9, h10, h11, h12,
        h13, h15, h16, h17, h19, h20, h21, h22, h23, h24⟩ := h
  unfold Sim.runBody
  simp only [need, h1, h2, h3, h4, h5, h8, h9, h10, h11, h12, h13, h15, h16, h17, h19, h20, h21, h22, h23, h24, ho, py_ok_bind]

theorem run_or40 (E : Env G) {c : Spec.Config40} {N : ℕ} (hv : c.Valid N) {M : ℕ} (hM : Spec.numObs N c.dt c.density = M)
    {x : ℕ → Fin 40 → ℝ} {g : G} {s : Sim (AnyProc G) Arr} (h : SetUp40 E.R c N M x g s.m_data) :
    (s.run (pyClasses E)).1 = .ok () ∨ s.run (pyClasses E) = (.error .linAlgError, s) := by
  obtain ⟨b, meth, x0, -, -, hb, htk, hxt, hbld, -, -, ho⟩ := run_builds40 E hv hM h
  rcases ho with ⟨z, fx, v', ho, hz⟩ | ⟨v', ho⟩
  · left
    have hrun := runBody_builds.2 ⟨_, x0, hbld, ho⟩
    have hlen : (proc40 c b).pathLength = .ok (N + 1) := by
      simp [AnyProc.pathLength, proc40, Proc.samplePath, hxt, Except.map]
    have hone : (proc40 c b).singleDim = false := hb
    have hdim : (proc40 c b).dim = 40 := rfl
    have h1 : (z.take ((N + 1) * 40 * 40)).length = (N + 1) * 40 * 40 := by simp [hz]
    have h2 : (z.drop ((N + 1) * 40 * 40)).length = (N + 1) * 40 := by simp [hz]; omega
    unfold Sim.run
    rw [hrun]
    simp only [pyClasses, AnyProc.unpackA, AnyProc.unpackB, hlen, hone, hdim, py_ok_bind, Bool.false_eq_true, if_false, h1, h2, if_true, pure,
      Except.pure]
  · right
    unfold Sim.run
    rw [runBody_error hbld ho]

/-! ## C102 -/

/-- C102: for every valid Lorenz-96 configuration, whatever the simulation did before, `setup(params)` succeeds and simulates the configured process: the stored
object has the noise, the forcing and the window of the file, and its path is the Euler-Maruyama path, with increments made by the upper
triangular factor of `dt sys`. The observations are the path at equidistant times; every component has its own normal error with the configured variance. The
mean of the first time point is the first value of the path with errors of standard deviation 0.1, its covariance is 0.2 times the identity. All
these normal numbers are different members of the sequence that the generator with the configured seed yields. -/
theorem C102_setup_lorenz96 (E : Env G) (c : Spec.Config40) (params : Json) (hin : c.In params) (N : ℕ) (hv : c.Valid N)
    (s : Sim (AnyProc G) Arr) :
    ∃ (M : ℕ) (x : ℕ → Fin 40 → ℝ) (U : Matrix (Fin 40) (Fin 40) ℝ) (z : ℕ → ℝ) (b : Proc G (Fin 40 → ℝ)) (m : MData (AnyProc G) Arr),
      s.setup (pyClasses E) params none = (.ok (), { s with m_data := m })
      ∧ Spec.numObs N c.dt c.density = M
      ∧ z = Spec.draw E.R (Spec.startState E.R E.entropy c.seed)
      ∧ Uᵀ * U = c.dt • c.sys ∧ (∀ i j, j < i → U i j = 0)
      ∧ Spec.PathFrom40 E.R c N (Spec.startState E.R E.entropy c.seed) x U
      ∧ m.model = some (.l96 ⟨b, c.sys, c.theta, c.sys⁻¹⟩)
      ∧ b.timeWindow = .ok (Spec.grid c.t0 c.dt N)
      ∧ b.samplePath = .ok (List.ofFn fun i : Fin (N + 1) => x i)
      ∧ m.obs_t = some (.times (List.ofFn fun i : Fin M => (i + 1) * (N + 1) / (M + 1)))
      ∧ m.obs_y = some (.path 40 (List.ofFn fun (i : Fin M) (l : Fin 40) =>
          x ((i + 1) * (N + 1) / (M + 1)) l + Real.sqrt (c.obs l) * z (40 * (N + 1) + (l * M + i))))
      ∧ m.obs_noise = some (.nd (.mat 40 40 (Matrix.diagonal c.obs)))
      ∧ m.m0 = some (.nd (.vec 40 fun l => x 0 l + 1 / 10 * z (40 * (N + 1) + 40 * M + l)))
      ∧ m.s0 = some (.nd (.mat 40 40 (Matrix.diagonal fun _ => 1 / 5)))
      ∧ m.mu0 = some (.arr (.nd (.vec 40 c.mu0))) ∧ m.tau0 = some (.arr (.nd (.mat 40 40 (Matrix.diagonal c.tau0)))) := by
  obtain ⟨M, hM⟩ := Int.eq_ofNat_of_zero_le (a := Spec.numObs N c.dt c.density) (by have := hv.some_obs; omega)
  obtain ⟨m', x, h1, h2, h3⟩ := setup_total40 E hin hv M hM s.m_data
  obtain ⟨b, hp, hb, htk, hxt, -⟩ := h2.model
  obtain ⟨hU1, hU2⟩ := noiseFactor_posDef c.sys c.dt hv.sys hv.dt
  have e2 : (0.1 : ℝ) = 1 / 10 := by norm_num
  have e3 : ((0.2 : ℝ) • 1 : Matrix (Fin 40) (Fin 40) ℝ) = Matrix.diagonal fun _ => 1 / 5 := by
    rw [Matrix.smul_one_eq_diagonal]
    norm_num
  refine ⟨M, x, _, _, b, m', ?_, hM, rfl, hU1, hU2, h3, hp, ?_, ?_, h2.times, h2.obs, h2.noise, ?_, ?_, h2.mu0, h2.tau0⟩
  · unfold Sim.setup
    rw [h1]
  · simp only [Proc.timeWindow, htk]
  · simp only [Proc.samplePath, hxt]
  · rw [h2.m0, e2]
  · rw [h2.s0, e3]

/-! ## C103 -/

/-- C103, what holds: for every valid Lorenz-96 configuration, whatever the generator yields, whatever the interpolation returns and whatever happened
to the simulation before, the `run()` that follows `setup(params)` leaves the eleven documented names in the output, with arrays over `N + 1`
time points, or it raises `LinAlgError` and changes nothing. Missing: that it always completes, see `C103_completes_violated`. -/
theorem C103_run_partial (E : Env G) (canOpen : String → Py Unit) (name : Option String) (files : Files)
    (h : List (Spec.Op Arr × Py Unit)) (s : Sim (AnyProc G) Arr × Files) (hist : Spec.PyHistory E canOpen name files h s)
    (c : Spec.Config40) (params : Json) (hin : c.In params) (N : ℕ) (hv : c.Valid N) :
    (((s.1.setup (pyClasses E) params none).2.run (pyClasses E)).1 = .ok ()
      ∧ ∀ e ∈ [("at", some [N + 1, 40, 40]), ("bt", some [N + 1, 40]), ("fx", none), ("m0", some [40]), ("s0", some [40, 40]),
          ("mt", some [N + 1, 40]), ("st", some [N + 1, 40, 40]), ("Efx", some [N + 1, 40]), ("Edf", some [N + 1, 40, 40]),
          ("lamt", some [N + 1, 40]), ("psit", some [N + 1, 40, 40])],
        ∃ z, (((s.1.setup (pyClasses E) params none).2.run (pyClasses E)).2.output).lookup e.1 = some z ∧ Spec.HasShape e.2 z)
    ∨ (s.1.setup (pyClasses E) params none).2.run (pyClasses E) = (.error .linAlgError, (s.1.setup (pyClasses E) params none).2) := by
  obtain ⟨M, hM⟩ := Int.eq_ofNat_of_zero_le (a := Spec.numObs N c.dt c.density) (by have := hv.some_obs; omega)
  obtain ⟨m', x, h1, h2, -⟩ := setup_total40 E hin hv M hM s.1.m_data
  have hm : (s.1.setup (pyClasses E) params none).2.m_data = m' := by unfold Sim.setup; rw [h1]
  rcases run_or40 E hv hM (s := (s.1.setup (pyClasses E) params none).2) (by rw [hm]; exact h2) with hr | hr
  swap
  · exact .inr hr
  refine .inl ⟨hr, ?_⟩
  obtain ⟨p, n, hp, hn, _, hsh, _⟩ := C86_output_shapes E canOpen name files _ _ (hist.call (.setup params none) E.entropy) hr
  obtain ⟨b, hp', hr'⟩ := h2.model
  have : p = proc40 c b := by
    have hp2 : m'.model = some p := by rw [← hm]; exact hp
    rw [hp'] at hp2; cases hp2; rfl
  subst this
  have hn' : n = N + 1 := by
    simp only [AnyProc.pathLength, proc40, Proc.samplePath, hr'.2.2.1, Except.map, List.length_ofFn] at hn
    cases hn; rfl
  have hd : (proc40 c b).dim = 40 := rfl
  rw [hn', hd] at hsh
  intro e he
  exact hsh e (by simpa [Spec.outputShapes] using he)

/-! ### A configuration that never completes -/

theorem mapM_error_of {α β : Type} {f : α → Py β} {l : List α} {a : α} (ha : a ∈ l) {e : PyErr} (he : f a = .error e) (h : OnlyLin (l.mapM f)) :
    l.mapM f = .error .linAlgError := by
  rcases hr : l.mapM f with e' | r
  · rw [h e' hr]
  · exfalso
    clear h
    induction l generalizing r with
    | nil => simp at ha
    | cons x l ih =>
      rw [List.mapM_cons, py_bind_ok] at hr
      obtain ⟨y, hy, hr⟩ := hr
      rw [py_bind_ok] at hr
      obtain ⟨ys, hys, -⟩ := hr
      rcases List.mem_cons.1 ha with rfl | ha
      · rw [he] at hy; cases hy
      · exact ih ha ys hys

theorem utSqrt_neg {d : ℕ} (S : Matrix (Fin (d + 1)) (Fin (d + 1)) ℝ) (h : S 0 0 ≤ 0) : utSqrt S = .error .linAlgError := by
  have key : ∀ T : Matrix (Fin (d + 1)) (Fin (d + 1)) ℝ, T 0 0 ≤ 0 → npCholesky T = .error .linAlgError := by
    intro T hT
    simp only [npCholesky, chol, hT, if_true]
  unfold utSqrt
  have h0 : (0 : ℝ) ≤ ((d + 1 : ℕ) : ℝ) + utK (d + 1) := by unfold utK; positivity
  rw [key _ (by rw [Matrix.smul_apply, smul_eq_mul]; exact mul_nonpos_of_nonneg_of_nonpos h0 h)]
  simp only
  rw [key _ (by simpa using h)]
  rfl

/-- A point where the covariance has no positive first entry: the evaluation raises. -/
theorem vgp96_eval_raises (p : L96 G 40) (o : VarGP (Fin 40 → ℝ) (Matrix (Fin 40) (Fin 40) ℝ)) (y : Fin k → Fin 40 → ℝ)
    (t : Fin k → Fin n) (R : Matrix (Fin 40) (Fin 40) ℝ) (ho : VgpNOk o n k y t R) (hmodel : o.model = p.sde)
    (dt : ℝ) (hg : Spec.HasGrid p.base n dt) (a : Fin n → Matrix (Fin 40) (Fin 40) ℝ) (b m : Fin n → Fin 40 → ℝ)
    (s : Fin n → Matrix (Fin 40) (Fin 40) ℝ)
    (hfwd : solveFwd o.fwd_ode.solver (rhsN 40) o.fwd_ode.dt (List.ofFn a) (List.ofFn b) o.m0 o.s0 o.model.sigma
      = .ok (List.ofFn m, List.ofFn s)) (i : Fin n) (hi : s i 0 0 ≤ 0) :
    o.eval (shapeN 40) (ravel3 (List.ofFn a) ++ ravel2 (List.ofFn b)) = .error .linAlgError := by
  refine vgpN_eval_error (by norm_num) ho a b m s hfwd _ ?_
  rw [hmodel]
  obtain ⟨tw, h1, h2, h3⟩ := hg
  have htw : p.base.timeWindow = .ok tw := by simp [Proc.timeWindow, h1]
  have hrows : OnlyLin ((List.range n).mapM (L96.energyRow p.theta p.sig_inv.diag (List.ofFn a) (List.ofFn b) (List.ofFn m) (List.ofFn s))) :=
    OnlyLin.mapM fun t ht => onlyLin_row _ _ a b m s ⟨t, List.mem_range.1 ht⟩
  have hrow : L96.energyRow p.theta p.sig_inv.diag (List.ofFn a) (List.ofFn b) (List.ofFn m) (List.ofFn s) i = .error .linAlgError := by
    unfold L96.energyRow utApprox
    simp only [idx_ofFn, py_ok_bind, utSqrt_neg (d := 39) (s i) hi]
    rfl
  simp only [L96.sde, L96.energy, htw, h3, h2, py_ok_bind]
  rw [mapM_error_of (List.mem_range.2 i.2) hrow hrows]
  rfl

/-- A configuration with the integrator "Euler" and a large noise. -/
def Spec.largeNoise40 : Spec.Config40 where
  name := "L96"
  theta := 8
  sys := Matrix.diagonal fun _ => 87.5
  obs := fun _ => 1
  t0 := 0
  tf := 4
  dt := 0.01
  method := "Euler"
  seed := .num 31415926535
  density := 8
  mu0 := fun _ => 1
  tau0 := fun _ => 0.5

/-- `/repo/sim_params_L40D.json` with another integrator, and with the noise `v` as a list. -/
def Spec.params40 (method : String) (v : ℝ) : Json :=
  .obj [("Info", .str "Input parameters file for the VGPA simulation"), ("Author", .str "Michail Vrettas, PhD"),
    ("Contact", .str "michail.vrettas@gmail.com"), ("Date", .str "2022-05-09"), ("Output_Name", .str "Sim_L40D"), ("Model", .str "L96"),
    ("Ode-method", .str method), ("Random-Seed", .num 31415926535),
    ("Time-window", .obj [("t0", .num 0), ("tf", .num 4), ("dt", .num 0.01)]),
    ("Noise", .obj [("sys", Spec.listOf fun _ : Fin 40 => v), ("obs", .num 1)]),
    ("Observations", .obj [("density", .num 8), ("operator", .null)]),
    ("Drift", .obj [("theta", .num 8)]),
    ("Prior", .obj [("tau0", .num 0.5), ("mu0", .num 1)])]

theorem largeNoise_in : Spec.largeNoise40.In (Spec.params40 "Euler" 87.5) :=
  ⟨rfl, ⟨_, rfl, rfl⟩, ⟨_, _, _, rfl, rfl, rfl, .variances fun _ => 87.5, .number _⟩, ⟨_, rfl, rfl, rfl, rfl⟩, rfl, rfl, ⟨_, rfl, rfl, rfl⟩, _, _, _,
    rfl, rfl, rfl, .number _, .number _⟩

theorem largeNoise_valid : Spec.largeNoise40.Valid 400 where
  name := (pyUpper_eq_iff (by decide)).1 (by show pyUpper "L96" = "L96"; decide)
  sys := Matrix.PosDef.diagonal fun i => by norm_num
  obs := fun _ => by norm_num [Spec.largeNoise40]
  tau0 := fun _ => by norm_num [Spec.largeNoise40]
  dt := by norm_num [Spec.largeNoise40]
  tf := by norm_num [Spec.largeNoise40]
  method := ⟨.euler, by show pyLower "Euler" = _; decide⟩
  seed := .inr ⟨31415926535, by norm_num [Spec.largeNoise40]⟩
  density := by norm_num [Spec.largeNoise40]
  some_obs := by norm_num [Spec.largeNoise40, Spec.numObs]
  not_all := by norm_num [Spec.largeNoise40, Spec.numObs]

/-- The values in `/repo/sim_params_L40D.json`, with the system noise as a list of forty variances. -/
def Spec.exampleConfig40 : Spec.Config40 where
  name := "L96"
  theta := 8
  sys := Matrix.diagonal fun _ => 4
  obs := fun _ => 1
  t0 := 0
  tf := 4
  dt := 0.01
  method := "RK2"
  seed := .num 31415926535
  density := 8
  mu0 := fun _ => 1
  tau0 := fun _ => 0.5

theorem example_in40 : Spec.exampleConfig40.In (Spec.params40 "RK2" 4) :=
  ⟨rfl, ⟨_, rfl, rfl⟩, ⟨_, _, _, rfl, rfl, rfl, .variances fun _ => 4, .number _⟩, ⟨_, rfl, rfl, rfl, rfl⟩, rfl, rfl, ⟨_, rfl, rfl, rfl⟩, _, _, _,
    rfl, rfl, rfl, .number _, .number _⟩

theorem example_valid40 : Spec.exampleConfig40.Valid 400 where
  name := (pyUpper_eq_iff (by decide)).1 (by show pyUpper "L96" = "L96"; decide)
  sys := Matrix.PosDef.diagonal fun i => by norm_num
  obs := fun _ => by norm_num [Spec.exampleConfig40]
  tau0 := fun _ => by norm_num [Spec.exampleConfig40]
  dt := by norm_num [Spec.exampleConfig40]
  tf := by norm_num [Spec.exampleConfig40]
  method := ⟨.rk2, by show pyLower "RK2" = _; decide⟩
  seed := .inr ⟨31415926535, by norm_num [Spec.exampleConfig40]⟩
  density := by norm_num [Spec.exampleConfig40]
  some_obs := by norm_num [Spec.exampleConfig40, Spec.numObs]
  not_all := by norm_num [Spec.exampleConfig40, Spec.numObs]

/-- Non-vacuity of C102 and C103: the shipped values, and a full covariance matrix. -/
example (E : Env G) (s : Sim (AnyProc G) Arr) := C102_setup_lorenz96 E _ _ example_in40 400 example_valid40 s

example (E : Env G) (canOpen : String → Py Unit) (files : Files) :=
  C103_run_partial E canOpen none files _ _ Spec.PyHistory.new _ _ example_in40 400 example_valid40

example : Spec.CovarianceEntry40 (Spec.rowsOf (1 : Matrix (Fin 40) (Fin 40) ℝ)) 1 := .rows 1

theorem linInterp_const {X : Type} [AddCommGroup X] [Module ℝ X] (dt : ℝ) (n : ℕ) (v : X) : Spec.LinInterp dt (List.ofFn fun _ : Fin n => v) fun _ => v := by
  refine ⟨fun k h => by simp, fun k h θ h0 h1 => ?_⟩
  simp only [List.getElem_ofFn]
  rw [← add_smul]
  simp

theorem grid_length (t0 dt : ℝ) (N : ℕ) : (Spec.grid t0 dt N).length = N + 1 := by
  simp [Spec.grid]

theorem fwd_start {d N : ℕ} {meth : Method} {dt : ℝ} {a : List (Matrix (Fin d) (Fin d) ℝ)} {b : Fin (N + 1) → Fin d → ℝ} {m0 : Fin d → ℝ}
    {s0 sigma : Matrix (Fin d) (Fin d) ℝ} {m : Fin (N + 1) → Fin d → ℝ} {S : Fin (N + 1) → Matrix (Fin d) (Fin d) ℝ}
    (h : solveFwd meth (rhsN d) dt a (List.ofFn b) m0 s0 sigma = .ok (List.ofFn m, List.ofFn S)) : S 0 = s0 := by
  obtain ⟨-, -, -, hs⟩ := solveFwd_inv h
  have := congrArg (fun l => l[0]?) hs
  simpa [traj] using this

/-- C103, the negation: there is a valid Lorenz-96 configuration for which `setup` succeeds and `run()` always raises `LinAlgError`: already with
the initial parameters that the code itself chooses, the covariance on the third grid point is negative. -/
theorem C103_completes_violated : ∃ (c : Spec.Config40) (params : Json) (N : ℕ), c.In params ∧ c.Valid N ∧
    ∀ (G : Type) (E : Env G) (s : Sim (AnyProc G) Arr), (s.setup (pyClasses E) params none).1 = .ok ()
      ∧ (s.setup (pyClasses E) params none).2.run (pyClasses E) = (.error .linAlgError, (s.setup (pyClasses E) params none).2) := by
  refine ⟨_, _, 400, largeNoise_in, largeNoise_valid, fun G E s => ?_⟩
  have hv := largeNoise_valid
  obtain ⟨M, hM⟩ := Int.eq_ofNat_of_zero_le (a := Spec.numObs 400 Spec.largeNoise40.dt Spec.largeNoise40.density) (by have := hv.some_obs; omega)
  obtain ⟨m', x, h1, h2, -⟩ := setup_total40 E largeNoise_in hv M hM s.m_data
  have hm : (s.setup (pyClasses E) (Spec.params40 "Euler" 87.5) none).2.m_data = m' := by unfold Sim.setup; rw [h1]
  refine ⟨by unfold Sim.setup; rw [h1], ?_⟩
  rw [← hm] at h2
  obtain ⟨b, meth, x0, hstep, hmeth, hb, htk, hxt, hbld, hx0, ⟨b0, hx0b⟩, ho⟩ := run_builds40 E hv hM h2
  have hmeth' : meth = .euler := by
    revert hmeth
    cases meth <;> first | (intro; rfl) | (show pyLower "Euler" = _ → _; decide)
  subst hmeth'
  have hlt : M < 400 := by have := hv.not_all; omega
  have hrun : ∀ v', (AnyVgp.many 40 (vgpConfig40 E.R Spec.largeNoise40 b .euler x (Spec.startState E.R E.entropy Spec.largeNoise40.seed) 400 M)).optimize x0
      = (.error .linAlgError, v') → (s.setup (pyClasses E) (Spec.params40 "Euler" 87.5) none).2.run (pyClasses E)
        = (.error .linAlgError, (s.setup (pyClasses E) (Spec.params40 "Euler" 87.5) none).2) := by
    intro v' hv'
    unfold Sim.run
    rw [runBody_error hbld hv']
  rcases ho with ⟨z, fx, v', ho, -⟩ | ⟨v', ho⟩
  swap
  · exact hrun v' ho
  exfalso
  obtain ⟨-, -, ⟨F0, hF0, -⟩, -⟩ := optimize_ok ho
  have hok : VgpNOk (vgpConfig40 E.R Spec.largeNoise40 b .euler x (Spec.startState E.R E.entropy Spec.largeNoise40.seed) 400 M) _ _ _ _ _ :=
    vgpOf40_ok _ _ _ _ _ hv.obs hv.tau0 hlt _
  have hgrid : Spec.HasGrid b (400 + 1) Spec.largeNoise40.dt := ⟨_, htk, grid_length _ _ _, hstep⟩
  have hev : (vgpConfig40 E.R Spec.largeNoise40 b .euler x (Spec.startState E.R E.entropy Spec.largeNoise40.seed) 400 M).eval (shapeN 40) x0
      = .error .linAlgError := by
    rw [hx0b]
    obtain ⟨mt, st, hf, hml, hsl, _⟩ := (C16_forward_shapes .euler (rhsN 40) Spec.largeNoise40.dt
      (List.ofFn fun _ : Fin (400 + 1) => (Matrix.diagonal fun i => 2 * Spec.largeNoise40.sys i i : Matrix (Fin 40) (Fin 40) ℝ)) (List.ofFn b0)
      (fun l => x 0 l + 0.1 * Spec.draw E.R (Spec.startState E.R E.entropy Spec.largeNoise40.seed) (40 * (400 + 1) + 40 * M + l)) ((0.2 : ℝ) • 1)
      Spec.largeNoise40.sys).1 ⟨by rw [List.length_ofFn]; norm_num, Or.inl (by rw [List.length_ofFn, List.length_ofFn])⟩
    obtain ⟨m, rfl⟩ := list_eq_ofFn (hml.trans (List.length_ofFn))
    obtain ⟨S, rfl⟩ := list_eq_ofFn (hsl.trans (List.length_ofFn))
    refine vgp96_eval_raises (⟨b, Spec.largeNoise40.sys, Spec.largeNoise40.theta, Spec.largeNoise40.sys⁻¹⟩ : L96 G 40) _ _ _ _ hok rfl _ hgrid _ b0 m S hf 2 ?_
    obtain ⟨bt, hbt⟩ := Spec.exists_linInterp Spec.largeNoise40.dt hv.dt.ne' (List.ofFn b0)
    have hst := (C17_forward_steps_nD_partial 40 .euler _ _ _ _ _ _ _ _ hf _ bt (linInterp_const _ _ _) hbt).2 (by decide)
    have hS0 : S 0 = (0.2 : ℝ) • 1 := fwd_start hf
    have e : ∀ k (hk : k + 1 < 401), S ⟨k + 1, hk⟩ 0 0 = S ⟨k, by omega⟩ 0 0 + 0.01 * (-(175 * S ⟨k, by omega⟩ 0 0) - S ⟨k, by omega⟩ 0 0 * 175 + 87.5) := by
      intro k hk
      have h := congrFun (congrFun (hst k (by rw [List.length_ofFn]; exact hk)) 0) 0
      simp only [List.getElem_ofFn, scheme, Spec.step, Spec.eulerStep, Matrix.add_apply, Matrix.smul_apply, Matrix.sub_apply, Matrix.neg_apply,
        Matrix.diagonal_transpose, Matrix.diagonal_mul, Matrix.mul_diagonal, Spec.largeNoise40, Matrix.diagonal_apply_eq, smul_eq_mul] at h
      rw [h]
      norm_num
    have e1 := e 0 (by norm_num)
    have e2 := e 1 (by norm_num)
    have e0 : S ⟨0, by norm_num⟩ 0 0 = 0.2 := by
      show S 0 0 0 = _
      rw [hS0]
      simp
    show S ⟨1 + 1, by norm_num⟩ 0 0 ≤ 0
    rw [e2]
    show S ⟨1, _⟩ 0 0 + _ ≤ 0
    have e1' : S ⟨1, by norm_num⟩ 0 0 = 0.375 := by
      refine Eq.trans e1 ?_
      rw [e0]
      norm_num
    rw [e1']
    norm_num
  simp only [AnyVgp.freeEnergy, VarGP.freeEnergy, hev] at hF0
  cases hF0

end

end VGPA
