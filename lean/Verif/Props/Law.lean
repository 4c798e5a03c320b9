import Verif.Lemmas.Law
import Verif.Props.Meaning1
import Verif.Props.RunTotal96

/-!
# C121: the distribution of the data that `setup` makes

The generator is in a random state, which the operating system provides (there is no seed). If the numbers that it yields from there are independent and standard normal (and
uniform, for the choice of the well), the stored path, observations and initial mean have the distribution of the configured model.
-/

namespace VGPA

noncomputable section

open ProbabilityTheory MeasureTheory Matrix WithLp

variable {G : Type} {Ω : Type*} [MeasurableSpace Ω]

namespace Spec

/-- From the random state `g` on, the generator yields independent standard normal numbers. -/
structure NormalNumbers (R : Rng G) (g : Ω → G) (P : Measure Ω) : Prop where
  indep : iIndepFun (fun n ω => draw R (g ω) n) P
  normal : ∀ n, HasLaw (fun ω => draw R (g ω) n) (gaussianReal 0 1) P

/-- The uniform number that the generator yields in state `g`, and the normal numbers that it yields afterwards. -/
def uniformThenNormal (R : Rng G) (g : G) : Option ℕ → ℝ
  | none => (R.random g).1
  | some n => draw R (R.random g).2 n

/-- From the random state `g` on, the generator yields a number that is uniform on `[0, 1)`, and then standard normal numbers, all independent. -/
structure UniformThenNormal (R : Rng G) (g : Ω → G) (P : Measure Ω) : Prop where
  indep : iIndepFun (fun k ω => uniformThenNormal R (g ω) k) P
  uniform : HasLaw (fun ω => uniformThenNormal R (g ω) none) (volume.restrict (Set.Ico 0 1)) P
  normal : ∀ n, HasLaw (fun ω => uniformThenNormal R (g ω) (some n)) (gaussianReal 0 1) P

/-- The random variables that make up the data: the first value of the path, the deviations of the path from the noiseless steps, the deviations of the
observations from the path, and the deviation of the initial mean from the first value. -/
def sources1 (f : ℝ → ℝ) (dt : ℝ) (N M : ℕ) (x y : ℕ → ℝ) (m0 : ℝ) : Unit ⊕ Fin N ⊕ Fin M ⊕ Unit → ℝ
  | .inl _ => x 0
  | .inr (.inl t) => x (t + 1) - (x t + f (x t) * dt)
  | .inr (.inr (.inl i)) => y i - x ((i + 1) * (N + 1) / (M + 1))
  | .inr (.inr (.inr _)) => m0 - x 0

/-- The path is an Euler-Maruyama path `x (t + 1) = x t + f (x t) dt + noise` with noise of variance `q dt`, the observations at equidistant times have errors of
variance `r`, and the initial mean has an error of variance `1/100`: all of them are normal, with mean zero, and independent of each other and of the start. -/
structure DataLaw1 (P : Measure Ω) (law0 : Measure ℝ) (f : ℝ → ℝ) (q r dt : ℝ) (N M : ℕ) (x y : Ω → ℕ → ℝ) (m0 : Ω → ℝ) : Prop where
  start : HasLaw (fun ω => x ω 0) law0 P
  path : ∀ t < N, HasLaw (fun ω => x ω (t + 1) - (x ω t + f (x ω t) * dt)) (gaussianReal 0 (q * dt).toNNReal) P
  obs : ∀ i < M, HasLaw (fun ω => y ω i - x ω ((i + 1) * (N + 1) / (M + 1))) (gaussianReal 0 r.toNNReal) P
  mean : HasLaw (fun ω => m0 ω - x ω 0) (gaussianReal 0 (1 / 100 : ℝ).toNNReal) P
  indep : iIndepFun (fun j ω => sources1 f dt N M (x ω) (y ω) (m0 ω) j) P

/-- The random vectors that make up the data of a process with `d` components: the deviations of the path from the noiseless steps, the deviations of the
observations from the path, and the deviation of the initial mean from the first value. -/
def sourcesN {d : ℕ} (f : (Fin d → ℝ) → Fin d → ℝ) (dt : ℝ) (N M : ℕ) (x y : ℕ → Fin d → ℝ) (m0 : Fin d → ℝ) :
    Fin N ⊕ Fin M ⊕ Unit → EuclideanSpace ℝ (Fin d)
  | .inl t => toLp 2 (x (t + 1) - (x t + dt • f (x t)))
  | .inr (.inl i) => toLp 2 (y i - x ((i + 1) * (N + 1) / (M + 1)))
  | .inr (.inr _) => toLp 2 (m0 - x 0)

/-- The same as `DataLaw1` for `d` components: the noise has covariance `Q`, the errors of the observations have covariance `R`. -/
structure DataLawN {d : ℕ} (P : Measure Ω) (f : (Fin d → ℝ) → Fin d → ℝ) (Q R : Matrix (Fin d) (Fin d) ℝ) (dt : ℝ) (N M : ℕ)
    (x y : Ω → ℕ → Fin d → ℝ) (m0 : Ω → Fin d → ℝ) : Prop where
  path : ∀ t < N, HasLaw (fun ω => toLp 2 (x ω (t + 1) - (x ω t + dt • f (x ω t)))) (multivariateGaussian 0 Q) P
  obs : ∀ i < M, HasLaw (fun ω => toLp 2 (y ω i - x ω ((i + 1) * (N + 1) / (M + 1)))) (multivariateGaussian 0 R) P
  mean : HasLaw (fun ω => toLp 2 (m0 ω - x ω 0)) (multivariateGaussian 0 ((1 / 100 : ℝ) • 1)) P
  indep : iIndepFun (fun j ω => sourcesN f dt N M (x ω) (y ω) (m0 ω) j) P

end Spec

/-! ## One dimensional processes -/

theorem dataLaw1_of {P : Measure Ω} {α : Type*} {X : α → Ω → ℝ} (hX : iIndepFun X P) (hm : ∀ a, AEMeasurable (X a) P) {law0 : Measure ℝ}
    {f : ℝ → ℝ} {q r dt : ℝ} (hq : 0 ≤ q * dt) (hr : 0 ≤ r) {N M : ℕ} {x y : Ω → ℕ → ℝ} {m0 : Ω → ℝ} (n : ℕ → α)
    (hnorm : ∀ k, HasLaw (X (n k)) (gaussianReal 0 1) P) (a b : ℕ) {K : Type} [Countable K] (st : K → α) (sf : (K → ℝ) → ℝ) (hsf : Measurable sf)
    (hst : ∀ ω, x ω 0 = sf fun j => X (st j) ω) (hlaw : HasLaw (fun ω => x ω 0) law0 P)
    (hinj : Function.Injective n) (hstinj : Function.Injective st) (hdis : ∀ j k, a ≤ k → st j ≠ n k) (hab : a + N ≤ b)
    (hpath : ∀ ω, ∀ t < N, x ω (t + 1) = x ω t + f (x ω t) * dt + Real.sqrt (q * dt) * X (n (a + t)) ω)
    (hobs : ∀ ω, ∀ i < M, y ω i = x ω ((i + 1) * (N + 1) / (M + 1)) + Real.sqrt r * X (n (b + i)) ω)
    (hmean : ∀ ω, m0 ω = x ω 0 + 1 / 10 * X (n (b + M)) ω) :
    Spec.DataLaw1 P law0 f q r dt N M x y m0 := by
  refine ⟨hlaw, fun t ht => ?_, fun i hi => ?_, ?_, ?_⟩
  · have : (fun ω => x ω (t + 1) - (x ω t + f (x ω t) * dt)) = fun ω => Real.sqrt (q * dt) * X (n (a + t)) ω := by
      funext ω
      rw [hpath ω t ht]
      ring
    rw [this]
    exact law_scale (hnorm _) _ _ (Real.sq_sqrt hq)
  · have : (fun ω => y ω i - x ω ((i + 1) * (N + 1) / (M + 1))) = fun ω => Real.sqrt r * X (n (b + i)) ω := by
      funext ω
      rw [hobs ω i hi]
      ring
    rw [this]
    exact law_scale (hnorm _) _ _ (Real.sq_sqrt hr)
  · have : (fun ω => m0 ω - x ω 0) = fun ω => 1 / 10 * X (n (b + M)) ω := by
      funext ω
      rw [hmean ω]
      ring
    rw [this]
    exact law_scale (hnorm _) _ _ (by norm_num)
  · let κ : Unit ⊕ Fin N ⊕ Fin M ⊕ Unit → Type := fun j => match j with
      | .inl _ => K
      | .inr _ => Unit
    have hc : ∀ j, Countable (κ j) := by
      rintro (j | j)
      · exact (inferInstance : Countable K)
      · exact (inferInstance : Countable Unit)
    let idx : (Σ j, κ j) → α := fun p => match p with
      | ⟨.inl _, k⟩ => st k
      | ⟨.inr (.inl t), _⟩ => n (a + t)
      | ⟨.inr (.inr (.inl i)), _⟩ => n (b + i)
      | ⟨.inr (.inr (.inr _)), _⟩ => n (b + M)
    have hidx : Function.Injective idx := by
      rintro ⟨j | t | i | j, k⟩ ⟨j' | t' | i' | j', k'⟩ h
      · obtain rfl := hstinj h
        rfl
      · exact (hdis _ _ (by omega) h).elim
      · exact (hdis _ _ (by omega) h).elim
      · exact (hdis _ _ (by omega) h).elim
      · exact (hdis _ _ (by omega) h.symm).elim
      · have := hinj h
        obtain rfl : t = t' := Fin.ext (by omega)
        rfl
      · have := hinj h
        omega
      · have := hinj h
        omega
      · exact (hdis _ _ (by omega) h.symm).elim
      · have := hinj h
        omega
      · have := hinj h
        obtain rfl : i = i' := Fin.ext (by omega)
        rfl
      · have := hinj h
        omega
      · exact (hdis _ _ (by omega) h.symm).elim
      · have := hinj h
        omega
      · have := hinj h
        omega
      · rfl
    have hb := indep_blocks hX hm idx hidx
    let g : ∀ j, (κ j → ℝ) → ℝ := fun j => match j with
      | .inl _ => sf
      | .inr (.inl _) => fun w => Real.sqrt (q * dt) * w ()
      | .inr (.inr (.inl _)) => fun w => Real.sqrt r * w ()
      | .inr (.inr (.inr _)) => fun w => 1 / 10 * w ()
    have hg : ∀ j, Measurable (g j) := by
      rintro (j | t | i | j)
      · exact hsf
      · exact (measurable_pi_apply ()).const_mul _
      · exact (measurable_pi_apply ()).const_mul _
      · exact (measurable_pi_apply ()).const_mul _
    have := hb.comp g hg
    refine (iIndepFun_congr fun j => Filter.Eventually.of_forall fun ω => ?_).1 this
    rcases j with j | t | i | j
    · exact (hst ω).symm
    · show Real.sqrt (q * dt) * X (n (a + t)) ω = _
      simp only [Spec.sources1]
      rw [hpath ω t t.2]
      ring
    · show Real.sqrt r * X (n (b + i)) ω = _
      simp only [Spec.sources1]
      rw [hobs ω i i.2]
      ring
    · show 1 / 10 * X (n (b + M)) ω = _
      simp only [Spec.sources1]
      rw [hmean ω]
      ring

/-- C121, Ornstein-Uhlenbeck: for every valid configuration without a seed, whatever the simulation did before: if the generator yields independent standard normal numbers from
the state that the operating system provides, the path that `setup(params)` stores is an Euler-Maruyama path of the configured process from zero, with independent normal
increments of variance `sys dt`; the observations have independent normal errors of the configured variance, and the initial mean has an independent normal error with
standard deviation 0.1. -/
theorem C121_ornstein_uhlenbeck (P : Measure Ω) (E : Env G) (ent : Ω → G) (hr : Spec.NormalNumbers E.R ent P) (c : Spec.Config1) (params : Json)
    (hin : c.In params) (N : ℕ) (hv : c.Valid N) (hname : Spec.SameUpToCase c.name "OU") (hseed : c.seed = .null) (s : Sim (AnyProc G) Arr) :
    ∃ (M : ℕ) (x y : Ω → ℕ → ℝ) (m0 : Ω → ℝ), Spec.numObs N c.dt c.density = M
      ∧ (∀ ω, ∃ m b, (s.setup (pyClasses { E with entropy := ent ω }) params none).2.m_data = m
          ∧ m.model = some (.ou ⟨b, c.sys, c.theta, 1 / c.sys⟩)
          ∧ b.samplePath = .ok (List.ofFn fun i : Fin (N + 1) => x ω i)
          ∧ m.obs_t = some (.times (List.ofFn fun i : Fin M => (i + 1) * (N + 1) / (M + 1)))
          ∧ m.obs_y = some (.series (List.ofFn fun i : Fin M => y ω i))
          ∧ m.m0 = some (.nd (.scalar (m0 ω))))
      ∧ Spec.DataLaw1 P (Measure.dirac 0) (Spec.ouField c.theta 0) c.sys c.obs c.dt N M x y m0 := by
  obtain ⟨M, hM⟩ := Int.eq_ofNat_of_zero_le hv.some_obs.le
  have hC := fun ω => C90_setup_1d { E with entropy := ent ω } c params hin N hv s
  choose M' k x z b p m h1 h2 h3 h4 h5 h6 h7 h8 h9 h10 h11 h12 h13 h14 using hC
  have hM' : ∀ ω, M' ω = M := fun ω => by
    have := h2 ω
    rw [hM] at this
    exact_mod_cast this.symm
  have hP : ∀ ω, z ω = Spec.draw E.R (ent ω) ∧ k ω = N + 1 ∧ x ω 0 = 0
      ∧ ∀ t < N, x ω (t + 1) = x ω t + Spec.ouField c.theta 0 (x ω t) * c.dt + Real.sqrt (c.sys * c.dt) * z ω (t + 1) := fun ω => by
    rcases h3 ω with ⟨hn, -⟩ | ⟨-, hz, hk, h0, ht⟩
    · exact (not_both hn hname).elim
    · rw [hseed] at hz
      exact ⟨hz, hk, h0, ht⟩
  have hprob := hr.indep.isProbabilityMeasure
  refine ⟨M, x, fun ω i => x ω ((i + 1) * (N + 1) / (M + 1)) + Real.sqrt c.obs * Spec.draw E.R (ent ω) (N + 1 + i),
    fun ω => x ω 0 + 1 / 10 * Spec.draw E.R (ent ω) (N + 1 + M), hM, fun ω => ⟨m ω, b ω, h1 ω, ?_, h8 ω, ?_, ?_, ?_⟩, ?_⟩
  · rw [h4 ω, h6 ω hname]
  · rw [h9 ω, hM' ω]
  · rw [h10 ω, hM' ω, (hP ω).1, (hP ω).2.1]
  · rw [h12 ω, hM' ω, (hP ω).1, (hP ω).2.1]
  · refine dataLaw1_of (X := fun n ω => Spec.draw E.R (ent ω) n) hr.indep (fun n => (hr.normal n).aemeasurable) (mul_pos hv.sys hv.dt).le
      hv.obs.le id hr.normal 1 (N + 1) (K := Empty) Empty.elim (fun _ => 0) measurable_const (fun ω => (hP ω).2.2.1) ?_ Function.injective_id
      (fun j => j.elim) (fun j => j.elim) (by omega) (fun ω t ht => ?_) (fun ω i hi => rfl) (fun ω => rfl)
    · exact hasLaw_dirac_of_ae_eq (Filter.Eventually.of_forall fun ω => (hP ω).2.2.1)
    · have := (hP ω).2.2.2 t ht
      rw [(hP ω).1] at this
      rw [this, id, add_comm 1 t]

/-- C121, double well: the same with the double well drift. The path starts in either well with probability 1/2, that is at `theta` or `-theta` (not at the bottoms of the wells, which are
the square roots), with a normal error of variance `sys dt / 2`. -/
theorem C121_double_well (P : Measure Ω) (E : Env G) (ent : Ω → G) (hr : Spec.UniformThenNormal E.R ent P) (c : Spec.Config1) (params : Json)
    (hin : c.In params) (N : ℕ) (hv : c.Valid N) (hname : Spec.SameUpToCase c.name "DW") (hseed : c.seed = .null) (s : Sim (AnyProc G) Arr) :
    ∃ (M : ℕ) (x y : Ω → ℕ → ℝ) (m0 : Ω → ℝ), Spec.numObs N c.dt c.density = M
      ∧ (∀ ω, ∃ m b, (s.setup (pyClasses { E with entropy := ent ω }) params none).2.m_data = m
          ∧ m.model = some (.dw ⟨b, c.sys, c.theta, 1 / c.sys⟩)
          ∧ b.samplePath = .ok (List.ofFn fun i : Fin (N + 1) => x ω i)
          ∧ m.obs_t = some (.times (List.ofFn fun i : Fin M => (i + 1) * (N + 1) / (M + 1)))
          ∧ m.obs_y = some (.series (List.ofFn fun i : Fin M => y ω i))
          ∧ m.m0 = some (.nd (.scalar (m0 ω))))
      ∧ Spec.DataLaw1 P ((2 : ENNReal)⁻¹ • gaussianReal c.theta (c.sys * c.dt / 2).toNNReal
          + (2 : ENNReal)⁻¹ • gaussianReal (-c.theta) (c.sys * c.dt / 2).toNNReal) (Spec.dwField c.theta) c.sys c.obs c.dt N M x y m0 := by
  obtain ⟨M, hM⟩ := Int.eq_ofNat_of_zero_le hv.some_obs.le
  have hC := fun ω => C90_setup_1d { E with entropy := ent ω } c params hin N hv s
  choose M' k x z b p m h1 h2 h3 h4 h5 h6 h7 h8 h9 h10 h11 h12 h13 h14 using hC
  have hM' : ∀ ω, M' ω = M := fun ω => by
    have := h2 ω
    rw [hM] at this
    exact_mod_cast this.symm
  have hP : ∀ ω, z ω = Spec.draw E.R (E.R.random (ent ω)).2 ∧ k ω = N + 2
      ∧ x ω 0 = (if 1 / 2 < (E.R.random (ent ω)).1 then c.theta else -c.theta) + Real.sqrt (c.sys * c.dt / 2) * z ω 0
      ∧ ∀ t < N, x ω (t + 1) = x ω t + Spec.dwField c.theta (x ω t) * c.dt + Real.sqrt (c.sys * c.dt) * z ω (t + 2) := fun ω => by
    rcases h3 ω with ⟨-, hz, hk, h0, ht⟩ | ⟨hn, -⟩
    · rw [hseed] at hz h0
      exact ⟨hz, hk, h0, ht⟩
    · exact (not_both hname hn).elim
  have hq := (mul_pos hv.sys hv.dt).le
  have hx0 : ∀ ω, x ω 0 = (if 1 / 2 < Spec.uniformThenNormal E.R (ent ω) none then c.theta else -c.theta)
      + Real.sqrt (c.sys * c.dt / 2) * Spec.uniformThenNormal E.R (ent ω) (some 0) := fun ω => by
    rw [(hP ω).2.2.1, (hP ω).1]
    rfl
  refine ⟨M, x, fun ω i => x ω ((i + 1) * (N + 1) / (M + 1)) + Real.sqrt c.obs * Spec.draw E.R (E.R.random (ent ω)).2 (N + 2 + i),
    fun ω => x ω 0 + 1 / 10 * Spec.draw E.R (E.R.random (ent ω)).2 (N + 2 + M), hM, fun ω => ⟨m ω, b ω, h1 ω, ?_, h8 ω, ?_, ?_, ?_⟩, ?_⟩
  · rw [h4 ω, h5 ω hname]
  · rw [h9 ω, hM' ω]
  · rw [h10 ω, hM' ω, (hP ω).1, (hP ω).2.1]
  · rw [h12 ω, hM' ω, (hP ω).1, (hP ω).2.1]
  · refine dataLaw1_of (X := fun k ω => Spec.uniformThenNormal E.R (ent ω) k) hr.indep (fun n => ?_) hq
      hv.obs.le some hr.normal 2 (N + 2) (K := Bool) (fun j => bif j then none else some 0)
      (fun w => (if 1 / 2 < w true then c.theta else -c.theta) + Real.sqrt (c.sys * c.dt / 2) * w false) ?_ hx0 ?_ (Option.some_injective _)
      ?_ ?_ (by omega) (fun ω t ht => ?_) (fun ω i hi => rfl) (fun ω => rfl)
    · cases n with
      | none => exact hr.uniform.aemeasurable
      | some n => exact (hr.normal n).aemeasurable
    · refine Measurable.add ?_ ((measurable_pi_apply false).const_mul _)
      exact Measurable.ite (measurableSet_lt measurable_const (measurable_pi_apply true)) measurable_const measurable_const
    · simp only [hx0]
      exact law_two_wells hr.uniform (law_scale (hr.normal 0) _ _ (Real.sq_sqrt (by linarith)))
        ((hr.indep.indepFun (by simp : (none : Option ℕ) ≠ some 0)).comp measurable_id (measurable_id.const_mul _)) c.theta
    · intro i j h
      cases i <;> cases j <;> simp at h ⊢
    · intro j k hk h
      cases j
      · simp at h
        omega
      · simp at h
    · have := (hP ω).2.2.2 t ht
      rw [(hP ω).1] at this
      rw [this, add_comm 2 t]
      rfl

/-! ## Lorenz systems -/

theorem block_inj {n l l' t t' : ℕ} (ht : t < n) (ht' : t' < n) (h : l * n + t = l' * n + t') : l = l' ∧ t = t' := by
  have h1 : (l * n + t) / n = l := by
    rw [mul_comm, Nat.mul_add_div (by omega), Nat.div_eq_of_lt ht, add_zero]
  have h2 : (l' * n + t') / n = l' := by
    rw [mul_comm, Nat.mul_add_div (by omega), Nat.div_eq_of_lt ht', add_zero]
  have : l = l' := by rw [← h1, h, h2]
  subst this
  exact ⟨rfl, by omega⟩

theorem block_lt {d n l t : ℕ} (hl : l < d) (ht : t < n) : l * n + t < d * n := by
  calc l * n + t < l * n + n := by omega
    _ = (l + 1) * n := by ring
    _ ≤ d * n := Nat.mul_le_mul_right n hl

theorem dataLawN_of {P : Measure Ω} {d : ℕ} {X : ℕ → Ω → ℝ} (hX : iIndepFun X P) (hl : ∀ n, HasLaw (X n) (gaussianReal 0 1) P)
    {f : (Fin d → ℝ) → Fin d → ℝ} {r : Fin d → ℝ} {dt : ℝ} (hr : ∀ l, 0 ≤ r l) {N M : ℕ} {x y : Ω → ℕ → Fin d → ℝ} {m0 : Ω → Fin d → ℝ}
    (U : Matrix (Fin d) (Fin d) ℝ)
    (hpath : ∀ ω, ∀ t < N, x ω (t + 1) = x ω t + dt • f (x ω t) + U *ᵥ fun l => X (l * (N + 1) + (t + 1)) ω)
    (hobs : ∀ ω, ∀ i < M, ∀ l, y ω i l = x ω ((i + 1) * (N + 1) / (M + 1)) l + Real.sqrt (r l) * X (d * (N + 1) + (l * M + i)) ω)
    (hmean : ∀ ω l, m0 ω l = x ω 0 l + 1 / 10 * X (d * (N + 1) + d * M + l) ω) :
    Spec.DataLawN P f (U * Uᵀ) (Matrix.diagonal r) dt N M x y m0 := by
  have hm := fun n => (hl n).aemeasurable
  let S := Matrix.diagonal fun l => Real.sqrt (r l)
  let T : Matrix (Fin d) (Fin d) ℝ := (1 / 10 : ℝ) • 1
  let idx : (Σ _ : Fin N ⊕ Fin M ⊕ Unit, Fin d) → ℕ := fun p => match p with
    | ⟨.inl t, l⟩ => l * (N + 1) + (t + 1)
    | ⟨.inr (.inl i), l⟩ => d * (N + 1) + (l * M + i)
    | ⟨.inr (.inr _), l⟩ => d * (N + 1) + d * M + l
  have hidx : Function.Injective idx := by
    rintro ⟨t | i | j, l⟩ ⟨t' | i' | j', l'⟩ h
    · have h' : (l : ℕ) * (N + 1) + (t + 1) = l' * (N + 1) + (t' + 1) := h
      obtain ⟨h1, h2⟩ := block_inj (by omega) (by omega) h'
      obtain rfl : t = t' := Fin.ext (by omega)
      obtain rfl : l = l' := Fin.ext h1
      rfl
    · have h' : (l : ℕ) * (N + 1) + (t + 1) = d * (N + 1) + (l' * M + i') := h
      have := block_lt l.2 (show (t : ℕ) + 1 < N + 1 by omega)
      omega
    · have h' : (l : ℕ) * (N + 1) + (t + 1) = d * (N + 1) + d * M + l' := h
      have := block_lt l.2 (show (t : ℕ) + 1 < N + 1 by omega)
      omega
    · have h' : d * (N + 1) + ((l : ℕ) * M + i) = l' * (N + 1) + (t' + 1) := h
      have := block_lt l'.2 (show (t' : ℕ) + 1 < N + 1 by omega)
      omega
    · have h' : d * (N + 1) + ((l : ℕ) * M + i) = d * (N + 1) + (l' * M + i') := h
      obtain ⟨h1, h2⟩ := block_inj (l := l) (l' := l') i.2 i'.2 (by omega)
      obtain rfl : i = i' := Fin.ext (by omega)
      obtain rfl : l = l' := Fin.ext h1
      rfl
    · have h' : d * (N + 1) + ((l : ℕ) * M + i) = d * (N + 1) + d * M + l' := h
      have := block_lt l.2 i.2
      omega
    · have h' : d * (N + 1) + d * M + l = (l' : ℕ) * (N + 1) + (t' + 1) := h
      have := block_lt l'.2 (show (t' : ℕ) + 1 < N + 1 by omega)
      omega
    · have h' : d * (N + 1) + d * M + l = d * (N + 1) + ((l' : ℕ) * M + i') := h
      have := block_lt l'.2 i'.2
      omega
    · have h' : d * (N + 1) + d * M + l = d * (N + 1) + d * M + (l' : ℕ) := h
      obtain rfl : l = l' := Fin.ext (by omega)
      rfl
  have hlaw : ∀ (j : Fin N ⊕ Fin M ⊕ Unit) (B : Matrix (Fin d) (Fin d) ℝ),
      HasLaw (fun ω => toLp 2 (B *ᵥ fun l => X (idx ⟨j, l⟩) ω)) (multivariateGaussian 0 (B * Bᵀ)) P := fun j B =>
    law_linear (hX.precomp (g := fun l : Fin d => idx ⟨j, l⟩) fun a b hab => by simpa using hidx hab) (fun l => hl _) B
  have e1 : ∀ ω (t : Fin N), x ω (t + 1) - (x ω t + dt • f (x ω t)) = U *ᵥ fun l => X (idx ⟨.inl t, l⟩) ω := fun ω t => by
    rw [hpath ω t t.2]
    simp [idx]
  have e2 : ∀ ω (i : Fin M), y ω i - x ω ((i + 1) * (N + 1) / (M + 1)) = S *ᵥ fun l => X (idx ⟨.inr (.inl i), l⟩) ω := fun ω i => by
    funext l
    rw [Pi.sub_apply, hobs ω i i.2 l, Matrix.mulVec_diagonal]
    simp [idx]
  have e3 : ∀ ω, m0 ω - x ω 0 = T *ᵥ fun l => X (idx ⟨.inr (.inr ()), l⟩) ω := fun ω => by
    funext l
    rw [Pi.sub_apply, hmean ω l]
    simp [idx, T, Matrix.smul_mulVec]
  have hS : S * Sᵀ = Matrix.diagonal r := by
    simp only [S, Matrix.diagonal_transpose, Matrix.diagonal_mul_diagonal]
    congr 1
    funext l
    exact Real.mul_self_sqrt (hr l)
  have hT : T * Tᵀ = (1 / 100 : ℝ) • 1 := by
    simp only [T, Matrix.transpose_smul, Matrix.transpose_one, Matrix.mul_smul, mul_one, smul_smul]
    norm_num
  refine ⟨fun t ht => ?_, fun i hi => ?_, ?_, ?_⟩
  · have := hlaw (.inl ⟨t, ht⟩) U
    simp only [← e1] at this
    exact this
  · have := hlaw (.inr (.inl ⟨i, hi⟩)) S
    simp only [← e2, hS] at this
    exact this
  · have := hlaw (.inr (.inr ())) T
    simp only [← e3, hT] at this
    exact this
  · have hb := indep_blocks (κ := fun _ => Fin d) hX hm idx hidx
    let g : Fin N ⊕ Fin M ⊕ Unit → (Fin d → ℝ) → EuclideanSpace ℝ (Fin d) := fun j => match j with
      | .inl _ => fun w => toLp 2 (U *ᵥ w)
      | .inr (.inl _) => fun w => toLp 2 (S *ᵥ w)
      | .inr (.inr _) => fun w => toLp 2 (T *ᵥ w)
    have hmul : ∀ B : Matrix (Fin d) (Fin d) ℝ, Measurable fun w : Fin d → ℝ => (toLp 2 (B *ᵥ w) : EuclideanSpace ℝ (Fin d)) := fun B => by
      have : Continuous fun w : Fin d → ℝ => B *ᵥ w := by fun_prop
      fun_prop
    have hg : ∀ j, Measurable (g j) := by
      rintro (j | t | i)
      · exact hmul U
      · exact hmul S
      · exact hmul T
    have := hb.comp g hg
    refine (iIndepFun_congr fun j => Filter.Eventually.of_forall fun ω => ?_).1 this
    rcases j with t | i | j
    · simp only [Spec.sourcesN, e1]
      rfl
    · simp only [Spec.sourcesN, e2]
      rfl
    · simp only [Spec.sourcesN, e3]
      rfl

/-- C121, Lorenz-63, what holds: for every valid configuration without a seed, whatever the simulation did before: if the generator yields independent standard normal numbers from the
state that the operating system provides, the path that `setup(params)` stores is an Euler-Maruyama path of the configured process with independent normal increments, the
observations have independent normal errors with the configured variances, and the initial mean has independent normal errors with standard deviation 0.1. The increments have
the covariance `U Uᵀ`, where `U` is the upper triangular factor with `Uᵀ U = dt sys`. Missing: that this is `dt sys`; it is, if and only if `sys` is diagonal, see
`C121_violated`. -/
theorem C121_lorenz63_partial (P : Measure Ω) (E : Env G) (ent : Ω → G) (hr : Spec.NormalNumbers E.R ent P) (c : Spec.Config3) (params : Json)
    (hin : c.In params) (N : ℕ) (hv : c.Valid N) (hseed : c.seed = .null) (s : Sim (AnyProc G) Arr) :
    ∃ (M : ℕ) (x y : Ω → ℕ → Fin 3 → ℝ) (m0 : Ω → Fin 3 → ℝ) (U : Matrix (Fin 3) (Fin 3) ℝ), Spec.numObs N c.dt c.density = M
      ∧ (∀ ω, ∃ m b, (s.setup (pyClasses { E with entropy := ent ω }) params none).2.m_data = m
          ∧ m.model = some (.l63 ⟨b, c.sys, c.theta, c.sys⁻¹⟩)
          ∧ b.samplePath = .ok (List.ofFn fun i : Fin (N + 1) => x ω i)
          ∧ m.obs_t = some (.times (List.ofFn fun i : Fin M => (i + 1) * (N + 1) / (M + 1)))
          ∧ m.obs_y = some (.path 3 (List.ofFn fun i : Fin M => y ω i))
          ∧ m.m0 = some (.nd (.vec 3 (m0 ω))))
      ∧ Uᵀ * U = c.dt • c.sys ∧ (∀ i j, j < i → U i j = 0)
      ∧ Spec.DataLawN P (Spec.l63Field c.theta) (U * Uᵀ) (Matrix.diagonal c.obs) c.dt N M x y m0
      ∧ (c.sys.IsDiag → Spec.DataLawN P (Spec.l63Field c.theta) (c.dt • c.sys) (Matrix.diagonal c.obs) c.dt N M x y m0)
      ∧ (U * Uᵀ = c.dt • c.sys ↔ c.sys.IsDiag) := by
  obtain ⟨M, hM⟩ := Int.eq_ofNat_of_zero_le (a := Spec.numObs N c.dt c.density) (by have := hv.some_obs; omega)
  have hC := fun ω => setup_total3 { E with entropy := ent ω } hin hv M hM s.m_data
  choose m x h1 h2 h3 using hC
  have hmod := fun ω => (h2 ω).model
  choose b hp hb htk hxt hrng using hmod
  obtain ⟨hU1, hU2⟩ := noiseFactor_posDef c.sys c.dt hv.sys hv.dt
  have e2 : (0.1 : ℝ) = 1 / 10 := by norm_num
  have hg : ∀ ω, Spec.startState E.R (ent ω) c.seed = ent ω := fun ω => by
    rw [hseed]
    rfl
  have hD : Spec.DataLawN P (Spec.l63Field c.theta) (LorenzObj.noiseFactor c.sys c.dt * (LorenzObj.noiseFactor c.sys c.dt)ᵀ)
      (Matrix.diagonal c.obs) c.dt N M x
      (fun ω i l => x ω ((i + 1) * (N + 1) / (M + 1)) l + Real.sqrt (c.obs l) * Spec.draw E.R (ent ω) (3 * (N + 1) + (l * M + i)))
      (fun ω l => x ω 0 l + 1 / 10 * Spec.draw E.R (ent ω) (3 * (N + 1) + 3 * M + l)) := by
    refine dataLawN_of hr.indep hr.normal (fun l => (hv.obs l).le) _ (fun ω t ht => ?_) (fun ω i hi l => rfl) (fun ω l => rfl)
    have := (h3 ω).2 t ht
    simp only [hg] at this
    exact this
  have hiff := C34_covariance_partial c.sys c.dt hv.sys hv.dt
  refine ⟨M, x, _, _, _, hM, fun ω => ⟨m ω, b ω, ?_, hp ω, ?_, (h2 ω).times, ?_, ?_⟩, hU1, hU2, hD, fun hd => ?_, hiff⟩
  · unfold Sim.setup
    rw [h1 ω]
  · simp only [Proc.samplePath, hxt ω]
  · rw [(h2 ω).obs]
    simp only [hg]
    rfl
  · rw [(h2 ω).m0, e2]
    simp only [hg]
  · rw [← hiff.2 hd]
    exact hD

/-- C121, Lorenz-96, what holds: for every valid configuration without a seed, whatever the simulation did before: if the generator yields independent standard normal numbers from the
state that the operating system provides, the path that `setup(params)` stores is an Euler-Maruyama path of the configured process with independent normal increments, the
observations have independent normal errors with the configured variances, and the initial mean has independent normal errors with standard deviation 0.1. The increments have
the covariance `U Uᵀ`, where `U` is the upper triangular factor with `Uᵀ U = dt sys`. Missing: that this is `dt sys`; it is, if and only if `sys` is diagonal, see
`C121_violated`. -/
theorem C121_lorenz96_partial (P : Measure Ω) (E : Env G) (ent : Ω → G) (hr : Spec.NormalNumbers E.R ent P) (c : Spec.Config40) (params : Json)
    (hin : c.In params) (N : ℕ) (hv : c.Valid N) (hseed : c.seed = .null) (s : Sim (AnyProc G) Arr) :
    ∃ (M : ℕ) (x y : Ω → ℕ → Fin 40 → ℝ) (m0 : Ω → Fin 40 → ℝ) (U : Matrix (Fin 40) (Fin 40) ℝ), Spec.numObs N c.dt c.density = M
      ∧ (∀ ω, ∃ m b, (s.setup (pyClasses { E with entropy := ent ω }) params none).2.m_data = m
          ∧ m.model = some (.l96 ⟨b, c.sys, c.theta, c.sys⁻¹⟩)
          ∧ b.samplePath = .ok (List.ofFn fun i : Fin (N + 1) => x ω i)
          ∧ m.obs_t = some (.times (List.ofFn fun i : Fin M => (i + 1) * (N + 1) / (M + 1)))
          ∧ m.obs_y = some (.path 40 (List.ofFn fun i : Fin M => y ω i))
          ∧ m.m0 = some (.nd (.vec 40 (m0 ω))))
      ∧ Uᵀ * U = c.dt • c.sys ∧ (∀ i j, j < i → U i j = 0)
      ∧ Spec.DataLawN P (Spec.l96Field c.theta) (U * Uᵀ) (Matrix.diagonal c.obs) c.dt N M x y m0
      ∧ (c.sys.IsDiag → Spec.DataLawN P (Spec.l96Field c.theta) (c.dt • c.sys) (Matrix.diagonal c.obs) c.dt N M x y m0)
      ∧ (U * Uᵀ = c.dt • c.sys ↔ c.sys.IsDiag) := by
  obtain ⟨M, hM⟩ := Int.eq_ofNat_of_zero_le (a := Spec.numObs N c.dt c.density) (by have := hv.some_obs; omega)
  have hC := fun ω => setup_total40 { E with entropy := ent ω } hin hv M hM s.m_data
  choose m x h1 h2 h3 using hC
  have hmod := fun ω => (h2 ω).model
  choose b hp hb htk hxt hrng using hmod
  obtain ⟨hU1, hU2⟩ := noiseFactor_posDef c.sys c.dt hv.sys hv.dt
  have e2 : (0.1 : ℝ) = 1 / 10 := by norm_num
  have hg : ∀ ω, Spec.startState E.R (ent ω) c.seed = ent ω := fun ω => by
    rw [hseed]
    rfl
  have hD : Spec.DataLawN P (Spec.l96Field c.theta) (LorenzObj.noiseFactor c.sys c.dt * (LorenzObj.noiseFactor c.sys c.dt)ᵀ)
      (Matrix.diagonal c.obs) c.dt N M x
      (fun ω i l => x ω ((i + 1) * (N + 1) / (M + 1)) l + Real.sqrt (c.obs l) * Spec.draw E.R (ent ω) (40 * (N + 1) + (l * M + i)))
      (fun ω l => x ω 0 l + 1 / 10 * Spec.draw E.R (ent ω) (40 * (N + 1) + 40 * M + l)) := by
    refine dataLawN_of hr.indep hr.normal (fun l => (hv.obs l).le) _ (fun ω t ht => ?_) (fun ω i hi l => rfl) (fun ω l => rfl)
    have := (h3 ω).2 t ht
    simp only [hg] at this
    exact this
  have hiff := C34_covariance_partial c.sys c.dt hv.sys hv.dt
  refine ⟨M, x, _, _, _, hM, fun ω => ⟨m ω, b ω, ?_, hp ω, ?_, (h2 ω).times, ?_, ?_⟩, hU1, hU2, hD, fun hd => ?_, hiff⟩
  · unfold Sim.setup
    rw [h1 ω]
  · simp only [Proc.samplePath, hxt ω]
  · rw [(h2 ω).obs]
    simp only [hg]
    rfl
  · rw [(h2 ω).m0, e2]
    simp only [hg]
  · rw [← hiff.2 hd]
    exact hD

/-! ## The failure, and examples -/

/-- Values without a seed. -/
def Spec.unseeded1 (name : String) : Spec.Config1 := { Spec.exampleConfig name with seed := .null }

def Spec.unseededParams1 (name : String) : Json :=
  .obj [("Model", .str name), ("Ode-method", .str "Euler"), ("Random-Seed", .null),
    ("Time-window", .obj [("t0", .num 0), ("tf", .num 10), ("dt", .num 0.01)]), ("Noise", .obj [("sys", .num 0.8), ("obs", .num 0.04)]),
    ("Observations", .obj [("density", .num 2), ("operator", .null)]), ("Drift", .obj [("theta", .num 1)]),
    ("Prior", .obj [("tau0", .num 0.5), ("mu0", .num 1)])]

theorem unseeded_in1 (name : String) : (Spec.unseeded1 name).In (Spec.unseededParams1 name) :=
  ⟨rfl, ⟨_, rfl, rfl⟩, ⟨_, rfl, rfl, rfl⟩, ⟨_, rfl, rfl, rfl, rfl⟩, rfl, rfl, ⟨_, rfl, rfl, rfl⟩, _, rfl, rfl, rfl⟩

theorem unseeded_valid1 (name : String) (h : name = "DW" ∨ name = "OU") : (Spec.unseeded1 name).Valid 1000 :=
  have hv := example_valid name h
  ⟨hv.name, hv.sys, hv.obs, hv.tau0, hv.dt, hv.tf, hv.method, .inl rfl, hv.density, hv.some_obs, hv.not_all⟩

/-- Values without a seed; the noise has a covariance matrix that is not diagonal. -/
def Spec.unseeded3 : Spec.Config3 := { Spec.exampleConfig3 with seed := .null, sys := corrS }

def Spec.unseededParams3 : Json :=
  .obj [("Model", .str "L63"), ("Ode-method", .str "Heun"), ("Random-Seed", .null),
    ("Time-window", .obj [("t0", .num 0), ("tf", .num 20), ("dt", .num 0.01)]),
    ("Noise", .obj [("sys", .arr [Spec.list3 (corrS 0), Spec.list3 (corrS 1), Spec.list3 (corrS 2)]), ("obs", .num 2)]),
    ("Observations", .obj [("density", .num 5), ("operator", .null)]),
    ("Drift", .obj [("theta", .arr [.num 10, .num 28, .num 2.667])]),
    ("Prior", .obj [("tau0", .num 0.5), ("mu0", .num 1)])]

theorem unseeded_in3 : Spec.unseeded3.In Spec.unseededParams3 :=
  ⟨rfl, ⟨_, rfl, rfl⟩, ⟨_, _, _, rfl, rfl, rfl, .rows _, .number _⟩, ⟨_, rfl, rfl, rfl, rfl⟩, rfl, rfl, ⟨_, rfl, rfl, rfl⟩, _, _, _,
    rfl, rfl, rfl, .number _, .number _⟩

theorem unseeded_valid3 : Spec.unseeded3.Valid 2000 :=
  have hv := example_valid3
  ⟨hv.name, corrS_posDef, hv.obs, hv.tau0, hv.dt, hv.tf, hv.method, .inl rfl, hv.density, hv.some_obs, hv.not_all⟩

/-- C121 fails: there is a valid Lorenz-63 configuration such that, if the generator yields independent standard normal numbers, the increments of the path that
`setup(params)` stores do not have the covariance `dt sys`, at any time. -/
theorem C121_violated : ∃ (c : Spec.Config3) (params : Json) (N : ℕ), c.In params ∧ c.Valid N ∧ c.seed = .null ∧ 0 < N
    ∧ ∀ (G Ω : Type) [MeasurableSpace Ω] (P : Measure Ω) (E : Env G) (ent : Ω → G), Spec.NormalNumbers E.R ent P →
      ∀ (s : Sim (AnyProc G) Arr) (x : Ω → ℕ → Fin 3 → ℝ) (b : Ω → Proc G (Fin 3 → ℝ)),
        (∀ ω, (s.setup (pyClasses { E with entropy := ent ω }) params none).2.m_data.model = some (.l63 ⟨b ω, c.sys, c.theta, c.sys⁻¹⟩)
          ∧ (b ω).samplePath = .ok (List.ofFn fun i : Fin (N + 1) => x ω i)) →
        ∀ t < N, ¬ HasLaw (fun ω => toLp 2 (x ω (t + 1) - (x ω t + c.dt • Spec.l63Field c.theta (x ω t))))
          (multivariateGaussian 0 (c.dt • c.sys)) P := by
  refine ⟨Spec.unseeded3, Spec.unseededParams3, 2000, unseeded_in3, unseeded_valid3, rfl, by norm_num, ?_⟩
  intro G Ω _ P E ent hr s x b hx t ht hlaw
  obtain ⟨M, x', y, m0, U, -, hmem, hU, -, hD, -, hiff⟩ := C121_lorenz63_partial P E ent hr _ _ unseeded_in3 2000 unseeded_valid3 rfl s
  have hxx : ∀ ω, ∀ i < 2001, x ω i = x' ω i := by
    intro ω i hi
    obtain ⟨m, b', h1, h2, h3, -⟩ := hmem ω
    obtain ⟨h4, h5⟩ := hx ω
    rw [h1, h2] at h4
    have hb : b' = b ω := by
      injection h4 with h4
      injection h4 with h4
      injection h4
    rw [hb, h5] at h3
    exact congrFun (List.ofFn_injective (Except.ok.inj h3)) ⟨i, hi⟩
  have e : (fun ω => (toLp 2 (x ω (t + 1) - (x ω t + Spec.unseeded3.dt • Spec.l63Field Spec.unseeded3.theta (x ω t))) : EuclideanSpace ℝ (Fin 3)))
      = fun ω => toLp 2 (x' ω (t + 1) - (x' ω t + Spec.unseeded3.dt • Spec.l63Field Spec.unseeded3.theta (x' ω t))) := by
    funext ω
    rw [hxx ω t (by omega), hxx ω (t + 1) (by omega)]
  rw [e] at hlaw
  have hmg := (hD.path t ht).map_eq.symm.trans hlaw.map_eq
  have hps : (U * Uᵀ).PosSemidef := by
    have := Matrix.posSemidef_self_mul_conjTranspose U
    simpa using this
  have hps' : (Spec.unseeded3.dt • Spec.unseeded3.sys).PosSemidef := by
    rw [← hU]
    have := Matrix.posSemidef_conjTranspose_mul_self U
    simpa using this
  have hdiag := hiff.1 (multivariateGaussian_inj hps hps' hmg)
  have h01 : corrS 0 1 = 0 := hdiag (show (0 : Fin 3) ≠ 1 by decide)
  norm_num [corrS] at h01

/-- A generator whose state is the sequence of the numbers that it is going to yield. -/
def streamRng : Rng (ℕ → ℝ) where
  seed := fun _ _ => 0
  random := fun g => (g 0, fun n => g (n + 1))
  normal := fun g => (g 0, fun n => g (n + 1))

theorem streamRng_state (g : ℕ → ℝ) (n : ℕ) : Spec.stateAfter streamRng g n = fun k => g (k + n) := by
  induction n with
  | zero => rfl
  | succ n ih =>
    rw [Spec.stateAfter, Function.iterate_succ_apply', ← Spec.stateAfter, ih]
    funext k
    show g (k + 1 + n) = _
    congr 1
    omega

theorem streamRng_draw (g : ℕ → ℝ) (n : ℕ) : Spec.draw streamRng g n = g n := by
  rw [Spec.draw, streamRng_state]
  show g (0 + n) = _
  rw [zero_add]

theorem streamRng_normal : Spec.NormalNumbers streamRng id (Measure.infinitePi fun _ : ℕ => gaussianReal 0 1) := by
  constructor
  · simp only [streamRng_draw, id]
    exact iIndepFun_infinitePi (X := fun _ w => w) fun _ => measurable_id
  · intro n
    simp only [streamRng_draw, id]
    exact ⟨(measurable_pi_apply _).aemeasurable, Measure.infinitePi_map_eval _ n⟩

/-- Law of the `n`-th number of a stream that begins with a uniform number. -/
def streamLaw (n : ℕ) : Measure ℝ := if n = 0 then volume.restrict (Set.Ico 0 1) else gaussianReal 0 1

instance (n : ℕ) : IsProbabilityMeasure (streamLaw n) := by
  unfold streamLaw
  split_ifs
  · exact ⟨by simp⟩
  · infer_instance

theorem streamRng_uniform : Spec.UniformThenNormal streamRng id (Measure.infinitePi streamLaw) := by
  have e : ∀ (g : ℕ → ℝ) k, Spec.uniformThenNormal streamRng g k = g (k.elim 0 Nat.succ) := by
    rintro g (_ | n)
    · rfl
    · show Spec.draw streamRng (fun n => g (n + 1)) n = _
      rw [streamRng_draw]
      rfl
  refine ⟨?_, ?_, fun n => ?_⟩
  · simp only [e, id]
    refine iIndepFun.precomp (g := fun k : Option ℕ => k.elim 0 Nat.succ) ?_ (iIndepFun_infinitePi (P := streamLaw) (X := fun _ w => w) fun _ => measurable_id)
    rintro (_ | a) (_ | b) h
    · rfl
    · simp at h
    · simp at h
    · simpa using h
  · simp only [e, id]
    exact ⟨(measurable_pi_apply _).aemeasurable, Measure.infinitePi_map_eval _ 0⟩
  · simp only [e, id]
    exact ⟨(measurable_pi_apply _).aemeasurable, Measure.infinitePi_map_eval _ (n + 1)⟩

/-- Non-vacuity of C121: there are such generators, and configurations without a seed. -/
example (E : Env (ℕ → ℝ)) (s : Sim (AnyProc (ℕ → ℝ)) Arr) :=
  C121_ornstein_uhlenbeck _ { E with R := streamRng } id streamRng_normal _ _ (unseeded_in1 "OU") 1000 (unseeded_valid1 "OU" (.inr rfl))
    ((pyUpper_eq_iff (by decide)).1 (by show pyUpper "OU" = "OU"; decide)) rfl s

example (E : Env (ℕ → ℝ)) (s : Sim (AnyProc (ℕ → ℝ)) Arr) :=
  C121_double_well _ { E with R := streamRng } id streamRng_uniform _ _ (unseeded_in1 "DW") 1000 (unseeded_valid1 "DW" (.inl rfl))
    ((pyUpper_eq_iff (by decide)).1 (by show pyUpper "DW" = "DW"; decide)) rfl s

example (E : Env (ℕ → ℝ)) (s : Sim (AnyProc (ℕ → ℝ)) Arr) :=
  C121_lorenz63_partial _ { E with R := streamRng } id streamRng_normal _ _ unseeded_in3 2000 unseeded_valid3 rfl s

example : ({ Spec.exampleConfig40 with seed := .null } : Spec.Config40).Valid 400 ∧ Spec.exampleConfig40.sys.IsDiag :=
  have hv := example_valid40
  ⟨⟨hv.name, hv.sys, hv.obs, hv.tau0, hv.dt, hv.tf, hv.method, .inl rfl, hv.density, hv.some_obs, hv.not_all⟩, Matrix.isDiag_diagonal _⟩

end

end VGPA
