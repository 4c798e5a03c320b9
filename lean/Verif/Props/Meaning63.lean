import Verif.Props.RunTotal63

/-!
# C98, C99: what `setup` and `run` compute from a Lorenz-63 parameter file
-/

namespace VGPA

noncomputable section

open ProbabilityTheory MeasureTheory Matrix WithLp

variable {G : Type}

/-! ## C98 -/

/-- C98: for every valid Lorenz-63 configuration, whatever the simulation did before, `setup(params)` simulates the configured process: the stored object has
the noise, the drift parameters and the window of the file, and its path is the Euler-Maruyama path, with increments made by the upper triangular factor of `dt sys`. The
observations are the path at equidistant times; every component has its own normal error with the configured variance. The
mean of the first time point is the first value of the path with errors of standard deviation 0.1, its covariance is 0.2 times the identity. All
these normal numbers are different members of the sequence that the generator with the configured seed yields. -/
theorem C98_setup_lorenz63 (E : Env G) (c : Spec.Config3) (params : Json) (hin : c.In params) (N : ℕ) (hv : c.Valid N)
    (s : Sim (AnyProc G) Arr) :
    ∃ (M : ℕ) (x : ℕ → Fin 3 → ℝ) (U : Matrix (Fin 3) (Fin 3) ℝ) (z : ℕ → ℝ) (b : Proc G (Fin 3 → ℝ)) (m : MData (AnyProc G) Arr),
      (s.setup (pyClasses E) params none).2.m_data = m
      ∧ Spec.numObs N c.dt c.density = M
      ∧ z = Spec.draw E.R (Spec.startState E.R E.entropy c.seed)
      ∧ Uᵀ * U = c.dt • c.sys ∧ (∀ i j, j < i → U i j = 0)
      ∧ Spec.PathFrom3 E.R c N (Spec.startState E.R E.entropy c.seed) x U
      ∧ m.model = some (.l63 ⟨b, c.sys, c.theta, c.sys⁻¹⟩)
      ∧ b.timeWindow = .ok (Spec.grid c.t0 c.dt N)
      ∧ b.samplePath = .ok (List.ofFn fun i : Fin (N + 1) => x i)
      ∧ m.obs_t = some (.times (List.ofFn fun i : Fin M => (i + 1) * (N + 1) / (M + 1)))
      ∧ m.obs_y = some (.path 3 (List.ofFn fun (i : Fin M) (l : Fin 3) =>
          x ((i + 1) * (N + 1) / (M + 1)) l + Real.sqrt (c.obs l) * z (3 * (N + 1) + (l * M + i))))
      ∧ m.obs_noise = some (.nd (.mat 3 3 (Matrix.diagonal c.obs)))
      ∧ m.m0 = some (.nd (.vec 3 fun l => x 0 l + 1 / 10 * z (3 * (N + 1) + 3 * M + l)))
      ∧ m.s0 = some (.nd (.mat 3 3 (Matrix.diagonal fun _ => 1 / 5)))
      ∧ m.mu0 = some (.arr (.nd (.vec 3 c.mu0))) ∧ m.tau0 = some (.arr (.nd (.mat 3 3 (Matrix.diagonal c.tau0)))) := by
  obtain ⟨M, hM⟩ := Int.eq_ofNat_of_zero_le (a := Spec.numObs N c.dt c.density) (by have := hv.some_obs; omega)
  obtain ⟨m', x, h1, h2, h3⟩ := setup_total3 E hin hv M hM s.m_data
  obtain ⟨b, hp, hb, htk, hxt, -⟩ := h2.model
  obtain ⟨hU1, hU2⟩ := noiseFactor_posDef c.sys c.dt hv.sys hv.dt
  have e2 : (0.1 : ℝ) = 1 / 10 := by norm_num
  have e3 : ((0.2 : ℝ) • 1 : Matrix (Fin 3) (Fin 3) ℝ) = Matrix.diagonal fun _ => 1 / 5 := by
    rw [Matrix.smul_one_eq_diagonal]
    norm_num
  refine ⟨M, x, _, _, b, m', ?_, hM, rfl, hU1, hU2, h3, hp, ?_, ?_, h2.times, h2.obs, h2.noise, ?_, ?_, h2.mu0, h2.tau0⟩
  · unfold Sim.setup
    rw [h1]
  · simp only [Proc.timeWindow, htk]
  · simp only [Proc.samplePath, hxt]
  · rw [h2.m0, e2]
  · rw [h2.s0, e3]

/-- Non-vacuity of C98: a configuration with 2000 steps. -/
example : Spec.exampleConfig3.In Spec.exampleParams3 ∧ Spec.exampleConfig3.Valid 2000 := ⟨example_in3, example_valid3⟩

/-! ## C99 -/

namespace Spec

/-- `m` and `S` are what the named integrator makes of `dm/dt = -A m + b`, `dS/dt = -A S - S Aᵀ + sys` from the moments `m0` and `S0`, where `A` and
`b` are the piecewise linear functions through the values `a` and `b`. (For the scheme `rk2` nothing is said about `S`, see C17.) -/
def MomentsFollow3 (c : Config3) (meth : Method) {N : ℕ} (a : Fin (N + 1) → Matrix (Fin 3) (Fin 3) ℝ) (b : Fin (N + 1) → Fin 3 → ℝ)
    (m0 : Fin 3 → ℝ) (S0 : Matrix (Fin 3) (Fin 3) ℝ) (m : Fin (N + 1) → Fin 3 → ℝ) (S : Fin (N + 1) → Matrix (Fin 3) (Fin 3) ℝ) : Prop :=
  m 0 = m0 ∧ S 0 = S0 ∧ ∀ (At : ℝ → Matrix (Fin 3) (Fin 3) ℝ) (bt : ℝ → Fin 3 → ℝ), LinInterp c.dt (List.ofFn a) At →
    LinInterp c.dt (List.ofFn b) bt → ∀ k : Fin N,
      m k.succ = step (scheme meth) (fun t y => -(At t *ᵥ y) + bt t) c.dt (k * c.dt) (m k.castSucc)
      ∧ (meth ≠ .rk2 → S k.succ = step (scheme meth) (fun t y => -(At t * y) - y * (At t)ᵀ + c.sys) c.dt (k * c.dt) (S k.castSucc))

/-- The free energy of a Gaussian process with drift `-a x + b` and moments `m`, `S`: the divergence from the prior at the first time, the integral (by
the trapezoidal rule) of half the expected squared difference to the Lorenz-63 drift in the metric of the inverse noise, and the expected
negative log-likelihood of the observations `y` at the grid points `t`. -/
def freeEnergy3 (c : Config3) {N M : ℕ} (y : Fin M → Fin 3 → ℝ) (t : Fin M → Fin (N + 1)) (m0 : Fin 3 → ℝ) (S0 : Matrix (Fin 3) (Fin 3) ℝ)
    (a : Fin (N + 1) → Matrix (Fin 3) (Fin 3) ℝ) (b m : Fin (N + 1) → Fin 3 → ℝ) (S : Fin (N + 1) → Matrix (Fin 3) (Fin 3) ℝ) : ℝ :=
  klN m0 S0 c.mu0 (Matrix.diagonal c.tau0)
    + trapezoidRule c.dt (List.ofFn fun i => 1 / 2 * weightedMismatch (l63Field c.theta) c.sys⁻¹ (a i) (b i) (m i) (S i))
    + ∑ j, obsEnergyN (y j) (Matrix.diagonal c.obs) (m (t j)) (S (t j))

/-- The difference in the prior term: the code multiplies the sum of the squared differences of the means with the sum of the inverse variances. -/
def priorExtra3 (c : Config3) (m0 : Fin 3 → ℝ) : ℝ :=
  1 / 2 * ((∑ i, (m0 i - c.mu0 i) ^ 2) * (∑ i, 1 / c.tau0 i) - ∑ i, (m0 i - c.mu0 i) ^ 2 / c.tau0 i)

/-- The difference in the likelihood term: for observation number `j` the code takes the variances at time index `j` instead of `t j`. -/
def obsExtra3 (c : Config3) {N M : ℕ} (t : Fin M → Fin (N + 1)) (S : Fin (N + 1) → Matrix (Fin 3) (Fin 3) ℝ) (h : M ≤ N + 1) : ℝ :=
  ∑ j : Fin M, ∑ i, (S (Fin.castLE h j) i i - S (t j) i i) / (2 * c.obs i)

/-- The difference in the integral: the code leaves out the entries of the inverse noise off the diagonal. -/
def driftExtra3 (c : Config3) {N : ℕ} (a : Fin (N + 1) → Matrix (Fin 3) (Fin 3) ℝ) (b m : Fin (N + 1) → Fin 3 → ℝ)
    (S : Fin (N + 1) → Matrix (Fin 3) (Fin 3) ℝ) : ℝ :=
  trapezoidRule c.dt (List.ofFn fun i => 1 / 2 * ((∑ l, c.sys⁻¹ l l * mismatchN (l63Field c.theta) (a i) (b i) (m i) (S i) l)
    - weightedMismatch (l63Field c.theta) c.sys⁻¹ (a i) (b i) (m i) (S i)))

/-- The output entry of a series of matrices. -/
def mats {n : ℕ} (a : Fin n → Matrix (Fin 3) (Fin 3) ℝ) : Val :=
  .array ⟨[n, 3, 3], (List.ofFn fun i => (List.ofFn fun p => List.ofFn fun q => a i p q).flatten).flatten⟩

/-- The output entry of a series of vectors. -/
def vecs {n : ℕ} (b : Fin n → Fin 3 → ℝ) : Val := .array ⟨[n, 3], (List.ofFn fun i => List.ofFn (b i)).flatten⟩

end Spec

theorem vals_mats {n : ℕ} (a : Fin n → Matrix (Fin 3) (Fin 3) ℝ) : Val.array ⟨[n, 3, 3], ravel3 (List.ofFn a)⟩ = Spec.mats a := by
  simp only [Spec.mats, ravel3, List.flatMap, List.map_ofFn, Function.comp_def]

theorem vals_vecs {n : ℕ} (b : Fin n → Fin 3 → ℝ) : Val.array ⟨[n, 3], ravel2 (List.ofFn b)⟩ = Spec.vecs b := by
  simp only [Spec.vecs, ravel2, List.flatMap, List.map_ofFn, Function.comp_def]

theorem moments_follow3 {c : Spec.Config3} {meth : Method} {N : ℕ} {a : Fin (N + 1) → Matrix (Fin 3) (Fin 3) ℝ} {b : Fin (N + 1) → Fin 3 → ℝ}
    {m : Fin (N + 1) → Fin 3 → ℝ} {S : Fin (N + 1) → Matrix (Fin 3) (Fin 3) ℝ} {m0 : Fin 3 → ℝ} {S0 : Matrix (Fin 3) (Fin 3) ℝ}
    (h : solveFwd meth (rhsN 3) c.dt (List.ofFn a) (List.ofFn b) m0 S0 c.sys = .ok (List.ofFn m, List.ofFn S)) :
    Spec.MomentsFollow3 c meth a b m0 S0 m S := by
  obtain ⟨hb, -, hm, hs⟩ := solveFwd_inv h
  refine ⟨?_, ?_, fun at_ bt hA hB k => ?_⟩
  · have := congrArg (fun l => l[0]?) hm
    simpa [traj] using this
  · have := congrArg (fun l => l[0]?) hs
    simpa [traj] using this
  · obtain ⟨h1, h2⟩ := C17_forward_steps_nD_partial 3 meth c.dt _ _ m0 S0 c.sys _ _ h at_ bt hA hB
    have e1 := h1 k (by simp)
    simp only [List.getElem_ofFn] at e1
    refine ⟨e1, fun hne => ?_⟩
    have e2 := h2 hne k (by simp)
    simp only [List.getElem_ofFn] at e2
    exact e2

theorem diag_inv3 {d : ℕ} {r : Fin d → ℝ} (h : ∀ i, 0 < r i) : (Matrix.diagonal r)⁻¹ = Matrix.diagonal fun i => (r i)⁻¹ := by
  apply Matrix.inv_eq_left_inv
  rw [Matrix.diagonal_mul_diagonal]
  simp [(h _).ne']

theorem sum_diag3 {d : ℕ} (r : Fin d → ℝ) (S : Matrix (Fin d) (Fin d) ℝ) : ∑ i, ∑ j, (Matrix.diagonal r) i j * S i j = ∑ i, r i * S i i := by
  refine Finset.sum_congr rfl fun i _ => ?_
  rw [Finset.sum_eq_single i]
  · simp
  · intro j _ hj
    rw [Matrix.diagonal_apply_ne _ hj.symm, zero_mul]
  · simp

theorem prior3_meaning {c : Spec.Config3} (h : ∀ i, 0 < c.tau0 i) (m : Fin 3 → ℝ) :
    (⟨c.mu0, Matrix.diagonal c.tau0⟩ : PriorN 3).gauss m ((0.2 : ℝ) • 1)
      = .ok (Spec.klN m ((0.2 : ℝ) • 1) c.mu0 (Matrix.diagonal c.tau0) + Spec.priorExtra3 c m) := by
  rw [prior3_ok h, klN_eq (Matrix.PosDef.one.smul (by norm_num))]
  congr 1
  rw [diag_inv3 h]
  have e1 : ∑ i, ∑ j, (Matrix.diagonal fun i => (c.tau0 i)⁻¹) i j = ∑ i, 1 / c.tau0 i := by
    have := sum_diag3 (fun i => (c.tau0 i)⁻¹) (Matrix.of fun _ _ => 1)
    simpa using this
  have e2 : (m - c.mu0) ⬝ᵥ (Matrix.diagonal fun i => (c.tau0 i)⁻¹) *ᵥ (m - c.mu0) = ∑ i, (m i - c.mu0 i) ^ 2 / c.tau0 i := by
    simp only [dotProduct, Matrix.mulVec_diagonal, Pi.sub_apply]
    exact Finset.sum_congr rfl fun i _ => by ring
  have e3 : (m - c.mu0) ⬝ᵥ (m - c.mu0) = ∑ i, (m i - c.mu0 i) ^ 2 := by
    simp only [dotProduct, Pi.sub_apply]
    exact Finset.sum_congr rfl fun i _ => by ring
  rw [e1, e2, e3]
  unfold Spec.priorExtra3
  ring

theorem like3_meaning {c : Spec.Config3} (hr : ∀ i, 0 < c.obs i) {N M : ℕ} (y : Fin M → Fin 3 → ℝ) (t : Fin M → Fin (N + 1)) (hk : M ≤ N + 1)
    (m : Fin (N + 1) → Fin 3 → ℝ) (S : Fin (N + 1) → Matrix (Fin 3) (Fin 3) ℝ) (hS : ∀ i, (S i).PosSemidef) :
    (⟨List.ofFn y, List.ofFn fun j => (t j : ℕ), Matrix.diagonal c.obs, 1⟩ : LikeN 3).gauss (List.ofFn m) (List.ofFn S)
      = .ok ((∑ j, Spec.obsEnergyN (y j) (Matrix.diagonal c.obs) (m (t j)) (S (t j))) + Spec.obsExtra3 c t S hk) := by
  rw [likeN_gauss_eq (Matrix.PosDef.diagonal hr) y t hk]
  congr 1
  unfold Spec.obsExtra3
  rw [← Finset.sum_add_distrib]
  refine Finset.sum_congr rfl fun j _ => ?_
  rw [obsEnergyN_eq (hS _), diag_inv3 hr, sum_diag3]
  have e : ∑ i, (S (Fin.castLE hk j) i i - S (t j) i i) / (2 * c.obs i)
      = 1 / 2 * (∑ i, (c.obs i)⁻¹ * S (Fin.castLE hk j) i i) - 1 / 2 * ∑ i, (c.obs i)⁻¹ * S (t j) i i := by
    rw [Finset.mul_sum, Finset.mul_sum, ← Finset.sum_sub_distrib]
    refine Finset.sum_congr rfl fun i _ => ?_
    have := (hr i).ne'
    field_simp
  rw [e]
  simp only [Matrix.diagonal_apply_eq]
  ring

/-- What C99 says: up to `extra`, the reported number is the free energy of the reported parameters. -/
def Spec.EnergyMeaning3 (E : Env G) (c : Spec.Config3) (N : ℕ) (s : Sim (AnyProc G) Arr)
    (extra : ∀ {M : ℕ}, (Fin M → Fin (N + 1)) → M ≤ N + 1 → (Fin 3 → ℝ) → (Fin (N + 1) → Matrix (Fin 3) (Fin 3) ℝ) → (Fin (N + 1) → Fin 3 → ℝ) →
      (Fin (N + 1) → Fin 3 → ℝ) → (Fin (N + 1) → Matrix (Fin 3) (Fin 3) ℝ) → ℝ) : Prop :=
  ∃ (M : ℕ) (hM : M ≤ N + 1) (y : Fin M → Fin 3 → ℝ) (t : Fin M → Fin (N + 1)) (m0 : Fin 3 → ℝ) (meth : Method)
    (a : Fin (N + 1) → Matrix (Fin 3) (Fin 3) ℝ) (b m : Fin (N + 1) → Fin 3 → ℝ) (S : Fin (N + 1) → Matrix (Fin 3) (Fin 3) ℝ) (fx : ℝ),
    s.m_data.obs_y = some (.path 3 (List.ofFn y)) ∧ s.m_data.obs_t = some (.times (List.ofFn fun j => (t j : ℕ)))
    ∧ s.m_data.m0 = some (.nd (.vec 3 m0)) ∧ pyLower c.method = pyLower (docName meth)
    ∧ (s.run (pyClasses E)).2.output.lookup "at" = some (Spec.mats a)
    ∧ (s.run (pyClasses E)).2.output.lookup "bt" = some (Spec.vecs b)
    ∧ (s.run (pyClasses E)).2.output.lookup "fx" = some (.scalar fx)
    ∧ Spec.MomentsFollow3 c meth a b m0 (Matrix.diagonal fun _ => 1 / 5) m S
    ∧ ((∀ i, (S i).PosSemidef) → fx = Spec.freeEnergy3 c y t m0 (Matrix.diagonal fun _ => 1 / 5) a b m S + extra t hM m0 a b m S)
    ∧ (((s.run (pyClasses E)).2.output.lookup "mt" = some (Spec.vecs m)
        ∧ (s.run (pyClasses E)).2.output.lookup "st" = some (Spec.mats S))
      ∨ ∃ p q x0, Spec.Builds (pyClasses E) s.m_data p q x0 ∧ Spec.UsesAllIterations q x0)

/-- C99: for every valid Lorenz-63 configuration, the reported `fx` is the free energy of the reported `at`, `bt`, up to the three
differences `priorExtra3` (see C56), `obsExtra3` (see C53) and `driftExtra3` (see C83). Missing: without these differences it would be
the free energy; runs in which an integrator makes a covariance that is not positive semidefinite; stored moments of runs that use up the 500 iterations. -/
theorem C99_lorenz63_partial (E : Env G) (c : Spec.Config3) (params : Json) (hin : c.In params) (N : ℕ) (hv : c.Valid N)
    (s : Sim (AnyProc G) Arr) :
    Spec.EnergyMeaning3 E c N (s.setup (pyClasses E) params none).2
      (fun t hM m0 a b m S => Spec.priorExtra3 c m0 + Spec.obsExtra3 c t S hM + Spec.driftExtra3 c a b m S) := by
  obtain ⟨M, hM⟩ := Int.eq_ofNat_of_zero_le (a := Spec.numObs N c.dt c.density) (by have := hv.some_obs; omega)
  obtain ⟨m', x, h1, h2, h3⟩ := setup_total3 E hin hv M hM s.m_data
  have hs : (s.setup (pyClasses E) params none).2.m_data = m' := by
    unfold Sim.setup
    rw [h1]
  rw [← hs] at h2
  generalize (s.setup (pyClasses E) params none).2 = s' at h2 ⊢
  clear h1 hs
  have hlt : M < N := by have := hv.not_all; omega
  obtain ⟨pb, meth, x0, z, fx, v', hstep, hmeth, hone, htk, hxt, hb, hx0, ho, hz⟩ := run_builds3 E hv hM h2
  have hrun := runBody_builds.2 ⟨_, x0, hb, ho⟩
  obtain ⟨p', z', fx', g', A, B, hr, hA, hB, hout⟩ := run_ok_output _ s' (run_total3 E hv hM h2)
  rw [hrun] at hr
  injection hr with hr
  simp only [Prod.mk.injEq] at hr
  obtain ⟨rfl, rfl, rfl, rfl⟩ := hr
  replace hout : (s'.run (pyClasses E)).2.output
      = (((s'.output.put "at" (.array A)).put "bt" (.array B)).put "fx" (.scalar fx)).update v'.argOut := by rw [hout]; rfl
  obtain ⟨-, hfe, -, hlast⟩ := optimize_ok ho
  obtain ⟨a, b, -, -, -, -, hab⟩ := (C58_unpack_pack_nd (n := N + 1) (d := 3) (by norm_num) z).1 hz
  subst hab
  have hlen : (proc3 c pb).pathLength = .ok (N + 1) := by
    simp [AnyProc.pathLength, proc3, Proc.samplePath, hxt, Except.map]
  have hdim : (proc3 c pb).dim = 3 := rfl
  have hone' : (proc3 c pb).singleDim = false := hone
  have hla : (ravel3 (List.ofFn a)).length = (N + 1) * 3 * 3 := by rw [ravel3_length]; simp; ring
  have hlb : (ravel2 (List.ofFn b)).length = (N + 1) * 3 := by rw [ravel2_length]; simp
  have hA' : A = ⟨[N + 1, 3, 3], ravel3 (List.ofFn a)⟩ := by
    simp only [pyClasses, AnyProc.unpackA, hlen, hone', hdim, py_ok_bind, Bool.false_eq_true, if_false, ← hla, List.take_left, if_true, pure,
      Except.pure] at hA
    injection hA with hA
    exact hA.symm
  have hB' : B = ⟨[N + 1, 3], ravel2 (List.ofFn b)⟩ := by
    simp only [pyClasses, AnyProc.unpackB, hlen, hone', hdim, py_ok_bind, Bool.false_eq_true, if_false, ← hla, List.drop_left, hlb, if_true, pure,
      Except.pure] at hB
    injection hB with hB
    exact hB.symm
  subst hA' hB'
  set w := vgpConfig3 E.R c pb meth x (Spec.startState E.R E.entropy c.seed) N M with hw
  have hfe' : ∃ ca, w.eval (shapeN 3) (ravel3 (List.ofFn a) ++ ravel2 (List.ofFn b)) = .ok (fx, ca) := by
    simp only [AnyVgp.freeEnergy, VarGP.freeEnergy] at hfe
    rcases he : w.eval (shapeN 3) (ravel3 (List.ofFn a) ++ ravel2 (List.ofFn b)) with e | ⟨F, ca⟩
    · rw [he] at hfe; cases hfe
    · rw [he] at hfe; cases hfe; exact ⟨ca, rfl⟩
  obtain ⟨ca, hev⟩ := hfe'
  obtain ⟨a', b', e, dE, E0, Eobs, h1, h2', h3', h4, h5, h6, h7, h8⟩ := eval_ok (shapeN 3) w _ _ _ hev
  have hu := (C58_pack_unpack_nd (by norm_num) a b).2.1
  rw [show w.dim_n = N + 1 from rfl, hu] at h1
  cases h1
  obtain ⟨mt, st, hs1, hml, hsl, -⟩ := (C16_forward_shapes w.fwd_ode.solver (rhsN 3) w.fwd_ode.dt (List.ofFn a) (List.ofFn b)
    w.m0 w.s0 w.model.sigma).1 ⟨by simp, Or.inl (by simp)⟩
  rw [show (shapeN 3).rhs = rhsN 3 from rfl, hs1] at h2'
  injection h2' with h2'
  simp only [Prod.mk.injEq] at h2'
  obtain ⟨rfl, rfl⟩ := h2'
  obtain ⟨m, hm⟩ := list_eq_ofFn (hml.trans (List.length_ofFn))
  obtain ⟨S, hS⟩ := list_eq_ofFn (hsl.trans (List.length_ofFn))
  rw [hm, hS] at hs1 h4 h5
  have e3 : ((0.2 : ℝ) • 1 : Matrix (Fin 3) (Fin 3) ℝ) = Matrix.diagonal fun _ => 1 / 5 := by
    rw [Matrix.smul_one_eq_diagonal]
    norm_num
  have hmom : Spec.MomentsFollow3 c meth a b w.m0 w.s0 m S := moments_follow3 hs1
  have hws : w.s0 = Matrix.diagonal fun _ => 1 / 5 := e3
  refine ⟨M, by omega, _, obsIdx N M hlt, w.m0, meth, a, b, m, S, fx, h2.obs, h2.times, h2.m0, hmeth, ?_, ?_, ?_, hws ▸ hmom, fun hps => ?_, ?_⟩
  · rw [hout, lookup_update _ _ (argOut_distinct v'), argOut_none v' _ (by simp)]
    rw [← vals_mats]
    simp [lookup_put]
  · rw [hout, lookup_update _ _ (argOut_distinct v'), argOut_none v' _ (by simp)]
    rw [← vals_vecs]
    simp [lookup_put]
  · rw [hout, lookup_update _ _ (argOut_distinct v'), argOut_none v' _ (by simp)]
    simp [lookup_put]
  · have hp0 := prior3_meaning hv.tau0 w.m0
    have hE0 : E0 = _ := Except.ok.inj (h3'.symm.trans hp0)
    have hl0 := like3_meaning hv.obs (fun (i : Fin M) (l : Fin 3) => x (eqIdx N M i) l
      + Real.sqrt (c.obs l) * Spec.draw E.R (Spec.startState E.R E.entropy c.seed) (3 * (N + 1) + (l * M + i))) (obsIdx N M hlt) (by omega) m S hps
    have hEo : Eobs = _ := Except.ok.inj (h5.symm.trans hl0)
    have hgrid : Spec.HasGrid pb (N + 1) c.dt := ⟨_, htk, by simp [Spec.grid], hstep⟩
    have hsort : Spec.ObsSorted (some w.obs_t) := by
      intro l hl
      cases hl
      rw [show w.obs_t = List.ofFn fun i : Fin M => eqIdx N M i from rfl, List.pairwise_ofFn]
      exact fun i j hij => ((eqIdx_spec N M hlt.le).1 i j hij).le
    obtain ⟨⟨e', he', hE⟩, -⟩ := C44_energy (⟨pb, c.sys, c.theta, c.sys⁻¹⟩ : L63 G) a b m S (some w.obs_t) c.dt hgrid hsort hps
    have h4' : (L63.sde (⟨pb, c.sys, c.theta, c.sys⁻¹⟩ : L63 G)).energy (List.ofFn a) (List.ofFn b) (List.ofFn m) (List.ofFn S) w.obs_t = .ok e := h4
    simp only [L63.sde, he', py_ok_bind] at h4'
    have hee : e.Esde = e'.Esde := by cases h4'; rfl
    rw [h8.2.2, hE0, hEo, hee, hE, ← e3]
    have hsplit : Spec.trapezoidRule c.dt (List.ofFn fun t => 1 / 2 * ∑ i, c.sys⁻¹ i i
        * Spec.mismatchN (Spec.l63Field c.theta) (a t) (b t) (m t) (S t) i)
        = Spec.driftExtra3 c a b m S + Spec.trapezoidRule c.dt (List.ofFn fun i => 1 / 2
          * Spec.weightedMismatch (Spec.l63Field c.theta) c.sys⁻¹ (a i) (b i) (m i) (S i)) := by
      unfold Spec.driftExtra3
      rw [← sub_eq_iff_eq_add, ← rule_sub_ofFn]
      congr 2
      funext i
      ring
    rw [hsplit]
    unfold Spec.freeEnergy3
    ring
  · rcases hlast with hl | ⟨hall, -⟩
    · refine .inl ?_
      have hv' : v' = .many 3 { w with cache := some ca } := by
        rw [hl]
        simp only [AnyVgp.freeEnergy, VarGP.freeEnergy, hev]
      rw [hout, lookup_update _ _ (argOut_distinct v'), lookup_update _ _ (argOut_distinct v'), hv']
      have e1 : (AnyVgp.argOut (.many 3 { w with cache := some ca })).lookup "mt" = some (AnyVgp.arr2 ca.mt) := rfl
      have e2 : (AnyVgp.argOut (.many 3 { w with cache := some ca })).lookup "st" = some (AnyVgp.arr3 ca.st) := rfl
      rw [e1, e2, hm, hS]
      rw [← vals_mats, ← vals_vecs]
      simp [AnyVgp.arr2, AnyVgp.arr3]
    · exact .inr ⟨_, _, x0, hb, hall⟩

theorem weighted_diag {θ v : Fin 3 → ℝ} (a : Matrix (Fin 3) (Fin 3) ℝ) (b m : Fin 3 → ℝ) {S : Matrix (Fin 3) (Fin 3) ℝ} (hS : S.PosSemidef) :
    Spec.weightedMismatch (Spec.l63Field θ) (Matrix.diagonal v) a b m S = ∑ l, v l * Spec.mismatchN (Spec.l63Field θ) a b m S l := by
  unfold Spec.weightedMismatch Spec.mismatchN Spec.mvE
  have he : ∀ x : EuclideanSpace ℝ (Fin 3), (Spec.l63Field θ (ofLp x) - (-(a *ᵥ ofLp x) + b)) ⬝ᵥ (Matrix.diagonal v) *ᵥ
      (Spec.l63Field θ (ofLp x) - (-(a *ᵥ ofLp x) + b))
      = ∑ i, v i * (Spec.l63Field θ (ofLp x) i - (-(a *ᵥ ofLp x) i + b i)) ^ 2 := by
    intro x
    simp only [dotProduct, Matrix.mulVec_diagonal]
    refine Finset.sum_congr rfl fun i _ => ?_
    simp only [Pi.sub_apply, Pi.add_apply, Pi.neg_apply]
    ring
  simp only [he]
  have h3 : ∀ i, Integrable (fun x => (Spec.l63Field θ (ofLp x) i - (-(a *ᵥ ofLp x) i + b i)) ^ 2)
      (multivariateGaussian (toLp 2 m) S) := fun i => by
    simp only [l63_mismatch_quad]
    exact integrable_quad_sq hS _ _ _ _ _
  rw [integral_finsetSum _ fun i _ => (h3 i).const_mul _]
  simp only [integral_const_mul]

theorem driftExtra3_diag {c : Spec.Config3} {v : Fin 3 → ℝ} (hv : ∀ i, 0 < v i) (hc : c.sys = Matrix.diagonal v) {N : ℕ}
    (a : Fin (N + 1) → Matrix (Fin 3) (Fin 3) ℝ) (b m : Fin (N + 1) → Fin 3 → ℝ) {S : Fin (N + 1) → Matrix (Fin 3) (Fin 3) ℝ}
    (hS : ∀ i, (S i).PosSemidef) : Spec.driftExtra3 c a b m S = 0 := by
  unfold Spec.driftExtra3
  rw [hc, diag_inv3 hv]
  have : (fun i => 1 / 2 * ((∑ l, (Matrix.diagonal fun i => (v i)⁻¹) l l * Spec.mismatchN (Spec.l63Field c.theta) (a i) (b i) (m i) (S i) l)
      - Spec.weightedMismatch (Spec.l63Field c.theta) (Matrix.diagonal fun i => (v i)⁻¹) (a i) (b i) (m i) (S i))) = fun i => (0 : ℝ) • (0 : ℝ) := by
    funext i
    rw [weighted_diag _ _ _ (hS i)]
    simp only [Matrix.diagonal_apply_eq, smul_zero]
    ring
  rw [this, rule_smul_ofFn, zero_smul]

/-- C99 for uncorrelated noise: the difference `driftExtra3` is zero, the other two remain. -/
theorem C99_diagonal_partial (E : Env G) (c : Spec.Config3) (params : Json) (hin : c.In params) (N : ℕ) (hv : c.Valid N)
    (v : Fin 3 → ℝ) (hc : c.sys = Matrix.diagonal v) (s : Sim (AnyProc G) Arr) :
    Spec.EnergyMeaning3 E c N (s.setup (pyClasses E) params none).2 (fun t hM m0 _ _ _ S => Spec.priorExtra3 c m0 + Spec.obsExtra3 c t S hM) := by
  obtain ⟨M, hM, y, t, m0, meth, a, b, m, S, fx, h1, h2, h3, h4, h5, h6, h7, h8, h9, h10⟩ := C99_lorenz63_partial E c params hin N hv s
  refine ⟨M, hM, y, t, m0, meth, a, b, m, S, fx, h1, h2, h3, h4, h5, h6, h7, h8, fun hps => ?_, h10⟩
  have hpos : ∀ i, 0 < v i := fun i => by
    have := hv.sys.diag_pos (i := i)
    rwa [hc, Matrix.diagonal_apply_eq] at this
  rw [h9 hps]
  dsimp only
  rw [driftExtra3_diag hpos hc _ _ _ hps, add_zero]

/-- Non-vacuity of C99. -/
example : Spec.exampleConfig3.In Spec.exampleParams3 ∧ Spec.exampleConfig3.Valid 2000 ∧ Spec.exampleConfig3.sys = Matrix.diagonal ![10, 10, 10] :=
  ⟨example_in3, example_valid3, rfl⟩

end

end VGPA
