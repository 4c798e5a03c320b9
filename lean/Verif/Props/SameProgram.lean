import Verif.Model.VarGP
import Verif.Props.BadNumbers
import Verif.Props.Units

/-!
# C143: the program in double precision and the program over the reals are the same program
-/

namespace VGPA

/-- Exact real arithmetic. -/
noncomputable def realLibm : Libm ℝ where
  lit q := q
  pi := Real.pi
  pow a k := a ^ k
  log := Real.log
  sum := List.sum

theorem real_lit (q : ℚ) : realLibm.lit q = (q : ℝ) := rfl

theorem real_midpoints (x : List ℝ) : midpointsF realLibm x = midpoints x := by
  unfold midpointsF midpoints
  congr 1
  funext p q
  simp only [real_lit, smul_eq_mul]
  norm_num

theorem real_solveFwd (method : Method) (dt : ℝ) (a b : List ℝ) (m0 s0 sigma : ℝ) :
    solveFwdF realLibm method dt a b m0 s0 sigma = solveFwd method rhs1 dt a b m0 s0 sigma := by
  unfold solveFwdF solveFwd
  cases method
  · unfold Euler.solveFwd
    congr 1
    congr 1
    funext k x
    obtain ⟨mk, sk⟩ := x
    simp only [stepF, rhs1, funMtF, funStF, real_lit, smul_eq_mul]
    congr 1
    funext ak
    congr 1
    funext bk
    norm_num
    constructor <;> ring
  · unfold Heun.solveFwd
    congr 1
    congr 1
    funext k x
    obtain ⟨mk, sk⟩ := x
    simp only [stepF, rhs1, funMtF, funStF, real_lit, smul_eq_mul]
    congr 1
    funext ak
    congr 1
    funext bk
    congr 1
    funext ap
    congr 1
    funext bp
    simp only [py_pure, Except.ok.injEq, Prod.mk.injEq, show (0.5 : ℝ) = 1 / 2 by norm_num]
    push_cast
    constructor <;> ring
  · unfold RK2.solveFwd
    congr 1
    congr 1
    funext k x
    obtain ⟨mk, sk⟩ := x
    simp only [stepF, rhs1, funMtF, funStF, real_lit, smul_eq_mul, real_midpoints]
    congr 1
    funext ak
    congr 1
    funext bk
    congr 1
    funext am
    congr 1
    funext bm
    norm_num
  · unfold RK4.solveFwd
    congr 1
    congr 1
    funext k x
    obtain ⟨mk, sk⟩ := x
    simp only [stepF, rhs1, funMtF, funStF, real_lit, smul_eq_mul, real_midpoints]
    congr 1
    funext ak
    congr 1
    funext bk
    congr 1
    funext am
    congr 1
    funext bm
    congr 1
    funext an
    congr 1
    funext bn
    norm_num
    constructor <;> ring

theorem real_trapezoid (dx : ℝ) (y : List ℝ) : trapezoidF realLibm dx y = trapezoid dx y := by
  unfold trapezoidF trapezoid
  show List.sum _ = List.sum _
  congr 2
  funext p q
  simp only [real_lit, smul_eq_mul]
  push_cast
  ring

theorem real_myTrapz (fx : List ℝ) (dx : ℝ) (obs : List ℕ) : myTrapzF realLibm fx dx obs = myTrapz fx dx (some obs) := by
  unfold myTrapzF myTrapz
  have : trapzBodyF realLibm fx dx = fun acc l => (acc.1 + trapezoid dx (slice fx acc.2 (l + 1)), l) := by
    funext acc l
    simp [trapzBodyF, real_trapezoid]
  simp only [this, real_trapezoid]

theorem real_gauss (o : Like1) (m s : List ℝ) : gaussF realLibm o.obs_v o.obs_t o.obs_n m s = o.gauss m s := by
  unfold gaussF Like1.gauss
  have e : (fun y m : ℝ => realLibm.pow y 2 - realLibm.lit 2 * y * m) = fun y m => y ^ 2 - 2.0 * y * m := by
    funext y m
    show y ^ 2 - ((2 : ℚ) : ℝ) * y * m = _
    norm_num
  simp only [e]
  congr 1
  funext mo
  congr 1
  funext so
  congr 1
  funext q
  congr 1
  funext r
  simp only [real_lit, log2pi]
  show Except.ok (_ * r.sum / _ + _ * _ * (Real.log _ + Real.log _)) = Except.ok _
  norm_num [real_lit, realLibm]

theorem real_prior (o : Prior1) (m0 s0 : ℝ) : priorF realLibm o.mu0 o.tau0 m0 s0 = o.gauss m0 s0 := by
  unfold priorF Prior1.gauss
  show -Real.log s0 - ((1 / 2 : ℚ) : ℝ) * (((1 : ℚ) : ℝ) - Real.log o.tau0) + ((1 / 2 : ℚ) : ℝ) / o.tau0 * ((m0 - o.mu0) ^ 2 + s0) = _
  norm_num

theorem real_energy_ou {G : Type} (o : OU G) {a b m s : List ℝ} {t : List ℕ} {e : Energy1} {dt : ℝ} (hdt : o.base.timeStep = .ok dt)
    (h : o.energy a b m s (some t) = .ok e) : energyF realLibm .ou o.theta o.sigma dt a b m s t = .ok e.Esde := by
  unfold OU.energy GaussianMoments.init at h
  rw [hdt] at h
  split at h
  · cases h
  rename_i hl
  have c2 : ∀ g : GaussianMoments, g.call 2 = .ok (List.zipWith (fun m v => m ^ 2 + v) g.m_arr g.v_arr) := fun _ => rfl
  simp only [py_ok_bind, c2] at h
  split at h
  · cases h
  rename_i hl2
  push Not at hl hl2
  unfold energyF
  rw [if_pos ⟨hl2.1, hl2.2, hl.symm⟩]
  rw [← Except.ok.inj h]
  simp only [real_myTrapz]
  have hv : ((List.range m.length).map fun i => Proc1.ou.pointF realLibm o.theta (a.getD i 0) (b.getD i 0) (m.getD i 0) (s.getD i 0)) =
      tab m.length fun i => ent (List.zipWith (fun m v => m ^ 2 + v) m s) i * ent (tab m.length fun i => (o.theta - ent a i) ^ 2) i +
        2.0 * ent m i * (o.theta - ent a i) * ent b i + ent b i ^ 2 := by
    refine List.map_congr_left fun i hi => ?_
    have hi := List.mem_range.1 hi
    have e1 : ent (List.zipWith (fun m v => m ^ 2 + v) m s) i = m.getD i 0 ^ 2 + s.getD i 0 := by
      simp [ent, List.getD, hi, show i < s.length by omega]
    have e2 : ent (tab m.length fun i => (o.theta - ent a i) ^ 2) i = (o.theta - a.getD i 0) ^ 2 := by
      simp [ent, tab, List.getD, hi]
    rw [e1, e2]
    show (m.getD i 0 ^ 2 + s.getD i 0) * (o.theta - a.getD i 0) ^ 2 + ((2 : ℚ) : ℝ) * m.getD i 0 * (o.theta - a.getD i 0) * b.getD i 0 +
      b.getD i 0 ^ 2 = _
    simp only [ent, show (2.0 : ℝ) = 2 by norm_num]
    push_cast
    ring
  rw [hv, real_lit]
  norm_num

theorem real_energy_dw {G : Type} (o : DW G) {a b m s : List ℝ} {t : List ℕ} {e : Energy1} {dt : ℝ} (hdt : o.base.timeStep = .ok dt)
    (h : o.energy a b m s (some t) = .ok e) : energyF realLibm .dw o.theta o.sigma dt a b m s t = .ok e.Esde := by
  unfold DW.energy GaussianMoments.init at h
  rw [hdt] at h
  split at h
  · cases h
  rename_i hl
  have c2 : ∀ g : GaussianMoments, g.call 2 = .ok (List.zipWith (fun m v => m ^ 2 + v) g.m_arr g.v_arr) := fun _ => rfl
  have c3 : ∀ g : GaussianMoments, g.call 3 = .ok (List.zipWith (fun m v => m ^ 3 + 3 * m * v) g.m_arr g.v_arr) := fun _ => rfl
  have c4 : ∀ g : GaussianMoments, g.call 4 = .ok (List.zipWith (fun m v => m ^ 4 + 6 * (m ^ 2) * v + 3 * (v ^ 2)) g.m_arr g.v_arr) :=
    fun _ => rfl
  have c6 : ∀ g : GaussianMoments, g.call 6 = .ok (List.zipWith (fun m v =>
    m ^ 6 + 15 * (m ^ 4) * v + 45 * (m ^ 2) * (v ^ 2) + 15 * (v ^ 3)) g.m_arr g.v_arr) := fun _ => rfl
  simp only [py_ok_bind, c2, c3, c4, c6] at h
  split at h
  · cases h
  rename_i hl2
  push Not at hl hl2
  have d1 : ∀ (g : GaussianMoments) (k : ℤ), k = 2 ∨ k = 3 ∨ k = 4 ∨ k = 6 → ∃ r, g.dm k = .ok r := by
    rintro g k (rfl | rfl | rfl | rfl) <;> exact ⟨_, rfl⟩
  have d2 : ∀ (g : GaussianMoments) (k : ℤ), k = 2 ∨ k = 3 ∨ k = 4 ∨ k = 6 → ∃ r, g.ds k = .ok r := by
    rintro g k (rfl | rfl | rfl | rfl) <;> exact ⟨_, rfl⟩
  obtain ⟨r2, h2⟩ := d1 ⟨m, s, m.length⟩ 2 (by simp)
  obtain ⟨r3, h3⟩ := d1 ⟨m, s, m.length⟩ 3 (by simp)
  obtain ⟨r4, h4⟩ := d1 ⟨m, s, m.length⟩ 4 (by simp)
  obtain ⟨r6, h6⟩ := d1 ⟨m, s, m.length⟩ 6 (by simp)
  obtain ⟨q2, k2⟩ := d2 ⟨m, s, m.length⟩ 2 (by simp)
  obtain ⟨q3, k3⟩ := d2 ⟨m, s, m.length⟩ 3 (by simp)
  obtain ⟨q4, k4⟩ := d2 ⟨m, s, m.length⟩ 4 (by simp)
  obtain ⟨q6, k6⟩ := d2 ⟨m, s, m.length⟩ 6 (by simp)
  simp only [h2, h3, h4, h6, k2, k3, k4, k6, py_ok_bind] at h
  unfold energyF
  rw [if_pos ⟨hl2.1, hl2.2, hl.symm⟩]
  rw [← Except.ok.inj h]
  simp only [real_myTrapz]
  have hv : ((List.range m.length).map fun i => Proc1.dw.pointF realLibm o.theta (a.getD i 0) (b.getD i 0) (m.getD i 0) (s.getD i 0)) =
      tab m.length fun i =>
      8.0 * (ent (List.zipWith (fun m v => m ^ 6 + 15 * (m ^ 4) * v + 45 * (m ^ 2) * (v ^ 2) + 15 * (v ^ 3)) m s) i -
          ent (tab m.length fun i => (4.0 * o.theta) + ent a i) i *
          ent (List.zipWith (fun m v => m ^ 4 + 6 * (m ^ 2) * v + 3 * (v ^ 2)) m s) i +
          ent b i * ent (List.zipWith (fun m v => m ^ 3 + 3 * m * v) m s) i) +
        (ent (tab m.length fun i => ent (tab m.length fun i => (4.0 * o.theta) + ent a i) i ^ 2) i *
          ent (List.zipWith (fun m v => m ^ 2 + v) m s) i)
        - (2.0 * ent b i * ent (tab m.length fun i => (4.0 * o.theta) + ent a i) i * ent m i) + (ent b i ^ 2) := by
    refine List.map_congr_left fun i hi => ?_
    have hi := List.mem_range.1 hi
    have e1 : ∀ f : ℝ → ℝ → ℝ, ent (List.zipWith f m s) i = f (m.getD i 0) (s.getD i 0) := fun f => by
      simp [ent, List.getD, hi, show i < s.length by omega]
    have e2 : ∀ f : ℕ → ℝ, ent (tab m.length f) i = f i := fun f => by simp [ent, tab, List.getD, hi]
    simp only [e1, e2]
    simp only [Proc1.pointF, dwPointF, realLibm, ent, show (2.0 : ℝ) = 2 by norm_num, show (4.0 : ℝ) = 4 by norm_num,
      show (8.0 : ℝ) = 8 by norm_num]
    push_cast
    ring
  rw [hv, real_lit]
  norm_num

/-! ## The whole function -/

theorem real_freeEnergy (w : VarGP ℝ ℝ) (lk : Like1) (K : Prior1) (p : Proc1) (theta dt : ℝ) (x : List ℝ) (F : ℝ) (c : VgpCache ℝ ℝ)
    (hlk : w.likelihood = lk.toIf) (hK : ∀ m s, w.kl0 m s = .ok (K.gauss m s)) (ht : w.obs_t = lk.obs_t)
    (he : ∀ a b m s e, w.model.energy a b m s w.obs_t = .ok e → energyF realLibm p theta w.model.sigma dt a b m s w.obs_t = .ok e.Esde)
    (h : w.eval shape1 x = .ok (F, c)) :
    VgpF.freeEnergy realLibm ⟨p, theta, w.model.sigma, dt, w.fwd_ode.solver, w.fwd_ode.dt, lk.obs_v, lk.obs_t, lk.obs_n, K.mu0, K.tau0,
      w.m0, w.s0, w.dim_n⟩ x = .ok (F, c.mt, c.st) := by
  unfold VarGP.eval at h
  simp only [shape1, py_ok_bind] at h
  unfold VgpF.freeEnergy
  simp only [real_solveFwd, real_gauss, real_prior]
  cases h1 : solveFwd w.fwd_ode.solver rhs1 w.fwd_ode.dt (x.take (w.dim_n * 1 * 1)) (x.drop (w.dim_n * 1 * 1)) w.m0 w.s0 w.model.sigma with
  | error e => rw [h1] at h; cases h
  | ok ms =>
  obtain ⟨mt, st⟩ := ms
  rw [h1] at h
  simp only [py_ok_bind, hlk, Like1.toIf] at h ⊢
  cases h2 : lk.gauss mt st with
  | error e => rw [h2] at h; cases h
  | ok Eobs =>
  rw [h2] at h
  simp only [py_ok_bind] at h ⊢
  cases h3 : w.model.energy (x.take (w.dim_n * 1 * 1)) (x.drop (w.dim_n * 1 * 1)) mt st w.obs_t with
  | error e => rw [h3] at h; cases h
  | ok e =>
  rw [h3] at h
  have h4 := he _ _ _ _ _ h3
  rw [ht] at h4
  rw [h4]
  simp only [py_ok_bind] at h ⊢
  cases h5 : lk.gradients mt st with
  | error e => rw [h5] at h; cases h
  | ok g =>
  rw [h5] at h
  simp only [py_ok_bind, py_pure] at h
  cases h6 : solveBwd w.bwd_ode.solver rhs1 w.bwd_ode.dt (x.take (w.dim_n * 1 * 1)) e.dm e.ds g.1 g.2.1 with
  | error e => rw [h6] at h; cases h
  | ok lp =>
  rw [h6] at h
  simp only [py_ok_bind, hK, Except.ok.injEq, Prod.mk.injEq] at h
  obtain ⟨rfl, rfl⟩ := h
  simp

/-- The program of the theorems above, with real numbers in place of doubles, is the program of all other theorems: whenever `free_energy`
of the Ornstein-Uhlenbeck process returns, they agree in the value and in the means and variances. -/
theorem C143_same_program_ou {G : Type} (o : OU G) (w : VarGP ℝ ℝ) (lk : Like1) (K : Prior1) (dt : ℝ) (x : List ℝ) (F : ℝ)
    (c : VgpCache ℝ ℝ) (hm : w.model = o.sde) (hdt : o.base.timeStep = .ok dt) (hlk : w.likelihood = lk.toIf)
    (hK : ∀ m s, w.kl0 m s = .ok (K.gauss m s)) (ht : w.obs_t = lk.obs_t) (h : w.eval shape1 x = .ok (F, c)) :
    VgpF.freeEnergy realLibm ⟨.ou, o.theta, o.sigma, dt, w.fwd_ode.solver, w.fwd_ode.dt, lk.obs_v, lk.obs_t, lk.obs_n, K.mu0, K.tau0,
      w.m0, w.s0, w.dim_n⟩ x = .ok (F, c.mt, c.st) := by
  have := real_freeEnergy w lk K .ou o.theta dt x F c hlk hK ht (fun a b m s e hh => by
    rw [hm] at hh ⊢
    simp only [OU.sde] at hh ⊢
    obtain ⟨e', h1, h2⟩ := py_bind_ok.1 hh
    rw [← Except.ok.inj h2]
    exact real_energy_ou o hdt h1) h
  rwa [hm] at this

/-- The same for the double well. -/
theorem C143_same_program_dw {G : Type} (o : DW G) (w : VarGP ℝ ℝ) (lk : Like1) (K : Prior1) (dt : ℝ) (x : List ℝ) (F : ℝ)
    (c : VgpCache ℝ ℝ) (hm : w.model = o.sde) (hdt : o.base.timeStep = .ok dt) (hlk : w.likelihood = lk.toIf)
    (hK : ∀ m s, w.kl0 m s = .ok (K.gauss m s)) (ht : w.obs_t = lk.obs_t) (h : w.eval shape1 x = .ok (F, c)) :
    VgpF.freeEnergy realLibm ⟨.dw, o.theta, o.sigma, dt, w.fwd_ode.solver, w.fwd_ode.dt, lk.obs_v, lk.obs_t, lk.obs_n, K.mu0, K.tau0,
      w.m0, w.s0, w.dim_n⟩ x = .ok (F, c.mt, c.st) := by
  have := real_freeEnergy w lk K .dw o.theta dt x F c hlk hK ht (fun a b m s e hh => by
    rw [hm] at hh ⊢
    simp only [DW.sde] at hh ⊢
    obtain ⟨e', h1, h2⟩ := py_bind_ok.1 hh
    rw [← Except.ok.inj h2]
    exact real_energy_dw o hdt h1) h
  rwa [hm] at this

/-- The hypotheses are met by every Ornstein-Uhlenbeck problem that the setup builds, here on two grid points with one observation. -/
example {G : Type} (g : G) (y : ℝ) : ∃ (o : OU G) (w : VarGP ℝ ℝ) (lk : Like1) (K : Prior1) (x : List ℝ) (F : ℝ) (c : VgpCache ℝ ℝ),
    w.model = o.sde ∧ o.base.timeStep = .ok 1 ∧ w.likelihood = lk.toIf ∧ (∀ m s, w.kl0 m s = .ok (K.gauss m s)) ∧ w.obs_t = lk.obs_t ∧
    lk.obs_v = [y] ∧ w.eval shape1 x = .ok (F, c) := by
  have hstep : (unitsOU g 1).base.timeStep = .ok 1 := timeStep_grid _ 0 1 1 (by norm_num) (by norm_num) rfl
  obtain ⟨k, hF, -⟩ := freeEnergy_formula (vgpOf_ok (unitsOU g 1).sde ⟨1, "rk4", .rk4⟩ ⟨1, "rk4", .rk4⟩ 1 1 1 1 ⟨0, 1⟩ (N := 1) (M := 1) le_rfl
    fun _ => y) (ou_density (unitsOU g 1) 1 (by simp [vgpOf]) hstep) (fun _ => 1) fun _ => 0
  unfold VarGP.freeEnergy at hF
  split at hF
  · rename_i F c h
    exact ⟨unitsOU g 1, _, ⟨[y], [1], 1, 1⟩, ⟨0, 1⟩, _, F, c, rfl, hstep, by simp [vgpOf]; rfl, fun _ _ => rfl, rfl, rfl, h⟩
  · cases hF

end VGPA
