import Verif.Props.EnergyLimit
import Verif.Props.GradExact

/-!
# C129: is the free energy bounded below?
-/

namespace VGPA

open Finset

noncomputable section

/-! ## The free energy of a one dimensional object as a formula -/

theorem traj_congr {X : Type} (x0 : X) {g g' : ℕ → X → X} {n : ℕ} (h : ∀ k < n, ∀ x, g k x = g' k x) : ∀ k ≤ n, traj x0 g k = traj x0 g' k
  | 0, _ => rfl
  | k + 1, hk => by
    show g k (traj x0 g k) = g' k (traj x0 g' k)
    rw [traj_congr x0 h k (by omega), h k (by omega)]

theorem fwdStep_congr {V W : Type} [AddCommGroup V] [Module ℝ V] [AddCommGroup W] [Module ℝ W] (meth : Method) (F : Rhs V W) (dt : ℝ) {a a' : ℕ → W} {b b' : ℕ → V}
    (sigma : W) {k : ℕ} (h1 : a k = a' k) (h2 : a (k + 1) = a' (k + 1)) (h3 : b k = b' k) (h4 : b (k + 1) = b' (k + 1)) (x : V × W) :
    fwdStep meth F dt a b sigma k x = fwdStep meth F dt a' b' sigma k x := by
  cases meth <;> simp only [fwdStep, h1, h2, h3, h4]

/-- Mean and variance at grid point `k`. -/
def pathMS (meth : Method) (dt sigma m0 s0 : ℝ) (a b : ℕ → ℝ) (k : ℕ) : ℝ × ℝ := traj (m0, s0) (fwdStep meth rhs1 dt a b sigma) k

theorem asFun_ofFn_nat {n : ℕ} (a : ℕ → ℝ) {k : ℕ} (h : k < n) : asFun (List.ofFn fun i : Fin n => a i) k = a k := by
  rw [asFun_eq (by simpa using h)]
  simp

theorem solveFwd_path (meth : Method) (dt sigma m0 s0 : ℝ) (a b : ℕ → ℝ) (N : ℕ) :
    solveFwd meth rhs1 dt (List.ofFn fun i : Fin (N + 1) => a i) (List.ofFn fun i : Fin (N + 1) => b i) m0 s0 sigma
      = .ok (List.ofFn fun i : Fin (N + 1) => (pathMS meth dt sigma m0 s0 a b i).1, List.ofFn fun i : Fin (N + 1) => (pathMS meth dt sigma m0 s0 a b i).2) := by
  obtain ⟨mt, st, h, -⟩ := (C16_forward_shapes meth rhs1 dt (List.ofFn fun i : Fin (N + 1) => a i) (List.ofFn fun i : Fin (N + 1) => b i) m0 s0 sigma).1
    ⟨by simp, Or.inl (by simp)⟩
  obtain ⟨-, -, h1, h2⟩ := solveFwd_inv h
  rw [h, h1, h2]
  have e : ∀ k < N + 1, traj (m0, s0) (fwdStep meth rhs1 dt (asFun (List.ofFn fun i : Fin (N + 1) => a i)) (asFun (List.ofFn fun i : Fin (N + 1) => b i)) sigma) k
      = pathMS meth dt sigma m0 s0 a b k := fun k hk => by
    refine traj_congr (n := N) _ (fun j hj x => ?_) k (by omega)
    refine fwdStep_congr meth rhs1 dt sigma ?_ ?_ ?_ ?_ x <;> exact asFun_ofFn_nat _ (by omega)
  congr 2
  · apply List.ext_getElem (by simp)
    intro i h3 h4
    simp only [List.length_ofFn] at h4
    rw [List.getElem_map, List.getElem_range, List.getElem_ofFn, e i h4]
  · apply List.ext_getElem (by simp)
    intro i h3 h4
    simp only [List.length_ofFn] at h4
    rw [List.getElem_map, List.getElem_range, List.getElem_ofFn, e i h4]

/-- The energy of the model is the trapezoidal rule for the density `q`. -/
structure HasDensity (M : SdeModel ℝ ℝ) (N : ℕ) (obs : List ℕ) (dt : ℝ) (q : ℝ → ℝ → ℝ → ℝ → ℝ) : Prop where
  ok : ∃ ef edf, EnergyOk1 M (N + 1) obs ef edf
  value : ∀ (a b m s : Fin (N + 1) → ℝ) e, M.energy (List.ofFn a) (List.ofFn b) (List.ofFn m) (List.ofFn s) obs = .ok e →
    e.Esde = Spec.trapezoidRule dt (List.ofFn fun i => q (a i) (b i) (m i) (s i))

theorem freeEnergy_formula {o : VarGP ℝ ℝ} {N k : ℕ} {y : Fin k → ℝ} {t : Fin k → Fin (N + 1)} {R H : ℝ} {pr : Prior1} (ho : Vgp1Ok o (N + 1) k y t R H pr)
    {dt : ℝ} {q : ℝ → ℝ → ℝ → ℝ → ℝ} (hq : HasDensity o.model N o.obs_t dt q) (a b : ℕ → ℝ) :
    ∃ c, o.freeEnergy shape1 (List.ofFn (fun i : Fin (N + 1) => a i) ++ List.ofFn fun i : Fin (N + 1) => b i) = (.ok (pr.gauss o.m0 o.s0
      + (∑ i ∈ range N, dt / 2 * (q (a i) (b i) (pathMS o.fwd_ode.solver o.fwd_ode.dt o.model.sigma o.m0 o.s0 a b i).1 (pathMS o.fwd_ode.solver o.fwd_ode.dt o.model.sigma o.m0 o.s0 a b i).2
          + q (a (i + 1)) (b (i + 1)) (pathMS o.fwd_ode.solver o.fwd_ode.dt o.model.sigma o.m0 o.s0 a b (i + 1)).1
            (pathMS o.fwd_ode.solver o.fwd_ode.dt o.model.sigma o.m0 o.s0 a b (i + 1)).2))
      + ∑ j, obsPoly (y j) R (pathMS o.fwd_ode.solver o.fwd_ode.dt o.model.sigma o.m0 o.s0 a b (t j))), { o with cache := some c })
      ∧ c.st = List.ofFn fun i : Fin (N + 1) => (pathMS o.fwd_ode.solver o.fwd_ode.dt o.model.sigma o.m0 o.s0 a b i).2 := by
  obtain ⟨⟨ef, edf, he⟩, hval⟩ := hq
  obtain ⟨F, mm, ss, lam, psi, heval, hfwd⟩ := vgp1_eval ho he (fun k => a k) (fun k => b k)
  obtain ⟨c, hfe, hst⟩ : ∃ c, o.freeEnergy shape1 (List.ofFn (fun i : Fin (N + 1) => a i) ++ List.ofFn fun i : Fin (N + 1) => b i) = (.ok F, { o with cache := some c })
      ∧ c.st = List.ofFn ss := by
    unfold VarGP.freeEnergy
    rw [heval]
    exact ⟨_, rfl, rfl⟩
  rw [solveFwd_path] at hfwd
  injection hfwd with hfwd
  simp only [Prod.mk.injEq] at hfwd
  refine ⟨c, hfe.trans ?_, hst.trans hfwd.2.symm⟩
  obtain ⟨al, bl, mt, st, e, E0, Eo, h1, h2, h3, h4, h5, h6, -⟩ := C59_sum_of_energies _ _ _ _ _ hfe
  have hu' := (C58_pack_unpack_1d (fun k : Fin (N + 1) => a k) (fun k : Fin (N + 1) => b k)).2.1
  rw [ho.dim] at h1
  simp only [shape1, id] at hu' h1
  rw [hu'] at h1
  injection h1 with h1
  simp only [Prod.mk.injEq] at h1
  obtain ⟨rfl, rfl⟩ := h1
  rw [show shape1.rhs = rhs1 from rfl, solveFwd_path] at h2
  injection h2 with h2
  simp only [Prod.mk.injEq] at h2
  obtain ⟨rfl, rfl⟩ := h2
  have hE := hval _ _ _ _ _ h4
  have hE0 : E0 = pr.gauss o.m0 o.s0 := by
    rw [ho.prior] at h3
    injection h3 with h3
    exact h3.symm
  have hEo : Eo = ∑ j, obsPoly (y j) R (pathMS o.fwd_ode.solver o.fwd_ode.dt o.model.sigma o.m0 o.s0 a b (t j)) := by
    rw [ho.like] at h5
    have := like1_gauss_eq H R y t (fun i : Fin (N + 1) => (pathMS o.fwd_ode.solver o.fwd_ode.dt o.model.sigma o.m0 o.s0 a b i).1)
      (fun i : Fin (N + 1) => (pathMS o.fwd_ode.solver o.fwd_ode.dt o.model.sigma o.m0 o.s0 a b i).2)
    simp only [Like1.toIf] at h5
    rw [this] at h5
    injection h5 with h5
    exact h5.symm
  have hr := rule_sum dt N (fun i => q (a i) (b i) (pathMS o.fwd_ode.solver o.fwd_ode.dt o.model.sigma o.m0 o.s0 a b i).1
    (pathMS o.fwd_ode.solver o.fwd_ode.dt o.model.sigma o.m0 o.s0 a b i).2)
  rw [h6, hE0, hE, hEo, hr]

theorem ou_density {G : Type} (p : OU G) (N : ℕ) {obs : List ℕ} (hobs : obs.Pairwise (· ≤ ·)) {dt : ℝ} (hstep : p.base.timeStep = .ok dt) :
    HasDensity p.sde N obs dt fun a b m s => ouQ p.theta a b m s / (2 * p.sigma) := by
  refine ⟨⟨_, _, ou_energyOk p (N + 1) obs dt hstep hobs⟩, fun a b m s e he => ?_⟩
  simp only [OU.sde, ou_energy_eq p a b m s (some obs) dt hstep (fun l hl => by cases hl; exact hobs), bind, Except.bind] at he
  injection he with he
  rw [← he]
  exact rule_div _ _ _

theorem dw_density {G : Type} (p : DW G) (N : ℕ) {obs : List ℕ} (hobs : obs.Pairwise (· ≤ ·)) {dt : ℝ} (hstep : p.base.timeStep = .ok dt) :
    HasDensity p.sde N obs dt fun a b m s => (dwQ p.theta a b m s - 8 * momPoly 6 m s) / (2 * p.sigma) :=
  ⟨⟨_, _, dw_energyOk p (N + 1) obs dt hstep hobs⟩, fun a b m s e he => dw_esde p hstep hobs a b m s e he⟩

/-! ## Non-negative variances -/

theorem obsPoly_ge {y R m s : ℝ} (hR : 0 < R) (hs : 0 ≤ s) : 1 / 2 * Real.log (2 * Real.pi * R) ≤ obsPoly y R (m, s) := by
  have e : log2pi + Real.log R = Real.log (2 * Real.pi * R) := by
    rw [Real.log_mul (by positivity) hR.ne', log2pi, show (2.0 : ℝ) = 2 by norm_num]
  have : 0 ≤ 0.5 * (y ^ 2 - 2 * y * m + (m ^ 2 + s)) / R := by
    apply div_nonneg _ hR.le
    nlinarith [sq_nonneg (y - m)]
  simp only [obsPoly, e]
  linarith

theorem half_pos_of (dt : ℝ) (h : 0 ≤ dt) : 0 ≤ dt / 2 := by linarith

theorem ouQ_nonneg (theta a b m : ℝ) {v : ℝ} (hv : 0 ≤ v) : 0 ≤ ouQ theta a b m v := by
  have : ouQ theta a b m v = v * (theta - a) ^ 2 + (m * (theta - a) + b) ^ 2 := by
    unfold ouQ
    ring
  rw [this]
  positivity

/-- C129, the part that holds, for the Ornstein-Uhlenbeck process: where the variances are not negative, the free energy is at least the prior term plus `log(2 pi R) / 2` for every observation. Missing:
parameters at which the integrator returns negative variances (`C129_violated`). -/
theorem C129_ornstein_uhlenbeck_partial {G : Type} (p : OU G) (o : VarGP ℝ ℝ) {N k : ℕ} (y : Fin k → ℝ) (t : Fin k → Fin (N + 1)) {R H : ℝ} (pr : Prior1)
    (ho : Vgp1Ok o (N + 1) k y t R H pr) (hmodel : o.model = p.sde) (hσ : 0 < p.sigma) (hR : 0 < R) {dt : ℝ} (hdt : 0 ≤ dt) (hstep : p.base.timeStep = .ok dt)
    (ht : StrictMono t) (a b : Fin (N + 1) → ℝ) :
    ∃ F c, o.freeEnergy shape1 (List.ofFn a ++ List.ofFn b) = (.ok F, { o with cache := some c })
      ∧ ((∀ v ∈ c.st, 0 ≤ v) → pr.gauss o.m0 o.s0 + k * (1 / 2 * Real.log (2 * Real.pi * R)) ≤ F) := by
  have hobs : o.obs_t.Pairwise (· ≤ ·) := by
    rw [ho.obs, List.pairwise_ofFn]
    exact fun i j hij => (ht hij).le
  have ext : ∀ a : Fin (N + 1) → ℝ, ∃ a' : ℕ → ℝ, a = fun i : Fin (N + 1) => a' i := fun a =>
    ⟨fun i => if h : i < N + 1 then a ⟨i, h⟩ else 0, by
      funext i
      show _ = dite _ _ _
      rw [dif_pos i.2]⟩
  obtain ⟨a, rfl⟩ := ext a
  obtain ⟨b, rfl⟩ := ext b
  obtain ⟨c, h1, h2⟩ := freeEnergy_formula ho (by rw [hmodel]; exact ou_density p N hobs hstep) a b
  refine ⟨_, c, h1, fun hv => ?_⟩
  have hpos : ∀ i < N + 1, 0 ≤ (pathMS o.fwd_ode.solver o.fwd_ode.dt o.model.sigma o.m0 o.s0 a b i).2 := fun i hi => by
    apply hv
    rw [h2, List.mem_ofFn]
    exact ⟨⟨i, hi⟩, rfl⟩
  have e1 : k * (1 / 2 * Real.log (2 * Real.pi * R)) ≤ ∑ j, obsPoly (y j) R (pathMS o.fwd_ode.solver o.fwd_ode.dt o.model.sigma o.m0 o.s0 a b (t j)) := by
    have := Finset.sum_le_sum fun (j : Fin k) (_ : j ∈ Finset.univ) => obsPoly_ge (y := y j) (m := (pathMS o.fwd_ode.solver o.fwd_ode.dt o.model.sigma o.m0 o.s0 a b (t j)).1) hR
      (hpos (t j) (t j).2)
    rw [Finset.sum_const, Finset.card_univ, Fintype.card_fin, nsmul_eq_mul] at this
    exact this
  have e2 := Finset.sum_nonneg fun (i : ℕ) (hi : i ∈ range N) => mul_nonneg (half_pos_of dt hdt) (add_nonneg
    (div_nonneg (ouQ_nonneg p.theta (a i) (b i) (pathMS o.fwd_ode.solver o.fwd_ode.dt o.model.sigma o.m0 o.s0 a b i).1 (hpos i (by have := mem_range.1 hi; omega))) (mul_pos two_pos hσ).le)
    (div_nonneg (ouQ_nonneg p.theta (a (i + 1)) (b (i + 1)) (pathMS o.fwd_ode.solver o.fwd_ode.dt o.model.sigma o.m0 o.s0 a b (i + 1)).1
      (hpos (i + 1) (by have := mem_range.1 hi; omega))) (mul_pos two_pos hσ).le))
  linarith

/-! ## Negative variances -/

/-- The weight of the first offset in a step. -/
def gain (dt : ℝ) : Method → ℝ
  | .euler => dt
  | _ => dt / 2

theorem gain_pos {dt : ℝ} (h : 0 < dt) (meth : Method) : 0 < gain dt meth := by
  cases meth <;> simp only [gain] <;> linarith

/-- A step without linear parameter. -/
theorem step_free {meth : Method} {dt sigma : ℝ} {a b : ℕ → ℝ} {k : ℕ} (h1 : a k = 0) (h2 : meth = .euler ∨ a (k + 1) = 0) (h3 : b (k + 1) = 0) (m s : ℝ) :
    fwdStep meth rhs1 dt a b sigma k (m, s) = (m + gain dt meth * b k, s + dt * sigma) := by
  cases meth
  · simp [fwdStep, rhs1, h1, gain]
  all_goals
    have h2 : a (k + 1) = 0 := by simpa using h2
    simp only [fwdStep, rhs1, h1, h2, h3, smul_eq_mul, Prod.mk.injEq, gain]
    rw [show (0.5 : ℝ) = 1 / 2 by norm_num]
    constructor
    all_goals ring

/-- The last step makes the variance negative for large parameters. -/
theorem step_last {meth : Method} (hm : meth ≠ .rk2) {dt sigma P : ℝ} (hdt : 0 < dt) (hσ : 0 < sigma) (hP : 0 < P) :
    ∃ α β0 δ : ℝ, 0 < δ ∧ (meth = .euler ∨ α = 0) ∧ ∀ (a b : ℕ → ℝ) (k : ℕ), a k = α → β0 ≤ a (k + 1) → b k = 0 → b (k + 1) = 0 →
      ∃ g ≤ -δ, fwdStep meth rhs1 dt a b sigma k (0, P) = (0, g) := by
  cases meth
  · refine ⟨(P + dt * sigma + 1) / (2 * dt * P), 0, 1, one_pos, .inl rfl, fun a b k h1 _ h3 _ => ⟨-1, le_rfl, ?_⟩⟩
    simp only [fwdStep, rhs1, h1, h3, smul_eq_mul, Prod.mk.injEq]
    refine ⟨by ring, ?_⟩
    field_simp
    norm_num
    ring
  · refine ⟨0, 2 / dt, P + dt * sigma, by positivity, .inr rfl, fun a b k h1 h2 h3 h4 => ⟨(P + dt * sigma) * (1 - dt * a (k + 1)), ?_, ?_⟩⟩
    · rw [div_le_iff₀ hdt] at h2
      have : 0 < P + dt * sigma := by positivity
      nlinarith
    · simp only [fwdStep, rhs1, h1, h3, h4, smul_eq_mul, Prod.mk.injEq]
      norm_num
      ring
  · exact absurd rfl hm
  · refine ⟨0, 6 / dt, P, hP, .inr rfl, fun a b k h1 h2 h3 h4 => ⟨P + dt * sigma - a (k + 1) * dt * (P + 2 / 3 * (dt * sigma))
      + (a (k + 1) * dt) ^ 2 * (P + dt * sigma / 2) * (1 / 2 - a (k + 1) * dt / 6), ?_, ?_⟩⟩
    · rw [div_le_iff₀ hdt] at h2
      obtain ⟨z, hz⟩ : ∃ z, z = a (k + 1) * dt := ⟨_, rfl⟩
      rw [← hz] at h2 ⊢
      have h5 : z ^ 2 * (P + dt * sigma / 2) * (1 / 2 - z / 6) ≤ 0 := mul_nonpos_of_nonneg_of_nonpos (by positivity) (by linarith)
      have : 0 < dt * sigma := by positivity
      nlinarith
    · simp only [fwdStep, rhs1, h1, h3, h4, smul_eq_mul, Prod.mk.injEq]
      constructor
      all_goals norm_num
      ring

/-- Parameters that steer the mean to zero and make the variance negative at the end. -/
def steerA (N : ℕ) (α β : ℝ) (i : ℕ) : ℝ := if i = N + 1 then α else if i = N + 2 then β else 0

def steerB (c : ℝ) (i : ℕ) : ℝ := if i = 0 then c else 0

theorem steer_path {meth : Method} {dt sigma m0 s0 : ℝ} (hdt : 0 < dt) (N : ℕ) {α : ℝ} (hα : meth = .euler ∨ α = 0) (β : ℝ) :
    ∀ k ≤ N, pathMS meth dt sigma m0 s0 (steerA N α β) (steerB (-m0 / gain dt meth)) (k + 1) = (0, s0 + (k + 1) * (dt * sigma)) := by
  have hA : ∀ k ≤ N, steerA N α β k = 0 ∧ (meth = .euler ∨ steerA N α β (k + 1) = 0) := fun k hk => by
    refine ⟨by simp [steerA, show k ≠ N + 1 by omega, show k ≠ N + 2 by omega], ?_⟩
    rcases hα with h | h
    · exact .inl h
    · right
      simp [steerA, h, show k ≠ N + 1 by omega]
  intro k
  induction k with
  | zero =>
    intro hk
    show fwdStep meth rhs1 dt _ _ sigma 0 (m0, s0) = _
    rw [step_free (hA 0 hk).1 (hA 0 hk).2 (by simp [steerB])]
    have := (gain_pos hdt meth).ne'
    simp only [steerB, if_true, Prod.mk.injEq]
    constructor
    · field_simp
      ring
    · simp
  | succ k ih =>
    intro hk
    show fwdStep meth rhs1 dt _ _ sigma (k + 1) (pathMS meth dt sigma m0 s0 (steerA N α β) (steerB (-m0 / gain dt meth)) (k + 1)) = _
    rw [ih (by omega), step_free (hA (k + 1) hk).1 (hA (k + 1) hk).2 (by simp [steerB])]
    simp only [steerB, Nat.add_eq_zero_iff, one_ne_zero, and_false, if_false, Prod.mk.injEq]
    refine ⟨by simp, ?_⟩
    push_cast
    ring

theorem obsPoly_mono {y R m s s' : ℝ} (hR : 0 < R) (h : s ≤ s') : obsPoly y R (m, s) ≤ obsPoly y R (m, s') := by
  simp only [obsPoly]
  gcongr

theorem unbounded {o : VarGP ℝ ℝ} {N k : ℕ} {y : Fin k → ℝ} {t : Fin k → Fin (N + 3)} {R H : ℝ} {pr : Prior1} (ho : Vgp1Ok o (N + 3) k y t R H pr) (hR : 0 < R)
    {dt : ℝ} (hdt : 0 < dt) (hsolv : o.fwd_ode.dt = dt) (hrk : o.fwd_ode.solver ≠ .rk2) (hσ : 0 < o.model.sigma) (hs0 : 0 < o.s0) {q : ℝ → ℝ → ℝ → ℝ → ℝ} (hq : HasDensity o.model (N + 2) o.obs_t dt q)
    {κ w : ℝ} (hw : 0 < w) (hlast : ∀ β g, κ ≤ β → g ≤ 0 → q β 0 0 g ≤ w * ((β - κ) ^ 2 * g)) (K : ℝ) :
    ∃ (a b : Fin (N + 3) → ℝ) (F : ℝ), (o.freeEnergy shape1 (List.ofFn a ++ List.ofFn b)).1 = .ok F ∧ F < K := by
  obtain ⟨meth, hmeth⟩ : ∃ meth, o.fwd_ode.solver = meth := ⟨_, rfl⟩
  obtain ⟨σ, hσe⟩ : ∃ σ, o.model.sigma = σ := ⟨_, rfl⟩
  obtain ⟨m0, hm0⟩ : ∃ m0, o.m0 = m0 := ⟨_, rfl⟩
  obtain ⟨s0, hs0e⟩ : ∃ s0, o.s0 = s0 := ⟨_, rfl⟩
  rw [hmeth] at hrk
  rw [hσe] at hσ
  rw [hs0e] at hs0
  have hP : 0 < s0 + (N + 1 : ℕ) * (dt * σ) := by positivity
  obtain ⟨α, β0, δ, hδ, hα, hstep⟩ := step_last hrk hdt hσ hP
  let B := steerB (-m0 / gain dt meth)
  let p0 : ℕ → ℝ × ℝ := fun i => if i = 0 then (m0, s0) else if i = N + 2 then (0, 0) else (0, s0 + i * (dt * σ))
  let a0 : ℕ → ℝ := fun i => if i = N + 1 then α else 0
  let q0 : ℕ → ℝ := fun i => q (a0 i) (B i) (p0 i).1 (p0 i).2
  let C : ℝ := pr.gauss m0 s0 + (∑ i ∈ range (N + 1), dt / 2 * (q0 i + q0 (i + 1)) + dt / 2 * q0 (N + 1)) + ∑ j, obsPoly (y j) R (p0 (t j))
  let x : ℝ := (|C - K| + 1) / (dt / 2 * w * δ) + 1
  let β : ℝ := max β0 κ + x
  have hwδ : 0 < dt / 2 * w * δ := by positivity
  have hx1 : 1 ≤ x := by
    have : 0 ≤ (|C - K| + 1) / (dt / 2 * w * δ) := by positivity
    simp only [x]
    linarith
  have hβ0 : β0 ≤ β := by
    have := le_max_left β0 κ
    simp only [β]
    linarith
  have hβκ : x ≤ β - κ := by
    have := le_max_right β0 κ
    simp only [β]
    linarith
  have hpath := steer_path (m0 := m0) (s0 := s0) (sigma := σ) hdt N hα β
  obtain ⟨g, hg, hlastp⟩ := hstep (steerA N α β) B (N + 1) (by simp [steerA]) (by simpa [steerA] using hβ0) (by simp [B, steerB]) (by simp [B, steerB])
  have hp : ∀ i ≤ N + 1, pathMS meth dt σ m0 s0 (steerA N α β) B i = p0 i := fun i hi => by
    rcases i with _ | i
    · rfl
    · rw [hpath i (by omega)]
      simp only [p0, Nat.add_eq_zero_iff, one_ne_zero, and_false, if_false, show ¬ (i + 1 = N + 2) by omega]
      push_cast
      rfl
  have hpl : pathMS meth dt σ m0 s0 (steerA N α β) B (N + 2) = (0, g) := by
    show fwdStep meth rhs1 dt _ _ σ (N + 1) (pathMS meth dt σ m0 s0 (steerA N α β) B (N + 1)) = _
    rw [hpath N le_rfl, ← hlastp]
    push_cast
    rfl
  have ha : ∀ i ≤ N + 1, steerA N α β i = a0 i := fun i hi => by
    simp only [steerA, a0, show ¬ (i = N + 2) by omega, if_false]
  obtain ⟨c, hF, -⟩ := freeEnergy_formula ho hq (steerA N α β) B
  rw [hmeth, hsolv, hσe, hm0, hs0e] at hF
  refine ⟨_, _, _, by rw [hF], ?_⟩
  have e1 : ∑ i ∈ range (N + 2), dt / 2 * (q (steerA N α β i) (B i) (pathMS meth dt σ m0 s0 (steerA N α β) B i).1 (pathMS meth dt σ m0 s0 (steerA N α β) B i).2
        + q (steerA N α β (i + 1)) (B (i + 1)) (pathMS meth dt σ m0 s0 (steerA N α β) B (i + 1)).1 (pathMS meth dt σ m0 s0 (steerA N α β) B (i + 1)).2)
      = (∑ i ∈ range (N + 1), dt / 2 * (q0 i + q0 (i + 1)) + dt / 2 * q0 (N + 1)) + dt / 2 * q β 0 0 g := by
    rw [Finset.sum_range_succ _ (N + 1), hpl, ha (N + 1) le_rfl, hp (N + 1) le_rfl, show steerA N α β (N + 1 + 1) = β by simp [steerA], show B (N + 1 + 1) = 0 from rfl, mul_add,
      ← add_assoc]
    congr 2
    refine Finset.sum_congr rfl fun i hi => ?_
    have := mem_range.1 hi
    rw [ha i (by omega), ha (i + 1) (by omega), hp i (by omega), hp (i + 1) (by omega)]
  have e2 : ∑ j, obsPoly (y j) R (pathMS meth dt σ m0 s0 (steerA N α β) B (t j)) ≤ ∑ j, obsPoly (y j) R (p0 (t j)) := by
    refine Finset.sum_le_sum fun j _ => ?_
    rcases Nat.lt_or_ge (t j : ℕ) (N + 2) with h | h
    · rw [hp _ (by omega)]
    · have : (t j : ℕ) = N + 2 := by have := (t j).2; omega
      rw [this, hpl]
      have : p0 (N + 2) = (0, 0) := by simp [p0]
      rw [this]
      exact obsPoly_mono hR (by linarith)
  have e3 := hlast β g (by linarith) (by linarith)
  have e4 : (β - κ) ^ 2 * g ≤ x * -δ := by
    have : x ≤ (β - κ) ^ 2 := by nlinarith
    nlinarith
  have e5 : dt / 2 * q β 0 0 g ≤ -(|C - K| + 1) := by
    have : w * ((β - κ) ^ 2 * g) ≤ w * (x * -δ) := by gcongr
    have h2 : dt / 2 * q β 0 0 g ≤ dt / 2 * (w * (x * -δ)) := mul_le_mul_of_nonneg_left (e3.trans this) (by positivity)
    refine h2.trans ?_
    have h3 : dt / 2 * (w * (x * -δ)) = -(dt / 2 * w * δ * x) := by ring
    have h4 : dt / 2 * w * δ * x = |C - K| + 1 + dt / 2 * w * δ := by
      simp only [x]
      field_simp
    rw [h3, h4]
    linarith
  rw [e1]
  have := le_abs_self (C - K)
  simp only [C] at this e5
  linarith

/-- C129 fails: for every double well or Ornstein-Uhlenbeck problem on at least three grid points and the integrators Euler, Heun and RK4 there are parameters at which `free_energy` returns an arbitrarily
small number. The integrator returns a negative variance there. -/
theorem C129_violated {G : Type} (o : VarGP ℝ ℝ) {N k : ℕ} (y : Fin k → ℝ) (t : Fin k → Fin (N + 3)) {R H : ℝ} (pr : Prior1) (ho : Vgp1Ok o (N + 3) k y t R H pr) (hR : 0 < R)
    (ht : StrictMono t) {dt : ℝ} (hdt : 0 < dt) (hsolv : o.fwd_ode.dt = dt) (hrk : o.fwd_ode.solver ≠ .rk2) (hs0 : 0 < o.s0)
    (hmodel : (∃ p : DW G, o.model = p.sde ∧ 0 < p.sigma ∧ p.base.timeStep = .ok dt) ∨ ∃ p : OU G, o.model = p.sde ∧ 0 < p.sigma ∧ p.base.timeStep = .ok dt) (K : ℝ) :
    ∃ (a b : Fin (N + 3) → ℝ) (F : ℝ), (o.freeEnergy shape1 (List.ofFn a ++ List.ofFn b)).1 = .ok F ∧ F < K := by
  have hobs : o.obs_t.Pairwise (· ≤ ·) := by
    rw [ho.obs, List.pairwise_ofFn]
    exact fun i j hij => (ht hij).le
  rcases hmodel with ⟨p, hm, hσ, hstep⟩ | ⟨p, hm, hσ, hstep⟩
  · refine unbounded ho hR hdt hsolv hrk (by rw [hm]; exact hσ) hs0 (hm ▸ dw_density p (N + 2) hobs hstep) (κ := -(4 * p.theta)) (w := 1 / (2 * p.sigma)) (by positivity) (fun β g hβ hg => ?_) K
    rw [div_mul_eq_mul_div, one_mul]
    gcongr
    simp only [dwQ, momPoly]
    norm_num
    have h1 : 0 ≤ (4 * p.theta + β) * g ^ 2 := mul_nonneg (by linarith) (sq_nonneg _)
    have h2 : g * g ^ 2 ≤ 0 := mul_nonpos_of_nonpos_of_nonneg hg (sq_nonneg _)
    nlinarith
  · refine unbounded ho hR hdt hsolv hrk (by rw [hm]; exact hσ) hs0 (hm ▸ ou_density p (N + 2) hobs hstep) (κ := p.theta) (w := 1 / (2 * p.sigma)) (by positivity) (fun β g hβ hg => ?_) K
    rw [div_mul_eq_mul_div, one_mul]
    gcongr
    simp only [ouQ]
    nlinarith

/-! ## The double well with positive variances -/

/-- Parameters that move the mean in the last step and then follow the wrong well. -/
def jumpA (N : ℕ) (β : ℝ) (i : ℕ) : ℝ := if i = N + 1 then β else 0

def jumpB (N : ℕ) (c : ℝ) (i : ℕ) : ℝ := if i = N then c else 0

theorem jump_path {dt sigma m0 s0 : ℝ} (N : ℕ) (β c : ℝ) :
    ∀ k ≤ N, pathMS .euler dt sigma m0 s0 (jumpA N β) (jumpB N c) k = (m0, s0 + k * (dt * sigma)) := by
  intro k
  induction k with
  | zero => intro _; simp [pathMS, traj]
  | succ k ih =>
    intro hk
    show fwdStep .euler rhs1 dt _ _ sigma k (pathMS .euler dt sigma m0 s0 (jumpA N β) (jumpB N c) k) = _
    rw [ih (by omega)]
    simp only [fwdStep, rhs1, jumpA, jumpB, show ¬ (k = N + 1) by omega, show ¬ (k = N) by omega, if_false, smul_eq_mul, Prod.mk.injEq]
    refine ⟨by ring, ?_⟩
    push_cast
    ring

theorem jump_last {dt sigma m0 s0 : ℝ} (hdt : 0 < dt) (N : ℕ) (β μ : ℝ) :
    pathMS .euler dt sigma m0 s0 (jumpA N β) (jumpB N ((μ - m0) / dt)) (N + 1) = (μ, s0 + (N + 1 : ℕ) * (dt * sigma)) := by
  show fwdStep .euler rhs1 dt _ _ sigma N (pathMS .euler dt sigma m0 s0 (jumpA N β) (jumpB N ((μ - m0) / dt)) N) = _
  rw [jump_path N _ _ N le_rfl]
  simp only [fwdStep, rhs1, jumpA, jumpB, show ¬ (N = N + 1) by omega, if_true, if_false, smul_eq_mul, Prod.mk.injEq]
  refine ⟨by field_simp; ring, ?_⟩
  push_cast
  ring

theorem quadr_le {e b μ : ℝ} (c0 c1 : ℝ) (hμ : 1 ≤ μ) (hb : |b| ≤ e * μ) : c0 + c1 * b + b ^ 2 ≤ (|c0| + |c1| * e + e ^ 2) * μ ^ 2 := by
  have h1 : c0 ≤ |c0| * μ ^ 2 := (le_abs_self c0).trans (le_mul_of_one_le_right (abs_nonneg c0) (one_le_pow₀ hμ))
  have h0 : 0 ≤ e := by
    have := (abs_nonneg b).trans hb
    nlinarith
  have h2 : c1 * b ≤ |c1| * (e * μ) := by
    have := le_abs_self (c1 * b)
    rw [abs_mul] at this
    exact this.trans (mul_le_mul_of_nonneg_left hb (abs_nonneg _))
  have h3 : |c1| * (e * μ) ≤ |c1| * e * μ ^ 2 := by
    rw [← mul_assoc]
    refine mul_le_mul_of_nonneg_left ?_ (by positivity)
    nlinarith
  have h4 : b ^ 2 ≤ e ^ 2 * μ ^ 2 := by
    rw [← sq_abs b, ← mul_pow]
    exact pow_le_pow_left₀ (abs_nonneg _) hb 2
  nlinarith

theorem last_le {s σ μ : ℝ} (hs : 0 < s) (hσ : 0 < σ) (hμ : 1 ≤ μ) :
    (-4 * μ ^ 6 + 28 * s * μ ^ 4 + 312 * s ^ 2 * μ ^ 2 + 120 * s ^ 3) / (2 * σ) ≤ (28 * s + 312 * s ^ 2 + 120 * s ^ 3) / (2 * σ) * μ ^ 4 - 2 / σ * μ ^ 6 := by
  have : (28 * s + 312 * s ^ 2 + 120 * s ^ 3) / (2 * σ) * μ ^ 4 - 2 / σ * μ ^ 6 = (-4 * μ ^ 6 + 28 * s * μ ^ 4 + 312 * s ^ 2 * μ ^ 4 + 120 * s ^ 3 * μ ^ 4) / (2 * σ) := by
    field_simp
    ring
  rw [this]
  have h1 : 312 * s ^ 2 * μ ^ 2 ≤ 312 * s ^ 2 * μ ^ 4 := mul_le_mul_of_nonneg_left (pow_le_pow_right₀ hμ (by norm_num)) (by positivity)
  have h2 : 120 * s ^ 3 ≤ 120 * s ^ 3 * μ ^ 4 := le_mul_of_one_le_right (by positivity) (one_le_pow₀ hμ)
  exact div_le_div_of_nonneg_right (by linarith) (by positivity)

theorem energy_le {S S' dt σ dN qN ql s μ : ℝ} (hdt : 0 < dt) (hμ : 1 ≤ μ) (hS : 0 ≤ S) (hdN : 0 ≤ dN) (h1 : S' ≤ S * μ ^ 2) (h2 : qN ≤ dN * μ ^ 2)
    (h3 : ql ≤ s * μ ^ 4 - 2 / σ * μ ^ 6) : S' + dt / 2 * (qN + ql) ≤ (S + dt / 2 * (dN + s)) * μ ^ 4 - dt / σ * μ ^ 6 := by
  have m4 : μ ^ 2 ≤ μ ^ 4 := pow_le_pow_right₀ hμ (by norm_num)
  have i1 := mul_le_mul_of_nonneg_left m4 hS
  have i2 := mul_le_mul_of_nonneg_left m4 hdN
  have i3 := mul_le_mul_of_nonneg_left (add_le_add (h2.trans i2) h3) (by positivity : 0 ≤ dt / 2)
  refine le_trans (add_le_add (h1.trans i1) i3) (le_of_eq ?_)
  ring

theorem total_lt {g S T o O w μ K : ℝ} (hμ : 1 ≤ μ) (hO : 0 ≤ O) (hS : S ≤ T * μ ^ 4 - w * μ ^ 6) (ho : o ≤ O * μ ^ 2) (h : |g| + T + O + |K| + 1 ≤ w * μ ^ 2) :
    g + S + o < K := by
  have m4 : μ ^ 2 ≤ μ ^ 4 := pow_le_pow_right₀ hμ (by norm_num)
  have m1 : 1 ≤ μ ^ 4 := one_le_pow₀ hμ
  have i5 := mul_le_mul_of_nonneg_left m4 hO
  have i6 : g ≤ |g| * μ ^ 4 := (le_abs_self _).trans (le_mul_of_one_le_right (abs_nonneg _) m1)
  have i7 : (|g| + T + O - w * μ ^ 2) * μ ^ 4 ≤ |g| + T + O - w * μ ^ 2 := by
    have : |g| + T + O - w * μ ^ 2 ≤ 0 := by linarith [abs_nonneg K]
    nlinarith
  have := neg_abs_le K
  nlinarith

/-- C129 fails for the double well process also where all variances are positive: with the Euler integrator, for every problem on at least two grid points. (The energy of this process is not an expected square,
see C42.) -/
theorem C129_double_well_violated {G : Type} (p : DW G) (o : VarGP ℝ ℝ) {N k : ℕ} (y : Fin k → ℝ) (t : Fin k → Fin (N + 2)) {R H : ℝ} (pr : Prior1)
    (ho : Vgp1Ok o (N + 2) k y t R H pr) (hmodel : o.model = p.sde) (hσ : 0 < p.sigma) {dt : ℝ} (hdt : 0 < dt) (hstep : p.base.timeStep = .ok dt) (ht : StrictMono t)
    (hsolv : o.fwd_ode.dt = dt) (heuler : o.fwd_ode.solver = .euler) (hs0 : 0 < o.s0) (K : ℝ) :
    ∃ (a b : Fin (N + 2) → ℝ) (F : ℝ) (c : VgpCache ℝ ℝ), o.freeEnergy shape1 (List.ofFn a ++ List.ofFn b) = (.ok F, { o with cache := some c })
      ∧ (∀ v ∈ c.st, 0 < v) ∧ F < K := by
  have hobs : o.obs_t.Pairwise (· ≤ ·) := by
    rw [ho.obs, List.pairwise_ofFn]
    exact fun i j hij => (ht hij).le
  obtain ⟨m0, hm0⟩ : ∃ m0, o.m0 = m0 := ⟨_, rfl⟩
  obtain ⟨s0, hs0e⟩ : ∃ s0, o.s0 = s0 := ⟨_, rfl⟩
  rw [hs0e] at hs0
  have hσe : o.model.sigma = p.sigma := by rw [hmodel]; rfl
  obtain ⟨s, hs⟩ : ∃ s, s = s0 + (N + 1 : ℕ) * (dt * p.sigma) := ⟨_, rfl⟩
  have hspos : 0 < s := by rw [hs]; positivity
  let a : ℝ → ℕ → ℝ := fun μ => jumpA N (2 * μ ^ 2 - 4 * p.theta)
  let b : ℝ → ℕ → ℝ := fun μ => jumpB N ((μ - m0) / dt)
  let q : ℝ → ℝ → ℝ → ℝ → ℝ := fun a b m s => (dwQ p.theta a b m s - 8 * momPoly 6 m s) / (2 * p.sigma)
  let P : ℝ → ℕ → ℝ × ℝ := fun μ => pathMS .euler dt p.sigma m0 s0 (a μ) (b μ)
  have hP : ∀ μ, ∀ i ≤ N, P μ i = (m0, s0 + i * (dt * p.sigma)) := fun μ i hi => jump_path N _ _ i hi
  have hPl : ∀ μ, P μ (N + 1) = (μ, s) := fun μ => by rw [hs]; exact jump_last hdt N _ μ
  -- the energy before the last point
  have hD : ∀ i, ∃ D, 0 ≤ D ∧ ∀ μ, 1 ≤ μ → i ≤ N → q (a μ i) (b μ i) (P μ i).1 (P μ i).2 ≤ D * μ ^ 2 := fun i => by
    obtain ⟨v, hv⟩ : ∃ v, v = s0 + i * (dt * p.sigma) := ⟨_, rfl⟩
    refine ⟨(|8 * momPoly 6 m0 v - 8 * (4 * p.theta) * momPoly 4 m0 v + (4 * p.theta) ^ 2 * momPoly 2 m0 v| + |8 * momPoly 3 m0 v - 2 * (4 * p.theta) * m0| * ((1 + |m0|) / dt)
      + ((1 + |m0|) / dt) ^ 2) / (2 * p.sigma), by positivity, fun μ hμ hi => ?_⟩
    rw [hP μ i hi, ← hv, div_mul_eq_mul_div]
    have ha : a μ i = 0 := by simp [a, jumpA, show ¬ (i = N + 1) by omega]
    have hb : |b μ i| ≤ (1 + |m0|) / dt * μ := by
      simp only [b, jumpB]
      split_ifs
      · rw [abs_div, abs_of_pos hdt, div_mul_eq_mul_div]
        gcongr
        have := abs_sub μ m0
        rw [abs_of_pos (by linarith : (0 : ℝ) < μ)] at this
        nlinarith [abs_nonneg m0]
      · rw [abs_zero]
        positivity
    simp only [q]
    gcongr
    refine le_trans (le_of_eq ?_) (quadr_le _ _ hμ hb)
    rw [ha]
    simp only [dwQ]
    ring
  choose D hD0 hD using hD
  -- the observations
  have hO : ∀ j, ∃ D, 0 ≤ D ∧ ∀ μ, 1 ≤ μ → obsPoly (y j) R (P μ (t j)) ≤ D * μ ^ 2 := fun j => by
    have key : ∀ v : ℝ, ∃ D, 0 ≤ D ∧ ∀ μ m, 1 ≤ μ → |m| ≤ (1 + |m0|) * μ → obsPoly (y j) R (m, v) ≤ D * μ ^ 2 := fun v => by
      refine ⟨|0.5 / R| * (|y j ^ 2 + v| + |-2 * y j| * (1 + |m0|) + (1 + |m0|) ^ 2) + |0.5 * (log2pi + Real.log R)|, by positivity, fun μ m hμ hm => ?_⟩
      have h1 : |m ^ 2 + -2 * y j * m + (y j ^ 2 + v)| ≤ (|y j ^ 2 + v| + |-2 * y j| * (1 + |m0|) + (1 + |m0|) ^ 2) * μ ^ 2 := by
        have i1 : |m ^ 2 + -2 * y j * m + (y j ^ 2 + v)| ≤ |m| ^ 2 + |-2 * y j| * |m| + |y j ^ 2 + v| := by
          refine (abs_add_le _ _).trans (add_le_add_left ((abs_add_le _ _).trans ?_) _)
          rw [abs_pow, abs_mul]
        have i2 : |m| ^ 2 ≤ (1 + |m0|) ^ 2 * μ ^ 2 := by
          rw [← mul_pow]
          exact pow_le_pow_left₀ (abs_nonneg _) hm 2
        have i3 : |-2 * y j| * |m| ≤ |-2 * y j| * (1 + |m0|) * μ ^ 2 := by
          rw [mul_assoc]
          refine mul_le_mul_of_nonneg_left (hm.trans ?_) (abs_nonneg _)
          have : μ ≤ μ ^ 2 := by nlinarith
          have : 0 ≤ 1 + |m0| := by positivity
          nlinarith
        have i4 : |y j ^ 2 + v| ≤ |y j ^ 2 + v| * μ ^ 2 := le_mul_of_one_le_right (abs_nonneg _) (one_le_pow₀ hμ)
        linarith
      have h2 : |0.5 * (log2pi + Real.log R)| ≤ |0.5 * (log2pi + Real.log R)| * μ ^ 2 := le_mul_of_one_le_right (abs_nonneg _) (one_le_pow₀ hμ)
      have h3 : obsPoly (y j) R (m, v) = 0.5 / R * (m ^ 2 + -2 * y j * m + (y j ^ 2 + v)) + 0.5 * (log2pi + Real.log R) := by
        simp only [obsPoly]
        ring
      have h4 := le_abs_self (0.5 / R * (m ^ 2 + -2 * y j * m + (y j ^ 2 + v)))
      rw [abs_mul] at h4
      have h5 := h4.trans (mul_le_mul_of_nonneg_left h1 (abs_nonneg _))
      have h6 := (le_abs_self (0.5 * (log2pi + Real.log R))).trans h2
      rw [h3]
      linarith
    have hc : ∀ μ, 1 ≤ μ → |m0| ≤ (1 + |m0|) * μ := fun μ hμ => by nlinarith [abs_nonneg m0]
    have hc' : ∀ μ, 1 ≤ μ → |μ| ≤ (1 + |m0|) * μ := fun μ hμ => by
      rw [abs_of_pos (by linarith)]
      nlinarith [abs_nonneg m0]
    rcases Nat.lt_or_ge (t j : ℕ) (N + 1) with h | h
    · obtain ⟨D, h0, hD⟩ := key (s0 + (t j : ℕ) * (dt * p.sigma))
      exact ⟨D, h0, fun μ hμ => by rw [hP μ _ (by omega)]; exact hD μ m0 hμ (hc μ hμ)⟩
    · have e : (t j : ℕ) = N + 1 := by have := (t j).2; omega
      obtain ⟨D, h0, hD⟩ := key s
      exact ⟨D, h0, fun μ hμ => by rw [e, hPl μ]; exact hD μ μ hμ (hc' μ hμ)⟩
  choose O hO0 hO using hO
  -- the last point
  have hq : ∀ μ, q (a μ (N + 1)) (b μ (N + 1)) (P μ (N + 1)).1 (P μ (N + 1)).2 = (-4 * μ ^ 6 + 28 * s * μ ^ 4 + 312 * s ^ 2 * μ ^ 2 + 120 * s ^ 3) / (2 * p.sigma) := fun μ => by
    rw [hPl μ]
    simp only [q, a, b, jumpA, jumpB, if_true, show ¬ (N + 1 = N) by omega, if_false, dwQ, momPoly]
    congr 1
    push_cast
    ring
  let w : ℝ := dt / p.sigma
  have hw : 0 < w := by positivity
  let E : ℝ := |pr.gauss m0 s0| + (∑ i ∈ range N, dt / 2 * (D i + D (i + 1)) + dt / 2 * (D N + (28 * s + 312 * s ^ 2 + 120 * s ^ 3) / (2 * p.sigma))) + ∑ j, O j
  have hE0 : 0 ≤ E := by
    have h1 : 0 ≤ ∑ i ∈ range N, dt / 2 * (D i + D (i + 1)) := Finset.sum_nonneg fun i _ => mul_nonneg (by positivity) (add_nonneg (hD0 _) (hD0 _))
    have h2 : 0 ≤ ∑ j, O j := Finset.sum_nonneg fun j _ => hO0 j
    have h3 := hD0 N
    positivity
  let μ : ℝ := 1 + (E + |K| + 1) / w
  have hμ : 1 ≤ μ := by
    have : 0 ≤ (E + |K| + 1) / w := by positivity
    simp only [μ]
    linarith
  have hμ2 : E + |K| + 1 ≤ w * μ ^ 2 := by
    have h1 : (E + |K| + 1) / w ≤ μ := by simp only [μ]; linarith
    have h2 : μ ≤ μ ^ 2 := by nlinarith
    rw [div_le_iff₀ hw] at h1
    nlinarith
  have hden := dw_density p (N + 1) hobs hstep
  rw [← hmodel] at hden
  obtain ⟨c, hF, hst⟩ := freeEnergy_formula ho hden (a μ) (b μ)
  rw [heuler, hsolv, hσe, hm0, hs0e] at hF hst
  refine ⟨fun i => a μ i, fun i => b μ i, _, c, (by rw [hF, ← hm0, ← hs0e]), ?_, ?_⟩
  · intro v hv
    rw [hst, List.mem_ofFn] at hv
    obtain ⟨i, rfl⟩ := hv
    rcases Nat.lt_or_ge (i : ℕ) (N + 1) with h | h
    · show 0 < (P μ i).2
      rw [hP μ i (by omega)]
      show 0 < s0 + _
      positivity
    · have e : (i : ℕ) = N + 1 := by omega
      show 0 < (P μ i).2
      rw [e, hPl μ]
      exact hspos
  · have e1 : ∑ i ∈ range N, dt / 2 * (q (a μ i) (b μ i) (P μ i).1 (P μ i).2 + q (a μ (i + 1)) (b μ (i + 1)) (P μ (i + 1)).1 (P μ (i + 1)).2)
        ≤ (∑ i ∈ range N, dt / 2 * (D i + D (i + 1))) * μ ^ 2 := by
      rw [Finset.sum_mul]
      refine Finset.sum_le_sum fun i hi => ?_
      have := mem_range.1 hi
      rw [mul_assoc, add_mul]
      refine mul_le_mul_of_nonneg_left (add_le_add (hD i μ hμ (by omega)) (hD (i + 1) μ hμ (by omega))) (by positivity)
    have e2 := hD N μ hμ le_rfl
    have e3 : ∑ j, obsPoly (y j) R (P μ (t j)) ≤ (∑ j, O j) * μ ^ 2 := by
      rw [Finset.sum_mul]
      exact Finset.sum_le_sum fun j _ => hO j μ hμ
    have hsum := energy_le (σ := p.sigma) hdt hμ (Finset.sum_nonneg fun i _ => mul_nonneg (by positivity) (add_nonneg (hD0 _) (hD0 _))) (hD0 N) e1 e2
      (last_le hspos hσ hμ)
    rw [← hq μ, ← Finset.sum_range_succ] at hsum
    rw [hm0, hs0e]
    exact total_lt hμ (Finset.sum_nonneg fun j _ => hO0 j) hsum e3 hμ2

/-- The four-point problem of C61 meets the hypotheses: the Ornstein-Uhlenbeck free energy is bounded where the variances are not negative ... -/
example (a b : Fin 4 → ℝ) : ∃ F c, (vgpObj vgpOU.sde .rk4).freeEnergy shape1 (List.ofFn a ++ List.ofFn b) = (.ok F, { vgpObj vgpOU.sde .rk4 with cache := some c })
    ∧ ((∀ v ∈ c.st, 0 ≤ v) → (⟨0, 1⟩ : Prior1).gauss 1 1 + (2 : ℕ) * (1 / 2 * Real.log (2 * Real.pi * 1)) ≤ F) :=
  C129_ornstein_uhlenbeck_partial vgpOU (N := 3) _ _ _ _ (vgpObj_ok _ .rk4) rfl (by norm_num [vgpOU]) (by norm_num) (by norm_num) vgpOU_step (by decide) a b

/-- ... and they are not negative for parameters zero. -/
example : ∃ F c, (vgpObj vgpOU.sde .euler).freeEnergy shape1 (List.ofFn (0 : Fin 4 → ℝ) ++ List.ofFn (0 : Fin 4 → ℝ)) = (.ok F, { vgpObj vgpOU.sde .euler with cache := some c })
    ∧ ∀ v ∈ c.st, 0 ≤ v := by
  have hobs : (vgpObj vgpOU.sde .euler).obs_t.Pairwise (· ≤ ·) := by
    rw [(vgpObj_ok vgpOU.sde .euler).obs, List.pairwise_ofFn]
    decide
  obtain ⟨c, hF, hst⟩ := freeEnergy_formula (N := 3) (vgpObj_ok vgpOU.sde .euler) (ou_density vgpOU 3 hobs vgpOU_step) 0 0
  refine ⟨_, c, hF, fun v hv => ?_⟩
  rw [hst, List.mem_ofFn] at hv
  obtain ⟨i, rfl⟩ := hv
  have : ∀ k : ℕ, pathMS .euler (1 / 2) 2 1 1 0 0 k = ((1 : ℝ), 1 + (k : ℝ)) := fun k => by
    induction k with
    | zero => simp [pathMS, traj]
    | succ k ih =>
      show fwdStep .euler rhs1 (1 / 2) _ _ 2 k (pathMS .euler (1 / 2) 2 1 1 0 0 k) = _
      rw [ih]
      norm_num [fwdStep, rhs1]
      ring
  show 0 ≤ (pathMS .euler (1 / 2) 2 1 1 0 0 i).2
  rw [this]
  show (0 : ℝ) ≤ 1 + _
  positivity

example (meth : Method) (h : meth ≠ .rk2) (K : ℝ) : ∃ (a b : Fin 4 → ℝ) (F : ℝ), ((vgpObj vgpOU.sde meth).freeEnergy shape1 (List.ofFn a ++ List.ofFn b)).1 = .ok F ∧ F < K :=
  C129_violated (N := 1) (G := ℕ) _ _ _ _ (vgpObj_ok _ meth) (by norm_num) (by decide) (dt := 1 / 2) (by norm_num) rfl h (by norm_num [vgpObj]) (.inr ⟨vgpOU, rfl, by norm_num [vgpOU], vgpOU_step⟩) K

example (K : ℝ) : ∃ (a b : Fin 4 → ℝ) (F : ℝ) (c : VgpCache ℝ ℝ), (vgpObj vgpDW.sde .euler).freeEnergy shape1 (List.ofFn a ++ List.ofFn b)
      = (.ok F, { vgpObj vgpDW.sde .euler with cache := some c })
    ∧ (∀ v ∈ c.st, 0 < v) ∧ F < K :=
  C129_double_well_violated vgpDW (N := 2) _ _ _ _ (vgpObj_ok _ .euler) rfl (by norm_num [vgpDW]) (by norm_num) vgpDW_step (by decide) rfl rfl (by norm_num [vgpObj]) K

end

end VGPA
