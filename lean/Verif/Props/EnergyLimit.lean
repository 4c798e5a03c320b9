import Verif.Props.OdeVarying
import Verif.Props.VarGPGrad1
import Verif.Lemmas.Integral

/-!
# C108: the free energy for small time steps
-/

namespace VGPA

open Set

noncomputable section

namespace Spec

/-- The free energy without the prior term, in continuous time: the integral over `[0, T]` of `E[(f(x) - (-a x + b))²] / (2 sigma)` under the normal law with
mean `m t` and variance `S t`, plus the expected negative log-likelihoods of the observations `y j` at the times `τ j`. -/
def continuousEnergy {k : ℕ} (f : ℝ → ℝ) (sigma R T : ℝ) (y τ : Fin k → ℝ) (a b m S : ℝ → ℝ) : ℝ :=
  (∫ t in (0 : ℝ)..T, sdeDensity f sigma (a t) (b t) (m t) (S t)) + ∑ j, obsEnergy1 (y j) 1 R (m (τ j)) (S (τ j))

/-- A Gaussian process in continuous time: Lipschitz continuous parameters `a`, `b` on `[0, T]`, a mean and a variance that solve `dm/dt = -a m + b` and
`dS/dt = -2 a S + sigma`. -/
structure Curve (T sigma : ℝ) (a b m S : ℝ → ℝ) : Prop where
  window : 0 ≤ T
  lip : ∃ L, ∀ s ∈ Icc 0 T, ∀ t ∈ Icc 0 T, |a s - a t| ≤ L * |s - t| ∧ |b s - b t| ≤ L * |s - t|
  mean : ∀ t ∈ Icc 0 T, HasDerivWithinAt m (-(a t * m t) + b t) (Icc 0 T) t
  var : ∀ t ∈ Icc 0 T, HasDerivWithinAt S (-(2 * a t * S t) + sigma) (Icc 0 T) t
  nonneg : ∀ t ∈ Icc 0 T, 0 ≤ S t

/-- The variational object `o` holds the discretised problem: `n + 1` grid points with step `dt`, the observations `y` at grid points `t` which are the times `τ`,
observation variance `R`, operator one, the prior `pr`, and the initial moments of the curve. -/
structure Discretises {k : ℕ} (o : VarGP ℝ ℝ) (n : ℕ) (dt T R : ℝ) (pr : Prior1) (y τ : Fin k → ℝ) (m S : ℝ → ℝ) : Prop where
  step : 0 < dt
  window : n * dt = T
  object : ∃ t : Fin k → Fin (n + 1), (∀ j, ((t j : ℕ) : ℝ) * dt = τ j) ∧ Vgp1Ok o (n + 1) k y t R 1 pr
  solver : o.fwd_ode.dt = dt
  m0 : o.m0 = m 0
  s0 : o.s0 = S 0
  sorted : o.obs_t.Pairwise (· ≤ ·)

/-- The values of a function on the grid. -/
def onGrid (f : ℝ → ℝ) (n : ℕ) (dt : ℝ) : List ℝ := List.ofFn fun k : Fin (n + 1) => f (k * dt)

end Spec

/-- The observation term in closed form. -/
def obsPoly (y R : ℝ) (p : ℝ × ℝ) : ℝ := 0.5 * (y ^ 2 - 2 * y * p.1 + (p.1 ^ 2 + p.2)) / R + 0.5 * (log2pi + Real.log R)

theorem obsPoly_contDiff (y R : ℝ) : ContDiff ℝ 1 (obsPoly y R) := by
  unfold obsPoly
  fun_prop

/-- The free energy of an object whose energy is the trapezoidal rule applied to a smooth density. -/
theorem freeEnergy_limit {T sigma R : ℝ} {a b m S : ℝ → ℝ} (hc : Spec.Curve T sigma a b m S) {k : ℕ} (y τ : Fin k → ℝ) (pr : Prior1)
    {q : ℝ × ℝ × ℝ × ℝ → ℝ} (hq : ContDiff ℝ 1 q) :
    ∃ C δ, 0 < δ ∧ ∀ (o : VarGP ℝ ℝ) (n : ℕ) (dt : ℝ), dt < δ → Spec.Discretises o n dt T R pr y τ m S → o.model.sigma = sigma →
      (∀ obs : List ℕ, obs.Pairwise (· ≤ ·) → ∃ ef edf, EnergyOk1 o.model (n + 1) obs ef edf ∧ ∀ a b m s : Fin (n + 1) → ℝ, ∀ e,
        o.model.energy (List.ofFn a) (List.ofFn b) (List.ofFn m) (List.ofFn s) obs = .ok e →
          e.Esde = Spec.trapezoidRule dt (List.ofFn fun i => q (a i, b i, m i, s i))) →
      ∃ F, (o.freeEnergy shape1 (Spec.onGrid a n dt ++ Spec.onGrid b n dt)).1 = .ok F
        ∧ |F - (pr.gauss (m 0) (S 0) + (∫ t in (0 : ℝ)..T, q (a t, b t, m t, S t)) + ∑ j, obsPoly (y j) R (m (τ j), S (τ j)))| ≤ C * dt := by
  obtain ⟨hT, ⟨L0, hL0⟩, hm, hS, -⟩ := hc
  obtain ⟨L, hL, hLL⟩ : ∃ L, 0 ≤ L ∧ ∀ s ∈ Icc 0 T, ∀ t ∈ Icc 0 T, |a s - a t| ≤ L * |s - t| ∧ |b s - b t| ≤ L * |s - t| :=
    ⟨|L0|, abs_nonneg _, fun s hs t ht => ⟨(hL0 s hs t ht).1.trans (mul_le_mul_of_nonneg_right (le_abs_self _) (abs_nonneg _)),
      (hL0 s hs t ht).2.trans (mul_le_mul_of_nonneg_right (le_abs_self _) (abs_nonneg _))⟩⟩
  obtain ⟨C, δ, hδ, hconv⟩ := C106_converges_1D T L sigma hT a b m S (fun s hs t ht => (hLL s hs t ht).1) (fun s hs t ht => (hLL s hs t ht).2) hm hS
  have lipc : ∀ {f : ℝ → ℝ}, (∀ s ∈ Icc 0 T, ∀ t ∈ Icc 0 T, |f s - f t| ≤ L * |s - t|) → ContinuousOn f (Icc 0 T) := fun {f} h => by
    have : LipschitzOnWith L.toNNReal f (Icc 0 T) := LipschitzOnWith.of_dist_le_mul fun s hs t ht => by
      rw [Real.coe_toNNReal _ hL, Real.dist_eq, Real.dist_eq]
      exact h s hs t ht
    exact this.continuousOn
  have ca := lipc fun s hs t ht => (hLL s hs t ht).1
  have cb := lipc fun s hs t ht => (hLL s hs t ht).2
  have cm : ContinuousOn m (Icc 0 T) := fun t ht => (hm t ht).continuousWithinAt
  have cS : ContinuousOn S (Icc 0 T) := fun t ht => (hS t ht).continuousWithinAt
  obtain ⟨Lm, hLm0, hLm⟩ := lip_of_deriv hm ((ca.mul cm).neg.add cb)
  obtain ⟨LS, hLS0, hLS⟩ := lip_of_deriv hS (((continuousOn_const.mul ca).mul cS).neg.add continuousOn_const)
  obtain ⟨L', hL'⟩ : ∃ L', L' = L + Lm + LS := ⟨_, rfl⟩
  have hu : ∀ s ∈ Icc 0 T, ∀ t ∈ Icc 0 T, ‖(a s, b s, m s, S s) - (a t, b t, m t, S t)‖ ≤ L' * |s - t| := fun s hs t ht => by
    have := abs_nonneg (s - t)
    have i1 := hLL s hs t ht
    have i2 := hLm s hs t ht
    have i3 := hLS s hs t ht
    have j1 : L * |s - t| ≤ L' * |s - t| := by gcongr; linarith
    have j2 : Lm * |s - t| ≤ L' * |s - t| := by gcongr; linarith
    have j3 : LS * |s - t| ≤ L' * |s - t| := by gcongr; linarith
    simp only [Prod.mk_sub_mk, Prod.norm_mk]
    exact max_le (i1.1.trans j1) (max_le (i1.2.trans j1) (max_le (i2.trans j2) (i3.trans j3)))
  obtain ⟨C1, hC1, hrule⟩ := rule_converges hq hT (by rw [hL']; positivity) hu C
  obtain ⟨B, hB⟩ := bounded_of_lip (by rw [hL']; positivity) hu
  choose K hK hlip using fun j => lip_on_ball (obsPoly_contDiff (y j) R) (B + |C|)
  refine ⟨C1 + ∑ j, K j * |C|, min δ 1, lt_min hδ one_pos, fun o n dt hdt hd hsig hen => ?_⟩
  obtain ⟨hdt0, hn, ⟨t, htau, ho⟩, hsolv, hm0, hs0, hsort⟩ := hd
  obtain ⟨ef, edf, he, hval⟩ := hen _ hsort
  obtain ⟨M, P, hrun, hclose⟩ := hconv o.fwd_ode.solver dt n hdt0 (hdt.trans_le (min_le_left _ _)) hn.le
  obtain ⟨F, mm, ss, lam, psi, heval, hfwd⟩ := vgp1_eval ho he (fun k => a (k * dt)) (fun k => b (k * dt))
  have hfe : o.freeEnergy shape1 (Spec.onGrid a n dt ++ Spec.onGrid b n dt) = (.ok F, (o.freeEnergy shape1 (Spec.onGrid a n dt ++ Spec.onGrid b n dt)).2) := by
    unfold VarGP.freeEnergy Spec.onGrid
    rw [heval]
  obtain ⟨al, bl, mt, st, e, E0, Eo, h1, h2, h3, h4, h5, h6, -⟩ := C59_sum_of_energies _ _ _ _ _ hfe
  have hdim := ho.dim
  rw [hdim] at h1
  have hu' := (C58_pack_unpack_1d (fun k : Fin (n + 1) => a (k * dt)) (fun k : Fin (n + 1) => b (k * dt))).2.1
  rw [show Spec.onGrid a n dt ++ Spec.onGrid b n dt
    = shape1.ravelA (List.ofFn fun k : Fin (n + 1) => a (k * dt)) ++ shape1.ravelB (List.ofFn fun k : Fin (n + 1) => b (k * dt)) from rfl] at h1
  simp only [shape1, id] at hu' h1
  rw [hu'] at h1
  injection h1 with h1
  simp only [Prod.mk.injEq] at h1
  obtain ⟨rfl, rfl⟩ := h1
  rw [show shape1.rhs = rhs1 from rfl, hsolv, hm0, hs0, hsig, hrun] at h2
  injection h2 with h2
  simp only [Prod.mk.injEq] at h2
  obtain ⟨rfl, rfl⟩ := h2
  have hE := hval _ _ _ _ _ h4
  have hE0 : E0 = pr.gauss (m 0) (S 0) := by
    rw [ho.prior, hm0, hs0] at h3
    injection h3 with h3
    exact h3.symm
  have hEo : Eo = ∑ j, obsPoly (y j) R (M (t j), P (t j)) := by
    rw [ho.like] at h5
    have := like1_gauss_eq 1 R y t (fun k : Fin (n + 1) => M k) (fun k : Fin (n + 1) => P k)
    simp only [Like1.toIf] at h5
    rw [this] at h5
    injection h5 with h5
    exact h5.symm
  refine ⟨F, by rw [hfe], ?_⟩
  have hdt1 : dt ≤ 1 := hdt.le.trans (min_le_right _ _)
  have r1 := hrule dt n (fun k => (a (k * dt), b (k * dt), M k, P k)) hdt0 hdt1 hn fun k hk => by
    obtain ⟨c1, c2⟩ := hclose k hk
    have hC0 : 0 ≤ C * dt := (abs_nonneg _).trans c1
    simp only [Prod.mk_sub_mk, Prod.norm_mk, sub_self, norm_zero]
    exact max_le hC0 (max_le hC0 (max_le c1 c2))
  have r2 : |∑ j, obsPoly (y j) R (M (t j), P (t j)) - ∑ j, obsPoly (y j) R (m (τ j), S (τ j))| ≤ (∑ j, K j * |C|) * dt := by
    rw [← Finset.sum_sub_distrib, Finset.sum_mul]
    refine (Finset.abs_sum_le_sum_abs _ _).trans (Finset.sum_le_sum fun j _ => ?_)
    have hk : ((t j : ℕ)) ≤ n := Nat.lt_succ_iff.1 (t j).2
    obtain ⟨c1, c2⟩ := hclose (t j) hk
    rw [htau j] at c1 c2
    have hτ : τ j ∈ Icc 0 T := by
      rw [← htau j, ← hn]
      exact ⟨by positivity, by gcongr⟩
    have hb := hB _ hτ
    simp only [Prod.norm_mk] at hb
    have b1 := (le_max_left _ _).trans ((le_max_right _ _).trans ((le_max_right _ _).trans hb))
    have b2 := (le_max_right _ _).trans ((le_max_right _ _).trans ((le_max_right _ _).trans hb))
    have hC2 : C * dt ≤ |C| * dt := mul_le_mul_of_nonneg_right (le_abs_self C) hdt0.le
    have hC3 : |C| * dt ≤ |C| := by nlinarith [abs_nonneg C]
    have tri : ∀ x z : ℝ, |x - z| ≤ C * dt → ‖z‖ ≤ B → ‖x‖ ≤ B + |C| := fun x z hxz hz => by
      have := norm_add_le z (x - z)
      rw [add_sub_cancel] at this
      have e : ‖x - z‖ = |x - z| := rfl
      linarith
    have := hlip j (M (t j), P (t j)) (m (τ j), S (τ j)) (max_le (tri _ _ c1 b1) (tri _ _ c2 b2))
      ((max_le b1 b2).trans (by linarith [abs_nonneg C]))
    refine this.trans ?_
    rw [mul_assoc]
    refine mul_le_mul_of_nonneg_left ?_ (hK j)
    simp only [Prod.mk_sub_mk, Prod.norm_mk]
    exact (max_le c1 c2).trans hC2
  rw [h6, hE0, hE, hEo]
  have := abs_add_le (Spec.trapezoidRule dt (List.ofFn fun k : Fin (n + 1) => q (a (k * dt), b (k * dt), M k, P k)) - ∫ t in (0 : ℝ)..T, q (a t, b t, m t, S t))
    (∑ j, obsPoly (y j) R (M (t j), P (t j)) - ∑ j, obsPoly (y j) R (m (τ j), S (τ j)))
  rw [add_mul]
  refine le_trans (le_of_eq (congrArg _ ?_)) (this.trans (add_le_add r1 r2))
  ring

theorem sum_obsPoly {T sigma R : ℝ} (hR : 0 < R) {a b m S : ℝ → ℝ} (hc : Spec.Curve T sigma a b m S) {k : ℕ} {y τ : Fin k → ℝ} {o : VarGP ℝ ℝ}
    {n : ℕ} {dt : ℝ} {pr : Prior1} (hd : Spec.Discretises o n dt T R pr y τ m S) :
    ∑ j, obsPoly (y j) R (m (τ j), S (τ j)) = ∑ j, Spec.obsEnergy1 (y j) 1 R (m (τ j)) (S (τ j)) := by
  refine Finset.sum_congr rfl fun j _ => ?_
  obtain ⟨hdt, hn, ⟨t, ht, -⟩, -⟩ := hd
  have hτ : τ j ∈ Icc 0 T := by
    have hk : ((t j : ℕ)) ≤ n := Nat.lt_succ_iff.1 (t j).2
    rw [← ht j, ← hn]
    exact ⟨by positivity, by gcongr⟩
  rw [obsEnergy1_eq _ _ _ _ _ hR (hc.nonneg _ hτ), obsPoly]
  ring

theorem ouQ_contDiff (θ σ : ℝ) : ContDiff ℝ 1 fun p : ℝ × ℝ × ℝ × ℝ => ouQ θ p.1 p.2.1 p.2.2.1 p.2.2.2 / (2 * σ) := by
  unfold ouQ
  fun_prop

theorem momPoly_contDiff : ∀ n : ℕ, ContDiff ℝ 1 fun p : ℝ × ℝ × ℝ × ℝ => momPoly n p.2.2.1 p.2.2.2
  | 0 => by simp only [momPoly]; fun_prop
  | 1 => by simp only [momPoly]; fun_prop
  | n + 2 => by
    have h1 := momPoly_contDiff n
    have h2 := momPoly_contDiff (n + 1)
    simp only [momPoly]
    fun_prop

theorem dwQ_contDiff (θ σ : ℝ) :
    ContDiff ℝ 1 fun p : ℝ × ℝ × ℝ × ℝ => (dwQ θ p.1 p.2.1 p.2.2.1 p.2.2.2 - 8 * momPoly 6 p.2.2.1 p.2.2.2) / (2 * σ) := by
  have h2 := momPoly_contDiff 2
  have h3 := momPoly_contDiff 3
  have h4 := momPoly_contDiff 4
  have h6 := momPoly_contDiff 6
  unfold dwQ
  fun_prop

/-- C108 for the Ornstein-Uhlenbeck process: fix a continuous-time problem, i.e. Lipschitz continuous parameters `a`, `b`, the solutions `m`, `S` of the moment
equations, observations `y` at times `τ`. For every variational object that holds the problem on a grid with a small step `dt` (with any of the four
integrators), `free_energy` at the grid values of `a`, `b` returns a number that differs by at most a constant times `dt` from the energy of the prior plus
the continuous-time energy. -/
theorem C108_ornstein_uhlenbeck {G : Type} (T θ sigma R : ℝ) (hR : 0 < R) (a b m S : ℝ → ℝ) (hc : Spec.Curve T sigma a b m S) {k : ℕ} (y τ : Fin k → ℝ) (pr : Prior1) :
    ∃ C δ, 0 < δ ∧ ∀ (p : OU G) (o : VarGP ℝ ℝ) (n : ℕ) (dt : ℝ), dt < δ → o.model = p.sde → p.theta = θ → p.sigma = sigma →
      p.base.timeStep = .ok dt → Spec.Discretises o n dt T R pr y τ m S →
      ∃ F, (o.freeEnergy shape1 (Spec.onGrid a n dt ++ Spec.onGrid b n dt)).1 = .ok F
        ∧ |F - (pr.gauss (m 0) (S 0) + Spec.continuousEnergy (Spec.ouDrift θ) sigma R T y τ a b m S)| ≤ C * dt := by
  obtain ⟨C, δ, hδ, h⟩ := freeEnergy_limit (R := R) hc y τ pr (ouQ_contDiff θ sigma)
  refine ⟨C, δ, hδ, fun p o n dt hdt hmod hθ hσ hstep hd => ?_⟩
  obtain ⟨F, hF, hb⟩ := h o n dt hdt hd (by rw [hmod]; exact hσ) fun obs hobs => ⟨_, _, by rw [hmod]; exact ou_energyOk p (n + 1) obs dt hstep hobs, by
    intro a b m s e he
    rw [hmod] at he
    simp only [OU.sde, ou_energy_eq p a b m s (some obs) dt hstep (fun l hl => by cases hl; exact hobs), bind, Except.bind] at he
    injection he with he
    rw [← he, hθ, hσ]
    exact rule_div _ _ _⟩
  refine ⟨F, hF, ?_⟩
  have e : (∫ t in (0 : ℝ)..T, ouQ θ (a t) (b t) (m t) (S t) / (2 * sigma)) = ∫ t in (0 : ℝ)..T, Spec.sdeDensity (Spec.ouDrift θ) sigma (a t) (b t) (m t) (S t) := by
    refine intervalIntegral.integral_congr fun t ht => ?_
    rw [uIcc_of_le hc.window] at ht
    simp only [Spec.sdeDensity, ouQ_eq _ _ _ _ _ (hc.nonneg t ht)]
  rw [sum_obsPoly hR hc hd] at hb
  simp only [e] at hb
  rw [Spec.continuousEnergy, ← add_assoc]
  exact hb

theorem dw_esde {G : Type} (p : DW G) {n : ℕ} {obs : List ℕ} {dt : ℝ} (hstep : p.base.timeStep = .ok dt) (hobs : obs.Pairwise (· ≤ ·)) (a b m s : Fin n → ℝ)
    (e : SdeTerms ℝ ℝ) (he : p.sde.energy (List.ofFn a) (List.ofFn b) (List.ofFn m) (List.ofFn s) obs = .ok e) :
    e.Esde = Spec.trapezoidRule dt (List.ofFn fun i => (dwQ p.theta (a i) (b i) (m i) (s i) - 8 * momPoly 6 (m i) (s i)) / (2 * p.sigma)) := by
  simp only [DW.sde, dw_energy_eq p a b m s (some obs) dt hstep (fun l hl => by cases hl; exact hobs), bind, Except.bind] at he
  injection he with he
  rw [← he]
  exact rule_div _ _ _

theorem curve_continuous {T sigma : ℝ} {a b m S : ℝ → ℝ} (hc : Spec.Curve T sigma a b m S) :
    ContinuousOn (fun t => (a t, b t, m t, S t)) (Icc 0 T) := by
  obtain ⟨L, hL⟩ := hc.lip
  have cont : ∀ {f : ℝ → ℝ}, (∀ s ∈ Icc 0 T, ∀ t ∈ Icc 0 T, |f s - f t| ≤ L * |s - t|) → ContinuousOn f (Icc 0 T) := fun {f} h => by
    have : LipschitzOnWith |L|.toNNReal f (Icc 0 T) := LipschitzOnWith.of_dist_le_mul fun s hs t ht => by
      rw [Real.coe_toNNReal _ (abs_nonneg _), Real.dist_eq, Real.dist_eq]
      exact (h s hs t ht).trans (mul_le_mul_of_nonneg_right (le_abs_self _) (abs_nonneg _))
    exact this.continuousOn
  have ca := cont fun s hs t ht => (hL s hs t ht).1
  have cb := cont fun s hs t ht => (hL s hs t ht).2
  have cm : ContinuousOn m (Icc 0 T) := fun t ht => (hc.mean t ht).continuousWithinAt
  have cS : ContinuousOn S (Icc 0 T) := fun t ht => (hc.var t ht).continuousWithinAt
  exact ca.prodMk (cb.prodMk (cm.prodMk cS))

attribute [local irreducible] momPoly in
theorem mom6_continuous {T sigma : ℝ} {a b m S : ℝ → ℝ} (cu : ContinuousOn (fun t => (a t, b t, m t, S t)) (Icc 0 T)) :
    ContinuousOn (fun t => 4 * momPoly 6 (m t) (S t) / sigma) (Icc 0 T) := by
  have := (momPoly_contDiff 6).continuous.comp_continuousOn cu
  simp only [Function.comp_def] at this
  obtain ⟨f, hf⟩ : ∃ f : ℝ → ℝ, ∀ t, momPoly 6 (m t) (S t) = f t := ⟨_, fun _ => rfl⟩
  simp only [hf] at this ⊢
  fun_prop

theorem dw_integral {T sigma : ℝ} (θ : ℝ) {a b m S : ℝ → ℝ} (hc : Spec.Curve T sigma a b m S) :
    (∫ t in (0 : ℝ)..T, (dwQ θ (a t) (b t) (m t) (S t) - 8 * momPoly 6 (m t) (S t)) / (2 * sigma))
      + (∫ t in (0 : ℝ)..T, 4 * Spec.normalMoment 6 (m t) (S t) / sigma)
      = ∫ t in (0 : ℝ)..T, Spec.sdeDensity (Spec.dwDrift θ) sigma (a t) (b t) (m t) (S t) := by
  have cu := curve_continuous hc
  have i6 : ContinuousOn (fun t => 4 * momPoly 6 (m t) (S t) / sigma) (Icc 0 T) := mom6_continuous cu
  have iq : ContinuousOn (fun t => (dwQ θ (a t) (b t) (m t) (S t) - 8 * momPoly 6 (m t) (S t)) / (2 * sigma)) (Icc 0 T) := by
    have := (dwQ_contDiff θ sigma).continuous.comp_continuousOn cu
    simpa only [Function.comp_def] using this
  have e6 : (∫ t in (0 : ℝ)..T, 4 * Spec.normalMoment 6 (m t) (S t) / sigma) = ∫ t in (0 : ℝ)..T, 4 * momPoly 6 (m t) (S t) / sigma := by
    refine intervalIntegral.integral_congr fun t ht => ?_
    rw [uIcc_of_le hc.window] at ht
    simp only [normalMoment_eq_poly _ _ _ (hc.nonneg t ht)]
  rw [e6, ← intervalIntegral.integral_add (iq.mono (uIcc_of_le hc.window).subset).intervalIntegrable (i6.mono (uIcc_of_le hc.window).subset).intervalIntegrable]
  refine intervalIntegral.integral_congr fun t ht => ?_
  rw [uIcc_of_le hc.window] at ht
  simp only [Spec.sdeDensity, dwQ_eq _ _ _ _ _ (hc.nonneg t ht)]
  generalize dwQ θ (a t) (b t) (m t) (S t) = x
  generalize momPoly 6 (m t) (S t) = z
  rw [sub_div, mul_div_mul_comm]
  ring

/-- C108 for the double well, the part that holds: the numbers converge at the same rate to the energy of the prior plus the continuous-time energy minus
the integral of `4 E[x⁶] / sigma`. Missing: without the last term the claim fails, see `C108_double_well_violated`. -/
theorem C108_double_well_partial {G : Type} (T θ sigma R : ℝ) (hR : 0 < R) (a b m S : ℝ → ℝ) (hc : Spec.Curve T sigma a b m S) {k : ℕ} (y τ : Fin k → ℝ) (pr : Prior1) :
    ∃ C δ, 0 < δ ∧ ∀ (p : DW G) (o : VarGP ℝ ℝ) (n : ℕ) (dt : ℝ), dt < δ → o.model = p.sde → p.theta = θ → p.sigma = sigma →
      p.base.timeStep = .ok dt → Spec.Discretises o n dt T R pr y τ m S →
      ∃ F, (o.freeEnergy shape1 (Spec.onGrid a n dt ++ Spec.onGrid b n dt)).1 = .ok F
        ∧ |F - (pr.gauss (m 0) (S 0) + Spec.continuousEnergy (Spec.dwDrift θ) sigma R T y τ a b m S
          - ∫ t in (0 : ℝ)..T, 4 * Spec.normalMoment 6 (m t) (S t) / sigma)| ≤ C * dt := by
  obtain ⟨C, δ, hδ, h⟩ := freeEnergy_limit (R := R) hc y τ pr (dwQ_contDiff θ sigma)
  refine ⟨C, δ, hδ, fun p o n dt hdt hmod hθ hσ hstep hd => ?_⟩
  obtain ⟨F, hF, hb⟩ := h o n dt hdt hd (by rw [hmod]; exact hσ) fun obs hobs => ⟨_, _, by rw [hmod]; exact dw_energyOk p (n + 1) obs dt hstep hobs,
    fun a b m s e he => by
      rw [hmod] at he
      have := dw_esde p hstep hobs a b m s e he
      rw [hθ, hσ] at this
      exact this⟩
  refine ⟨F, hF, ?_⟩
  rw [sum_obsPoly hR hc hd] at hb
  rw [Spec.continuousEnergy, ← dw_integral θ hc]
  refine le_trans (le_of_eq (congrArg _ ?_)) hb
  ring

/-- C108 does not hold for the double well: when the variances are positive, the number that `free_energy` returns stays below the claimed limit by a fixed
amount, for all small steps. -/
theorem C108_double_well_violated {G : Type} (T θ sigma R : ℝ) (hT : 0 < T) (hσ : 0 < sigma) (hR : 0 < R) (a b m S : ℝ → ℝ) (hc : Spec.Curve T sigma a b m S)
    (hpos : ∀ t ∈ Icc 0 T, 0 < S t) {k : ℕ} (y τ : Fin k → ℝ) (pr : Prior1) :
    ∃ ε > 0, ∃ δ > 0, ∀ (p : DW G) (o : VarGP ℝ ℝ) (n : ℕ) (dt : ℝ), dt < δ → o.model = p.sde → p.theta = θ → p.sigma = sigma →
      p.base.timeStep = .ok dt → Spec.Discretises o n dt T R pr y τ m S →
      ∃ F, (o.freeEnergy shape1 (Spec.onGrid a n dt ++ Spec.onGrid b n dt)).1 = .ok F
        ∧ F ≤ pr.gauss (m 0) (S 0) + Spec.continuousEnergy (Spec.dwDrift θ) sigma R T y τ a b m S - ε := by
  obtain ⟨C, δ, hδ, h⟩ := C108_double_well_partial (G := G) T θ sigma R hR a b m S hc y τ pr
  have hI : 0 < ∫ t in (0 : ℝ)..T, 4 * Spec.normalMoment 6 (m t) (S t) / sigma := by
    have e6 : (∫ t in (0 : ℝ)..T, 4 * Spec.normalMoment 6 (m t) (S t) / sigma) = ∫ t in (0 : ℝ)..T, 4 * momPoly 6 (m t) (S t) / sigma := by
      refine intervalIntegral.integral_congr fun t ht => ?_
      rw [uIcc_of_le hc.window] at ht
      simp only [normalMoment_eq_poly _ _ _ (hc.nonneg t ht)]
    rw [e6]
    have i6 : ContinuousOn (fun t => 4 * momPoly 6 (m t) (S t) / sigma) (Icc 0 T) := mom6_continuous (curve_continuous hc)
    refine intervalIntegral.intervalIntegral_pos_of_pos_on (i6.mono (uIcc_of_le hc.window).subset).intervalIntegrable (fun t ht => ?_) hT
    have hs := hpos t ⟨ht.1.le, ht.2.le⟩
    have : 0 < momPoly 6 (m t) (S t) := by
      simp only [momPoly]
      push_cast
      have e : m t * (m t * (m t * (m t * (m t * m t + (0 + 1) * S t * 1) + (1 + 1) * S t * m t) + (2 + 1) * S t * (m t * m t + (0 + 1) * S t * 1))
        + (3 + 1) * S t * (m t * (m t * m t + (0 + 1) * S t * 1) + (1 + 1) * S t * m t))
        + (4 + 1) * S t * (m t * (m t * (m t * m t + (0 + 1) * S t * 1) + (1 + 1) * S t * m t) + (2 + 1) * S t * (m t * m t + (0 + 1) * S t * 1))
        = m t ^ 6 + 15 * m t ^ 4 * S t + 45 * m t ^ 2 * S t ^ 2 + 15 * S t ^ 3 := by ring
      rw [e]
      positivity
    positivity
  obtain ⟨I, hIe⟩ : ∃ I, I = ∫ t in (0 : ℝ)..T, 4 * Spec.normalMoment 6 (m t) (S t) / sigma := ⟨_, rfl⟩
  rw [← hIe] at hI
  refine ⟨I / 2, by positivity, min δ (I / (2 * (|C| + 1))), lt_min hδ (by positivity), fun p o n dt hdt hmod hθ hσ' hstep hd => ?_⟩
  obtain ⟨F, hF, hb⟩ := h p o n dt (hdt.trans_le (min_le_left _ _)) hmod hθ hσ' hstep hd
  refine ⟨F, hF, ?_⟩
  rw [← hIe] at hb
  have h1 := (abs_le.1 hb).2
  have h2 : dt * (2 * (|C| + 1)) < I := (lt_div_iff₀ (by positivity)).1 (hdt.trans_le (min_le_right _ _))
  have h3 : C * dt ≤ |C| * dt := mul_le_mul_of_nonneg_right (le_abs_self C) hd.step.le
  have h4 := hd.step
  nlinarith

/-! Non-vacuity: `a(t) = 1 / (1 + t)`, `b(t) = 2 - 1 / (1 + t)`, `m(t) = t`, `S(t) = 1 + t`, `sigma = 3` on `[0, 1]`, one observation at time `1/2`; for every
even number of steps there is an object that holds the problem on that grid. -/

theorem example_curve : Spec.Curve 1 3 (fun t => 1 / (1 + t)) (fun t => 2 - 1 / (1 + t)) (fun t => t) (fun t => 1 + t) where
  window := zero_le_one
  lip := ⟨1, fun s hs t ht => ⟨example_lip s hs t ht, example_lip' s hs t ht⟩⟩
  mean := example_mean
  var := example_cov
  nonneg t ht := by linarith [ht.1]

/-- A process on the grid with `2 N` steps. -/
def gridProc (N : ℕ) : Proc ℕ ℝ where
  xt := some (List.ofFn fun _ : Fin (2 * N + 1) => 0)
  tk := some (List.ofFn fun k : Fin (2 * N + 1) => k / (2 * N))
  rng := 0
  single_dimension := true

/-- A variational object with one observation in the middle. -/
def gridObj (M : SdeModel ℝ ℝ) (meth : Method) (N : ℕ) : VarGP ℝ ℝ where
  model := M
  fwd_ode := ⟨1 / (2 * N), "", meth⟩
  bwd_ode := ⟨1 / (2 * N), "", meth⟩
  likelihood := (⟨List.ofFn fun _ : Fin 1 => 2, List.ofFn fun _ : Fin 1 => N, 1, 1⟩ : Like1).toIf
  kl0 := fun m s => .ok ((⟨0, 1⟩ : Prior1).gauss m s)
  obs_y := List.ofFn fun _ : Fin 1 => 2
  obs_t := List.ofFn fun _ : Fin 1 => N
  dt := 1 / (2 * N)
  dim_n := 2 * N + 1
  m0 := 0
  s0 := 1
  cache := none

theorem gridProc_step {N : ℕ} (hN : 0 < N) : (gridProc N).timeStep = .ok (1 / (2 * N)) := by
  have h0 : idx (List.ofFn fun k : Fin (2 * N + 1) => (k : ℝ) / (2 * N)) 0 = .ok 0 := by
    simpa using idx_ofFn (fun k : Fin (2 * N + 1) => (k : ℝ) / (2 * N)) ⟨0, by omega⟩
  have h1 : idx (List.ofFn fun k : Fin (2 * N + 1) => (k : ℝ) / (2 * N)) 1 = .ok (1 / (2 * N)) := by
    simpa using idx_ofFn (fun k : Fin (2 * N + 1) => (k : ℝ) / (2 * N)) ⟨1, by omega⟩
  simp only [gridProc, Proc.timeStep, h0, h1, py_ok_bind]
  have : 0 < 1 / (2 * (N : ℝ)) := by positivity
  simp [pure, Except.pure, abs_of_pos]

theorem gridObj_discretises (M : SdeModel ℝ ℝ) (meth : Method) {N : ℕ} (hN : 0 < N) :
    Spec.Discretises (gridObj M meth N) (2 * N) (1 / (2 * N)) 1 1 ⟨0, 1⟩ (fun _ : Fin 1 => 2) (fun _ => 1 / 2) (fun t => t) (fun t => 1 + t) where
  step := by positivity
  window := by push_cast; field_simp
  object := ⟨fun _ => ⟨N, by omega⟩, fun j => by simp only; field_simp,
    ⟨by omega, rfl, rfl, fun i j _ => Subsingleton.elim _ _, rfl, rfl⟩⟩
  solver := rfl
  m0 := rfl
  s0 := by simp [gridObj]
  sorted := by simp [gridObj]

example (meth : Method) (θ : ℝ) : ∃ C δ, 0 < δ ∧ ∀ N : ℕ, 0 < N → (1 / (2 * N) : ℝ) < δ →
    ∃ F, ((gridObj (OU.sde (G := ℕ) ⟨gridProc N, 3, θ, 1 / 3⟩) meth N).freeEnergy shape1
      (Spec.onGrid (fun t => 1 / (1 + t)) (2 * N) (1 / (2 * N)) ++ Spec.onGrid (fun t => 2 - 1 / (1 + t)) (2 * N) (1 / (2 * N)))).1 = .ok F
      ∧ |F - ((⟨0, 1⟩ : Prior1).gauss 0 (1 + 0) + Spec.continuousEnergy (Spec.ouDrift θ) 3 1 1 (fun _ : Fin 1 => 2) (fun _ => 1 / 2)
          (fun t => 1 / (1 + t)) (fun t => 2 - 1 / (1 + t)) (fun t => t) (fun t => 1 + t))| ≤ C * (1 / (2 * N)) := by
  obtain ⟨C, δ, hδ, h⟩ := C108_ornstein_uhlenbeck (G := ℕ) 1 θ 3 1 one_pos _ _ _ _ example_curve (fun _ : Fin 1 => 2) (fun _ => 1 / 2) ⟨0, 1⟩
  exact ⟨C, δ, hδ, fun N hN hd => h _ _ _ _ hd rfl rfl rfl (gridProc_step hN) (gridObj_discretises _ meth hN)⟩

end

end VGPA
