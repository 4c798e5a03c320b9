import Verif.Lemmas.Arrays

/-!
# C40-C43: energies and gradients of the one dimensional models

Arrays of length `n` are written `List.ofFn m` with `m : Fin n → ℝ`.
-/

namespace VGPA

open ProbabilityTheory MeasureTheory

namespace Spec

/-- Expected squared mismatch between a drift `f` and the linear drift `-a x + b`, under the normal law. -/
noncomputable def mismatch (f : ℝ → ℝ) (a b m v : ℝ) : ℝ := normalE m v fun x => (f x - (-a * x + b)) ^ 2

/-- Observation times are given in non-decreasing order (or not at all). -/
def ObsSorted (obs : Option (List ℕ)) : Prop := ∀ l, obs = some l → l.Pairwise (· ≤ ·)

/-- The documented Ornstein-Uhlenbeck drift (mean level zero). -/
noncomputable def ouDrift (theta x : ℝ) : ℝ := -theta * x

/-- The documented double well drift. -/
noncomputable def dwDrift (theta x : ℝ) : ℝ := 4 * x * (theta - x ^ 2)

end Spec

variable {G : Type} {n : ℕ}

/-- Closed form of the Ornstein-Uhlenbeck mismatch. -/
noncomputable def ouQ (theta a b m v : ℝ) : ℝ := (m ^ 2 + v) * (theta - a) ^ 2 + 2 * m * (theta - a) * b + b ^ 2

theorem ouQ_eq (theta a b m v : ℝ) (hv : 0 ≤ v) : Spec.mismatch (Spec.ouDrift theta) a b m v = ouQ theta a b m v := by
  have h := normalE_poly (k := 3) ![b ^ 2, 2 * (theta - a) * b, (theta - a) ^ 2] m v hv
  unfold Spec.mismatch
  rw [show (fun x => (Spec.ouDrift theta x - (-a * x + b)) ^ 2)
    = (fun x => ∑ i : Fin 3, ![b ^ 2, 2 * (theta - a) * b, (theta - a) ^ 2] i * x ^ (i : ℕ)) from ?_, h]
  · simp [Fin.sum_univ_succ, momPoly, ouQ]; ring
  · funext x; simp [Fin.sum_univ_succ, Spec.ouDrift]; ring

/-- Closed form of the double well mismatch. -/
noncomputable def dwQ (theta a b m v : ℝ) : ℝ :=
  16 * momPoly 6 m v - 8 * (4 * theta + a) * momPoly 4 m v + 8 * b * momPoly 3 m v
    + (4 * theta + a) ^ 2 * momPoly 2 m v - 2 * b * (4 * theta + a) * m + b ^ 2

theorem dwQ_eq (theta a b m v : ℝ) (hv : 0 ≤ v) : Spec.mismatch (Spec.dwDrift theta) a b m v = dwQ theta a b m v := by
  have h := normalE_poly (k := 7) ![b ^ 2, -2 * b * (4 * theta + a), (4 * theta + a) ^ 2, 8 * b, -8 * (4 * theta + a),
    0, 16] m v hv
  unfold Spec.mismatch
  rw [show (fun x => (Spec.dwDrift theta x - (-a * x + b)) ^ 2)
    = (fun x => ∑ i : Fin 7, ![b ^ 2, -2 * b * (4 * theta + a), (4 * theta + a) ^ 2, 8 * b, -8 * (4 * theta + a),
    0, 16] i * x ^ (i : ℕ)) from ?_, h]
  · simp [Fin.sum_univ_succ, momPoly, dwQ]; ring
  · funext x; simp [Fin.sum_univ_succ, Spec.dwDrift]; ring

/-- `OrnsteinUhlenbeck.energy` in closed form. -/
theorem ou_energy_eq (o : OU G) (a b m s : Fin n → ℝ) (obs : Option (List ℕ)) (dt : ℝ)
    (hdt : o.base.timeStep = .ok dt) (hobs : Spec.ObsSorted obs) :
    o.energy (List.ofFn a) (List.ofFn b) (List.ofFn m) (List.ofFn s) obs = .ok
      { Esde := 0.5 * Spec.trapezoidRule dt (List.ofFn fun i => ouQ o.theta (a i) (b i) (m i) (s i)) / o.sigma
        Ef := List.ofFn fun i => -o.theta * m i
        Edf := List.ofFn fun _ : Fin n => -o.theta
        dm := List.ofFn fun i => (m i * (o.theta - a i) ^ 2 + (o.theta - a i) * b i) / o.sigma
        ds := List.ofFn fun i => 0.5 * (o.theta - a i) ^ 2 / o.sigma
        dtheta := Spec.trapezoidRule dt
          (List.ofFn fun i => (m i ^ 2 + s i) * (o.theta - a i) + m i * b i) / o.sigma
        dsigma := -(0.5 * Spec.trapezoidRule dt (List.ofFn fun i => ouQ o.theta (a i) (b i) (m i) (s i)) / o.sigma)
          / o.sigma } := by
  have hinit : GaussianMoments.init (List.ofFn m) (List.ofFn s) = .ok ⟨List.ofFn m, List.ofFn s, n⟩ := by
    simp [GaussianMoments.init]
  unfold OU.energy
  simp only [hinit, hdt, py_ok_bind, GaussianMoments.call, GaussianMoments.zip, zipWith_ofFn]
  norm_num only [List.length_ofFn, tab_eq_ofFn, ent_ofFn, ne_eq, not_true_eq_false, or_self, if_false,
    myTrapz_eq_rule _ _ _ hobs, py_ok_bind, py_pure, ouQ, mul_one]
  simp only [if_true, py_ok_bind, ent_ofFn, Except.ok.injEq, Energy1.mk.injEq]
  refine ⟨by trivial, trivial, trivial, ?_, trivial, trivial, trivial⟩
  congr 1; funext i; ring

/-- `DoubleWell.energy` in closed form. -/
theorem dw_energy_eq (o : DW G) (a b m s : Fin n → ℝ) (obs : Option (List ℕ)) (dt : ℝ)
    (hdt : o.base.timeStep = .ok dt) (hobs : Spec.ObsSorted obs) :
    o.energy (List.ofFn a) (List.ofFn b) (List.ofFn m) (List.ofFn s) obs = .ok
      { Esde := 0.5 * Spec.trapezoidRule dt
          (List.ofFn fun i => dwQ o.theta (a i) (b i) (m i) (s i) - 8 * momPoly 6 (m i) (s i)) / o.sigma
        Ef := List.ofFn fun i => 4 * (o.theta * m i - momPoly 3 (m i) (s i))
        Edf := List.ofFn fun i => 4 * (o.theta - 3 * momPoly 2 (m i) (s i))
        dm := List.ofFn fun i => 0.5 * (16 * (6 * momPoly 5 (m i) (s i))
          - 8 * (4 * o.theta + a i) * (4 * momPoly 3 (m i) (s i))
          + 8 * b i * (3 * momPoly 2 (m i) (s i)) + (4 * o.theta + a i) ^ 2 * (2 * momPoly 1 (m i) (s i))
          - 2 * b i * (4 * o.theta + a i)) / o.sigma
        ds := List.ofFn fun i => 0.5 * (16 * (15 * momPoly 4 (m i) (s i))
          - 8 * (4 * o.theta + a i) * (6 * momPoly 2 (m i) (s i))
          + 8 * b i * (3 * momPoly 1 (m i) (s i)) + (4 * o.theta + a i) ^ 2 * 1) / o.sigma
        dtheta := 4 * Spec.trapezoidRule dt (List.ofFn fun i => (4 * o.theta + a i) * momPoly 2 (m i) (s i)
          - 4 * momPoly 4 (m i) (s i) - b i * m i) / o.sigma
        dsigma := -(0.5 * Spec.trapezoidRule dt
          (List.ofFn fun i => dwQ o.theta (a i) (b i) (m i) (s i) - 8 * momPoly 6 (m i) (s i)) / o.sigma)
          / o.sigma } := by
  have hinit : GaussianMoments.init (List.ofFn m) (List.ofFn s) = .ok ⟨List.ofFn m, List.ofFn s, n⟩ := by
    simp [GaussianMoments.init]
  unfold DW.energy
  simp only [hinit, hdt, py_ok_bind]
  norm_num only [GaussianMoments.call, GaussianMoments.dm, GaussianMoments.ds, GaussianMoments.zip, zipWith_ofFn,
    replicate_ofFn, if_true, if_false, py_ok_bind, List.length_ofFn, tab_eq_ofFn, ent_ofFn, ne_eq,
    not_true_eq_false, or_self, myTrapz_eq_rule _ _ _ hobs, py_pure]
  simp only [Except.ok.injEq, Energy1.mk.injEq]
  simp only [momPoly, dwQ]
  norm_num only [Nat.cast_ofNat, Nat.cast_one, Nat.cast_zero]
  refine ⟨?_, ?_, ?_, ?_, ?_, ?_, ?_⟩
  · congr 4; funext i; ring
  · congr 1; funext i; ring
  · congr 1; funext i; ring
  · congr 1; funext i; ring
  · congr 1; funext i; ring
  · congr 4; funext i; ring
  · congr 6; funext i; ring

theorem rule_div (dt c : ℝ) (f : Fin n → ℝ) : 0.5 * Spec.trapezoidRule dt (List.ofFn f) / c
    = Spec.trapezoidRule dt (List.ofFn fun i => f i / (2 * c)) := by
  have := rule_smul_ofFn dt (1 / (2 * c)) f
  simp only [smul_eq_mul] at this
  rw [show (fun i => f i / (2 * c)) = fun i => 1 / (2 * c) * f i from funext fun i => by ring, this]
  norm_num
  ring

theorem normalE_lin (c e m v : ℝ) (hv : 0 ≤ v) : Spec.normalE m v (fun x => c * x + e) = c * m + e := by
  have h := normalE_poly (k := 2) ![e, c] m v hv
  rw [show (fun x => c * x + e) = (fun x => ∑ i : Fin 2, ![e, c] i * x ^ (i : ℕ)) from ?_, h]
  · simp [Fin.sum_univ_succ, momPoly]; ring
  · funext x; simp [Fin.sum_univ_succ]; ring

/-! ## C40, C41: Ornstein-Uhlenbeck -/

/-- C40: `OrnsteinUhlenbeck.energy` integrates the expected squared drift mismatch over `2 sigma` with the
trapezoidal rule; `Ef` and `Edf` are the expected drift and its expected derivative. -/
theorem C40_energy (o : OU G) (a b m s : Fin n → ℝ) (obs : Option (List ℕ)) (dt : ℝ)
    (hdt : o.base.timeStep = .ok dt) (hobs : Spec.ObsSorted obs) (hs : ∀ i, 0 ≤ s i) :
    ∃ e, o.energy (List.ofFn a) (List.ofFn b) (List.ofFn m) (List.ofFn s) obs = .ok e
      ∧ e.Esde = Spec.trapezoidRule dt
          (List.ofFn fun i => Spec.mismatch (Spec.ouDrift o.theta) (a i) (b i) (m i) (s i) / (2 * o.sigma))
      ∧ e.Ef = List.ofFn (fun i => Spec.normalE (m i) (s i) (Spec.ouDrift o.theta))
      ∧ e.Edf = List.ofFn (fun i => Spec.normalE (m i) (s i) (deriv (Spec.ouDrift o.theta))) := by
  refine ⟨_, ou_energy_eq o a b m s obs dt hdt hobs, ?_, ?_, ?_⟩
  · dsimp only
    rw [rule_div]
    congr 2; funext i
    rw [ouQ_eq _ _ _ _ _ (hs i)]
  · dsimp only
    congr 1; funext i
    have := normalE_lin (-o.theta) 0 (m i) (s i) (hs i)
    simp only [add_zero] at this
    exact this.symm
  · dsimp only
    congr 1; funext i
    have h : deriv (Spec.ouDrift o.theta) = fun x => 0 * x + -o.theta := by
      funext x
      have : HasDerivAt (Spec.ouDrift o.theta) (-o.theta) x := by
        exact ((hasDerivAt_id x).const_mul (-o.theta)).congr_deriv (by simp)
      rw [this.deriv]; ring
    rw [h, normalE_lin _ _ _ _ (hs i)]; ring

theorem mismatch_nonneg (f : ℝ → ℝ) (a b m v : ℝ) : 0 ≤ Spec.mismatch f a b m v :=
  integral_nonneg fun _ => sq_nonneg _

/-- C40: hence the energy is non-negative. -/
theorem C40_nonneg (o : OU G) (a b m s : Fin n → ℝ) (obs : Option (List ℕ)) (dt : ℝ) (hσ : 0 < o.sigma)
    (hdt : o.base.timeStep = .ok dt) (hobs : Spec.ObsSorted obs) (hs : ∀ i, 0 ≤ s i) (e : Energy1)
    (he : o.energy (List.ofFn a) (List.ofFn b) (List.ofFn m) (List.ofFn s) obs = .ok e) : 0 ≤ e.Esde := by
  obtain ⟨e', h1, h2, _⟩ := C40_energy o a b m s obs dt hdt hobs hs
  rw [he] at h1
  injection h1 with h1
  subst h1
  rw [h2]
  have hdt0 : 0 ≤ dt := by
    unfold Proc.timeStep at hdt
    cases h : o.base.tk with
    | none => simp [h] at hdt
    | some t =>
      simp only [h] at hdt
      unfold idx at hdt
      cases h1 : t[1]? with
      | none => simp [h1] at hdt
      | some t1 =>
        cases h0 : t[0]? with
        | none => simp [h1, h0] at hdt
        | some t0 =>
          simp only [h1, h0, py_ok_bind, py_pure, Except.ok.injEq] at hdt
          rw [← hdt]; exact abs_nonneg _
  apply rule_nonneg _ hdt0
  intro x hx
  obtain ⟨i, rfl⟩ := (List.mem_ofFn' _ _).1 hx
  exact div_nonneg (mismatch_nonneg _ _ _ _ _) (by linarith)

/-- C41: for every perturbation direction of the means and variances, the returned gradients give the exact
derivative of the returned `Esde`. -/
theorem C41_moment_gradient (o : OU G) (a b m s : Fin n → ℝ) (obs : Option (List ℕ)) (dt : ℝ)
    (hdt : o.base.timeStep = .ok dt) (hobs : Spec.ObsSorted obs) :
    ∃ e dm ds, o.energy (List.ofFn a) (List.ofFn b) (List.ofFn m) (List.ofFn s) obs = .ok e
      ∧ e.dm = List.ofFn dm ∧ e.ds = List.ofFn ds
      ∧ ∀ (h k : Fin n → ℝ), ∃ E : ℝ → ℝ,
          (∀ ε : ℝ, ∃ e', o.energy (List.ofFn a) (List.ofFn b) (List.ofFn fun i => m i + ε * h i)
            (List.ofFn fun i => s i + ε * k i) obs = .ok e' ∧ e'.Esde = E ε)
          ∧ HasDerivAt E (Spec.trapezoidRule dt (List.ofFn fun i => dm i * h i + ds i * k i)) 0 := by
  refine ⟨_, _, _, ou_energy_eq o a b m s obs dt hdt hobs, rfl, rfl, fun h k => ⟨_, fun ε =>
    ⟨_, ou_energy_eq o _ _ _ _ obs dt hdt hobs, rfl⟩, ?_⟩⟩
  simp only [rule_div]
  apply rule_hasDerivAt
  intro i
  have hm : HasDerivAt (fun ε : ℝ => m i + ε * h i) (h i) 0 := by
    simpa using ((hasDerivAt_id (0 : ℝ)).mul_const (h i)).const_add (m i)
  have hs : HasDerivAt (fun ε : ℝ => s i + ε * k i) (k i) 0 := by
    simpa using ((hasDerivAt_id (0 : ℝ)).mul_const (k i)).const_add (s i)
  unfold ouQ
  have := ((((hm.pow 2).add hs).mul_const ((o.theta - a i) ^ 2)).add
    (((hm.const_mul 2).mul_const (o.theta - a i)).mul_const (b i))).add_const (b i ^ 2) |>.div_const (2 * o.sigma)
  refine this.congr_deriv ?_
  norm_num
  ring

/-- C41: the returned `theta` gradient is the exact derivative of the returned `Esde`. -/
theorem C41_theta_gradient (o : OU G) (a b m s : Fin n → ℝ) (obs : Option (List ℕ)) (dt : ℝ)
    (hdt : o.base.timeStep = .ok dt) (hobs : Spec.ObsSorted obs) :
    ∃ e, o.energy (List.ofFn a) (List.ofFn b) (List.ofFn m) (List.ofFn s) obs = .ok e
      ∧ ∃ E : ℝ → ℝ, (∀ θ > 0, ∃ e', (o.setTheta θ).2.energy (List.ofFn a) (List.ofFn b) (List.ofFn m)
            (List.ofFn s) obs = .ok e' ∧ (o.setTheta θ).2.theta = θ ∧ e'.Esde = E θ)
          ∧ HasDerivAt E e.dtheta o.theta := by
  refine ⟨_, ou_energy_eq o a b m s obs dt hdt hobs, fun θ => 0.5 * Spec.trapezoidRule dt (List.ofFn fun i =>
    ouQ θ (a i) (b i) (m i) (s i)) / o.sigma, fun θ hθ => ?_, ?_⟩
  · have hset : (o.setTheta θ).2 = { o with theta := θ } := by
      unfold OU.setTheta; rw [if_neg (by norm_num; exact hθ)]
    rw [hset]
    exact ⟨_, ou_energy_eq { o with theta := θ } a b m s obs dt hdt hobs, rfl, rfl⟩
  · simp only [rule_div]
    have := rule_hasDerivAt dt o.theta (fun i θ => ouQ θ (a i) (b i) (m i) (s i) / (2 * o.sigma))
      (fun i => ((m i ^ 2 + s i) * (o.theta - a i) + m i * b i) / o.sigma) ?_
    · refine this.congr_deriv ?_
      have h2 := rule_smul_ofFn dt (1 / o.sigma) (fun i => (m i ^ 2 + s i) * (o.theta - a i) + m i * b i)
      simp only [smul_eq_mul, one_div_mul_eq_div] at h2
      exact h2
    · intro i
      unfold ouQ
      have hθ : HasDerivAt (fun θ : ℝ => θ - a i) 1 o.theta := (hasDerivAt_id _).sub_const _
      have := (((hθ.pow 2).const_mul (m i ^ 2 + s i)).add ((hθ.const_mul (2 * m i)).mul_const (b i))).add_const
        (b i ^ 2) |>.div_const (2 * o.sigma)
      refine this.congr_deriv ?_
      norm_num
      ring

theorem hasDerivAt_div_self (c x : ℝ) (hx : x ≠ 0) : HasDerivAt (fun y => c / y) (-(c / x) / x) x := by
  have := (hasDerivAt_inv hx).const_mul c
  simp only [div_eq_mul_inv] at this ⊢
  refine this.congr_deriv ?_
  field_simp

/-- C41: the returned `sigma` gradient is the exact derivative of the returned `Esde`. -/
theorem C41_sigma_gradient (o : OU G) (a b m s : Fin n → ℝ) (obs : Option (List ℕ)) (dt : ℝ) (hσ : 0 < o.sigma)
    (hdt : o.base.timeStep = .ok dt) (hobs : Spec.ObsSorted obs) :
    ∃ e, o.energy (List.ofFn a) (List.ofFn b) (List.ofFn m) (List.ofFn s) obs = .ok e
      ∧ ∃ E : ℝ → ℝ, (∀ σ > 0, ∃ e', (o.setSigma σ).2.energy (List.ofFn a) (List.ofFn b) (List.ofFn m)
            (List.ofFn s) obs = .ok e' ∧ (o.setSigma σ).2.sigma = σ ∧ e'.Esde = E σ)
          ∧ HasDerivAt E e.dsigma o.sigma := by
  refine ⟨_, ou_energy_eq o a b m s obs dt hdt hobs, fun σ => 0.5 * Spec.trapezoidRule dt (List.ofFn fun i =>
    ouQ o.theta (a i) (b i) (m i) (s i)) / σ, fun σ h => ?_, ?_⟩
  · have hset : (o.setSigma σ).2 = { o with sigma := σ, sig_inv := 1.0 / σ } := by
      unfold OU.setSigma; rw [if_neg (by norm_num; exact h)]
    rw [hset]
    exact ⟨_, ou_energy_eq { o with sigma := σ, sig_inv := 1.0 / σ } a b m s obs dt hdt hobs, rfl, rfl⟩
  · exact hasDerivAt_div_self _ _ hσ.ne'

/-- Non-vacuity of C40 and C41: an object with a window and a positive noise. -/
example (g : G) : ∃ o : OU G, o.base.timeStep = .ok 1 ∧ 0 < o.sigma ∧ Spec.ObsSorted (some [1, 3]) :=
  ⟨⟨⟨none, some [0, 1, 2, 3, 4], g, true⟩, 2, 1, 1 / 2⟩, by simp [Proc.timeStep, idx], by norm_num,
    fun l h => by injection h with h; subst h; simp⟩

/-! ## C42, C43: double well -/

/-- C42 (part): `Ef` and `Edf` are the expected double well drift and its expected derivative. -/
theorem C42_average_drift (o : DW G) (a b m s : Fin n → ℝ) (obs : Option (List ℕ)) (dt : ℝ)
    (hdt : o.base.timeStep = .ok dt) (hobs : Spec.ObsSorted obs) (hs : ∀ i, 0 ≤ s i) :
    ∃ e, o.energy (List.ofFn a) (List.ofFn b) (List.ofFn m) (List.ofFn s) obs = .ok e
      ∧ e.Ef = List.ofFn (fun i => Spec.normalE (m i) (s i) (Spec.dwDrift o.theta))
      ∧ e.Edf = List.ofFn (fun i => Spec.normalE (m i) (s i) (deriv (Spec.dwDrift o.theta))) := by
  refine ⟨_, dw_energy_eq o a b m s obs dt hdt hobs, ?_, ?_⟩
  · dsimp only
    congr 1; funext i
    have h := normalE_poly (k := 4) ![0, 4 * o.theta, 0, -4] (m i) (s i) (hs i)
    rw [show Spec.dwDrift o.theta = (fun x => ∑ j : Fin 4, ![0, 4 * o.theta, 0, -4] j * x ^ (j : ℕ)) from ?_, h]
    · simp [Fin.sum_univ_succ, momPoly]; ring
    · funext x; simp [Fin.sum_univ_succ, Spec.dwDrift]; ring
  · dsimp only
    congr 1; funext i
    have h := normalE_poly (k := 3) ![4 * o.theta, 0, -12] (m i) (s i) (hs i)
    have hd : deriv (Spec.dwDrift o.theta) = (fun x => ∑ j : Fin 3, ![4 * o.theta, 0, -12] j * x ^ (j : ℕ)) := by
      funext x
      have := ((hasDerivAt_id x).const_mul 4).mul (((hasDerivAt_id x).pow 2).const_sub o.theta)
      have h' : HasDerivAt (Spec.dwDrift o.theta) (4 * o.theta - 12 * x ^ 2) x :=
        HasDerivAt.congr_deriv this (by simp; ring)
      rw [h'.deriv]
      simp [Fin.sum_univ_succ]; ring
    rw [hd, h]
    simp [Fin.sum_univ_succ, momPoly]; ring

/-- C42 (partial): the returned `Esde` is the trapezoidal integral of `(E[(f - g)^2] - 8 E[x^6]) / (2 sigma)`.
Missing: the code multiplies `E[x^6]` by 8 where the square of the drift has 16, so the claimed value is not what
is returned (see `C42_energy_violated`). -/
theorem C42_energy_partial (o : DW G) (a b m s : Fin n → ℝ) (obs : Option (List ℕ)) (dt : ℝ)
    (hdt : o.base.timeStep = .ok dt) (hobs : Spec.ObsSorted obs) (hs : ∀ i, 0 ≤ s i) :
    ∃ e, o.energy (List.ofFn a) (List.ofFn b) (List.ofFn m) (List.ofFn s) obs = .ok e
      ∧ e.Esde = Spec.trapezoidRule dt (List.ofFn fun i =>
          (Spec.mismatch (Spec.dwDrift o.theta) (a i) (b i) (m i) (s i) - 8 * Spec.normalMoment 6 (m i) (s i))
            / (2 * o.sigma)) := by
  refine ⟨_, dw_energy_eq o a b m s obs dt hdt hobs, ?_⟩
  dsimp only
  rw [rule_div]
  congr 2; funext i
  rw [dwQ_eq _ _ _ _ _ (hs i), normalMoment_eq_poly _ _ _ (hs i)]

/-- The object used as a witness below: two grid points, unit step, `theta = sigma = 1`. -/
noncomputable def dwWitness (g : G) : DW G := ⟨⟨none, some [0, 1], g, true⟩, 1, 1, 1⟩

theorem dwWitness_step (g : G) : (dwWitness g).base.timeStep = .ok 1 := by
  simp [dwWitness, Proc.timeStep, idx]

theorem obsSorted_none : Spec.ObsSorted none := by intro l h; cases h

/-- C42 does not hold: at the bottom of a well (`m = theta = 1`, `s = 0`, `a = b = 0`) the drift and its
approximation agree, the expected squared mismatch is zero, and the returned energy is `-4`. -/
theorem C42_energy_violated (g : G) : ∃ e,
    (dwWitness g).energy [0, 0] [0, 0] [1, 1] [0, 0] none = .ok e ∧ e.Esde = -4
      ∧ Spec.mismatch (Spec.dwDrift (dwWitness g).theta) 0 0 1 0 = 0 := by
  have h := dw_energy_eq (dwWitness g) (n := 2) (fun _ => 0) (fun _ => 0) (fun _ => 1) (fun _ => 0) none 1
    (dwWitness_step g) obsSorted_none
  simp only [List.ofFn_succ, List.ofFn_zero] at h
  refine ⟨_, h, ?_, ?_⟩
  · norm_num [Spec.trapezoidRule, dwQ, momPoly, dwWitness]
  · rw [dwQ_eq _ _ _ _ _ le_rfl]
    norm_num [dwQ, momPoly, dwWitness]

theorem dwQ_hasDerivAt_m (θ a b m v : ℝ) : HasDerivAt (fun μ => dwQ θ a b μ v)
    (16 * (6 * momPoly 5 m v) - 8 * (4 * θ + a) * (4 * momPoly 3 m v) + 8 * b * (3 * momPoly 2 m v)
      + (4 * θ + a) ^ 2 * (2 * momPoly 1 m v) - 2 * b * (4 * θ + a)) m := by
  unfold dwQ
  have h6 := ((momPoly_hasDerivAt_m 6 m v).2).const_mul 16
  have h4 := ((momPoly_hasDerivAt_m 4 m v).2).const_mul (8 * (4 * θ + a))
  have h3 := ((momPoly_hasDerivAt_m 3 m v).2).const_mul (8 * b)
  have h2 := ((momPoly_hasDerivAt_m 2 m v).2).const_mul ((4 * θ + a) ^ 2)
  have h1 := (hasDerivAt_id m).const_mul (2 * b * (4 * θ + a))
  refine ((((h6.sub h4).add h3).add h2).sub h1 |>.add_const (b ^ 2)).congr_deriv ?_
  norm_num

theorem dwQ_hasDerivAt_v (θ a b m v : ℝ) : HasDerivAt (fun w => dwQ θ a b m w)
    (16 * (15 * momPoly 4 m v) - 8 * (4 * θ + a) * (6 * momPoly 2 m v) + 8 * b * (3 * momPoly 1 m v)
      + (4 * θ + a) ^ 2 * 1) v := by
  unfold dwQ
  have h6 := ((momPoly_hasDerivAt_v 4 m v)).const_mul 16
  have h4 := ((momPoly_hasDerivAt_v 2 m v)).const_mul (8 * (4 * θ + a))
  have h3 := ((momPoly_hasDerivAt_v 1 m v)).const_mul (8 * b)
  have h2 := ((momPoly_hasDerivAt_v 0 m v)).const_mul ((4 * θ + a) ^ 2)
  refine (((((h6.sub h4).add h3).add h2).sub_const (2 * b * (4 * θ + a) * m)) |>.add_const (b ^ 2)).congr_deriv ?_
  norm_num [momPoly]

/-- C43 (partial): the returned `dEsde_dm`, `dEsde_ds` are the exact partial derivatives of the true pointwise
energy `E[(f - g)^2] / (2 sigma)`. Missing: they are not the derivatives of the value that `Esde` integrates, see
`C43_moment_gradient_violated`. -/
theorem C43_moment_gradient_partial (o : DW G) (a b m s : Fin n → ℝ) (obs : Option (List ℕ)) (dt : ℝ)
    (hdt : o.base.timeStep = .ok dt) (hobs : Spec.ObsSorted obs) (hs : ∀ i, 0 ≤ s i) :
    ∃ e dm ds, o.energy (List.ofFn a) (List.ofFn b) (List.ofFn m) (List.ofFn s) obs = .ok e
      ∧ e.dm = List.ofFn dm ∧ e.ds = List.ofFn ds
      ∧ ∀ i, HasDerivAt (fun μ => Spec.mismatch (Spec.dwDrift o.theta) (a i) (b i) μ (s i) / (2 * o.sigma))
            (dm i) (m i)
          ∧ HasDerivWithinAt (fun v => Spec.mismatch (Spec.dwDrift o.theta) (a i) (b i) (m i) v / (2 * o.sigma))
            (ds i) (Set.Ici 0) (s i) := by
  refine ⟨_, _, _, dw_energy_eq o a b m s obs dt hdt hobs, rfl, rfl, fun i => ⟨?_, ?_⟩⟩
  · simp only [dwQ_eq _ _ _ _ _ (hs i)]
    refine ((dwQ_hasDerivAt_m o.theta (a i) (b i) (m i) (s i)).div_const (2 * o.sigma)).congr_deriv ?_
    norm_num; ring
  · have h := ((dwQ_hasDerivAt_v o.theta (a i) (b i) (m i) (s i)).div_const (2 * o.sigma)).hasDerivWithinAt
      (s := Set.Ici 0)
    refine (h.congr (fun v hv => by rw [dwQ_eq _ _ _ _ _ hv]) (by rw [dwQ_eq _ _ _ _ _ (hs i)])).congr_deriv ?_
    norm_num; ring

/-- C43 does not hold for the means: on the witness object the returned `dEsde_dm` is zero, while the returned
`Esde` has derivative `-24` when both means move together. -/
theorem C43_moment_gradient_violated (g : G) : ∃ e,
    (dwWitness g).energy [0, 0] [0, 0] [1, 1] [0, 0] none = .ok e ∧ e.dm = [0, 0]
      ∧ ∃ E : ℝ → ℝ, (∀ ε : ℝ, ∃ e', (dwWitness g).energy [0, 0] [0, 0] [1 + ε, 1 + ε] [0, 0] none = .ok e'
            ∧ e'.Esde = E ε)
          ∧ HasDerivAt E (-24) 0 := by
  have h : ∀ x : ℝ, _ := fun x => dw_energy_eq (dwWitness g) (n := 2) (fun _ => 0) (fun _ => 0) (fun _ => x)
    (fun _ => 0) none 1 (dwWitness_step g) obsSorted_none
  simp only [List.ofFn_succ, List.ofFn_zero] at h
  refine ⟨_, h 1, ?_, _, fun ε => ⟨_, h (1 + ε), rfl⟩, ?_⟩
  · norm_num [momPoly, dwWitness]
  · have e : ∀ ε : ℝ, 0.5 * Spec.trapezoidRule 1 [dwQ (dwWitness g).theta 0 0 (1 + ε) 0 - 8 * momPoly 6 (1 + ε) 0,
        dwQ (dwWitness g).theta 0 0 (1 + ε) 0 - 8 * momPoly 6 (1 + ε) 0] / (dwWitness g).sigma
        = 4 * (1 + ε) ^ 6 - 16 * (1 + ε) ^ 4 + 8 * (1 + ε) ^ 2 := by
      intro ε
      simp [Spec.trapezoidRule, dwQ, momPoly, dwWitness]; ring
    simp only [e]
    have h1 : HasDerivAt (fun ε : ℝ => 1 + ε) 1 0 := (hasDerivAt_id _).const_add _
    have := (((h1.pow 6).const_mul 4).sub ((h1.pow 4).const_mul 16)).add ((h1.pow 2).const_mul 8)
    exact HasDerivAt.congr_deriv this (by norm_num)

/-- C43: the returned `theta` gradient is the exact derivative of the returned `Esde`. -/
theorem C43_theta_gradient (o : DW G) (a b m s : Fin n → ℝ) (obs : Option (List ℕ)) (dt : ℝ)
    (hdt : o.base.timeStep = .ok dt) (hobs : Spec.ObsSorted obs) :
    ∃ e, o.energy (List.ofFn a) (List.ofFn b) (List.ofFn m) (List.ofFn s) obs = .ok e
      ∧ ∃ E : ℝ → ℝ, (∀ θ, ∃ e', (o.setTheta θ).2.energy (List.ofFn a) (List.ofFn b) (List.ofFn m)
            (List.ofFn s) obs = .ok e' ∧ (o.setTheta θ).2.theta = θ ∧ e'.Esde = E θ)
          ∧ HasDerivAt E e.dtheta o.theta := by
  refine ⟨_, dw_energy_eq o a b m s obs dt hdt hobs, fun θ => 0.5 * Spec.trapezoidRule dt (List.ofFn fun i =>
    dwQ θ (a i) (b i) (m i) (s i) - 8 * momPoly 6 (m i) (s i)) / o.sigma, fun θ => ?_, ?_⟩
  · exact ⟨_, dw_energy_eq { o with theta := θ } a b m s obs dt hdt hobs, rfl, rfl⟩
  · simp only [rule_div]
    have := rule_hasDerivAt dt o.theta (fun i θ => (dwQ θ (a i) (b i) (m i) (s i) - 8 * momPoly 6 (m i) (s i))
        / (2 * o.sigma))
      (fun i => 4 / o.sigma * ((4 * o.theta + a i) * momPoly 2 (m i) (s i)
          - 4 * momPoly 4 (m i) (s i) - b i * m i)) ?_
    · refine this.congr_deriv ?_
      have h2 := rule_smul_ofFn dt (4 / o.sigma) (fun i => (4 * o.theta + a i) * momPoly 2 (m i) (s i)
          - 4 * momPoly 4 (m i) (s i) - b i * m i)
      simp only [smul_eq_mul] at h2
      rw [h2]; ring
    · intro i
      unfold dwQ
      have hc : HasDerivAt (fun θ : ℝ => 4 * θ + a i) 4 o.theta := by
        simpa using ((hasDerivAt_id o.theta).const_mul 4).add_const (a i)
      have := (((((((hc.const_mul 8).mul_const (momPoly 4 (m i) (s i))).const_sub
        (16 * momPoly 6 (m i) (s i))).add_const (8 * b i * momPoly 3 (m i) (s i))).add
        ((hc.pow 2).mul_const (momPoly 2 (m i) (s i)))).sub
        ((hc.const_mul (2 * b i)).mul_const (m i))).add_const (b i ^ 2)).sub_const (8 * momPoly 6 (m i) (s i))
        |>.div_const (2 * o.sigma)
      refine this.congr_deriv ?_
      norm_num
      ring

/-- C43: the returned `sigma` gradient is the exact derivative of the returned `Esde`. -/
theorem C43_sigma_gradient (o : DW G) (a b m s : Fin n → ℝ) (obs : Option (List ℕ)) (dt : ℝ) (hσ : 0 < o.sigma)
    (hdt : o.base.timeStep = .ok dt) (hobs : Spec.ObsSorted obs) :
    ∃ e, o.energy (List.ofFn a) (List.ofFn b) (List.ofFn m) (List.ofFn s) obs = .ok e
      ∧ ∃ E : ℝ → ℝ, (∀ σ > 0, ∃ e', (o.setSigma σ).2.energy (List.ofFn a) (List.ofFn b) (List.ofFn m)
            (List.ofFn s) obs = .ok e' ∧ (o.setSigma σ).2.sigma = σ ∧ e'.Esde = E σ)
          ∧ HasDerivAt E e.dsigma o.sigma := by
  refine ⟨_, dw_energy_eq o a b m s obs dt hdt hobs, fun σ => 0.5 * Spec.trapezoidRule dt (List.ofFn fun i =>
    dwQ o.theta (a i) (b i) (m i) (s i) - 8 * momPoly 6 (m i) (s i)) / σ, fun σ h => ?_, ?_⟩
  · have hset : (o.setSigma σ).2 = { o with sigma := σ, sig_inv := 1.0 / σ } := by
      unfold DW.setSigma; rw [if_neg (by norm_num; exact h)]
    rw [hset]
    exact ⟨_, dw_energy_eq { o with sigma := σ, sig_inv := 1.0 / σ } a b m s obs dt hdt hobs, rfl, rfl⟩
  · exact hasDerivAt_div_self _ _ hσ.ne'

/-- Non-vacuity of C42 and C43. -/
example (g : G) : (dwWitness g).base.timeStep = .ok 1 ∧ 0 < (dwWitness g).sigma :=
  ⟨dwWitness_step g, by norm_num [dwWitness]⟩

end VGPA
