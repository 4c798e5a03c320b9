import Verif.Props.Lorenz96

/-!
# C47 (parameter gradient), C82-C84: noise gradients and the weighting of the Lorenz energies
-/

namespace VGPA

open ProbabilityTheory MeasureTheory Matrix WithLp Filter Topology

variable {G : Type} {n d : ℕ}

/-! ## C47: the drift parameters -/

theorem l63_theta_poly (θ : Fin 3 → ℝ) (A : Matrix (Fin 3) (Fin 3) ℝ) (b m w : Fin 3 → ℝ)
    (S : Matrix (Fin 3) (Fin 3) ℝ) (j : Fin 3) : ∃ k : ℝ, ∀ t : ℝ,
      0.5 * (w ⬝ᵥ (L63.energyDmDs (Function.update θ j t) A b m S w).1)
        = 0.5 * (w ⬝ᵥ (L63.energyDmDs θ A b m S w).1) + (t - θ j) * (w j * L63.efgDriftTheta θ A b m S j)
          + (t - θ j) ^ 2 * k := by
  have h5 : (0.5 : ℝ) = 1 / 2 := by norm_num
  have h4 : (4.0 : ℝ) = 4 := by norm_num
  fin_cases j
  · refine ⟨0.5 * w 0 * (S 0 0 + m 0 ^ 2 + S 1 1 + m 1 ^ 2 - 2 * (S 0 1 + m 0 * m 1)), fun t => ?_⟩
    simp [L63.energyDmDs, L63.efgDriftTheta, dotProduct, Fin.sum_univ_succ, h5, h4]
    ring
  · refine ⟨0.5 * w 1 * (S 0 0 + m 0 ^ 2), fun t => ?_⟩
    simp [L63.energyDmDs, L63.efgDriftTheta, dotProduct, Fin.sum_univ_succ, h5, h4]
    ring
  · refine ⟨0.5 * w 2 * (S 2 2 + m 2 ^ 2), fun t => ?_⟩
    simp [L63.energyDmDs, L63.efgDriftTheta, dotProduct, Fin.sum_univ_succ, h5, h4]
    ring

/-- C47: the returned `dEsde_dtheta` is the gradient of the returned `Esde` with respect to the drift parameters, as
they are set through the `theta` property. -/
theorem C47_theta_gradient (o : L63 G) (a : Fin n → Matrix (Fin 3) (Fin 3) ℝ) (b m : Fin n → Fin 3 → ℝ)
    (s : Fin n → Matrix (Fin 3) (Fin 3) ℝ) (obs : Option (List ℕ)) (dt : ℝ) (hg : Spec.HasGrid o.base n dt)
    (hobs : Spec.ObsSorted obs) :
    ∃ e, o.energy (List.ofFn a) (List.ofFn b) (List.ofFn m) (List.ofFn s) obs = .ok e
      ∧ ∀ j, ∃ E : ℝ → ℝ, (∀ t, (o.setTheta (Function.update o.theta j t)).1 = .ok () ∧ ∃ e',
          L63.energy (o.setTheta (Function.update o.theta j t)).2 (List.ofFn a) (List.ofFn b) (List.ofFn m)
            (List.ofFn s) obs = .ok e' ∧ e'.Esde = E t)
        ∧ HasDerivAt E (e.dtheta j) (o.theta j) := by
  refine ⟨_, l63_energy_eq o a b m s obs dt hg hobs, fun j => ⟨_, fun t => ⟨rfl, _,
    l63_energy_eq (o.setTheta (Function.update o.theta j t)).2 a b m s obs dt hg hobs, rfl⟩, ?_⟩⟩
  dsimp only
  rw [Pi.mul_apply, Matrix.diag_apply, rule_apply, ← smul_eq_mul, ← rule_smul_ofFn]
  apply rule_hasDerivAt
  intro t
  obtain ⟨k, hk⟩ := l63_theta_poly o.theta (a t) (b t) (m t) o.sig_inv.diag (s t) j
  have h1 : HasDerivAt (fun x : ℝ => x - o.theta j) 1 (o.theta j) := (hasDerivAt_id' _).sub_const _
  have h2 := ((h1.mul_const (o.sig_inv j j * L63.efgDriftTheta o.theta (a t) (b t) (m t) (s t) j)).const_add
    (0.5 * (o.sig_inv.diag ⬝ᵥ (L63.energyDmDs o.theta (a t) (b t) (m t) (s t) o.sig_inv.diag).1))).add
    ((h1.fun_pow 2).mul_const k)
  refine (h2.congr_deriv (by simp)).congr_of_eventuallyEq (Eventually.of_forall fun x => ?_)
  exact hk x

/-! ## C82: the noise matrix -/

theorem sigma_grad_core (σ D : Matrix (Fin d) (Fin d) ℝ) (I : Fin d → ℝ) (hσ : σ.PosDef) :
    HasDerivAt (fun ε : ℝ => 0.5 * ((σ + ε • D)⁻¹.diag ⬝ᵥ I))
      (∑ i, ∑ j, ((-0.5 : ℝ) • (σ⁻¹ * Matrix.diagonal I * σ⁻¹)) i j * D i j) 0 := by
  have hdet : σ.det ≠ 0 := hσ.det_pos.ne'
  have hsym : ∀ i j, σ⁻¹ i j = σ⁻¹ j i := posSemidef_symm hσ.inv.posSemidef
  have h := (HasDerivAt.fun_sum (u := Finset.univ) fun k _ =>
    (inv_hasDerivAt D hdet k k).mul_const (I k)).const_mul (0.5 : ℝ)
  refine h.congr_deriv ?_
  have hd : ∀ i j, (σ⁻¹ * Matrix.diagonal I * σ⁻¹) i j = ∑ k, σ⁻¹ i k * I k * σ⁻¹ k j := by
    intro i j
    rw [Matrix.mul_apply]
    simp only [Matrix.mul_diagonal]
  simp only [Matrix.smul_apply, smul_eq_mul, hd]
  simp only [Matrix.mul_apply, Finset.mul_sum, Finset.sum_mul, neg_mul, Finset.sum_neg_distrib, mul_neg]
  congr 1
  have e : ∀ k x y : Fin d, 0.5 * (σ⁻¹ k y * D y x * σ⁻¹ x k * I k) = 0.5 * (σ⁻¹ y k * I k * σ⁻¹ k x) * D y x := by
    intro k x y
    rw [hsym k y, hsym x k]; ring
  simp only [e]
  rw [Finset.sum_congr rfl fun k _ => Finset.sum_comm, Finset.sum_comm]
  refine Finset.sum_congr rfl fun y _ => ?_
  rw [Finset.sum_comm]

theorem rule_dot {d : ℕ} (dt : ℝ) (w : Fin d → ℝ) : ∀ {n : ℕ} (f : Fin n → Fin d → ℝ),
    Spec.trapezoidRule dt (List.ofFn fun t => 0.5 * (w ⬝ᵥ f t)) = 0.5 * (w ⬝ᵥ Spec.trapezoidRule dt (List.ofFn f))
  | 0, _ => by simp [Spec.trapezoidRule]
  | 1, _ => by simp [Spec.trapezoidRule]
  | n + 2, f => by
    have := rule_dot dt w (n := n + 1) (fun t => f t.succ)
    simp only [List.ofFn_succ, Spec.trapezoidRule] at this ⊢
    rw [this, dotProduct_add, dotProduct_smul, dotProduct_add, smul_eq_mul, smul_eq_mul]
    ring

/-- C82 for `Lorenz63`: for every symmetric perturbation `D` of a positive definite noise matrix, assigned through the
`sigma` property, the derivative of the returned `Esde` is the sum of `dEsde_dsigma[i, j] * D[i, j]`. -/
theorem C82_lorenz63 (o : L63 G) (a : Fin n → Matrix (Fin 3) (Fin 3) ℝ) (b m : Fin n → Fin 3 → ℝ)
    (s : Fin n → Matrix (Fin 3) (Fin 3) ℝ) (obs : Option (List ℕ)) (dt : ℝ) (hg : Spec.HasGrid o.base n dt)
    (hobs : Spec.ObsSorted obs) (hσ : o.sigma.PosDef) (hinv : o.sig_inv = o.sigma⁻¹) :
    ∃ e, o.energy (List.ofFn a) (List.ofFn b) (List.ofFn m) (List.ofFn s) obs = .ok e
      ∧ ∀ D : Matrix (Fin 3) (Fin 3) ℝ, D.IsSymm →
        (∀ᶠ ε : ℝ in 𝓝 0, (o.sigma + ε • D).PosDef)
        ∧ ∃ E : ℝ → ℝ, (∀ ε : ℝ, (o.sigma + ε • D).PosDef →
            (o.setSigma (.mat 3 3 (o.sigma + ε • D))).1 = .ok () ∧ ∃ e',
            L63.energy (o.setSigma (.mat 3 3 (o.sigma + ε • D))).2 (List.ofFn a) (List.ofFn b) (List.ofFn m)
              (List.ofFn s) obs = .ok e' ∧ e'.Esde = E ε)
          ∧ HasDerivAt E (∑ i, ∑ j, e.dsigma i j * D i j) 0 := by
  refine ⟨_, l63_energy_eq o a b m s obs dt hg hobs, fun D hD => ⟨posDef_eventually hσ hD,
    fun ε => 0.5 * ((o.sigma + ε • D)⁻¹.diag ⬝ᵥ Spec.trapezoidRule dt
      (List.ofFn fun t => (L63.energyDmDs o.theta (a t) (b t) (m t) (s t) o.sig_inv.diag).1)), fun ε hε => ?_, ?_⟩⟩
  · rw [setSigma_posDef (by omega) o _ hε]
    refine ⟨rfl, _, l63_energy_eq { o with sigma := o.sigma + ε • D, sig_inv := (o.sigma + ε • D)⁻¹ } a b m s obs dt hg
      hobs, ?_⟩
    dsimp only
    rw [rule_dot]
    rfl
  · dsimp only
    rw [hinv]
    exact sigma_grad_core _ _ _ hσ

/-- C82 for `Lorenz96`, in every dimension, for positive definite covariances. -/
theorem C82_lorenz96 (hd : 0 < d) (o : L96 G d) (a : Fin n → Matrix (Fin d) (Fin d) ℝ) (b m : Fin n → Fin d → ℝ)
    (s : Fin n → Matrix (Fin d) (Fin d) ℝ) (obs : Option (List ℕ)) (dt : ℝ) (hg : Spec.HasGrid o.base n dt)
    (hobs : Spec.ObsSorted obs) (hs : ∀ t, (s t).PosDef) (hσ : o.sigma.PosDef) (hinv : o.sig_inv = o.sigma⁻¹) :
    ∃ e, o.energy (List.ofFn a) (List.ofFn b) (List.ofFn m) (List.ofFn s) obs = .ok e
      ∧ ∀ D : Matrix (Fin d) (Fin d) ℝ, D.IsSymm →
        (∀ᶠ ε : ℝ in 𝓝 0, (o.sigma + ε • D).PosDef)
        ∧ ∃ E : ℝ → ℝ, (∀ ε : ℝ, (o.sigma + ε • D).PosDef →
            (o.setSigma (.mat d d (o.sigma + ε • D))).1 = .ok () ∧ ∃ e',
            L96.energy (o.setSigma (.mat d d (o.sigma + ε • D))).2 (List.ofFn a) (List.ofFn b) (List.ofFn m)
              (List.ofFn s) obs = .ok e' ∧ e'.Esde = E ε)
          ∧ HasDerivAt E (∑ i, ∑ j, e.dsigma i j * D i j) 0 := by
  refine ⟨_, l96_energy_eq hd o a b m s obs dt hg hobs hs, fun D hD => ⟨posDef_eventually hσ hD,
    fun ε => 0.5 * ((o.sigma + ε • D)⁻¹.diag ⬝ᵥ Spec.trapezoidRule dt
      (List.ofFn fun t => utWeights d ᵥ* l96Sq o.theta (a t) (b t) (m t) (utRoot (s t)))), fun ε hε => ?_, ?_⟩⟩
  · rw [setSigma_posDef hd o _ hε]
    refine ⟨rfl, _, l96_energy_eq hd { o with sigma := o.sigma + ε • D, sig_inv := (o.sigma + ε • D)⁻¹ } a b m s obs dt
      hg hobs hs, ?_⟩
    dsimp only
    rw [rule_dot]
  · dsimp only
    rw [hinv]
    exact sigma_grad_core _ _ _ hσ

/-! ## C83: the weighting with the inverse noise -/

namespace Spec

/-- The expected squared mismatch weighted with a full inverse noise matrix `P`: `E[(f - g)ᵀ P (f - g)]`. -/
noncomputable def weightedMismatch (f : (Fin d → ℝ) → Fin d → ℝ) (P A : Matrix (Fin d) (Fin d) ℝ) (b m : Fin d → ℝ)
    (S : Matrix (Fin d) (Fin d) ℝ) : ℝ :=
  mvE m S fun x => (f x - (-(A *ᵥ x) + b)) ⬝ᵥ P *ᵥ (f x - (-(A *ᵥ x) + b))

end Spec

/-- C83, the part that holds: for a diagonal noise matrix the energy of `Lorenz63` is the trapezoidal integral of
`E[(f - g)ᵀ Σ⁻¹ (f - g)] / 2`. Missing: noise matrices with correlations, see `C83_correlated_violated`. -/
theorem C83_diagonal_partial (o : L63 G) (v : Fin 3 → ℝ) (hv : ∀ i, 0 < v i) (hσ : o.sigma = Matrix.diagonal v)
    (hinv : o.sig_inv = o.sigma⁻¹) (a : Fin n → Matrix (Fin 3) (Fin 3) ℝ) (b m : Fin n → Fin 3 → ℝ)
    (s : Fin n → Matrix (Fin 3) (Fin 3) ℝ) (obs : Option (List ℕ)) (dt : ℝ) (hg : Spec.HasGrid o.base n dt)
    (hobs : Spec.ObsSorted obs) (hs : ∀ t, (s t).PosSemidef) :
    ∃ e, o.energy (List.ofFn a) (List.ofFn b) (List.ofFn m) (List.ofFn s) obs = .ok e
      ∧ e.Esde = Spec.trapezoidRule dt (List.ofFn fun t =>
          1 / 2 * Spec.weightedMismatch (Spec.l63Field o.theta) o.sigma⁻¹ (a t) (b t) (m t) (s t)) := by
  obtain ⟨⟨e, h1, h2⟩, h3⟩ := C44_energy o a b m s obs dt hg hobs hs
  refine ⟨e, h1, h2.trans ?_⟩
  congr 2; funext t
  congr 1
  have hdi : o.sigma⁻¹ = Matrix.diagonal (fun i => (v i)⁻¹) := by
    rw [hσ]
    apply Matrix.inv_eq_left_inv
    rw [Matrix.diagonal_mul_diagonal]
    simp [(hv _).ne']
  unfold Spec.weightedMismatch Spec.mismatchN Spec.mvE
  have he : ∀ x : EuclideanSpace ℝ (Fin 3), (Spec.l63Field o.theta (ofLp x) - (-(a t *ᵥ ofLp x) + b t)) ⬝ᵥ o.sigma⁻¹ *ᵥ
      (Spec.l63Field o.theta (ofLp x) - (-(a t *ᵥ ofLp x) + b t))
      = ∑ i, o.sig_inv i i * (Spec.l63Field o.theta (ofLp x) i - (-(a t *ᵥ ofLp x) i + b t i)) ^ 2 := by
    intro x
    rw [hinv, hdi]
    simp only [dotProduct, Matrix.mulVec_diagonal, Matrix.diagonal_apply_eq]
    refine Finset.sum_congr rfl fun i _ => ?_
    simp only [Pi.sub_apply, Pi.add_apply, Pi.neg_apply]
    ring
  simp only [he]
  rw [integral_finsetSum _ fun i _ => (h3 t i).const_mul _]
  simp only [integral_const_mul]

/-- A correlated noise matrix. -/
noncomputable def corrS : Matrix (Fin 3) (Fin 3) ℝ := !![2, 1, 0; 1, 2, 0; 0, 0, 1]

theorem corrS_posDef : corrS.PosDef := by
  have h : corrS = 1 + Matrix.vecMulVec ![1, 1, 0] (star ![1, 1, 0]) := by
    ext i j
    fin_cases i <;> fin_cases j <;> simp [corrS, Matrix.vecMulVec] <;> norm_num
  rw [h]
  exact Matrix.PosDef.one.add_posSemidef (Matrix.posSemidef_vecMulVec_self_star _)

theorem corrS_inv : corrS⁻¹ = !![2 / 3, -1 / 3, 0; -1 / 3, 2 / 3, 0; 0, 0, 1] := by
  apply Matrix.inv_eq_left_inv
  ext i j
  fin_cases i <;> fin_cases j <;> simp [corrS, Matrix.mul_apply, Fin.sum_univ_succ] <;> norm_num

/-- C83 fails when the noise of two components is correlated: the returned energy then ignores the entries of `Σ⁻¹` off
the diagonal. The witness has two time points, a positive definite noise matrix with its inverse, and unit covariances. -/
theorem C83_correlated_violated (g : G) : ∃ (o : L63 G) (a : Fin 2 → Matrix (Fin 3) (Fin 3) ℝ)
    (b m : Fin 2 → Fin 3 → ℝ) (s : Fin 2 → Matrix (Fin 3) (Fin 3) ℝ) (e : EnergyN 3),
    o.sigma.PosDef ∧ o.sig_inv = o.sigma⁻¹ ∧ Spec.HasGrid o.base 2 1 ∧ (∀ t, (s t).PosDef)
      ∧ o.energy (List.ofFn a) (List.ofFn b) (List.ofFn m) (List.ofFn s) none = .ok e
      ∧ e.Esde ≠ Spec.trapezoidRule 1 (List.ofFn fun t =>
          1 / 2 * Spec.weightedMismatch (Spec.l63Field o.theta) o.sigma⁻¹ (a t) (b t) (m t) (s t)) := by
  let o : L63 G := { base := { xt := none, tk := some [0, 1], single_dimension := false, rng := g }, sigma := corrS,
                     theta := ![10, 28, 8], sig_inv := corrS⁻¹ }
  have hg : Spec.HasGrid o.base 2 1 := ⟨[0, 1], rfl, rfl, by simp [o, Proc.timeStep, idx]⟩
  let A : Matrix (Fin 3) (Fin 3) ℝ := !![10, -10, 0; -28, 1, 0; 0, 0, 8]
  let v : Fin 3 → ℝ := ![1, 1, 0]
  obtain ⟨⟨e, h1, h2⟩, h3⟩ := C44_energy o (fun _ => A) (fun _ => v) (fun _ => 0) (fun _ => 1) none 1 hg obsSorted_none
    (fun _ => Matrix.PosSemidef.one)
  refine ⟨o, fun _ => A, fun _ => v, fun _ => 0, fun _ => 1, e, corrS_posDef, rfl, hg, fun _ => Matrix.PosDef.one, h1,
    ?_⟩
  have hone : (1 : Matrix (Fin 3) (Fin 3) ℝ).PosSemidef := Matrix.PosSemidef.one
  have key : Spec.weightedMismatch (Spec.l63Field o.theta) o.sigma⁻¹ A v 0 1
      = (∑ i, o.sig_inv i i * Spec.mismatchN (Spec.l63Field o.theta) A v 0 1 i) - 2 / 3 := by
    have he : ∀ x : EuclideanSpace ℝ (Fin 3), (Spec.l63Field o.theta (ofLp x) - (-(A *ᵥ ofLp x) + v)) ⬝ᵥ o.sigma⁻¹ *ᵥ
        (Spec.l63Field o.theta (ofLp x) - (-(A *ᵥ ofLp x) + v))
        = (∑ i, o.sig_inv i i * (Spec.l63Field o.theta (ofLp x) i - (-(A *ᵥ ofLp x) i + v i)) ^ 2)
          + (-2 / 3 * (lin ![1, 0, 0] x * lin ![0, 0, 1] x) + lin 0 x + -2 / 3) := by
      intro x
      simp only [o, corrS_inv]
      simp [Spec.l63Field, A, v, dotProduct, Matrix.mulVec, Fin.sum_univ_succ, lin]
      ring
    unfold Spec.weightedMismatch Spec.mismatchN Spec.mvE
    simp only [he]
    rw [integral_add (integrable_finsetSum _ fun i _ => (h3 0 i).const_mul _) (integrable_quad hone _ _ _ _ _),
      integral_quad hone, integral_finsetSum _ fun i _ => (h3 0 i).const_mul _]
    simp only [integral_const_mul]
    simp [lin, cvf, Fin.sum_univ_succ, Matrix.one_apply]
    ring
  rw [h2]
  simp only [key, Spec.trapezoidRule, List.ofFn_succ, List.ofFn_zero, smul_eq_mul]
  intro h
  simp only [add_zero] at h
  linarith

/-! ## Non-vacuity -/

/-- The hypotheses of the theorems on `Lorenz63` are met by an object with five time points. -/
example (g : G) : ∃ o : L63 G, Spec.HasGrid o.base 5 1 ∧ o.sigma.PosDef ∧ o.sig_inv = o.sigma⁻¹
    ∧ Spec.ObsSorted (some [1, 3]) ∧ ∀ _ : Fin 5, corrS.PosDef :=
  ⟨{ base := { xt := none, tk := some [0, 1, 2, 3, 4], single_dimension := false, rng := g }, sigma := corrS,
     theta := ![10, 28, 8], sig_inv := corrS⁻¹ }, ⟨_, rfl, rfl, by simp [Proc.timeStep, idx]⟩, corrS_posDef, rfl,
    fun l h => by injection h with h; subst h; simp, fun _ => corrS_posDef⟩

/-- A symmetric direction that is not zero and not diagonal. -/
example : (!![0, 1, 0; 1, 0, 0; 0, 0, 0] : Matrix (Fin 3) (Fin 3) ℝ).IsSymm := by
  ext i j; fin_cases i <;> fin_cases j <;> simp

/-- The same for `Lorenz96` in any dimension. -/
example (g : G) (d : ℕ) : ∃ o : L96 G d, Spec.HasGrid o.base 5 1 ∧ o.sigma.PosDef ∧ o.sig_inv = o.sigma⁻¹
    ∧ Spec.ObsSorted (some [1, 3]) ∧ ∀ _ : Fin 5, (1 : Matrix (Fin d) (Fin d) ℝ).PosDef :=
  ⟨{ base := { xt := none, tk := some [0, 1, 2, 3, 4], single_dimension := false, rng := g }, sigma := 1,
     theta := 8, sig_inv := 1⁻¹ }, ⟨_, rfl, rfl, by simp [Proc.timeStep, idx]⟩, Matrix.PosDef.one, rfl,
    fun l h => by injection h with h; subst h; simp, fun _ => Matrix.PosDef.one⟩

end VGPA
