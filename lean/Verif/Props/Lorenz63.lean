import Verif.Lemmas.Quad
import Verif.Props.Energy1
import Verif.Props.LorenzNoise

/-!
# C44-C47: energy and gradients of the Lorenz-63 model

Arrays of length `n` are written `List.ofFn m` with `m : Fin n → Fin 3 → ℝ`.
-/

namespace VGPA

open ProbabilityTheory MeasureTheory Matrix WithLp

namespace Spec

/-- Expectation under the multivariate normal law with mean `m` and covariance `S`. -/
noncomputable def mvE {d : ℕ} (m : Fin d → ℝ) (S : Matrix (Fin d) (Fin d) ℝ) (f : (Fin d → ℝ) → ℝ) : ℝ :=
  ∫ x, f (ofLp x) ∂(multivariateGaussian (toLp 2 m) S)

/-- Expected squared mismatch, in component `i`, between a drift `f` and the linear drift `-A x + b`. -/
noncomputable def mismatchN {d : ℕ} (f : (Fin d → ℝ) → Fin d → ℝ) (A : Matrix (Fin d) (Fin d) ℝ) (b m : Fin d → ℝ)
    (S : Matrix (Fin d) (Fin d) ℝ) (i : Fin d) : ℝ := mvE m S fun x => (f x i - (-(A *ᵥ x) i + b i)) ^ 2

/-- Entry `(i, j)` of the Jacobian of `f` at `x`. -/
noncomputable def jac {d : ℕ} (f : (Fin d → ℝ) → Fin d → ℝ) (x : Fin d → ℝ) (i j : Fin d) : ℝ :=
  deriv (fun t => f (Function.update x j t) i) (x j)

/-- The object has a time grid with `n` points and step `dt`. -/
def HasGrid {G X : Type} (p : Proc G X) (n : ℕ) (dt : ℝ) : Prop :=
  ∃ tw : List ℝ, p.tk = some tw ∧ tw.length = n ∧ p.timeStep = .ok dt

end Spec

variable {G : Type} {n : ℕ}

theorem mapM_ok {α β : Type} (f : α → Py β) (g : α → β) : ∀ l : List α, (∀ x ∈ l, f x = .ok (g x)) →
    l.mapM f = .ok (l.map g)
  | [], _ => rfl
  | x :: l, h => by
    rw [List.mapM_cons, h x (by simp), mapM_ok f g l fun y hy => h y (by simp [hy])]
    rfl

theorem idx_ofFn {α : Type} (f : Fin n → α) (t : Fin n) : idx (List.ofFn f) (t : ℕ) = .ok (f t) := by
  rw [idx_ok (by simp)]; simp

/-- A loop over the time grid that succeeds in every turn. -/
theorem range_mapM_ofFn {β : Type} (f : ℕ → Py β) (g : Fin n → β) (h : ∀ t : Fin n, f t = .ok (g t)) :
    (List.range n).mapM f = .ok (List.ofFn g) := by
  have : List.range n = List.ofFn (fun i : Fin n => (i : ℕ)) := by
    have := map_range_ofFn n (fun i : ℕ => i); simpa using this
  rw [this, List.ofFn_eq_map, List.mapM_map, mapM_ok (f ∘ fun i : Fin n => (i : ℕ)) g _ (fun t _ => h t),
    List.ofFn_eq_map]

/-- `Lorenz63.energy` in terms of its three helpers. -/
theorem l63_energy_eq (o : L63 G) (a : Fin n → Matrix (Fin 3) (Fin 3) ℝ) (b m : Fin n → Fin 3 → ℝ)
    (s : Fin n → Matrix (Fin 3) (Fin 3) ℝ) (obs : Option (List ℕ)) (dt : ℝ) (hg : Spec.HasGrid o.base n dt)
    (hobs : Spec.ObsSorted obs) :
    o.energy (List.ofFn a) (List.ofFn b) (List.ofFn m) (List.ofFn s) obs = .ok
      { Esde := Spec.trapezoidRule dt (List.ofFn fun t =>
          0.5 * (o.sig_inv.diag ⬝ᵥ (L63.energyDmDs o.theta (a t) (b t) (m t) (s t) o.sig_inv.diag).1))
        Ef := List.ofFn fun t => L63.avgDrift o.theta (m t) (s t)
        Edf := List.ofFn fun t => L63.avgJac o.theta (m t)
        dm := List.ofFn fun t => (L63.energyDmDs o.theta (a t) (b t) (m t) (s t) o.sig_inv.diag).2.1
        ds := List.ofFn fun t => (L63.energyDmDs o.theta (a t) (b t) (m t) (s t) o.sig_inv.diag).2.2
        dtheta := o.sig_inv.diag * Spec.trapezoidRule dt
          (List.ofFn fun t => L63.efgDriftTheta o.theta (a t) (b t) (m t) (s t))
        dsigma := (-0.5 : ℝ) • (o.sig_inv * Matrix.diagonal (Spec.trapezoidRule dt
          (List.ofFn fun t => (L63.energyDmDs o.theta (a t) (b t) (m t) (s t) o.sig_inv.diag).1)) * o.sig_inv) } := by
  obtain ⟨tw, h1, h2, h3⟩ := hg
  have htw : o.base.timeWindow = .ok tw := by simp [Proc.timeWindow, h1]
  unfold L63.energy
  rw [htw, h3]
  simp only [py_ok_bind, h2]
  rw [range_mapM_ofFn _ (fun t : Fin n =>
    ({ Esde := 0.5 * (o.sig_inv.diag ⬝ᵥ (L63.energyDmDs o.theta (a t) (b t) (m t) (s t) o.sig_inv.diag).1)
       Efg := (L63.energyDmDs o.theta (a t) (b t) (m t) (s t) o.sig_inv.diag).1
       dm := (L63.energyDmDs o.theta (a t) (b t) (m t) (s t) o.sig_inv.diag).2.1
       ds := (L63.energyDmDs o.theta (a t) (b t) (m t) (s t) o.sig_inv.diag).2.2
       Ef := L63.avgDrift o.theta (m t) (s t), Edf := L63.avgJac o.theta (m t)
       dth := L63.efgDriftTheta o.theta (a t) (b t) (m t) (s t) } : L63.Row)) ?_]
  · simp only [py_ok_bind, py_pure, List.map_ofFn, myTrapz_eq_rule _ _ _ hobs, Function.comp_def]
  · intro t
    simp only [L63.energyRow, idx_ofFn, py_ok_bind, py_pure]

/-- The three mismatches as quadratic functions of the state. -/
def l63L (θ : Fin 3 → ℝ) (A : Matrix (Fin 3) (Fin 3) ℝ) : Fin 3 → Fin 3 → ℝ :=
  ![![A 0 0 - θ 0, A 0 1 + θ 0, A 0 2], ![A 1 0 + θ 1, A 1 1 - 1, A 1 2], ![A 2 0, A 2 1, A 2 2 - θ 2]]

def l63α : Fin 3 → ℝ := ![0, -1, 1]

def l63W : Fin 3 → Fin 3 → ℝ := ![![0, 0, 0], ![0, 0, 1], ![0, 1, 0]]

theorem l63_mismatch_quad (θ : Fin 3 → ℝ) (A : Matrix (Fin 3) (Fin 3) ℝ) (b : Fin 3 → ℝ) (i : Fin 3)
    (x : EuclideanSpace ℝ (Fin 3)) :
    Spec.l63Field θ (ofLp x) i - (-(A *ᵥ ofLp x) i + b i)
      = l63α i * (lin ![1, 0, 0] x * lin (l63W i) x) + lin (l63L θ A i) x + -b i := by
  fin_cases i <;>
  · simp [Spec.l63Field, l63α, l63W, l63L, lin, Fin.sum_univ_succ, Matrix.mulVec, dotProduct]
    ring

/-- The closed form of the code, in terms of `quadQ`. -/
theorem l63_efg_quadQ (θ : Fin 3 → ℝ) (A : Matrix (Fin 3) (Fin 3) ℝ) (b m d : Fin 3 → ℝ)
    (S : Matrix (Fin 3) (Fin 3) ℝ) (hS : ∀ i j, S i j = S j i) (i : Fin 3) :
    (L63.energyDmDs θ A b m S d).1 i = quadQ (l63α i) (lin ![1, 0, 0] (toLp 2 m)) (lin (l63W i) (toLp 2 m))
      (lin (l63L θ A i) (toLp 2 m)) (-b i) (cvf S ![1, 0, 0] ![1, 0, 0]) (cvf S ![1, 0, 0] (l63W i))
      (cvf S (l63W i) (l63W i)) (cvf S ![1, 0, 0] (l63L θ A i)) (cvf S (l63W i) (l63L θ A i))
      (cvf S (l63L θ A i) (l63L θ A i)) := by
  have h10 := hS 1 0
  have h20 := hS 2 0
  have h21 := hS 2 1
  have h4 : (4.0 : ℝ) = 4 := by norm_num
  fin_cases i
  · simp [L63.energyDmDs, quadQ, l63α, l63W, l63L, lin, cvf, Fin.sum_univ_succ, h10, h20, h21, h4]
    ring
  · simp [L63.energyDmDs, quadQ, l63α, l63W, l63L, lin, cvf, Fin.sum_univ_succ, h10, h20, h21, h4]
    ring
  · simp [L63.energyDmDs, quadQ, l63α, l63W, l63L, lin, cvf, Fin.sum_univ_succ, h10, h20, h21, h4]
    ring

theorem l63_efg_eq (θ : Fin 3 → ℝ) (A : Matrix (Fin 3) (Fin 3) ℝ) (b m d : Fin 3 → ℝ)
    (S : Matrix (Fin 3) (Fin 3) ℝ) (hS : S.PosSemidef) (i : Fin 3) :
    (L63.energyDmDs θ A b m S d).1 i = Spec.mismatchN (Spec.l63Field θ) A b m S i := by
  rw [l63_efg_quadQ θ A b m d S (posSemidef_symm hS) i, ← integral_quad_sq hS]
  unfold Spec.mismatchN Spec.mvE
  simp only [l63_mismatch_quad]

theorem timeStep_nonneg {X : Type} {p : Proc G X} {dt : ℝ} (hdt : p.timeStep = .ok dt) : 0 ≤ dt := by
  unfold Proc.timeStep at hdt
  cases h : p.tk with
  | none => simp [h] at hdt
  | some t =>
    simp only [h] at hdt
    unfold idx at hdt
    cases h1 : t[1]? with
    | none => simp [h1] at hdt
    | some t1 =>
      cases h0 : t[0]? with
      | none => simp [h1, h0] at hdt
      | some t0 =>
        simp only [h1, h0, py_ok_bind, py_pure, Except.ok.injEq] at hdt
        rw [← hdt]; exact abs_nonneg _

theorem mismatchN_nonneg {d : ℕ} (f : (Fin d → ℝ) → Fin d → ℝ) (A : Matrix (Fin d) (Fin d) ℝ) (b m : Fin d → ℝ)
    (S : Matrix (Fin d) (Fin d) ℝ) (i : Fin d) : 0 ≤ Spec.mismatchN f A b m S i :=
  integral_nonneg fun _ => sq_nonneg _

/-! ## C44: energy -/

/-- C44: the energy is the trapezoidal integral of half the expected squared drift mismatches, each weighted with the
diagonal entry of the stored inverse noise. The expectations are genuine (the integrands are integrable). -/
theorem C44_energy (o : L63 G) (a : Fin n → Matrix (Fin 3) (Fin 3) ℝ) (b m : Fin n → Fin 3 → ℝ)
    (s : Fin n → Matrix (Fin 3) (Fin 3) ℝ) (obs : Option (List ℕ)) (dt : ℝ) (hg : Spec.HasGrid o.base n dt)
    (hobs : Spec.ObsSorted obs) (hs : ∀ t, (s t).PosSemidef) :
    (∃ e, o.energy (List.ofFn a) (List.ofFn b) (List.ofFn m) (List.ofFn s) obs = .ok e
      ∧ e.Esde = Spec.trapezoidRule dt (List.ofFn fun t =>
          1 / 2 * ∑ i, o.sig_inv i i * Spec.mismatchN (Spec.l63Field o.theta) (a t) (b t) (m t) (s t) i))
      ∧ ∀ t i, Integrable (fun x => (Spec.l63Field o.theta (ofLp x) i - (-(a t *ᵥ ofLp x) i + b t i)) ^ 2)
          (multivariateGaussian (toLp 2 (m t)) (s t)) := by
  refine ⟨⟨_, l63_energy_eq o a b m s obs dt hg hobs, ?_⟩, fun t i => ?_⟩
  · dsimp only
    congr 2; funext t
    simp only [dotProduct, Matrix.diag_apply, l63_efg_eq _ _ _ _ _ _ (hs t)]
    norm_num
  · simp only [l63_mismatch_quad]
    exact integrable_quad_sq (hs t) _ _ _ _ _

/-- C44: hence the energy is non-negative when the noise matrix is positive definite. -/
theorem C44_nonneg (o : L63 G) (a : Fin n → Matrix (Fin 3) (Fin 3) ℝ) (b m : Fin n → Fin 3 → ℝ)
    (s : Fin n → Matrix (Fin 3) (Fin 3) ℝ) (obs : Option (List ℕ)) (dt : ℝ) (hg : Spec.HasGrid o.base n dt)
    (hobs : Spec.ObsSorted obs) (hs : ∀ t, (s t).PosSemidef) (hσ : o.sigma.PosDef) (hinv : o.sig_inv = o.sigma⁻¹)
    (e : EnergyN 3) (he : o.energy (List.ofFn a) (List.ofFn b) (List.ofFn m) (List.ofFn s) obs = .ok e) :
    0 ≤ e.Esde := by
  obtain ⟨⟨e', h1, h2⟩, _⟩ := C44_energy o a b m s obs dt hg hobs hs
  rw [he] at h1
  injection h1 with h1
  subst h1
  rw [h2]
  obtain ⟨_, _, _, hdt⟩ := hg
  apply rule_nonneg _ (timeStep_nonneg hdt)
  intro x hx
  obtain ⟨t, rfl⟩ := (List.mem_ofFn' _ _).1 hx
  refine mul_nonneg (by norm_num) (Finset.sum_nonneg fun i _ => mul_nonneg ?_ (mismatchN_nonneg _ _ _ _ _ _))
  rw [hinv]
  exact (hσ.inv.diag_pos (i := i)).le

/-! ## C45, C46: gradients with respect to the means and the covariances -/

/-- The sum over the pairs `i ≤ j`. -/
def upperSum (M D : Matrix (Fin 3) (Fin 3) ℝ) : ℝ := ∑ i, ∑ j, if i ≤ j then M i j * D i j else 0

theorem lin_toLp_add {d : ℕ} (u m h : Fin d → ℝ) (ε : ℝ) :
    lin u (toLp 2 (m + ε • h)) = lin u (toLp 2 m) + ε * lin u (toLp 2 h) := by
  simp only [lin, Pi.add_apply, Pi.smul_apply, smul_eq_mul, mul_add, Finset.sum_add_distrib, Finset.mul_sum]
  congr 1
  exact Finset.sum_congr rfl fun i _ => by ring

theorem l63_grad (θ : Fin 3 → ℝ) (A : Matrix (Fin 3) (Fin 3) ℝ) (b m d h : Fin 3 → ℝ)
    (S D : Matrix (Fin 3) (Fin 3) ℝ) (hS : ∀ i j, S i j = S j i) (hD : ∀ i j, D i j = D j i) :
    HasDerivAt (fun ε : ℝ => 0.5 * (d ⬝ᵥ (L63.energyDmDs θ A b (m + ε • h) (S + ε • D) d).1))
      ((L63.energyDmDs θ A b m S d).2.1 ⬝ᵥ h + upperSum (L63.energyDmDs θ A b m S d).2.2 D) 0 := by
  have hSD : ∀ ε : ℝ, ∀ i j, (S + ε • D) i j = (S + ε • D) j i := fun ε i j => by
    simp [hS i j, hD i j]
  have hi : ∀ i, HasDerivAt (fun ε : ℝ => (L63.energyDmDs θ A b (m + ε • h) (S + ε • D) d).1 i) _ 0 := fun i => by
    simp only [l63_efg_quadQ θ A b _ d _ (hSD _) i, lin_toLp_add, cvf_add_mat]
    exact quadQ_hasDerivAt _ _ _ _ _ _ _ _ _ _ _ _ _ _ _ _ _ _ _ _
  have hsum := (HasDerivAt.fun_sum (u := Finset.univ) fun i _ => (hi i).const_mul (d i)).const_mul (0.5 : ℝ)
  refine hsum.congr_deriv ?_
  have h10 := hS 1 0
  have h20 := hS 2 0
  have h21 := hS 2 1
  have k10 := hD 1 0
  have k20 := hD 2 0
  have k21 := hD 2 1
  have h4 : (4.0 : ℝ) = 4 := by norm_num
  have h2 : (2.0 : ℝ) = 2 := by norm_num
  have h5 : (0.5 : ℝ) = 1 / 2 := by norm_num
  simp [L63.energyDmDs, upperSum, l63α, l63W, l63L, lin, cvf, Fin.sum_univ_succ, h10, h20, h21, h4, h2, h5, k10, k20,
    k21, dotProduct]
  ring

theorem rule_half {n : ℕ} (dt : ℝ) (f g : Fin n → ℝ) (h : ∀ t, f t = g t) :
    Spec.trapezoidRule dt (List.ofFn f) = Spec.trapezoidRule dt (List.ofFn g) := by
  rw [funext h]

/-- C45: the returned `dEsde_dm` gives the exact derivative of the returned `Esde` in every direction of the means. -/
theorem C45_mean_gradient (o : L63 G) (a : Fin n → Matrix (Fin 3) (Fin 3) ℝ) (b m : Fin n → Fin 3 → ℝ)
    (s : Fin n → Matrix (Fin 3) (Fin 3) ℝ) (obs : Option (List ℕ)) (dt : ℝ) (hg : Spec.HasGrid o.base n dt)
    (hobs : Spec.ObsSorted obs) (hs : ∀ t, (s t).IsSymm) :
    ∃ e dm, o.energy (List.ofFn a) (List.ofFn b) (List.ofFn m) (List.ofFn s) obs = .ok e ∧ e.dm = List.ofFn dm
      ∧ ∀ h : Fin n → Fin 3 → ℝ, ∃ E : ℝ → ℝ,
          (∀ ε : ℝ, ∃ e', o.energy (List.ofFn a) (List.ofFn b) (List.ofFn fun t => m t + ε • h t)
            (List.ofFn s) obs = .ok e' ∧ e'.Esde = E ε)
          ∧ HasDerivAt E (Spec.trapezoidRule dt (List.ofFn fun t => ∑ i, dm t i * h t i)) 0 := by
  refine ⟨_, _, l63_energy_eq o a b m s obs dt hg hobs, rfl, fun h => ⟨_, fun ε =>
    ⟨_, l63_energy_eq o a b _ s obs dt hg hobs, rfl⟩, ?_⟩⟩
  apply rule_hasDerivAt
  intro t
  have := l63_grad o.theta (a t) (b t) (m t) o.sig_inv.diag (h t) (s t) 0 (fun i j => (hs t).apply j i)
    (fun _ _ => rfl)
  simp only [smul_zero, add_zero] at this
  refine this.congr_deriv ?_
  simp [upperSum, dotProduct]

/-- C46, the part that holds: for a symmetric perturbation `D` of the covariances the derivative of the returned
`Esde` is the sum of `dEsde_ds[i, j] * D[i, j]` over the pairs `i ≤ j` only, so the entries off the diagonal are
twice those of the matrix gradient. Missing: the sum over all `i, j`, see `C46_convention_violated`. -/
theorem C46_upper_triangle_partial (o : L63 G) (a : Fin n → Matrix (Fin 3) (Fin 3) ℝ) (b m : Fin n → Fin 3 → ℝ)
    (s : Fin n → Matrix (Fin 3) (Fin 3) ℝ) (obs : Option (List ℕ)) (dt : ℝ) (hg : Spec.HasGrid o.base n dt)
    (hobs : Spec.ObsSorted obs) (hs : ∀ t, (s t).IsSymm) :
    ∃ e ds, o.energy (List.ofFn a) (List.ofFn b) (List.ofFn m) (List.ofFn s) obs = .ok e ∧ e.ds = List.ofFn ds
      ∧ (∀ t, (ds t).IsSymm)
      ∧ ∀ D : Fin n → Matrix (Fin 3) (Fin 3) ℝ, (∀ t, (D t).IsSymm) → ∃ E : ℝ → ℝ,
          (∀ ε : ℝ, ∃ e', o.energy (List.ofFn a) (List.ofFn b) (List.ofFn m)
            (List.ofFn fun t => s t + ε • D t) obs = .ok e' ∧ e'.Esde = E ε)
          ∧ HasDerivAt E (Spec.trapezoidRule dt (List.ofFn fun t =>
              ∑ i, ∑ j, if i ≤ j then ds t i j * D t i j else 0)) 0 := by
  refine ⟨_, _, l63_energy_eq o a b m s obs dt hg hobs, rfl, fun t => ?_, fun D hD => ⟨_, fun ε =>
    ⟨_, l63_energy_eq o a b m _ obs dt hg hobs, rfl⟩, ?_⟩⟩
  · ext i j
    fin_cases i <;> fin_cases j <;> simp [L63.energyDmDs]
  apply rule_hasDerivAt
  intro t
  have := l63_grad o.theta (a t) (b t) (m t) o.sig_inv.diag 0 (s t) (D t) (fun i j => (hs t).apply j i)
    (fun i j => (hD t).apply j i)
  simp only [smul_zero, add_zero] at this
  refine this.congr_deriv ?_
  simp [upperSum]

/-- C46 fails: there are a model, a positive definite covariance and a symmetric perturbation for which the returned
`dEsde_ds`, summed over all pairs, is not the derivative of the returned `Esde`. -/
theorem C46_convention_violated (g : G) : ∃ (o : L63 G) (a : Fin 2 → Matrix (Fin 3) (Fin 3) ℝ)
    (b m : Fin 2 → Fin 3 → ℝ) (s D ds : Fin 2 → Matrix (Fin 3) (Fin 3) ℝ) (e : EnergyN 3) (E : ℝ → ℝ) (E' : ℝ),
    o.sigma = 1 ∧ o.sig_inv = 1 ∧ Spec.HasGrid o.base 2 1 ∧ (∀ t, (s t).PosDef) ∧ (∀ t, (D t).IsSymm)
      ∧ o.energy (List.ofFn a) (List.ofFn b) (List.ofFn m) (List.ofFn s) none = .ok e ∧ e.ds = List.ofFn ds
      ∧ (∀ ε : ℝ, ∃ e', o.energy (List.ofFn a) (List.ofFn b) (List.ofFn m)
            (List.ofFn fun t => s t + ε • D t) none = .ok e' ∧ e'.Esde = E ε)
      ∧ HasDerivAt E E' 0
      ∧ E' ≠ Spec.trapezoidRule 1 (List.ofFn fun t => ∑ i, ∑ j, ds t i j * D t i j) := by
  let o : L63 G := { base := { xt := none, tk := some [0, 1], single_dimension := false, rng := g }, sigma := 1,
                     theta := ![10, 28, 8], sig_inv := 1 }
  have hg : Spec.HasGrid o.base 2 1 := ⟨[0, 1], rfl, rfl, by simp [o, Proc.timeStep, idx]⟩
  have hobs := obsSorted_none
  let a : Fin 2 → Matrix (Fin 3) (Fin 3) ℝ := fun _ => 0
  let b : Fin 2 → Fin 3 → ℝ := fun _ => 0
  let D : Fin 2 → Matrix (Fin 3) (Fin 3) ℝ := fun _ => !![0, 1, 0; 1, 0, 0; 0, 0, 0]
  have hD : ∀ t, (D t).IsSymm := fun t => by
    ext i j; fin_cases i <;> fin_cases j <;> simp [D]
  obtain ⟨e, ds, h1, h2, _, h3⟩ := C46_upper_triangle_partial o a b b (fun _ => 1) none 1 hg hobs
    (fun _ => Matrix.isSymm_one)
  obtain ⟨E, h4, h5⟩ := h3 D hD
  refine ⟨o, a, b, b, fun _ => 1, D, ds, e, E, _, rfl, rfl, hg, fun _ => Matrix.PosDef.one, hD, h1, h2, h4, h5, ?_⟩
  rw [l63_energy_eq o a b b _ none 1 hg hobs] at h1
  injection h1 with h1
  subst h1
  have hds := List.ofFn_injective h2
  simp only [← hds]
  simp [Spec.trapezoidRule, D, Fin.sum_univ_succ, L63.energyDmDs, o, a, b]
  norm_num

/-! ## C47: average drift, average Jacobian and `theta` gradient -/

theorem l63_avgDrift_eq (θ m : Fin 3 → ℝ) (S : Matrix (Fin 3) (Fin 3) ℝ) (hS : S.PosSemidef) (i : Fin 3) :
    L63.avgDrift θ m S i = Spec.mvE m S fun x => Spec.l63Field θ x i := by
  have h : (fun x : EuclideanSpace ℝ (Fin 3) => Spec.l63Field θ (ofLp x) i)
      = fun x => l63α i * (lin ![1, 0, 0] x * lin (l63W i) x) + lin (l63L θ 0 i) x + 0 := by
    funext x
    have := l63_mismatch_quad θ 0 0 i x
    simpa using this
  unfold Spec.mvE
  rw [h, integral_quad hS]
  have h10 := posSemidef_symm hS 1 0
  have h20 := posSemidef_symm hS 2 0
  fin_cases i <;>
  · simp [L63.avgDrift, l63α, l63W, l63L, lin, cvf, Fin.sum_univ_succ, h10, h20]
    try ring

/-- The Jacobian of the Lorenz-63 field, row `i`, column `j`, as an affine function of the state. -/
def l63J (θ : Fin 3 → ℝ) : Fin 3 → Fin 3 → (Fin 3 → ℝ) × ℝ :=
  ![![(0, -θ 0), (0, θ 0), (0, 0)], ![(![0, 0, -1], θ 1), (0, -1), (![-1, 0, 0], 0)],
    ![(![0, 1, 0], 0), (![1, 0, 0], 0), (0, -θ 2)]]

theorem deriv_affine (c e x : ℝ) : deriv (fun t => c * t + e) x = c := by
  have : HasDerivAt (fun t => c * t + e) c x := by simpa using ((hasDerivAt_id' x).const_mul c).add_const e
  exact this.deriv

theorem deriv_affine' {f : ℝ → ℝ} (c e x : ℝ) (h : ∀ t, f t = c * t + e) : deriv f x = c := by
  rw [funext h, deriv_affine]

theorem l63_jac (θ x : Fin 3 → ℝ) (i j : Fin 3) :
    Spec.jac (Spec.l63Field θ) x i j = lin (l63J θ i j).1 (toLp 2 x) + (l63J θ i j).2 := by
  unfold Spec.jac
  fin_cases i <;> fin_cases j <;> simp [l63J, lin, Fin.sum_univ_succ, Spec.l63Field]
  · ring

theorem l63_avgJac_eq (θ m : Fin 3 → ℝ) (S : Matrix (Fin 3) (Fin 3) ℝ) (hS : S.PosSemidef) (i j : Fin 3) :
    L63.avgJac θ m i j = Spec.mvE m S fun x => Spec.jac (Spec.l63Field θ) x i j := by
  unfold Spec.mvE
  simp only [l63_jac]
  have := integral_quad (μ := toLp 2 m) hS 0 (l63J θ i j).2 0 0 (l63J θ i j).1
  simp only [zero_mul, zero_add] at this
  rw [this]
  fin_cases i <;> fin_cases j <;> simp [L63.avgJac, l63J, lin, Fin.sum_univ_succ] <;> ring

/-- The parameter derivative of component `i` of the field with respect to parameter `j`. -/
def l63T : Fin 3 → Fin 3 → Fin 3 → ℝ :=
  ![![![-1, 1, 0], 0, 0], ![0, ![1, 0, 0], 0], ![0, 0, ![0, 0, -1]]]

theorem l63_paramDeriv (θ x : Fin 3 → ℝ) (i j : Fin 3) :
    deriv (fun t => Spec.l63Field (Function.update θ j t) x i) (θ j) = lin (l63T i j) (toLp 2 x) := by
  fin_cases i <;> fin_cases j <;> simp [l63T, lin, Fin.sum_univ_succ, Spec.l63Field]
  · ring

theorem l63_dtheta_eq (θ : Fin 3 → ℝ) (A : Matrix (Fin 3) (Fin 3) ℝ) (b m : Fin 3 → ℝ)
    (S : Matrix (Fin 3) (Fin 3) ℝ) (hS : S.PosSemidef) (d : Fin 3 → ℝ) (j : Fin 3) :
    d j * L63.efgDriftTheta θ A b m S j = ∑ i, d i * Spec.mvE m S fun x =>
      (Spec.l63Field θ x i - (-(A *ᵥ x) i + b i)) * deriv (fun t => Spec.l63Field (Function.update θ j t) x i) (θ j) := by
  unfold Spec.mvE
  simp only [l63_paramDeriv, l63_mismatch_quad, WithLp.toLp_ofLp, integral_quad_lin hS]
  have h10 := posSemidef_symm hS 1 0
  have h20 := posSemidef_symm hS 2 0
  have h21 := posSemidef_symm hS 2 1
  fin_cases j <;>
  · simp [L63.efgDriftTheta, l63α, l63W, l63L, l63T, lin, cvf, Fin.sum_univ_succ, h10, h20, h21]
    try left
    ring

theorem rule_apply {d : ℕ} (dt : ℝ) (j : Fin d) : ∀ {n : ℕ} (f : Fin n → Fin d → ℝ),
    Spec.trapezoidRule dt (List.ofFn f) j = Spec.trapezoidRule dt (List.ofFn fun t => f t j)
  | 0, _ => by simp [Spec.trapezoidRule]
  | 1, _ => by simp [Spec.trapezoidRule]
  | n + 2, f => by
    have := rule_apply dt j (n := n + 1) (fun t => f t.succ)
    simp only [List.ofFn_succ, Spec.trapezoidRule] at this ⊢
    rw [Pi.add_apply, this]
    rfl

/-- C47: `Ef` and `Edf` hold `E[f]` and `E[df/dx]`, and `dEsde_dtheta[j]` is the trapezoidal integral of the expected
mismatches times the derivative of the drift with respect to parameter `j`, weighted with the inverse noise. -/
theorem C47_averages (o : L63 G) (a : Fin n → Matrix (Fin 3) (Fin 3) ℝ) (b m : Fin n → Fin 3 → ℝ)
    (s : Fin n → Matrix (Fin 3) (Fin 3) ℝ) (obs : Option (List ℕ)) (dt : ℝ) (hg : Spec.HasGrid o.base n dt)
    (hobs : Spec.ObsSorted obs) (hs : ∀ t, (s t).PosSemidef) :
    ∃ e, o.energy (List.ofFn a) (List.ofFn b) (List.ofFn m) (List.ofFn s) obs = .ok e
      ∧ e.Ef = List.ofFn (fun t i => Spec.mvE (m t) (s t) fun x => Spec.l63Field o.theta x i)
      ∧ e.Edf = List.ofFn (fun t => Matrix.of fun i j => Spec.mvE (m t) (s t) fun x =>
          Spec.jac (Spec.l63Field o.theta) x i j)
      ∧ ∀ j, e.dtheta j = Spec.trapezoidRule dt (List.ofFn fun t => ∑ i, o.sig_inv i i * Spec.mvE (m t) (s t) fun x =>
          (Spec.l63Field o.theta x i - (-(a t *ᵥ x) i + b t i))
            * deriv (fun r => Spec.l63Field (Function.update o.theta j r) x i) (o.theta j)) := by
  refine ⟨_, l63_energy_eq o a b m s obs dt hg hobs, ?_, ?_, fun j => ?_⟩
  · dsimp only
    congr 1; funext t i
    exact l63_avgDrift_eq _ _ _ (hs t) i
  · dsimp only
    congr 1; funext t
    ext i j
    exact l63_avgJac_eq _ _ _ (hs t) i j
  · dsimp only
    simp only [Pi.mul_apply, rule_apply, ← l63_dtheta_eq o.theta _ _ _ _ (hs _) (fun i => o.sig_inv i i) j]
    exact (rule_smul_ofFn dt (o.sig_inv j j) _).symm

end VGPA
