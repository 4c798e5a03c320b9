import Verif.Model.Likelihood
import Verif.Props.Lorenz63

/-!
# C51, C52: the one dimensional observation energy

Observations are `y : Fin k → ℝ` at the grid points `t : Fin k → Fin n`, which are pairwise different.
-/

namespace VGPA

open ProbabilityTheory MeasureTheory

namespace Spec

/-- Expected negative log-likelihood of one observation `y = H x + noise`, `x` normal with mean `m` and variance `s`,
noise normal with variance `R`. -/
noncomputable def obsEnergy1 (y H R m s : ℝ) : ℝ :=
  normalE m s fun x => -Real.log (gaussianPDFReal (H * x) R.toNNReal y)

end Spec

variable {n k : ℕ}

/-! ## Array lemmas -/

theorem fancy_ofFn {α : Type} (m : Fin n → α) (t : Fin k → Fin n) :
    fancy (List.ofFn m) (List.ofFn fun j => (t j : ℕ)) = .ok (List.ofFn fun j => m (t j)) := by
  unfold fancy
  rw [List.ofFn_eq_map (f := fun j => (t j : ℕ)), List.mapM_map, mapM_ok (idx (List.ofFn m) ∘ fun j => (t j : ℕ))
    (fun j => m (t j)) _ (fun j _ => idx_ofFn m (t j)), List.ofFn_eq_map (f := fun j => m (t j))]

theorem bcast_ofFn {α β γ : Type} (f : α → β → γ) (x : Fin k → α) (y : Fin k → β) :
    bcast f (List.ofFn x) (List.ofFn y) = .ok (List.ofFn fun j => f (x j) (y j)) := by
  unfold bcast
  rw [if_pos (by simp), zipWith_ofFn]

theorem setIdx_ofFn {α : Type} (m : Fin n → α) (t : Fin n) (v : α) :
    setIdx (List.ofFn m) (t : ℕ) v = .ok (List.ofFn (Function.update m t v)) := by
  unfold setIdx
  rw [if_pos (by simp)]
  congr 1
  apply List.ext_getElem
  · simp
  · intro i h1 h2
    rw [List.getElem_set]
    simp only [List.getElem_ofFn, Function.update_apply]
    by_cases h : (t : ℕ) = i
    · rw [if_pos h, if_pos (Fin.ext h.symm)]
    · rw [if_neg h, if_neg (fun h' => h (by rw [← h']))]

theorem fancyPairs_ofFn {α : Type} : ∀ {k : ℕ} (m : Fin n → α) (t : Fin k → Fin n) (v : Fin k → α),
    Function.Injective t →
    ∃ r : Fin n → α, fancyPairs (List.ofFn m) (List.ofFn fun j => (t j : ℕ)) (List.ofFn v) = .ok (List.ofFn r)
      ∧ (∀ j, r (t j) = v j) ∧ ∀ i, (∀ j, t j ≠ i) → r i = m i
  | 0, m, t, v, _ => ⟨m, by simp [fancyPairs], fun j => j.elim0, fun i _ => rfl⟩
  | k + 1, m, t, v, ht => by
    obtain ⟨r, h1, h2, h3⟩ := fancyPairs_ofFn (Function.update m (t 0) (v 0)) (fun j => t j.succ) (fun j => v j.succ)
      (fun a b h => Fin.succ_injective _ (ht h))
    have h0 : r (t 0) = v 0 := by
      rw [h3 _ fun j h => by simpa using ht h, Function.update_self]
    refine ⟨r, ?_, fun j => ?_, fun i hi => ?_⟩
    · unfold fancyPairs at h1 ⊢
      rw [List.ofFn_succ, List.ofFn_succ (f := v), List.zip_cons_cons, List.foldlM_cons, setIdx_ofFn]
      exact h1
    · refine Fin.cases h0 (fun j => ?_) j
      exact h2 j
    · rw [h3 i fun j => hi j.succ, Function.update_of_ne (hi 0).symm]

theorem fancySet_ofFn {α : Type} {k : ℕ} (m : Fin n → α) (t : Fin k → Fin n) (v : Fin k → α) (ht : Function.Injective t) :
    ∃ r : Fin n → α, fancySet (List.ofFn m) (List.ofFn fun j => (t j : ℕ)) (List.ofFn v) = .ok (List.ofFn r)
      ∧ (∀ j, r (t j) = v j) ∧ ∀ i, (∀ j, t j ≠ i) → r i = m i := by
  unfold fancySet
  rw [if_pos (by simp)]
  exact fancyPairs_ofFn m t v ht

/-- A function supported on the observation times sums up over the observations. -/
theorem sum_supported (t : Fin k → Fin n) (ht : Function.Injective t) (g : Fin n → ℝ)
    (hg : ∀ i, (∀ j, t j ≠ i) → g i = 0) : ∑ i, g i = ∑ j, g (t j) := by
  refine (Finset.sum_of_injOn t ht.injOn (by simp) (fun i _ hi => hg i fun j h => hi ⟨j, by simp, h⟩)
    (fun j _ => rfl)).symm

/-! ## C51 -/

theorem neg_log_pdf (μ R y : ℝ) (hR : 0 < R) :
    -Real.log (gaussianPDFReal μ R.toNNReal y) = 0.5 * (log2pi + Real.log R) + (y - μ) ^ 2 / (2 * R) := by
  have h2 : (2.0 : ℝ) = 2 := by norm_num
  have h5 : (0.5 : ℝ) = 1 / 2 := by norm_num
  have hpi := Real.pi_pos
  unfold gaussianPDFReal log2pi
  rw [Real.coe_toNNReal _ hR.le, Real.log_mul (by positivity) (Real.exp_pos _).ne', Real.log_inv, Real.log_exp,
    Real.log_sqrt (by positivity), Real.log_mul (by positivity) hR.ne', h2, h5]
  ring

theorem obsEnergy1_eq (y H R m s : ℝ) (hR : 0 < R) (hs : 0 ≤ s) : Spec.obsEnergy1 y H R m s
    = 0.5 * (y ^ 2 - 2 * y * (H * m) + H ^ 2 * (m ^ 2 + s)) / R + 0.5 * (log2pi + Real.log R) := by
  unfold Spec.obsEnergy1
  simp only [neg_log_pdf _ _ _ hR]
  have h := normalE_poly (k := 3) ![0.5 * (log2pi + Real.log R) + y ^ 2 / (2 * R), -(y * H) / R, H ^ 2 / (2 * R)] m s hs
  have e : (fun x => 0.5 * (log2pi + Real.log R) + (y - H * x) ^ 2 / (2 * R))
      = fun x : ℝ => ∑ i : Fin 3, ![0.5 * (log2pi + Real.log R) + y ^ 2 / (2 * R), -(y * H) / R,
          H ^ 2 / (2 * R)] i * x ^ (i : ℕ) := by
    funext x
    simp [Fin.sum_univ_succ]
    field_simp
    ring
  rw [e, h]
  simp [Fin.sum_univ_succ, momPoly]
  field_simp
  ring

theorem like1_gauss_eq (H R : ℝ) (y : Fin k → ℝ) (t : Fin k → Fin n) (m s : Fin n → ℝ) :
    (⟨List.ofFn y, List.ofFn fun j => (t j : ℕ), R, H⟩ : Like1).gauss (List.ofFn m) (List.ofFn s)
      = .ok (∑ j, (0.5 * (y j ^ 2 - 2 * y j * m (t j) + (m (t j) ^ 2 + s (t j))) / R
          + 0.5 * (log2pi + Real.log R))) := by
  have h2 : (2.0 : ℝ) = 2 := by norm_num
  unfold Like1.gauss
  simp only [fancy_ofFn, py_ok_bind, zipWith_ofFn, bcast_ofFn, List.length_ofFn, List.sum_ofFn]
  show Except.ok _ = Except.ok _
  congr 1
  rw [Finset.sum_add_distrib (g := fun _ => 0.5 * (log2pi + Real.log R)), Finset.sum_const, Finset.card_univ,
    Fintype.card_fin, Finset.mul_sum, Finset.sum_div, h2]
  simp
  ring

/-- C51, the part that holds: with the operator `1` the returned energy is the sum over the observations of the expected
negative log-likelihood. Missing: other operators, see `C51_operator_violated`. -/
theorem C51_energy_partial (R : ℝ) (hR : 0 < R) (y : Fin k → ℝ) (t : Fin k → Fin n) (m s : Fin n → ℝ)
    (hs : ∀ i, 0 ≤ s i) : ∃ o, Like1.init (List.ofFn y) (List.ofFn fun j => (t j : ℕ)) R (some 1) = .ok o
      ∧ o.gauss (List.ofFn m) (List.ofFn s) = .ok (∑ j, Spec.obsEnergy1 (y j) 1 R (m (t j)) (s (t j))) := by
  refine ⟨_, rfl, ?_⟩
  rw [like1_gauss_eq]
  congr 1
  refine Finset.sum_congr rfl fun j _ => ?_
  rw [obsEnergy1_eq _ _ _ _ _ hR (hs _)]
  ring

/-- C51: leaving the operator out is the same as passing `1`, as long as there is an observation. -/
theorem C51_default_operator (R : ℝ) (values : List ℝ) (times : List ℕ) :
    Like1.init values times R none = if values = [] then .error .indexError else Like1.init values times R (some 1) := by
  cases values <;> simp [Like1.init, idx]

theorem like1_gradients_eq (H R : ℝ) (y : Fin k → ℝ) (t : Fin k → Fin n) (ht : Function.Injective t)
    (m s : Fin n → ℝ) : ∃ dm ds dr : Fin n → ℝ,
    (⟨List.ofFn y, List.ofFn fun j => (t j : ℕ), R, H⟩ : Like1).gradients (List.ofFn m) (List.ofFn s)
      = .ok (List.ofFn dm, List.ofFn ds, List.ofFn dr)
      ∧ (∀ j, dm (t j) = -(y j - H * m (t j)) / R) ∧ (∀ j, ds (t j) = 0.5 / R)
      ∧ (∀ j, dr (t j) = -0.5 * (y j ^ 2 - 2 * y j * m (t j) + (m (t j) ^ 2 + s (t j)) + 1) / R)
      ∧ ∀ i, (∀ j, t j ≠ i) → dm i = 0 ∧ ds i = 0 ∧ dr i = 0 := by
  obtain ⟨dm, a1, a2, a3⟩ := fancySet_ofFn (fun _ => (0 : ℝ)) t (fun j => -(y j - H * m (t j)) / R) ht
  obtain ⟨ds, b1, b2, b3⟩ := fancySet_ofFn (fun _ => (0 : ℝ)) t (fun _ => 0.5 / R) ht
  obtain ⟨dr, c1, c2, c3⟩ := fancySet_ofFn (fun _ => (0 : ℝ)) t
    (fun j => -0.5 * (y j ^ 2 - 2.0 * y j * m (t j) + (m (t j) ^ 2 + s (t j)) + 1.0) / R) ht
  refine ⟨dm, ds, dr, ?_, a2, b2, fun j => ?_, fun i hi => ⟨a3 i hi, b3 i hi, c3 i hi⟩⟩
  · unfold Like1.gradients
    simp only [fancy_ofFn, py_ok_bind, zipWith_ofFn, bcast_ofFn, List.length_ofFn, List.map_ofFn, replicate_ofFn,
      Function.comp_def, a1, b1, c1]
    rfl
  · rw [c2]
    norm_num

/-- C51, the part that holds, for the gradients: with the operator `1` the returned arrays `dEobs_dm`, `dEobs_ds` are
the gradient of the returned energy, entries at times without observation being zero. -/
theorem C51_gradients_partial (R : ℝ) (y : Fin k → ℝ) (t : Fin k → Fin n) (ht : Function.Injective t)
    (m s : Fin n → ℝ) : ∃ o dm ds dr, Like1.init (List.ofFn y) (List.ofFn fun j => (t j : ℕ)) R (some 1) = .ok o
      ∧ o.gradients (List.ofFn m) (List.ofFn s) = .ok (List.ofFn dm, List.ofFn ds, dr)
      ∧ (∀ i, (∀ j, t j ≠ i) → dm i = 0 ∧ ds i = 0)
      ∧ ∀ h r : Fin n → ℝ, ∃ E : ℝ → ℝ,
          (∀ ε, o.gauss (List.ofFn fun i => m i + ε * h i) (List.ofFn fun i => s i + ε * r i) = .ok (E ε))
          ∧ HasDerivAt E (∑ i, (dm i * h i + ds i * r i)) 0 := by
  obtain ⟨dm, ds, dr, h1, h2, h3, _, h5⟩ := like1_gradients_eq 1 R y t ht m s
  refine ⟨_, dm, ds, _, rfl, h1, fun i hi => ⟨(h5 i hi).1, (h5 i hi).2.1⟩, fun h r => ⟨_, fun ε => like1_gauss_eq _ _ _ _ _ _,
    ?_⟩⟩
  rw [sum_supported t ht _ (fun i hi => by rw [(h5 i hi).1, (h5 i hi).2.1]; ring)]
  apply HasDerivAt.fun_sum
  intro j _
  have hm : HasDerivAt (fun ε : ℝ => m (t j) + ε * h (t j)) (h (t j)) 0 := by
    simpa using ((hasDerivAt_id' (0 : ℝ)).mul_const (h (t j))).const_add (m (t j))
  have hr : HasDerivAt (fun ε : ℝ => s (t j) + ε * r (t j)) (r (t j)) 0 := by
    simpa using ((hasDerivAt_id' (0 : ℝ)).mul_const (r (t j))).const_add (s (t j))
  have hq := ((((hm.const_mul (2 * y j)).const_sub (y j ^ 2)).add ((hm.fun_pow 2).add hr)).const_mul 0.5).div_const R
  refine (hq.add_const (0.5 * (log2pi + Real.log R))).congr_deriv ?_
  rw [h2, h3]
  norm_num
  ring

/-- C51 fails for other operators: the returned energy ignores the operator, although the returned gradient does not. -/
theorem C51_operator_violated : ∃ o dm ds dr, Like1.init [0] [0] 1 (some 2) = .ok o
    ∧ o.gauss [1] [1] ≠ .ok (Spec.obsEnergy1 0 2 1 1 1)
    ∧ o.gradients [1] [1] = .ok ([dm], ds, dr)
    ∧ ∃ E : ℝ → ℝ, (∀ x, o.gauss [x] [1] = .ok (E x)) ∧ ¬ HasDerivAt E dm 1 := by
  have hg : ∀ x : ℝ, (⟨[0], [0], 1, 2⟩ : Like1).gauss [x] [1] = .ok (0.5 * (x ^ 2 + 1) + 0.5 * log2pi) := by
    intro x
    have := like1_gauss_eq (n := 1) (k := 1) 2 1 (fun _ => 0) (fun _ => 0) (fun _ => x) (fun _ => 1)
    simp at this
    rw [this]
  obtain ⟨dm, ds, dr, h1, h2, _⟩ := like1_gradients_eq (n := 1) (k := 1) 2 1 (fun _ => 0) (fun _ => 0)
    (fun _ _ _ => Subsingleton.elim _ _) (fun _ => 1) (fun _ => 1)
  refine ⟨⟨[0], [0], 1, 2⟩, dm 0, List.ofFn ds, List.ofFn dr, rfl, ?_, by simpa using h1, _, hg, ?_⟩
  · rw [hg, obsEnergy1_eq _ _ _ _ _ one_pos zero_le_one]
    intro h
    injection h with h
    norm_num at h
  · rw [show dm 0 = 2 by have := h2 0; norm_num at this; exact this]
    intro h
    have h' : HasDerivAt (fun x : ℝ => 0.5 * (x ^ 2 + 1) + 0.5 * log2pi) 1 1 := by
      have := ((((hasDerivAt_id' (1 : ℝ)).fun_pow 2).add_const 1).const_mul 0.5).add_const (0.5 * log2pi)
      refine this.congr_deriv ?_
      norm_num
    have := h.unique h'
    norm_num at this

/-! ## C52 -/

/-- C52, the part that holds: the third gradient is zero outside of the observation times, and its entry at an observation
time depends only on that observation and the moments there. Missing: being the derivative with respect to the noise
variance, see `C52_noise_gradient_violated`. -/
theorem C52_support_partial (H R : ℝ) (y : Fin k → ℝ) (t : Fin k → Fin n) (ht : Function.Injective t)
    (m s : Fin n → ℝ) : ∃ o dm ds dr, Like1.init (List.ofFn y) (List.ofFn fun j => (t j : ℕ)) R (some H) = .ok o
      ∧ o.gradients (List.ofFn m) (List.ofFn s) = .ok (dm, ds, List.ofFn dr)
      ∧ (∀ i, (∀ j, t j ≠ i) → dr i = 0)
      ∧ ∀ j, dr (t j) = -((y j - m (t j)) ^ 2 + s (t j) + 1) / (2 * R) := by
  obtain ⟨dm, ds, dr, h1, _, _, h4, h5⟩ := like1_gradients_eq H R y t ht m s
  refine ⟨_, _, _, dr, rfl, h1, fun i hi => (h5 i hi).2.2, fun j => ?_⟩
  rw [h4, mul_comm 2 R, ← div_div]
  norm_num
  ring

/-- C52 fails, and not only for some inputs: whenever the noise variance `R` is at least one, the entry returned for an
observation is strictly smaller than the derivative, with respect to the noise variance, of the energy of that
observation (operator `1`, a single observation at the first of `n + 1` grid points). -/
theorem C52_noise_gradient_violated (R : ℝ) (hR : 1 ≤ R) (y : ℝ) (m s : Fin (n + 1) → ℝ) (hs : 0 ≤ s 0) :
    ∃ (o : Like1) (dm ds : List ℝ) (dr : Fin (n + 1) → ℝ) (E' : ℝ), Like1.init [y] [0] R (some 1) = .ok o
      ∧ o.gradients (List.ofFn m) (List.ofFn s) = .ok (dm, ds, List.ofFn dr)
      ∧ (∃ E : ℝ → ℝ, (∀ x, (o.setNoise x).gauss (List.ofFn m) (List.ofFn s) = .ok (E x)) ∧ HasDerivAt E E' R)
      ∧ dr 0 < E' := by
  obtain ⟨dm, ds, dr, h1, _, _, h4, _⟩ := like1_gradients_eq (k := 1) 1 R (fun _ => y) (fun _ => (0 : Fin (n + 1)))
    (fun _ _ _ => Subsingleton.elim _ _) m s
  have hR0 : R ≠ 0 := by linarith
  have hg : ∀ x : ℝ, ((⟨[y], [0], R, 1⟩ : Like1).setNoise x).gauss (List.ofFn m) (List.ofFn s)
      = .ok (0.5 * (y ^ 2 - 2 * y * m 0 + (m 0 ^ 2 + s 0)) / x + 0.5 * (log2pi + Real.log x)) := by
    intro x
    have := like1_gauss_eq (k := 1) 1 x (fun _ => y) (fun _ => (0 : Fin (n + 1))) m s
    simp only [List.ofFn_succ (n := 0), List.ofFn_zero, Finset.univ_unique, Finset.sum_singleton] at this
    exact this
  have hd : HasDerivAt (fun x : ℝ => 0.5 * (y ^ 2 - 2 * y * m 0 + (m 0 ^ 2 + s 0)) / x
      + 0.5 * (log2pi + Real.log x))
      (-(0.5 * (y ^ 2 - 2 * y * m 0 + (m 0 ^ 2 + s 0))) / R ^ 2 + 0.5 * R⁻¹) R := by
    have h := ((hasDerivAt_inv hR0).const_mul (0.5 * (y ^ 2 - 2 * y * m 0 + (m 0 ^ 2 + s 0)))).add
      (((Real.hasDerivAt_log hR0).const_add log2pi).const_mul 0.5)
    refine h.congr_deriv ?_
    ring
  refine ⟨⟨[y], [0], R, 1⟩, List.ofFn dm, List.ofFn ds, dr, _, rfl, ?_, ⟨_, hg, hd⟩, ?_⟩
  · simp only [List.ofFn_succ (n := 0), List.ofFn_zero] at h1
    exact h1
  · have := h4 0
    rw [this]
    have hQ : 0 ≤ y ^ 2 - 2 * y * m 0 + (m 0 ^ 2 + s 0) := by nlinarith [sq_nonneg (y - m 0)]
    have hinv : 0 < R⁻¹ := by positivity
    have hinv1 : R⁻¹ ≤ 1 := inv_le_one_of_one_le₀ hR
    have h2 : R⁻¹ ^ 2 ≤ R⁻¹ := by nlinarith
    have h3 : (0.5 : ℝ) = 1 / 2 := by norm_num
    have h6 := mul_le_mul_of_nonneg_left h2 hQ
    rw [div_eq_mul_inv, div_eq_mul_inv, ← inv_pow, h3]
    generalize y ^ 2 - 2 * y * m 0 + (m 0 ^ 2 + s 0) = Q at hQ h6
    linarith

/-! ## Non-vacuity -/

/-- Three observations on a grid of six points. -/
example : Function.Injective (![1, 3, 4] : Fin 3 → Fin 6) := by decide

end VGPA
