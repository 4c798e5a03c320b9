import Verif.Props.Prior
import Verif.Props.OdeLaws

/-!
# C157: the observation and prior terms of one-dimensional data, written as numbers and as 1x1 arrays

C22 is the same question for the sweeps. `toVec1` and `toMat1` write a number as an array with one entry.
-/

namespace VGPA

open Matrix

variable {n k : ℕ}

theorem toMat1_posDef {x : ℝ} (h : 0 < x) : (toMat1 x).PosDef := by
  have e : toMat1 x = Matrix.diagonal fun _ => x := by
    ext i j
    rw [Subsingleton.elim i j]
    simp
  rw [e]
  exact Matrix.PosDef.diagonal fun _ => h

theorem toMat1_inv {x : ℝ} (h : 0 < x) : (toMat1 x)⁻¹ = toMat1 (1 / x) := by
  apply Matrix.inv_eq_left_inv
  ext i j
  rw [Subsingleton.elim i j]
  simp [Matrix.mul_apply, h.ne']

theorem toMat1_det (x : ℝ) : (toMat1 x).det = x := by simp

/-- C157, the prior term, as far as it holds: on 1x1 arrays the code returns half the logarithm of the variance more than on numbers, so the two agree for the variance one. -/
theorem C157_prior_partial (μ τ m0 s0 : ℝ) (hτ : 0 < τ) (hs : 0 < s0) :
    (⟨toVec1 μ, toMat1 τ⟩ : PriorN 1).gauss (toVec1 m0) (toMat1 s0)
        = .ok ((⟨μ, τ⟩ : Prior1).gauss m0 s0 + 1 / 2 * Real.log s0)
      ∧ (s0 = 1 → (⟨toVec1 μ, toMat1 τ⟩ : PriorN 1).gauss (toVec1 m0) (toMat1 s0)
        = .ok ((⟨μ, τ⟩ : Prior1).gauss m0 s0)) := by
  have h : (⟨toVec1 μ, toMat1 τ⟩ : PriorN 1).gauss (toVec1 m0) (toMat1 s0)
      = .ok ((⟨μ, τ⟩ : Prior1).gauss m0 s0 + 1 / 2 * Real.log s0) := by
    rw [priorN_eq _ _ _ (toMat1_posDef hs) (toMat1_posDef hτ) (by
      ext i j
      rw [Subsingleton.elim i j]
      rfl)]
    congr 1
    show 1 / 2 * (Real.log (toMat1 τ).det - Real.log (toMat1 s0).det + (∑ i, ∑ j, (toMat1 τ)⁻¹ i j * toMat1 s0 i j)
      + ((toVec1 m0 - toVec1 μ) ⬝ᵥ (toVec1 m0 - toVec1 μ)) * (∑ i, ∑ j, (toMat1 τ)⁻¹ i j) - (1 : ℕ)) = _
    rw [toMat1_inv hτ, toMat1_det, toMat1_det]
    unfold Prior1.gauss
    simp [dotProduct]
    norm_num
    field_simp
    ring
  refine ⟨h, fun e => ?_⟩
  rw [h, e]
  simp

/-- C157 fails for the prior term: for every variance of the start other than one the two return different numbers, whatever the mean and the prior. -/
theorem C157_prior_violated (μ τ m0 s0 : ℝ) (hτ : 0 < τ) (hs : 0 < s0) (h1 : s0 ≠ 1) :
    (⟨toVec1 μ, toMat1 τ⟩ : PriorN 1).gauss (toVec1 m0) (toMat1 s0) ≠ .ok ((⟨μ, τ⟩ : Prior1).gauss m0 s0) := by
  rw [(C157_prior_partial μ τ m0 s0 hτ hs).1]
  intro h
  injection h with h
  have : Real.log s0 = 0 := by linarith
  rcases Real.log_eq_zero.1 this with h | h | h
  · exact hs.ne' h
  · exact h1 h
  · linarith

/-- C157, the gradients of the prior term agree. -/
theorem C157_prior_gradients (μ τ m0 s0 lam0 psi0 : ℝ) (hτ : 0 < τ) (hs : 0 < s0) :
    (⟨toVec1 μ, toMat1 τ⟩ : PriorN 1).gradients (toVec1 m0) (toMat1 s0) (toVec1 lam0) (toMat1 psi0)
      = .ok (toVec1 ((⟨μ, τ⟩ : Prior1).gradients m0 s0 lam0 psi0).1,
          toMat1 ((⟨μ, τ⟩ : Prior1).gradients m0 s0 lam0 psi0).2) := by
  obtain ⟨P, C, h1, h2, _⟩ := C10_inverse _ (toMat1_posDef hτ)
  obtain ⟨Q, C', h3, h4, _⟩ := C10_inverse _ (toMat1_posDef hs)
  have hP : toMat1 (1 / τ) = P := (toMat1_inv hτ).symm.trans (Matrix.inv_eq_left_inv h2)
  have hQ : toMat1 (1 / s0) = Q := (toMat1_inv hs).symm.trans (Matrix.inv_eq_left_inv h4)
  have hP' : (toMat1 τ)⁻¹ = P := Matrix.inv_eq_left_inv h2
  have h5 : (⟨toVec1 μ, toMat1 τ⟩ : PriorN 1).gradients (toVec1 m0) (toMat1 s0) (toVec1 lam0) (toMat1 psi0)
      = .ok (toVec1 lam0 + P *ᵥ (toVec1 m0 - toVec1 μ), toMat1 psi0 + (0.5 : ℝ) • (P - Q)) := by
    unfold PriorN.gradients
    simp only [h1, h3, py_ok_bind, npSolve, if_neg (toMat1_posDef hτ).det_pos.ne', hP']
    rfl
  rw [h5, ← hP, ← hQ]
  unfold Prior1.gradients
  congr 2
  · ext i
    simp [Matrix.mulVec, dotProduct]
    ring
  · ext i j
    simp
    norm_num

/-- C157, the gradients of the observation term with the operator one agree at all grid points. -/
theorem C157_observation_gradients_partial (R : ℝ) (hR : 0 < R) (y : Fin k → ℝ) (t : Fin k → Fin n) (ht : Function.Injective t)
    (m s : Fin n → ℝ) : ∃ (o : Like1) (q : LikeN 1) (dm ds dr : List ℝ) (dr' : List (Matrix (Fin 1) (Fin 1) ℝ)),
    Like1.init (List.ofFn y) (List.ofFn fun j => (t j : ℕ)) R (some 1) = .ok o
      ∧ LikeN.init (List.ofFn fun j => toVec1 (y j)) (List.ofFn fun j => (t j : ℕ)) (toMat1 R) (some 1) = .ok q
      ∧ o.gradients (List.ofFn m) (List.ofFn s) = .ok (dm, ds, dr)
      ∧ q.gradients (List.ofFn fun i => toVec1 (m i)) = .ok (dm.map toVec1, ds.map toMat1, dr') := by
  obtain ⟨dm, ds, dr, h1, h2, h3, _, h5⟩ := like1_gradients_eq 1 R y t ht m s
  obtain ⟨q, dm', ds', g0, g1, g2, g3⟩ := C54_values (toMat1_posDef hR) (fun j => toVec1 (y j)) t ht (fun i => toVec1 (m i))
  refine ⟨_, q, List.ofFn dm, List.ofFn ds, List.ofFn dr, List.replicate n 0, rfl, g0, h1, ?_⟩
  rw [g1]
  have e : ∀ i, dm' i = toVec1 (dm i) ∧ ds' i = toMat1 (ds i) := by
    intro i
    by_cases hi : ∃ j, t j = i
    · obtain ⟨j, rfl⟩ := hi
      rw [(g2 j).1, (g2 j).2, h2 j, h3 j, toMat1_inv hR]
      constructor
      · ext p
        simp [Matrix.mulVec, dotProduct]
        ring
      · ext p q
        simp
        norm_num
        ring
    · have hi' : ∀ j, t j ≠ i := fun j e => hi ⟨j, e⟩
      obtain ⟨a, b⟩ := g3 i hi'
      obtain ⟨a', b', _⟩ := h5 i hi'
      rw [a, b, a', b']
      exact ⟨rfl, rfl⟩
  rw [List.map_ofFn, List.map_ofFn, show dm' = toVec1 ∘ dm from funext fun i => (e i).1,
    show ds' = toMat1 ∘ ds from funext fun i => (e i).2]

/-- C157 with C22: the multipliers that the backward sweep makes from the gradients of the observation term agree, for every method and all coefficients, failures included. -/
theorem C157_multipliers_partial (R : ℝ) (hR : 0 < R) (y : Fin k → ℝ) (t : Fin k → Fin n) (ht : Function.Injective t)
    (m s : Fin n → ℝ) : ∃ (o : Like1) (q : LikeN 1) (dm ds dr : List ℝ) (dm' : List (Fin 1 → ℝ))
      (ds' dr' : List (Matrix (Fin 1) (Fin 1) ℝ)),
    Like1.init (List.ofFn y) (List.ofFn fun j => (t j : ℕ)) R (some 1) = .ok o
      ∧ LikeN.init (List.ofFn fun j => toVec1 (y j)) (List.ofFn fun j => (t j : ℕ)) (toMat1 R) (some 1) = .ok q
      ∧ o.gradients (List.ofFn m) (List.ofFn s) = .ok (dm, ds, dr)
      ∧ q.gradients (List.ofFn fun i => toVec1 (m i)) = .ok (dm', ds', dr')
      ∧ ∀ (meth : Method) (dt : ℝ) (a em es : List ℝ),
          solveBwd meth (rhsN 1) dt (a.map toMat1) (em.map toVec1) (es.map toMat1) dm' ds'
            = (solveBwd meth rhs1 dt a em es dm ds).map fun r => (r.1.map toVec1, r.2.map toMat1) := by
  obtain ⟨o, q, dm, ds, dr, dr', h1, h2, h3, h4⟩ := C157_observation_gradients_partial R hR y t ht m s
  exact ⟨o, q, dm, ds, dr, _, _, dr', h1, h2, h3, h4, fun meth dt a em es => C22_backward_1D_nD_agree meth dt a em es dm ds⟩

/-- C157, the observation term with the operator one, as far as it holds: on 1x1 arrays the code takes the variances at the first grid points instead of the times of the observations, and adds their difference, divided by twice the noise. When the
variances there are the same the two agree. -/
theorem C157_observation_partial (R : ℝ) (hR : 0 < R) (y : Fin k → ℝ) (t : Fin k → Fin n) (hk : k ≤ n) (m s : Fin n → ℝ) :
    ∃ (o : Like1) (q : LikeN 1) (E : ℝ),
      Like1.init (List.ofFn y) (List.ofFn fun j => (t j : ℕ)) R (some 1) = .ok o
      ∧ LikeN.init (List.ofFn fun j => toVec1 (y j)) (List.ofFn fun j => (t j : ℕ)) (toMat1 R) (some 1) = .ok q
      ∧ o.gauss (List.ofFn m) (List.ofFn s) = .ok E
      ∧ q.gauss (List.ofFn fun i => toVec1 (m i)) (List.ofFn fun i => toMat1 (s i))
          = .ok (E + (∑ j, s (Fin.castLE hk j) - ∑ j, s (t j)) / (2 * R)) := by
  refine ⟨_, _, _, rfl, rfl, like1_gauss_eq 1 R y t m s, ?_⟩
  rw [likeN_gauss_eq (toMat1_posDef hR) (fun j => toVec1 (y j)) t hk (fun i => toVec1 (m i)) (fun i => toMat1 (s i))]
  congr 1
  rw [← Finset.sum_sub_distrib, Finset.sum_div, ← Finset.sum_add_distrib]
  refine Finset.sum_congr rfl fun j _ => ?_
  rw [toMat1_inv hR, toMat1_det]
  simp [Matrix.mulVec, dotProduct, log2pi]
  norm_num
  field_simp
  ring

/-- C157 fails for the observation term: one observation at the second grid point, and variances that differ at the first two. -/
theorem C157_observation_violated (R : ℝ) (hR : 0 < R) (y : ℝ) (m s : Fin (n + 2) → ℝ) (h : s 0 ≠ s 1) :
    ∃ (o : Like1) (q : LikeN 1) (E E' : ℝ), Like1.init [y] [1] R (some 1) = .ok o
      ∧ LikeN.init [toVec1 y] [1] (toMat1 R) (some 1) = .ok q
      ∧ o.gauss (List.ofFn m) (List.ofFn s) = .ok E
      ∧ q.gauss (List.ofFn fun i => toVec1 (m i)) (List.ofFn fun i => toMat1 (s i)) = .ok E' ∧ E' ≠ E := by
  obtain ⟨o, q, E, h1, h2, h3, h4⟩ := C157_observation_partial (k := 1) R hR (fun _ => y) (fun _ => (1 : Fin (n + 2)))
    (by omega) m s
  refine ⟨o, q, E, _, by simpa using h1, by simpa using h2, h3, h4, fun e => h ?_⟩
  have e2 : (∑ j : Fin 1, s (Fin.castLE (by omega) j) - ∑ _j : Fin 1, s 1) / (2 * R) = 0 := by linarith
  rw [div_eq_zero_iff] at e2
  rcases e2 with e2 | e2
  · simp at e2
    linarith
  · linarith

/-- C157 fails for the gradients when the operator is not the identity: one grid point, observed with the operator `H`. The derivative with respect to the variance that the code on 1x1 arrays returns is `H²` times the one on numbers, and the one with
respect to the mean multiplies `H` in another place. -/
theorem C157_operator_violated (R H y m s : ℝ) (hR : 0 < R) (hH : H ^ 2 ≠ 1) : ∃ (o : Like1) (q : LikeN 1) (dm ds dm' ds' : ℝ)
      (dr : List ℝ) (dr' : List (Matrix (Fin 1) (Fin 1) ℝ)), Like1.init [y] [0] R (some H) = .ok o
      ∧ LikeN.init [toVec1 y] [0] (toMat1 R) (some (toMat1 H)) = .ok q
      ∧ o.gradients [m] [s] = .ok ([dm], [ds], dr)
      ∧ q.gradients [toVec1 m] = .ok ([toVec1 dm'], [toMat1 ds'], dr')
      ∧ dm = -(y - H * m) / R ∧ dm' = -H ^ 2 * (y - m) / R ∧ ds' = H ^ 2 * ds ∧ ds' ≠ ds := by
  obtain ⟨dm, ds, dr, h1, h2, h3, _⟩ := like1_gradients_eq (k := 1) (n := 1) H R (fun _ => y) (fun _ => 0)
    (fun _ _ _ => Subsingleton.elim _ _) (fun _ => m) (fun _ => s)
  obtain ⟨P, C, g1, g2, _⟩ := C10_inverse _ (toMat1_posDef hR)
  have hP : toMat1 (1 / R) = P := (toMat1_inv hR).symm.trans (Matrix.inv_eq_left_inv g2)
  have h3' : ds 0 = 0.5 / R := h3 0
  refine ⟨_, ⟨[toVec1 y], [0], toMat1 R, toMat1 H⟩, dm 0, ds 0, -H ^ 2 * (y - m) / R, H ^ 2 * ds 0, List.ofFn dr, [0], rfl, rfl,
    by simpa using h1, ?_, h2 0, rfl, rfl, ?_⟩
  · unfold LikeN.gradients
    simp only [g1, ← hP]
    have e1 : (-(toMat1 H)ᵀ * toMat1 (1 / R)) *ᵥ ((toVec1 y - toVec1 m) ᵥ* toMat1 H) = toVec1 (-H ^ 2 * (y - m) / R) := by
      ext i
      simp [Matrix.mulVec, Matrix.vecMul, dotProduct, Matrix.mul_apply]
      ring
    have e2 : (0.5 : ℝ) • ((toMat1 H)ᵀ * toMat1 (1 / R) * toMat1 H) = toMat1 (H ^ 2 * ds 0) := by
      ext i j
      rw [h3']
      simp [Matrix.mul_apply]
      ring
    rw [← e1, ← e2]
    rfl
  · rw [h3']
    have : (0.5 : ℝ) / R ≠ 0 := div_ne_zero (by norm_num) hR.ne'
    intro h
    exact hH (mul_right_cancel₀ this (by rw [h, one_mul]))

-- Three grid points, one observation of 1 at the second: 1-D and 1x1 energies with the variances 1, 2, 3 and noise 4 differ.
example : ∃ (o : Like1) (q : LikeN 1) (E E' : ℝ), Like1.init [1] [1] 4 (some 1) = .ok o
    ∧ LikeN.init [toVec1 1] [1] (toMat1 4) (some 1) = .ok q
    ∧ o.gauss (List.ofFn ![0, 0, 0]) (List.ofFn ![1, 2, 3]) = .ok E
    ∧ q.gauss (List.ofFn fun i => toVec1 (![0, 0, 0] i)) (List.ofFn fun i => toMat1 (![1, 2, 3] i)) = .ok E' ∧ E' ≠ E :=
  C157_observation_violated (n := 1) 4 (by norm_num) 1 ![0, 0, 0] ![1, 2, 3] (by simp)

example : (⟨toVec1 0, toMat1 1⟩ : PriorN 1).gauss (toVec1 3) (toMat1 2) ≠ .ok ((⟨0, 1⟩ : Prior1).gauss 3 2) :=
  C157_prior_violated 0 1 3 2 (by norm_num) (by norm_num) (by norm_num)

-- The gradients: two observations, at the third and the first of three grid points.
example := C157_observation_gradients_partial 4 (by norm_num) ![1, 5] (![2, 0] : Fin 2 → Fin 3) (by decide) ![0, 0, 0] ![1, 2, 3]

example := C157_prior_gradients 0 1 3 2 5 7 (by norm_num) (by norm_num)

-- The operator two.
example := C157_operator_violated 1 2 1 0 1 (by norm_num) (by norm_num)

end VGPA
