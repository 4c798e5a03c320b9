import Verif.Props.Like1
import Verif.Props.LinAlg
import Verif.Lemmas.MatCalc

/-!
# C53, C54: the observation energy in several dimensions

Observations are `y : Fin k → Fin d → ℝ` at the grid points `t : Fin k → Fin n`, which are pairwise different.
-/

namespace VGPA

open ProbabilityTheory MeasureTheory Matrix WithLp Filter Topology

namespace Spec

variable {d : ℕ}

/-- The logarithm of the density of the multivariate normal law with mean `μ` and covariance `S`. -/
noncomputable def mvLogPdf (μ : Fin d → ℝ) (S : Matrix (Fin d) (Fin d) ℝ) (x : Fin d → ℝ) : ℝ :=
  -(1 / 2) * (d * Real.log (2 * Real.pi) + Real.log S.det + (x - μ) ⬝ᵥ S⁻¹ *ᵥ (x - μ))

/-- Expected negative log-likelihood of one observation `y = x + noise`, `x` normal with mean `m` and covariance `s`,
noise normal with covariance `R`. -/
noncomputable def obsEnergyN (y : Fin d → ℝ) (R : Matrix (Fin d) (Fin d) ℝ) (m : Fin d → ℝ)
    (s : Matrix (Fin d) (Fin d) ℝ) : ℝ := mvE m s fun x => -mvLogPdf x R y

end Spec

variable {n k d : ℕ}

/-! ## Quadratic forms under the normal law -/

theorem quad_entry (P : Matrix (Fin d) (Fin d) ℝ) (c : Fin d → ℝ) (i j : Fin d) (x : EuclideanSpace ℝ (Fin d)) :
    (ofLp x - c) i * (P i j * (ofLp x - c) j) = P i j * (lin (Pi.single i 1) x * lin (Pi.single j 1) x)
      + lin ((-(P i j * c j)) • Pi.single i 1 + (-(P i j * c i)) • Pi.single j 1) x + P i j * c i * c j := by
  rw [lin_add, lin_smul, lin_smul, lin_single, lin_single]
  simp only [Pi.sub_apply]
  ring

theorem quadForm_eq (P : Matrix (Fin d) (Fin d) ℝ) (c : Fin d → ℝ) : (fun x : EuclideanSpace ℝ (Fin d) =>
    (ofLp x - c) ⬝ᵥ P *ᵥ (ofLp x - c)) = fun x => ∑ i, ∑ j, (P i j * (lin (Pi.single i 1) x * lin (Pi.single j 1) x)
      + lin ((-(P i j * c j)) • Pi.single i 1 + (-(P i j * c i)) • Pi.single j 1) x + P i j * c i * c j) := by
  funext x
  simp only [← quad_entry]
  simp only [dotProduct, Matrix.mulVec, Finset.mul_sum]

theorem integrable_quadForm {S : Matrix (Fin d) (Fin d) ℝ} (hS : S.PosSemidef) (P : Matrix (Fin d) (Fin d) ℝ)
    (c m : Fin d → ℝ) : Integrable (fun x : EuclideanSpace ℝ (Fin d) => (ofLp x - c) ⬝ᵥ P *ᵥ (ofLp x - c))
      (multivariateGaussian (toLp 2 m) S) := by
  rw [quadForm_eq]
  exact integrable_finsetSum _ fun i _ => integrable_finsetSum _ fun j _ => integrable_quad hS _ _ _ _ _

/-- `E[(x - c)ᵀ P (x - c)] = tr(P S) + (m - c)ᵀ P (m - c)`. -/
theorem mvE_quadForm {S : Matrix (Fin d) (Fin d) ℝ} (hS : S.PosSemidef) (P : Matrix (Fin d) (Fin d) ℝ)
    (c m : Fin d → ℝ) : Spec.mvE m S (fun x => (x - c) ⬝ᵥ P *ᵥ (x - c))
      = (∑ i, ∑ j, P i j * S i j) + (m - c) ⬝ᵥ P *ᵥ (m - c) := by
  unfold Spec.mvE
  rw [quadForm_eq]
  refine (integral_finsetSum _ fun i _ => integrable_finsetSum _ fun j _ => integrable_quad hS _ _ _ _ _).trans ?_
  have : ∀ i, ∫ x, ∑ j, (P i j * (lin (Pi.single i 1) x * lin (Pi.single j 1) x)
      + lin ((-(P i j * c j)) • Pi.single i 1 + (-(P i j * c i)) • Pi.single j 1) x + P i j * c i * c j)
      ∂(multivariateGaussian (toLp 2 m) S) = ∑ j, (P i j * S i j + (m - c) i * (P i j * (m - c) j)) := by
    intro i
    refine (integral_finsetSum _ fun j _ => integrable_quad hS _ _ _ _ _).trans ?_
    refine Finset.sum_congr rfl fun j _ => ?_
    rw [integral_quad hS, cvf_single, lin_add, lin_smul, lin_smul, lin_single, lin_single]
    simp only [Pi.sub_apply]
    ring
  refine (Finset.sum_congr rfl fun i _ => this i).trans ?_
  simp only [Finset.sum_add_distrib]
  simp only [dotProduct, Matrix.mulVec, Finset.mul_sum]

theorem mvE_const_add {S : Matrix (Fin d) (Fin d) ℝ} (m : Fin d → ℝ) (f : (Fin d → ℝ) → ℝ)
    (hf : Integrable (fun x : EuclideanSpace ℝ (Fin d) => f (ofLp x)) (multivariateGaussian (toLp 2 m) S)) (a b : ℝ) :
    Spec.mvE m S (fun x => a * (b + f x)) = a * (b + Spec.mvE m S f) := by
  unfold Spec.mvE
  rw [integral_const_mul, integral_add (integrable_const _) hf]
  simp

theorem quad_flip (P : Matrix (Fin d) (Fin d) ℝ) (x y : Fin d → ℝ) :
    (x - y) ⬝ᵥ P *ᵥ (x - y) = (y - x) ⬝ᵥ P *ᵥ (y - x) := by
  rw [← neg_sub y x, Matrix.mulVec_neg, neg_dotProduct_neg]

theorem obsEnergyN_eq {s : Matrix (Fin d) (Fin d) ℝ} (hs : s.PosSemidef) (y : Fin d → ℝ)
    (R : Matrix (Fin d) (Fin d) ℝ) (m : Fin d → ℝ) : Spec.obsEnergyN y R m s
      = 1 / 2 * (d * Real.log (2 * Real.pi) + Real.log R.det
          + ((∑ i, ∑ j, R⁻¹ i j * s i j) + (y - m) ⬝ᵥ R⁻¹ *ᵥ (y - m))) := by
  unfold Spec.obsEnergyN Spec.mvLogPdf
  rw [quad_flip _ y m, ← mvE_quadForm hs, ← mvE_const_add _ _ (integrable_quadForm hs _ _ _)]
  congr 1
  funext x
  rw [quad_flip _ x y]
  ring

/-! ## Loops over the observations -/

theorem foldlM_congr' {α σ : Type} {f g : σ → α → Py σ} : ∀ (l : List α) (s : σ),
    (∀ s, ∀ x ∈ l, f s x = g s x) → l.foldlM f s = l.foldlM g s
  | [], _, _ => rfl
  | x :: l, s, h => by
    rw [List.foldlM_cons, List.foldlM_cons, h s x (by simp)]
    cases g s x with
    | error e => rfl
    | ok s' => exact foldlM_congr' l s' fun s y hy => h s y (by simp [hy])

theorem foldlM_add {α : Type} (g : α → ℝ) : ∀ (l : List α) (s : ℝ),
    l.foldlM (fun (E : ℝ) x => (.ok (E + g x) : Py ℝ)) s = .ok (s + (l.map g).sum)
  | [], s => by simp
  | x :: l, s => by
    rw [List.foldlM_cons, py_ok_bind, foldlM_add g l]
    simp [add_assoc]

theorem range_eq_finRange (k : ℕ) : List.range k = (List.finRange k).map Fin.val := by
  apply List.ext_getElem <;> simp

/-- A loop `for j in range(k): E += g(j)`. -/
theorem foldlM_range_add (f : ℝ → ℕ → Py ℝ) (g : Fin k → ℝ) (h : ∀ E j, f E (j : Fin k) = .ok (E + g j)) (s : ℝ) :
    (List.range k).foldlM f s = .ok (s + ∑ j, g j) := by
  rw [range_eq_finRange, List.foldlM_map, foldlM_congr' _ _ fun s x _ => h s x, foldlM_add, Fin.sum_univ_def]

theorem foldlM_pairSet {α β : Type} : ∀ {k : ℕ} (a : Fin n → α) (b : Fin n → β) (t : Fin k → Fin n) (v : Fin k → α)
    (w : Fin k → β), Function.Injective t → ∃ (r : Fin n → α) (q : Fin n → β),
    (List.finRange k).foldlM (fun (acc : List α × List β) j => (do
        let x ← setIdx acc.1 (t j) (v j)
        let y ← setIdx acc.2 (t j) (w j)
        pure (x, y) : Py (List α × List β))) (List.ofFn a, List.ofFn b) = .ok (List.ofFn r, List.ofFn q)
      ∧ (∀ j, r (t j) = v j ∧ q (t j) = w j) ∧ ∀ i, (∀ j, t j ≠ i) → r i = a i ∧ q i = b i
  | 0, a, b, t, v, w, _ => ⟨a, b, rfl, fun j => j.elim0, fun i _ => ⟨rfl, rfl⟩⟩
  | k + 1, a, b, t, v, w, ht => by
    obtain ⟨r, q, h1, h2, h3⟩ := foldlM_pairSet (Function.update a (t 0) (v 0)) (Function.update b (t 0) (w 0))
      (fun j => t j.succ) (fun j => v j.succ) (fun j => w j.succ) (fun a b h => Fin.succ_injective _ (ht h))
    have h0 := h3 (t 0) fun j h => by simpa using ht h
    refine ⟨r, q, ?_, fun j => ?_, fun i hi => ?_⟩
    · rw [List.finRange_succ, List.foldlM_cons, setIdx_ofFn, py_ok_bind, setIdx_ofFn, py_ok_bind]
      show (List.map Fin.succ (List.finRange k)).foldlM _ _ = _
      rw [List.foldlM_map]
      exact h1
    · refine Fin.cases ⟨?_, ?_⟩ (fun j => h2 j) j
      · rw [h0.1, Function.update_self]
      · rw [h0.2, Function.update_self]
    · have := h3 i fun j => hi j.succ
      rw [this.1, this.2, Function.update_of_ne (hi 0).symm, Function.update_of_ne (hi 0).symm]
      exact ⟨rfl, rfl⟩

/-! ## C53 -/

theorem injective_le {t : Fin k → Fin n} (ht : Function.Injective t) : k ≤ n := by
  simpa using Fintype.card_le_of_injective t ht

/-- What `gauss_nd` returns with the identity operator. -/
theorem likeN_gauss_eq {R : Matrix (Fin d) (Fin d) ℝ} (hR : R.PosDef) (y : Fin k → Fin d → ℝ) (t : Fin k → Fin n)
    (hk : k ≤ n) (m : Fin n → Fin d → ℝ) (s : Fin n → Matrix (Fin d) (Fin d) ℝ) :
    (⟨List.ofFn y, List.ofFn fun j => (t j : ℕ), R, 1⟩ : LikeN d).gauss (List.ofFn m) (List.ofFn s)
      = .ok (∑ j, 1 / 2 * (d * Real.log (2 * Real.pi) + Real.log R.det
          + ((∑ i, R⁻¹ i i * s (Fin.castLE hk j) i i) + (y j - m (t j)) ⬝ᵥ R⁻¹ *ᵥ (y j - m (t j))))) := by
  obtain ⟨P, C, h1, h2, _, h4, _⟩ := C10_inverse R hR
  have hP : R⁻¹ = P := Matrix.inv_eq_left_inv h2
  unfold LikeN.gauss
  simp only [fancy_ofFn, py_ok_bind, bcast_ofFn, List.length_ofFn, List.map_ofFn, h1, Function.comp_def,
    C09_matrix R hR]
  rw [foldlM_range_add (k := k) _ (fun j => ((y j - m (t j)) ᵥ* 1 ᵥ* Cᵀ) ⬝ᵥ ((y j - m (t j)) ᵥ* 1 ᵥ* Cᵀ)
    + P.diag ⬝ᵥ (s (Fin.castLE hk j)).diag)]
  · show Except.ok _ = Except.ok _
    congr 1
    have h2 : (2.0 : ℝ) = 2 := by norm_num
    have h5 : (0.5 : ℝ) = 1 / 2 := by norm_num
    have h0 : (0.0 : ℝ) = 0 := by norm_num
    rw [← Finset.mul_sum, Finset.sum_add_distrib (f := fun _ => d * Real.log (2 * Real.pi) + Real.log R.det),
      Finset.sum_const, Finset.card_univ, Fintype.card_fin, h5, h0, log2pi, h2, nsmul_eq_mul, zero_add, add_comm]
    congr 2
    refine Finset.sum_congr rfl fun j _ => ?_
    rw [add_comm, hP, Matrix.vecMul_one]
    congr 1
    rw [Matrix.vecMul_transpose, h4, ← Matrix.mulVec_mulVec, Matrix.dotProduct_mulVec _ Cᵀ, Matrix.vecMul_transpose]
  · intro E j
    have hj : ((j : Fin k) : ℕ) = ((Fin.castLE hk j : Fin n) : ℕ) := rfl
    rw [idx_ofFn, py_ok_bind, hj, idx_ofFn, py_ok_bind]
    rfl

/-- C53, the part that holds: with the identity operator, a diagonal noise covariance, and variances (the diagonals of
the covariances) that at the position of each observation in the list are the same as at its time, the returned energy
is the expected negative log-likelihood of the observations. Missing: everything else, see `C53_time_index_violated`
and `C53_correlated_noise_violated`. -/
theorem C53_energy_partial (r : Fin d → ℝ) (hr : ∀ i, 0 < r i) (y : Fin k → Fin d → ℝ) (t : Fin k → Fin n)
    (ht : Function.Injective t) (m : Fin n → Fin d → ℝ) (s : Fin n → Matrix (Fin d) (Fin d) ℝ)
    (hs : ∀ i, (s i).PosSemidef) (hsame : ∀ (j : Fin k) (q : Fin n), (q : ℕ) = j → ∀ i, s q i i = s (t j) i i) :
    ∃ o, LikeN.init (List.ofFn y) (List.ofFn fun j => (t j : ℕ)) (Matrix.diagonal r) (some 1) = .ok o
      ∧ o.gauss (List.ofFn m) (List.ofFn s)
          = .ok (∑ j, Spec.obsEnergyN (y j) (Matrix.diagonal r) (m (t j)) (s (t j))) := by
  refine ⟨_, rfl, ?_⟩
  rw [likeN_gauss_eq (Matrix.PosDef.diagonal hr) y t (injective_le ht)]
  congr 1
  refine Finset.sum_congr rfl fun j _ => ?_
  rw [obsEnergyN_eq (hs _)]
  have hdi : (Matrix.diagonal r)⁻¹ = Matrix.diagonal (fun i => (r i)⁻¹) := by
    apply Matrix.inv_eq_left_inv
    rw [Matrix.diagonal_mul_diagonal]
    simp [(hr _).ne']
  congr 3
  refine Finset.sum_congr rfl fun i _ => ?_
  rw [Finset.sum_eq_single i, hsame j _ rfl i]
  · intro l _ hl
    rw [hdi, Matrix.diagonal_apply_ne _ hl.symm, zero_mul]
  · simp

/-- C53: leaving the operator out is the same as passing the identity, as long as there is an observation. -/
theorem C53_default_operator (R : Matrix (Fin d) (Fin d) ℝ) (values : List (Fin d → ℝ)) (times : List ℕ) :
    LikeN.init values times R none
      = if values = [] then .error .indexError else LikeN.init values times R (some 1) := by
  cases values <;> simp [LikeN.init, idx]

/-- C53 fails: the variances are taken at the position of the observation in the list instead of its time. Here unit
noise, one observation at time index 1, covariances `1` and `2`. -/
theorem C53_time_index_violated : ∃ o : LikeN 1, LikeN.init [0] [1] 1 none = .ok o
    ∧ o.gauss [0, 0] [1, 2] ≠ .ok (Spec.obsEnergyN (d := 1) 0 1 0 2) := by
  refine ⟨⟨[0], [1], 1, 1⟩, rfl, ?_⟩
  have h := likeN_gauss_eq (d := 1) (n := 2) (k := 1) (R := 1) Matrix.PosDef.one (fun _ => 0) (fun _ => 1) (by omega)
    (fun _ => 0) ![1, 2]
  simp at h
  have hps : (2 : Matrix (Fin 1) (Fin 1) ℝ).PosSemidef := by
    have : (2 : Matrix (Fin 1) (Fin 1) ℝ) = 1 + 1 := by norm_num
    rw [this]
    exact Matrix.PosSemidef.one.add Matrix.PosSemidef.one
  rw [h, obsEnergyN_eq hps]
  intro h
  injection h with h
  simp [Matrix.ofNat_apply] at h

/-- C53 fails: entries of the inverse noise covariance off the diagonal are ignored. Here a correlated positive definite
noise covariance and a correlated state covariance at the first time. -/
theorem C53_correlated_noise_violated : ∃ (R : Matrix (Fin 2) (Fin 2) ℝ) (o : LikeN 2), R.PosDef
    ∧ LikeN.init [0] [0] R none = .ok o ∧ o.gauss [0] [R] ≠ .ok (Spec.obsEnergyN 0 R 0 R) := by
  have hR := posDef_witness
  have hinv : (!![2, 1; 1, 2] : Matrix (Fin 2) (Fin 2) ℝ)⁻¹ = !![2 / 3, -1 / 3; -1 / 3, 2 / 3] := by
    apply Matrix.inv_eq_left_inv
    ext i j
    fin_cases i <;> fin_cases j <;> simp [Matrix.mul_apply, Fin.sum_univ_succ] <;> norm_num
  refine ⟨_, ⟨[0], [0], !![2, 1; 1, 2], 1⟩, hR, rfl, ?_⟩
  have h := likeN_gauss_eq (n := 1) (k := 1) hR (fun _ => 0) (fun _ => 0) (by omega) (fun _ => 0)
    (fun _ => !![2, 1; 1, 2])
  simp [-Matrix.det_fin_two_of] at h
  rw [h, obsEnergyN_eq hR.posSemidef, hinv]
  intro h
  injection h with h
  simp at h
  norm_num at h

/-! ## C54 -/

/-- C54: with the identity operator and positive definite noise, the returned gradients are `R⁻¹ (m - y)` and `R⁻¹ / 2` at
the observation times and zero elsewhere. -/
theorem C54_values {R : Matrix (Fin d) (Fin d) ℝ} (hR : R.PosDef) (y : Fin k → Fin d → ℝ) (t : Fin k → Fin n)
    (ht : Function.Injective t) (m : Fin n → Fin d → ℝ) : ∃ o dm ds,
    LikeN.init (List.ofFn y) (List.ofFn fun j => (t j : ℕ)) R (some 1) = .ok o
      ∧ o.gradients (List.ofFn m) = .ok (List.ofFn dm, List.ofFn ds, List.replicate n 0)
      ∧ (∀ j, dm (t j) = R⁻¹ *ᵥ (m (t j) - y j) ∧ ds (t j) = (1 / 2 : ℝ) • R⁻¹)
      ∧ ∀ i, (∀ j, t j ≠ i) → dm i = 0 ∧ ds i = 0 := by
  obtain ⟨P, C, h1, h2, _, h4, _⟩ := C10_inverse R hR
  have hP : R⁻¹ = P := Matrix.inv_eq_left_inv h2
  obtain ⟨r, q, a1, a2, a3⟩ := foldlM_pairSet (fun _ => (0 : Fin d → ℝ)) (fun _ => (0 : Matrix (Fin d) (Fin d) ℝ)) t
    (fun j => (-(1 : Matrix (Fin d) (Fin d) ℝ)ᵀ * P) *ᵥ ((y j - m (t j)) ᵥ* 1))
    (fun _ => (0.5 : ℝ) • ((1 : Matrix (Fin d) (Fin d) ℝ)ᵀ * P * 1)) ht
  refine ⟨_, r, q, rfl, ?_, fun j => ⟨?_, ?_⟩, a3⟩
  · unfold LikeN.gradients
    simp only [fancy_ofFn, py_ok_bind, bcast_ofFn, List.length_ofFn, List.map_ofFn, h1, Function.comp_def]
    rw [range_eq_finRange, List.foldlM_map, foldlM_congr' (g := fun (acc : List (Fin d → ℝ) × List _) j => do
        let x ← setIdx acc.1 (t j) ((-(1 : Matrix (Fin d) (Fin d) ℝ)ᵀ * P) *ᵥ ((y j - m (t j)) ᵥ* 1))
        let y ← setIdx acc.2 (t j) ((0.5 : ℝ) • ((1 : Matrix (Fin d) (Fin d) ℝ)ᵀ * P * 1))
        pure (x, y))]
    · rw [replicate_ofFn n (0 : Fin d → ℝ), replicate_ofFn n (0 : Matrix (Fin d) (Fin d) ℝ), a1]
      rfl
    · intro s j _
      rw [idx_ofFn, py_ok_bind, idx_ofFn, py_ok_bind]
  · rw [(a2 j).1, hP, Matrix.vecMul_one, Matrix.transpose_one, neg_mul, Matrix.one_mul, Matrix.neg_mulVec,
      ← Matrix.mulVec_neg, neg_sub]
  · rw [(a2 j).2, hP, Matrix.transpose_one, Matrix.one_mul, Matrix.mul_one]
    norm_num

/-- C54: these are the exact derivatives of the expected negative log-likelihood of the observations, for every direction
of the means and every symmetric direction of the covariances. -/
theorem C54_exact_derivatives {R : Matrix (Fin d) (Fin d) ℝ} (hR : R.PosDef) (y : Fin k → Fin d → ℝ) (t : Fin k → Fin n)
    (ht : Function.Injective t) (m : Fin n → Fin d → ℝ) (s : Fin n → Matrix (Fin d) (Fin d) ℝ)
    (hs : ∀ i, (s i).PosDef) : ∃ o dm ds dr,
    LikeN.init (List.ofFn y) (List.ofFn fun j => (t j : ℕ)) R (some 1) = .ok o
      ∧ o.gradients (List.ofFn m) = .ok (List.ofFn dm, List.ofFn ds, dr)
      ∧ ∀ (h : Fin n → Fin d → ℝ) (D : Fin n → Matrix (Fin d) (Fin d) ℝ), (∀ i, (D i).IsSymm) →
          HasDerivAt (fun ε : ℝ => ∑ j, Spec.obsEnergyN (y j) R (m (t j) + ε • h (t j)) (s (t j) + ε • D (t j)))
            (∑ i, (dm i ⬝ᵥ h i + ∑ p, ∑ q, ds i p q * D i p q)) 0 := by
  obtain ⟨o, dm, ds, h1, h2, h3, h4⟩ := C54_values hR y t ht m
  refine ⟨o, dm, ds, _, h1, h2, fun h D hD => ?_⟩
  rw [sum_supported t ht _ fun i hi => by rw [(h4 i hi).1, (h4 i hi).2]; simp]
  apply HasDerivAt.fun_sum
  intro j _
  have hRs : ∀ p q, R⁻¹ p q = R⁻¹ q p := posSemidef_symm hR.inv.posSemidef
  have hev := posDef_eventually (hs (t j)) (hD (t j))
  have hform : (fun ε : ℝ => Spec.obsEnergyN (y j) R (m (t j) + ε • h (t j)) (s (t j) + ε • D (t j)))
      =ᶠ[𝓝 0] fun ε => 1 / 2 * (d * Real.log (2 * Real.pi) + Real.log R.det
          + ((∑ p, ∑ q, R⁻¹ p q * (s (t j) p q + ε * D (t j) p q))
            + ∑ p, ∑ q, (y j p - (m (t j) p + ε * h (t j) p)) * (R⁻¹ p q * (y j q - (m (t j) q + ε * h (t j) q))))) := by
    filter_upwards [hev] with ε hε
    rw [obsEnergyN_eq hε.posSemidef]
    simp only [dotProduct, Matrix.mulVec, Finset.mul_sum]
    rfl
  refine HasDerivAt.congr_of_eventuallyEq ?_ hform
  have hm : ∀ p, HasDerivAt (fun ε : ℝ => y j p - (m (t j) p + ε * h (t j) p)) (-(h (t j) p)) 0 := fun p => by
    simpa using (((hasDerivAt_id' (0 : ℝ)).mul_const (h (t j) p)).const_add (m (t j) p)).const_sub (y j p)
  have hS : ∀ p q, HasDerivAt (fun ε : ℝ => s (t j) p q + ε * D (t j) p q) (D (t j) p q) 0 := fun p q => by
    simpa using ((hasDerivAt_id' (0 : ℝ)).mul_const (D (t j) p q)).const_add (s (t j) p q)
  have hd := (((HasDerivAt.fun_sum (u := Finset.univ) fun p _ => HasDerivAt.fun_sum (u := Finset.univ) fun q _ =>
      (hS p q).const_mul (R⁻¹ p q)).add (HasDerivAt.fun_sum (u := Finset.univ) fun p _ =>
      HasDerivAt.fun_sum (u := Finset.univ) fun q _ => (hm p).mul ((hm q).const_mul (R⁻¹ p q)))).const_add
      (d * Real.log (2 * Real.pi) + Real.log R.det)).const_mul (1 / 2)
  refine hd.congr_deriv ?_
  rw [(h3 j).1, (h3 j).2]
  simp only [dotProduct, Matrix.mulVec, Matrix.smul_apply, smul_eq_mul, zero_mul, add_zero, Finset.sum_add_distrib,
    Pi.sub_apply]
  have e1 : ∑ p, ∑ q, (y j p - m (t j) p) * (R⁻¹ p q * -h (t j) q)
      = ∑ p, ∑ q, -h (t j) p * (R⁻¹ p q * (y j q - m (t j) q)) := by
    rw [Finset.sum_comm]
    refine Finset.sum_congr rfl fun p _ => Finset.sum_congr rfl fun q _ => ?_
    rw [hRs q p]; ring
  have e2 : ∑ p, (∑ q, R⁻¹ p q * (m (t j) q - y j q)) * h (t j) p
      = ∑ p, ∑ q, -h (t j) p * (R⁻¹ p q * (y j q - m (t j) q)) := by
    refine Finset.sum_congr rfl fun p _ => ?_
    rw [Finset.sum_mul]
    exact Finset.sum_congr rfl fun q _ => by ring
  have e3 : ∑ p, ∑ q, 1 / 2 * R⁻¹ p q * D (t j) p q = 1 / 2 * ∑ p, ∑ q, R⁻¹ p q * D (t j) p q := by
    simp only [Finset.mul_sum, mul_assoc]
  rw [e1, e2, e3]
  ring

/-! ## Non-vacuity -/

/-- Two observations on a grid of four points, with correlated positive definite noise. -/
example : Function.Injective (![1, 3] : Fin 2 → Fin 4) ∧ (!![2, 1; 1, 2] : Matrix (Fin 2) (Fin 2) ℝ).PosDef :=
  ⟨by decide, posDef_witness⟩

end VGPA
