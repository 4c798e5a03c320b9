import Verif.Props.Masks
import Verif.Props.LikeN

/-!
# C104: what the likelihood returns for a mask that selects all components
-/

namespace VGPA

noncomputable section

open Matrix

variable {d n : ℕ}

/-- What `gauss_nd` returns with a vector as operator and as many observations as components. -/
theorem likeV_gauss_eq {R : Matrix (Fin d) (Fin d) ℝ} (hR : R.PosDef) (h : Fin d → ℝ) (y : Fin d → Fin d → ℝ) (t : Fin d → Fin n) (hk : d ≤ n) (m : Fin n → Fin d → ℝ)
    (s : Fin n → Matrix (Fin d) (Fin d) ℝ) :
    (⟨List.ofFn y, List.ofFn fun j => (t j : ℕ), R, h⟩ : LikeV d).gauss (List.ofFn m) (List.ofFn s)
      = .ok (1 / 2 * (d * (d * Real.log (2 * Real.pi) + Real.log R.det) + (∑ j, ∑ i, R⁻¹ i i * s (Fin.castLE hk j) i i)
          + (fun j => (y j - m (t j)) ⬝ᵥ h) ⬝ᵥ R⁻¹ *ᵥ fun j => (y j - m (t j)) ⬝ᵥ h)) := by
  obtain ⟨P, C, h1, h2, _, h4, _⟩ := C10_inverse R hR
  have hP : R⁻¹ = P := Matrix.inv_eq_left_inv h2
  unfold LikeV.gauss
  simp only [fancy_ofFn, py_ok_bind, bcast_ofFn, h1, C09_matrix R hR]
  rw [dif_pos (by simp)]
  have hW : ∀ i : Fin d, (List.map (fun x => x ⬝ᵥ h) (List.ofFn fun j => y j - m (t j))).get (i.cast (by simp)) = (y i - m (t i)) ⬝ᵥ h := by
    intro i
    simp
  simp only [hW, List.length_ofFn, List.map_ofFn, Function.comp_def]
  rw [foldlM_range_add (k := d) _ (fun j => ((fun i => (y i - m (t i)) ⬝ᵥ h) ᵥ* Cᵀ) j * ((fun i => (y i - m (t i)) ⬝ᵥ h) ᵥ* Cᵀ) j + P.diag ⬝ᵥ (s (Fin.castLE hk j)).diag)]
  · show Except.ok _ = Except.ok _
    congr 1
    have h2 : (2.0 : ℝ) = 2 := by norm_num
    have h5 : (0.5 : ℝ) = 1 / 2 := by norm_num
    have h0 : (0.0 : ℝ) = 0 := by norm_num
    rw [Finset.sum_add_distrib, h5, h0, log2pi, h2, zero_add, hP]
    have e : (fun j => (y j - m (t j)) ⬝ᵥ h) ⬝ᵥ P *ᵥ (fun j => (y j - m (t j)) ⬝ᵥ h)
        = ∑ j, ((fun i => (y i - m (t i)) ⬝ᵥ h) ᵥ* Cᵀ) j * ((fun i => (y i - m (t i)) ⬝ᵥ h) ᵥ* Cᵀ) j := by
      rw [h4, ← Matrix.mulVec_mulVec, Matrix.dotProduct_mulVec _ Cᵀ, Matrix.vecMul_transpose]
      rfl
    rw [e]
    have e2 : ∀ j : Fin d, P.diag ⬝ᵥ (s (Fin.castLE hk j)).diag = ∑ i, P i i * s (Fin.castLE hk j) i i := fun _ => rfl
    simp only [e2]
    ring
  · intro E j
    have hj : ((j : Fin d) : ℕ) = ((Fin.castLE hk j : Fin n) : ℕ) := rfl
    rw [idx_ofFn, py_ok_bind, hj, idx_ofFn, py_ok_bind]
    rfl

/-- What `gradients_nd` returns with a vector as operator. -/
theorem likeV_gradients_eq {k : ℕ} {R : Matrix (Fin d) (Fin d) ℝ} (hR : R.PosDef) (h : Fin d → ℝ) (y : Fin k → Fin d → ℝ) (t : Fin k → Fin n) (ht : Function.Injective t)
    (m : Fin n → Fin d → ℝ) : ∃ dm ds,
    (⟨List.ofFn y, List.ofFn fun j => (t j : ℕ), R, h⟩ : LikeV d).gradients (List.ofFn m) = .ok (List.ofFn dm, List.ofFn ds, List.replicate n 0)
      ∧ (∀ j, dm (t j) = -(((y j - m (t j)) ⬝ᵥ h) • (h ᵥ* R⁻¹)) ∧ ds (t j) = Matrix.of fun _ _ => 1 / 2 * (h ᵥ* R⁻¹ ⬝ᵥ h))
      ∧ ∀ i, (∀ j, t j ≠ i) → dm i = 0 ∧ ds i = 0 := by
  obtain ⟨P, C, h1, h2, _, h4, _⟩ := C10_inverse R hR
  have hP : R⁻¹ = P := Matrix.inv_eq_left_inv h2
  obtain ⟨r, q, a1, a2, a3⟩ := foldlM_pairSet (fun _ => (0 : Fin d → ℝ)) (fun _ => (0 : Matrix (Fin d) (Fin d) ℝ)) t
    (fun j => -(((y j - m (t j)) ⬝ᵥ h) • (h ᵥ* P))) (fun _ => Matrix.of fun _ _ => (0.5 : ℝ) * (h ᵥ* P ⬝ᵥ h)) ht
  refine ⟨r, q, ?_, fun j => ⟨?_, ?_⟩, a3⟩
  · unfold LikeV.gradients
    simp only [fancy_ofFn, py_ok_bind, bcast_ofFn, List.length_ofFn, List.map_ofFn, h1, Function.comp_def]
    rw [range_eq_finRange, List.foldlM_map, foldlM_congr' (g := fun (acc : List (Fin d → ℝ) × List _) j => do
        let x ← setIdx acc.1 (t j) (-(((y j - m (t j)) ⬝ᵥ h) • (h ᵥ* P)))
        let y ← setIdx acc.2 (t j) (Matrix.of fun _ _ => (0.5 : ℝ) * (h ᵥ* P ⬝ᵥ h))
        pure (x, y))]
    · rw [replicate_ofFn n (0 : Fin d → ℝ), replicate_ofFn n (0 : Matrix (Fin d) (Fin d) ℝ), a1]
      rfl
    · intro s j _
      rw [idx_ofFn, py_ok_bind, idx_ofFn, py_ok_bind]
  · rw [(a2 j).1, hP]
  · rw [(a2 j).2, hP]
    norm_num

theorem maskDiag_inv {r : ℝ} (hr : 0 < r) : (Matrix.diagonal fun _ : Fin 3 => r)⁻¹ = Matrix.diagonal fun _ => r⁻¹ := by
  apply Matrix.inv_eq_left_inv
  rw [Matrix.diagonal_mul_diagonal]
  simp [hr.ne']

/-- The likelihood that `run()` builds for a mask that selects all components. -/
theorem mkLike_full (y : List (Fin 3 → ℝ)) (t : List ℕ) (r : ℝ) :
    mkLike (.path 3 y) (.times t) (.nd (.mat 3 3 (Matrix.diagonal fun _ => r))) (Spec.maskOf fun _ => true) false
      = .ok (.vecOp 3 ⟨y, t, Matrix.diagonal fun _ => r, fun _ => 1⟩) := by
  have h : ∃ a : Fin 3 → ℝ, mkLike (.path 3 y) (.times t) (.nd (.mat 3 3 (Matrix.diagonal fun _ => r))) (Spec.maskOf fun _ => true) false
      = .ok (.vecOp 3 ⟨y, t, Matrix.diagonal fun _ => r, a⟩) ∧ a 0 = 1 ∧ a 1 = 1 ∧ a 2 = 1 := ⟨_, rfl, rfl, rfl, rfl⟩
  obtain ⟨a, h, h0, h1, h2⟩ := h
  rw [h]
  have : a = fun _ => 1 := by
    funext i
    fin_cases i
    exacts [h0, h1, h2]
  rw [this]

/-- C104 fails in the one case in which the likelihood accepts a mask, three observations of all three components: of each observation only the sum of the deviations in the three components counts. -/
theorem C104_energy_violated {r : ℝ} (hr : 0 < r) (y : Fin 3 → Fin 3 → ℝ) (t : Fin 3 → Fin n) (ht : Function.Injective t) (m : Fin n → Fin 3 → ℝ) (s : Fin n → Matrix (Fin 3) (Fin 3) ℝ) :
    ∃ L, mkLike (.path 3 (List.ofFn y)) (.times (List.ofFn fun j => (t j : ℕ))) (.nd (.mat 3 3 (Matrix.diagonal fun _ => r))) (Spec.maskOf fun _ => true) false = .ok (.vecOp 3 L)
      ∧ L.gauss (List.ofFn m) (List.ofFn s) = .ok (∑ j : Fin 3, 1 / 2 * (3 * Real.log (2 * Real.pi) + 3 * Real.log r + (∑ i, (y j i - m (t j) i)) ^ 2 / r
          + ∑ i, s (Fin.castLE (injective_le ht) j) i i / r)) := by
  refine ⟨_, mkLike_full _ _ _, ?_⟩
  rw [likeV_gauss_eq (Matrix.PosDef.diagonal fun _ => hr) _ y t (injective_le ht), maskDiag_inv hr]
  congr 1
  have hdet : Real.log (Matrix.diagonal fun _ : Fin 3 => r).det = 3 * Real.log r := by
    rw [Matrix.det_diagonal, Finset.prod_const, Finset.card_univ, Fintype.card_fin, Real.log_pow]
    norm_num
  rw [hdet]
  simp only [Matrix.mulVec_diagonal, dotProduct, Fin.sum_univ_three, Matrix.diagonal_apply_eq, Pi.sub_apply, mul_one, div_eq_mul_inv]
  push_cast
  ring

/-- C104 fails for the energy in this case: when in each observation the deviations of the three components add up to zero without all being zero, the returned value is less than the expected negative log density of
the observations. -/
theorem C104_energy_too_small_violated {r : ℝ} (hr : 0 < r) (y : Fin 3 → Fin 3 → ℝ) (t : Fin 3 → Fin n) (ht : Function.Injective t) (m : Fin n → Fin 3 → ℝ) (s : Fin n → Matrix (Fin 3) (Fin 3) ℝ)
    (hs : ∀ i, (s i).PosSemidef) (hsame : ∀ (j : Fin 3) (q : Fin n), (q : ℕ) = j → ∀ i, s q i i = s (t j) i i) (h0 : ∀ j, ∑ i, (y j i - m (t j) i) = 0) (h1 : ∃ j, y j ≠ m (t j)) :
    ∃ L E, mkLike (.path 3 (List.ofFn y)) (.times (List.ofFn fun j => (t j : ℕ))) (.nd (.mat 3 3 (Matrix.diagonal fun _ => r))) (Spec.maskOf fun _ => true) false = .ok (.vecOp 3 L)
      ∧ L.gauss (List.ofFn m) (List.ofFn s) = .ok E ∧ E < ∑ j, Spec.obsEnergyN (y j) (Matrix.diagonal fun _ => r) (m (t j)) (s (t j)) := by
  obtain ⟨L, hL, hE⟩ := C104_energy_violated hr y t ht m s
  refine ⟨L, _, hL, hE, ?_⟩
  have hdet : Real.log (Matrix.diagonal fun _ : Fin 3 => r).det = 3 * Real.log r := by
    rw [Matrix.det_diagonal, Finset.prod_const, Finset.card_univ, Fintype.card_fin, Real.log_pow]
    norm_num
  have hobs : ∀ j, Spec.obsEnergyN (y j) (Matrix.diagonal fun _ => r) (m (t j)) (s (t j))
      = 1 / 2 * (3 * Real.log (2 * Real.pi) + 3 * Real.log r + (∑ i, (y j i - m (t j) i)) ^ 2 / r + ∑ i, s (Fin.castLE (injective_le ht) j) i i / r)
        + 1 / 2 * ∑ i, (y j i - m (t j) i) ^ 2 / r := by
    intro j
    rw [obsEnergyN_eq (hs _), hdet, maskDiag_inv hr, h0]
    have e1 : ∑ i, ∑ l, (Matrix.diagonal fun _ : Fin 3 => r⁻¹) i l * s (t j) i l = ∑ i, s (Fin.castLE (injective_le ht) j) i i / r := by
      refine Finset.sum_congr rfl fun i _ => ?_
      rw [Finset.sum_eq_single i, Matrix.diagonal_apply_eq, ← hsame j (Fin.castLE (injective_le ht) j) rfl i, div_eq_inv_mul]
      · intro l _ hl
        rw [Matrix.diagonal_apply_ne _ hl.symm, zero_mul]
      · simp
    have e2 : (y j - m (t j)) ⬝ᵥ (Matrix.diagonal fun _ : Fin 3 => r⁻¹) *ᵥ (y j - m (t j)) = ∑ i, (y j i - m (t j) i) ^ 2 / r := by
      refine Finset.sum_congr rfl fun i _ => ?_
      rw [Matrix.mulVec_diagonal, Pi.sub_apply, div_eq_mul_inv]
      ring
    rw [e1, e2]
    push_cast
    ring
  simp only [hobs]
  rw [Finset.sum_add_distrib]
  refine lt_add_of_pos_right _ ?_
  have hnn : ∀ j i, 0 ≤ (y j i - m (t j) i) ^ 2 / r := fun j i => by positivity
  obtain ⟨j, hj⟩ := h1
  obtain ⟨i, hi⟩ : ∃ i, y j i ≠ m (t j) i := by
    by_contra h
    push Not at h
    exact hj (funext h)
  refine Finset.sum_pos' (fun j _ => mul_nonneg (by norm_num) (Finset.sum_nonneg fun i _ => hnn j i)) ⟨j, Finset.mem_univ _, mul_pos (by norm_num) ?_⟩
  refine Finset.sum_pos' (fun i _ => hnn j i) ⟨i, Finset.mem_univ _, ?_⟩
  have := sub_ne_zero.2 hi
  positivity

/-- C104 fails for the gradients in this case: at an observation time the derivative by each component of the mean is the sum of the deviations of all components, and every entry of the derivative by the
covariance is `3 / 2r`. (The derivatives of the expected negative log density are each component's own deviation, and `1 / 2r` on the diagonal and zero off it, `C54_values`.) -/
theorem C104_gradients_violated {k : ℕ} {r : ℝ} (hr : 0 < r) (y : Fin k → Fin 3 → ℝ) (t : Fin k → Fin n) (ht : Function.Injective t) (m : Fin n → Fin 3 → ℝ) :
    ∃ L dm ds, mkLike (.path 3 (List.ofFn y)) (.times (List.ofFn fun j => (t j : ℕ))) (.nd (.mat 3 3 (Matrix.diagonal fun _ => r))) (Spec.maskOf fun _ => true) false = .ok (.vecOp 3 L)
      ∧ L.gradients (List.ofFn m) = .ok (List.ofFn dm, List.ofFn ds, List.replicate n 0)
      ∧ (∀ j i, dm (t j) i = (∑ l, (m (t j) l - y j l)) / r) ∧ (∀ j p q, ds (t j) p q = 3 / (2 * r)) ∧ ∀ i, (∀ j, t j ≠ i) → dm i = 0 ∧ ds i = 0 := by
  obtain ⟨dm, ds, h1, h2, h3⟩ := likeV_gradients_eq (Matrix.PosDef.diagonal fun _ => hr) (fun _ : Fin 3 => (1 : ℝ)) y t ht m
  refine ⟨_, dm, ds, mkLike_full _ _ _, h1, fun j i => ?_, fun j p q => ?_, h3⟩
  · rw [(h2 j).1, maskDiag_inv hr]
    simp only [Pi.neg_apply, Pi.smul_apply, Matrix.vecMul_diagonal, dotProduct, Fin.sum_univ_three, Pi.sub_apply, smul_eq_mul, div_eq_mul_inv]
    ring
  · rw [(h2 j).2, maskDiag_inv hr]
    simp only [Matrix.of_apply, Matrix.vecMul_diagonal, dotProduct, Fin.sum_univ_three]
    field_simp
    ring

/-! ## The hypotheses can be met -/

example := C104_energy_too_small_violated (n := 9) (r := 2) (by norm_num) (fun _ => ![1, -1, 0]) ![1, 4, 6] (by decide) (fun _ => 0) (fun _ => 1) (fun _ => Matrix.PosSemidef.one) (fun _ _ _ _ => rfl)
  (fun j => by simp [Fin.sum_univ_three]) ⟨0, fun h => by simpa using congrFun h 0⟩

example := C104_gradients_violated (n := 9) (r := 2) (by norm_num) (fun _ : Fin 2 => ![1, 2, 3]) ![1, 4] (by decide) fun _ => 0

end

end VGPA
