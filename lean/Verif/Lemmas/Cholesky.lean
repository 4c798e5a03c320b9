import Verif.Model.LinAlg
import Mathlib.LinearAlgebra.Matrix.PosDef
import Mathlib.Algebra.Order.Star.Real
import Mathlib.LinearAlgebra.Matrix.Block
import Mathlib.Tactic.Ring
import Mathlib.Tactic.Linarith
import Mathlib.Tactic.FieldSimp
import Mathlib.Tactic.LinearCombination
import Mathlib.Tactic.Positivity

/-! Facts about the Cholesky algorithm. -/

namespace VGPA

open Matrix

/-- The symmetric matrix whose lower triangle is the lower triangle of `M`. -/
def symLower {n : ℕ} (M : Matrix (Fin n) (Fin n) ℝ) : Matrix (Fin n) (Fin n) ℝ :=
  Matrix.of fun i j => if j ≤ i then M i j else M j i

theorem symLower_isSymm {n : ℕ} (M : Matrix (Fin n) (Fin n) ℝ) : (symLower M).IsSymm := by
  ext i j
  simp only [Matrix.transpose_apply, symLower, Matrix.of_apply]
  rcases lt_trichotomy i j with h | h | h
  · simp [h.le, not_le.2 h]
  · subst h; rfl
  · simp [h.le, not_le.2 h]

theorem symLower_of_isSymm {n : ℕ} {M : Matrix (Fin n) (Fin n) ℝ} (h : M.IsSymm) : symLower M = M := by
  ext i j
  simp only [symLower, Matrix.of_apply]
  split_ifs
  · rfl
  · exact h.apply i j

/-- Quadratic form of a matrix. -/
def quad {n : ℕ} (M : Matrix (Fin n) (Fin n) ℝ) (x : Fin n → ℝ) : ℝ := ∑ i, ∑ j, x i * M i j * x j

theorem quad_eq {n : ℕ} (M : Matrix (Fin n) (Fin n) ℝ) (x : Fin n → ℝ) : x ⬝ᵥ (M *ᵥ x) = quad M x := by
  simp [quad, dotProduct, mulVec, Finset.mul_sum, mul_assoc]

theorem posDef_iff_quad {n : ℕ} {M : Matrix (Fin n) (Fin n) ℝ} :
    M.PosDef ↔ M.IsSymm ∧ ∀ x, x ≠ 0 → 0 < quad M x := by
  rw [posDef_iff_dotProduct_mulVec]
  simp only [star_trivial, quad_eq, Matrix.IsHermitian, Matrix.IsSymm, conjTranspose_eq_transpose_of_trivial]

/-- Completing the square with the first pivot. -/
theorem quad_pivot {n : ℕ} (M : Matrix (Fin (n + 1)) (Fin (n + 1)) ℝ) (r : ℝ) (l : Fin n → ℝ)
    (h0 : M 0 0 = r * r) (hl : ∀ i, M i.succ 0 = r * l i) (x0 : ℝ) (y : Fin n → ℝ) :
    quad (symLower M) (Fin.cons x0 y : Fin (n + 1) → ℝ)
      = (r * x0 + ∑ i, l i * y i) ^ 2
        + quad (symLower (Matrix.of fun i j => M i.succ j.succ - l i * l j)) y := by
  have e1 : ∀ j : Fin n, symLower M 0 j.succ = r * l j := by
    intro j; simp [symLower, hl]
  have e2 : ∀ j : Fin n, symLower M j.succ 0 = r * l j := by
    intro j; simp [symLower, hl]
  have e3 : ∀ i j : Fin n, symLower M i.succ j.succ
      = symLower (Matrix.of fun i j => M i.succ j.succ - l i * l j) i j + l i * l j := by
    intro i j
    simp only [symLower, Matrix.of_apply, Fin.succ_le_succ_iff]
    split_ifs <;> ring
  have e0 : symLower M 0 0 = r * r := by simp [symLower, h0]
  have sq : (∑ i, l i * y i) ^ 2 = ∑ i, ∑ j, y i * (l i * l j) * y j := by
    rw [pow_two, Finset.sum_mul_sum]
    refine Finset.sum_congr rfl fun i _ => Finset.sum_congr rfl fun j _ => by ring
  have s1 : ∑ j, x0 * (r * l j) * y j = r * x0 * ∑ j, l j * y j := by
    rw [Finset.mul_sum]; exact Finset.sum_congr rfl fun j _ => by ring
  have s2 : ∑ j, y j * (r * l j) * x0 = r * x0 * ∑ j, l j * y j := by
    rw [Finset.mul_sum]; exact Finset.sum_congr rfl fun j _ => by ring
  simp only [quad, Fin.sum_univ_succ, Fin.cons_zero, Fin.cons_succ, e0, e1, e2, e3, mul_add, add_mul,
    Finset.sum_add_distrib, s1, s2, ← sq]
  ring

theorem chol_some_of_posDef : ∀ (n : ℕ) (M : Matrix (Fin n) (Fin n) ℝ), (symLower M).PosDef →
    ∃ L, chol n M = some L
  | 0, _, _ => ⟨_, rfl⟩
  | n + 1, M, h => by
    have ha : 0 < M 0 0 := by
      have := h.diag_pos (i := 0)
      simpa [symLower] using this
    have hr : 0 < Real.sqrt (M 0 0) := Real.sqrt_pos.2 ha
    have hS : (symLower (Matrix.of fun i j : Fin n => M i.succ j.succ
        - M i.succ 0 / Real.sqrt (M 0 0) * (M j.succ 0 / Real.sqrt (M 0 0)))).PosDef := by
      rw [posDef_iff_quad] at h ⊢
      refine ⟨symLower_isSymm _, fun y hy => ?_⟩
      have q := quad_pivot M (Real.sqrt (M 0 0)) (fun i => M i.succ 0 / Real.sqrt (M 0 0))
        (Real.mul_self_sqrt ha.le).symm (fun i => by field_simp)
        (-(∑ i, M i.succ 0 / Real.sqrt (M 0 0) * y i) / Real.sqrt (M 0 0)) y
      have hx := h.2 (Fin.cons (-(∑ i, M i.succ 0 / Real.sqrt (M 0 0) * y i) / Real.sqrt (M 0 0)) y) (by
        intro h0
        apply hy
        funext i
        have := congrFun h0 i.succ
        simpa using this)
      rw [q] at hx
      have z : Real.sqrt (M 0 0) * (-(∑ i, M i.succ 0 / Real.sqrt (M 0 0) * y i) / Real.sqrt (M 0 0))
          + ∑ i, M i.succ 0 / Real.sqrt (M 0 0) * y i = 0 := by
        field_simp; ring
      rw [z] at hx
      simpa using hx
    obtain ⟨L, hL⟩ := chol_some_of_posDef n _ hS
    simp only [chol, not_le.2 ha, if_false]
    rw [hL]
    exact ⟨_, rfl⟩

/-- What a successful run of the algorithm returns. -/
theorem chol_spec : ∀ (n : ℕ) (M L : Matrix (Fin n) (Fin n) ℝ), chol n M = some L →
    L * Lᵀ = symLower M ∧ (∀ i j, i < j → L i j = 0) ∧ (∀ i, 0 < L i i) ∧ (symLower M).PosDef
  | 0, M, L, _ => by
    refine ⟨?_, fun i => i.elim0, fun i => i.elim0, ?_⟩
    · ext i; exact i.elim0
    · rw [posDef_iff_quad]
      refine ⟨symLower_isSymm _, fun x hx => ?_⟩
      exact absurd (funext fun i => i.elim0) hx
  | n + 1, M, L, h => by
    simp only [chol] at h
    split_ifs at h with ha
    have ha : 0 < M 0 0 := not_le.1 ha
    have hr : 0 < Real.sqrt (M 0 0) := Real.sqrt_pos.2 ha
    have hrr : Real.sqrt (M 0 0) * Real.sqrt (M 0 0) = M 0 0 := Real.mul_self_sqrt ha.le
    revert h
    generalize hc : chol n _ = c
    intro h
    cases c with
    | none => simp at h
    | some L' =>
      simp only [Option.some.injEq] at h
      obtain ⟨i1, i2, i3, i4⟩ := chol_spec n _ L' hc
      have L00 : L 0 0 = Real.sqrt (M 0 0) := by rw [← h]; rfl
      have L0s : ∀ j : Fin n, L 0 j.succ = 0 := by intro j; rw [← h]; rfl
      have Ls0 : ∀ i : Fin n, L i.succ 0 = M i.succ 0 / Real.sqrt (M 0 0) := by intro i; rw [← h]; rfl
      have Lss : ∀ i j : Fin n, L i.succ j.succ = L' i j := by intro i j; rw [← h]; rfl
      refine ⟨?_, ?_, ?_, ?_⟩
      · ext i j
        rw [Matrix.mul_apply, Fin.sum_univ_succ]
        simp only [Matrix.transpose_apply]
        refine Fin.cases ?_ (fun i => ?_) i
        · refine Fin.cases ?_ (fun j => ?_) j
          · simp [L00, L0s, hrr, symLower]
          · simp only [L00, L0s, Ls0, zero_mul, Finset.sum_const_zero, add_zero]
            simp only [symLower, Matrix.of_apply]
            rw [if_neg (by simp)]
            field_simp
        · refine Fin.cases ?_ (fun j => ?_) j
          · simp only [L00, L0s, Ls0, mul_zero, Finset.sum_const_zero, add_zero]
            simp only [symLower, Matrix.of_apply]
            rw [if_pos (by simp)]
            field_simp
          · have := congrFun (congrFun i1 i) j
            rw [Matrix.mul_apply] at this
            simp only [Matrix.transpose_apply] at this
            simp only [Ls0, Lss, this]
            simp only [symLower, Matrix.of_apply, Fin.succ_le_succ_iff]
            split_ifs <;> ring
      · intro i j hij
        revert hij
        refine Fin.cases ?_ (fun i => ?_) i
        · refine Fin.cases ?_ (fun j => ?_) j
          · simp
          · intro _; exact L0s j
        · refine Fin.cases ?_ (fun j => ?_) j
          · intro h; simp at h
          · intro h; rw [Lss]; exact i2 i j (Fin.succ_lt_succ_iff.1 h)
      · intro i
        refine Fin.cases ?_ (fun i => ?_) i
        · rw [L00]; exact hr
        · rw [Lss]; exact i3 i
      · rw [posDef_iff_quad] at i4 ⊢
        refine ⟨symLower_isSymm _, fun x hx => ?_⟩
        rw [← Fin.cons_self_tail x]
        rw [quad_pivot M (Real.sqrt (M 0 0)) (fun i => M i.succ 0 / Real.sqrt (M 0 0)) hrr.symm
          (fun i => by field_simp)]
        by_cases hy : Fin.tail x = 0
        · have hx0 : x 0 ≠ 0 := by
            intro h0
            apply hx
            rw [← Fin.cons_self_tail x, hy, h0]
            funext i
            refine Fin.cases rfl (fun i => rfl) i
          rw [hy]
          have : (0 : ℝ) < (Real.sqrt (M 0 0) * x 0) ^ 2 := by positivity
          simpa [quad] using this
        · have := i4.2 _ hy
          positivity

/-- Success of the algorithm is positive definiteness of the symmetrised lower triangle. -/
theorem chol_isSome_iff {n : ℕ} (M : Matrix (Fin n) (Fin n) ℝ) :
    (∃ L, chol n M = some L) ↔ (symLower M).PosDef :=
  ⟨fun ⟨L, h⟩ => (chol_spec n M L h).2.2.2, chol_some_of_posDef n M⟩

/-- The algorithm reads the lower triangle only. -/
theorem chol_lower_only : ∀ (n : ℕ) (M M' : Matrix (Fin n) (Fin n) ℝ), (∀ i j, j ≤ i → M i j = M' i j) →
    chol n M = chol n M'
  | 0, _, _, _ => rfl
  | n + 1, M, M', h => by
    have h00 := h 0 0 le_rfl
    have hs0 : ∀ i : Fin n, M i.succ 0 = M' i.succ 0 := fun i => h _ _ (Fin.zero_le _)
    simp only [chol, h00, hs0]
    split_ifs with ha
    · rfl
    · have : chol n (Matrix.of fun i j => M i.succ j.succ
            - M' i.succ 0 / Real.sqrt (M' 0 0) * (M' j.succ 0 / Real.sqrt (M' 0 0)))
          = chol n (Matrix.of fun i j => M' i.succ j.succ
            - M' i.succ 0 / Real.sqrt (M' 0 0) * (M' j.succ 0 / Real.sqrt (M' 0 0))) := by
        apply chol_lower_only
        intro i j hij
        simp only [Matrix.of_apply]
        rw [h i.succ j.succ (Fin.succ_le_succ_iff.2 hij)]
      rw [this]

theorem chol_det {n : ℕ} {M L : Matrix (Fin n) (Fin n) ℝ} (h : chol n M = some L) :
    L.det = ∏ i, L i i ∧ 0 < L.det := by
  obtain ⟨_, h2, h3, _⟩ := chol_spec n M L h
  have : L.det = ∏ i, L i i := Matrix.det_of_isLowerTriangular L (fun i j hij => h2 i j hij)
  exact ⟨this, by rw [this]; exact Finset.prod_pos fun i _ => h3 i⟩

theorem npCholesky_ok_iff {n : ℕ} (M : Matrix (Fin n) (Fin n) ℝ) :
    (∃ L, npCholesky M = .ok L) ↔ (symLower M).PosDef := by
  rw [← chol_isSome_iff]
  unfold npCholesky
  cases chol n M <;> simp

theorem npCholesky_eq_ok {n : ℕ} {M L : Matrix (Fin n) (Fin n) ℝ} :
    npCholesky M = .ok L ↔ chol n M = some L := by
  unfold npCholesky
  cases chol n M <;> simp

theorem npCholesky_err {n : ℕ} (M : Matrix (Fin n) (Fin n) ℝ) (h : ¬ (symLower M).PosDef) :
    npCholesky M = .error .linAlgError := by
  rw [← chol_isSome_iff] at h
  unfold npCholesky
  cases hc : chol n M with
  | none => rfl
  | some L => exact absurd ⟨L, hc⟩ h

end VGPA
