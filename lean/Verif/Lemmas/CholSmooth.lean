import Verif.Lemmas.Cholesky
import Verif.Lemmas.Integral
import Mathlib.Analysis.SpecialFunctions.Sqrt
import Mathlib.Analysis.Matrix.Normed
import Mathlib.Analysis.Calculus.ContDiff.Operations

/-! The Cholesky algorithm is differentiable where it succeeds, and smooth functions are Lipschitz on convex compact sets. -/

namespace VGPA

open Matrix Set

attribute [local instance] Matrix.normedAddCommGroup Matrix.normedSpace

noncomputable section

/-- The Cholesky algorithm without the tests of the pivots. -/
def cholT : (n : ℕ) → Matrix (Fin n) (Fin n) ℝ → Matrix (Fin n) (Fin n) ℝ
  | 0, _ => Matrix.of fun i => i.elim0
  | n + 1, M => Matrix.of (Fin.cons (Fin.cons (Real.sqrt (M 0 0)) (fun _ => 0))
      (fun i => Fin.cons (M i.succ 0 / Real.sqrt (M 0 0))
        (cholT n (Matrix.of fun i j => M i.succ j.succ - M i.succ 0 / Real.sqrt (M 0 0) * (M j.succ 0 / Real.sqrt (M 0 0))) i)) :
      Fin (n + 1) → Fin (n + 1) → ℝ)

theorem chol_eq_cholT : ∀ (n : ℕ) (M L : Matrix (Fin n) (Fin n) ℝ), chol n M = some L → L = cholT n M
  | 0, _, _, h => by ext i; exact i.elim0
  | n + 1, M, L, h => by
    simp only [chol] at h
    split_ifs at h with ha
    revert h
    generalize hc : chol n _ = c
    intro h
    cases c with
    | none => simp at h
    | some L' =>
      simp only [Option.some.injEq] at h
      rw [← h, chol_eq_cholT n _ L' hc]
      rfl

theorem cholT_contDiffAt {E : Type} [NormedAddCommGroup E] [NormedSpace ℝ E] : ∀ (n : ℕ) (g : E → Matrix (Fin n) (Fin n) ℝ) (x : E) (L : Matrix (Fin n) (Fin n) ℝ),
    (∀ i j, ContDiffAt ℝ 1 (fun y => g y i j) x) → chol n (g x) = some L → ∀ i j, ContDiffAt ℝ 1 (fun y => cholT n (g y) i j) x
  | 0, _, _, _, _, _ => fun i => i.elim0
  | n + 1, g, x, L, hg, h => by
    simp only [chol] at h
    split_ifs at h with ha
    have ha : 0 < g x 0 0 := not_le.1 ha
    revert h
    generalize hc : chol n _ = c
    intro h
    cases c with
    | none => simp at h
    | some L' =>
      have hr : ContDiffAt ℝ 1 (fun y => Real.sqrt (g y 0 0)) x := (hg 0 0).sqrt ha.ne'
      have hl : ∀ i : Fin n, ContDiffAt ℝ 1 (fun y => g y i.succ 0 / Real.sqrt (g y 0 0)) x := fun i =>
        (hg _ _).div hr (Real.sqrt_pos.2 ha).ne'
      have ih := cholT_contDiffAt n (fun y => Matrix.of fun i j => g y i.succ j.succ - g y i.succ 0 / Real.sqrt (g y 0 0) * (g y j.succ 0 / Real.sqrt (g y 0 0))) x L'
        (fun i j => (hg _ _).sub ((hl i).mul (hl j))) hc
      intro i j
      refine Fin.cases ?_ (fun i => ?_) i
      · refine Fin.cases ?_ (fun j => ?_) j
        · exact hr
        · exact contDiffAt_const
      · refine Fin.cases ?_ (fun j => ?_) j
        · exact hl i
        · exact ih i j

/-- A function that is continuously differentiable at every point of a convex compact set is Lipschitz there. -/
theorem lip_on_convex {E : Type} [NormedAddCommGroup E] [NormedSpace ℝ E] {q : E → ℝ} {D : Set E} (hc : IsCompact D) (hv : Convex ℝ D)
    (hq : ∀ x ∈ D, ContDiffAt ℝ 1 q x) : ∃ K, 0 ≤ K ∧ ∀ x ∈ D, ∀ y ∈ D, |q x - q y| ≤ K * ‖x - y‖ := by
  obtain ⟨K, hK⟩ := hc.exists_bound_of_continuousOn (f := fderiv ℝ q) fun x hx =>
    ((hq x hx).fderiv_right (m := 0) (by norm_num)).continuousAt.continuousWithinAt
  refine ⟨max K 0, le_max_right _ _, fun x hx y hy => ?_⟩
  exact hv.norm_image_sub_le_of_norm_fderiv_le (𝕜 := ℝ) (f := q) (C := max K 0) (x := y) (y := x)
    (fun z hz => (hq z hz).differentiableAt (by norm_num)) (fun z hz => (hK z hz).trans (le_max_left _ _)) hy hx

/-- The matrices that are symmetric with quadratic form at least `ε` on unit vectors. -/
def aboveSet (d : ℕ) (ε : ℝ) : Set (Matrix (Fin d) (Fin d) ℝ) := {S | S.IsSymm ∧ ∀ x : Fin d → ℝ, ε * (x ⬝ᵥ x) ≤ quad S x}

theorem aboveSet_posDef {d : ℕ} {ε : ℝ} (hε : 0 < ε) {S : Matrix (Fin d) (Fin d) ℝ} (h : S ∈ aboveSet d ε) : S.PosDef := by
  rw [posDef_iff_quad]
  refine ⟨h.1, fun x hx => lt_of_lt_of_le (mul_pos hε ?_) (h.2 x)⟩
  have := dotProduct_self_eq_zero.not.2 hx
  exact lt_of_le_of_ne (Finset.sum_nonneg fun i _ => mul_self_nonneg _) (Ne.symm this)

theorem aboveSet_convex (d : ℕ) (ε : ℝ) : Convex ℝ (aboveSet d ε) := by
  intro S hS T hT a b ha hb hab
  refine ⟨?_, fun x => ?_⟩
  · have h1 := hS.1
    have h2 := hT.1
    unfold Matrix.IsSymm at *
    rw [Matrix.transpose_add, Matrix.transpose_smul, Matrix.transpose_smul, h1, h2]
  · have e : quad (a • S + b • T) x = a * quad S x + b * quad T x := by
      simp only [quad, Matrix.add_apply, Matrix.smul_apply, smul_eq_mul, Finset.mul_sum, ← Finset.sum_add_distrib]
      refine Finset.sum_congr rfl fun i _ => Finset.sum_congr rfl fun j _ => by ring
    rw [e]
    have h1 := mul_le_mul_of_nonneg_left (hS.2 x) ha
    have h2 := mul_le_mul_of_nonneg_left (hT.2 x) hb
    have : ε * (x ⬝ᵥ x) = a * (ε * (x ⬝ᵥ x)) + b * (ε * (x ⬝ᵥ x)) := by rw [← add_mul, hab, one_mul]
    linarith

theorem aboveSet_closed (d : ℕ) (ε : ℝ) : IsClosed (aboveSet d ε) := by
  have e : aboveSet d ε = (⋂ i, ⋂ j, {S | S j i = S i j}) ∩ ⋂ x : Fin d → ℝ, {S | ε * (x ⬝ᵥ x) ≤ quad S x} := by
    ext S
    simp only [aboveSet, Set.mem_inter_iff, Set.mem_iInter, Set.mem_ofPred_eq, Matrix.IsSymm, ← Matrix.ext_iff, Matrix.transpose_apply]
  rw [e]
  refine IsClosed.inter (isClosed_iInter fun i => isClosed_iInter fun j => isClosed_eq ?_ ?_) (isClosed_iInter fun x => isClosed_le continuous_const ?_)
  · exact continuous_id.matrix_elem j i
  · exact continuous_id.matrix_elem i j
  · unfold quad
    exact continuous_finsetSum _ fun i _ => continuous_finsetSum _ fun j _ => (continuous_const.mul (continuous_id.matrix_elem i j)).mul continuous_const

theorem quad_le_norm {d : ℕ} (S : Matrix (Fin d) (Fin d) ℝ) (x : Fin d → ℝ) : |quad S x| ≤ d * ‖S‖ * (x ⬝ᵥ x) := by
  have h1 : |quad S x| ≤ ∑ i, ∑ j, ‖S‖ * ((x i * x i + x j * x j) / 2) := by
    refine (Finset.abs_sum_le_sum_abs _ _).trans (Finset.sum_le_sum fun i _ => (Finset.abs_sum_le_sum_abs _ _).trans (Finset.sum_le_sum fun j _ => ?_))
    have hS : |S i j| ≤ ‖S‖ := Matrix.norm_entry_le_entrywise_sup_norm S
    rw [show x i * S i j * x j = S i j * (x i * x j) by ring, abs_mul]
    refine mul_le_mul hS ?_ (abs_nonneg _) (norm_nonneg _)
    rw [abs_le]
    constructor <;> nlinarith [sq_nonneg (x i + x j), sq_nonneg (x i - x j)]
  refine h1.trans (le_of_eq ?_)
  simp only [← Finset.mul_sum, dotProduct]
  have : ∑ i, ∑ j, (x i * x i + x j * x j) / 2 = d * ∑ i, x i * x i := by
    simp only [← Finset.sum_div, Finset.sum_add_distrib, Finset.sum_const, Finset.card_univ, Fintype.card_fin, nsmul_eq_mul, ← Finset.mul_sum]
    ring
  rw [this]
  ring

/-- Near a matrix above `2 ε` the symmetric matrices are above `ε`. -/
theorem aboveSet_near {d : ℕ} {ε : ℝ} {S P : Matrix (Fin d) (Fin d) ℝ} (hS : S ∈ aboveSet d (2 * ε)) (hP : P.IsSymm) (h : d * ‖P - S‖ ≤ ε) :
    P ∈ aboveSet d ε := by
  refine ⟨hP, fun x => ?_⟩
  have e : quad P x = quad S x + quad (P - S) x := by
    simp only [quad, Matrix.sub_apply, ← Finset.sum_add_distrib]
    refine Finset.sum_congr rfl fun i _ => Finset.sum_congr rfl fun j _ => by ring
  have h1 := hS.2 x
  have h2 := (abs_le.1 (quad_le_norm (P - S) x)).1
  have h3 : d * ‖P - S‖ * (x ⬝ᵥ x) ≤ ε * (x ⬝ᵥ x) := mul_le_mul_of_nonneg_right h (Finset.sum_nonneg fun i _ => mul_self_nonneg _)
  rw [e]
  linarith

end

end VGPA
