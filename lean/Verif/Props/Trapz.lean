import Verif.Model.Numerics
import Verif.Lemmas.Sweep
import Mathlib.Tactic.Module
import Mathlib.Tactic.Linarith
import Mathlib.Tactic.NormNum
import Mathlib.Tactic.FieldSimp
import Mathlib.Algebra.Order.BigOperators.Group.List
import Mathlib.Data.Real.Basic

/-!
# Properties C04, C05: `my_trapz`
-/

namespace VGPA

namespace Spec

/-- Textbook composite trapezoidal rule on a uniform grid:
`dx * (f_0/2 + f_1 + ... + f_{n-2} + f_{n-1}/2)`, written recursively: the first cell plus the rest. -/
noncomputable def trapezoidRule {V : Type} [AddCommGroup V] [Module ℝ V] (dx : ℝ) : List V → V
  | [] => 0
  | [_] => 0
  | x :: y :: l => (dx / 2) • (x + y) + trapezoidRule dx (y :: l)

end Spec

section
variable {V : Type} [AddCommGroup V] [Module ℝ V]

@[simp] theorem trapezoid_nil (dx : ℝ) : trapezoid dx ([] : List V) = 0 := by simp [trapezoid]
@[simp] theorem trapezoid_one (dx : ℝ) (x : V) : trapezoid dx [x] = 0 := by simp [trapezoid]

theorem trapezoid_cons (dx : ℝ) (x y : V) (l : List V) :
    trapezoid dx (x :: y :: l) = (dx / 2) • (y + x) + trapezoid dx (y :: l) := by
  simp [trapezoid]

theorem trapezoid_eq_rule (dx : ℝ) (l : List V) : trapezoid dx l = Spec.trapezoidRule dx l := by
  induction l with
  | nil => simp [Spec.trapezoidRule]
  | cons x l ih =>
    cases l with
    | nil => simp [Spec.trapezoidRule]
    | cons y l => rw [trapezoid_cons, ih, Spec.trapezoidRule, add_comm y x]

theorem trapezoid_split (dx : ℝ) (l : List V) (f : ℕ) :
    trapezoid dx (l.take (f + 1)) + trapezoid dx (l.drop f) = trapezoid dx l := by
  induction l generalizing f with
  | nil => simp
  | cons x l ih =>
    cases f with
    | zero => simp
    | succ f =>
      cases l with
      | nil => simp
      | cons y l =>
        have := ih f
        simp only [List.take_succ_cons, List.drop_succ_cons] at this ⊢
        rw [trapezoid_cons, trapezoid_cons, add_assoc, this]

theorem myTrapz_fold (fx : List V) (dx : ℝ) (obs : List ℕ) (f : ℕ) (acc : V)
    (hacc : acc = trapezoid dx (fx.take (f + 1))) (hs : (f :: obs).Pairwise (· ≤ ·)) :
    let r := obs.foldl (fun (acc : V × ℕ) l => (acc.1 + trapezoid dx (slice fx acc.2 (l + 1)), l)) (acc, f)
    r.1 = trapezoid dx (fx.take (r.2 + 1)) := by
  induction obs generalizing f acc with
  | nil => simpa using hacc
  | cons l obs ih =>
    simp only [List.foldl_cons]
    have hfl : f ≤ l := by simp at hs; exact hs.1.1
    apply ih
    · have := trapezoid_split dx (fx.take (l + 1)) f
      rw [List.take_take, min_eq_left (by omega), List.drop_take] at this
      rw [hacc, ← this]
      rfl
    · exact (List.pairwise_cons.1 hs).2

/-- **C04.** For every non-decreasing list of observation indices (empty, with repeats, with the first or last
index, or running past the end), integrating piecewise equals the textbook trapezoidal rule over the
whole series, and equals the call without observation indices. Entries may be scalars, vectors, matrices. -/
theorem C04_split_invariance (fx : List V) (dx : ℝ) (obs : List ℕ) (hs : obs.Pairwise (· ≤ ·)) :
    myTrapz fx dx (some obs) = Spec.trapezoidRule dx fx ∧ myTrapz fx dx none = Spec.trapezoidRule dx fx := by
  refine ⟨?_, trapezoid_eq_rule dx fx⟩
  rw [← trapezoid_eq_rule]
  have h := myTrapz_fold fx dx obs 0 0 (by cases fx <;> simp) (by simpa using hs)
  simp only at h
  simp only [myTrapz]
  generalize obs.foldl _ ((0 : V), 0) = r at h ⊢
  obtain ⟨tot, f⟩ := r
  simp only at h ⊢
  split_ifs with hf
  · rw [h]; exact trapezoid_split dx fx f
  · rw [h, List.take_of_length_le (by omega)]

end

-- Non-vacuity: index lists of every kind mentioned.
example : ([] : List ℕ).Pairwise (· ≤ ·) ∧ [0, 2, 2, 9].Pairwise (· ≤ ·) := by simp
example : myTrapz ([1, 3, 2, 5] : List ℝ) 2 (some [1, 1, 3]) = 16 := by
  rw [(C04_split_invariance _ _ _ (by simp)).1]; norm_num [Spec.trapezoidRule]

/-- Sortedness is needed: for a decreasing index list a cell is counted twice. -/
theorem C04_sorted_needed : myTrapz ([1, 1, 1] : List ℝ) 1 (some [2, 1]) = 3 ∧
    myTrapz ([1, 1, 1] : List ℝ) 1 none = 2 := by
  constructor <;> norm_num [myTrapz, slice, trapezoid]

/-! ## C05 -/

section
variable {V : Type} [AddCommGroup V] [Module ℝ V]

theorem rule_linear (dx α β : ℝ) : ∀ (fx gx : List V), fx.length = gx.length →
    Spec.trapezoidRule dx (List.zipWith (fun x y => α • x + β • y) fx gx)
      = α • Spec.trapezoidRule dx fx + β • Spec.trapezoidRule dx gx
  | [], [], _ => by simp [Spec.trapezoidRule]
  | [_], [_], _ => by simp [Spec.trapezoidRule]
  | x :: y :: l, x' :: y' :: l', h => by
    have ih := rule_linear dx α β (y :: l) (y' :: l') (by simpa using h)
    simp only [List.zipWith_cons_cons] at ih
    simp only [List.zipWith_cons_cons, Spec.trapezoidRule, ih]
    module
  | [], _ :: _, h => by simp at h
  | _ :: _, [], h => by simp at h
  | [_], _ :: _ :: _, h => by simp at h
  | _ :: _ :: _, [_], h => by simp at h

/-- **C05 (linear).** For integrands of equal length, any step and any non-decreasing index list. -/
theorem C05_linear (α β dx : ℝ) (fx gx : List V) (hlen : fx.length = gx.length) (obs : List ℕ)
    (hs : obs.Pairwise (· ≤ ·)) :
    myTrapz (List.zipWith (fun x y => α • x + β • y) fx gx) dx (some obs)
      = α • myTrapz fx dx (some obs) + β • myTrapz gx dx (some obs) := by
  simp only [(C04_split_invariance _ dx obs hs).1]
  exact rule_linear dx α β fx gx hlen

theorem rule_affine (dx : ℝ) (e : V) : ∀ (n : ℕ) (c : V),
    Spec.trapezoidRule dx ((List.range (n + 1)).map fun i : ℕ => c + (i : ℝ) • e)
      = (dx * n / 2) • (c + (c + (n : ℝ) • e))
  | 0, c => by simp [Spec.trapezoidRule]
  | n + 1, c => by
    have ih := rule_affine dx e n (c + e)
    have h : (List.range (n + 1 + 1)).map (fun i : ℕ => c + (i : ℝ) • e)
        = c :: (List.range (n + 1)).map (fun i : ℕ => (c + e) + (i : ℝ) • e) := by
      rw [List.range_succ_eq_map]
      simp only [List.map_cons, List.map_map, Nat.cast_zero, zero_smul, add_zero]
      congr 1
      apply List.map_congr_left
      intro i _
      simp only [Function.comp, Nat.succ_eq_add_one, Nat.cast_add, Nat.cast_one]
      module
    have h' : (List.range (n + 1)).map (fun i : ℕ => (c + e) + (i : ℝ) • e)
        = (c + e) :: (List.range n).map (fun i : ℕ => (c + e) + ((i + 1 : ℕ) : ℝ) • e) := by
      rw [List.range_succ_eq_map]
      simp [Function.comp_def]
    rw [h, h', Spec.trapezoidRule, ← h', ih]
    push_cast
    module

/-- **C05 (exact on affine data).** Integrating `n + 1 ≥ 1` samples `c, c + e, ..., c + n e` of an affine
function gives exactly `dx * n * (first + last) / 2`. -/
theorem C05_affine_exact (dx : ℝ) (n : ℕ) (c e : V) (obs : List ℕ) (hs : obs.Pairwise (· ≤ ·)) :
    myTrapz ((List.range (n + 1)).map fun i : ℕ => c + (i : ℝ) • e) dx (some obs)
      = (dx * n / 2) • (c + (c + (n : ℝ) • e)) := by
  rw [(C04_split_invariance _ dx obs hs).1, rule_affine]

end

theorem rule_nonneg (dx : ℝ) (hdx : 0 ≤ dx) : ∀ (fx : List ℝ), (∀ x ∈ fx, 0 ≤ x) →
    0 ≤ Spec.trapezoidRule dx fx
  | [], _ => le_refl _
  | [_], _ => le_refl _
  | x :: y :: l, h => by
    have ih := rule_nonneg dx hdx (y :: l) (fun z hz => h z (List.mem_cons_of_mem _ hz))
    have hx := h x (by simp)
    have hy := h y (by simp)
    simp only [Spec.trapezoidRule, smul_eq_mul]
    have : 0 ≤ dx / 2 * (x + y) := mul_nonneg (by linarith) (by linarith)
    linarith

/-- **C05 (non-negative).** -/
theorem C05_nonneg (dx : ℝ) (hdx : 0 ≤ dx) (fx : List ℝ) (h : ∀ x ∈ fx, 0 ≤ x) (obs : List ℕ)
    (hs : obs.Pairwise (· ≤ ·)) : 0 ≤ myTrapz fx dx (some obs) := by
  rw [(C04_split_invariance _ dx obs hs).1]
  exact rule_nonneg dx hdx fx h

theorem rule_mono (dx : ℝ) (hdx : 0 ≤ dx) : ∀ (fx gx : List ℝ), List.Forall₂ (· ≤ ·) fx gx →
    Spec.trapezoidRule dx fx ≤ Spec.trapezoidRule dx gx
  | _, _, .nil => le_refl _
  | _, _, .cons _ .nil => le_refl _
  | _, _, .cons (l₁ := x :: l) (l₂ := y :: l') h (.cons h' t) => by
    have ih := rule_mono dx hdx _ _ (List.Forall₂.cons h' t)
    simp only [Spec.trapezoidRule, smul_eq_mul]
    have := mul_le_mul_of_nonneg_left (add_le_add h h') (by linarith : 0 ≤ dx / 2)
    linarith

/-- **C05 (monotone).** -/
theorem C05_monotone (dx : ℝ) (hdx : 0 ≤ dx) (fx gx : List ℝ) (h : List.Forall₂ (· ≤ ·) fx gx) (obs : List ℕ)
    (hs : obs.Pairwise (· ≤ ·)) : myTrapz fx dx (some obs) ≤ myTrapz gx dx (some obs) := by
  rw [(C04_split_invariance _ dx obs hs).1, (C04_split_invariance _ dx obs hs).1]
  exact rule_mono dx hdx fx gx h

-- Non-vacuity.
example : List.Forall₂ (· ≤ ·) ([1, 2] : List ℝ) [3, 2] := by simp

end VGPA
