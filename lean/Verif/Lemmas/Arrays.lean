import Verif.Model.DoubleWell
import Verif.Props.Trapz
import Verif.Props.Moments

/-! Helper lemmas: elementwise arrays as functions on `Fin n`; the trapezoidal rule depends smoothly on its
samples; expectations of polynomials. -/

namespace VGPA

open ProbabilityTheory MeasureTheory
open scoped NNReal

theorem tab_eq_ofFn (n : ℕ) (f : ℕ → ℝ) : tab n f = List.ofFn (fun i : Fin n => f i) := by
  apply List.ext_getElem <;> simp [tab]

@[simp] theorem ent_ofFn {n : ℕ} (f : Fin n → ℝ) (i : Fin n) : ent (List.ofFn f) i = f i := by
  simp [ent]

theorem zipWith_ofFn {α β γ : Type*} {n : ℕ} (f : α → β → γ) (a : Fin n → α) (b : Fin n → β) :
    List.zipWith f (List.ofFn a) (List.ofFn b) = List.ofFn fun i => f (a i) (b i) := by
  apply List.ext_getElem <;> simp

theorem replicate_ofFn {α : Type*} (n : ℕ) (c : α) : List.replicate n c = List.ofFn (fun _ : Fin n => c) := by
  apply List.ext_getElem <;> simp

theorem myTrapz_eq_rule {V : Type} [AddCommGroup V] [Module ℝ V] (fx : List V) (dx : ℝ) (obs : Option (List ℕ))
    (hobs : ∀ l, obs = some l → l.Pairwise (· ≤ ·)) : myTrapz fx dx obs = Spec.trapezoidRule dx fx := by
  cases obs with
  | none => simp [myTrapz, trapezoid_eq_rule]
  | some l => exact (C04_split_invariance fx dx l (hobs l rfl)).1

theorem rule_smul {V : Type} [AddCommGroup V] [Module ℝ V] (dx c : ℝ) : ∀ (l : List V),
    Spec.trapezoidRule dx (l.map (c • ·)) = c • Spec.trapezoidRule dx l
  | [] => by simp [Spec.trapezoidRule]
  | [x] => by simp [Spec.trapezoidRule]
  | x :: y :: l => by
    have := rule_smul dx c (y :: l)
    simp only [List.map_cons] at this ⊢
    simp only [Spec.trapezoidRule, this]
    module

theorem rule_smul_ofFn {V : Type} [AddCommGroup V] [Module ℝ V] {n : ℕ} (dx c : ℝ) (f : Fin n → V) :
    Spec.trapezoidRule dx (List.ofFn fun i => c • f i) = c • Spec.trapezoidRule dx (List.ofFn f) := by
  rw [← rule_smul, List.map_ofFn]; rfl

theorem rule_hasDerivAt (dx : ℝ) (x : ℝ) : ∀ {n : ℕ} (f : Fin n → ℝ → ℝ) (f' : Fin n → ℝ),
    (∀ i, HasDerivAt (f i) (f' i) x) →
    HasDerivAt (fun y => Spec.trapezoidRule dx (List.ofFn fun i => f i y)) (Spec.trapezoidRule dx (List.ofFn f')) x
  | 0, f, f', _ => by simpa [Spec.trapezoidRule] using hasDerivAt_const x (0 : ℝ)
  | 1, f, f', _ => by simpa [Spec.trapezoidRule] using hasDerivAt_const x (0 : ℝ)
  | n + 2, f, f', h => by
    have ih := rule_hasDerivAt dx x (fun i : Fin (n + 1) => f i.succ) (fun i => f' i.succ) (fun i => h _)
    simp only [List.ofFn_succ, Spec.trapezoidRule] at ih ⊢
    exact (((h 0).add (h (Fin.succ 0))).const_smul (dx / 2)).add ih

/-- Expectation under the one dimensional normal law with mean `m` and variance `v ≥ 0`. -/
noncomputable def Spec.normalE (m v : ℝ) (h : ℝ → ℝ) : ℝ := ∫ x, h x ∂(gaussianReal m v.toNNReal)

theorem normalE_poly {k : ℕ} (c : Fin k → ℝ) (m v : ℝ) (hv : 0 ≤ v) :
    Spec.normalE m v (fun x => ∑ i, c i * x ^ (i : ℕ)) = ∑ i, c i * momPoly i m v := by
  unfold Spec.normalE
  rw [integral_finsetSum]
  · refine Finset.sum_congr rfl fun i _ => ?_
    rw [integral_const_mul, ← normalMoment_eq_poly _ _ _ hv]
    rfl
  · intro i _
    exact (integrable_pow_gaussianReal _ _ _).const_mul _

end VGPA
