import Verif.Model.Numerics
import Verif.Lemmas.Sweep
import Mathlib.Tactic.Linarith
import Mathlib.Tactic.NormNum
import Mathlib.Tactic.FieldSimp
import Mathlib.Analysis.Calculus.ContDiff.Basic
import Mathlib.Analysis.Calculus.ContDiff.Operations
import Mathlib.Analysis.Calculus.IteratedDeriv.Defs
import Mathlib.Analysis.Calculus.MeanValue
import Mathlib.Analysis.Calculus.Deriv.Pow
import Mathlib.Analysis.Calculus.Deriv.Add
import Mathlib.Analysis.Calculus.Deriv.Mul
import Mathlib.Analysis.Calculus.Deriv.Comp

/-!
# Properties C06, C07, C08: `finite_diff` and `safe_log`
-/

namespace VGPA

/-! ## C06 -/

/-- The point `x + h e_i`. -/
def shifted {n : ℕ} (x : Fin n → ℝ) (i : Fin n) (h : ℝ) : Fin n → ℝ := Function.update x i (x i + h)

theorem add_update_zero {n : ℕ} (x : Fin n → ℝ) (i : Fin n) (h : ℝ) :
    x + Function.update (0 : Fin n → ℝ) i h = shifted x i h := by
  funext j
  by_cases hj : j = i
  · subst hj; simp [shifted]
  · simp [shifted, hj]

theorem sub_update_zero {n : ℕ} (x : Fin n → ℝ) (i : Fin n) (h : ℝ) :
    x - Function.update (0 : Fin n → ℝ) i h = shifted x i (-h) := by
  funext j
  by_cases hj : j = i
  · subst hj; simp [shifted, sub_eq_add_neg]
  · simp [shifted, hj]

theorem finiteDiff_fold {S : Type} {n : ℕ} (fn : S → (Fin n → ℝ) → Py (ℝ × S)) (f : (Fin n → ℝ) → ℝ)
    (upd : S → (Fin n → ℝ) → S) (hfn : ∀ s y, fn s y = .ok (f y, upd s y)) (x : Fin n → ℝ)
    (is : List (Fin n)) (g : Fin n → ℝ) (s : S) :
    ∃ g', is.foldlM (fdBody fn x) (g, 0, s)
      = .ok (g', 0, (is.flatMap fun i => [shifted x i deltaH, shifted x i (-deltaH)]).foldl upd s) ∧
      ∀ j, g' j = if j ∈ is then (f (shifted x j deltaH) - f (shifted x j (-deltaH))) / (2 * deltaH) else g j := by
  induction is generalizing g s with
  | nil => exact ⟨g, by simp [pure, Except.pure], by simp⟩
  | cons i is ih =>
    have e0 : Function.update (Function.update (0 : Fin n → ℝ) i deltaH) i 0 = 0 := by
      funext j; by_cases hj : j = i <;> simp [hj]
    obtain ⟨g', h1, h2⟩ := ih (Function.update g i
      (0.5 * (f (shifted x i deltaH) - f (shifted x i (-deltaH))) / deltaH))
      (upd (upd s (shifted x i deltaH)) (shifted x i (-deltaH)))
    refine ⟨g', ?_, ?_⟩
    · rw [List.foldlM_cons]
      have : fdBody fn x (g, 0, s) i = .ok (Function.update g i
          (0.5 * (f (shifted x i deltaH) - f (shifted x i (-deltaH))) / deltaH), 0,
          upd (upd s (shifted x i deltaH)) (shifted x i (-deltaH))) := by
        simp only [fdBody, hfn, py_ok_bind, py_pure, add_update_zero, sub_update_zero, e0]
      rw [this, py_ok_bind, h1]
      simp
    · intro j
      rw [h2 j]
      by_cases hji : j = i
      · subst hji
        simp only [List.mem_cons, true_or, if_true, Function.update_self]
        split_ifs
        · rfl
        · have : deltaH ≠ 0 := by norm_num [deltaH]
          field_simp
          ring
      · simp [hji]

/-- **C06 (evaluation points).** For a callable that returns `f` and updates some state at each call,
`finite_diff(fun, x)` performs exactly the calls `x + h e_i`, `x - h e_i` for `i = 0, ..., n-1` in this order
(so no perturbation is left over in the next one), and entry `i` of the result is the central difference
`(f(x + h e_i) - f(x - h e_i)) / (2 h)`, with `h = 10^-6`. -/
theorem C06_evaluation_points {S : Type} {n : ℕ} (fn : S → (Fin n → ℝ) → Py (ℝ × S)) (f : (Fin n → ℝ) → ℝ)
    (upd : S → (Fin n → ℝ) → S) (hfn : ∀ s y, fn s y = .ok (f y, upd s y)) (x : Fin n → ℝ) (s : S) :
    ∃ g, finiteDiff fn s x
        = .ok (g, ((List.finRange n).flatMap fun i => [shifted x i 1e-6, shifted x i (-1e-6)]).foldl upd s) ∧
      ∀ i, g i = (f (shifted x i 1e-6) - f (shifted x i (-1e-6))) / (2 * 1e-6) := by
  obtain ⟨g, h1, h2⟩ := finiteDiff_fold fn f upd hfn x (List.finRange n) 0 s
  have hd : deltaH = 1e-6 := by norm_num [deltaH]
  rw [hd] at h1 h2
  refine ⟨g, ?_, ?_⟩
  · unfold finiteDiff
    rw [h1]
    rfl
  · intro i
    rw [h2 i, if_pos (List.mem_finRange i)]

-- Non-vacuity: a callable that records its arguments; the recorded list is the list of points.
example (f : (Fin 2 → ℝ) → ℝ) (x : Fin 2 → ℝ) :
    ∃ g, finiteDiff (fun (log : List (Fin 2 → ℝ)) y => .ok (f y, log ++ [y])) [] x
      = .ok (g, [shifted x 0 1e-6, shifted x 0 (-1e-6), shifted x 1 1e-6, shifted x 1 (-1e-6)]) := by
  obtain ⟨g, h, _⟩ := C06_evaluation_points (fun (log : List (Fin 2 → ℝ)) y => .ok (f y, log ++ [y])) f
    (fun log y => log ++ [y]) (fun _ _ => rfl) x []
  exact ⟨g, by rw [h]; rfl⟩

/-- A callable without state. -/
def pureFn {n : ℕ} (f : (Fin n → ℝ) → ℝ) : Unit → (Fin n → ℝ) → Py (ℝ × Unit) := fun _ x => .ok (f x, ())

theorem finiteDiff_pure {n : ℕ} (f : (Fin n → ℝ) → ℝ) (x : Fin n → ℝ) (g)
    (h : finiteDiff (pureFn f) () x = .ok g) :
    ∀ i, g.1 i = (f (shifted x i 1e-6) - f (shifted x i (-1e-6))) / (2 * 1e-6) := by
  obtain ⟨g', h1, h2⟩ := C06_evaluation_points (pureFn f) f (fun _ _ => ()) (fun _ _ => rfl) x ()
  rw [h1] at h
  intro i
  rw [← Except.ok.inj h]
  exact h2 i

/-- **C06 (exact on quadratics).** If the restriction of `f` to the coordinate line through `x` in direction
`i` is a polynomial of degree at most two, entry `i` of `finite_diff(f, x)` is the exact partial derivative. -/
theorem C06_exact_on_quadratics {n : ℕ} (f : (Fin n → ℝ) → ℝ) (x : Fin n → ℝ) (g)
    (h : finiteDiff (pureFn f) () x = .ok g) (i : Fin n) (a b c : ℝ)
    (hf : ∀ t, f (Function.update x i t) = a * t ^ 2 + b * t + c) :
    HasDerivAt (fun t => f (Function.update x i t)) (g.1 i) (x i) := by
  have h1 : HasDerivAt (fun t => a * t ^ 2 + b * t + c) (a * (2 * x i) + b) (x i) := by
    have := (((hasDerivAt_pow 2 (x i)).const_mul a).add ((hasDerivAt_id (x i)).const_mul b)).add_const c
    refine this.congr_deriv ?_
    simp
  have : g.1 i = a * (2 * x i) + b := by
    rw [finiteDiff_pure f x g h i]
    simp only [shifted, hf]
    norm_num
    ring
  rw [this]
  exact h1.congr_of_eventuallyEq (by simp [hf, Filter.EventuallyEq])

-- Non-vacuity: a genuinely multivariate quadratic restricted to a coordinate line.
example : ∀ t, (fun x : Fin 2 → ℝ => 3 * x 0 ^ 2 + x 0 * x 1) (Function.update ![1, 5] 0 t)
    = 3 * t ^ 2 + 5 * t + 0 := by
  intro t; simp; ring

/-! ## C07 -/

theorem bound_step {F F' : ℝ → ℝ} {B B' : ℝ → ℝ} {h : ℝ} (hF : ∀ s ∈ Set.Icc 0 h, HasDerivAt F (F' s) s)
    (hB : ∀ s, HasDerivAt B (B' s) s) (hF0 : F 0 = 0) (hB0 : B 0 = 0)
    (hle : ∀ s ∈ Set.Icc 0 h, |F' s| ≤ B' s) : ∀ s ∈ Set.Icc 0 h, |F s| ≤ B s := by
  intro s hs
  refine image_norm_le_of_norm_deriv_right_le_deriv_boundary (f := F) (f' := F') (B := B) (B' := B')
    (a := 0) (b := h) ?_ ?_ ?_ hB ?_ hs
  · intro s hs; exact (hF s hs).continuousAt.continuousWithinAt
  · intro s hs; exact (hF s (Set.Ico_subset_Icc_self hs)).hasDerivWithinAt
  · simp [hF0, hB0]
  · intro s hs; exact hle s (Set.Ico_subset_Icc_self hs)

/-- Central differences of a function with bounded third derivative. -/
theorem central_difference_error (φ φ1 φ2 φ3 : ℝ → ℝ) (x h M : ℝ) (hh : 0 < h)
    (h1 : ∀ t ∈ Set.Icc (x - h) (x + h), HasDerivAt φ (φ1 t) t)
    (h2 : ∀ t ∈ Set.Icc (x - h) (x + h), HasDerivAt φ1 (φ2 t) t)
    (h3 : ∀ t ∈ Set.Icc (x - h) (x + h), HasDerivAt φ2 (φ3 t) t)
    (hM : ∀ t ∈ Set.Icc (x - h) (x + h), |φ3 t| ≤ M) :
    |(φ (x + h) - φ (x - h)) / (2 * h) - φ1 x| ≤ M * h ^ 2 / 6 := by
  have mp : ∀ s ∈ Set.Icc 0 h, x + s ∈ Set.Icc (x - h) (x + h) := by
    rintro s ⟨a, b⟩; constructor <;> linarith
  have mm : ∀ s ∈ Set.Icc 0 h, x - s ∈ Set.Icc (x - h) (x + h) := by
    rintro s ⟨a, b⟩; constructor <;> linarith
  have dp : ∀ (s : ℝ), HasDerivAt (fun s => x + s) 1 s := fun s => (hasDerivAt_id s).const_add x
  have dm : ∀ (s : ℝ), HasDerivAt (fun s => x - s) (-1) s := fun s => (hasDerivAt_id s).const_sub x
  have b2 := bound_step (F := fun s => φ2 (x + s) - φ2 (x - s)) (F' := fun s => φ3 (x + s) + φ3 (x - s))
    (B := fun s => 2 * M * s) (B' := fun _ => 2 * M) (h := h)
    (by
      intro s hs
      have := ((h3 _ (mp s hs)).comp s (dp s)).sub ((h3 _ (mm s hs)).comp s (dm s))
      exact this.congr_deriv (by ring))
    (by intro s; exact ((hasDerivAt_id s).const_mul (2 * M)).congr_deriv (by ring))
    (by simp) (by simp)
    (by
      intro s hs
      have := hM _ (mp s hs)
      have := hM _ (mm s hs)
      exact (abs_add_le _ _).trans (by linarith))
  have b1 := bound_step (F := fun s => φ1 (x + s) + φ1 (x - s) - 2 * φ1 x)
    (F' := fun s => φ2 (x + s) - φ2 (x - s))
    (B := fun s => M * s ^ 2) (B' := fun s => 2 * M * s) (h := h)
    (by
      intro s hs
      have := (((h2 _ (mp s hs)).comp s (dp s)).add ((h2 _ (mm s hs)).comp s (dm s))).sub_const (2 * φ1 x)
      exact this.congr_deriv (by ring))
    (by intro s; exact ((hasDerivAt_pow 2 s).const_mul M).congr_deriv (by simp; ring))
    (by simp; ring) (by simp) b2
  have b0 := bound_step (F := fun s => φ (x + s) - φ (x - s) - 2 * φ1 x * s)
    (F' := fun s => φ1 (x + s) + φ1 (x - s) - 2 * φ1 x)
    (B := fun s => M * s ^ 3 / 3) (B' := fun s => M * s ^ 2) (h := h)
    (by
      intro s hs
      have := (((h1 _ (mp s hs)).comp s (dp s)).sub ((h1 _ (mm s hs)).comp s (dm s))).sub
        ((hasDerivAt_id s).const_mul (2 * φ1 x))
      exact this.congr_deriv (by ring))
    (by intro s; exact (((hasDerivAt_pow 3 s).const_mul M).div_const 3).congr_deriv (by simp; ring))
    (by simp) (by simp) b1
  have := b0 h ⟨hh.le, le_refl _⟩
  have e : (φ (x + h) - φ (x - h)) / (2 * h) - φ1 x = (φ (x + h) - φ (x - h) - 2 * φ1 x * h) / (2 * h) := by
    field_simp
  rw [e, abs_div, abs_of_pos (by linarith : 0 < 2 * h), div_le_iff₀ (by linarith)]
  calc |φ (x + h) - φ (x - h) - 2 * φ1 x * h| ≤ M * h ^ 3 / 3 := this
    _ = M * h ^ 2 / 6 * (2 * h) := by ring

/-- **C07.** If the restriction of `f` to the coordinate line through `x` in direction `i` is three times
continuously differentiable and its third derivative is bounded by `M` on `[x_i - h, x_i + h]`, `h = 10^-6`,
then entry `i` of `finite_diff(f, x)` differs from the partial derivative by at most `M h^2 / 6`. -/
theorem C07_error_bound {n : ℕ} (f : (Fin n → ℝ) → ℝ) (x : Fin n → ℝ) (g)
    (h : finiteDiff (pureFn f) () x = .ok g) (i : Fin n) (M : ℝ)
    (hf : ContDiff ℝ 3 (fun t => f (Function.update x i t)))
    (hM : ∀ t ∈ Set.Icc (x i - 1e-6) (x i + 1e-6),
      |iteratedDeriv 3 (fun t => f (Function.update x i t)) t| ≤ M) :
    |g.1 i - deriv (fun t => f (Function.update x i t)) (x i)| ≤ M * (1e-6) ^ 2 / 6 := by
  rw [finiteDiff_pure f x g h i]
  let φ := fun t => f (Function.update x i t)
  have e : ∀ (k : ℕ), k < 3 → ∀ t, HasDerivAt (iteratedDeriv k φ) (iteratedDeriv (k + 1) φ t) t := by
    intro k hk t
    have hd : Differentiable ℝ (iteratedDeriv k φ) := hf.differentiable_iteratedDeriv k (by exact_mod_cast hk)
    rw [iteratedDeriv_succ]
    exact (hd t).hasDerivAt
  have h1 : ∀ t, HasDerivAt φ (iteratedDeriv 1 φ t) t := by
    intro t; have := e 0 (by norm_num) t; simpa using this
  have := central_difference_error φ (iteratedDeriv 1 φ) (iteratedDeriv 2 φ) (iteratedDeriv 3 φ) (x i) 1e-6 M
    (by norm_num) (fun t _ => h1 t) (fun t _ => e 1 (by norm_num) t) (fun t _ => e 2 (by norm_num) t) hM
  rw [iteratedDeriv_one] at this
  simp only [shifted]
  rw [← sub_eq_add_neg]
  exact this

-- Non-vacuity: a cubic, for which the bound is an equality in general.
example : ContDiff ℝ 3 (fun t => (fun x : Fin 1 → ℝ => x 0 ^ 3) (Function.update ![2] 0 t)) := by
  simp only [Function.update_self]
  exact contDiff_id.pow 3

/-! ## C08 -/

/-- **C08.** `safe_log` is the logarithm on `[10^-300, 10^300]`, stays within the two bounds everywhere, and
is non-decreasing. -/
theorem C08_safe_log :
    (∀ x : ℝ, 1 / 10 ^ 300 ≤ x → x ≤ 10 ^ 300 → safeLog x = Real.log x) ∧
    (∀ x : ℝ, Real.log (1 / 10 ^ 300) ≤ safeLog x ∧ safeLog x ≤ Real.log (10 ^ 300)) ∧
    Monotone safeLog := by
  have hp : (0 : ℝ) < 1 / 10 ^ 300 := by positivity
  refine ⟨?_, ?_, ?_⟩
  · intro x h1 h2
    unfold safeLog
    rw [min_eq_left h2, max_eq_left h1]
  · intro x
    constructor
    · exact Real.log_le_log hp (le_max_right _ _)
    · unfold safeLog
      apply Real.log_le_log (lt_of_lt_of_le hp (le_max_right _ _))
      apply max_le (min_le_right _ _)
      rw [div_le_iff₀ (by positivity)]
      exact one_le_mul_of_one_le_of_one_le (one_le_pow₀ (by norm_num)) (one_le_pow₀ (by norm_num))
  · intro x y hxy
    exact Real.log_le_log (lt_of_lt_of_le hp (le_max_right _ _))
      (max_le_max (min_le_min hxy le_rfl) le_rfl)

/-- The clipping is real: below the lower bound `safe_log` is constant. -/
theorem C08_clips (x : ℝ) (hx : x ≤ 1 / 10 ^ 300) : safeLog x = Real.log (1 / 10 ^ 300) := by
  unfold safeLog
  rw [max_eq_right ((min_le_left _ _).trans hx)]

end VGPA
