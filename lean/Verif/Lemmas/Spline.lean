import Verif.Model.Spline
import Mathlib.Analysis.Calculus.ContDiff.Operations
import Mathlib.LinearAlgebra.Matrix.ToLinearEquiv
import Mathlib.Analysis.Calculus.ContDiff.Deriv
import Mathlib.Analysis.Calculus.Deriv.Pow
import Mathlib.Tactic.FieldSimp
import Mathlib.Tactic.LinearCombination
import Mathlib.Tactic.Linarith
import Mathlib.Tactic.IntervalCases

/-! Lemmas on the cubic spline of `Model/Spline`. -/

namespace VGPA
namespace Spline

variable {n : ℕ} {x y s : ℕ → ℝ}

/-- The knots increase. -/
def Inc (n : ℕ) (x : ℕ → ℝ) : Prop := ∀ i j, i < j → j < n → x i < x j

theorem Inc.dx_pos (h : Inc n x) {i : ℕ} (hi : i + 1 < n) : 0 < dx x i := sub_pos.2 (h i (i + 1) (Nat.lt_succ_self i) hi)

/-! ## The pieces -/

theorem piece_left (i : ℕ) : piece x y s i (x i) = y i := by simp [piece]

/-- The piece of interval `i` in powers of the distance to the right end. -/
theorem piece_right {i : ℕ} (h : dx x i ≠ 0) (t : ℝ) :
    piece x y s i t = c0 x y s i * (t - x (i + 1)) ^ 3 + (c1 x y s i + 3 * c0 x y s i * dx x i) * (t - x (i + 1)) ^ 2
      + s (i + 1) * (t - x (i + 1)) + y (i + 1) := by
  have hx : x (i + 1) = x i + dx x i := by simp [dx]
  have hs : y (i + 1) = y i + slope x y i * dx x i := by unfold slope; field_simp; ring
  rw [hs, hx]
  unfold piece c0 c1
  generalize dx x i = a at *
  generalize slope x y i = b at *
  field_simp
  ring

theorem piece_end {i : ℕ} (h : dx x i ≠ 0) : piece x y s i (x (i + 1)) = y (i + 1) := by
  rw [piece_right h]; simp

/-- The equation of an inner knot. -/
def InnerEq (x y s : ℕ → ℝ) (i : ℕ) : Prop :=
  dx x (i + 1) * s i + 2 * (dx x i + dx x (i + 1)) * s (i + 1) + dx x i * s (i + 2)
    = 3 * (dx x (i + 1) * slope x y i + dx x i * slope x y (i + 1))

/-- The equation of an inner knot says that the second derivatives of its two pieces agree there. -/
theorem innerEq_iff {i : ℕ} (h : dx x i ≠ 0) (h' : dx x (i + 1) ≠ 0) :
    InnerEq x y s i ↔ c1 x y s i + 3 * c0 x y s i * dx x i = c1 x y s (i + 1) := by
  unfold InnerEq c0 c1
  rw [show i + 1 + 1 = i + 2 from rfl]
  generalize dx x i = a at *
  generalize dx x (i + 1) = b at *
  generalize slope x y i = p at *
  generalize slope x y (i + 1) = q at *
  constructor
  · intro e
    field_simp
    linear_combination e
  · intro e
    field_simp at e
    linear_combination e

/-- Neighbouring pieces differ by a multiple of the third power of the distance to the knot. -/
theorem piece_jump {i : ℕ} (h : dx x i ≠ 0) (h' : dx x (i + 1) ≠ 0) (e : InnerEq x y s i) (t : ℝ) :
    piece x y s (i + 1) t - piece x y s i t = (c0 x y s (i + 1) - c0 x y s i) * (t - x (i + 1)) ^ 3 := by
  rw [piece_right h, (innerEq_iff h h').1 e]
  unfold piece
  ring

/-- The equation of the first row. -/
def FirstEq (x y s : ℕ → ℝ) : Prop :=
  dx x 1 * s 0 + (x 2 - x 0) * s 1
    = ((dx x 0 + 2 * (x 2 - x 0)) * dx x 1 * slope x y 0 + dx x 0 ^ 2 * slope x y 1) / (x 2 - x 0)

theorem firstEq_iff (h : 0 < dx x 0) (h' : 0 < dx x 1) (e : InnerEq x y s 0) :
    FirstEq x y s ↔ c0 x y s 0 = c0 x y s 1 := by
  have hd : x 2 - x 0 = dx x 0 + dx x 1 := by simp [dx]
  unfold FirstEq
  unfold InnerEq at e
  unfold c0
  rw [hd]
  simp only [Nat.zero_add, Nat.reduceAdd] at *
  generalize dx x 0 = a at *
  generalize dx x 1 = b at *
  generalize slope x y 0 = p at *
  generalize slope x y 1 = q at *
  have hab : a + b ≠ 0 := by positivity
  constructor
  · intro f
    field_simp at f
    field_simp
    linear_combination f - a * e
  · intro f
    field_simp at f
    field_simp
    linear_combination f + a * e

/-- The equation of the last row, `m` the number of the last but two knot. -/
def LastEq (x y s : ℕ → ℝ) (m : ℕ) : Prop :=
  dx x m * s (m + 2) + (x (m + 2) - x m) * s (m + 1)
    = (dx x (m + 1) ^ 2 * slope x y m + (2 * (x (m + 2) - x m) + dx x (m + 1)) * dx x m * slope x y (m + 1)) / (x (m + 2) - x m)

theorem lastEq_iff {m : ℕ} (h : 0 < dx x m) (h' : 0 < dx x (m + 1)) (e : InnerEq x y s m) :
    LastEq x y s m ↔ c0 x y s m = c0 x y s (m + 1) := by
  have hd : x (m + 2) - x m = dx x m + dx x (m + 1) := by simp [dx]
  unfold LastEq
  unfold InnerEq at e
  unfold c0
  rw [hd]
  rw [show m + 1 + 1 = m + 2 from rfl]
  generalize dx x m = a at *
  generalize dx x (m + 1) = b at *
  generalize slope x y m = p at *
  generalize slope x y (m + 1) = q at *
  have hab : a + b ≠ 0 := by positivity
  constructor
  · intro f
    field_simp at f
    field_simp
    linear_combination b * e - f
  · intro f
    field_simp at f
    field_simp
    linear_combination b * e - f

/-! ## The system -/

/-- The system in the equations of its rows. -/
structure Solves (m : ℕ) (x y s : ℕ → ℝ) : Prop where
  first : FirstEq x y s
  inner : ∀ i, i < m + 2 → InnerEq x y s i
  last : LastEq x y s (m + 1)

theorem sum_row (n : ℕ) (f : ℕ → ℝ) (S : Finset ℕ) (hS : ∀ j ∈ S, j < n) (h0 : ∀ j, j < n → j ∉ S → f j = 0) :
    ∑ j : Fin n, f j = ∑ j ∈ S, f j := by
  rw [Fin.sum_univ_eq_sum_range f n]
  exact (Finset.sum_subset (fun j hj => Finset.mem_range.2 (hS j hj)) fun j hj hn => h0 j (Finset.mem_range.1 hj) hn).symm

theorem row_first (m : ℕ) (x s : ℕ → ℝ) :
    ∑ j : Fin (m + 4), entry (m + 4) x 0 j * s j = dx x 1 * s 0 + (x 2 - x 0) * s 1 := by
  rw [sum_row (m + 4) (fun j => entry (m + 4) x 0 j * s j) {0, 1} (by simp) (fun j _ hn => by
    simp only [Finset.mem_insert, Finset.mem_singleton, not_or] at hn
    simp [entry, hn.1, hn.2])]
  rw [Finset.sum_pair (by decide)]
  simp [entry]

theorem row_last (m : ℕ) (x s : ℕ → ℝ) :
    ∑ j : Fin (m + 4), entry (m + 4) x (m + 3) j * s j = dx x (m + 1) * s (m + 3) + (x (m + 3) - x (m + 1)) * s (m + 2) := by
  rw [sum_row (m + 4) (fun j => entry (m + 4) x (m + 3) j * s j) {m + 3, m + 2} (by simp) (fun j _ hn => by
    simp only [Finset.mem_insert, Finset.mem_singleton, not_or] at hn
    simp [entry, hn.1, hn.2])]
  rw [Finset.sum_pair (by omega)]
  simp [entry]

theorem row_inner (n : ℕ) (x s : ℕ → ℝ) {i : ℕ} (hi : i + 2 < n) :
    ∑ j : Fin n, entry n x (i + 1) j * s j = dx x (i + 1) * s i + 2 * (dx x i + dx x (i + 1)) * s (i + 1) + dx x i * s (i + 2) := by
  have h2 : n ≠ 2 := by omega
  have h1 : i + 1 ≠ n - 1 := by omega
  rw [sum_row n (fun j => entry n x (i + 1) j * s j) {i, i + 1, i + 2} (by simp; omega) (fun j _ hn => by
    simp only [Finset.mem_insert, Finset.mem_singleton, not_or] at hn
    simp [entry, hn.1, hn.2.1, hn.2.2, h2, h1])]
  rw [Finset.sum_insert (by simp), Finset.sum_pair (by omega)]
  simp [entry, h2, h1, add_assoc]

/-- `s` solves the system of `m + 4` knots. -/
theorem solves_iff (m : ℕ) (x y s : ℕ → ℝ) :
    ((matrix (m + 4) x).mulVec fun j : Fin (m + 4) => s j) = (fun k : Fin (m + 4) => rhs (m + 4) x y k) ↔ Solves m x y s := by
  constructor
  · intro h
    have h' : ∀ i (hi : i < m + 4), ∑ j : Fin (m + 4), entry (m + 4) x i j * s j = rhs (m + 4) x y i := fun i hi => congrFun h ⟨i, hi⟩
    refine ⟨?_, fun i hi => ?_, ?_⟩
    · have := h' 0 (by omega)
      rw [row_first] at this
      unfold FirstEq
      rw [this]
      simp [rhs]
    · have := h' (i + 1) (by omega)
      rw [row_inner _ _ _ (by omega)] at this
      unfold InnerEq
      rw [this]
      simp [rhs, show i ≠ m + 2 by omega]
    · have := h' (m + 3) (by omega)
      rw [row_last] at this
      unfold LastEq
      rw [this]
      simp [rhs]
  · rintro ⟨h1, h2, h3⟩
    funext ⟨i, hi⟩
    show ∑ j : Fin (m + 4), entry (m + 4) x i j * s j = rhs (m + 4) x y i
    rcases Nat.eq_zero_or_pos i with rfl | hp
    · rw [row_first, h1]
      simp [rhs]
    · obtain ⟨k, rfl⟩ : ∃ k, i = k + 1 := ⟨i - 1, by omega⟩
      by_cases hk : k = m + 2
      · subst hk
        rw [row_last, h3]
        simp [rhs]
      · rw [row_inner _ _ _ (by omega), h2 k (by omega)]
        simp [rhs, hk]

/-- The homogeneous system has the solution zero only. -/
theorem homogeneous {m : ℕ} (hx : Inc (m + 4) x) (h1 : dx x 1 * s 0 + (x 2 - x 0) * s 1 = 0)
    (h2 : ∀ i, i < m + 2 → dx x (i + 1) * s i + 2 * (dx x i + dx x (i + 1)) * s (i + 1) + dx x i * s (i + 2) = 0)
    (h3 : dx x (m + 1) * s (m + 3) + (x (m + 3) - x (m + 1)) * s (m + 2) = 0) : ∀ i, i < m + 4 → s i = 0 := by
  have hdx : ∀ i, i + 1 < m + 4 → 0 < dx x i := fun i hi => hx.dx_pos hi
  have e1 : x 2 - x 0 = dx x 0 + dx x 1 := by simp [dx]
  have e3 : x (m + 3) - x (m + 1) = dx x (m + 1) + dx x (m + 2) := by simp [dx]
  obtain ⟨k, hk, hmax⟩ := Finset.exists_max_image (Finset.range (m + 2)) (fun i => |s (i + 1)|) ⟨0, by simp⟩
  simp only [Finset.mem_range] at hk hmax
  have bound : ∀ a b p q r : ℝ, 0 < a → 0 < b → |p| ≤ |q| → |r| ≤ |q| → b * p + 2 * (a + b) * q + a * r = 0 → q = 0 := by
    intro a b p q r ha hb hp hr e
    have e' : 2 * (a + b) * q = -(b * p + a * r) := by linarith
    have : |2 * (a + b) * q| ≤ b * |p| + a * |r| := by
      rw [e', abs_neg]
      refine (abs_add_le _ _).trans (le_of_eq ?_)
      rw [abs_mul, abs_mul, abs_of_pos ha, abs_of_pos hb]
    rw [abs_mul, abs_of_pos (by positivity : 0 < 2 * (a + b))] at this
    have : (a + b) * |q| ≤ 0 := by nlinarith
    have : |q| ≤ 0 := by
      by_contra hq
      push Not at hq
      have := mul_pos (add_pos ha hb) hq
      linarith
    exact abs_nonpos_iff.1 this
  have bound' : ∀ a b q r : ℝ, 0 < a → 0 < b → |r| ≤ |q| → (a + b) * q + a * r = 0 → q = 0 := by
    intro a b q r ha hb hr e
    have e' : (a + b) * q = -(a * r) := by linarith
    have : |(a + b) * q| = a * |r| := by rw [e', abs_neg, abs_mul, abs_of_pos ha]
    rw [abs_mul, abs_of_pos (add_pos ha hb)] at this
    have : b * |q| ≤ 0 := by nlinarith
    have : |q| ≤ 0 := by
      by_contra hq
      push Not at hq
      have := mul_pos hb hq
      linarith
    exact abs_nonpos_iff.1 this
  have hz : s (k + 1) = 0 := by
    rcases Nat.eq_zero_or_pos k with rfl | hp
    · refine bound' (dx x 0) (dx x 1) _ (s 2) (hdx 0 (by omega)) (hdx 1 (by omega)) (hmax 1 (by omega)) ?_
      have := h2 0 (by omega)
      rw [e1] at h1
      simp only [Nat.zero_add] at *
      linear_combination this - h1
    · by_cases hk' : k = m + 1
      · subst hk'
        refine bound' (dx x (m + 2)) (dx x (m + 1)) _ (s (m + 1)) (hdx _ (by omega)) (hdx _ (by omega)) (hmax m (by omega)) ?_
        have := h2 (m + 1) (by omega)
        rw [e3] at h3
        rw [show m + 1 + 1 = m + 2 from rfl, show m + 1 + 2 = m + 3 from rfl] at this
        rw [show m + 1 + 1 = m + 2 from rfl]
        linear_combination this - h3
      · obtain ⟨j, rfl⟩ : ∃ j, k = j + 1 := ⟨k - 1, by omega⟩
        exact bound (dx x (j + 1)) (dx x (j + 2)) (s (j + 1)) _ (s (j + 3)) (hdx _ (by omega)) (hdx _ (by omega)) (hmax j (by omega)) (hmax (j + 2) (by omega))
          (h2 (j + 1) (by omega))
  have hmid : ∀ i, i < m + 2 → s (i + 1) = 0 := fun i hi => by
    have := hmax i hi
    rw [hz, abs_zero] at this
    exact abs_nonpos_iff.1 this
  intro i hi
  rcases Nat.eq_zero_or_pos i with rfl | hp
  · have := hmid 0 (by omega)
    simp only [Nat.zero_add] at this
    rw [this] at h1
    simpa [(hdx 1 (by omega)).ne'] using h1
  · obtain ⟨j, rfl⟩ : ∃ j, i = j + 1 := ⟨i - 1, by omega⟩
    by_cases hj : j = m + 2
    · subst hj
      have := hmid (m + 1) (by omega)
      rw [show m + 1 + 1 = m + 2 from rfl] at this
      rw [this] at h3
      simpa [(hdx (m + 1) (by omega)).ne'] using h3
    · exact hmid j (by omega)

theorem isUnit_of_zero {N : ℕ} (M : Matrix (Fin N) (Fin N) ℝ) (h : ∀ v, M.mulVec v = 0 → v = 0) : IsUnit M.det := by
  rw [isUnit_iff_ne_zero]
  intro h0
  obtain ⟨v, hv, e⟩ := Matrix.exists_mulVec_eq_zero_iff.2 h0
  exact hv (h v e)

/-- A function on `Fin N`, continued by zero. -/
def ext {N : ℕ} (v : Fin N → ℝ) (i : ℕ) : ℝ := if h : i < N then v ⟨i, h⟩ else 0

theorem ext_val {N : ℕ} (v : Fin N → ℝ) (j : Fin N) : ext v j = v j := by simp [ext]

/-- The matrix of the system has an inverse. -/
theorem matrix_unit (h2 : 2 ≤ n) (hx : Inc n x) : IsUnit (matrix n x).det := by
  refine isUnit_of_zero _ fun v hv => ?_
  have e : ∀ i (hi : i < n), ∑ j : Fin n, entry n x i j * ext v j = 0 := fun i hi => by
    have := congrFun hv ⟨i, hi⟩
    simpa [Matrix.mulVec, dotProduct, matrix, ext_val] using this
  suffices h : ∀ i, i < n → ext v i = 0 by
    funext j
    rw [← ext_val v j]
    exact h j j.2
  obtain rfl | rfl | ⟨m, rfl⟩ : n = 2 ∨ n = 3 ∨ ∃ m, n = m + 4 := by
    rcases (show n = 2 ∨ n = 3 ∨ 4 ≤ n by omega) with h | h | h
    · exact .inl h
    · exact .inr (.inl h)
    · exact .inr (.inr ⟨n - 4, by omega⟩)
  · intro i hi
    have h0 := e 0 (by omega)
    have h1 := e 1 (by omega)
    simp [Fin.sum_univ_two, entry] at h0 h1
    interval_cases i <;> assumption
  · have h0 := e 0 (by omega)
    have h1 := e 1 (by omega)
    have h2 := e 2 (by omega)
    simp [Fin.sum_univ_three, entry] at h0 h1 h2
    have p0 := hx.dx_pos (i := 0) (by omega)
    have p1 := hx.dx_pos (i := 1) (by omega)
    have k1 : ext v 1 = 0 := by
      have : (dx x 0 + dx x 1) * ext v 1 = 0 := by linear_combination h1 - dx x 1 * h0 - dx x 0 * h2
      simpa [(add_pos p0 p1).ne'] using this
    rw [k1] at h0 h2
    intro i hi
    interval_cases i
    · simpa using h0
    · exact k1
    · simpa using h2
  · refine homogeneous hx ?_ (fun i hi => ?_) ?_
    · rw [← row_first m]; exact e 0 (by omega)
    · rw [← row_inner (m + 4) _ _ (by omega)]; exact e (i + 1) (by omega)
    · rw [← row_last m]; exact e (m + 3) (by omega)

theorem derivs_solve (h2 : 2 ≤ n) (hx : Inc n x) (y : ℕ → ℝ) :
    ((matrix n x).mulVec fun j : Fin n => derivs n x y j) = fun k : Fin n => rhs n x y k := by
  have : (fun j : Fin n => derivs n x y j) = (matrix n x)⁻¹.mulVec fun k : Fin n => rhs n x y k := by
    funext j
    simp [derivs]
  rw [this, Matrix.mulVec_mulVec, Matrix.mul_nonsing_inv _ (matrix_unit h2 hx), Matrix.one_mulVec]

theorem derivs_unique (h2 : 2 ≤ n) (hx : Inc n x) {y s : ℕ → ℝ}
    (h : ((matrix n x).mulVec fun j : Fin n => s j) = fun k : Fin n => rhs n x y k) : ∀ i, i < n → s i = derivs n x y i := by
  intro i hi
  have := congrArg ((matrix n x)⁻¹.mulVec) h
  rw [Matrix.mulVec_mulVec, Matrix.nonsing_inv_mul _ (matrix_unit h2 hx), Matrix.one_mulVec] at this
  rw [derivs, dif_pos hi]
  exact congrFun this ⟨i, hi⟩

theorem derivs_solves {m : ℕ} (hx : Inc (m + 4) x) (y : ℕ → ℝ) : Solves m x y (derivs (m + 4) x y) :=
  (solves_iff m x y _).1 (derivs_solve (by omega) hx y)

/-- With three knots: the equations. -/
theorem derivs_three (hx : Inc 3 x) (y : ℕ → ℝ) : let s := derivs 3 x y
    s 0 + s 1 = 2 * slope x y 0 ∧ InnerEq x y s 0 ∧ s 1 + s 2 = 2 * slope x y 1 := by
  intro s
  have h := derivs_solve (by omega) hx y
  have h' : ∀ i (hi : i < 3), ∑ j : Fin 3, entry 3 x i j * s j = rhs 3 x y i := fun i hi => congrFun h ⟨i, hi⟩
  have h0 := h' 0 (by omega)
  have h1 := h' 1 (by omega)
  have h2 := h' 2 (by omega)
  simp [Fin.sum_univ_three, entry, rhs] at h0 h1 h2
  exact ⟨h0, by unfold InnerEq; simpa using h1, h2⟩

theorem derivs_two (hx : Inc 2 x) (y : ℕ → ℝ) : derivs 2 x y 0 = slope x y 0 ∧ derivs 2 x y 1 = slope x y 0 := by
  have h := derivs_solve (by omega) hx y
  have h' : ∀ i (hi : i < 2), ∑ j : Fin 2, entry 2 x i j * derivs 2 x y j = rhs 2 x y i := fun i hi => congrFun h ⟨i, hi⟩
  have h0 := h' 0 (by omega)
  have h1 := h' 1 (by omega)
  simp [Fin.sum_univ_two, entry, rhs] at h0 h1
  exact ⟨h0, h1⟩

/-! ## The interval -/

theorem interval_eq (hx : Inc n x) {t : ℝ} {k : ℕ} (hk : k ≤ n - 2) (h1 : k = 0 ∨ x k ≤ t) (h2 : k = n - 2 ∨ t < x (k + 1)) :
    interval n x t = k := by
  classical
  unfold interval
  have : ((Finset.range (n - 2)).filter fun j => x (j + 1) ≤ t) = Finset.range k := by
    ext j
    simp only [Finset.mem_filter, Finset.mem_range]
    constructor
    · rintro ⟨hj, hle⟩
      by_contra hc
      rcases h2 with h2 | h2
      · omega
      · rcases (show j = k ∨ k < j by omega) with rfl | h
        · linarith
        · have := hx (k + 1) (j + 1) (by omega) (by omega)
          linarith
    · intro hj
      refine ⟨by omega, ?_⟩
      rcases h1 with h1 | h1
      · omega
      · rcases (show j + 1 = k ∨ j + 1 < k by omega) with rfl | h
        · exact h1
        · have := hx (j + 1) k h (by omega)
          linarith
  rw [this, Finset.card_range]

theorem interval_spec (hx : Inc n x) (t : ℝ) : interval n x t ≤ n - 2
    ∧ (interval n x t = 0 ∨ x (interval n x t) ≤ t) ∧ (interval n x t = n - 2 ∨ t < x (interval n x t + 1)) := by
  classical
  obtain ⟨k, hk, h1, h2⟩ : ∃ k, k ≤ n - 2 ∧ (k = 0 ∨ x k ≤ t) ∧ (k = n - 2 ∨ t < x (k + 1)) := by
    let P : ℕ → Prop := fun k => k = n - 2 ∨ t < x (k + 1)
    have hP : ∃ k, P k := ⟨n - 2, .inl rfl⟩
    refine ⟨Nat.find hP, Nat.find_le (Or.inl rfl), ?_, Nat.find_spec hP⟩
    rcases Nat.eq_zero_or_pos (Nat.find hP) with h | h
    · exact .inl h
    · right
      have := Nat.find_min hP (m := Nat.find hP - 1) (by omega)
      simp only [P, not_or, not_lt] at this
      rw [show Nat.find hP - 1 + 1 = Nat.find hP by omega] at this
      exact this.2
  rw [interval_eq hx hk h1 h2]
  exact ⟨hk, h1, h2⟩

/-- The curve on interval `i`, both ends included. -/
theorem curve_on (hx : Inc n x) {i : ℕ} (hi : i + 1 < n) {t : ℝ} (h1 : x i ≤ t) (h2 : t ≤ x (i + 1)) :
    curve n x y t = piece x y (derivs n x y) i t := by
  unfold curve
  rcases h2.lt_or_eq with h | rfl
  · rw [interval_eq hx (by omega) (.inr h1) (.inr h)]
  · by_cases hl : i = n - 2
    · rw [interval_eq hx (by omega) (.inr h1) (.inl hl)]
    · rw [interval_eq hx (k := i + 1) (by omega) (.inr le_rfl) (by
        right
        exact hx _ _ (by omega) (by omega))]
      rw [piece_left, piece_end (hx.dx_pos hi).ne']

theorem curve_left (hx : Inc n x) (h2 : 2 ≤ n) {t : ℝ} (h : t ≤ x 1) : curve n x y t = piece x y (derivs n x y) 0 t := by
  rcases h.lt_or_eq with h | rfl
  · unfold curve
    rw [interval_eq hx (by omega) (.inl rfl) (.inr h)]
  · exact curve_on hx (by omega) (hx 0 1 (by omega) (by omega)).le le_rfl

theorem curve_right (hx : Inc n x) {m : ℕ} (hn : n = m + 2) {t : ℝ} (h : x m ≤ t) : curve n x y t = piece x y (derivs n x y) m t := by
  unfold curve
  rw [interval_eq hx (by omega) (.inr h) (.inl (by omega))]

/-- The curve as a sum of truncated powers. -/
theorem curve_trunc (hx : Inc n x) (he : ∀ i, i < n - 2 → InnerEq x y (derivs n x y) i) (t : ℝ) :
    let s := derivs n x y
    curve n x y t = piece x y s 0 t + ∑ i ∈ Finset.range (n - 2), (c0 x y s (i + 1) - c0 x y s i) * max (t - x (i + 1)) 0 ^ 3 := by
  intro s
  obtain ⟨hk, h1, h2⟩ := interval_spec hx t
  unfold curve
  set k := interval n x t with hkd
  have hsum : ∑ i ∈ Finset.range (n - 2), (c0 x y s (i + 1) - c0 x y s i) * max (t - x (i + 1)) 0 ^ 3
      = ∑ i ∈ Finset.range k, (piece x y s (i + 1) t - piece x y s i t) := by
    rw [← Finset.sum_subset (Finset.range_subset_range.2 hk)]
    · refine Finset.sum_congr rfl fun i hi => ?_
      rw [Finset.mem_range] at hi
      rw [piece_jump (hx.dx_pos (by omega)).ne' (hx.dx_pos (by omega)).ne' (he i (by omega)), max_eq_left]
      rcases h1 with h1 | h1
      · omega
      · rcases (show i + 1 = k ∨ i + 1 < k by omega) with h | h
        · rw [h]; linarith
        · have := hx (i + 1) k h (by omega)
          linarith
    · intro i hi hni
      rw [Finset.mem_range] at hi hni
      rw [max_eq_right]
      · simp
      · rcases h2 with h2 | h2
        · omega
        · rcases (show i = k ∨ k < i by omega) with h | h
          · rw [h]; linarith
          · have := hx (k + 1) (i + 1) (by omega) (by omega)
            linarith
  rw [hsum, Finset.sum_range_sub (fun i => piece x y s i t)]
  ring

/-! ## Smoothness -/

theorem hasDerivAt_trunc (a : ℝ) (k : ℕ) (t : ℝ) :
    HasDerivAt (fun t => max (t - a) 0 ^ (k + 2)) ((k + 2 : ℝ) * max (t - a) 0 ^ (k + 1)) t := by
  have right : ∀ t, HasDerivAt (fun t => (t - a) ^ (k + 2)) ((k + 2 : ℝ) * (t - a) ^ (k + 1)) t := fun t => by
    have := HasDerivAt.fun_pow ((hasDerivAt_id t).sub_const a) (k + 2)
    simpa using this
  have hl : t ≤ a → HasDerivWithinAt (fun t => max (t - a) 0 ^ (k + 2)) ((k + 2 : ℝ) * max (t - a) 0 ^ (k + 1)) (Set.Iic a) t := fun h => by
    rw [max_eq_right (by linarith), zero_pow (by omega), mul_zero]
    refine (hasDerivWithinAt_const t (Set.Iic a) (0 : ℝ)).congr (fun u hu => ?_) ?_
    · rw [max_eq_right (by simpa using hu), zero_pow (by omega)]
    · rw [max_eq_right (by linarith), zero_pow (by omega)]
  have hr : a ≤ t → HasDerivWithinAt (fun t => max (t - a) 0 ^ (k + 2)) ((k + 2 : ℝ) * max (t - a) 0 ^ (k + 1)) (Set.Ici a) t := fun h => by
    rw [max_eq_left (by linarith)]
    refine (right t).hasDerivWithinAt.congr (fun u hu => ?_) ?_
    · rw [max_eq_left (by simpa using hu)]
    · rw [max_eq_left (by linarith)]
  rcases lt_trichotomy t a with h | rfl | h
  · exact (hl h.le).hasDerivAt (Iic_mem_nhds h)
  · have := (hl le_rfl).union (hr le_rfl)
    rw [Set.Iic_union_Ici] at this
    exact hasDerivWithinAt_univ.1 this
  · exact (hr h.le).hasDerivAt (Ici_mem_nhds h)

theorem contDiff_trunc (a : ℝ) : ContDiff ℝ 2 fun t => max (t - a) 0 ^ 3 := by
  have d : ∀ k : ℕ, deriv (fun t => max (t - a) 0 ^ (k + 2)) = fun t => (k + 2 : ℝ) * max (t - a) 0 ^ (k + 1) := fun k =>
    funext fun t => (hasDerivAt_trunc a k t).deriv
  have h1 : ContDiff ℝ 1 fun t => max (t - a) 0 ^ 2 := by
    rw [contDiff_one_iff_deriv]
    refine ⟨fun t => (hasDerivAt_trunc a 0 t).differentiableAt, ?_⟩
    rw [d 0]
    fun_prop
  rw [show (2 : WithTop ℕ∞) = 1 + 1 by norm_num, contDiff_succ_iff_deriv]
  refine ⟨fun t => (hasDerivAt_trunc a 1 t).differentiableAt, by simp, ?_⟩
  rw [d 1]
  exact contDiff_const.mul h1

theorem contDiff_piece (i : ℕ) : ContDiff ℝ 2 (piece x y s i) := by
  unfold piece
  fun_prop

theorem contDiff_curve (hx : Inc n x) (he : ∀ i, i < n - 2 → InnerEq x y (derivs n x y) i) : ContDiff ℝ 2 (curve n x y) := by
  rw [show curve n x y = _ from funext (curve_trunc hx he)]
  refine (contDiff_piece 0).add (ContDiff.sum fun i _ => ?_)
  exact contDiff_const.mul (contDiff_trunc _)

/-! ## Uniqueness -/

/-- The derivatives of two smooth functions that agree on an interval agree there. -/
theorem deriv_eqOn {g p : ℝ → ℝ} (hg : Continuous (deriv g)) (hp : Continuous (deriv p)) {a b : ℝ} (hab : a < b)
    (h : Set.EqOn g p (Set.Icc a b)) : Set.EqOn (deriv g) (deriv p) (Set.Icc a b) := by
  rw [← closure_Ioo hab.ne]
  refine Set.EqOn.closure (fun t ht => ?_) hg hp
  refine Filter.EventuallyEq.deriv_eq ?_
  filter_upwards [Icc_mem_nhds ht.1 ht.2] with u hu using h hu

/-- A cubic through the values and the derivatives at both ends of interval `i` is the piece. -/
theorem hermite {i : ℕ} (h : dx x i ≠ 0) {a b c d : ℝ} (v0 : a + b * x i + c * x i ^ 2 + d * x i ^ 3 = y i)
    (v1 : a + b * x (i + 1) + c * x (i + 1) ^ 2 + d * x (i + 1) ^ 3 = y (i + 1))
    (s0 : b + 2 * c * x i + 3 * d * x i ^ 2 = s i) (s1 : b + 2 * c * x (i + 1) + 3 * d * x (i + 1) ^ 2 = s (i + 1)) :
    d = c0 x y s i ∧ c + 3 * d * x i = c1 x y s i ∧ ∀ t, a + b * t + c * t ^ 2 + d * t ^ 3 = piece x y s i t := by
  have hx : x (i + 1) = x i + dx x i := by simp [dx]
  have hs : slope x y i = s i + (c + 3 * d * x i) * dx x i + d * dx x i ^ 2 := by
    unfold slope
    rw [div_eq_iff h, ← v0, ← v1, ← s0, hx]
    ring
  rw [hx] at s1
  have hd : d = c0 x y s i := by
    unfold c0
    rw [hs, ← s1, ← s0]
    field_simp
    ring
  have hc : c + 3 * d * x i = c1 x y s i := by
    unfold c1
    rw [hs, ← s1, ← s0]
    field_simp
    ring
  refine ⟨hd, hc, fun t => ?_⟩
  unfold piece
  rw [← hd, ← hc, ← s0, ← v0]
  ring

end Spline
end VGPA
