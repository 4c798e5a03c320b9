import Verif.Lemmas.Spline
import Verif.Props.VarGPInit
import Verif.Props.Mirror63
import Verif.Props.Shift

/-!
# C144: the starting point of the optimisation is the not-a-knot cubic spline
# C145: it stays in the range of the observations

The specification, `Spec.NotAKnot`, says which curve the cubic spline is, and not how it is computed. The theorems say that
SciPy's algorithm (`Model/Spline`) finds it, that there is no other one, and that it meets everything that the theorems
on whole runs assume about the interpolation.
-/

namespace VGPA

open Set

namespace Spec

/-- On `S` the function `f` is a polynomial of degree at most three. -/
def CubicOn (f : ℝ → ℝ) (S : Set ℝ) : Prop := ∃ a b c d : ℝ, ∀ t ∈ S, f t = a + b * t + c * t ^ 2 + d * t ^ 3

/-- `f` is a not-a-knot cubic spline through the points `(xs[i], ys[i])`: it goes through them, it is twice continuously
differentiable, it is a cubic polynomial between neighbouring knots, and it is a single one up to the third knot and a
single one from the last but two knot on. -/
structure NotAKnot (xs ys : List ℝ) (f : ℝ → ℝ) : Prop where
  through : ∀ (i : ℕ) (x y : ℝ), xs[i]? = some x → ys[i]? = some y → f x = y
  smooth : ContDiff ℝ 2 f
  cubic : ∀ (i : ℕ) (x x' : ℝ), xs[i]? = some x → xs[i + 1]? = some x' → CubicOn f (Icc x x')
  first : ∀ x : ℝ, xs[2]? = some x → CubicOn f (Iic x)
  last : ∀ x : ℝ, xs[xs.length - 3]? = some x → CubicOn f (Ici x)

end Spec

namespace Spline

variable {n : ℕ} {x y s : ℕ → ℝ}

theorem piece_cubic (x y s : ℕ → ℝ) (i : ℕ) : ∃ a b c d : ℝ, ∀ t, piece x y s i t = a + b * t + c * t ^ 2 + d * t ^ 3 :=
  ⟨y i - s i * x i + c1 x y s i * x i ^ 2 - c0 x y s i * x i ^ 3, s i - 2 * c1 x y s i * x i + 3 * c0 x y s i * x i ^ 2,
    c1 x y s i - 3 * c0 x y s i * x i, c0 x y s i, fun t => by unfold piece; ring⟩

theorem piece_congr {s s' : ℕ → ℝ} {i : ℕ} (h : s i = s' i) (h' : s (i + 1) = s' (i + 1)) (t : ℝ) : piece x y s i t = piece x y s' i t := by
  simp only [piece, c0, c1, h, h']

/-- Up to the third knot the curve is its first piece. -/
theorem curve_first {m : ℕ} (hx : Inc (m + 4) x) {t : ℝ} (h : t ≤ x 2) :
    curve (m + 4) x y t = piece x y (derivs (m + 4) x y) 0 t := by
  have hS := derivs_solves hx y
  by_cases h1 : t ≤ x 1
  · exact curve_left hx (by omega) h1
  · rw [curve_on hx (i := 1) (by omega) (by linarith) h]
    have p0 := hx.dx_pos (i := 0) (by omega)
    have p1 := hx.dx_pos (i := 1) (by omega)
    have := piece_jump p0.ne' p1.ne' (hS.inner 0 (by omega)) t
    have e := (firstEq_iff p0 p1 (hS.inner 0 (by omega))).1 hS.first
    rw [zero_add, e] at this
    linarith

/-- From the last but two knot on the curve is its last piece. -/
theorem curve_last {m : ℕ} (hx : Inc (m + 4) x) {t : ℝ} (h : x (m + 1) ≤ t) :
    curve (m + 4) x y t = piece x y (derivs (m + 4) x y) (m + 2) t := by
  have hS := derivs_solves hx y
  by_cases h1 : x (m + 2) ≤ t
  · exact curve_right hx rfl h1
  · rw [curve_on hx (i := m + 1) (by omega) h (by linarith)]
    have p0 := hx.dx_pos (i := m + 1) (by omega)
    have p1 := hx.dx_pos (i := m + 2) (by omega)
    have := piece_jump p0.ne' p1.ne' (hS.inner (m + 1) (by omega)) t
    have e := (lastEq_iff p0 p1 (hS.inner (m + 1) (by omega))).1 hS.last
    rw [show m + 1 + 1 = m + 2 from rfl] at this e
    rw [e] at this
    linarith

theorem curve_through (h2 : 2 ≤ n) (hx : Inc n x) {i : ℕ} (hi : i < n) : curve n x y (x i) = y i := by
  rcases Nat.eq_zero_or_pos i with rfl | hp
  · rw [curve_left hx h2 (hx 0 1 (by omega) (by omega)).le, piece_left]
  · obtain ⟨k, rfl⟩ : ∃ k, i = k + 1 := ⟨i - 1, by omega⟩
    rw [curve_on hx hi (hx k (k + 1) (by omega) hi).le le_rfl, piece_end (hx.dx_pos hi).ne']

theorem cubic_deriv (a b c d : ℝ) : deriv (fun t : ℝ => a + b * t + c * t ^ 2 + d * t ^ 3) = fun t => b + 2 * c * t + 3 * d * t ^ 2 := by
  funext t
  have h : HasDerivAt (fun t : ℝ => a + b * t + c * t ^ 2 + d * t ^ 3) (0 + b * 1 + c * (2 * t) + d * (3 * t ^ 2)) t := by
    have h2 : HasDerivAt (fun t : ℝ => t ^ 2) (2 * t) t := by simpa using hasDerivAt_pow 2 t
    have h3 : HasDerivAt (fun t : ℝ => t ^ 3) (3 * t ^ 2) t := by simpa using hasDerivAt_pow 3 t
    exact (((hasDerivAt_const t a).add ((hasDerivAt_id t).const_mul b)).add (h2.const_mul c)).add (h3.const_mul d)
  rw [h.deriv]
  ring

theorem quad_deriv (b c d : ℝ) : deriv (fun t : ℝ => b + 2 * c * t + 3 * d * t ^ 2) = fun t => 2 * c + 6 * d * t := by
  have := cubic_deriv b (2 * c) (3 * d) 0
  simp only [zero_mul, add_zero, mul_zero] at this
  rw [this]
  funext t
  ring

/-- What a smooth function that is a cubic on interval `i` says about the numbers of that interval. -/
theorem cubic_piece {g : ℝ → ℝ} (hg : ContDiff ℝ 2 g) {i : ℕ} (h : 0 < dx x i) (v0 : g (x i) = y i) (v1 : g (x (i + 1)) = y (i + 1))
    {a b c d : ℝ} (e : ∀ t ∈ Icc (x i) (x (i + 1)), g t = a + b * t + c * t ^ 2 + d * t ^ 3) :
    d = c0 x y (fun i => deriv g (x i)) i ∧ (∀ t, a + b * t + c * t ^ 2 + d * t ^ 3 = piece x y (fun i => deriv g (x i)) i t)
      ∧ deriv (deriv g) (x i) = 2 * c1 x y (fun i => deriv g (x i)) i
      ∧ deriv (deriv g) (x (i + 1)) = 2 * (c1 x y (fun i => deriv g (x i)) i + 3 * c0 x y (fun i => deriv g (x i)) i * dx x i) := by
  have hlt : x i < x (i + 1) := sub_pos.1 h
  have m0 : x i ∈ Icc (x i) (x (i + 1)) := ⟨le_rfl, hlt.le⟩
  have m1 : x (i + 1) ∈ Icc (x i) (x (i + 1)) := ⟨hlt.le, le_rfl⟩
  have g1 : ContDiff ℝ 1 (deriv g) := by
    have := hg
    rw [show (2 : WithTop ℕ∞) = 1 + 1 by norm_num, contDiff_succ_iff_deriv] at this
    exact this.2.2
  have g2 : Continuous (deriv (deriv g)) := (contDiff_one_iff_deriv.1 g1).2
  have d1 : EqOn (deriv g) (fun t => b + 2 * c * t + 3 * d * t ^ 2) (Icc (x i) (x (i + 1))) := by
    rw [← cubic_deriv a b c d]
    exact deriv_eqOn g1.continuous (by rw [cubic_deriv]; fun_prop) hlt e
  have d2 : EqOn (deriv (deriv g)) (fun t => 2 * c + 6 * d * t) (Icc (x i) (x (i + 1))) := by
    rw [← quad_deriv b c d]
    exact deriv_eqOn g2 (by rw [quad_deriv]; fun_prop) hlt d1
  obtain ⟨h1, h2, h3⟩ := hermite (s := fun i => deriv g (x i)) h.ne' (by rw [← e _ m0, v0]) (by rw [← e _ m1, v1]) (d1 m0).symm (d1 m1).symm
  refine ⟨h1, h3, ?_, ?_⟩
  · rw [d2 m0, ← h2]
    ring
  · rw [d2 m1, ← h2, ← h1]
    unfold dx
    ring

theorem curve_unique {m : ℕ} (hx : Inc (m + 4) x) {g : ℝ → ℝ} (hv : ∀ i, i < m + 4 → g (x i) = y i) (hg : ContDiff ℝ 2 g)
    (hc : ∀ i, i + 1 < m + 4 → Spec.CubicOn g (Icc (x i) (x (i + 1)))) (hf : Spec.CubicOn g (Iic (x 2)))
    (hl : Spec.CubicOn g (Ici (x (m + 1)))) : g = curve (m + 4) x y := by
  set s : ℕ → ℝ := fun i => deriv g (x i) with hs
  have hp : ∀ i, i + 1 < m + 4 → 0 < dx x i := fun i hi => hx.dx_pos hi
  have inner : ∀ i, i < m + 2 → InnerEq x y s i := fun i hi => by
    obtain ⟨a, b, c, d, e⟩ := hc i (by omega)
    obtain ⟨a', b', c', d', e'⟩ := hc (i + 1) (by omega)
    have k := cubic_piece hg (hp i (by omega)) (hv i (by omega)) (hv (i + 1) (by omega)) e
    have k' := cubic_piece hg (hp (i + 1) (by omega)) (hv (i + 1) (by omega)) (hv (i + 2) (by omega)) e'
    rw [innerEq_iff (hp i (by omega)).ne' (hp (i + 1) (by omega)).ne']
    have := k.2.2.2.symm.trans k'.2.2.1
    linarith
  have le : ∀ i j, i ≤ j → j < m + 4 → x i ≤ x j := fun i j hij hj => by
    rcases hij.lt_or_eq with h | rfl
    · exact (hx i j h hj).le
    · exact le_rfl
  obtain ⟨a, b, c, d, e⟩ := hf
  have f0 := cubic_piece hg (hp 0 (by omega)) (hv 0 (by omega)) (hv 1 (by omega)) fun t ht => e t (ht.2.trans (le 1 2 (by omega) (by omega)))
  have f1 := cubic_piece hg (hp 1 (by omega)) (hv 1 (by omega)) (hv 2 (by omega)) fun t ht => e t ht.2
  obtain ⟨a', b', c', d', e'⟩ := hl
  have l0 := cubic_piece hg (hp (m + 1) (by omega)) (hv (m + 1) (by omega)) (hv (m + 2) (by omega)) fun t ht => e' t ht.1
  have l1 := cubic_piece hg (hp (m + 2) (by omega)) (hv (m + 2) (by omega)) (hv (m + 3) (by omega)) fun t ht =>
    e' t ((le (m + 1) (m + 2) (by omega) (by omega)).trans ht.1)
  have hS : Solves m x y s := ⟨(firstEq_iff (hp 0 (by omega)) (hp 1 (by omega)) (inner 0 (by omega))).2 (f0.1.symm.trans f1.1), inner,
    (lastEq_iff (hp (m + 1) (by omega)) (hp (m + 2) (by omega)) (inner (m + 1) (by omega))).2 (l0.1.symm.trans l1.1)⟩
  have hd : ∀ i, i < m + 4 → s i = derivs (m + 4) x y i := derivs_unique (by omega) hx ((solves_iff m x y s).2 hS)
  funext t
  obtain ⟨hk, h1, h2⟩ := interval_spec hx t
  unfold curve
  set k := interval (m + 4) x t with hkd
  have hk' : k ≤ m + 2 := by omega
  rw [← piece_congr (hd k (by omega)) (hd (k + 1) (by omega))]
  rcases Nat.eq_zero_or_pos k with h0 | h0
  · have ht : t < x 1 := by
      rw [h0] at h2
      rcases h2 with h2 | h2
      · omega
      · simpa using h2
    rw [h0, ← f0.2.1]
    exact e t (ht.le.trans (le 1 2 (by omega) (by omega)))
  · have h1' : x k ≤ t := by
      rcases h1 with h1 | h1
      · omega
      · exact h1
    by_cases hkm : k = m + 2
    · rw [hkm, ← l1.2.1]
      rw [hkm] at h1'
      exact e' t ((le (m + 1) (m + 2) (by omega) (by omega)).trans h1')
    · have h2' : t < x (k + 1) := by
        rcases h2 with h2 | h2
        · omega
        · exact h2
      obtain ⟨a, b, c, d, e⟩ := hc k (by omega)
      have kk := cubic_piece hg (hp k (by omega)) (hv k (by omega)) (hv (k + 1) (by omega)) e
      rw [← kk.2.1]
      exact e t ⟨h1', h2'.le⟩

/-- The curve when the values are changed by an affine function and the knots are moved. -/
theorem curve_affine (h2 : 2 ≤ n) {x x' y y' : ℕ → ℝ} {α β δ : ℝ} (hx : ∀ i, i < n → x' i = x i + δ) (hy : ∀ i, i < n → y' i = α * y i + β) (t : ℝ) :
    curve n x' y' (t + δ) = α * curve n x y t + β := by
  have hdx : ∀ i, i + 1 < n → dx x' i = dx x i := fun i hi => by
    unfold dx
    rw [hx _ hi, hx i (by omega)]
    ring
  have hsl : ∀ i, i + 1 < n → slope x' y' i = α * slope x y i := fun i hi => by
    unfold slope
    rw [hdx i hi, hy _ hi, hy i (by omega)]
    ring
  have hxx : ∀ i j, i < n → j < n → x' i - x' j = x i - x j := fun i j hi hj => by
    rw [hx i hi, hx j hj]
    ring
  have hm : matrix n x' = matrix n x := by
    ext i j
    have hi := i.2
    show entry n x' i j = entry n x i j
    obtain rfl | h3 : n = 2 ∨ 3 ≤ n := by omega
    · simp [entry]
    · unfold entry
      have h4 : (i : ℕ) ≠ 0 → (i : ℕ) ≠ n - 1 → dx x' ((i : ℕ) - 1) = dx x ((i : ℕ) - 1) ∧ dx x' i = dx x i := fun h h' =>
        ⟨hdx _ (by omega), hdx _ (by omega)⟩
      rw [hdx 1 (by omega), hdx (n - 3) (by omega), hxx 2 0 (by omega) (by omega), hxx (n - 1) (n - 3) (by omega) (by omega)]
      by_cases h0 : (i : ℕ) = 0
      · simp only [h0, if_true]
      · by_cases h1 : (i : ℕ) = n - 1
        · simp only [h1, if_true]
        · rw [(h4 h0 h1).1, (h4 h0 h1).2]
  have hr : (fun k : Fin n => rhs n x' y' k) = α • fun k : Fin n => rhs n x y k := by
    funext i
    have hi := i.2
    show rhs n x' y' i = α * rhs n x y i
    obtain rfl | h3 : n = 2 ∨ 3 ≤ n := by omega
    · simp [rhs, hsl 0 (by omega)]
    · unfold rhs
      rw [hxx 2 0 (by omega) (by omega), hxx (n - 1) (n - 3) (by omega) (by omega), hsl 0 (by omega), hsl 1 (by omega), hsl (n - 3) (by omega),
        hsl (n - 2) (by omega), hdx 0 (by omega), hdx 1 (by omega), hdx (n - 3) (by omega), hdx (n - 2) (by omega)]
      by_cases h0 : (i : ℕ) = 0
      · simp only [h0, if_true]
        split_ifs <;> ring
      · by_cases h1 : (i : ℕ) = n - 1
        · simp only [h1, if_true]
          split_ifs <;> ring
        · rw [hdx i (by omega), hdx (i - 1) (by omega), hsl i (by omega), hsl (i - 1) (by omega)]
          simp only [h0, h1, if_false]
          split_ifs <;> ring
  have hd : ∀ i, i < n → derivs n x' y' i = α * derivs n x y i := fun i hi => by
    rw [derivs, derivs, dif_pos hi, dif_pos hi, hm, hr, Matrix.mulVec_smul]
    rfl
  have hi : interval n x' (t + δ) = interval n x t := by
    classical
    unfold interval
    congr 1
    refine Finset.filter_congr fun j hj => ?_
    rw [Finset.mem_range] at hj
    rw [hx _ (by omega)]
    exact add_le_add_iff_right δ
  have hk : interval n x t ≤ n - 2 := by
    classical
    unfold interval
    exact (Finset.card_filter_le _ _).trans (by simp)
  unfold curve
  rw [hi]
  set k := interval n x t
  unfold piece c0 c1
  rw [hd k (by omega), hd (k + 1) (by omega), hsl k (by omega), hdx k (by omega), hx k (by omega), hy k (by omega)]
  ring

end Spline

/-! ## From lists -/

open Spline Spec

theorem inc_of_pairwise {xs : List ℝ} (h : xs.Pairwise (· < ·)) : Inc xs.length fun i => xs.getD i 0 := by
  intro i j hij hj
  have := List.pairwise_iff_getElem.1 h i j (hij.trans hj) hj hij
  simpa [List.getD, hj, hij.trans hj] using this

theorem getD_of_some {α : Type} {l : List α} {i : ℕ} {a d : α} (h : l[i]? = some a) : i < l.length ∧ l.getD i d = a :=
  ⟨(List.getElem?_eq_some_iff.1 h).1, by simp [List.getD, h]⟩

theorem some_of_lt {l : List ℝ} {i : ℕ} (h : i < l.length) : l[i]? = some (l.getD i 0) := by simp [List.getD, h]

/-- C144: with at least four points SciPy's curve is a not-a-knot cubic spline through them, and it is the only one. -/
theorem C144_spline {xs ys : List ℝ} (hl : xs.length = ys.length) (h4 : 4 ≤ xs.length) (hp : xs.Pairwise (· < ·)) :
    Spec.NotAKnot xs ys (splineFit xs ys) ∧ ∀ g, Spec.NotAKnot xs ys g → g = splineFit xs ys := by
  have hx := inc_of_pairwise hp
  obtain ⟨m, hm⟩ : ∃ m, xs.length = m + 4 := ⟨xs.length - 4, by omega⟩
  have hfit : splineFit xs ys = curve (m + 4) (fun i => xs.getD i 0) fun i => ys.getD i 0 := by
    funext t
    rw [splineFit, if_neg (by omega), hm]
  rw [hm] at hx
  rw [hfit]
  constructor
  · refine ⟨fun i a b ha hb => ?_, ?_, fun i a b ha hb => ?_, fun a ha => ?_, fun a ha => ?_⟩
    · obtain ⟨h1, rfl⟩ := getD_of_some (d := 0) ha
      obtain ⟨-, rfl⟩ := getD_of_some (d := 0) hb
      exact Spline.curve_through (x := fun i => xs.getD i 0) (y := fun i => ys.getD i 0) (by omega) hx (by omega)
    · exact contDiff_curve hx fun i hi => (derivs_solves hx _).inner i (by omega)
    · obtain ⟨-, rfl⟩ := getD_of_some (d := 0) ha
      obtain ⟨h1, rfl⟩ := getD_of_some (d := 0) hb
      obtain ⟨a, b, c, d, e⟩ := piece_cubic (fun i => xs.getD i 0) (fun i => ys.getD i 0) (derivs (m + 4) (fun i => xs.getD i 0) fun i => ys.getD i 0) i
      exact ⟨a, b, c, d, fun t ht => by rw [← e, curve_on hx (by omega) ht.1 ht.2]⟩
    · obtain ⟨h1, rfl⟩ := getD_of_some (d := 0) ha
      obtain ⟨a, b, c, d, e⟩ := piece_cubic (fun i => xs.getD i 0) (fun i => ys.getD i 0) (derivs (m + 4) (fun i => xs.getD i 0) fun i => ys.getD i 0) 0
      exact ⟨a, b, c, d, fun t ht => by rw [← e, curve_first hx ht]⟩
    · obtain ⟨h1, rfl⟩ := getD_of_some (d := 0) ha
      rw [hm, show m + 4 - 3 = m + 1 by omega]
      obtain ⟨a, b, c, d, e⟩ := piece_cubic (fun i => xs.getD i 0) (fun i => ys.getD i 0) (derivs (m + 4) (fun i => xs.getD i 0) fun i => ys.getD i 0) (m + 2)
      exact ⟨a, b, c, d, fun t ht => by rw [← e, curve_last hx ht]⟩
  · intro g hg
    refine curve_unique hx (fun i hi => hg.through i _ _ (some_of_lt (by omega)) (some_of_lt (by omega))) hg.smooth
      (fun i hi => hg.cubic i _ _ (some_of_lt (by omega)) (some_of_lt (by omega))) (hg.first _ (some_of_lt (by omega))) ?_
    have := hg.last (xs.getD (m + 1) 0) (by rw [hm]; exact some_of_lt (by omega))
    exact this

/-- C144 with three points, which is one observation inside the window: the curve is the parabola through them. -/
theorem C144_parabola {x0 x1 x2 : ℝ} (h0 : x0 < x1) (h1 : x1 < x2) (y0 y1 y2 : ℝ) :
    (∃ a b c : ℝ, (∀ t, splineFit [x0, x1, x2] [y0, y1, y2] t = a + b * t + c * t ^ 2)
      ∧ a + b * x0 + c * x0 ^ 2 = y0 ∧ a + b * x1 + c * x1 ^ 2 = y1 ∧ a + b * x2 + c * x2 ^ 2 = y2)
    ∧ ∀ a b c : ℝ, a + b * x0 + c * x0 ^ 2 = y0 → a + b * x1 + c * x1 ^ 2 = y1 → a + b * x2 + c * x2 ^ 2 = y2 →
      ∀ t, splineFit [x0, x1, x2] [y0, y1, y2] t = a + b * t + c * t ^ 2 := by
  set x : ℕ → ℝ := fun i => [x0, x1, x2].getD i 0 with hxd
  set y : ℕ → ℝ := fun i => [y0, y1, y2].getD i 0 with hyd
  have hx : Inc 3 x := inc_of_pairwise (xs := [x0, x1, x2]) (by simp [h0, h1, h0.trans h1])
  obtain ⟨e0, e1, e2⟩ := derivs_three hx y
  set s := derivs 3 x y with hs
  have p0 := hx.dx_pos (i := 0) (by omega)
  have p1 := hx.dx_pos (i := 1) (by omega)
  have z0 : c0 x y s 0 = 0 := by unfold c0; rw [zero_add, e0]; simp
  have z1 : c0 x y s 1 = 0 := by unfold c0; rw [show 1 + 1 = 2 from rfl, e2]; simp
  have hc : ∀ t, splineFit [x0, x1, x2] [y0, y1, y2] t = piece x y s 0 t := fun t => by
    rw [splineFit, if_neg (by simp)]
    show curve 3 x y t = _
    rw [curve_trunc hx (fun i hi => by rw [show i = 0 by omega]; exact e1)]
    simp [z0, z1, ← hs]
  have hq : ∀ t, splineFit [x0, x1, x2] [y0, y1, y2] t = (y0 - s 0 * x0 + c1 x y s 0 * x0 ^ 2) + (s 0 - 2 * c1 x y s 0 * x0) * t + c1 x y s 0 * t ^ 2 := fun t => by
    rw [hc]
    unfold piece
    rw [z0, show x 0 = x0 from rfl, show y 0 = y0 from rfl]
    ring
  have v : ∀ i, i < 3 → splineFit [x0, x1, x2] [y0, y1, y2] (x i) = y i := fun i hi => by
    rw [splineFit, if_neg (by simp)]
    exact Spline.curve_through (n := 3) (by omega) hx hi
  have v0 : splineFit [x0, x1, x2] [y0, y1, y2] x0 = y0 := v 0 (by omega)
  have v1 : splineFit [x0, x1, x2] [y0, y1, y2] x1 = y1 := v 1 (by omega)
  have v2 : splineFit [x0, x1, x2] [y0, y1, y2] x2 = y2 := v 2 (by omega)
  refine ⟨⟨_, _, _, hq, by rw [← hq, v0], by rw [← hq, v1], by rw [← hq, v2]⟩, fun a b c ha hb hcc t => ?_⟩
  rw [hq] at v0 v1 v2 ⊢
  generalize y0 - s 0 * x0 + c1 x y s 0 * x0 ^ 2 = A at *
  generalize s 0 - 2 * c1 x y s 0 * x0 = B at *
  generalize c1 x y s 0 = C at *
  have d1 : (B - b) + (C - c) * (x0 + x1) = 0 := by
    have : (x1 - x0) * ((B - b) + (C - c) * (x0 + x1)) = 0 := by linear_combination v1 - v0 + ha - hb
    simpa [(sub_pos.2 h0).ne'] using this
  have d2 : (B - b) + (C - c) * (x1 + x2) = 0 := by
    have : (x2 - x1) * ((B - b) + (C - c) * (x1 + x2)) = 0 := by linear_combination v2 - v1 + hb - hcc
    simpa [(sub_pos.2 h1).ne'] using this
  have d3 : C - c = 0 := by
    have : (x2 - x0) * (C - c) = 0 := by linear_combination d2 - d1
    simpa [(sub_pos.2 (h0.trans h1)).ne'] using this
  have d4 : B - b = 0 := by linear_combination d1 - (x0 + x1) * d3
  linear_combination v0 - ha + (t - x0) * d4 + (t ^ 2 - x0 ^ 2) * d3

/-- C144: the system that SciPy solves is never singular, so that `CubicSpline` does not raise `LinAlgError`. -/
theorem C144_solvable {xs : List ℝ} (h2 : 2 ≤ xs.length) (hp : xs.Pairwise (· < ·)) :
    (Spline.matrix xs.length fun i => xs.getD i 0).det ≠ 0 :=
  isUnit_iff_ne_zero.1 (matrix_unit h2 (inc_of_pairwise hp))

/-- C144: data on a cubic polynomial are reproduced, between the points and outside. -/
theorem C144_cubic_data {xs : List ℝ} (h4 : 4 ≤ xs.length) (hp : xs.Pairwise (· < ·)) (a b c d t : ℝ) :
    splineFit xs (xs.map fun t => a + b * t + c * t ^ 2 + d * t ^ 3) t = a + b * t + c * t ^ 2 + d * t ^ 3 := by
  have h := (C144_spline (ys := xs.map fun t => a + b * t + c * t ^ 2 + d * t ^ 3) (by simp) h4 hp).2 (fun t => a + b * t + c * t ^ 2 + d * t ^ 3)
    ⟨fun i x y hx hy => by
      rw [List.getElem?_map, hx] at hy
      simpa using hy, by fun_prop, fun _ _ _ _ _ => ⟨a, b, c, d, fun _ _ => rfl⟩, fun _ _ => ⟨a, b, c, d, fun _ _ => rfl⟩, fun _ _ => ⟨a, b, c, d, fun _ _ => rfl⟩⟩
  exact (congrFun h t).symm

theorem getD_map_lt (f : ℝ → ℝ) (l : List ℝ) {i : ℕ} (h : i < l.length) : (l.map f).getD i 0 = f (l.getD i 0) := by
  simp [List.getD, h]

/-- C144: other units and another origin of the observations and another origin of time change the curve accordingly. -/
theorem C144_affine {xs ys : List ℝ} (hl : xs.length = ys.length) (h2 : 2 ≤ xs.length) (α β δ t : ℝ) :
    splineFit (xs.map (· + δ)) (ys.map (α * · + β)) (t + δ) = α * splineFit xs ys t + β := by
  rw [splineFit, splineFit, if_neg (by rw [List.length_map]; omega), if_neg (by omega), List.length_map]
  exact curve_affine h2 (fun i hi => getD_map_lt (· + δ) xs hi) (fun i hi => getD_map_lt (α * · + β) ys (by omega)) t

/-! ## What the theorems on whole runs assume -/

theorem splineFit_neg (xs ys : List ℝ) (t : ℝ) : splineFit xs (ys.map fun y => -y) t = -splineFit xs ys t := by
  unfold splineFit
  split_ifs with h
  · simp
  · have := curve_affine (n := xs.length) (by omega) (x := fun i => xs.getD i 0) (x' := fun i => xs.getD i 0) (y := fun i => ys.getD i 0)
      (y' := fun i => (ys.map fun y => -y).getD i 0) (α := -1) (β := 0) (δ := 0) (fun i _ => by simp) (fun i _ => by
        simp only [List.getD, List.getElem?_map]
        cases ys[i]? <;> simp) t
    simpa using this

theorem splineFit_later (c : ℝ) (xs ys : List ℝ) (t : ℝ) : splineFit (xs.map (· + c)) ys (t + c) = splineFit xs ys t := by
  unfold splineFit
  rw [List.length_map]
  split_ifs with h
  · rfl
  · have := curve_affine (n := xs.length) (by omega) (x := fun i => xs.getD i 0) (x' := fun i => (xs.map (· + c)).getD i 0) (y := fun i => ys.getD i 0)
      (y' := fun i => ys.getD i 0) (α := 1) (β := 0) (δ := c) (fun i hi => getD_map_lt (· + c) xs hi) (fun i _ => by simp) t
    simpa using this

theorem splineFit_through (xs ys : List ℝ) (hl : xs.length = ys.length) (h2 : 2 ≤ xs.length) (hp : xs.Pairwise (· < ·))
    (i : ℕ) (a b : ℝ) (ha : xs[i]? = some a) (hb : ys[i]? = some b) : splineFit xs ys a = b := by
  obtain ⟨h1, rfl⟩ := getD_of_some (d := 0) ha
  obtain ⟨-, rfl⟩ := getD_of_some (d := 0) hb
  rw [splineFit, if_neg (by omega)]
  exact Spline.curve_through (x := fun i => xs.getD i 0) (y := fun i => ys.getD i 0) h2 (inc_of_pairwise hp) h1

attribute [local irreducible] splineFit

/-- C144: SciPy's spline interpolates, for numbers and for vectors: the hypothesis of the theorems of C62, C85 and C125. -/
theorem C144_interpolates : Spec.Interpolates splineFit ∧ ∀ d, Spec.Interpolates (splineFitN d) := by
  refine ⟨splineFit_through, fun d => ?_⟩
  intro xs ys hl h2 hp i a b ha hb
  funext p
  have hb' : (ys.map fun v => v p)[i]? = some (b p) := by rw [List.getElem?_map, hb]; rfl
  exact splineFit_through xs (ys.map fun v => v p) (by rw [List.length_map]; exact hl) h2 hp i a (b p) ha hb'

theorem splineFitN_later (c : ℝ) (d : ℕ) (xs : List ℝ) (ys : List (Fin d → ℝ)) (t : ℝ) :
    splineFitN d (xs.map (· + c)) ys (t + c) = splineFitN d xs ys t := by
  funext p
  unfold splineFitN
  exact splineFit_later c xs (ys.map fun v => v p) t

/-- The environment with SciPy's spline. -/
noncomputable def splineEnv {G : Type} (E : Env G) : Env G := { E with fit1 := splineFit, fitN := splineFitN }

theorem splineEnv_shifts {G : Type} (E : Env G) (c : ℝ) : Spec.FitShifts (splineEnv E) c :=
  ⟨fun xs ys t => splineFit_later c xs ys t, fun d xs ys t => splineFitN_later c d xs ys t⟩

theorem splineFitN_turn (xs : List ℝ) (ys : List (Fin 3 → ℝ)) (t : ℝ) : splineFitN 3 xs (ys.map turnV) t = turnV (splineFitN 3 xs ys t) := by
  have e : ∀ q : Fin 3, (ys.map turnV).map (fun v => v q) = ys.map fun v => turnV v q := fun q => by rw [List.map_map]; rfl
  have neg : ∀ q : Fin 3, splineFit xs (ys.map fun v => -v q) t = -splineFit xs (ys.map fun v => v q) t := fun q => by
    rw [← splineFit_neg, List.map_map]
    rfl
  funext p
  unfold splineFitN
  rw [e p]
  match p with
  | 0 => exact neg 0
  | 1 => exact neg 1
  | 2 => rfl

/-- C134 with SciPy's spline: a window that is later by `c` gives the same outcome and output of `setup` and `run`. -/
theorem C134_origin_of_time_spline {G : Type} (E : Env G) (c : ℝ) (params params' : Json) (h : Spec.LaterParams c params params')
    (data : Option (Data Arr)) (s : Sim (AnyProc G) Arr) :
    let r := s.setup (pyClasses (splineEnv E)) params data
    let r' := s.setup (pyClasses (splineEnv E)) params' data
    r'.1 = r.1 ∧ (r'.2.run (pyClasses (splineEnv E))).1 = (r.2.run (pyClasses (splineEnv E))).1
      ∧ (r'.2.run (pyClasses (splineEnv E))).2.output = (r.2.run (pyClasses (splineEnv E))).2.output :=
  have := C134_origin_of_time (splineEnv E) (splineEnv_shifts E) c params params' h data s
  ⟨this.1, this.2.2⟩

/-- C127 with SciPy's spline: the reflected problem starts at the reflected parameters. -/
theorem C127_start_spline {G : Type} (E : Env G) :
    (∀ {o o' : VarGP ℝ ℝ}, Reflected G o o' →
      AnyVgp.initialization (splineEnv E) (.one o') = (AnyVgp.initialization (splineEnv E) (.one o)).map (mirror o.dim_n))
    ∧ ∀ {o o' : VarGP (Fin 3 → ℝ) (Matrix (Fin 3) (Fin 3) ℝ)}, Turned G o o' →
      AnyVgp.initialization (splineEnv E) (.many 3 o') = (AnyVgp.initialization (splineEnv E) (.many 3 o)).map (turnParams o.dim_n) :=
  ⟨fun h => (C127_estimate_1d (splineEnv E) splineFit_neg h).1, fun h => (C127_estimate_63 (splineEnv E) splineFitN_turn h).1⟩

/-! ## `initialization` -/

variable {N k d : ℕ}

/-- The knots of `initialization`: first time, times of the observations, last time. -/
def Spec.knots (tw : Fin (N + 1) → ℝ) (t : Fin (k + 1) → Fin (N + 1)) : List ℝ := tw 0 :: ((List.ofFn fun j => tw (t j)) ++ [tw (Fin.last N)])

/-- The values at these knots: the first and the last observation twice. -/
def Spec.knotValues (y : Fin (k + 1) → ℝ) : List ℝ := y 0 :: (List.ofFn y ++ [y (Fin.last k)])

/-- C144 for a one dimensional process with at least two observations inside the window: `initialization` returns the constant
`2 Σ` and the values, on the whole window, of the not-a-knot spline through the observations, of which the first and the last one are repeated at the
ends of the window; there is one such spline. -/
theorem C144_initialization_1d {o : VarGP ℝ ℝ} {tw : Fin (N + 1) → ℝ} {t : Fin (k + 1) → Fin (N + 1)} {y : Fin (k + 1) → ℝ}
    (h : Spec.HasData o tw t y) (hj : ∀ j, 0 < t j ∧ t j < Fin.last N) (hk : 1 ≤ k) :
    ∃! c : ℝ → ℝ, Spec.NotAKnot (Spec.knots tw t) (Spec.knotValues y) c
      ∧ o.initialization1 splineFit = .ok ((List.ofFn fun _ : Fin (N + 1) => 2 * o.model.sigma) ++ List.ofFn fun i => c (tw i)) := by
  have hp := (abscissae_increasing h.mono h.increasing).2 hj
  obtain ⟨h1, h2⟩ := C144_spline (xs := Spec.knots tw t) (ys := Spec.knotValues y) (by simp [Spec.knots, Spec.knotValues])
    (by simp [Spec.knots]; omega) hp
  exact ⟨splineFit (Spec.knots tw t) (Spec.knotValues y), ⟨h1, (init1_eq h splineFit).1 hj⟩, fun g hg => h2 g hg.1⟩

/-- C144 for several dimensions: every component of the mean from which `initialization` computes the parameters is the
not-a-knot spline through that component of the observations. -/
theorem C144_initialization_nd {o : VarGP (Fin d → ℝ) (Matrix (Fin d) (Fin d) ℝ)} {tw : Fin (N + 1) → ℝ} {t : Fin (k + 1) → Fin (N + 1)}
    {y : Fin (k + 1) → Fin d → ℝ} (h : Spec.HasData o tw t y) (hj : ∀ j, 0 < t j ∧ t j < Fin.last N) (hk : 1 ≤ k) :
    ∃! c : ℝ → Fin d → ℝ, (∀ p, Spec.NotAKnot (Spec.knots tw t) (Spec.knotValues fun j => y j p) fun u => c u p)
      ∧ ∃ b : Fin (N + 1) → Fin d → ℝ,
        o.initializationN (splineFitN d) = .ok (ravel3 (List.ofFn fun _ : Fin (N + 1) => Matrix.diagonal fun i => 2 * o.model.sigma i i) ++ ravel2 (List.ofFn b))
        ∧ (∀ (i : Fin N) (p : Fin d), b i.castSucc p = (c (tw i.succ) p - c (tw i.castSucc) p) / o.dt + 2 * o.model.sigma p p * c (tw i.castSucc) p)
        ∧ ∀ p : Fin d, b (Fin.last N) p = 2 * o.model.sigma p p * c (tw (Fin.last N)) p := by
  have hp := (abscissae_increasing h.mono h.increasing).2 hj
  have hs := fun p => C144_spline (xs := Spec.knots tw t) (ys := Spec.knotValues fun j => y j p) (by simp [Spec.knots, Spec.knotValues])
    (by simp [Spec.knots]; omega) hp
  have hc : ∀ u p, splineFitN d (Spec.knots tw t) (y 0 :: (List.ofFn y ++ [y (Fin.last k)])) u p = splineFit (Spec.knots tw t) (Spec.knotValues fun j => y j p) u := by
    intro u p
    simp [splineFitN, Spec.knotValues, List.map_ofFn, Function.comp_def]
  obtain ⟨b, e1, e2, e3⟩ := (initN_eq h (splineFitN d)).1 hj
  refine ⟨fun u p => splineFit (Spec.knots tw t) (Spec.knotValues fun j => y j p) u, ⟨fun p => (hs p).1, b, e1, fun i p => ?_, fun p => ?_⟩, fun g hg => ?_⟩
  · simp only [← hc]
    rw [div_eq_inv_mul]
    exact e2 i p
  · simp only [← hc]
    exact e3 p
  · funext u p
    exact congrFun ((hs p).2 _ (hg.1 p)) u

/-! ## C145 -/

theorem splineFit_const {xs : List ℝ} (h2 : 2 ≤ xs.length) (v t : ℝ) : splineFit xs (List.replicate xs.length v) t = v := by
  have := C144_affine (xs := xs) (ys := List.replicate xs.length 0) (by simp) h2 0 v 0 t
  simpa using this

/-- C145, the part that holds: if all observations are equal, in particular if there is only one, the offsets that
`initialization` returns are equal to them. Missing: with different observations the offsets leave their range, see `C145_violated`. -/
theorem C145_partial {o : VarGP ℝ ℝ} {tw : Fin (N + 1) → ℝ} {t : Fin (k + 1) → Fin (N + 1)} {v : ℝ}
    (h : Spec.HasData o tw t fun _ => v) (hj : ∀ j, 0 < t j ∧ t j < Fin.last N) :
    o.initialization1 splineFit = .ok ((List.ofFn fun _ : Fin (N + 1) => 2 * o.model.sigma) ++ List.ofFn fun _ : Fin (N + 1) => v) := by
  rw [(init1_eq h splineFit).1 hj]
  congr 3
  funext i
  have := splineFit_const (xs := Spec.knots tw t) (by simp [Spec.knots]) v (tw i)
  have e : v :: ((List.ofFn fun _ : Fin (k + 1) => v) ++ [v]) = List.replicate (Spec.knots tw t).length v := by
    rw [List.ofFn_const, show [v] = List.replicate 1 v from rfl, List.replicate_append_replicate]
    simp [Spec.knots, List.replicate_succ]
  rw [e]
  exact this

/-- C145 fails: with the observations `0` and `1` at the times `1` and `2` of the window `0, 1/2, 1, ..., 3`, the offset at the time `1/2` is `-1/4`, and
at the time `5/2` it is `5/4`. -/
theorem C145_violated {o : VarGP ℝ ℝ} (h : Spec.HasData (N := 6) (k := 1) o (fun i => (i : ℝ) / 2) ![2, 4] ![0, 1]) :
    ∃ b : Fin 7 → ℝ, o.initialization1 splineFit = .ok ((List.ofFn fun _ : Fin 7 => 2 * o.model.sigma) ++ List.ofFn b) ∧ b 1 = -1 / 4 ∧ b 5 = 5 / 4 := by
  have hj : ∀ j, 0 < (![2, 4] : Fin 2 → Fin 7) j ∧ (![2, 4] : Fin 2 → Fin 7) j < Fin.last 6 := by decide
  refine ⟨_, (init1_eq h splineFit).1 hj, ?_⟩
  have e : ∀ u, splineFit ((((0 : Fin 7) : ℕ) : ℝ) / 2 :: ((List.ofFn fun j : Fin 2 => (((![2, 4] : Fin 2 → Fin 7) j : ℕ) : ℝ) / 2) ++ [((Fin.last 6 : ℕ) : ℝ) / 2]))
      ((![0, 1] : Fin 2 → ℝ) 0 :: (List.ofFn (![0, 1] : Fin 2 → ℝ) ++ [(![0, 1] : Fin 2 → ℝ) (Fin.last 1)])) u
        = 0 + (-7 / 6) * u + 3 / 2 * u ^ 2 + (-1 / 3) * u ^ 3 := by
    intro u
    have hx : ((((0 : Fin 7) : ℕ) : ℝ) / 2 :: ((List.ofFn fun j : Fin 2 => (((![2, 4] : Fin 2 → Fin 7) j : ℕ) : ℝ) / 2) ++ [((Fin.last 6 : ℕ) : ℝ) / 2])) = [0, 1, 2, 3] := by
      simp [List.ofFn_succ]
      norm_num
    have hy : ((![0, 1] : Fin 2 → ℝ) 0 :: (List.ofFn (![0, 1] : Fin 2 → ℝ) ++ [(![0, 1] : Fin 2 → ℝ) (Fin.last 1)]))
        = [(0 : ℝ), 1, 2, 3].map fun t => 0 + (-7 / 6) * t + 3 / 2 * t ^ 2 + (-1 / 3) * t ^ 3 := by
      simp [List.ofFn_succ]
      norm_num
    rw [hx, hy]
    exact C144_cubic_data (by simp) (by norm_num) _ _ _ _ u
  constructor
  · rw [e]
    norm_num
  · rw [e]
    norm_num

/-! ## The hypotheses are met -/

/-- A double well with two observations in a window of seven points. -/
noncomputable def splineObj : VarGP ℝ ℝ := { vgpObj vgpDW.sde .euler with
  model := { vgpDW.sde with time_window := .ok (List.ofFn fun i : Fin (6 + 1) => ((i : ℕ) : ℝ) / 2) }
  dim_n := 7, obs_t := [2, 4], obs_y := [0, 1], dt := 1 / 2 }

theorem splineObj_data : Spec.HasData (N := 6) (k := 1) splineObj (fun i => (i : ℝ) / 2) ![2, 4] ![0, 1] :=
  ⟨rfl, rfl, fun i j h => by
    have : (i : ℝ) < j := by exact_mod_cast h
    show (i : ℝ) / 2 < (j : ℝ) / 2
    linarith, by simp [splineObj, List.ofFn_succ], by simp [splineObj, List.ofFn_succ], by decide⟩

example := C145_violated splineObj_data

example := C144_initialization_1d splineObj_data (by decide) le_rfl

example := C145_partial (v := 7) initObj_data (by decide)

example := C144_spline (xs := [0, 1, 2, 4, 5]) (ys := [3, 1, 4, 1, 5]) rfl (by simp) (by norm_num)

example (t : ℝ) : splineFit [0, 1, 2, 4] [0, 1, 8, 64] t = t ^ 3 := by
  have := C144_cubic_data (xs := [0, 1, 2, 4]) (by simp) (by norm_num) 0 0 0 1 t
  norm_num at this
  exact this

example {G : Type} (E : Env G) (s : Sim (AnyProc G) Arr) :=
  C134_origin_of_time_spline E (-3) _ _ (windowParams_later "DW" 0 10 (-3)) none s

end VGPA
