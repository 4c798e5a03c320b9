import Verif.Props.Spline
import Verif.Props.Units

/-!
# C147: the starting point of the optimisation in other units
-/

namespace VGPA

open Spec

/-! ## The spline with another unit of time -/

namespace Spline

/-- The factor of row `i` of the system if times are divided by `r`. -/
noncomputable def rowFactor (r : ℝ) (n i : ℕ) : ℝ := if n = 2 then 1 else if n = 3 ∧ i ≠ 1 then 1 else r⁻¹

theorem curve_time {n : ℕ} (h2 : 2 ≤ n) {x x' y : ℕ → ℝ} {r : ℝ} (hr : 0 < r) (hi : Inc n x) (hx : ∀ i, i < n → x' i = x i / r) (t : ℝ) :
    curve n x' y (t / r) = curve n x y t := by
  have hr' := hr.ne'
  have hi' : Inc n x' := fun i j hij hj => by
    rw [hx i (by omega), hx j hj]
    exact div_lt_div_of_pos_right (hi i j hij hj) hr
  have hdx : ∀ i, i + 1 < n → dx x' i = dx x i / r := fun i hi => by
    unfold dx
    rw [hx _ hi, hx i (by omega)]
    ring
  have hsl : ∀ i, i + 1 < n → slope x' y i = r * slope x y i := fun i h => by
    unfold slope
    have := (hi.dx_pos h).ne'
    rw [hdx i h]
    field_simp
  have hxx : ∀ i j, i < n → j < n → x' i - x' j = (x i - x j) / r := fun i j hi hj => by
    rw [hx i hi, hx j hj]
    ring
  have hm : ∀ i j : Fin n, entry n x' i j = rowFactor r n i * entry n x i j := by
    intro i j
    have hi := i.2
    obtain rfl | h3 : n = 2 ∨ 3 ≤ n := by omega
    · simp [entry, rowFactor]
    · unfold entry rowFactor
      rw [hdx 1 (by omega), hdx (n - 3) (by omega), hxx 2 0 (by omega) (by omega), hxx (n - 1) (n - 3) (by omega) (by omega)]
      by_cases h0 : (i : ℕ) = 0
      · simp only [h0, if_true]
        split_ifs <;> first | omega | (field_simp <;> ring) | simp_all
      · by_cases h1 : (i : ℕ) = n - 1
        · simp only [h1, if_true]
          split_ifs <;> first | omega | (field_simp <;> ring) | simp_all
        · rw [hdx i (by omega), hdx (i - 1) (by omega)]
          simp only [h0, h1, if_false]
          split_ifs <;> first | omega | (field_simp <;> ring) | simp_all
  have hb : ∀ i : Fin n, rhs n x' y i = rowFactor r n i * (r * rhs n x y i) := by
    intro i
    have hi2 := i.2
    obtain rfl | h3 : n = 2 ∨ 3 ≤ n := by omega
    · simp [rhs, rowFactor, hsl 0 (by omega)]
    · have q0 : x 2 - x 0 ≠ 0 := (sub_pos.2 (hi 0 2 (by omega) (by omega))).ne'
      have q1 : x (n - 1) - x (n - 3) ≠ 0 := (sub_pos.2 (hi (n - 3) (n - 1) (by omega) (by omega))).ne'
      unfold rhs rowFactor
      rw [hxx 2 0 (by omega) (by omega), hxx (n - 1) (n - 3) (by omega) (by omega), hsl 0 (by omega), hsl 1 (by omega), hsl (n - 3) (by omega),
        hsl (n - 2) (by omega), hdx 0 (by omega), hdx 1 (by omega), hdx (n - 3) (by omega), hdx (n - 2) (by omega)]
      by_cases h0 : (i : ℕ) = 0
      · simp only [h0, if_true]
        split_ifs <;> first | omega | (field_simp <;> ring) | simp_all
      · by_cases h1 : (i : ℕ) = n - 1
        · simp only [h1, if_true]
          split_ifs <;> first | omega | (field_simp <;> ring) | simp_all
        · rw [hdx i (by omega), hdx (i - 1) (by omega), hsl i (by omega), hsl (i - 1) (by omega)]
          simp only [h0, h1, if_false]
          split_ifs <;> first | omega | (field_simp <;> ring) | simp_all
  have hd : ∀ i, i < n → r * derivs n x y i = derivs n x' y i := by
    refine derivs_unique h2 hi' (s := fun i => r * derivs n x y i) ?_
    have h := derivs_solve h2 hi y
    funext k
    have hk := congrFun h k
    simp only [Matrix.mulVec, dotProduct, matrix, Matrix.of_apply] at hk ⊢
    rw [hb, ← hk, Finset.mul_sum, Finset.mul_sum]
    refine Finset.sum_congr rfl fun j _ => ?_
    rw [hm]
    ring
  have hint : interval n x' (t / r) = interval n x t := by
    classical
    unfold interval
    congr 1
    refine Finset.filter_congr fun j hj => ?_
    rw [Finset.mem_range] at hj
    rw [hx _ (by omega)]
    exact div_le_div_iff_of_pos_right hr
  have hk : interval n x t ≤ n - 2 := by
    classical
    unfold interval
    exact (Finset.card_filter_le _ _).trans (by simp)
  unfold curve
  rw [hint]
  set k := interval n x t
  have hk' := (hi.dx_pos (i := k) (by omega)).ne'
  unfold piece c0 c1
  rw [← hd k (by omega), ← hd (k + 1) (by omega), hsl k (by omega), hdx k (by omega), hx k (by omega)]
  field_simp

end Spline

/-- The curve in another unit of time is the curve, in this unit. -/
theorem C144_time_unit {xs ys : List ℝ} (hl : xs.length = ys.length) (h2 : 2 ≤ xs.length) (hp : xs.Pairwise (· < ·)) {r : ℝ} (hr : 0 < r) (t : ℝ) :
    splineFit (xs.map (· / r)) ys (t / r) = splineFit xs ys t := by
  rw [splineFit, splineFit, if_neg (by rw [List.length_map]; omega), if_neg (by omega), List.length_map]
  exact Spline.curve_time h2 hr (inc_of_pairwise hp) (fun i hi => getD_map_lt (· / r) xs hi) t

/-! ## Specification -/

namespace Spec

/-- What `initialization` reads in two problems, the second being the first with states multiplied by `c` and times divided by `r`: the times of the grid and the
time step are divided by `r`, the observations are multiplied by `c`, and the system noise, a squared state per time, by `c² r`. -/
structure SameStart {V W : Type} [SMul ℝ V] [SMul ℝ W] (c r : ℝ) (o o' : VarGP V W) : Prop where
  units : 0 < c ∧ 0 < r
  window : o'.model.time_window = o.model.time_window.map (List.map fun t => t / r)
  sigma : o'.model.sigma = (c ^ 2 * r) • o.model.sigma
  obs_t : o'.obs_t = o.obs_t
  obs_y : o'.obs_y = o.obs_y.map fun y => c • y
  grid : o'.dim_n = o.dim_n ∧ o'.dt = o.dt / r

end Spec

/-! ## The data of the spline -/

variable {V W : Type} [SMul ℝ V] [SMul ℝ W] {c r : ℝ}

theorem splineData_units {o o' : VarGP V W} (h : SameStart c r o o') (tw : List ℝ) :
    o'.splineData (tw.map fun t => t / r) = (o.splineData tw).map fun q => (q.1.map fun t => t / r, q.2.map fun y => c • y) := by
  unfold VarGP.splineData
  rw [h.obs_t, h.obs_y, idx_map, fancy_map, lastIdx_map, idx_map, lastIdx_map]
  rcases idx tw 0 with e | t0
  · rfl
  rcases fancy tw o.obs_t with e | ts
  · rfl
  rcases lastIdx tw with e | t1
  · rfl
  rcases idx o.obs_y 0 with e | y0
  · rfl
  rcases lastIdx o.obs_y with e | y1
  · rfl
  simp [Except.map]

theorem cubicSpline_units (hr : 0 < r) (fit : List ℝ → List V → ℝ → V)
    (hfit : ∀ xs ys t, xs.length = ys.length → 2 ≤ xs.length → xs.Pairwise (· < ·) →
      fit (xs.map fun t => t / r) (ys.map fun y => c • y) (t / r) = c • fit xs ys t) (xs : List ℝ) (ys : List V) (tw : List ℝ) :
    (do let f ← cubicSpline fit (xs.map fun t => t / r) (ys.map fun y => c • y); pure ((tw.map fun t => t / r).map f) : Py (List V))
      = (do let f ← cubicSpline fit xs ys; pure ((tw.map f).map fun y => c • y)) := by
  unfold cubicSpline
  have hp : (xs.map fun t => t / r).Pairwise (· < ·) ↔ xs.Pairwise (· < ·) := by
    rw [List.pairwise_map]
    simp only [div_lt_div_iff_of_pos_right hr]
  simp only [List.length_map, hp]
  split_ifs with h1 h2 h3
  · rfl
  · rfl
  · simp only [py_ok_bind, List.map_map]
    congr 1
    refine List.map_congr_left fun t _ => ?_
    exact hfit xs ys t (not_not.1 h1) (by omega) h3
  · rfl

theorem splineFit_units (hr : 0 < r) (xs ys : List ℝ) (t : ℝ) (hl : xs.length = ys.length) (h2 : 2 ≤ xs.length) (hp : xs.Pairwise (· < ·)) :
    splineFit (xs.map fun t => t / r) (ys.map fun y => c • y) (t / r) = c • splineFit xs ys t := by
  rw [C144_time_unit (ys := ys.map fun y => c • y) (by simpa using hl) h2 hp hr]
  have := C144_affine hl h2 c 0 0 t
  simpa using this

/-! ## The theorems -/

/-- C147 in one dimension, what the program does: in other units the linear parameters of the start are multiplied by `c² r`, and the offsets by `c`, or the same exception
is raised. The parameters in the other units would be multiplied by `r` and `c r`, see `C147_violated_1d`. -/
theorem C147_start_1d_partial {o o' : VarGP ℝ ℝ} (h : SameStart c r o o') :
    o'.initialization1 splineFit = (o.initialization1 splineFit).map (inUnits o.dim_n (c ^ 2 * r) c) := by
  unfold VarGP.initialization1
  rw [h.window]
  rcases o.model.time_window with e | tw
  · rfl
  simp only [Except.map, py_ok_bind]
  rw [splineData_units h]
  rcases o.splineData tw with e | ⟨xs, ys⟩
  · rfl
  simp only [Except.map, py_ok_bind]
  have key := cubicSpline_units h.units.2 splineFit (c := c) (splineFit_units h.units.2) xs ys tw
  rcases h1 : cubicSpline splineFit xs ys with e | f <;> rw [h1] at key <;>
    rcases h2 : cubicSpline splineFit (xs.map fun t => t / r) (ys.map fun y => c • y) with e' | f' <;> rw [h2] at key
  · cases key
    rfl
  · cases key
  · cases key
  · simp only [py_ok_bind, py_pure] at key ⊢
    injection key with key
    rw [key, h.grid.1, h.sigma, inUnits, List.take_left' (by simp), List.drop_left' (by simp)]
    simp only [times, List.map_replicate, smul_eq_mul]
    congr 3
    ring

theorem start1_units {o o' : VarGP ℝ ℝ} (h : SameStart c r o o') (hσ : o.model.sigma ≠ 0) (hn : 0 < o.dim_n) (x : List ℝ)
    (hx : o.initialization1 splineFit = .ok x) (h' : o'.initialization1 splineFit = .ok (inUnits o.dim_n r (c * r) x)) :
    c = 1 ∧ (r = 1 ∨ ∀ b ∈ x.drop o.dim_n, b = 0) := by
  have hc := h.units.1
  have hr := h.units.2
  rw [C147_start_1d_partial h, hx] at h'
  injection h' with h'
  have hlen : o.dim_n ≤ x.length ∧ x[0]? = some (2 * o.model.sigma) := by
    unfold VarGP.initialization1 at hx
    rcases h1 : o.model.time_window with e | tw <;> rw [h1] at hx
    · cases hx
    simp only [py_ok_bind] at hx
    rcases h2 : o.splineData tw with e | ⟨xs, ys⟩ <;> rw [h2] at hx
    · cases hx
    simp only [py_ok_bind] at hx
    rcases h3 : cubicSpline splineFit xs ys with e | f <;> rw [h3] at hx
    · cases hx
    simp only [py_ok_bind, py_pure] at hx
    injection hx with hx
    subst hx
    refine ⟨by simp, ?_⟩
    rw [List.getElem?_append_left (by simpa using hn), List.getElem?_replicate_of_lt hn]
    congr 1
    norm_num
    ring
  have hsplit : times (c ^ 2 * r) (x.take o.dim_n) = times r (x.take o.dim_n) ∧ times c (x.drop o.dim_n) = times (c * r) (x.drop o.dim_n) :=
    List.append_inj h' (by simp [times])
  have h1 : c = 1 := by
    have e := congrArg (fun l => l[0]?) hsplit.1
    simp only [times, List.getElem?_map, List.getElem?_take, hn, if_true, hlen.2, Option.map_some, Option.some.injEq] at e
    have e2 : (c ^ 2 - 1) * (r * (2 * o.model.sigma)) = 0 := by linear_combination e
    rcases mul_eq_zero.1 e2 with e3 | e3
    · nlinarith
    · exact absurd e3 (mul_ne_zero hr.ne' (mul_ne_zero two_ne_zero hσ))
  refine ⟨h1, ?_⟩
  subst h1
  by_cases hr1 : r = 1
  · exact .inl hr1
  refine .inr fun b hb => ?_
  have e := hsplit.2
  simp only [times, one_mul] at e
  have := List.map_inj_left.1 e b hb
  have e2 : (r - 1) * b = 0 := by linear_combination -this
  exact (mul_eq_zero.1 e2).resolve_left (sub_ne_zero.2 hr1)

theorem times_append (a : ℝ) (l l' : List ℝ) : times a (l ++ l') = times a l ++ times a l' := List.map_append

theorem ravel2_smul {d : ℕ} (a : ℝ) (l : List (Fin d → ℝ)) : ravel2 (l.map fun v => a • v) = times a (ravel2 l) := by
  unfold ravel2 times
  rw [List.flatMap_map, List.map_flatMap]
  simp only [List.map_ofFn]
  rfl

theorem ravel3_smul {d : ℕ} (a : ℝ) (l : List (Matrix (Fin d) (Fin d) ℝ)) : ravel3 (l.map fun v => a • v) = times a (ravel3 l) := by
  unfold ravel3 times
  rw [List.flatMap_map, List.map_flatMap]
  simp [List.map_flatten, List.map_ofFn, Function.comp_def]

theorem zipDiff_time {d : ℕ} (dt r : ℝ) (mt : List (Fin d → ℝ)) :
    (List.zipWith (fun q p => q - p) mt.tail mt).map (fun v => (dt / r)⁻¹ • v)
      = ((List.zipWith (fun q p => q - p) mt.tail mt).map fun v => dt⁻¹ • v).map fun v => r • v := by
  rw [List.map_map]
  refine List.map_congr_left fun v _ => ?_
  rw [Function.comp, smul_smul, inv_div, div_eq_mul_inv]

theorem startLin_smul {d : ℕ} (a : ℝ) (S T : Matrix (Fin d) (Fin d) ℝ) :
    (0.5 : ℝ) • Matrix.diagonal (fun i => (a • S).diag i / T.diag i) = a • (0.5 : ℝ) • Matrix.diagonal fun i => S.diag i / T.diag i := by
  ext i j
  by_cases h : i = j
  · subst h
    simp
    ring
  · simp [h]

/-- C147 in several dimensions, the part that holds: in another unit of time the start is the same (all parameters are rates and are multiplied by `r`), or the same
exception is raised. Missing: another unit of the state. -/
theorem C147_time_unit_partial {d : ℕ} {o o' : VarGP (Fin d → ℝ) (Matrix (Fin d) (Fin d) ℝ)} (h : SameStart 1 r o o') :
    o'.initializationN (splineFitN d) = (o.initializationN (splineFitN d)).map (times r) := by
  have hr := h.units.2
  unfold VarGP.initializationN
  rw [h.window]
  rcases o.model.time_window with e | tw
  · rfl
  simp only [Except.map, py_ok_bind]
  rw [splineData_units h]
  rcases o.splineData tw with e | ⟨xs, ys⟩
  · rfl
  simp only [Except.map, py_ok_bind]
  have key := cubicSpline_units (c := 1) hr (splineFitN d) (fun xs ys t hl h2 hp => by
    funext p
    have := splineFit_units (c := 1) hr xs (ys.map fun v => v p) t (by simpa using hl) h2 hp
    simpa [splineFitN, Function.comp_def] using this) xs ys tw
  rcases h1 : cubicSpline (splineFitN d) xs ys with e | f <;> rw [h1] at key <;>
    rcases h2 : cubicSpline (splineFitN d) (xs.map fun t => t / r) (ys.map fun y => (1 : ℝ) • y) with e' | f' <;> rw [h2] at key
  · cases key
    rfl
  · cases key
  · cases key
  simp only [py_ok_bind, py_pure] at key ⊢
  injection key with key
  rw [key, h.grid.1, h.grid.2, h.sigma]
  simp only [one_smul, List.map_id']
  generalize tw.map f = mt
  rw [one_pow, one_mul, zipDiff_time, startLin_smul]
  generalize (List.zipWith (fun q p => q - p) mt.tail mt).map (fun v => o.dt⁻¹ • v) = dm
  generalize (0.5 : ℝ) • Matrix.diagonal (fun i => o.model.sigma.diag i / ((0.25 : ℝ) • (1 : Matrix (Fin d) (Fin d) ℝ)).diag i) = A
  have hrow : (fun k => do
        let dk ← idx (dm.map fun v => r • v) k
        let mk ← idx mt k
        .ok (r • A, dk + (r • A).diag * mk) : ℕ → Py (Matrix (Fin d) (Fin d) ℝ × (Fin d → ℝ)))
      = fun k => (do
        let dk ← idx dm k
        let mk ← idx mt k
        .ok (A, dk + A.diag * mk) : Py (Matrix (Fin d) (Fin d) ℝ × (Fin d → ℝ))).map fun q => (r • q.1, r • q.2) := by
    funext k
    rw [idx_map]
    rcases idx dm k with e | dk
    · rfl
    rcases idx mt k with e | mk
    · rfl
    simp only [Except.map, py_ok_bind, py_pure]
    congr 2
    rw [Matrix.diag_smul, smul_add, smul_mul_assoc]
  rw [hrow, mapM_map_py]
  rcases List.mapM _ (List.range (o.dim_n - 1)) with e | rows
  · rfl
  simp only [Except.map, py_ok_bind]
  split_ifs with h0
  · rfl
  rcases lastIdx mt with e | ml
  · rfl
  simp only [py_ok_bind, py_pure]
  congr 1
  rw [times_append, ← ravel3_smul, ← ravel2_smul]
  simp [Function.comp_def, Matrix.diag_smul, smul_mul_assoc]

theorem initN_entry {d : ℕ} {o : VarGP (Fin d → ℝ) (Matrix (Fin d) (Fin d) ℝ)} (fit : List ℝ → List (Fin d → ℝ) → ℝ → Fin d → ℝ) (x : List ℝ)
    (hx : o.initializationN fit = .ok x) (i : Fin d) : 0 < o.dim_n ∧ x[(i : ℕ) * d + i]? = some (2 * o.model.sigma i i) := by
  unfold VarGP.initializationN at hx
  rcases h1 : o.model.time_window with e | tw <;> rw [h1] at hx
  · cases hx
  simp only [py_ok_bind] at hx
  rcases h2 : o.splineData tw with e | ⟨xs, ys⟩ <;> rw [h2] at hx
  · cases hx
  simp only [py_ok_bind] at hx
  rcases h3 : cubicSpline fit xs ys with e | f <;> rw [h3] at hx
  · cases hx
  simp only [py_ok_bind] at hx
  have hA : ((0.5 : ℝ) • Matrix.diagonal fun i => o.model.sigma.diag i / ((0.25 : ℝ) • (1 : Matrix (Fin d) (Fin d) ℝ)).diag i) i i = 2 * o.model.sigma i i := by
    simp
    norm_num
    ring
  revert hx
  generalize (0.5 : ℝ) • Matrix.diagonal (fun i => o.model.sigma.diag i / ((0.25 : ℝ) • (1 : Matrix (Fin d) (Fin d) ℝ)).diag i) = A at hA
  intro hx
  rcases h4 : (List.range (o.dim_n - 1)).mapM (fun k => do
      let dk ← idx ((List.zipWith (fun q p => q - p) (tw.map f).tail (tw.map f)).map fun v => o.dt⁻¹ • v) k
      let mk ← idx (tw.map f) k
      pure (A, dk + A.diag * mk) : ℕ → Py (Matrix (Fin d) (Fin d) ℝ × (Fin d → ℝ))) with e | rows <;> rw [h4] at hx
  · cases hx
  simp only [py_ok_bind] at hx
  split_ifs at hx with h0
  rcases h5 : lastIdx (tw.map f) with e | ml <;> rw [h5] at hx
  · cases hx
  simp only [py_ok_bind, py_pure] at hx
  injection hx with hx
  subst hx
  refine ⟨by omega, ?_⟩
  have hall : ∀ q ∈ rows, q.1 = A := fun q hq => by
    obtain ⟨k, -, hk⟩ := mapM_ok_forall _ _ _ h4 q hq
    rcases g1 : idx ((List.zipWith (fun q p => q - p) (tw.map f).tail (tw.map f)).map fun v => o.dt⁻¹ • v) k with e | dk <;> rw [g1] at hk
    · cases hk
    rcases g2 : idx (tw.map f) k with e | mk <;> rw [g2] at hk
    · cases hk
    simp only [py_ok_bind, py_pure] at hk
    injection hk with hk
    rw [← hk]
  have hlt : (i : ℕ) * d + i < d * d := by nlinarith [i.2]
  have hfst : ∃ l, (rows ++ [(A, A.diag * ml)]).map Prod.fst = A :: l := by
    rcases rows with _ | ⟨q, rows⟩
    · exact ⟨_, rfl⟩
    · refine ⟨(rows ++ [(A, A.diag * ml)]).map Prod.fst, ?_⟩
      rw [List.cons_append, List.map_cons, hall q (by simp)]
  obtain ⟨l, hl⟩ := hfst
  have := ravel3_get (A :: l) 0 i i
  rw [Nat.zero_mul, Nat.zero_add] at this
  obtain ⟨hlen, -⟩ := List.getElem?_eq_some_iff.1 this
  rw [hl, List.getElem?_append_left hlen, this]
  simp [hA]

theorem startN_units {d : ℕ} {o o' : VarGP (Fin d → ℝ) (Matrix (Fin d) (Fin d) ℝ)} (h : SameStart c r o o') (i : Fin d) (hσ : o.model.sigma i i ≠ 0) (x : List ℝ)
    (hx : o.initializationN (splineFitN d) = .ok x) (h' : o'.initializationN (splineFitN d) = .ok (inUnits (o.dim_n * (d * d)) r (c * r) x)) : c = 1 := by
  have hr := h.units.2
  have e1 := initN_entry (splineFitN d) x hx i
  have e2 := initN_entry (splineFitN d) _ h' i
  have hlt : (i : ℕ) * d + i < d * d := by nlinarith [i.2]
  have hpos : (i : ℕ) * d + i < o.dim_n * (d * d) := hlt.trans_le (Nat.le_mul_of_pos_left _ e1.1)
  obtain ⟨hlen, -⟩ := List.getElem?_eq_some_iff.1 e1.2
  rw [inUnits, List.getElem?_append_left (by simpa [times, hpos] using hlen), times, List.getElem?_map, List.getElem?_take, if_pos hpos, e1.2, Option.map_some,
    Option.some.injEq, h.sigma, Matrix.smul_apply, smul_eq_mul] at e2
  have e3 : (c ^ 2 - 1) * (r * (2 * o.model.sigma i i)) = 0 := by linear_combination -e2.2
  rcases mul_eq_zero.1 e3 with e4 | e4
  · nlinarith [h.units.1]
  · exact absurd e4 (mul_ne_zero hr.ne' (mul_ne_zero two_ne_zero hσ))

/-- C147 fails in one dimension: if the noise is not zero, the start of the same problem in another unit of the state (`c ≠ 1`) is another curve, and in another unit of time
(`r ≠ 1`) as well, unless all offsets are zero. -/
theorem C147_violated_1d {o o' : VarGP ℝ ℝ} (h : SameStart c r o o') (hσ : o.model.sigma ≠ 0) (hn : 0 < o.dim_n) (x : List ℝ)
    (hx : o.initialization1 splineFit = .ok x) (hcr : c ≠ 1 ∨ r ≠ 1 ∧ ∃ b ∈ x.drop o.dim_n, b ≠ 0) :
    o'.initialization1 splineFit ≠ .ok (inUnits o.dim_n r (c * r) x) := by
  intro h'
  obtain ⟨h1, h2⟩ := start1_units h hσ hn x hx h'
  rcases hcr with h3 | ⟨h3, b, h4, h5⟩
  · exact h3 h1
  · exact h5 (h2.resolve_left h3 b h4)

/-- C147 fails in several dimensions for another unit of the state: if a component has noise, the start is another curve. -/
theorem C147_violated_nd {d : ℕ} {o o' : VarGP (Fin d → ℝ) (Matrix (Fin d) (Fin d) ℝ)} (h : SameStart c r o o') (i : Fin d) (hσ : o.model.sigma i i ≠ 0) (x : List ℝ)
    (hx : o.initializationN (splineFitN d) = .ok x) (hc : c ≠ 1) : o'.initializationN (splineFitN d) ≠ .ok (inUnits (o.dim_n * (d * d)) r (c * r) x) :=
  fun h' => hc (startN_units h i hσ x hx h')

/-! ## The hypotheses are met -/

/-- A problem in other units, as far as `initialization` reads it. -/
noncomputable def startIn (c r : ℝ) (o : VarGP V W) : VarGP V W := { o with
  model := { o.model with time_window := o.model.time_window.map (List.map fun t => t / r), sigma := (c ^ 2 * r) • o.model.sigma }
  obs_y := o.obs_y.map fun y => c • y
  dt := o.dt / r }

theorem sameStart_startIn (hc : 0 < c) (hr : 0 < r) (o : VarGP V W) : SameStart c r o (startIn c r o) := ⟨⟨hc, hr⟩, rfl, rfl, rfl, rfl, rfl, rfl⟩

/-- C147 fails: a double well with two observations, and the same problem in any other units. -/
theorem C147_violated (c r : ℝ) (hc : 0 < c) (hr : 0 < r) (hcr : ¬ (c = 1 ∧ r = 1)) : ∃ (o o' : VarGP ℝ ℝ) (x : List ℝ), SameStart c r o o' ∧
    o.initialization1 splineFit = .ok x ∧ o'.initialization1 splineFit ≠ .ok (inUnits o.dim_n r (c * r) x) := by
  obtain ⟨b, e1, e2, -⟩ := C145_violated splineObj_data
  refine ⟨splineObj, startIn c r splineObj, _, sameStart_startIn hc hr _, e1, fun h => ?_⟩
  obtain ⟨h1, h2⟩ := start1_units (sameStart_startIn hc hr splineObj) (by norm_num [splineObj, vgpDW, vgpObj, DW.sde]) (by norm_num [splineObj]) _ e1 h
  refine hcr ⟨h1, h2.resolve_right fun h3 => ?_⟩
  have := h3 (b 1) (by
    rw [List.drop_left' (by simp [splineObj])]
    exact List.mem_ofFn.2 ⟨1, rfl⟩)
  rw [e2] at this
  norm_num at this

example {d : ℕ} (o : VarGP (Fin d → ℝ) (Matrix (Fin d) (Fin d) ℝ)) := C147_time_unit_partial (sameStart_startIn one_pos two_pos o)

example := C147_start_1d_partial (sameStart_startIn two_pos three_pos splineObj)

end VGPA
