import Verif.Props.OdeLaws
import Verif.Spec.Taylor
import Mathlib.Algebra.Module.LinearMap.End
import Mathlib.Algebra.Algebra.Basic
import Mathlib.LinearAlgebra.Matrix.ToLin
import Mathlib.Analysis.SpecialFunctions.Complex.LogBounds
import Mathlib.Tactic.LinearCombination
import Mathlib.Tactic.Positivity

/-!
# Properties C24, C25, C28: closed forms, convergence, positivity
-/

namespace VGPA

open Matrix Filter Topology

section
variable {V W : Type} [AddCommGroup V] [Module ℝ V] [AddCommGroup W] [Module ℝ W]

theorem expTaylor_one {E : Type*} [Ring E] [Algebra ℝ E] (z : E) : Spec.expTaylor 1 z = 1 + z := by
  simp [Spec.expTaylor, Finset.sum_range_succ]

theorem expTaylor_two {E : Type*} [Ring E] [Algebra ℝ E] (z : E) :
    Spec.expTaylor 2 z = 1 + z + (1 / 2 : ℝ) • (z * z) := by
  simp [Spec.expTaylor, Finset.sum_range_succ, Nat.factorial, pow_two]

theorem expTaylor_four {E : Type*} [Ring E] [Algebra ℝ E] (z : E) :
    Spec.expTaylor 4 z = 1 + z + (1 / 2 : ℝ) • (z * z) + (1 / 6 : ℝ) • (z * z * z)
      + (1 / 24 : ℝ) • (z * z * z * z) := by
  simp only [Spec.expTaylor, Finset.sum_range_succ, Nat.factorial, pow_succ, pow_zero, one_mul,
    Finset.sum_range_zero]
  norm_num

/-- One step of a scheme on an autonomous linear equation multiplies the distance to the equilibrium
by the scheme's stability polynomial. -/
theorem fwdStep_mean_linear (meth : Method) (F : Rhs V W) (dt : ℝ) (L : Module.End ℝ V) (A : W) (b ms : V)
    (hF : ∀ m, F.fun_mt m A b = - L m + b) (hs : L ms = b) (a : ℕ → W) (bb : ℕ → V) (sigma : W) (k : ℕ)
    (ha : a k = A) (ha' : a (k + 1) = A) (hb : bb k = b) (hb' : bb (k + 1) = b) (x : V × W) :
    (fwdStep meth F dt a bb sigma k x).1 - ms
      = Spec.expTaylor (Spec.order (scheme meth)) (-(dt • L)) (x.1 - ms) := by
  obtain ⟨m, s⟩ := x
  subst hs
  cases meth <;>
    simp only [fwdStep, ha, ha', hb, hb', smul_half_double, hF, Spec.order, scheme, expTaylor_one,
      expTaylor_two, expTaylor_four, LinearMap.add_apply, LinearMap.smul_apply, Module.End.mul_apply,
      Module.End.one_apply, LinearMap.neg_apply, map_add, map_sub, map_smul, map_neg] <;>
    module

theorem fwdStep_var_linear (meth : Method) (hm : meth ≠ .rk2) (F : Rhs V W) (dt : ℝ)
    (L : Module.End ℝ W) (A sigma ss : W)
    (hF : ∀ s, F.fun_st s A sigma = - L s + sigma) (hs : L ss = sigma) (a : ℕ → W) (bb : ℕ → V) (k : ℕ)
    (ha : a k = A) (ha' : a (k + 1) = A) (x : V × W) :
    (fwdStep meth F dt a bb sigma k x).2 - ss
      = Spec.expTaylor (Spec.order (scheme meth)) (-(dt • L)) (x.2 - ss) := by
  obtain ⟨m, s⟩ := x
  subst hs
  cases meth
  case rk2 => exact absurd rfl hm
  all_goals
    simp only [fwdStep, ha, ha', smul_half_double, hF, Spec.order, scheme, expTaylor_one,
      expTaylor_two, expTaylor_four, LinearMap.add_apply, LinearMap.smul_apply, Module.End.mul_apply,
      Module.End.one_apply, LinearMap.neg_apply, map_add, map_sub, map_smul, map_neg]
    module

theorem closed_form_mean_generic (meth : Method) (F : Rhs V W) (dt : ℝ) (n : ℕ) (A : W) (b m0 ms : V)
    (L : Module.End ℝ V) (hF : ∀ m, F.fun_mt m A b = - L m + b) (hs : L ms = b)
    (s0 sigma : W) (mt : List V) (st : List W)
    (hrun : solveFwd meth F dt (List.replicate n A) (List.replicate n b) m0 s0 sigma = .ok (mt, st)) :
    mt.length = n ∧ ∀ k (hk : k < mt.length),
      mt[k] = ms + (Spec.expTaylor (Spec.order (scheme meth)) (-(dt • L)) ^ k) (m0 - ms) := by
  obtain ⟨_, _, rfl, _⟩ := solveFwd_inv hrun
  refine ⟨by simp, ?_⟩
  intro k hk
  simp only [List.getElem_map, List.getElem_range]
  replace hk : k < n := by simpa using hk
  rw [← sub_eq_iff_eq_add']
  induction k with
  | zero => simp [traj]
  | succ k ih =>
    have ih := ih (by omega)
    rw [traj, fwdStep_mean_linear meth F dt L A b ms hF hs _ _ _ _ (asFun_replicate _ (by omega))
      (asFun_replicate _ (by omega)) (asFun_replicate _ (by omega)) (asFun_replicate _ (by omega)), ih,
      pow_succ', Module.End.mul_apply]

theorem closed_form_var_generic (meth : Method) (hm : meth ≠ .rk2) (F : Rhs V W) (dt : ℝ) (n : ℕ)
    (A : W) (b : List V) (hb : b.length = n) (m0 : V)
    (L : Module.End ℝ W) (s0 sigma ss : W) (hF : ∀ s, F.fun_st s A sigma = - L s + sigma)
    (hs : L ss = sigma) (mt : List V) (st : List W)
    (hrun : solveFwd meth F dt (List.replicate n A) b m0 s0 sigma = .ok (mt, st)) :
    st.length = n ∧ ∀ k (hk : k < st.length),
      st[k] = ss + (Spec.expTaylor (Spec.order (scheme meth)) (-(dt • L)) ^ k) (s0 - ss) := by
  obtain ⟨_, _, _, rfl⟩ := solveFwd_inv hrun
  refine ⟨by simp [hb], ?_⟩
  intro k hk
  simp only [List.getElem_map, List.getElem_range]
  replace hk : k < n := by simpa [hb] using hk
  rw [← sub_eq_iff_eq_add']
  induction k with
  | zero => simp [traj]
  | succ k ih =>
    have ih := ih (by omega)
    rw [traj, fwdStep_var_linear meth hm F dt L A sigma ss hF hs _ _ _ (asFun_replicate _ (by omega))
      (asFun_replicate _ (by omega)), ih, pow_succ', Module.End.mul_apply]

/-- Evaluating a stability polynomial of multiplication by a number. -/
theorem expTaylor_end_mul (n : ℕ) (c x : ℝ) (k : ℕ) :
    (Spec.expTaylor n (-(c • (1 : Module.End ℝ ℝ))) ^ k) x = Spec.expTaylor n (-c) ^ k * x := by
  have h : ∀ z : ℝ, Spec.expTaylor n (z • (1 : Module.End ℝ ℝ)) = Spec.expTaylor n z • (1 : Module.End ℝ ℝ) := by
    intro z
    simp only [Spec.expTaylor, Finset.sum_smul]
    apply Finset.sum_congr rfl
    intro i _
    rw [smul_pow, one_pow, smul_assoc]
  have h2 : -(c • (1 : Module.End ℝ ℝ)) = (-c) • (1 : Module.End ℝ ℝ) := (neg_smul _ _).symm
  rw [h2, h, smul_pow, one_pow]
  simp

end

/-! ## C24 -/

/-- **C24 (closed form, 1-D).** With constant parameters `a`, `b` and an equilibrium `m*` (`a m* = b`), the
mean at index `k` is `m* + R(-a dt)^k (m0 - m*)`, `R` the Taylor polynomial of `exp` of degree 1 (Euler),
2 (Heun, RK2), 4 (RK4). -/
theorem C24_mean_closed_form (meth : Method) (dt : ℝ) (n : ℕ) (a b m0 ms s0 sigma : ℝ) (hs : a * ms = b)
    (mt st)
    (hrun : solveFwd meth rhs1 dt (List.replicate n a) (List.replicate n b) m0 s0 sigma = .ok (mt, st)) :
    mt.length = n ∧ ∀ k (hk : k < mt.length),
      mt[k] = ms + Spec.expTaylor (Spec.order (scheme meth)) (-(a * dt)) ^ k * (m0 - ms) := by
  have h := closed_form_mean_generic meth rhs1 dt n a b m0 ms (a • (1 : Module.End ℝ ℝ))
    (by intro m; simp [rhs1]) (by simpa using hs) s0 sigma mt st hrun
  refine ⟨h.1, fun k hk => ?_⟩
  rw [h.2 k hk, ← smul_assoc, smul_eq_mul, expTaylor_end_mul, mul_comm dt a]

/-- **C24 (closed form, no restoring force).** With `a = 0` the mean at index `k` is `m0 + k dt b`. -/
theorem C24_mean_closed_form_zero (meth : Method) (dt : ℝ) (n : ℕ) (b m0 s0 sigma : ℝ) (mt st)
    (hrun : solveFwd meth rhs1 dt (List.replicate n 0) (List.replicate n b) m0 s0 sigma = .ok (mt, st)) :
    mt.length = n ∧ ∀ k (hk : k < mt.length), mt[k] = m0 + k * dt * b := by
  obtain ⟨_, _, rfl, _⟩ := solveFwd_inv hrun
  refine ⟨by simp, ?_⟩
  intro k hk
  simp only [List.getElem_map, List.getElem_range]
  replace hk : k < n := by simpa using hk
  induction k with
  | zero => simp [traj]
  | succ k ih =>
    have ih := ih (by omega)
    rw [traj]
    have a1 := asFun_replicate (0 : ℝ) (by omega : k < n)
    have a2 := asFun_replicate (0 : ℝ) (by omega : k + 1 < n)
    have b1 := asFun_replicate b (by omega : k < n)
    have b2 := asFun_replicate b (by omega : k + 1 < n)
    have hF : ∀ m a b, rhs1.fun_mt m a b = -(a * m) + b := fun _ _ _ => rfl
    cases meth <;>
      simp only [fwdStep, a1, a2, b1, b2, smul_half_double, hF, ih, smul_eq_mul, Nat.cast_add, Nat.cast_one] <;>
      ring

/-- **C24 (closed form, n-D).** The same for vectors: `m_k = m* + R(-dt A)^k (m0 - m*)` with the matrix
polynomial `R`. -/
theorem C24_mean_closed_form_nD (d : ℕ) (meth : Method) (dt : ℝ) (n : ℕ) (A : Matrix (Fin d) (Fin d) ℝ)
    (b m0 ms : Fin d → ℝ) (s0 sigma : Matrix (Fin d) (Fin d) ℝ) (hs : A *ᵥ ms = b) (mt st)
    (hrun : solveFwd meth (rhsN d) dt (List.replicate n A) (List.replicate n b) m0 s0 sigma = .ok (mt, st)) :
    mt.length = n ∧ ∀ k (hk : k < mt.length),
      mt[k] = ms + (Spec.expTaylor (Spec.order (scheme meth)) (-(dt • A)) ^ k) *ᵥ (m0 - ms) := by
  have h := closed_form_mean_generic meth (rhsN d) dt n A b m0 ms (Matrix.toLinAlgEquiv' A)
    (by intro m; simp [rhsN]) (by simpa using hs) s0 sigma mt st hrun
  refine ⟨h.1, fun k hk => ?_⟩
  rw [h.2 k hk, ← map_smul, ← map_neg]
  have : ∀ (r : ℕ) (z : Matrix (Fin d) (Fin d) ℝ), Spec.expTaylor r (Matrix.toLinAlgEquiv' z)
      = Matrix.toLinAlgEquiv' (Spec.expTaylor r z) := by
    intro r z; simp [Spec.expTaylor, map_sum]
  rw [this, ← map_pow, Matrix.toLinAlgEquiv'_apply]

theorem exact_solution_unique (a b m0 : ℝ) (ms : ℝ) (hs : a * ms = b) (μ : ℝ → ℝ) (h0 : μ 0 = m0)
    (hμ : ∀ t, HasDerivAt μ (-(a * μ t) + b) t) (t : ℝ) :
    μ t = ms + Real.exp (-(a * t)) * (m0 - ms) := by
  have hd : ∀ t, HasDerivAt (fun t => Real.exp (a * t) * (μ t - ms)) 0 t := by
    intro t
    have h1 : HasDerivAt (fun t => Real.exp (a * t)) (Real.exp (a * t) * (a * 1)) t :=
      ((hasDerivAt_id t).const_mul a).exp
    have h2 := h1.mul ((hμ t).sub_const ms)
    refine h2.congr_deriv ?_
    rw [← hs]; ring
  have hc := is_const_of_deriv_eq_zero (fun t => (hd t).differentiableAt) (fun t => (hd t).deriv) t 0
  simp only [mul_zero, Real.exp_zero, one_mul, h0] at hc
  rw [Real.exp_neg, ← hc]
  field_simp
  ring

theorem expTaylor_pow_tendsto (n : ℕ) (hn : 1 ≤ n) (c : ℝ) :
    Tendsto (fun N : ℕ => Spec.expTaylor n (c / N) ^ N) atTop (𝓝 (Real.exp c)) := by
  -- R(z) = 1 + z q(z) with q(0) = 1
  let q : ℝ → ℝ := fun z => ∑ i ∈ Finset.range n, (1 / ((i + 1).factorial : ℝ)) * z ^ i
  have hR : ∀ z : ℝ, Spec.expTaylor n z = 1 + z * q z := by
    intro z
    simp only [Spec.expTaylor, Finset.sum_range_succ', q, Finset.mul_sum, smul_eq_mul]
    simp only [Nat.factorial_zero, Nat.cast_one, div_one, pow_zero, mul_one]
    rw [add_comm]
    congr 1
    apply Finset.sum_congr rfl
    intro i _; ring
  have hq : Continuous q := by
    refine continuous_finsetSum _ fun i _ => ?_
    fun_prop
  have hq0 : q 0 = 1 := by
    obtain ⟨m, rfl⟩ : ∃ m, n = m + 1 := ⟨n - 1, by omega⟩
    simp [q, Finset.sum_range_succ']
  have hz : Tendsto (fun N : ℕ => c / (N : ℝ)) atTop (𝓝 0) := tendsto_const_div_atTop_nhds_zero_nat c
  have hg : Tendsto (fun N : ℕ => (N : ℝ) * (c / N * q (c / N))) atTop (𝓝 c) := by
    have h1 : Tendsto (fun N : ℕ => c * q (c / N)) atTop (𝓝 (c * 1)) := by
      rw [← hq0]
      exact ((hq.tendsto 0).comp hz).const_mul c
    rw [mul_one] at h1
    refine h1.congr' ?_
    filter_upwards [eventually_gt_atTop 0] with N hN
    have : (N : ℝ) ≠ 0 := by positivity
    field_simp
  have := Real.tendsto_one_add_pow_exp_of_tendsto (g := fun N : ℕ => c / N * q (c / N)) hg
  simpa only [hR] using this

/-- **C24 (convergence).** At a fixed end time `T`, the mean computed with `N` steps of size `T / N`
converges, as `N` grows, to the exact solution at `T` of `dm/dt = -a m + b`, `m(0) = m0`; for every method
and all constant `a`, `b` (including `a = 0`). `μ` is any solution of that initial value problem. -/
theorem C24_mean_converges (meth : Method) (a b m0 s0 sigma T : ℝ) (μ : ℝ → ℝ) (h0 : μ 0 = m0)
    (hμ : ∀ t, HasDerivAt μ (-(a * μ t) + b) t) (mt st : ℕ → List ℝ)
    (hrun : ∀ N : ℕ, 1 ≤ N → solveFwd meth rhs1 (T / N) (List.replicate (N + 1) a) (List.replicate (N + 1) b)
      m0 s0 sigma = .ok (mt N, st N)) :
    Tendsto (fun N => (mt N).getD N 0) atTop (𝓝 (μ T)) := by
  by_cases ha : a = 0
  · subst ha
    have hsol : μ T = m0 + T * b := by
      have hd : ∀ t, HasDerivAt (fun t => μ t - t * b) 0 t := by
        intro t
        have := (hμ t).sub ((hasDerivAt_id t).mul_const b)
        refine this.congr_deriv ?_; ring
      have := is_const_of_deriv_eq_zero (fun t => (hd t).differentiableAt) (fun t => (hd t).deriv) T 0
      simp only [h0] at this
      linarith
    rw [hsol]
    refine tendsto_const_nhds.congr' ?_
    filter_upwards [eventually_ge_atTop 1] with N hN
    obtain ⟨hl, hk⟩ := C24_mean_closed_form_zero meth _ _ _ _ _ _ _ _ (hrun N hN)
    change _ = asFun (mt N) N
    rw [asFun_eq (by omega : N < (mt N).length), hk N (by omega)]
    have : (N : ℝ) ≠ 0 := by positivity
    field_simp
  · have hs : a * (b / a) = b := by field_simp
    rw [exact_solution_unique a b m0 (b / a) hs μ h0 hμ T]
    have hn : 1 ≤ Spec.order (scheme meth) := by cases meth <;> simp [Spec.order, scheme]
    have hlim := ((expTaylor_pow_tendsto _ hn (-(a * T))).mul_const (m0 - b / a)).const_add (b / a)
    refine hlim.congr' ?_
    filter_upwards [eventually_ge_atTop 1] with N hN
    obtain ⟨hl, hk⟩ := C24_mean_closed_form meth _ _ _ _ _ _ _ _ hs _ _ (hrun N hN)
    change _ = asFun (mt N) N
    rw [asFun_eq (by omega : N < (mt N).length), hk N (by omega)]
    congr 3
    ring_nf

-- Non-vacuity: the initial value problem has a solution, and the runs exist.
example (a b m0 : ℝ) (ha : a ≠ 0) : ∃ μ : ℝ → ℝ, μ 0 = m0 ∧ ∀ t, HasDerivAt μ (-(a * μ t) + b) t := by
  refine ⟨fun t => b / a + Real.exp (-(a * t)) * (m0 - b / a), by simp, fun t => ?_⟩
  have h1 : HasDerivAt (fun t => Real.exp (-(a * t))) (Real.exp (-(a * t)) * -(a * 1)) t :=
    ((hasDerivAt_id t).const_mul a).neg.exp
  have := (h1.mul_const (m0 - b / a)).const_add (b / a)
  refine this.congr_deriv ?_
  field_simp
  ring

example (N : ℕ) : ∃ mt st, solveFwd .heun rhs1 (2 / N) (List.replicate (N + 1) 3) (List.replicate (N + 1) 1)
    5 1 1 = .ok (mt, st) := by
  obtain ⟨mt, st, h, _⟩ := (C16_forward_shapes .heun rhs1 (2 / N) (List.replicate (N + 1) 3)
    (List.replicate (N + 1) 1) 5 1 1).1 (by simp)
  exact ⟨mt, st, h⟩

/-! ## C25 -/

/-- **C25 (1-D, partial).** With a constant linear parameter `a` and an equilibrium variance `s*`
(`2 a s* = Sigma`) the variance at index `k` is `s* + R(-2 a dt)^k (s0 - s*)`, for Euler, Heun and RK4.
Full statement: all four methods; false for RK2, see `C25_rk2_violated`. -/
theorem C25_variance_closed_form_partial (meth : Method) (hm : meth ≠ .rk2) (dt : ℝ) (n : ℕ)
    (a : ℝ) (b : List ℝ) (hb : b.length = n) (m0 s0 ss sigma : ℝ) (hs : 2 * a * ss = sigma) (mt st)
    (hrun : solveFwd meth rhs1 dt (List.replicate n a) b m0 s0 sigma = .ok (mt, st)) :
    st.length = n ∧ ∀ k (hk : k < st.length),
      st[k] = ss + Spec.expTaylor (Spec.order (scheme meth)) (-(2 * a * dt)) ^ k * (s0 - ss) := by
  have h := closed_form_var_generic meth hm rhs1 dt n a b hb m0 ((2 * a) • (1 : Module.End ℝ ℝ)) s0 sigma ss
    (by intro s; simp [rhs1]) (by simpa using hs) mt st hrun
  refine ⟨h.1, fun k hk => ?_⟩
  rw [h.2 k hk, ← smul_assoc, smul_eq_mul, expTaylor_end_mul, mul_comm dt (2 * a)]

/-- The Lyapunov operator `S ↦ A S + S A'`. -/
def lyap {d : ℕ} (A : Matrix (Fin d) (Fin d) ℝ) : Module.End ℝ (Matrix (Fin d) (Fin d) ℝ) where
  toFun S := A * S + S * Aᵀ
  map_add' S S' := by rw [Matrix.mul_add, Matrix.add_mul]; abel
  map_smul' c S := by simp [Matrix.mul_smul, Matrix.smul_mul]

/-- **C25 (n-D, partial).** With the Lyapunov operator `L S = A S + S A'` and `L S* = Sigma`, the covariance
at index `k` is `S* + R(-dt L)^k (S0 - S*)`, for Euler, Heun and RK4. -/
theorem C25_covariance_closed_form_nD_partial (d : ℕ) (meth : Method) (hm : meth ≠ .rk2) (dt : ℝ) (n : ℕ)
    (A : Matrix (Fin d) (Fin d) ℝ) (b : List (Fin d → ℝ)) (hb : b.length = n) (m0 : Fin d → ℝ)
    (s0 ss sigma : Matrix (Fin d) (Fin d) ℝ) (hs : A * ss + ss * Aᵀ = sigma) (mt st)
    (hrun : solveFwd meth (rhsN d) dt (List.replicate n A) b m0 s0 sigma = .ok (mt, st)) :
    st.length = n ∧ ∀ k (hk : k < st.length),
      st[k] = ss + (Spec.expTaylor (Spec.order (scheme meth)) (-(dt • lyap A)) ^ k) (s0 - ss) :=
  closed_form_var_generic meth hm (rhsN d) dt n A b hb m0 (lyap A) s0 sigma ss
    (by intro s; simp only [rhsN, lyap, LinearMap.coe_mk, AddHom.coe_mk]; abel)
    (by simpa [lyap] using hs) mt st hrun

/-- **C25 is violated by RK2.** With `a = 1`, `Sigma = 2`, so `s* = 1`, `dt = 1`, `s0 = 2`, the closed form
with `R` of degree two gives `1 + R(-2) = 2` at index 1, the code returns `6`. -/
theorem C25_rk2_violated :
    ∃ mt : List ℝ, solveFwd .rk2 rhs1 1 [1, 1] [0, 0] 0 2 2 = .ok (mt, [2, 6]) ∧
      (1 : ℝ) + Spec.expTaylor 2 (-(2 * 1 * 1) : ℝ) ^ 1 * (2 - 1) = 2 := by
  refine ⟨[0, 0], ?_, ?_⟩
  · rw [solveFwd_ok _ _ _ _ _ _ _ _ (by simp) (by simp [needA])]
    simp [List.range_succ, traj, fwdStep, rhs1, asFun]
    norm_num
  · rw [expTaylor_two]; norm_num

/-! ## C28 -/

/-- **C28.** In 1-D, for `s0 > 0`, `Sigma > 0`, `dt > 0` and `0 ≤ 2 a dt ≤ 1` for every linear parameter,
every variance returned by any of the four methods is strictly positive. -/
theorem C28_variance_positive (meth : Method) (dt : ℝ) (hdt : 0 < dt) (A b : List ℝ) (m0 s0 sigma : ℝ)
    (hlen : A.length = b.length) (hs0 : 0 < s0) (hsig : 0 < sigma)
    (hA : ∀ a ∈ A, 0 ≤ 2 * a * dt ∧ 2 * a * dt ≤ 1) (mt st)
    (hrun : solveFwd meth rhs1 dt A b m0 s0 sigma = .ok (mt, st)) : ∀ s ∈ st, 0 < s := by
  obtain ⟨_, _, _, rfl⟩ := solveFwd_inv hrun
  intro s hmem
  obtain ⟨k, hk, rfl⟩ := List.mem_map.1 hmem
  clear hmem
  have hk := List.mem_range.1 hk
  refine traj_snd_inv b.length (0 < ·) _ _ hs0 ?_ k hk
  rintro k ⟨m, s⟩ hk (hs : 0 < s)
  have h1 : 0 ≤ 2 * asFun A k * dt ∧ 2 * asFun A k * dt ≤ 1 := by
    rw [asFun_eq (by omega)]; exact hA _ (List.getElem_mem _)
  have h2 : 0 ≤ 2 * asFun A (k + 1) * dt ∧ 2 * asFun A (k + 1) * dt ≤ 1 := by
    rw [asFun_eq (by omega)]; exact hA _ (List.getElem_mem _)
  obtain ⟨a, ha⟩ : ∃ a, asFun A k = a := ⟨_, rfl⟩
  obtain ⟨a', ha'⟩ : ∃ a', asFun A (k + 1) = a' := ⟨_, rfl⟩
  rw [ha] at h1
  rw [ha'] at h2
  obtain ⟨p, hp⟩ : ∃ p, p = 2 * a * dt := ⟨_, rfl⟩
  obtain ⟨q, hq⟩ : ∃ q, q = 2 * a' * dt := ⟨_, rfl⟩
  obtain ⟨e, he⟩ : ∃ e, e = sigma * dt := ⟨_, rfl⟩
  have he0 : 0 < e := by rw [he]; positivity
  rw [← hp] at h1
  rw [← hq] at h2
  obtain ⟨r, hr⟩ : ∃ r, r = (p + q) / 2 := ⟨_, rfl⟩
  have hr0 : 0 ≤ r := by linarith
  have hr1 : r ≤ 1 := by linarith
  cases meth <;> simp only [fwdStep, rhs1, smul_eq_mul, ha, ha']
  case euler =>
    have : s + dt * (-(2 * a * s) + sigma) = s * (1 - p) + e := by rw [hp, he]; ring
    rw [this]
    have := mul_nonneg hs.le (sub_nonneg.2 h1.2)
    linarith
  case heun =>
    have : s + 0.5 * dt * (-(2 * a * s) + sigma + (-(2 * a' * (s + dt * (-(2 * a * s) + sigma))) + sigma))
        = s * ((1 - p) + (1 - q) + p * q) / 2 + e * (1 - q / 2) := by rw [hp, hq, he]; ring
    rw [this]
    have h3 : 0 ≤ s * ((1 - p) + (1 - q) + p * q) / 2 := by
      have := mul_nonneg h1.1 h2.1
      have : 0 ≤ (1 - p) + (1 - q) + p * q := by linarith
      positivity
    have h4 : 0 < e * (1 - q / 2) := mul_pos he0 (by linarith)
    linarith
  case rk2 =>
    have : s + dt * (-(2 * (0.5 * (a + a')) * (s + 0.5 * dt * (-(2 * s * s) + sigma))) + sigma)
        = s * (1 - r) + r * dt * s ^ 2 + e * (1 - r / 2) := by rw [hr, hp, hq, he]; ring
    rw [this]
    have h3 : 0 ≤ s * (1 - r) := mul_nonneg hs.le (by linarith)
    have h4 : 0 ≤ r * dt * s ^ 2 := by positivity
    have h5 : 0 < e * (1 - r / 2) := mul_pos he0 (by linarith)
    linarith
  case rk4 =>
    obtain ⟨k1, hk1⟩ : ∃ k1, k1 = -(p * s) + e := ⟨_, rfl⟩
    obtain ⟨k2, hk2⟩ : ∃ k2, k2 = -(r * (s + k1 / 2)) + e := ⟨_, rfl⟩
    obtain ⟨k3, hk3⟩ : ∃ k3, k3 = -(r * (s + k2 / 2)) + e := ⟨_, rfl⟩
    obtain ⟨k4, hk4⟩ : ∃ k4, k4 = -(q * (s + k3)) + e := ⟨_, rfl⟩
    -- bounds: -s + (something) ≤ k_i ≤ e
    have b1 : -s + e ≤ k1 := by rw [hk1]; nlinarith [mul_nonneg hs.le (sub_nonneg.2 h1.2)]
    have c1 : k1 ≤ e := by rw [hk1]; nlinarith [mul_nonneg h1.1 hs.le]
    have b2 : -s + e / 2 ≤ k2 := by
      rw [hk2]
      have := mul_le_mul_of_nonneg_left (show s + k1 / 2 ≤ s + e / 2 by linarith) hr0
      have := mul_le_mul_of_nonneg_right hr1 (show 0 ≤ s + e / 2 by positivity)
      linarith
    have c2 : k2 ≤ e := by
      rw [hk2]
      have := mul_nonneg hr0 (show 0 ≤ s + k1 / 2 by linarith)
      linarith
    have b3 : -s + e / 2 ≤ k3 := by
      rw [hk3]
      have := mul_le_mul_of_nonneg_left (show s + k2 / 2 ≤ s + e / 2 by linarith) hr0
      have := mul_le_mul_of_nonneg_right hr1 (show 0 ≤ s + e / 2 by positivity)
      linarith
    have c3 : k3 ≤ e := by
      rw [hk3]
      have := mul_nonneg hr0 (show 0 ≤ s + k2 / 2 by linarith)
      linarith
    have b4 : -s ≤ k4 := by
      rw [hk4]
      have := mul_le_mul_of_nonneg_left (show s + k3 ≤ s + e by linarith) h2.1
      have := mul_le_mul_of_nonneg_right h2.2 (show 0 ≤ s + e by positivity)
      linarith
    have : 0 < s + (1 / 6) * (k1 + 2 * (k2 + k3) + k4) := by linarith
    convert this using 1
    rw [hk4, hk3, hk2, hk1, hr, hp, hq, he]
    ring

-- Non-vacuity.
example : ∃ mt st, solveFwd .rk4 rhs1 0.1 [1, 2, 3] [0, 1, 2] 0 0.5 1 = .ok (mt, st) ∧
    ∀ a ∈ ([1, 2, 3] : List ℝ), 0 ≤ 2 * a * 0.1 ∧ 2 * a * 0.1 ≤ 1 := by
  obtain ⟨mt, st, h, _⟩ := (C16_forward_shapes .rk4 rhs1 0.1 [1, 2, 3] [0, 1, 2] 0 0.5 1).1 (by simp)
  refine ⟨mt, st, h, ?_⟩
  intro a ha
  simp at ha
  rcases ha with rfl | rfl | rfl <;> norm_num

/-- The step condition is needed: a large step gives a negative variance (Euler, `a = 2`, `dt = 1`). -/
theorem C28_condition_needed :
    ∃ mt : List ℝ, solveFwd .euler rhs1 1 [2, 2] [0, 0] 0 1 1 = .ok (mt, [1, -2]) := by
  refine ⟨[0, 0], ?_⟩
  rw [solveFwd_ok _ _ _ _ _ _ _ _ (by simp) (by simp [needA])]
  simp [List.range_succ, traj, fwdStep, rhs1, asFun]
  norm_num

end VGPA
