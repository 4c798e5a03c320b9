import Verif.Model.GradCheck
import Verif.Props.FiniteDiff
import Verif.Props.ScgQuad

/-!
# C74: the verdict of the gradient checker
-/

namespace VGPA

variable {n : ℕ}

/-- Entry `i` of the numerical gradient: the central difference with step `1e-6`. -/
noncomputable def Spec.central (F : (Fin n → ℝ) → ℝ) (x : Fin n → ℝ) (i : Fin n) : ℝ :=
  (F (Function.update x i (x i + 1e-6)) - F (Function.update x i (x i - 1e-6))) / (2 * 1e-6)

theorem asFn_pure (F : (Fin n → ℝ) → ℝ) (G : (Fin n → ℝ) → Fin n → ℝ) : (pureOracle F G).asFn = pureFn F := rfl

/-- C74: the checker never raises, prints exactly one verdict, and this is "PASSED" exactly when the Euclidean norm of the
difference between the gradient function and the central differences, divided by the number of parameters, is at
most `tol`. -/
theorem C74_verdict (F : (Fin n → ℝ) → ℝ) (G : (Fin n → ℝ) → Fin n → ℝ) (x : Fin n → ℝ) (tol : ℝ) (hn : 0 < n) :
    ∃ rel v, Scg.checkGradient (pureOracle F G) x tol () = .ok ([.started, .analytic, .numeric, .relative rel, v, .finished], ())
      ∧ ((v = .passed ∧ Real.sqrt (∑ i, (G x i - Spec.central F x i) ^ 2) / n ≤ tol)
        ∨ (v = .failed ∧ tol < Real.sqrt (∑ i, (G x i - Spec.central F x i) ^ 2) / n)) := by
  obtain ⟨g, h1, h2⟩ := C06_evaluation_points (pureFn F) F (fun _ _ => ()) (fun _ _ => rfl) x ()
  have hg : g = Spec.central F x := by
    funext i
    rw [h2 i, Spec.central]
    simp only [shifted]
    rw [← sub_eq_add_neg]
  rw [hg] at h1
  have e : norm2 (G x - Spec.central F x) = Real.sqrt (∑ i, (G x i - Spec.central F x i) ^ 2) := rfl
  unfold Scg.checkGradient
  rw [asFn_pure]
  have hd : (pureOracle F G).dfEval x () = (.ok (G x), ()) := rfl
  rw [hd]
  simp only [h1, bind, Except.bind, pure, Except.pure, e]
  refine ⟨_, _, rfl, ?_⟩
  by_cases hv : Real.sqrt (∑ i, (G x i - Spec.central F x i) ^ 2) / n ≤ tol
  · exact .inl ⟨if_pos ⟨hn.ne', hv⟩, hv⟩
  · exact .inr ⟨if_neg fun h => hv h.2, not_le.1 hv⟩

/-- C74, consequence: the exact gradient of a function passes, if the tolerance is at least `M h² / 6` with `h = 1e-6` and `M`
a bound on the third derivatives along the coordinate axes near `x`. -/
theorem C74_exact_gradient_passes (F : (Fin n → ℝ) → ℝ) (G : (Fin n → ℝ) → Fin n → ℝ) (x : Fin n → ℝ) (tol M : ℝ) (hn : 0 < n)
    (hG : ∀ i, G x i = deriv (fun t => F (Function.update x i t)) (x i))
    (hF : ∀ i, ContDiff ℝ 3 (fun t => F (Function.update x i t)))
    (hM : ∀ i, ∀ t ∈ Set.Icc (x i - 1e-6) (x i + 1e-6), |iteratedDeriv 3 (fun t => F (Function.update x i t)) t| ≤ M)
    (htol : M * (1e-6) ^ 2 / 6 ≤ tol) :
    ∃ rel, Scg.checkGradient (pureOracle F G) x tol () = .ok ([.started, .analytic, .numeric, .relative rel, .passed, .finished], ()) := by
  obtain ⟨rel, v, h, hv⟩ := C74_verdict F G x tol hn
  rcases hv with ⟨rfl, _⟩ | ⟨_, hlt⟩
  · exact ⟨rel, h⟩
  · exfalso
    obtain ⟨g, h1, h2⟩ := C06_evaluation_points (pureFn F) F (fun _ _ => ()) (fun _ _ => rfl) x ()
    have hi : ∀ i, (G x i - Spec.central F x i) ^ 2 ≤ (M * (1e-6) ^ 2 / 6) ^ 2 := by
      intro i
      have := C07_error_bound F x _ h1 i M (hF i) (hM i)
      have hc : g i = Spec.central F x i := by
        rw [h2 i, Spec.central]
        simp only [shifted]
        rw [← sub_eq_add_neg]
      dsimp only at this
      rw [← hG i, hc] at this
      rw [abs_sub_comm] at this
      exact sq_le_sq' (by linarith [neg_abs_le (G x i - Spec.central F x i)]) ((le_abs_self _).trans this)
    have hB : 0 ≤ M * (1e-6) ^ 2 / 6 := by
      have := hM ⟨0, hn⟩ (x ⟨0, hn⟩) ⟨by norm_num, by norm_num⟩
      have := (abs_nonneg _).trans this
      positivity
    have hn1 : (1 : ℝ) ≤ n := by exact_mod_cast hn
    have hs : ∑ i, (G x i - Spec.central F x i) ^ 2 ≤ ((n : ℝ) * (M * (1e-6) ^ 2 / 6)) ^ 2 := by
      calc ∑ i, (G x i - Spec.central F x i) ^ 2 ≤ ∑ _i : Fin n, (M * (1e-6) ^ 2 / 6) ^ 2 := Finset.sum_le_sum fun i _ => hi i
        _ = n * (M * (1e-6) ^ 2 / 6) ^ 2 := by simp
        _ ≤ ((n : ℝ) * (M * (1e-6) ^ 2 / 6)) ^ 2 := by
          rw [mul_pow]
          have : (n : ℝ) ≤ (n : ℝ) ^ 2 := by nlinarith
          exact mul_le_mul_of_nonneg_right this (sq_nonneg _)
    have := Real.sqrt_le_sqrt hs
    rw [Real.sqrt_sq (by positivity)] at this
    rw [lt_div_iff₀ (by linarith)] at hlt
    nlinarith

/-- C74, consequence: a gradient function with an entry that differs from the central difference by more than `n` times
the tolerance fails. -/
theorem C74_wrong_gradient_fails (F : (Fin n → ℝ) → ℝ) (G : (Fin n → ℝ) → Fin n → ℝ) (x : Fin n → ℝ) (tol : ℝ) (i : Fin n)
    (hi : n * tol < |G x i - Spec.central F x i|) :
    ∃ rel, Scg.checkGradient (pureOracle F G) x tol () = .ok ([.started, .analytic, .numeric, .relative rel, .failed, .finished], ()) := by
  have hn : 0 < n := Fin.pos i
  obtain ⟨rel, v, h, hv⟩ := C74_verdict F G x tol hn
  rcases hv with ⟨_, hle⟩ | ⟨rfl, _⟩
  · exfalso
    have h1 : |G x i - Spec.central F x i| ≤ Real.sqrt (∑ i, (G x i - Spec.central F x i) ^ 2) := by
      rw [← Real.sqrt_sq_eq_abs]
      exact Real.sqrt_le_sqrt (Finset.single_le_sum (f := fun i => (G x i - Spec.central F x i) ^ 2) (fun _ _ => sq_nonneg _)
        (Finset.mem_univ i))
    have hn' : (0 : ℝ) < n := by exact_mod_cast hn
    rw [div_le_iff₀ hn'] at hle
    linarith
  · exact ⟨rel, h⟩

/-- Non-vacuity: the gradient of a square passes with the default tolerance, twice that gradient fails. -/
example : (∃ rel, Scg.checkGradient (n := 1) (pureOracle (fun x => x 0 ^ 2) (fun x _ => 2 * x 0)) (fun _ => 1) 1e-4 ()
      = .ok ([.started, .analytic, .numeric, .relative rel, .passed, .finished], ()))
    ∧ ∃ rel, Scg.checkGradient (n := 1) (pureOracle (fun x => x 0 ^ 2) (fun x _ => 4 * x 0)) (fun _ => 1) 1e-4 ()
      = .ok ([.started, .analytic, .numeric, .relative rel, .failed, .finished], ()) := by
  constructor
  · obtain ⟨rel, v, h, hv⟩ := C74_verdict (n := 1) (fun x => x 0 ^ 2) (fun x _ => 2 * x 0) (fun _ => 1) 1e-4 one_pos
    rcases hv with ⟨rfl, _⟩ | ⟨_, hlt⟩
    · exact ⟨rel, h⟩
    · exfalso
      simp [Spec.central] at hlt
      norm_num at hlt
  · refine C74_wrong_gradient_fails _ _ _ _ 0 ?_
    simp [Spec.central]
    norm_num [abs_of_pos]

end VGPA
