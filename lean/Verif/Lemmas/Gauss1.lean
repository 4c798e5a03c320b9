import Mathlib.Probability.Distributions.Gaussian.Real
import Mathlib.Probability.Moments.MGFAnalytic
import Mathlib.Analysis.Calculus.IteratedDeriv.Lemmas

/-! Moments of the one dimensional normal law. -/

namespace VGPA

open ProbabilityTheory MeasureTheory
open scoped NNReal

/-- Moment `n` of the normal law with mean `m` and variance `v`. -/
noncomputable def nmom (n : ℕ) (m : ℝ) (v : ℝ≥0) : ℝ := ∫ x, x ^ n ∂(gaussianReal m v)

theorem integrable_pow_gaussianReal (n : ℕ) (m : ℝ) (v : ℝ≥0) :
    Integrable (fun x : ℝ => x ^ n) (gaussianReal m v) := by
  have := (memLp_id_gaussianReal (μ := m) (v := v) (n : ℝ≥0)).integrable_norm_pow'
  refine (integrable_norm_iff (by fun_prop)).1 ?_
  simpa using this

theorem iteratedDeriv_gexp (m v : ℝ) (n : ℕ) (t : ℝ) :
    iteratedDeriv (n + 2) (fun t => Real.exp (m * t + v * t ^ 2 / 2)) t
      = (m + v * t) * iteratedDeriv (n + 1) (fun t => Real.exp (m * t + v * t ^ 2 / 2)) t
        + (n + 1) * v * iteratedDeriv n (fun t => Real.exp (m * t + v * t ^ 2 / 2)) t := by
  set g : ℝ → ℝ := fun t => Real.exp (m * t + v * t ^ 2 / 2) with hg
  have hcd : ContDiff ℝ ⊤ g := by rw [hg]; fun_prop
  have hd : ∀ k t, HasDerivAt (iteratedDeriv k g) (iteratedDeriv (k + 1) g t) t := by
    intro k t
    rw [iteratedDeriv_succ]
    exact (hcd.differentiable_iteratedDeriv k (by exact_mod_cast WithTop.coe_lt_top _) t).hasDerivAt
  have h1 : ∀ t, iteratedDeriv 1 g t = (m + v * t) * g t := by
    intro t
    rw [iteratedDeriv_one]
    have : HasDerivAt (fun t => m * t + v * t ^ 2 / 2) (m + v * t) t := by
      have a := ((hasDerivAt_id t).const_mul m).add ((((hasDerivAt_id t).pow 2).const_mul v).div_const 2)
      refine a.congr_deriv ?_
      simp; ring
    rw [this.exp.deriv, hg]
    ring
  induction n generalizing t with
  | zero =>
    rw [iteratedDeriv_succ]
    have : iteratedDeriv 1 g = fun t => (m + v * t) * g t := funext h1
    rw [this]
    have hg1 : HasDerivAt g (iteratedDeriv 1 g t) t := by
      have := hd 0 t
      rwa [iteratedDeriv_zero] at this
    have hl : HasDerivAt (fun t => m + v * t) v t := by
      simpa using ((hasDerivAt_id t).const_mul v).const_add m
    have := (hl.mul hg1).deriv
    rw [show (fun t => (m + v * t) * g t) = (fun t => m + v * t) * g from rfl, this]
    simp only [Pi.mul_apply, iteratedDeriv_zero, h1]
    push_cast
    ring
  | succ n ih =>
    have e : iteratedDeriv (n + 2) g
        = fun t => (m + v * t) * iteratedDeriv (n + 1) g t + (n + 1) * v * iteratedDeriv n g t := funext ih
    rw [iteratedDeriv_succ]
    conv_lhs => rw [show n + 1 + 1 = n + 2 from rfl, e]
    have hl : HasDerivAt (fun t => m + v * t) v t := by
      simpa using ((hasDerivAt_id t).const_mul v).const_add m
    have := ((hl.mul (hd (n + 1) t)).add ((hd n t).const_mul ((n + 1) * v))).deriv
    rw [show (fun t => (m + v * t) * iteratedDeriv (n + 1) g t + (n + 1) * v * iteratedDeriv n g t)
      = (fun t => m + v * t) * iteratedDeriv (n + 1) g + (fun t => (n + 1) * v * iteratedDeriv n g t) from rfl,
      this]
    push_cast
    ring

theorem nmom_eq_iteratedDeriv (n : ℕ) (m : ℝ) (v : ℝ≥0) :
    nmom n m v = iteratedDeriv n (fun t => Real.exp (m * t + v * t ^ 2 / 2)) 0 := by
  have h := iteratedDeriv_mgf_zero (X := (id : ℝ → ℝ)) (μ := gaussianReal m v) (by
    simp [integrableExpSet_id_gaussianReal]) n
  rw [mgf_id_gaussianReal] at h
  rw [h]
  rfl

@[simp] theorem nmom_zero (m : ℝ) (v : ℝ≥0) : nmom 0 m v = 1 := by simp [nmom]

@[simp] theorem nmom_one (m : ℝ) (v : ℝ≥0) : nmom 1 m v = m := by simp [nmom]

theorem nmom_succ_succ (n : ℕ) (m : ℝ) (v : ℝ≥0) :
    nmom (n + 2) m v = m * nmom (n + 1) m v + (n + 1) * v * nmom n m v := by
  rw [nmom_eq_iteratedDeriv, nmom_eq_iteratedDeriv, nmom_eq_iteratedDeriv, iteratedDeriv_gexp]
  simp

end VGPA
