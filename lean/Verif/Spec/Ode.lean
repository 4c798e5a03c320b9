import Mathlib.Algebra.Order.Archimedean.Real.Basic
import Mathlib.Algebra.Module.Basic
import Mathlib.Data.Nat.Cast.Basic
import Mathlib.Algebra.Order.Floor.Ring
import Mathlib.Tactic.FieldSimp
import Mathlib.Tactic.Ring
import Mathlib.Tactic.Linarith
import Mathlib.Tactic.NormNum

/-!
# Specification: textbook one-step integrators

Written from the textbook, without reference to the model of the repository.
`f t y` is the right-hand side of `dy/dt = f(t, y)`, `h` the (signed) step.
-/

namespace VGPA.Spec

/-- The four textbook schemes. -/
inductive Scheme | euler | heun | midpoint | rk4
  deriving DecidableEq

noncomputable section

variable {X : Type*} [AddCommGroup X] [Module ℝ X]

/-- `y_{n+1} = y_n + h f(t_n, y_n)`. -/
def eulerStep (f : ℝ → X → X) (h t : ℝ) (y : X) : X := y + h • f t y

/-- Heun (explicit trapezoid): predictor `y + h f(t, y)`, then the mean of the two slopes. -/
def heunStep (f : ℝ → X → X) (h t : ℝ) (y : X) : X :=
  y + (h / 2) • (f t y + f (t + h) (y + h • f t y))

/-- Explicit midpoint rule. -/
def midpointStep (f : ℝ → X → X) (h t : ℝ) (y : X) : X :=
  y + h • f (t + h / 2) (y + (h / 2) • f t y)

/-- Classical fourth-order Runge-Kutta. -/
def rk4Step (f : ℝ → X → X) (h t : ℝ) (y : X) : X :=
  let k1 := f t y
  let k2 := f (t + h / 2) (y + (h / 2) • k1)
  let k3 := f (t + h / 2) (y + (h / 2) • k2)
  let k4 := f (t + h) (y + h • k3)
  y + (h / 6) • (k1 + (2 : ℝ) • k2 + (2 : ℝ) • k3 + k4)

/-- One step of the named scheme. -/
def step : Scheme → (ℝ → X → X) → ℝ → ℝ → X → X
  | .euler => eulerStep
  | .heun => heunStep
  | .midpoint => midpointStep
  | .rk4 => rk4Step

/-- `f` is the piecewise linear function through the values `l` at the times `0, dt, 2 dt, ...`. -/
def LinInterp (dt : ℝ) (l : List X) (f : ℝ → X) : Prop :=
  (∀ k (h : k < l.length), f (k * dt) = l[k]) ∧
  ∀ k (h : k + 1 < l.length) (θ : ℝ), 0 ≤ θ → θ ≤ 1 →
    f ((k + θ) * dt) = (1 - θ) • l[k] + θ • l[k + 1]

/-- Such a function exists for every list and every non-zero step, so hypotheses of the form
`LinInterp dt l f` can always be met. -/
theorem exists_linInterp (dt : ℝ) (hdt : dt ≠ 0) (l : List X) : ∃ f, LinInterp dt l f := by
  refine ⟨fun t => (1 - Int.fract (t / dt)) • l.getD ⌊t / dt⌋.toNat 0
      + Int.fract (t / dt) • l.getD (⌊t / dt⌋.toNat + 1) 0, ?_, ?_⟩
  · intro k h
    have : (k : ℝ) * dt / dt = k := by field_simp
    simp [this, h]
  · intro k h θ h0 h1
    have e : ((k : ℝ) + θ) * dt / dt = θ + k := by field_simp; ring
    have hk : k < l.length := by omega
    rcases h1.lt_or_eq with h1 | rfl
    · have hfl : ⌊θ + (k : ℝ)⌋ = k := by
        rw [Int.floor_add_natCast]; simp [Int.floor_eq_zero_iff.2 ⟨h0, h1⟩]
      have hfr : Int.fract (θ + (k : ℝ)) = θ := by
        rw [Int.fract_add_natCast]; exact Int.fract_eq_self.2 ⟨h0, h1⟩
      simp only [e, hfl, hfr]
      simp [h, hk]
    · have e2 : (1 : ℝ) + k = ((k + 1 : ℕ) : ℝ) := by push_cast; ring
      simp only [e, e2]
      simp only [Int.fract_natCast, Int.floor_natCast]
      simp [h]
      
end

end VGPA.Spec
