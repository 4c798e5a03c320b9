import Verif.Spec.Ode
import Mathlib.Data.Nat.Factorial.Basic
import Mathlib.Algebra.BigOperators.Intervals
import Mathlib.Algebra.Algebra.Basic

/-!
# Specification: stability polynomials of the textbook schemes
-/

namespace VGPA.Spec

noncomputable section

/-- Order of each scheme. -/
def order : Scheme → ℕ
  | .euler => 1
  | .heun => 2
  | .midpoint => 2
  | .rk4 => 4

/-- Taylor polynomial of `exp` of degree `n` at `z`, in any real algebra. -/
def expTaylor {E : Type*} [Ring E] [Algebra ℝ E] (n : ℕ) (z : E) : E :=
  ∑ i ∈ Finset.range (n + 1), (1 / (i.factorial : ℝ)) • z ^ i

end

end VGPA.Spec
