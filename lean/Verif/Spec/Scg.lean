import Mathlib.Data.Matrix.Mul
import Mathlib.Analysis.Real.Sqrt

/-!
# The scaled conjugate gradient method, as in the textbooks

M. F. Møller, A scaled conjugate gradient algorithm for fast supervised learning (1993), with the scale and the restarts
of I. Nabney, Netlab (2001). `F` is the objective, `G` its gradient, `n` the number of unknowns. A state consists of the
current point, the search direction, the scale, and the number of steps taken since the last restart. Nothing here comes
from the model of the code.
-/

namespace VGPA.Spec

open Matrix

/-- Where the method is between two iterations. -/
structure ScgState (n : ℕ) where
  x : Fin n → ℝ
  d : Fin n → ℝ
  scale : ℝ
  steps : ℕ

section
variable {n : ℕ} (F : (Fin n → ℝ) → ℝ) (G : (Fin n → ℝ) → Fin n → ℝ) (S : ScgState n)

open Classical in
/-- The direction of the search: the one given if it goes downhill, else that of steepest descent. -/
noncomputable def ScgState.dir : Fin n → ℝ := if S.d ⬝ᵥ G S.x < 0 then S.d else -G S.x

/-- The slope of the objective in this direction. -/
noncomputable def ScgState.slope : ℝ := S.dir G ⬝ᵥ G S.x

/-- The squared length of the direction. -/
noncomputable def ScgState.len2 : ℝ := S.dir G ⬝ᵥ S.dir G

/-- The curvature in this direction, from the gradient at a point at distance `1/1000`. -/
noncomputable def ScgState.curvature : ℝ :=
  let s := 1 / 1000 / √(S.len2 G)
  S.dir G ⬝ᵥ (G (S.x + s • S.dir G) - G S.x) / s

open Classical in
/-- The curvature plus scale times squared length; if that is not positive, scale times squared length. -/
noncomputable def ScgState.scaled : ℝ :=
  if 0 < S.curvature G + S.scale * S.len2 G then S.curvature G + S.scale * S.len2 G else S.scale * S.len2 G

open Classical in
/-- The scale, raised if the scaled curvature was not positive. -/
noncomputable def ScgState.raised : ℝ :=
  if 0 < S.curvature G + S.scale * S.len2 G then S.scale else S.scale - S.curvature G / S.len2 G

/-- The step length: the minimum of the quadratic with this slope and scaled curvature. -/
noncomputable def ScgState.stepLength : ℝ := -(S.slope G / S.scaled G)

/-- The point the method tries. -/
noncomputable def ScgState.trial : Fin n → ℝ := S.x + S.stepLength G • S.dir G

/-- The ratio of the actual change of the objective to that of the quadratic. -/
noncomputable def ScgState.ratio : ℝ := 2 * (F (S.trial G) - F S.x) / (S.stepLength G * S.slope G)

open Classical in
/-- The scale for the next iteration: four times as large if the quadratic was poor, half as large if it was good, within
`1e-15` and `1e100`. -/
noncomputable def ScgState.newScale : ℝ :=
  if S.ratio F G < 1 / 4 then min (4 * S.raised G) (10 ^ 100)
  else if 3 / 4 < S.ratio F G then max (1 / 2 * S.raised G) (1 / 10 ^ 15)
  else S.raised G

/-- The Polak-Ribière coefficient, not below zero. -/
noncomputable def ScgState.polakRibiere : ℝ :=
  max (G (S.trial G) ⬝ᵥ (G S.x - G (S.trial G)) / S.slope G) 0

open Classical in
/-- One iteration: the trial point is taken unless the objective increases, and every `n` steps the search restarts with
steepest descent. -/
noncomputable def ScgState.next : ScgState n :=
  if F (S.trial G) ≤ F S.x then
    if S.steps + 1 = n then ⟨S.trial G, -G (S.trial G), S.newScale F G, 0⟩
    else ⟨S.trial G, S.polakRibiere G • S.dir G - G (S.trial G), S.newScale F G, S.steps + 1⟩
  else ⟨S.x, S.dir G, S.newScale F G, S.steps⟩

/-- The direction is numerically zero. -/
def ScgState.NoDirection : Prop := S.len2 G < 1 / 2 ^ 52

/-- The trial point is taken, and either the step changes no coordinate by more than `xTol` and the objective by no more than
`fTol`, or the squared norm of the gradient there is at most `1e-8`. -/
def ScgState.Converged (xTol fTol : ℝ) : Prop :=
  F (S.trial G) ≤ F S.x ∧
    ((∀ i, |S.stepLength G * S.dir G i| ≤ xTol) ∧ |F (S.trial G) - F S.x| ≤ fTol
      ∨ G (S.trial G) ⬝ᵥ G (S.trial G) ≤ 1 / 10 ^ 8)

/-- The state after `k` iterations from `x0`: steepest descent with scale one at first. -/
noncomputable def scg (x0 : Fin n → ℝ) : ℕ → ScgState n
  | 0 => ⟨x0, -G x0, 1, 0⟩
  | k + 1 => (scg x0 k).next F G

open Classical in
/-- The point the last step was made from, if the iteration from `S` is the last one and `y` was that point before. -/
noncomputable def ScgState.origin (y : Fin n → ℝ) : Fin n → ℝ := if F (S.trial G) ≤ F S.x then S.x else y

/-- The point that the last step of the first `k` iterations was made from; `x0` if there was none. -/
noncomputable def scgOrigin (x0 : Fin n → ℝ) : ℕ → Fin n → ℝ
  | 0 => x0
  | k + 1 => (scg F G x0 k).origin F G (scgOrigin x0 k)

end

end VGPA.Spec
