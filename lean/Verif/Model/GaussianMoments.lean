import Verif.Model.Py

/-!
# `GaussianMoments`, `/repo/src/var_bayes/gaussian_moments.py`

Arrays are one dimensional lists (a scalar argument becomes a list of length one, `np.atleast_1d`).
-/

namespace VGPA

noncomputable section

/-- The object's slots, `/repo/src/var_bayes/gaussian_moments.py:13`. -/
structure GaussianMoments where
  m_arr : List ℝ
  v_arr : List ℝ
  n_size : ℕ

namespace GaussianMoments

/-- `__init__`, `/repo/src/var_bayes/gaussian_moments.py:15-40`. On a shape mismatch the code evaluates
`" ... {2)".format(...)` before it can raise `RuntimeError`; the unbalanced replacement field makes `str.format`
raise `ValueError`. -/
def init (m_arr v_arr : List ℝ) : Py GaussianMoments :=
  if m_arr.length ≠ v_arr.length then .error .valueError
  else .ok { m_arr := m_arr, v_arr := v_arr, n_size := m_arr.length }

/-- An elementwise expression in `self.m_arr` and `self.v_arr`. -/
def zip (g : GaussianMoments) (f : ℝ → ℝ → ℝ) : List ℝ := List.zipWith f g.m_arr g.v_arr

/-- `__call__(order)`, `/repo/src/var_bayes/gaussian_moments.py:42-95`. -/
def call (g : GaussianMoments) (order : ℤ) : Py (List ℝ) :=
  if order = 0 then .ok (List.replicate g.n_size 1)
  else if order = 1 then .ok g.m_arr
  else if order = 2 then .ok (g.zip fun m v => m ^ 2 + v)
  else if order = 3 then .ok (g.zip fun m v => m ^ 3 + 3 * m * v)
  else if order = 4 then .ok (g.zip fun m v => m ^ 4 + 6 * (m ^ 2) * v + 3 * (v ^ 2))
  else if order = 5 then .ok (g.zip fun m v => m ^ 5 + 10 * (m ^ 3) * v + 15 * m * (v ^ 2))
  else if order = 6 then .ok (g.zip fun m v =>
    m ^ 6 + 15 * (m ^ 4) * v + 45 * (m ^ 2) * (v ^ 2) + 15 * (v ^ 3))
  else if order = 7 then .ok (g.zip fun m v =>
    m ^ 7 + 21 * (m ^ 5) * v + 105 * (m ^ 3) * (v ^ 2) + 105 * m * (v ^ 3))
  else if order = 8 then .ok (g.zip fun m v =>
    m ^ 8 + 28 * (m ^ 6) * v + 210 * (m ^ 4) * (v ^ 2) + 420 * (m ^ 2) * (v ^ 3) + 105 * (v ^ 4))
  else .error .valueError

/-- `dm(order)`, `/repo/src/var_bayes/gaussian_moments.py:97-145`. -/
def dm (g : GaussianMoments) (order : ℤ) : Py (List ℝ) :=
  if order = 1 then .ok (List.replicate g.n_size 1)
  else if order = 2 then .ok (g.zip fun m _ => 2 * m)
  else if order = 3 then .ok (g.zip fun m v => 3 * (m ^ 2 + v))
  else if order = 4 then .ok (g.zip fun m v => 4 * (m ^ 3 + 3 * m * v))
  else if order = 5 then .ok (g.zip fun m v => 5 * (m ^ 4 + 6 * (m ^ 2) * v + 3 * (v ^ 2)))
  else if order = 6 then .ok (g.zip fun m v => 6 * (m ^ 5 + 10 * (m ^ 3) * v + 15 * m * (v ^ 2)))
  else if order = 7 then .ok (g.zip fun m v =>
    7 * (m ^ 6 + 15 * (m ^ 4) * v + 45 * (m ^ 2) * (v ^ 2) + 15 * (v ^ 3)))
  else if order = 8 then .ok (g.zip fun m v =>
    8 * (m ^ 7 + 21 * (m ^ 5) * v + 105 * (m ^ 3) * (v ^ 2) + 105 * m * (v ^ 3)))
  else .error .valueError

/-- `ds(order)`, `/repo/src/var_bayes/gaussian_moments.py:147-194`. -/
def ds (g : GaussianMoments) (order : ℤ) : Py (List ℝ) :=
  if order = 1 then .ok (List.replicate g.n_size 0)
  else if order = 2 then .ok (List.replicate g.n_size 1)
  else if order = 3 then .ok (g.zip fun m _ => 3 * m)
  else if order = 4 then .ok (g.zip fun m v => 6 * (m ^ 2 + v))
  else if order = 5 then .ok (g.zip fun m v => 10 * (m ^ 3) + 30 * (m * v))
  else if order = 6 then .ok (g.zip fun m v => 15 * (m ^ 4) + 90 * (m ^ 2) * v + 45 * (v ^ 2))
  else if order = 7 then .ok (g.zip fun m v =>
    21 * (m ^ 5) + 210 * (m ^ 3) * v + 315 * m * (v ^ 2))
  else if order = 8 then .ok (g.zip fun m v =>
    28 * (m ^ 6) + 420 * (m ^ 4) * v + 1260 * (m ^ 2) * (v ^ 2) + 420 * (v ^ 3))
  else .error .valueError

end GaussianMoments

end

end VGPA
