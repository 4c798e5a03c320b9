import Verif.Model.Py
import Verif.Model.LinAlg
import Mathlib.Analysis.SpecialFunctions.Log.Basic
import Mathlib.Analysis.Real.Pi.Bounds

/-!
# Observation likelihood and prior, `/repo/src/var_bayes/likelihood.py`, `gaussian_like.py`, `prior_kl0.py`

The code has one class with a flag `single_dim`; the model has one structure per value of the flag, because the arrays
have different shapes. In n dimensions the observations and the state have the same dimension `d`, as the
subtraction `obs_y - m[obs_t]` demands (a trailing axis of length one, which numpy would stretch, is not modelled),
and the operator is a `d × d` matrix. Observation times are non-negative grid indices.
-/

namespace VGPA

noncomputable section

open Matrix

/-- Fancy indexing `l[ks]`: `IndexError` when an index is out of range. -/
def fancy {α : Type} (l : List α) (ks : List ℕ) : Py (List α) := ks.mapM (idx l)

/-- Assignments `l[k] = v` in order, so the last of two equal indices wins. -/
def fancyPairs {α : Type} (l : List α) (ks : List ℕ) (vs : List α) : Py (List α) :=
  (ks.zip vs).foldlM (fun l kv => setIdx l kv.1 kv.2) l

/-- Fancy assignment `l[ks] = vs`: equal lengths, or a single value for all indices. -/
def fancySet {α : Type} (l : List α) (ks : List ℕ) (vs : List α) : Py (List α) :=
  if vs.length = ks.length then fancyPairs l ks vs
  else match vs with
    | [v] => fancyPairs l ks (ks.map fun _ => v)
    | _ => .error .valueError

/-- Elementwise operation on two arrays with numpy's rule for the first axis: equal lengths, or one of them one. -/
def bcast {α β γ : Type} (f : α → β → γ) (xs : List α) (ys : List β) : Py (List γ) :=
  if xs.length = ys.length then .ok (List.zipWith f xs ys)
  else match xs, ys with
    | [x], ys => .ok (ys.map (f x))
    | xs, [y] => .ok (xs.map (f · y))
    | _, _ => .error .valueError

/-- `GaussianLikelihood.LOG2PI`, `/repo/src/var_bayes/gaussian_like.py:11-12`. -/
def log2pi : ℝ := Real.log (2.0 * Real.pi)

/-- The slots of `Likelihood` in one dimension, `/repo/src/var_bayes/likelihood.py:11`. -/
structure Like1 where
  obs_v : List ℝ
  obs_t : List ℕ
  obs_n : ℝ
  obs_h : ℝ

namespace Like1

/-- `__init__`, `/repo/src/var_bayes/likelihood.py:13-47` with `y0.ndim == 0`. Without an operator the first observation
is looked at: `IndexError` when there is none. -/
def init (values : List ℝ) (times : List ℕ) (noise : ℝ) (operator : Option ℝ) : Py Like1 :=
  match operator with
  | none => do
    let _ ← idx values 0
    .ok ⟨values, times, noise, 1⟩
  | some h => .ok ⟨values, times, noise, h⟩

/-- `noise.setter`, `/repo/src/var_bayes/likelihood.py:79-88`. -/
def setNoise (o : Like1) (v : ℝ) : Like1 := { o with obs_n := v }

/-- `gauss_1d(m, s)`, `/repo/src/var_bayes/gaussian_like.py:67-94`. The operator is not used there. `np.log` of a
non-positive noise is `nan` or `-inf`; no theorem covers that case. -/
def gauss (o : Like1) (m s : List ℝ) : Py ℝ := do
  let mo ← fancy m o.obs_t
  let so ← fancy s o.obs_t
  let Ex2 := List.zipWith (fun m s => m ^ 2 + s) mo so
  let q ← bcast (fun y m => y ^ 2 - 2.0 * y * m) o.obs_v mo
  let r ← bcast (fun q e => q + e) q Ex2
  let dim_m : ℝ := o.obs_t.length
  pure (0.5 * r.sum / o.obs_n + 0.5 * dim_m * (log2pi + Real.log o.obs_n))

/-- `gradients_1d(m, s)`, `/repo/src/var_bayes/gaussian_like.py:157-198`. -/
def gradients (o : Like1) (m s : List ℝ) : Py (List ℝ × List ℝ × List ℝ) := do
  let mo ← fancy m o.obs_t
  let so ← fancy s o.obs_t
  let Ex2 := List.zipWith (fun m s => m ^ 2 + s) mo so
  let W ← bcast (fun y m => y - o.obs_h * m) o.obs_v mo
  let dim_n := m.length
  let dm ← fancySet (List.replicate dim_n 0) o.obs_t (W.map fun w => -w / o.obs_n)
  let ds ← fancySet (List.replicate dim_n 0) o.obs_t (o.obs_t.map fun _ => 0.5 / o.obs_n)
  let q ← bcast (fun y m => y ^ 2 - 2.0 * y * m) o.obs_v mo
  let r ← bcast (fun q e => q + e + 1.0) q Ex2
  let dr ← fancySet (List.replicate dim_n 0) o.obs_t (r.map fun r => -0.5 * r / o.obs_n)
  pure (dm, ds, dr)

end Like1

/-- The slots of `Likelihood` in `d` dimensions, `/repo/src/var_bayes/likelihood.py:11`. -/
structure LikeN (d : ℕ) where
  obs_v : List (Fin d → ℝ)
  obs_t : List ℕ
  obs_n : Matrix (Fin d) (Fin d) ℝ
  obs_h : Matrix (Fin d) (Fin d) ℝ

namespace LikeN

variable {d : ℕ}

/-- `__init__`, `/repo/src/var_bayes/likelihood.py:13-47` with vector observations. -/
def init (values : List (Fin d → ℝ)) (times : List ℕ) (noise : Matrix (Fin d) (Fin d) ℝ)
    (operator : Option (Matrix (Fin d) (Fin d) ℝ)) : Py (LikeN d) :=
  match operator with
  | none => do
    let _ ← idx values 0
    .ok ⟨values, times, noise, 1⟩
  | some h => .ok ⟨values, times, noise, h⟩

/-- `gauss_nd(m, s)`, `/repo/src/var_bayes/gaussian_like.py:96-154`. The rows of `W` and `Z` are handled one by one; the
loop reads `Z[n]` and `sn_diag[n]` (line 145), where `n` counts the observations. -/
def gauss (o : LikeN d) (m : List (Fin d → ℝ)) (s : List (Matrix (Fin d) (Fin d) ℝ)) : Py ℝ := do
  let dim_m : ℝ := o.obs_v.length
  let dim_o : ℝ := d
  let mo ← fancy m o.obs_t
  let D ← bcast (fun y m => y - m) o.obs_v mo
  let W := D.map fun x => x ᵥ* o.obs_h
  let (inv_rn, inv_chol_factor) ← cholInv o.obs_n
  let diag_inv_rn := inv_rn.diag
  let Z := W.map fun w => w ᵥ* inv_chol_factorᵀ
  let sn_diag := s.map Matrix.diag
  let Eobs ← (List.range o.obs_t.length).foldlM (fun (E : ℝ) n => do
    let z ← idx Z n
    let zn_sq := z ⬝ᵥ z
    let sd ← idx sn_diag n
    pure (E + (zn_sq + diag_inv_rn ⬝ᵥ sd))) 0.0
  let ld ← logDet (.mat d d o.obs_n)
  pure (0.5 * (Eobs + dim_m * (dim_o * log2pi + ld)))

/-- `gradients_nd(m)`, `/repo/src/var_bayes/gaussian_like.py:200-243`. The third result is never written after its
allocation and stays zero. -/
def gradients (o : LikeN d) (m : List (Fin d → ℝ)) :
    Py (List (Fin d → ℝ) × List (Matrix (Fin d) (Fin d) ℝ) × List (Matrix (Fin d) (Fin d) ℝ)) := do
  let dim_n := m.length
  let mo ← fancy m o.obs_t
  let D ← bcast (fun y m => y - m) o.obs_v mo
  let W := D.map fun x => x ᵥ* o.obs_h
  let (inv_rn, _) ← cholInv o.obs_n
  let dm_ds ← (List.range o.obs_t.length).foldlM
    (fun (acc : List (Fin d → ℝ) × List (Matrix (Fin d) (Fin d) ℝ)) n => do
      let tn ← idx o.obs_t n
      let w ← idx W n
      let dm ← setIdx acc.1 tn ((-(o.obs_hᵀ) * inv_rn) *ᵥ w)
      let ds ← setIdx acc.2 tn ((0.5 : ℝ) • (o.obs_hᵀ * inv_rn * o.obs_h))
      pure (dm, ds)) (List.replicate dim_n 0, List.replicate dim_n 0)
  pure (dm_ds.1, dm_ds.2, List.replicate dim_n 0)

end LikeN

/-- A `GaussianLikelihood` in `d` dimensions whose operator is an array with one axis. `Simulation.run` passes the operator of
the parameter file, `/repo/src/var_bayes/simulation.py:199-203`, which is a list of truth values when a mask was given. -/
structure LikeV (d : ℕ) where
  obs_v : List (Fin d → ℝ)
  obs_t : List ℕ
  obs_n : Matrix (Fin d) (Fin d) ℝ
  obs_h : Fin d → ℝ

namespace LikeV

variable {d : ℕ}

/-- `gauss_nd(m, s)`, `/repo/src/var_bayes/gaussian_like.py:96-154`. Here `W` has one axis, so `W.dot(inv_chol_factor.T)` needs as many
observations as components, and `Z[n]` is a number. -/
def gauss (o : LikeV d) (m : List (Fin d → ℝ)) (s : List (Matrix (Fin d) (Fin d) ℝ)) : Py ℝ := do
  let dim_m : ℝ := o.obs_v.length
  let dim_o : ℝ := d
  let mo ← fancy m o.obs_t
  let D ← bcast (fun y m => y - m) o.obs_v mo
  let W := D.map fun x => x ⬝ᵥ o.obs_h
  let (inv_rn, inv_chol_factor) ← cholInv o.obs_n
  let diag_inv_rn := inv_rn.diag
  if h : W.length = d then do
    let Z : Fin d → ℝ := (fun i => W.get (i.cast h.symm)) ᵥ* inv_chol_factorᵀ
    let sn_diag := s.map Matrix.diag
    let Eobs ← (List.range o.obs_t.length).foldlM (fun (E : ℝ) n => do
      let z ← idx (List.ofFn Z) n
      let zn_sq := z * z
      let sd ← idx sn_diag n
      pure (E + (zn_sq + diag_inv_rn ⬝ᵥ sd))) 0.0
    let ld ← logDet (.mat d d o.obs_n)
    pure (0.5 * (Eobs + dim_m * (dim_o * log2pi + ld)))
  else .error .valueError

/-- `gradients_nd(m)`, `/repo/src/var_bayes/gaussian_like.py:200-243`. The product `H.T.dot(inv_rn).dot(H)` is a number, which numpy
writes into all entries of `dEobs_ds[tn]`. -/
def gradients (o : LikeV d) (m : List (Fin d → ℝ)) :
    Py (List (Fin d → ℝ) × List (Matrix (Fin d) (Fin d) ℝ) × List (Matrix (Fin d) (Fin d) ℝ)) := do
  let dim_n := m.length
  let mo ← fancy m o.obs_t
  let D ← bcast (fun y m => y - m) o.obs_v mo
  let W := D.map fun x => x ⬝ᵥ o.obs_h
  let (inv_rn, _) ← cholInv o.obs_n
  let dm_ds ← (List.range o.obs_t.length).foldlM
    (fun (acc : List (Fin d → ℝ) × List (Matrix (Fin d) (Fin d) ℝ)) n => do
      let tn ← idx o.obs_t n
      let w ← idx W n
      let dm ← setIdx acc.1 tn (-(w • (o.obs_h ᵥ* inv_rn)))
      let ds ← setIdx acc.2 tn (Matrix.of fun _ _ => 0.5 * ((o.obs_h ᵥ* inv_rn) ⬝ᵥ o.obs_h))
      pure (dm, ds)) (List.replicate dim_n 0, List.replicate dim_n 0)
  pure (dm_ds.1, dm_ds.2, List.replicate dim_n 0)

end LikeV

/-- `PriorKL0` in one dimension, `/repo/src/var_bayes/prior_kl0.py:12-28`. -/
structure Prior1 where
  mu0 : ℝ
  tau0 : ℝ

namespace Prior1

/-- `gauss_1d(m0, s0)`, `/repo/src/var_bayes/prior_kl0.py:46-65`. -/
def gauss (o : Prior1) (m0 s0 : ℝ) : ℝ :=
  let z0 := m0 - o.mu0
  let kl0 := -Real.log s0 - 0.5 * (1.0 - Real.log o.tau0) + 0.5 / o.tau0 * (z0 ^ 2 + s0)
  kl0

/-- `gradients_1d`, `/repo/src/var_bayes/prior_kl0.py:117-143`. -/
def gradients (o : Prior1) (m0 s0 lam0 psi0 : ℝ) : ℝ × ℝ :=
  let z0 := m0 - o.mu0
  (lam0 + z0 / o.tau0, psi0 + 0.5 * (1.0 / o.tau0 - 1.0 / s0))

end Prior1

/-- `PriorKL0` in `d` dimensions with a mean vector, `/repo/src/var_bayes/prior_kl0.py:12-28`. -/
structure PriorN (d : ℕ) where
  mu0 : Fin d → ℝ
  tau0 : Matrix (Fin d) (Fin d) ℝ

namespace PriorN

variable {d : ℕ}

/-- `gauss_nd(m0, s0)`, `/repo/src/var_bayes/prior_kl0.py:67-92`. For a vector `z0` the expression `z0.T.dot(z0)` is a
number, which the sum `+ s0 - tau0` adds to every entry. -/
def gauss (o : PriorN d) (m0 : Fin d → ℝ) (s0 : Matrix (Fin d) (Fin d) ℝ) : Py ℝ := do
  let (inv_tau0, _) ← cholInv o.tau0
  let (inv_s0, _) ← cholInv s0
  let z0 := m0 - o.mu0
  let ld ← logDet (.mat d d (o.tau0 * inv_s0))
  pure (0.5 * (ld + ∑ i, (inv_tau0 * ((Matrix.of fun _ _ => z0 ⬝ᵥ z0) + s0 - o.tau0)).diag i))

/-- `gradients_nd`, `/repo/src/var_bayes/prior_kl0.py:145-175`. -/
def gradients (o : PriorN d) (m0 : Fin d → ℝ) (s0 : Matrix (Fin d) (Fin d) ℝ) (lam0 : Fin d → ℝ)
    (psi0 : Matrix (Fin d) (Fin d) ℝ) : Py ((Fin d → ℝ) × Matrix (Fin d) (Fin d) ℝ) := do
  let (inv_tau0, _) ← cholInv o.tau0
  let (inv_s0, _) ← cholInv s0
  let z0 := m0 - o.mu0
  let sol ← npSolve o.tau0 (Matrix.replicateCol (Fin 1) z0)
  pure (lam0 + (fun i => sol i 0), psi0 + (0.5 : ℝ) • (inv_tau0 - inv_s0))

end PriorN

end

end VGPA
