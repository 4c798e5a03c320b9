import Verif.Props.Lorenz63
import Verif.Props.UT
import Verif.Lemmas.MatCalc

/-!
# C48-C50: energy of the Lorenz-96 model

Arrays of length `n` are written `List.ofFn m` with `m : Fin n → Fin d → ℝ`.
-/

namespace VGPA

open ProbabilityTheory MeasureTheory Matrix WithLp

variable {G : Type} {n d : ℕ}

/-! ## The closed form of the energy -/

theorem fun1_ofFn {r : ℕ} (θ : ℝ) (A : Matrix (Fin d) (Fin d) ℝ) (b : Fin d → ℝ) (χ : Fin r → Fin d → ℝ) :
    L96.fun1 θ A b (List.ofFn χ) = .ok (List.ofFn (sqMismatch (l96Batch (Matrix.of χ) θ) (Matrix.of χ) A b)) := by
  have key : ∀ (q : ℕ) (h : q = r) (X : Matrix (Fin q) (Fin d) ℝ), (∀ i j, X i j = χ (i.cast h) j) →
      List.ofFn (sqMismatch (l96Batch X θ) X A b)
        = List.ofFn (sqMismatch (l96Batch (Matrix.of χ) θ) (Matrix.of χ) A b) := by
    intro q h X hX
    subst h
    have : X = Matrix.of χ := by ext i j; exact hX i j
    rw [this]
  unfold L96.fun1
  rw [key _ (List.length_ofFn) _ (fun i j => by simp [rowsMat]; rfl)]

theorem fun2_ofFn {r : ℕ} (θ : ℝ) (m : Fin d → ℝ) (S A : Matrix (Fin d) (Fin d) ℝ) (b w : Fin d → ℝ)
    (χ : Fin r → Fin d → ℝ) :
    L96.fun2 θ m S A b w (List.ofFn χ)
      = (gradEsdeDmDs (l96Batch (Matrix.of χ) θ) (Matrix.of χ) m S A b w).map List.ofFn := by
  have key : ∀ (q : ℕ) (h : q = r) (X : Matrix (Fin q) (Fin d) ℝ), (∀ i j, X i j = χ (i.cast h) j) →
      (gradEsdeDmDs (l96Batch X θ) X m S A b w).map List.ofFn
        = (gradEsdeDmDs (l96Batch (Matrix.of χ) θ) (Matrix.of χ) m S A b w).map List.ofFn := by
    intro q h X hX
    subst h
    have : X = Matrix.of χ := by ext i j; exact hX i j
    rw [this]
  unfold L96.fun2
  rw [← key _ (List.length_ofFn) (rowsMat (List.ofFn χ)) (fun i j => by simp [rowsMat]; rfl)]
  cases gradEsdeDmDs (l96Batch (rowsMat (List.ofFn χ)) θ) (rowsMat (List.ofFn χ)) m S A b w <;> rfl

/-- `ut_approx` when the callable returns an array with one row per sigma point. -/
theorem utApprox_rows {k : ℕ} (f : List (Fin d → ℝ) → Py (List (Fin k → ℝ))) (x : Fin d → ℝ)
    (P s : Matrix (Fin d) (Fin d) ℝ) (hs : utSqrt P = .ok s) (Y : Matrix (Fin (d + d + 1)) (Fin k) ℝ)
    (hf : f (List.ofFn (utChi x s)) = .ok (List.ofFn Y)) :
    utApprox f x P = .ok (utWeights d ᵥ* Y, Yᵀ * utQ d * Y) := by
  have hl : (List.ofFn fun i => Y i).length = d + d + 1 := List.length_ofFn
  have hY : (Matrix.of fun i : Fin (d + d + 1) => (List.ofFn fun i => Y i).get (i.cast hl.symm)) = Y := by
    ext i j
    simp only [Matrix.of_apply, List.get_eq_getElem, List.getElem_ofFn, Fin.val_cast]
  unfold utApprox
  rw [hs]
  simp only [py_ok_bind]
  rw [show f (List.ofFn (utChi x s)) = .ok (List.ofFn fun i => Y i) from hf]
  simp only [py_ok_bind]
  rw [dif_pos hl, hY]
  rfl

/-- The squared mismatches at the sigma points, as the code computes them. -/
noncomputable def l96Sq (θ : ℝ) (A : Matrix (Fin d) (Fin d) ℝ) (b m : Fin d → ℝ) (s : Matrix (Fin d) (Fin d) ℝ) :
    Matrix (Fin (d + d + 1)) (Fin d) ℝ :=
  sqMismatch (l96Batch (Matrix.of (utChi m s)) θ) (Matrix.of (utChi m s)) A b

/-- What one turn of the loop computes for a positive definite covariance. -/
theorem l96_row_ok (θ : ℝ) (w : Fin d → ℝ) (A : Matrix (Fin d) (Fin d) ℝ) (b m : Fin d → ℝ)
    (S s : Matrix (Fin d) (Fin d) ℝ) (hS : S.PosDef) (hs : utSqrt S = .ok s)
    (la : List (Matrix (Fin d) (Fin d) ℝ)) (lb lm : List (Fin d → ℝ)) (ls : List (Matrix (Fin d) (Fin d) ℝ)) (t : ℕ)
    (ha : idx la t = .ok A) (hb : idx lb t = .ok b) (hm : idx lm t = .ok m) (hS' : idx ls t = .ok S) :
    L96.energyRow θ w la lb lm ls t = .ok
      { Esde := 0.5 * (w ⬝ᵥ (utWeights d ᵥ* l96Sq θ A b m s))
        Efg := utWeights d ᵥ* l96Sq θ A b m s
        Ef := e96Drift θ m S
        Edf := e96DriftDx m
        dm := fun i => ∑ r, utWeights d r * (0.5 * (w ⬝ᵥ l96Sq θ A b m s r) * (S⁻¹ *ᵥ (utChi m s r - m)) i)
        ds := Matrix.of fun i j => 0.5 * ∑ r, utWeights d r * (0.5 * (w ⬝ᵥ l96Sq θ A b m s r)
          * ((S⁻¹ *ᵥ (utChi m s r - m)) i * (S⁻¹ *ᵥ (utChi m s r - m)) j - S⁻¹ i j))
        dth := e96Drift θ m S + m ᵥ* Aᵀ - b } := by
  have hdet : S.det ≠ 0 := hS.det_pos.ne'
  have hsym : S⁻¹ᵀ = S⁻¹ := (posDef_iff_quad.1 hS.inv).1
  obtain ⟨c, hc⟩ := cholInv_posDef hS
  have hu1 := utApprox_rows (L96.fun1 θ A b) m S s hs _ (fun1_ofFn θ A b _)
  have hg : gradEsdeDmDs (l96Batch (Matrix.of (utChi m s)) θ) (Matrix.of (utChi m s)) m S A b w = .ok
      (Matrix.of fun k => Fin.append (fun j => 0.5 * ((w ⬝ᵥ l96Sq θ A b m s k) * (S⁻¹ *ᵥ utChi m s k) j))
        (fun q => 0.5 * ((w ⬝ᵥ l96Sq θ A b m s k)
          * ((S⁻¹ *ᵥ (utChi m s k - m)) (finProdFinEquiv.symm q).1
            * (S⁻¹ *ᵥ (utChi m s k - m)) (finProdFinEquiv.symm q).2)))) := by
    have hvar : ∀ k, (w ᵥ* (l96Sq θ A b m s)ᵀ) k = w ⬝ᵥ l96Sq θ A b m s k := fun k => rfl
    unfold gradEsdeDmDs
    simp only [npSolve, hdet, if_false, py_ok_bind, hc, py_pure, Except.ok.injEq]
    change (Matrix.of fun k => Fin.append
      (fun j => 0.5 * (S⁻¹ * Matrix.of fun (j : Fin d) (k : Fin (d + d + 1)) =>
        (w ᵥ* (l96Sq θ A b m s)ᵀ) k * (Matrix.of (utChi m s))ᵀ j k) j k)
      (fun q => 0.5 * Matrix.of (fun (k : Fin (d + d + 1)) (p : Fin d × Fin d) => (w ᵥ* (l96Sq θ A b m s)ᵀ) k
        * (S⁻¹ * Matrix.of (fun i j => (utChi m s k - m) i * (utChi m s k - m) j) * S⁻¹) p.1 p.2) k
          (finProdFinEquiv.symm q))) = _
    simp only [hvar]
    ext k q
    refine Fin.addCases (fun j => ?_) (fun q => ?_) q
    · simp only [Matrix.of_apply, Fin.append_left]
      rw [Matrix.mul_apply]
      simp only [Matrix.of_apply, Matrix.transpose_apply, Matrix.mulVec, dotProduct, Finset.mul_sum]
      exact Finset.sum_congr rfl fun i _ => by ring
    · simp only [Matrix.of_apply, Fin.append_right]
      have hz : (Matrix.of fun i j => (utChi m s k - m) i * (utChi m s k - m) j)
          = vecMulVec (utChi m s k - m) (utChi m s k - m) := rfl
      rw [hz, Matrix.mul_vecMulVec, Matrix.vecMulVec_mul, ← Matrix.mulVec_transpose, hsym, vecMulVec_apply]
  have hu2 := utApprox_rows (L96.fun2 θ m S A b w) m S s hs _ (by rw [fun2_ofFn, hg]; rfl)
  unfold L96.energyRow
  simp only [ha, hb, hm, hS', py_ok_bind, hu1, hu2, npSolve, hdet, if_false, py_pure, Except.ok.injEq, L96.Row.mk.injEq]
  have hsum : w ⬝ᵥ (utWeights d ᵥ* l96Sq θ A b m s) = ∑ r, utWeights d r * (w ⬝ᵥ l96Sq θ A b m s r) := by
    simp only [dotProduct, vecMul, Finset.mul_sum]
    rw [Finset.sum_comm]
    exact Finset.sum_congr rfl fun r _ => Finset.sum_congr rfl fun j _ => by ring
  refine ⟨rfl, rfl, trivial, trivial, ?_, ?_, trivial⟩
  · funext i
    have hm1 : (S⁻¹ * Matrix.of fun (i : Fin d) (_ : Fin 1) => m i) i 0 = (S⁻¹ *ᵥ m) i := rfl
    change ∑ r, utWeights d r * (Matrix.of _ : Matrix (Fin (d + d + 1)) (Fin (d + d * d)) ℝ) r (Fin.castAdd (d * d) i)
      - 0.5 * (w ⬝ᵥ (utWeights d ᵥ* l96Sq θ A b m s)) * (S⁻¹ * Matrix.of fun (i : Fin d) (_ : Fin 1) => m i) i 0 = _
    rw [hm1, hsum, Finset.mul_sum, Finset.sum_mul, ← Finset.sum_sub_distrib]
    refine Finset.sum_congr rfl fun r _ => ?_
    simp only [Matrix.of_apply, Fin.append_left, Matrix.mulVec_sub, Pi.sub_apply]
    ring
  · ext i j
    change 0.5 * (∑ r, utWeights d r * (Matrix.of _ : Matrix (Fin (d + d + 1)) (Fin (d + d * d)) ℝ) r
        (Fin.natAdd d (finProdFinEquiv (i, j)))
      - 0.5 * (w ⬝ᵥ (utWeights d ᵥ* l96Sq θ A b m s)) * (S⁻¹ * (1 : Matrix (Fin d) (Fin d) ℝ)) i j) = _
    rw [hsum, Finset.mul_sum, Finset.sum_mul, ← Finset.sum_sub_distrib]
    simp only [Matrix.of_apply, Fin.append_right, Equiv.symm_apply_apply, Matrix.mul_one]
    congr 1
    refine Finset.sum_congr rfl fun r _ => ?_
    ring

/-- The square root of the covariance that the sigma points use. -/
noncomputable def utRoot (S : Matrix (Fin d) (Fin d) ℝ) : Matrix (Fin d) (Fin d) ℝ :=
  match utSqrt S with
  | .ok s => s
  | .error _ => 0

theorem utRoot_ok (hd : 0 < d) (S : Matrix (Fin d) (Fin d) ℝ) (hS : S.PosDef) : utSqrt S = .ok (utRoot S) := by
  obtain ⟨s, hs, -⟩ := utSqrt_posDef hd S hS
  simp [utRoot, hs]

/-- `Lorenz96.energy` for positive definite covariances. -/
theorem l96_energy_eq (hd : 0 < d) (o : L96 G d) (a : Fin n → Matrix (Fin d) (Fin d) ℝ) (b m : Fin n → Fin d → ℝ)
    (s : Fin n → Matrix (Fin d) (Fin d) ℝ) (obs : Option (List ℕ)) (dt : ℝ) (hg : Spec.HasGrid o.base n dt)
    (hobs : Spec.ObsSorted obs) (hs : ∀ t, (s t).PosDef) :
    o.energy (List.ofFn a) (List.ofFn b) (List.ofFn m) (List.ofFn s) obs = .ok
      { Esde := Spec.trapezoidRule dt (List.ofFn fun t => 0.5 * (o.sig_inv.diag ⬝ᵥ
          (utWeights d ᵥ* l96Sq o.theta (a t) (b t) (m t) (utRoot (s t)))))
        Ef := List.ofFn fun t => e96Drift o.theta (m t) (s t)
        Edf := List.ofFn fun t => e96DriftDx (m t)
        dm := List.ofFn fun t i => ∑ r, utWeights d r * (0.5 * (o.sig_inv.diag ⬝ᵥ
            l96Sq o.theta (a t) (b t) (m t) (utRoot (s t)) r)
          * ((s t)⁻¹ *ᵥ (utChi (m t) (utRoot (s t)) r - m t)) i)
        ds := List.ofFn fun t => Matrix.of fun i j => 0.5 * ∑ r, utWeights d r * (0.5 * (o.sig_inv.diag ⬝ᵥ
            l96Sq o.theta (a t) (b t) (m t) (utRoot (s t)) r)
          * (((s t)⁻¹ *ᵥ (utChi (m t) (utRoot (s t)) r - m t)) i * ((s t)⁻¹ *ᵥ (utChi (m t) (utRoot (s t)) r - m t)) j
            - (s t)⁻¹ i j))
        dtheta := o.sig_inv.diag * Spec.trapezoidRule dt
          (List.ofFn fun t => e96Drift o.theta (m t) (s t) + m t ᵥ* (a t)ᵀ - b t)
        dsigma := (-0.5 : ℝ) • (o.sig_inv * Matrix.diagonal (Spec.trapezoidRule dt
          (List.ofFn fun t => utWeights d ᵥ* l96Sq o.theta (a t) (b t) (m t) (utRoot (s t)))) * o.sig_inv) } := by
  obtain ⟨tw, h1, h2, h3⟩ := hg
  have htw : o.base.timeWindow = .ok tw := by simp [Proc.timeWindow, h1]
  unfold L96.energy
  rw [htw, h3]
  simp only [py_ok_bind, h2]
  rw [range_mapM_ofFn _ _ (fun t : Fin n => l96_row_ok o.theta o.sig_inv.diag (a t) (b t) (m t) (s t) (utRoot (s t))
    (hs t) (utRoot_ok hd _ (hs t)) _ _ _ _ t (idx_ofFn a t) (idx_ofFn b t) (idx_ofFn m t) (idx_ofFn s t))]
  simp only [py_ok_bind, py_pure, List.map_ofFn, myTrapz_eq_rule _ _ _ hobs, Function.comp_def]

/-! ## C48 -/

theorem rollIdx_ne {i : Fin d} {a b : ℤ} (h1 : a < b) (h2 : b - a < d) : rollIdx a i ≠ rollIdx b i := by
  intro h
  have h0 : (0 : ℤ) < d := by omega
  have hv := congrArg Fin.val h
  simp only [rollIdx] at hv
  have e1 := Int.emod_nonneg ((i : ℤ) - a) h0.ne'
  have e2 := Int.emod_nonneg ((i : ℤ) - b) h0.ne'
  have e3 : ((i : ℤ) - a) % d = ((i : ℤ) - b) % d := by omega
  have e4 := Int.emod_eq_emod_iff_emod_sub_eq_zero.1 e3
  rw [show (i : ℤ) - a - (i - b) = b - a by ring, Int.emod_eq_of_lt (by omega) h2] at e4
  omega

theorem rollIdx_zero (i : Fin d) : rollIdx 0 i = i := by
  apply Fin.ext
  simp only [rollIdx, sub_zero]
  rw [Int.emod_eq_of_lt (by omega) (by have := i.2; omega)]
  simp

theorem l96_distinct [NeZero d] (hd : 4 ≤ d) (k : Fin d) :
    k + 1 ≠ k ∧ k ≠ k - 1 ∧ k ≠ k - 2 ∧ k + 1 ≠ k - 1 ∧ k + 1 ≠ k - 2 ∧ k - 1 ≠ k - 2 := by
  obtain ⟨h1, h2, h3⟩ := rollIdx_fin k
  have h0 := rollIdx_zero k
  have key := fun (a b : ℤ) => rollIdx_ne (i := k) (a := a) (b := b)
  have k1 := key (-1) 0 (by omega) (by omega)
  have k2 := key 0 1 (by omega) (by omega)
  have k3 := key 0 2 (by omega) (by omega)
  have k4 := key (-1) 1 (by omega) (by omega)
  have k5 := key (-1) 2 (by omega) (by omega)
  have k6 := key 1 2 (by omega) (by omega)
  rw [h0] at k1 k2 k3
  rw [h1] at k1 k4 k5
  rw [h2] at k2 k4 k6
  rw [h3] at k3 k5 k6
  exact ⟨k1, k2, k3, k4, k5, k6⟩

theorem l96_avgDrift_eq [NeZero d] (θ : ℝ) (m : Fin d → ℝ) (S : Matrix (Fin d) (Fin d) ℝ) (hS : S.PosSemidef)
    (i : Fin d) : e96Drift θ m S i = Spec.mvE m S fun x => Spec.l96Field θ x i := by
  have h : (fun x : EuclideanSpace ℝ (Fin d) => Spec.l96Field θ (ofLp x) i)
      = fun x => 1 * (lin (Pi.single (i + 1) 1 - Pi.single (i - 2) 1) x * lin (Pi.single (i - 1) 1) x)
        + lin (-Pi.single i 1) x + θ := by
    funext x
    simp only [lin_sub, lin_neg, lin_single, Spec.l96Field]
    ring
  unfold Spec.mvE
  rw [h, integral_quad hS]
  obtain ⟨h1, h2, h3⟩ := rollIdx_fin i
  simp only [lin_sub, lin_neg, lin_single, cvf_sub_left, cvf_single, e96Drift, npRoll, h1, h2, h3, id]
  ring

/-- Row `k`, column `j` of the Jacobian of the Lorenz-96 field, as an affine function of the state. -/
noncomputable def l96J [NeZero d] (k j : Fin d) : (Fin d → ℝ) × ℝ :=
  if j = k - 1 then (Pi.single (k + 1) 1 - Pi.single (k - 2) 1, 0)
  else if j = k - 2 then (-Pi.single (k - 1) 1, 0)
  else if j = k + 1 then (Pi.single (k - 1) 1, 0)
  else if j = k then (0, -1) else (0, 0)

theorem l96_jac [NeZero d] (hd : 4 ≤ d) (θ : ℝ) (x : Fin d → ℝ) (k j : Fin d) :
    Spec.jac (Spec.l96Field θ) x k j = lin (l96J k j).1 (toLp 2 x) + (l96J k j).2 := by
  obtain ⟨n1, n2, n3, n4, n5, n6⟩ := l96_distinct hd k
  unfold Spec.jac Spec.l96Field l96J
  by_cases h1 : j = k - 1
  · subst h1
    rw [if_pos rfl]
    simp only [Function.update_self, Function.update_of_ne n4, Function.update_of_ne n6.symm, Function.update_of_ne n2,
      lin_sub, lin_single]
    exact deriv_affine' _ (-x k + θ) _ fun t => by simp; ring
  rw [if_neg h1]
  by_cases h2 : j = k - 2
  · subst h2
    rw [if_pos rfl]
    simp only [Function.update_self, Function.update_of_ne n5, Function.update_of_ne n6, Function.update_of_ne n3,
      lin_neg, lin_single]
    exact deriv_affine' _ (x (k + 1) * x (k - 1) - x k + θ) _ fun t => by simp; ring
  rw [if_neg h2]
  by_cases h3 : j = k + 1
  · subst h3
    rw [if_pos rfl]
    simp only [Function.update_self, Function.update_of_ne n4.symm, Function.update_of_ne n5.symm,
      Function.update_of_ne n1.symm, lin_single]
    exact deriv_affine' _ (-x (k - 2) * x (k - 1) - x k + θ) _ fun t => by simp; ring
  rw [if_neg h3]
  by_cases h4 : j = k
  · subst h4
    rw [if_pos rfl]
    simp only [Function.update_self, Function.update_of_ne n1, Function.update_of_ne n2.symm,
      Function.update_of_ne n3.symm]
    exact deriv_affine' _ ((x (j + 1) - x (j - 2)) * x (j - 1) + θ) _ fun t => by simp [lin]; ring
  rw [if_neg h4]
  simp only [Function.update_of_ne (Ne.symm h1), Function.update_of_ne (Ne.symm h2), Function.update_of_ne (Ne.symm h3),
    Function.update_of_ne (Ne.symm h4)]
  simp [lin]

theorem l96_avgJac_eq [NeZero d] (hd : 4 ≤ d) (θ : ℝ) (m : Fin d → ℝ) (S : Matrix (Fin d) (Fin d) ℝ)
    (hS : S.PosSemidef) (k j : Fin d) :
    e96DriftDx m k j = Spec.mvE m S fun x => Spec.jac (Spec.l96Field θ) x k j := by
  obtain ⟨n1, n2, n3, n4, n5, n6⟩ := l96_distinct hd k
  obtain ⟨h1, h2, h3⟩ := rollIdx_fin k
  unfold Spec.mvE
  simp only [l96_jac hd]
  have := integral_quad (μ := toLp 2 m) hS 0 (l96J k j).2 0 0 (l96J k j).1
  simp only [zero_mul, zero_add] at this
  rw [this]
  simp only [e96DriftDx, Matrix.of_apply, npRoll, id, h1, h2, h3, l96J]
  by_cases e1 : j = k - 1
  · subst e1; simp [lin_sub, lin_single]
  rw [Function.update_of_ne e1, if_neg e1]
  by_cases e2 : j = k - 2
  · subst e2; simp [lin_neg, lin_single]
  rw [Function.update_of_ne e2, if_neg e2]
  by_cases e3 : j = k + 1
  · subst e3; simp [lin_single]
  rw [Function.update_of_ne e3, if_neg e3]
  by_cases e4 : j = k
  · subst e4; simp [lin]
  rw [Function.update_of_ne e4, if_neg e4]
  simp [lin]

/-- C48: in every dimension `d ≥ 4`, the `Ef` and `Edf` returned by `Lorenz96.energy` are the expected drift and the
expected Jacobian under the normal law. -/
theorem C48_averages [NeZero d] (hd : 4 ≤ d) (o : L96 G d) (a : Fin n → Matrix (Fin d) (Fin d) ℝ)
    (b m : Fin n → Fin d → ℝ) (s : Fin n → Matrix (Fin d) (Fin d) ℝ) (obs : Option (List ℕ)) (dt : ℝ)
    (hg : Spec.HasGrid o.base n dt) (hobs : Spec.ObsSorted obs) (hs : ∀ t, (s t).PosDef) :
    ∃ e, o.energy (List.ofFn a) (List.ofFn b) (List.ofFn m) (List.ofFn s) obs = .ok e
      ∧ e.Ef = List.ofFn (fun t i => Spec.mvE (m t) (s t) fun x => Spec.l96Field o.theta x i)
      ∧ e.Edf = List.ofFn (fun t => Matrix.of fun i j => Spec.mvE (m t) (s t) fun x =>
          Spec.jac (Spec.l96Field o.theta) x i j) := by
  refine ⟨_, l96_energy_eq (by omega) o a b m s obs dt hg hobs hs, ?_, ?_⟩
  · dsimp only
    congr 1; funext t i
    exact l96_avgDrift_eq _ _ _ (hs t).posSemidef i
  · dsimp only
    congr 1; funext t
    ext i j
    exact l96_avgJac_eq hd _ _ _ (hs t).posSemidef i j

/-- C48: the `theta` gradient of the code integrates the expected mismatch, component by component. Note that the
forcing is one number, so the derivative of `Esde` with respect to it is the sum of the returned components. -/
theorem C48_theta_integrand [NeZero d] (hd : 4 ≤ d) (o : L96 G d) (a : Fin n → Matrix (Fin d) (Fin d) ℝ)
    (b m : Fin n → Fin d → ℝ) (s : Fin n → Matrix (Fin d) (Fin d) ℝ) (obs : Option (List ℕ)) (dt : ℝ)
    (hg : Spec.HasGrid o.base n dt) (hobs : Spec.ObsSorted obs) (hs : ∀ t, (s t).PosDef) :
    ∃ e, o.energy (List.ofFn a) (List.ofFn b) (List.ofFn m) (List.ofFn s) obs = .ok e
      ∧ ∀ i, e.dtheta i = o.sig_inv i i * Spec.trapezoidRule dt (List.ofFn fun t => Spec.mvE (m t) (s t) fun x =>
          Spec.l96Field o.theta x i - (-(a t *ᵥ x) i + b t i)) := by
  refine ⟨_, l96_energy_eq (by omega) o a b m s obs dt hg hobs hs, fun i => ?_⟩
  dsimp only
  rw [Pi.mul_apply, Matrix.diag_apply, rule_apply]
  congr 3; funext t
  have h : (fun x : EuclideanSpace ℝ (Fin d) => Spec.l96Field o.theta (ofLp x) i - (-(a t *ᵥ ofLp x) i + b t i))
      = fun x => 1 * (lin (Pi.single (i + 1) 1 - Pi.single (i - 2) 1) x * lin (Pi.single (i - 1) 1) x)
        + lin (-Pi.single i 1 + a t i) x + (o.theta - b t i) := by
    funext x
    have hA : (a t *ᵥ ofLp x) i = lin (a t i) x := rfl
    simp only [lin_sub, lin_neg, lin_add, lin_single, Spec.l96Field, hA]
    ring
  unfold Spec.mvE
  rw [h, integral_quad (hs t).posSemidef]
  obtain ⟨h1, h2, h3⟩ := rollIdx_fin i
  have hA : (m t ᵥ* (a t)ᵀ) i = lin (a t i) (toLp 2 (m t)) := by
    rw [Matrix.vecMul_transpose]; rfl
  simp only [Pi.sub_apply, Pi.add_apply, hA]
  simp only [lin_sub, lin_neg, lin_add, lin_single, cvf_sub_left, cvf_single, e96Drift, npRoll, h1, h2, h3, id]
  ring

/-! ## C49 -/

theorem rollIdx_flat {r : ℕ} (k : ℤ) (i : Fin r) (j j' : Fin d) (h : (j : ℤ) - k = j') :
    rollIdx k (finProdFinEquiv (i, j)) = finProdFinEquiv (i, j') := by
  apply Fin.ext
  have hv : ∀ q : Fin d, ((finProdFinEquiv (i, q) : Fin (r * d)) : ℕ) = q + d * i := fun q => rfl
  simp only [rollIdx, hv]
  have hlt : ((j' : ℤ) + d * i) < (r * d : ℕ) := by
    have := (finProdFinEquiv (i, j')).2
    rw [hv] at this
    exact_mod_cast this
  have e : (((j : ℕ) + d * (i : ℕ) : ℕ) : ℤ) - k = j' + d * i := by push_cast; omega
  rw [e, Int.emod_eq_of_lt (by positivity) hlt]
  omega

theorem npRoll2_inner {r : ℕ} (k : ℤ) (x : Matrix (Fin r) (Fin d) ℝ) (i : Fin r) (j j' : Fin d)
    (h : (j : ℤ) - k = j') : npRoll2 k x i j = x i j' := by
  simp only [npRoll2, Matrix.of_apply, rollIdx_flat k i j j' h, Equiv.symm_apply_apply]

theorem npRoll_inner (k : ℤ) (x : Fin d → ℝ) (j j' : Fin d) (h : (j : ℤ) - k = j') : npRoll k x j = x j' := by
  unfold npRoll
  congr 1
  apply Fin.ext
  simp only [rollIdx]
  rw [h, Int.emod_eq_of_lt (by omega) (by have := j'.2; omega)]
  simp

/-- C49, the part that holds: every entry that is not in the first two columns or the last column, and every entry of
a batch with one row, is the drift of its own row. Missing: the first two columns and the last column of batches with
two rows or more, see `C49_batch_violated`. -/
theorem C49_inner_partial {r : ℕ} [NeZero d] (x : Matrix (Fin r) (Fin d) ℝ) (F : ℝ) (i : Fin r) :
    (∀ j : Fin d, 2 ≤ (j : ℕ) → (j : ℕ) + 1 < d → l96Batch x F i j = Spec.l96Field F (x i) j)
    ∧ (r = 1 → l96Batch x F i = Spec.l96Field F (x i)) := by
  rw [← l96_eq_field]
  constructor
  · intro j h1 h2
    simp only [l96Batch, Matrix.of_apply, l96]
    rw [npRoll2_inner (-1) x i j ⟨j + 1, h2⟩ (by push_cast; omega), npRoll2_inner 2 x i j ⟨j - 2, by omega⟩ (by push_cast; omega),
      npRoll2_inner 1 x i j ⟨j - 1, by omega⟩ (by push_cast; omega),
      npRoll_inner (-1) (x i) j ⟨j + 1, h2⟩ (by push_cast; omega), npRoll_inner 2 (x i) j ⟨j - 2, by omega⟩ (by push_cast; omega),
      npRoll_inner 1 (x i) j ⟨j - 1, by omega⟩ (by push_cast; omega)]
  · intro hr
    subst hr
    obtain rfl : i = 0 := Subsingleton.elim _ _
    have key : ∀ (k : ℤ) (j : Fin d), npRoll2 k x 0 j = npRoll k (x 0) j := by
      intro k j
      have : rollIdx k (finProdFinEquiv ((0 : Fin 1), j)) = finProdFinEquiv ((0 : Fin 1), rollIdx k j) := by
        apply Fin.ext
        simp [rollIdx, finProdFinEquiv]
      simp only [npRoll2, Matrix.of_apply, this, Equiv.symm_apply_apply, npRoll]
    funext j
    simp only [l96Batch, Matrix.of_apply, l96, key]

/-- C49 fails for every batch size of at least two, in every dimension of at least three: `np.roll` without an axis
takes the neighbours of the first and last columns from the adjacent rows. -/
theorem C49_batch_violated {r : ℕ} [NeZero d] (hr : 2 ≤ r) (hd : 3 ≤ d) (F : ℝ) :
    ∃ (x : Matrix (Fin r) (Fin d) ℝ) (i : Fin r) (j : Fin d), l96Batch x F i j ≠ Spec.l96Field F (x i) j := by
  refine ⟨Matrix.of fun i _ => if (i : ℕ) = 0 then 1 else 2, ⟨0, by omega⟩, ⟨d - 1, by omega⟩, ?_⟩
  have hroll : rollIdx (-1) (finProdFinEquiv ((⟨0, by omega⟩ : Fin r), (⟨d - 1, by omega⟩ : Fin d)))
      = finProdFinEquiv ((⟨1, by omega⟩ : Fin r), (⟨0, by omega⟩ : Fin d)) := by
    apply Fin.ext
    have hv : ∀ (i : Fin r) (q : Fin d), ((finProdFinEquiv (i, q) : Fin (r * d)) : ℕ) = q + d * i := fun _ _ => rfl
    simp only [rollIdx, hv]
    have h1 : d < r * d := by nlinarith
    have e : ((d - 1 + d * 0 : ℕ) : ℤ) - -1 = d := by omega
    rw [e, Int.emod_eq_of_lt (by omega) (by exact_mod_cast h1)]
    simp
  simp only [l96Batch, Matrix.of_apply]
  rw [npRoll2_inner 2 _ _ _ ⟨d - 3, by omega⟩ (by push_cast; omega),
    npRoll2_inner 1 _ _ _ ⟨d - 2, by omega⟩ (by push_cast; omega)]
  simp only [npRoll2, Matrix.of_apply, hroll, Equiv.symm_apply_apply, Spec.l96Field]
  norm_num

/-! ## C50 -/

theorem mapM_ok_forall {α β : Type} (f : α → Py β) : ∀ (l : List α) (r : List β), l.mapM f = .ok r →
    ∀ y ∈ r, ∃ x ∈ l, f x = .ok y
  | [], r, h, y, hy => by
    simp only [List.mapM_nil] at h
    injection h with h
    subst h
    simp at hy
  | x :: l, r, h, y, hy => by
    rw [List.mapM_cons] at h
    cases h1 : f x with
    | error e => simp [h1] at h
    | ok z =>
      cases h2 : l.mapM f with
      | error e => simp [h1, h2] at h
      | ok zs =>
        simp only [h1, h2, py_ok_bind, py_pure, Except.ok.injEq] at h
        subst h
        rcases List.mem_cons.1 hy with rfl | hy
        · exact ⟨x, by simp, h1⟩
        · obtain ⟨x', h3, h4⟩ := mapM_ok_forall f l zs h2 y hy
          exact ⟨x', by simp [h3], h4⟩

theorem utApprox_nonneg {k : ℕ} (hd : 0 < d) (f : List (Fin d → ℝ) → Py (List (Fin k → ℝ))) (x : Fin d → ℝ)
    (P : Matrix (Fin d) (Fin d) ℝ) (hf : ∀ l y, f l = .ok y → ∀ v ∈ y, ∀ j, 0 ≤ v j)
    (r : (Fin k → ℝ) × Matrix (Fin k) (Fin k) ℝ) (h : utApprox f x P = .ok r) (j : Fin k) : 0 ≤ r.1 j := by
  unfold utApprox at h
  cases hs : utSqrt P with
  | error e => simp [hs] at h
  | ok s =>
    cases hy : f (List.ofFn (utChi x s)) with
    | error e => simp only [hs, py_ok_bind, hy] at h; cases h
    | ok y =>
      simp only [hs, hy, py_ok_bind] at h
      split_ifs at h with hl
      simp only [py_pure, Except.ok.injEq] at h
      subst h
      change 0 ≤ ∑ i, utWeights d i * (y.get (i.cast hl.symm)) j
      refine Finset.sum_nonneg fun i _ => mul_nonneg (utWeights_pos hd i).le ?_
      exact hf _ _ hy _ (List.get_mem _ _) j

theorem l96_row_nonneg (hd : 0 < d) (θ : ℝ) (w : Fin d → ℝ) (hw : ∀ i, 0 ≤ w i)
    (la : List (Matrix (Fin d) (Fin d) ℝ)) (lb lm : List (Fin d → ℝ)) (ls : List (Matrix (Fin d) (Fin d) ℝ)) (t : ℕ)
    (row : L96.Row d) (h : L96.energyRow θ w la lb lm ls t = .ok row) : 0 ≤ row.Esde := by
  unfold L96.energyRow at h
  cases h1 : idx la t with
  | error e => simp [h1] at h
  | ok A =>
  cases h2 : idx lb t with
  | error e => simp [h1, h2] at h
  | ok b =>
  cases h3 : idx lm t with
  | error e => simp [h1, h2, h3] at h
  | ok m =>
  cases h4 : idx ls t with
  | error e => simp [h1, h2, h3, h4] at h
  | ok S =>
  cases h5 : utApprox (L96.fun1 θ A b) m S with
  | error e => simp [h1, h2, h3, h4, h5] at h
  | ok u =>
  cases h6 : utApprox (L96.fun2 θ m S A b w) m S with
  | error e => simp [h1, h2, h3, h4, h5, h6] at h
  | ok v =>
  cases h7 : npSolve S (Matrix.of fun (i : Fin d) (_ : Fin 1) => m i) with
  | error e => simp [h1, h2, h3, h4, h5, h6, h7] at h
  | ok q =>
  cases h8 : npSolve S (1 : Matrix (Fin d) (Fin d) ℝ) with
  | error e => simp [h1, h2, h3, h4, h5, h6, h7, h8] at h
  | ok q' =>
  simp only [h1, h2, h3, h4, h5, h6, h7, h8, py_ok_bind, py_pure, Except.ok.injEq] at h
  subst h
  dsimp only
  refine mul_nonneg (by norm_num) (Finset.sum_nonneg fun i _ => mul_nonneg (hw i) ?_)
  refine utApprox_nonneg hd _ _ _ (fun l y hy v hv j => ?_) _ h5 i
  unfold L96.fun1 at hy
  injection hy with hy
  subst hy
  obtain ⟨k, rfl⟩ := (List.mem_ofFn' _ _).1 hv
  exact sq_nonneg _

/-- C50: whatever the arguments, when `Lorenz96.energy` returns, its `Esde` is non-negative. -/
theorem C50_nonneg (hd : 0 < d) (o : L96 G d) (hσ : o.sigma.PosDef) (hinv : o.sig_inv = o.sigma⁻¹)
    (linear_a : List (Matrix (Fin d) (Fin d) ℝ)) (offset_b m : List (Fin d → ℝ))
    (s : List (Matrix (Fin d) (Fin d) ℝ)) (obs : Option (List ℕ)) (hobs : Spec.ObsSorted obs) (e : EnergyN d)
    (he : o.energy linear_a offset_b m s obs = .ok e) : 0 ≤ e.Esde := by
  unfold L96.energy at he
  cases h1 : o.base.timeWindow with
  | error err => simp [h1] at he
  | ok tw =>
  cases h2 : o.base.timeStep with
  | error err => simp [h1, h2] at he
  | ok dt =>
  simp only [h1, h2, py_ok_bind] at he
  cases h3 : (List.range tw.length).mapM (L96.energyRow o.theta o.sig_inv.diag linear_a offset_b m s) with
  | error err => simp [h3] at he
  | ok rows =>
  simp only [h3, py_ok_bind, py_pure, Except.ok.injEq] at he
  subst he
  dsimp only
  rw [myTrapz_eq_rule _ _ _ hobs]
  refine rule_nonneg _ (timeStep_nonneg h2) _ fun x hx => ?_
  obtain ⟨row, hrow, rfl⟩ := List.mem_map.1 hx
  obtain ⟨t, -, ht⟩ := mapM_ok_forall _ _ _ h3 row hrow
  refine l96_row_nonneg hd _ _ (fun i => ?_) _ _ _ _ t row ht
  rw [hinv]
  exact (hσ.inv.diag_pos (i := i)).le

end VGPA
