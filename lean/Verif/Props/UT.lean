import Verif.Model.UT
import Verif.Lemmas.Cholesky
import Verif.Lemmas.GaussMv
import Mathlib.Tactic.FinCases

/-! # C12-C14: the unscented transformation -/

namespace VGPA

open Matrix ProbabilityTheory MeasureTheory

/-! ## Lemmas -/

theorem ut_sum {d : ℕ} {α : Type*} [AddCommMonoid α] [Module ℝ α] (x : Fin d → ℝ) (s : Matrix (Fin d) (Fin d) ℝ)
    (g : (Fin d → ℝ) → α) :
    ∑ i, utWeights d i • g (utChi x s i)
      = (utK d / ((d : ℝ) + utK d)) • g x
        + ((1.0 / (2.0 * ((d : ℝ) + utK d)) : ℝ) • ∑ i, g (x + s i)
          + (1.0 / (2.0 * ((d : ℝ) + utK d)) : ℝ) • ∑ i, g (x - s i)) := by
  rw [Fin.sum_univ_succ]
  simp only [utWeights, utChi, Fin.cons_zero, Fin.cons_succ]
  rw [Fin.sum_univ_add]
  simp only [Fin.append_left, Fin.append_right, Finset.smul_sum]

theorem utK_pos {d : ℕ} (hd : 0 < d) : 0 < utK d := by
  have : (0 : ℝ) < d := by exact_mod_cast hd
  unfold utK; positivity

theorem utD_pos {d : ℕ} (hd : 0 < d) : 0 < (d : ℝ) + utK d := by
  have := utK_pos hd
  positivity

theorem utWeights_pos {d : ℕ} (hd : 0 < d) (i : Fin (d + d + 1)) : 0 < utWeights d i := by
  have h1 := utK_pos hd
  have h2 := utD_pos hd
  refine Fin.cases ?_ (fun i => ?_) i
  · simp only [utWeights, Fin.cons_zero]; positivity
  · simp only [utWeights, Fin.cons_succ]; positivity

theorem utWeights_sum {d : ℕ} (hd : 0 < d) : ∑ i, utWeights d i = 1 := by
  have h2 := utD_pos hd
  have := ut_sum (α := ℝ) (0 : Fin d → ℝ) 0 (fun _ => 1)
  simp only [smul_eq_mul, mul_one, Finset.sum_const, Finset.card_univ, Fintype.card_fin, nsmul_eq_mul] at this
  rw [this]
  field_simp
  norm_num
  ring

theorem utMean {d : ℕ} (hd : 0 < d) (x : Fin d → ℝ) (s : Matrix (Fin d) (Fin d) ℝ) :
    ∑ i, utWeights d i • utChi x s i = x := by
  have h2 := utD_pos hd
  have := ut_sum x s (fun z => z)
  rw [this]
  funext a
  simp only [Pi.add_apply, Pi.smul_apply, smul_eq_mul, Finset.sum_apply, Pi.sub_apply, Finset.sum_add_distrib,
    Finset.sum_sub_distrib, Finset.sum_const, Finset.card_univ, Fintype.card_fin, nsmul_eq_mul]
  field_simp
  norm_num
  ring

theorem utCov {d : ℕ} (x : Fin d → ℝ) (s : Matrix (Fin d) (Fin d) ℝ) (a b : Fin d) :
    ∑ i, utWeights d i * ((utChi x s i a - x a) * (utChi x s i b - x b))
      = (sᵀ * s) a b / ((d : ℝ) + utK d) := by
  have := ut_sum x s (fun z => (z a - x a) * (z b - x b))
  simp only [smul_eq_mul] at this
  rw [this]
  simp only [Pi.add_apply, Pi.sub_apply, sub_self, add_sub_cancel_left, sub_sub_cancel_left, neg_mul_neg, mul_zero,
    Matrix.mul_apply, Matrix.transpose_apply]
  norm_num
  ring

theorem utApprox_pointwise {d k : ℕ} (g : (Fin d → ℝ) → (Fin k → ℝ)) (x : Fin d → ℝ)
    (P s : Matrix (Fin d) (Fin d) ℝ) (hs : utSqrt P = .ok s) :
    utApprox (fun l => .ok (l.map g)) x P
      = .ok (∑ i, utWeights d i • g (utChi x s i),
          (Matrix.of fun i => g (utChi x s i))ᵀ * utQ d * (Matrix.of fun i => g (utChi x s i))) := by
  have hY : ∀ h : ((List.ofFn (utChi x s)).map g).length = d + d + 1,
      (Matrix.of fun i : Fin (d + d + 1) => ((List.ofFn (utChi x s)).map g).get (i.cast h.symm))
        = Matrix.of fun i => g (utChi x s i) := by
    intro h
    ext i j
    simp only [List.get_eq_getElem, List.getElem_map, List.getElem_ofFn, Matrix.of_apply, Fin.val_cast, Fin.eta]
  have hlen : ((List.ofFn (utChi x s)).map g).length = d + d + 1 := by simp
  simp only [utApprox, hs]
  show (if h : ((List.ofFn (utChi x s)).map g).length = d + d + 1 then _ else _) = _
  rw [dif_pos hlen]
  show Except.ok (utWeights d ᵥ* (Matrix.of fun i : Fin (d + d + 1) =>
    ((List.ofFn (utChi x s)).map g).get (i.cast hlen.symm)), _) = _
  rw [hY hlen]
  congr 2
  funext a
  simp [Matrix.vecMul, dotProduct, Finset.sum_apply]

theorem symLower_smul {n : ℕ} (c : ℝ) (M : Matrix (Fin n) (Fin n) ℝ) : symLower (c • M) = c • symLower M := by
  ext i j; simp only [symLower, Matrix.of_apply, Matrix.smul_apply]; split_ifs <;> rfl

theorem posDef_smul_iff {n : ℕ} {c : ℝ} (hc : 0 < c) (M : Matrix (Fin n) (Fin n) ℝ) :
    (c • M).PosDef ↔ M.PosDef := by
  have aux : ∀ (c : ℝ), 0 < c → ∀ M : Matrix (Fin n) (Fin n) ℝ, M.PosDef → (c • M).PosDef := by
    intro c hc M hM
    rw [posDef_iff_quad] at hM ⊢
    refine ⟨by rw [Matrix.IsSymm, Matrix.transpose_smul, hM.1.eq], fun x hx => ?_⟩
    have : quad (c • M) x = c * quad M x := by
      simp only [quad, Matrix.smul_apply, smul_eq_mul, Finset.mul_sum]
      refine Finset.sum_congr rfl fun i _ => Finset.sum_congr rfl fun j _ => by ring
    rw [this]
    exact mul_pos hc (hM.2 x hx)
  refine ⟨fun h => ?_, aux c hc M⟩
  have := aux c⁻¹ (by positivity) _ h
  rwa [smul_smul, inv_mul_cancel₀ hc.ne', one_smul] at this

theorem utSqrt_posDef {d : ℕ} (hd : 0 < d) (P : Matrix (Fin d) (Fin d) ℝ) (hP : P.PosDef) :
    ∃ s, utSqrt P = .ok s ∧ sᵀ * s = ((d : ℝ) + utK d) • P := by
  have hc := utD_pos hd
  have hs : symLower P = P := symLower_of_isSymm (posDef_iff_quad.1 hP).1
  obtain ⟨L, hL⟩ := chol_some_of_posDef d (((d : ℝ) + utK d) • P)
    (by rw [symLower_smul, hs]; exact (posDef_smul_iff hc P).2 hP)
  refine ⟨Lᵀ, ?_, ?_⟩
  · simp only [utSqrt, npCholesky_eq_ok.2 hL]
  · rw [Matrix.transpose_transpose, (chol_spec _ _ _ hL).1, symLower_smul, hs]

theorem hadamard_one {d : ℕ} (P : Matrix (Fin d) (Fin d) ℝ) :
    (Matrix.of fun i j => P i j * (1 : Matrix (Fin d) (Fin d) ℝ) i j) = Matrix.diagonal (fun i => P i i) := by
  ext i j
  by_cases h : i = j
  · subst h; simp
  · simp [h]

theorem utSqrt_fallback {d : ℕ} (hd : 0 < d) (P : Matrix (Fin d) (Fin d) ℝ) (hS : P.IsSymm) (hP : ¬ P.PosDef)
    (hp : ∀ i, 0 < P i i) :
    ∃ s, utSqrt P = .ok s ∧ sᵀ * s = Matrix.diagonal (fun i => P i i) := by
  have hc := utD_pos hd
  have e1 : npCholesky (((d : ℝ) + utK d) • P) = .error .linAlgError := by
    apply npCholesky_err
    rw [symLower_smul, symLower_of_isSymm hS]
    exact fun h => hP ((posDef_smul_iff hc P).1 h)
  have hdiag : symLower (Matrix.diagonal (fun i => P i i)) = Matrix.diagonal (fun i => P i i) :=
    symLower_of_isSymm (Matrix.isSymm_diagonal _)
  obtain ⟨L, hL⟩ := chol_some_of_posDef d (Matrix.diagonal (fun i => P i i))
    (by rw [hdiag]; exact Matrix.PosDef.diagonal hp)
  refine ⟨Lᵀ, ?_, ?_⟩
  · simp only [utSqrt, e1, hadamard_one, npCholesky_eq_ok.2 hL]
    rfl
  · rw [Matrix.transpose_transpose, (chol_spec _ _ _ hL).1, hdiag]

/-! ## C12 -/

/-- C12: for every positive definite covariance there are `2 d + 1` weighted points, independent of the function,
with positive weights of sum one whose weighted mean and covariance are the given ones, such that the
transformation of any pointwise function succeeds and returns the weighted mean of its values. -/
theorem C12_sigma_points {d : ℕ} (hd : 0 < d) (x : Fin d → ℝ) (P : Matrix (Fin d) (Fin d) ℝ) (hP : P.PosDef) :
    ∃ (w : Fin (d + d + 1) → ℝ) (p : Fin (d + d + 1) → Fin d → ℝ),
      (∀ i, 0 < w i) ∧ ∑ i, w i = 1 ∧ ∑ i, w i • p i = x
      ∧ (∀ a b, ∑ i, w i * ((p i a - x a) * (p i b - x b)) = P a b)
      ∧ ∀ (k : ℕ) (g : (Fin d → ℝ) → (Fin k → ℝ)), ∃ C,
          utApprox (fun l => .ok (l.map g)) x P = .ok (∑ i, w i • g (p i), C) := by
  obtain ⟨s, hs, hss⟩ := utSqrt_posDef hd P hP
  have hc := utD_pos hd
  refine ⟨utWeights d, utChi x s, utWeights_pos hd, utWeights_sum hd, utMean hd x s, fun a b => ?_,
    fun k g => ⟨_, utApprox_pointwise g x P s hs⟩⟩
  rw [utCov, hss, Matrix.smul_apply, smul_eq_mul]
  field_simp

/-- C12: the function is called exactly once, on the list of those points: an error it raises is the result, and
a result with a wrong number of rows is a `ValueError`. -/
theorem C12_calls_once {d k : ℕ} (hd : 0 < d) (x : Fin d → ℝ) (P : Matrix (Fin d) (Fin d) ℝ) (hP : P.PosDef) :
    ∃ pts : List (Fin d → ℝ), pts.length = 2 * d + 1 ∧ pts.head? = some x ∧
      ∀ f : List (Fin d → ℝ) → Py (List (Fin k → ℝ)),
        (∀ e, f pts = .error e → utApprox f x P = .error e)
        ∧ (∀ y, f pts = .ok y → y.length ≠ 2 * d + 1 → utApprox f x P = .error .valueError)
        ∧ (∀ y, f pts = .ok y → y.length = 2 * d + 1 → ∃ r, utApprox f x P = .ok r) := by
  obtain ⟨s, hs, -⟩ := utSqrt_posDef hd P hP
  refine ⟨List.ofFn (utChi x s), by simp; omega, by simp [List.ofFn_succ, utChi], fun f => ⟨?_, ?_, ?_⟩⟩
  · intro e he
    simp only [utApprox, hs]
    show (f _ >>= _) = _
    rw [he]; rfl
  · intro y hy hl
    simp only [utApprox, hs]
    show (f _ >>= _) = _
    rw [hy]
    show (if h : y.length = d + d + 1 then _ else _) = _
    rw [dif_neg (by omega)]
  · intro y hy hl
    simp only [utApprox, hs]
    show ∃ r, (f _ >>= _) = _
    rw [hy]
    show ∃ r, (if h : y.length = d + d + 1 then _ else _) = _
    rw [dif_pos (by omega)]
    exact ⟨_, rfl⟩

/-- C12: the returned mean is exact for every affine function. -/
theorem C12_affine_exact {d k : ℕ} (hd : 0 < d) (x : Fin d → ℝ) (P : Matrix (Fin d) (Fin d) ℝ) (hP : P.PosDef)
    (A : Matrix (Fin k) (Fin d) ℝ) (b : Fin k → ℝ) :
    ∃ C, utApprox (fun l => .ok (l.map fun z => A *ᵥ z + b)) x P = .ok (A *ᵥ x + b, C) := by
  obtain ⟨w, p, _, h1, h2, _, h4⟩ := C12_sigma_points hd x P hP
  obtain ⟨C, hC⟩ := h4 k (fun z => A *ᵥ z + b)
  refine ⟨C, hC.trans ?_⟩
  congr 2
  simp only [smul_add, Finset.sum_add_distrib, ← Finset.sum_smul, h1, one_smul]
  congr 1
  rw [← h2, Matrix.mulVec_sum]
  exact Finset.sum_congr rfl fun i _ => (Matrix.mulVec_smul A (w i) (p i)).symm

/-- C12: the returned mean is the expectation under the normal law with the given mean and covariance, for every
function all of whose components are quadratic polynomials of the state. -/
theorem C12_quadratic_exact {d k : ℕ} (hd : 0 < d) (x : Fin d → ℝ) (P : Matrix (Fin d) (Fin d) ℝ) (hP : P.PosDef)
    (A : Fin k → Matrix (Fin d) (Fin d) ℝ) (b : Fin k → Fin d → ℝ) (c : Fin k → ℝ)
    (g : (Fin d → ℝ) → (Fin k → ℝ))
    (hg : ∀ z q, g z q = ∑ i, ∑ j, A q i j * (z i * z j) + ∑ i, b q i * z i + c q) :
    ∃ C, utApprox (fun l => .ok (l.map g)) x P
      = .ok (fun q => ∫ z, g z q ∂(multivariateGaussian (WithLp.toLp 2 x) P), C) := by
  obtain ⟨w, p, _, h1, h2, h3, h4⟩ := C12_sigma_points hd x P hP
  obtain ⟨C, hC⟩ := h4 k g
  refine ⟨C, hC.trans ?_⟩
  congr 2
  funext q
  have hm : ∀ a, ∑ i, w i * p i a = x a := by
    intro a
    have := congrFun h2 a
    simpa [Finset.sum_apply] using this
  have h5 : ∀ a b, ∑ i, w i * (p i a * p i b) = x a * x b + P a b := by
    intro a b
    have e : ∀ i, w i * (p i a * p i b) = w i * ((p i a - x a) * (p i b - x b)) + x b * (w i * p i a)
        + x a * (w i * p i b) - x a * x b * w i := fun i => by ring
    simp only [e, Finset.sum_add_distrib, Finset.sum_sub_distrib, ← Finset.mul_sum, h1, h3, hm]
    ring
  have hps := hP.posSemidef
  have hint : ∀ i j, Integrable (fun z : EuclideanSpace ℝ (Fin d) => z i * z j)
      (multivariateGaussian (WithLp.toLp 2 x) P) := fun i j => by
    have := integrable_lin2 (μ := WithLp.toLp 2 x) hps (Pi.single i 1) (Pi.single j 1)
    simpa only [lin_single] using this
  have hint1 : ∀ i, Integrable (fun z : EuclideanSpace ℝ (Fin d) => z i)
      (multivariateGaussian (WithLp.toLp 2 x) P) := fun i => by
    have := integrable_lin1 (μ := WithLp.toLp 2 x) hps (Pi.single i 1)
    simpa only [lin_single] using this
  have hval : ∀ i j, ∫ z, z i * z j ∂(multivariateGaussian (WithLp.toLp 2 x) P) = x i * x j + P i j := fun i j => by
    have := integral_lin2 (μ := WithLp.toLp 2 x) hps (Pi.single i 1) (Pi.single j 1)
    simpa only [lin_single, cvf_single] using this
  have hval1 : ∀ i, ∫ z, z i ∂(multivariateGaussian (WithLp.toLp 2 x) P) = x i := fun i => by
    have := integral_lin1 (μ := WithLp.toLp 2 x) hps (Pi.single i 1)
    simpa only [lin_single] using this
  have i2 : Integrable (fun z : EuclideanSpace ℝ (Fin d) => ∑ i, ∑ j, A q i j * (z i * z j))
      (multivariateGaussian (WithLp.toLp 2 x) P) :=
    integrable_finsetSum _ (fun i _ => integrable_finsetSum _ fun j _ => (hint i j).const_mul _)
  have i1 : Integrable (fun z : EuclideanSpace ℝ (Fin d) => ∑ i, b q i * z i)
      (multivariateGaussian (WithLp.toLp 2 x) P) :=
    integrable_finsetSum _ (fun i _ => (hint1 i).const_mul _)
  have v2 : ∫ z : EuclideanSpace ℝ (Fin d), ∑ i, ∑ j, A q i j * (z i * z j) ∂(multivariateGaussian (WithLp.toLp 2 x) P)
      = ∑ i, ∑ j, A q i j * (x i * x j + P i j) := by
    rw [integral_finsetSum Finset.univ (f := fun i (z : EuclideanSpace ℝ (Fin d)) => ∑ j, A q i j * (z i * z j))
      (fun i _ => integrable_finsetSum _ fun j _ => (hint i j).const_mul _)]
    refine Finset.sum_congr rfl fun i _ => ?_
    rw [integral_finsetSum Finset.univ (f := fun j (z : EuclideanSpace ℝ (Fin d)) => A q i j * (z i * z j))
      (fun j _ => (hint i j).const_mul _)]
    refine Finset.sum_congr rfl fun j _ => ?_
    rw [integral_const_mul, hval]
  have v1 : ∫ z : EuclideanSpace ℝ (Fin d), ∑ i, b q i * z i ∂(multivariateGaussian (WithLp.toLp 2 x) P)
      = ∑ i, b q i * x i := by
    rw [integral_finsetSum Finset.univ (f := fun i (z : EuclideanSpace ℝ (Fin d)) => b q i * z i)
      (fun i _ => (hint1 i).const_mul _)]
    refine Finset.sum_congr rfl fun i _ => ?_
    rw [integral_const_mul, hval1]
  have hR : ∫ z, g z q ∂(multivariateGaussian (WithLp.toLp 2 x) P)
      = ∑ i, ∑ j, A q i j * (x i * x j + P i j) + ∑ i, b q i * x i + c q := by
    have e : (fun z : EuclideanSpace ℝ (Fin d) => g z q)
        = fun z => (∑ i, ∑ j, A q i j * (z i * z j) + ∑ i, b q i * z i) + c q := funext fun z => hg z q
    have i21 : Integrable (fun z : EuclideanSpace ℝ (Fin d) => ∑ i, ∑ j, A q i j * (z i * z j) + ∑ i, b q i * z i)
      (multivariateGaussian (WithLp.toLp 2 x) P) := i2.add i1
    rw [e, integral_add i21 (integrable_const _), integral_add i2 i1, v2, v1]
    simp
  rw [hR]
  simp only [Finset.sum_apply, Pi.smul_apply, smul_eq_mul, hg, mul_add, Finset.sum_add_distrib, Finset.mul_sum]
  congr 1
  · congr 1
    · rw [Finset.sum_comm, ← Finset.sum_add_distrib]
      refine Finset.sum_congr rfl fun i _ => ?_
      rw [Finset.sum_comm, ← Finset.sum_add_distrib]
      refine Finset.sum_congr rfl fun j _ => ?_
      rw [← mul_add, ← h5, Finset.mul_sum]
      exact Finset.sum_congr rfl fun l _ => by ring
    · rw [Finset.sum_comm]
      refine Finset.sum_congr rfl fun i _ => ?_
      rw [← hm, Finset.mul_sum]
      exact Finset.sum_congr rfl fun l _ => by ring
  · rw [← Finset.sum_mul, h1, one_mul]

example : ∃ C, utApprox (d := 2) (k := 2) (fun l => .ok (l.map fun z => (!![1, 2; 3, 4] : Matrix (Fin 2) (Fin 2) ℝ) *ᵥ z + ![5, 6]))
    ![1, -1] 1 = .ok ((!![1, 2; 3, 4] : Matrix (Fin 2) (Fin 2) ℝ) *ᵥ ![1, -1] + ![5, 6], C) :=
  C12_affine_exact (by norm_num) _ _ Matrix.PosDef.one _ _

/-! ## C13 -/

/-- C13, what holds in the fallback branch: the transformation succeeds, the weights and the mean are exact, but
the weighted covariance of the points is the diagonal of the covariance divided by `2.05 d`. -/
theorem C13_fallback_partial {d : ℕ} (hd : 0 < d) (x : Fin d → ℝ) (P : Matrix (Fin d) (Fin d) ℝ) (hS : P.IsSymm)
    (hP : ¬ P.PosDef) (hp : ∀ i, 0 < P i i) :
    ∃ (w : Fin (d + d + 1) → ℝ) (p : Fin (d + d + 1) → Fin d → ℝ),
      (∀ i, 0 < w i) ∧ ∑ i, w i = 1 ∧ ∑ i, w i • p i = x
      ∧ (∀ a b, ∑ i, w i * ((p i a - x a) * (p i b - x b)) = if a = b then P a a / (2.05 * d) else 0)
      ∧ ∀ (k : ℕ) (g : (Fin d → ℝ) → (Fin k → ℝ)), ∃ C,
          utApprox (fun l => .ok (l.map g)) x P = .ok (∑ i, w i • g (p i), C) := by
  obtain ⟨s, hs, hss⟩ := utSqrt_fallback hd P hS hP hp
  refine ⟨utWeights d, utChi x s, utWeights_pos hd, utWeights_sum hd, utMean hd x s, fun a b => ?_,
    fun k g => ⟨_, utApprox_pointwise g x P s hs⟩⟩
  rw [utCov, hss, Matrix.diagonal_apply]
  have : (d : ℝ) + utK d = 2.05 * d := by unfold utK; ring
  rw [this]
  split_ifs <;> simp

/-- C13: when a diagonal entry is not positive, the fallback fails too and `LinAlgError` reaches the caller. -/
theorem C13_fallback_error_partial {d k : ℕ} (hd : 0 < d) (x : Fin d → ℝ) (P : Matrix (Fin d) (Fin d) ℝ)
    (hS : P.IsSymm) (i : Fin d) (hi : P i i ≤ 0) (f : List (Fin d → ℝ) → Py (List (Fin k → ℝ))) :
    utApprox f x P = .error .linAlgError := by
  have hc := utD_pos hd
  have hP : ¬ P.PosDef := fun h => by have := h.diag_pos (i := i); linarith
  have e1 : npCholesky (((d : ℝ) + utK d) • P) = .error .linAlgError := by
    apply npCholesky_err
    rw [symLower_smul, symLower_of_isSymm hS]
    exact fun h => hP ((posDef_smul_iff hc P).1 h)
  have e2 : npCholesky (Matrix.diagonal (fun i => P i i)) = .error .linAlgError := by
    apply npCholesky_err
    rw [symLower_of_isSymm (Matrix.isSymm_diagonal _)]
    intro h
    have := h.diag_pos (i := i)
    simp at this
    linarith
  have : utSqrt P = .error .linAlgError := by
    simp only [utSqrt, e1, hadamard_one, e2]
    rfl
  simp only [utApprox, this]
  rfl

theorem not_posDef_ones : ¬ (!![1, 1; 1, 1] : Matrix (Fin 2) (Fin 2) ℝ).PosDef := by
  rw [posDef_iff_quad]
  rintro ⟨-, h⟩
  have := h ![1, -1] (by intro h; have := congrFun h 0; simp at this)
  simp [quad, Fin.sum_univ_two] at this

theorem isSymm_ones : (!![1, 1; 1, 1] : Matrix (Fin 2) (Fin 2) ℝ).IsSymm := by
  ext i j; fin_cases i <;> fin_cases j <;> rfl

/-- C13 is false of the code: for the (positive semidefinite) covariance with all entries one and mean zero, the
transformation of `z ↦ z₀²` is `1 / 4.1`, not the variance `1`. -/
theorem C13_variances_violated :
    ∃ y C, utApprox (d := 2) (k := 1) (fun l => .ok (l.map fun z _ => z 0 ^ 2)) 0 !![1, 1; 1, 1] = .ok (y, C)
      ∧ y 0 = 1 / 4.1 ∧ y 0 ≠ (!![1, 1; 1, 1] : Matrix (Fin 2) (Fin 2) ℝ) 0 0 := by
  obtain ⟨w, p, _, _, _, hv, hg⟩ := C13_fallback_partial (d := 2) (by norm_num) 0 !![1, 1; 1, 1] isSymm_ones
    not_posDef_ones (by intro i; fin_cases i <;> simp)
  obtain ⟨C, hC⟩ := hg 1 (fun z _ => z 0 ^ 2)
  have : (∑ i, w i • (fun _ : Fin 1 => p i 0 ^ 2)) 0 = 1 / 4.1 := by
    have := hv 0 0
    simp only [Finset.sum_apply, Pi.smul_apply, smul_eq_mul]
    simp only [Pi.zero_apply, sub_zero, if_true, ← pow_two] at this
    rw [this]
    norm_num
  refine ⟨_, C, hC, this, ?_⟩
  rw [this]
  norm_num

/-! ## C14 -/

theorem ut_formula {d k : ℕ} (y : Fin (d + d + 1) → Fin k → ℝ) (a b : Fin k) :
    ((Matrix.of y)ᵀ * utQ d * Matrix.of y) a b
      = ∑ i, utWeights d i * ((y i a - utWeights d i * ∑ j, y j a) * (y i b - utWeights d i * ∑ j, y j b)) := by
  set Y : Matrix (Fin (d + d + 1)) (Fin k) ℝ := Matrix.of y with hY
  set W : Matrix (Fin (d + d + 1)) (Fin (d + d + 1)) ℝ := 1 - Matrix.of (fun _ j => utWeights d j) with hW
  have hZ : ∀ i a, (Wᵀ * Y) i a = y i a - utWeights d i * ∑ j, y j a := by
    intro i a
    rw [hW, Matrix.transpose_sub, Matrix.transpose_one, Matrix.sub_mul, Matrix.one_mul]
    simp [Matrix.sub_apply, Matrix.mul_apply, hY, Finset.mul_sum]
  have hC : Yᵀ * utQ d * Y = (Wᵀ * Y)ᵀ * Matrix.diagonal (utWeights d) * (Wᵀ * Y) := by
    simp only [utQ, ← hW, Matrix.transpose_mul, Matrix.transpose_transpose, Matrix.mul_assoc]
  rw [hC, Matrix.mul_apply]
  simp only [Matrix.mul_diagonal, Matrix.transpose_apply, hZ]
  exact Finset.sum_congr rfl fun i _ => by ring

/-- C14, what holds: an exact formula for the second output. With `n = 2 d + 1` weighted points and values `y_i`,
it is `∑_i w_i (y_i - w_i ∑_j y_j) (y_i - w_i ∑_j y_j)ᵀ`, which is symmetric and positive semidefinite, but is not the
weighted covariance (that would be centred at `∑_j w_j y_j`). -/
theorem C14_formula_partial {d : ℕ} (hd : 0 < d) (x : Fin d → ℝ) (P : Matrix (Fin d) (Fin d) ℝ) (hP : P.PosDef) :
    ∃ (w : Fin (d + d + 1) → ℝ) (p : Fin (d + d + 1) → Fin d → ℝ),
      (∀ i, 0 < w i) ∧ ∑ i, w i = 1 ∧ ∑ i, w i • p i = x
      ∧ ∀ (k : ℕ) (g : (Fin d → ℝ) → (Fin k → ℝ)), ∃ y C,
          utApprox (fun l => .ok (l.map g)) x P = .ok (y, C)
          ∧ (∀ a b, C a b = ∑ i, w i * ((g (p i) a - w i * ∑ j, g (p j) a) * (g (p i) b - w i * ∑ j, g (p j) b)))
          ∧ C.IsSymm ∧ (∀ v, 0 ≤ quad C v) := by
  obtain ⟨s, hs, hss⟩ := utSqrt_posDef hd P hP
  refine ⟨utWeights d, utChi x s, utWeights_pos hd, utWeights_sum hd, utMean hd x s, fun k g =>
    ⟨_, _, utApprox_pointwise g x P s hs, ?_⟩⟩
  have hform := fun a b => ut_formula (fun i => g (utChi x s i)) a b
  refine ⟨hform, ?_, ?_⟩
  · ext a b
    rw [Matrix.transpose_apply, hform, hform]
    exact Finset.sum_congr rfl fun i _ => by ring
  · intro v
    have : quad ((Matrix.of fun i => g (utChi x s i))ᵀ * utQ d * Matrix.of fun i => g (utChi x s i)) v
        = ∑ i, utWeights d i * (∑ a, v a * (g (utChi x s i) a - utWeights d i *
        ∑ j, g (utChi x s j) a)) ^ 2 := by
      simp only [quad, hform]
      generalize hz : (fun i a => g (utChi x s i) a - utWeights d i * ∑ j, g (utChi x s j) a) = z
      have hz' : ∀ i a, g (utChi x s i) a - utWeights d i * ∑ j, g (utChi x s j) a = z i a :=
        fun i a => congrFun (congrFun hz i) a
      simp only [hz']
      have e : ∀ i, utWeights d i * (∑ a, v a * z i a) ^ 2
          = ∑ a, ∑ b, v a * (utWeights d i * (z i a * z i b)) * v b := by
        intro i
        rw [pow_two, Finset.sum_mul_sum, Finset.mul_sum]
        refine Finset.sum_congr rfl fun a _ => ?_
        rw [Finset.mul_sum]
        exact Finset.sum_congr rfl fun b _ => by ring
      simp only [e]
      conv_rhs => rw [Finset.sum_comm]
      refine Finset.sum_congr rfl fun a _ => ?_
      conv_rhs => rw [Finset.sum_comm]
      refine Finset.sum_congr rfl fun b _ => ?_
      rw [Finset.mul_sum, Finset.sum_mul]
    rw [this]
    exact Finset.sum_nonneg fun i _ => mul_nonneg (utWeights_pos hd i).le (sq_nonneg _)

/-- C14 is false of the code: a constant function gets a non-zero "covariance". -/
theorem C14_constant_violated :
    ∃ y C, utApprox (d := 1) (k := 1) (fun l => .ok (l.map fun _ _ => 1)) 0 1 = .ok (y, C) ∧ C 0 0 ≠ 0 := by
  obtain ⟨s, hs, -⟩ := utSqrt_posDef (d := 1) one_pos 1 Matrix.PosDef.one
  refine ⟨_, _, utApprox_pointwise _ _ _ s hs, ?_⟩
  rw [ut_formula]
  have e0 : utWeights 1 0 = 21 / 41 := by norm_num [utWeights, utK]
  have e1 : ∀ i : Fin 2, utWeights 1 i.succ = 10 / 41 := by
    intro i
    simp only [utWeights, Fin.cons_succ]
    norm_num [utK]
  rw [Fin.sum_univ_succ]
  simp only [e0, e1]
  norm_num

end VGPA
