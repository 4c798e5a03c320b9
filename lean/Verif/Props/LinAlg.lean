import Verif.Lemmas.Cholesky

/-! # C09-C11: `log_det` and `chol_inv` -/

namespace VGPA

open Matrix

/-! ## C09 -/

/-- C09: `log_det` of a positive definite matrix is the logarithm of its determinant. -/
theorem C09_matrix {n : ℕ} (M : Matrix (Fin n) (Fin n) ℝ) (hM : M.PosDef) :
    logDet (.mat n n M) = .ok (Real.log M.det) := by
  have hs : symLower M = M := symLower_of_isSymm (posDef_iff_quad.1 hM).1
  obtain ⟨L, hL⟩ := chol_some_of_posDef n M (by rw [hs]; exact hM)
  obtain ⟨h1, _, h3, _⟩ := chol_spec n M L hL
  obtain ⟨hd, _⟩ := chol_det hL
  have hsub : M.submatrix id (Fin.cast (rfl : n = n)) = M := rfl
  have hc : npCholesky M = .ok L := npCholesky_eq_ok.2 hL
  simp only [logDet, ne_eq, not_true, dite_false]
  rw [hsub, hc]
  have : M.det = (∏ i, L i i) * ∏ i, L i i := by
    rw [← hd, ← hs, ← h1, Matrix.det_mul, Matrix.det_transpose]
  have hp : (∏ i, L i i) ≠ 0 := (Finset.prod_pos fun i _ => h3 i).ne'
  rw [this, Real.log_mul hp hp, Real.log_prod (fun i _ => (h3 i).ne')]
  show Except.ok _ = Except.ok _
  congr 1
  norm_num
  ring

/-- C09: `log_det` of a positive number is its logarithm. -/
theorem C09_scalar (x : ℝ) (_ : 0 < x) : logDet (.scalar x) = .ok (Real.log x) := rfl

theorem symLower_diagonal {n : ℕ} (v : Fin n → ℝ) : symLower (Matrix.diagonal v) = Matrix.diagonal v :=
  symLower_of_isSymm (Matrix.isSymm_diagonal v)

/-- C09: `log_det` of a positive vector is the sum of the logarithms. -/
theorem C09_vector {n : ℕ} (v : Fin n → ℝ) (hv : ∀ i, 0 < v i) :
    logDet (.vec n v) = .ok (∑ i, Real.log (v i)) := by
  have h := C09_matrix (Matrix.diagonal v) (Matrix.PosDef.diagonal hv)
  rw [Matrix.det_diagonal, Real.log_prod (fun i _ => (hv i).ne')] at h
  have hsub : ∀ M : Matrix (Fin n) (Fin n) ℝ, M.submatrix id (Fin.cast (rfl : n = n)) = M := fun _ => rfl
  rw [← h]
  simp only [logDet, ne_eq, not_true, dite_false]
  rw [hsub]

/-- C09: `log_det` of a vector with an entry that is not positive raises `LinAlgError`. -/
theorem C09_vector_error {n : ℕ} (v : Fin n → ℝ) (i : Fin n) (hv : v i ≤ 0) :
    logDet (.vec n v) = .error .linAlgError := by
  have : ¬ (symLower (Matrix.diagonal v)).PosDef := by
    rw [symLower_diagonal]
    intro h
    have := h.diag_pos (i := i)
    simp at this
    linarith
  simp only [logDet, npCholesky_err _ this]
  rfl

/-- C09: `log_det` of a matrix that is not square raises `RuntimeError`. -/
theorem C09_not_square {r c : ℕ} (h : r ≠ c) (M : Matrix (Fin r) (Fin c) ℝ) :
    logDet (.mat r c M) = .error .runtimeError := by
  simp [logDet, h]

/-- C09: `log_det` of a symmetric matrix that is not positive definite raises `LinAlgError`. -/
theorem C09_not_posDef {n : ℕ} (M : Matrix (Fin n) (Fin n) ℝ) (hs : M.IsSymm) (hM : ¬ M.PosDef) :
    logDet (.mat n n M) = .error .linAlgError := by
  have hsub : M.submatrix id (Fin.cast (rfl : n = n)) = M := rfl
  have := npCholesky_err M (by rwa [symLower_of_isSymm hs])
  simp only [logDet, ne_eq, not_true, dite_false]
  rw [hsub, this]
  rfl

/-! ## C10 -/

theorem cholInv_eq {n : ℕ} {x L : Matrix (Fin n) (Fin n) ℝ} (hL : chol n x = some L) :
    cholInv x = .ok ((L⁻¹)ᵀ * L⁻¹, L⁻¹) := by
  obtain ⟨_, hd⟩ := chol_det hL
  have hsolve : npSolve L (1 : Matrix (Fin n) (Fin n) ℝ) = .ok L⁻¹ := by
    unfold npSolve
    rw [if_neg hd.ne', Matrix.mul_one]
  simp only [cholInv, cholInvFast, npCholesky_eq_ok.2 hL]
  show (npSolve L 1 >>= fun c_inv => _) = _
  rw [hsolve]
  rfl

/-- C10: for every positive definite `x`, `chol_inv(x)` returns `(y, c)` with `y` the two-sided inverse of `x`,
`y = cᵀ c` (hence symmetric), and `c` lower triangular with positive diagonal, whitening `x`. -/
theorem C10_inverse {n : ℕ} (x : Matrix (Fin n) (Fin n) ℝ) (hx : x.PosDef) :
    ∃ y c, cholInv x = .ok (y, c) ∧ y * x = 1 ∧ x * y = 1 ∧ y = cᵀ * c ∧ yᵀ = y
      ∧ (∀ i j, i < j → c i j = 0) ∧ (∀ i, 0 < c i i) ∧ c * x * cᵀ = 1 := by
  have hs : symLower x = x := symLower_of_isSymm (posDef_iff_quad.1 hx).1
  obtain ⟨L, hL⟩ := chol_some_of_posDef n x (by rw [hs]; exact hx)
  obtain ⟨h1, h2, h3, _⟩ := chol_spec n x L hL
  obtain ⟨_, hd⟩ := chol_det hL
  rw [hs] at h1
  have hu : IsUnit L.det := isUnit_iff_ne_zero.2 hd.ne'
  have hut : IsUnit Lᵀ.det := by rw [Matrix.det_transpose]; exact hu
  have hyx : (L⁻¹)ᵀ * L⁻¹ * x = 1 := by
    rw [← h1, Matrix.mul_assoc, ← Matrix.mul_assoc L⁻¹, Matrix.nonsing_inv_mul _ hu, Matrix.one_mul,
      Matrix.transpose_nonsing_inv, Matrix.nonsing_inv_mul _ hut]
  have hlow : ∀ i j, i < j → L⁻¹ i j = 0 := by
    have hb : L.IsLowerTriangular := fun i j hij => h2 i j hij
    letI := Matrix.invertibleOfIsUnitDet L hu
    have := Matrix.blockTriangular_inv_of_blockTriangular hb
    exact fun i j hij => this hij
  refine ⟨_, _, cholInv_eq hL, hyx, ?_, rfl, ?_, hlow, ?_, ?_⟩
  · exact mul_eq_one_comm.1 hyx
  · rw [Matrix.transpose_mul, Matrix.transpose_transpose]
  · intro i
    have : (L * L⁻¹) i i = 1 := by rw [Matrix.mul_nonsing_inv _ hu, Matrix.one_apply_eq]
    rw [Matrix.mul_apply, Finset.sum_eq_single i] at this
    · have hLi := h3 i
      by_contra hneg
      have := mul_nonpos_of_nonneg_of_nonpos hLi.le (not_lt.1 hneg)
      linarith
    · intro k _ hk
      rcases lt_or_gt_of_ne hk with h | h
      · rw [hlow k i h, mul_zero]
      · rw [h2 i k h, zero_mul]
    · simp
  · rw [← h1, ← Matrix.mul_assoc, Matrix.nonsing_inv_mul _ hu, Matrix.one_mul, Matrix.transpose_nonsing_inv,
      Matrix.mul_nonsing_inv _ hut]

/-- C10: for every symmetric matrix that is not positive definite, `chol_inv` raises `LinAlgError`. -/
theorem C10_error {n : ℕ} (x : Matrix (Fin n) (Fin n) ℝ) (hs : x.IsSymm) (hx : ¬ x.PosDef) :
    cholInv x = .error .linAlgError := by
  simp only [cholInv, cholInvFast, npCholesky_err x (by rwa [symLower_of_isSymm hs])]
  rfl

/-- C10: the scalar case agrees with the matrix case: an inverse and an inverse square root. -/
theorem C10_scalar (x : ℝ) (hx : 0 < x) :
    (cholInvScalar x).1 * x = 1 ∧ (cholInvScalar x).1 = (cholInvScalar x).2 ^ 2 ∧ 0 < (cholInvScalar x).2 := by
  have hr : 0 < Real.sqrt x := Real.sqrt_pos.2 hx
  refine ⟨?_, ?_, ?_⟩
  · simp only [cholInvScalar]; field_simp; norm_num
  · simp only [cholInvScalar]
    rw [div_pow, Real.sq_sqrt hx.le]; norm_num
  · simp only [cholInvScalar]
    have : (0 : ℝ) < 1.0 := by norm_num
    positivity

/-! ## C11 -/

/-- C11: two matrices that agree on and below the diagonal give the same `chol_inv` and the same `log_det`. -/
theorem C11_lower_triangle_only {n : ℕ} (M M' : Matrix (Fin n) (Fin n) ℝ) (h : ∀ i j, j ≤ i → M i j = M' i j) :
    cholInv M = cholInv M' ∧ logDet (.mat n n M) = logDet (.mat n n M') := by
  have hc : npCholesky M = npCholesky M' := by simp only [npCholesky, chol_lower_only n M M' h]
  refine ⟨by simp only [cholInv, cholInvFast, hc], ?_⟩
  have hsub : ∀ M : Matrix (Fin n) (Fin n) ℝ, M.submatrix id (Fin.cast (rfl : n = n)) = M := fun _ => rfl
  simp only [logDet, ne_eq, not_true, dite_false]
  rw [hsub, hsub, hc]

/-- C11: for any square matrix, the results are those of the symmetric matrix built from its lower triangle. -/
theorem C11_result_of_symmetrised {n : ℕ} (M A : Matrix (Fin n) (Fin n) ℝ) (hA : A.IsSymm)
    (h : ∀ i j, j ≤ i → A i j = M i j) :
    (A.PosDef → ∃ c, cholInv M = .ok (A⁻¹, c) ∧ logDet (.mat n n M) = .ok (Real.log A.det))
      ∧ (¬ A.PosDef → cholInv M = .error .linAlgError ∧ logDet (.mat n n M) = .error .linAlgError) := by
  obtain ⟨e1, e2⟩ := C11_lower_triangle_only M A (fun i j hij => (h i j hij).symm)
  rw [e1, e2]
  refine ⟨fun hp => ?_, fun hp => ⟨C10_error A hA hp, C09_not_posDef A hA hp⟩⟩
  obtain ⟨y, c, h1, h2, _⟩ := C10_inverse A hp
  refine ⟨c, ?_, C09_matrix A hp⟩
  rw [h1, Matrix.inv_eq_left_inv h2]

/-- C11, the consequence for a caller: there is a non-singular, non-symmetric argument whose `chol_inv` is
returned without an error and is not its inverse. -/
theorem C11_not_the_inverse :
    ∃ (M y c : Matrix (Fin 2) (Fin 2) ℝ), M.det = 1 ∧ cholInv M = .ok (y, c) ∧ y * M ≠ 1 := by
  obtain ⟨c, hc, -⟩ := (C11_result_of_symmetrised (!![1, 5; 0, 1] : Matrix (Fin 2) (Fin 2) ℝ) 1
    Matrix.isSymm_one (by intro i j; fin_cases i <;> fin_cases j <;> simp)).1 Matrix.PosDef.one
  refine ⟨!![1, 5; 0, 1], _, c, by simp [Matrix.det_fin_two], hc, ?_⟩
  intro h
  have := congrFun (congrFun h 0) 1
  simp at this

/-! ## Instances -/

/-- A non-diagonal positive definite matrix. -/
theorem posDef_witness : (!![2, 1; 1, 2] : Matrix (Fin 2) (Fin 2) ℝ).PosDef := by
  rw [posDef_iff_quad]
  refine ⟨by ext i j; fin_cases i <;> fin_cases j <;> rfl, fun x hx => ?_⟩
  have : quad (!![2, 1; 1, 2] : Matrix (Fin 2) (Fin 2) ℝ) x = x 0 ^ 2 + x 1 ^ 2 + (x 0 + x 1) ^ 2 := by
    simp [quad, Fin.sum_univ_two]; ring
  rw [this]
  by_contra h
  have h0 : x 0 = 0 := by nlinarith [sq_nonneg (x 0), sq_nonneg (x 1), sq_nonneg (x 0 + x 1)]
  have h1 : x 1 = 0 := by nlinarith [sq_nonneg (x 0), sq_nonneg (x 1), sq_nonneg (x 0 + x 1)]
  exact hx (by funext i; fin_cases i <;> simpa)

example : logDet (.mat 2 2 !![2, 1; 1, 2]) = .ok (Real.log 3) := by
  rw [C09_matrix _ posDef_witness]; simp [Matrix.det_fin_two]; norm_num

example : ∃ y c, cholInv (!![2, 1; 1, 2] : Matrix (Fin 2) (Fin 2) ℝ) = .ok (y, c) :=
  let ⟨y, c, h, _⟩ := C10_inverse _ posDef_witness; ⟨y, c, h⟩

/-- A symmetric matrix that is not positive definite. -/
example : logDet (.mat 2 2 !![1, 2; 2, 1]) = .error .linAlgError := by
  refine C09_not_posDef _ (by ext i j; fin_cases i <;> fin_cases j <;> rfl) ?_
  rw [posDef_iff_quad]
  rintro ⟨-, h⟩
  have := h ![1, -1] (by intro h; have := congrFun h 0; simp at this)
  simp [quad, Fin.sum_univ_two] at this
  linarith

end VGPA
