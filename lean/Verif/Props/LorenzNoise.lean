import Verif.Props.Traj
import Mathlib.Analysis.Matrix.PosDef
import Mathlib.Analysis.Matrix.Spectrum

/-!
# C30, C31: the system noise matrix of the Lorenz models
-/

namespace VGPA

variable {G : Type}

open Matrix

/-! ## Eigenvalues of symmetric matrices -/

theorem isSymm_iff_hermitian {n : ℕ} {M : Matrix (Fin n) (Fin n) ℝ} : M.IsSymm ↔ M.IsHermitian := by
  rw [Matrix.IsSymm, Matrix.IsHermitian, Matrix.conjTranspose_eq_transpose_of_trivial]

/-- The eigenvalues numpy computes for a symmetric matrix are the real eigenvalues of linear algebra. -/
theorem mem_npEigvals {n : ℕ} {M : Matrix (Fin n) (Fin n) ℝ} (h : M.IsHermitian) (z : ℂ) :
    z ∈ npEigvals M ↔ ∃ i, z = (h.eigenvalues i : ℂ) := by
  have e : (M.map Complex.ofReal).charpoly = ∏ i, (Polynomial.X - Polynomial.C (h.eigenvalues i : ℂ)) := by
    have := Matrix.charpoly_map M Complex.ofRealHom
    rw [show M.map Complex.ofReal = M.map Complex.ofRealHom from rfl, this, h.charpoly_eq]
    simp [Polynomial.map_prod]
  unfold npEigvals
  rw [e, Polynomial.roots_prod _ _ (by simp [Finset.prod_ne_zero_iff, Polynomial.X_sub_C_ne_zero])]
  simp [eq_comm]

theorem eig_pos_iff {n : ℕ} {M : Matrix (Fin n) (Fin n) ℝ} (h : M.IsSymm) :
    ((∀ z ∈ npEigvals M, npGtZero z) ↔ M.PosDef) ∧ ((¬ ∃ z ∈ npEigvals M, npLeZero z) ↔ M.PosDef)
      ∧ ((∀ z ∈ npEigvals M, npLeZero z) ↔ (-M).PosSemidef) := by
  have hh := isSymm_iff_hermitian.1 h
  have hn : (-M).IsHermitian := hh.neg
  have e1 : (∀ z ∈ npEigvals M, npGtZero z) ↔ ∀ i, 0 < hh.eigenvalues i := by
    simp only [mem_npEigvals hh]
    constructor
    · intro H i
      rcases H _ ⟨i, rfl⟩ with h | h <;> simp at h
      exact h
    · rintro H z ⟨i, rfl⟩
      left; simpa using H i
  have e2 : (¬ ∃ z ∈ npEigvals M, npLeZero z) ↔ ∀ i, 0 < hh.eigenvalues i := by
    simp only [mem_npEigvals hh]
    constructor
    · intro H i
      by_contra hc
      apply H
      refine ⟨_, ⟨i, rfl⟩, ?_⟩
      rcases lt_or_eq_of_le (not_lt.1 hc) with h | h
      · left; simpa using h
      · right; simp [h]
    · rintro H ⟨z, ⟨i, rfl⟩, hz⟩
      have := H i
      rcases hz with h | h <;> simp at h <;> linarith
  have e3 : (∀ z ∈ npEigvals M, npLeZero z) ↔ ∀ i, hh.eigenvalues i ≤ 0 := by
    simp only [mem_npEigvals hh]
    constructor
    · intro H i
      rcases H _ ⟨i, rfl⟩ with h | h <;> simp at h <;> linarith
    · rintro H z ⟨i, rfl⟩
      rcases lt_or_eq_of_le (H i) with h | h
      · left; simpa using h
      · right; simp [h]
  refine ⟨e1.trans hh.posDef_iff_eigenvalues_pos.symm, e2.trans hh.posDef_iff_eigenvalues_pos.symm, e3.trans ?_⟩
  rw [hn.posSemidef_iff_eigenvalues_nonneg]
  have s1 := hh.spectrum_real_eq_range_eigenvalues
  have s2 := hn.spectrum_real_eq_range_eigenvalues
  rw [← spectrum.neg_eq] at s2
  constructor
  · intro H i
    have : hn.eigenvalues i ∈ -spectrum ℝ M := by rw [s2]; exact ⟨i, rfl⟩
    rw [Set.mem_neg, s1] at this
    obtain ⟨j, hj⟩ := this
    have := H j
    show (0 : ℝ) ≤ hn.eigenvalues i
    linarith
  · intro H i
    have : -hh.eigenvalues i ∈ -spectrum ℝ M := by rw [Set.mem_neg, neg_neg, s1]; exact ⟨i, rfl⟩
    rw [s2] at this
    obtain ⟨j, hj⟩ := this
    have : (0 : ℝ) ≤ hn.eigenvalues j := H j
    linarith

/-! ## C30 -/

namespace Spec

/-- A seed that numpy accepts. -/
def SeedOk (seed : Option ℤ) : Prop := ∀ s, seed = some s → 0 ≤ s

end Spec

theorem proc_init_ok {X : Type} (R : Rng G) (g : G) (seed : Option ℤ) (b : Bool) (h : Spec.SeedOk seed) :
    ∃ p, (Proc.init R g seed b : Py (Proc G X)) = .ok p := by
  cases seed with
  | none => exact ⟨_, rfl⟩
  | some s =>
    have := h s rfl
    unfold Proc.init
    dsimp only
    split_ifs with h1 h2
    · exact ⟨_, rfl⟩
    · omega
    · exact ⟨_, rfl⟩

theorem cholInv_posDef {n : ℕ} {M : Matrix (Fin n) (Fin n) ℝ} (h : M.PosDef) :
    ∃ c, cholInv M = .ok (M⁻¹, c) := by
  obtain ⟨y, c, h1, h2, h3, -⟩ := C10_inverse M h
  exact ⟨c, by rw [h1, Matrix.inv_eq_left_inv h2]⟩

/-- What both constructors do with a noise matrix that has been built from the argument. -/
theorem l63_init_matrix (R : Rng G) (g : G) (arg : NdArr) (M : Matrix (Fin 3) (Fin 3) ℝ) (theta : Fin 3 → ℝ)
    (seed : Option ℤ) (hs : Spec.SeedOk seed) (harg : sigmaMatrix 3 arg = .ok M) (hsym : M.IsSymm) :
    (M.PosDef → ∃ o, L63.init R g arg theta seed = .ok o ∧ o.sigma = M ∧ o.theta = theta
        ∧ o.sig_inv * o.sigma = 1 ∧ o.sigma * o.sig_inv = 1)
    ∧ (¬ M.PosDef → L63.init R g arg theta seed = .error .runtimeError) := by
  obtain ⟨p, hp⟩ := proc_init_ok (X := Fin 3 → ℝ) R g seed false hs
  have he := (eig_pos_iff hsym).2.1
  constructor
  · intro hM
    obtain ⟨c, hc⟩ := cholInv_posDef hM
    have hu : IsUnit M.det := isUnit_iff_ne_zero.2 hM.det_pos.ne'
    refine ⟨⟨p, M, theta, M⁻¹⟩, ?_, rfl, rfl, Matrix.nonsing_inv_mul M hu, Matrix.mul_nonsing_inv M hu⟩
    unfold L63.init
    rw [hp, harg]
    simp only [py_ok_bind, if_neg (he.2 hM), hc, py_pure]
  · intro hM
    unfold L63.init
    rw [hp, harg]
    have : ∃ z ∈ npEigvals M, npLeZero z := by by_contra hc; exact hM (he.1 hc)
    simp only [py_ok_bind, if_pos this]

theorem l96_init_matrix (R : Rng G) (g : G) {d : ℕ} (hd : 10 ≤ d) (arg : NdArr) (M : Matrix (Fin d) (Fin d) ℝ)
    (theta : ℝ) (seed : Option ℤ) (hs : Spec.SeedOk seed) (harg : sigmaMatrix d arg = .ok M) (hsym : M.IsSymm) :
    (M.PosDef → ∃ o, L96.init R g arg theta seed d = .ok o ∧ o.sigma = M ∧ o.theta = theta
        ∧ o.sig_inv * o.sigma = 1 ∧ o.sigma * o.sig_inv = 1)
    ∧ (¬ M.PosDef → L96.init R g arg theta seed d = .error .runtimeError) := by
  obtain ⟨p, hp⟩ := proc_init_ok (X := Fin d → ℝ) R g seed false hs
  have he := (eig_pos_iff hsym).1
  have hd' : ¬ d < 10 := by omega
  constructor
  · intro hM
    obtain ⟨c, hc⟩ := cholInv_posDef hM
    have hu : IsUnit M.det := isUnit_iff_ne_zero.2 hM.det_pos.ne'
    refine ⟨⟨p, M, theta, M⁻¹⟩, ?_, rfl, rfl, Matrix.nonsing_inv_mul M hu, Matrix.mul_nonsing_inv M hu⟩
    unfold L96.init
    rw [hp, harg]
    simp only [py_ok_bind, if_neg hd', if_pos (he.2 hM), hc, py_pure]
  · intro hM
    unfold L96.init
    rw [hp, harg]
    simp only [py_ok_bind, if_neg hd', if_neg (fun h => hM (he.1 h))]

/-- C30: a symmetric matrix argument is accepted exactly when it is positive definite, and then `inverse_sigma` is
its inverse; otherwise `RuntimeError`. Part of C30; the scalar form fails, see `C30_scalar_violated`. -/
theorem C30_matrix_partial (R : Rng G) (g : G) (seed : Option ℤ) (hs : Spec.SeedOk seed) :
    (∀ (M : Matrix (Fin 3) (Fin 3) ℝ) (theta : Fin 3 → ℝ), M.IsSymm →
      (M.PosDef → ∃ o, L63.init R g (.mat 3 3 M) theta seed = .ok o ∧ o.sigma = M ∧ o.theta = theta
        ∧ o.sig_inv * o.sigma = 1 ∧ o.sigma * o.sig_inv = 1)
      ∧ (¬ M.PosDef → L63.init R g (.mat 3 3 M) theta seed = .error .runtimeError))
    ∧ ∀ (d : ℕ) (M : Matrix (Fin d) (Fin d) ℝ) (theta : ℝ), 10 ≤ d → M.IsSymm →
      (M.PosDef → ∃ o, L96.init R g (.mat d d M) theta seed d = .ok o ∧ o.sigma = M ∧ o.theta = theta
        ∧ o.sig_inv * o.sigma = 1 ∧ o.sigma * o.sig_inv = 1)
      ∧ (¬ M.PosDef → L96.init R g (.mat d d M) theta seed d = .error .runtimeError) := by
  have hsub : ∀ (d : ℕ) (M : Matrix (Fin d) (Fin d) ℝ), sigmaMatrix d (.mat d d M) = .ok M := by
    intro d M
    simp only [sigmaMatrix, and_self, dite_true]
    rfl
  exact ⟨fun M theta hM => l63_init_matrix R g _ M theta seed hs (hsub 3 M) hM,
    fun d M theta hd hM => l96_init_matrix R g hd _ M theta seed hs (hsub d M) hM⟩

theorem diag_posDef_iff {n : ℕ} (v : Fin n → ℝ) : (Matrix.diagonal v).PosDef ↔ ∀ i, 0 < v i := by
  constructor
  · intro h i
    have := h.diag_pos (i := i)
    simpa using this
  · exact Matrix.PosDef.diagonal

/-- C30: a vector argument of the right length gives the diagonal matrix when all entries are positive, and
`RuntimeError` otherwise. -/
theorem C30_vector_partial (R : Rng G) (g : G) (seed : Option ℤ) (hs : Spec.SeedOk seed) :
    (∀ v theta : Fin 3 → ℝ,
      ((∀ i, 0 < v i) → ∃ o, L63.init R g (.vec 3 v) theta seed = .ok o ∧ o.sigma = Matrix.diagonal v
        ∧ o.theta = theta ∧ o.sig_inv * o.sigma = 1 ∧ o.sigma * o.sig_inv = 1)
      ∧ ((∃ i, v i ≤ 0) → L63.init R g (.vec 3 v) theta seed = .error .runtimeError))
    ∧ ∀ (d : ℕ) (v : Fin d → ℝ) (theta : ℝ), 10 ≤ d →
      ((∀ i, 0 < v i) → ∃ o, L96.init R g (.vec d v) theta seed d = .ok o ∧ o.sigma = Matrix.diagonal v
        ∧ o.theta = theta ∧ o.sig_inv * o.sigma = 1 ∧ o.sigma * o.sig_inv = 1)
      ∧ ((∃ i, v i ≤ 0) → L96.init R g (.vec d v) theta seed d = .error .runtimeError) := by
  have hsub : ∀ (d : ℕ) (v : Fin d → ℝ), sigmaMatrix d (.vec d v) = .ok (Matrix.diagonal v) := by
    intro d v
    simp only [sigmaMatrix, dite_true]
    rfl
  constructor
  · intro v theta
    have h := l63_init_matrix R g _ _ theta seed hs (hsub 3 v) (Matrix.isSymm_diagonal v)
    rw [diag_posDef_iff] at h
    exact ⟨h.1, fun ⟨i, hi⟩ => h.2 fun hall => absurd (hall i) (not_lt.2 hi)⟩
  · intro d v theta hd
    have h := l96_init_matrix R g hd _ _ theta seed hs (hsub d v) (Matrix.isSymm_diagonal v)
    rw [diag_posDef_iff] at h
    exact ⟨h.1, fun ⟨i, hi⟩ => h.2 fun hall => absurd (hall i) (not_lt.2 hi)⟩

/-- C30: every other shape is rejected with `ValueError`, and so is a `Lorenz96` dimension below ten. -/
theorem C30_shapes_partial (R : Rng G) (g : G) (seed : Option ℤ) (hs : Spec.SeedOk seed) :
    (∀ (d : ℕ) (theta : ℝ) (arg : NdArr), d < 10 → L96.init R g arg theta seed d = .error .valueError)
    ∧ (∀ (n : ℕ) (v : Fin n → ℝ) (theta : Fin 3 → ℝ), n ≠ 3 → L63.init R g (.vec n v) theta seed = .error .valueError)
    ∧ (∀ (r c : ℕ) (M : Matrix (Fin r) (Fin c) ℝ) (theta : Fin 3 → ℝ), ¬ (r = 3 ∧ c = 3) →
        L63.init R g (.mat r c M) theta seed = .error .valueError)
    ∧ (∀ (n : List ℕ) (theta : Fin 3 → ℝ), L63.init R g (.high n) theta seed = .error .valueError)
    ∧ (∀ (d n : ℕ) (v : Fin n → ℝ) (theta : ℝ), n ≠ d → L96.init R g (.vec n v) theta seed d = .error .valueError)
    ∧ (∀ (d r c : ℕ) (M : Matrix (Fin r) (Fin c) ℝ) (theta : ℝ), ¬ (r = d ∧ c = d) →
        L96.init R g (.mat r c M) theta seed d = .error .valueError)
    ∧ (∀ (d : ℕ) (n : List ℕ) (theta : ℝ), L96.init R g (.high n) theta seed d = .error .valueError) := by
  obtain ⟨p3, hp3⟩ := proc_init_ok (X := Fin 3 → ℝ) R g seed false hs
  have hp : ∀ d, ∃ p, (Proc.init R g seed false : Py (Proc G (Fin d → ℝ))) = .ok p :=
    fun d => proc_init_ok R g seed false hs
  refine ⟨?_, ?_, ?_, ?_, ?_, ?_, ?_⟩
  · intro d theta arg hd
    obtain ⟨p, hp⟩ := hp d
    unfold L96.init; rw [hp]; simp [hd]
  · intro n v theta hn
    unfold L63.init; rw [hp3]; simp [sigmaMatrix, hn]
  · intro r c M theta hn
    unfold L63.init; rw [hp3]; simp [sigmaMatrix, hn]
  · intro n theta
    unfold L63.init; rw [hp3]; simp [sigmaMatrix]
  · intro d n v theta hn
    obtain ⟨p, hp⟩ := hp d
    unfold L96.init; rw [hp]; simp [sigmaMatrix, hn]
  · intro d r c M theta hn
    obtain ⟨p, hp⟩ := hp d
    unfold L96.init; rw [hp]; simp [sigmaMatrix, hn]
  · intro d n theta
    obtain ⟨p, hp⟩ := hp d
    unfold L96.init; rw [hp]; simp [sigmaMatrix]

/-- C30 fails for the scalar form: every number is rejected with `ValueError`, by both classes. -/
theorem C30_scalar_violated (R : Rng G) (g : G) (seed : Option ℤ) (hs : Spec.SeedOk seed) (s : ℝ) :
    (∀ theta, L63.init R g (.scalar s) theta seed = .error .valueError)
    ∧ ∀ d theta, L96.init R g (.scalar s) theta seed d = .error .valueError := by
  obtain ⟨p3, hp3⟩ := proc_init_ok (X := Fin 3 → ℝ) R g seed false hs
  constructor
  · intro theta
    unfold L63.init; rw [hp3]; simp [sigmaMatrix]
  · intro d theta
    obtain ⟨p, hp⟩ := proc_init_ok (X := Fin d → ℝ) R g seed false hs
    unfold L96.init; rw [hp]; simp [sigmaMatrix]

/-- Non-vacuity of C30. -/
example : Spec.SeedOk (some 42) ∧ (1 : Matrix (Fin 3) (Fin 3) ℝ).PosDef ∧ (1 : Matrix (Fin 3) (Fin 3) ℝ).IsSymm :=
  ⟨fun s h => by simp at h; omega, Matrix.PosDef.one, Matrix.isSymm_one⟩

/-! ## C31 -/

open Classical in
theorem setSigma_mat {T : Type} {d : ℕ} (o : LorenzObj G d T) (M : Matrix (Fin d) (Fin d) ℝ) :
    o.setSigma (.mat d d M) =
      if ∀ z ∈ npEigvals M, npLeZero z then (.error .runtimeError, o)
      else match cholInv M with
        | .error e => (.error e, { o with sigma := M })
        | .ok inv => (.ok (), { o with sigma := M, sig_inv := inv.1 }) := by
  unfold LorenzObj.setSigma
  simp only [and_self, dite_true]
  rfl

theorem setSigma_posDef {T : Type} {d : ℕ} (hd : 0 < d) (o : LorenzObj G d T) (M : Matrix (Fin d) (Fin d) ℝ)
    (hM : M.PosDef) : o.setSigma (.mat d d M) = (.ok (), { o with sigma := M, sig_inv := M⁻¹ }) := by
  have hsym : M.IsSymm := (posDef_iff_quad.1 hM).1
  obtain ⟨c, hc⟩ := cholInv_posDef hM
  have hn : ¬ ∀ z ∈ npEigvals M, npLeZero z := by
    intro h
    have h1 := ((eig_pos_iff hsym).2.2.1 h).diag_nonneg (i := ⟨0, hd⟩)
    have h2 := hM.diag_pos (i := ⟨0, hd⟩)
    simp at h1
    linarith
  rw [setSigma_mat, if_neg hn, hc]

/-- C31 (partial): assigning a symmetric matrix that is positive definite succeeds and updates both the matrix and
its inverse; assigning something that is not a square matrix of the right size, or a matrix without a positive
eigenvalue, raises and changes nothing. Missing: symmetric matrices with eigenvalues of both signs (or zero and
positive ones), where it fails, see `C31_indefinite_violated`, and non-symmetric matrices, see
`C31_nonsymmetric_violated`. -/
theorem C31_assignment_partial {T : Type} {d : ℕ} (hd : 0 < d) (o : LorenzObj G d T) :
    (∀ M : Matrix (Fin d) (Fin d) ℝ, M.PosDef →
      (o.setSigma (.mat d d M)).1 = .ok () ∧ (o.setSigma (.mat d d M)).2.sigma = M
        ∧ (o.setSigma (.mat d d M)).2.sig_inv * M = 1)
    ∧ (∀ M : Matrix (Fin d) (Fin d) ℝ, M.IsSymm → (-M).PosSemidef →
        o.setSigma (.mat d d M) = (.error .runtimeError, o))
    ∧ (∀ (r c : ℕ) (M : Matrix (Fin r) (Fin c) ℝ), ¬ (r = d ∧ c = d) →
        o.setSigma (.mat r c M) = (.error .valueError, o))
    ∧ (∀ s, o.setSigma (.scalar s) = (.error .valueError, o))
    ∧ (∀ n v, o.setSigma (.vec n v) = (.error .valueError, o))
    ∧ (∀ n, o.setSigma (.high n) = (.error .valueError, o)) := by
  refine ⟨?_, ?_, ?_, fun _ => rfl, fun _ _ => rfl, fun _ => rfl⟩
  · intro M hM
    have hu : IsUnit M.det := isUnit_iff_ne_zero.2 hM.det_pos.ne'
    rw [setSigma_posDef hd o M hM]
    exact ⟨rfl, rfl, Matrix.nonsing_inv_mul M hu⟩
  · intro M hs hM
    have := (eig_pos_iff hs).2.2.2 hM
    rw [setSigma_mat, if_pos this]
  · intro r c M h
    unfold LorenzObj.setSigma
    simp only [h, dite_false]

/-- C31 fails for every symmetric matrix that is not positive definite but has a positive direction: the assignment
raises `LinAlgError` after it has stored the new matrix, and `inverse_sigma` still belongs to the old one. -/
theorem C31_indefinite_violated {T : Type} {d : ℕ} (o : LorenzObj G d T) (M : Matrix (Fin d) (Fin d) ℝ) (hs : M.IsSymm)
    (h1 : ¬ M.PosDef) (h2 : ¬ (-M).PosSemidef) :
    o.setSigma (.mat d d M) = (.error .linAlgError, { o with sigma := M }) := by
  rw [setSigma_mat, if_neg (fun h => h2 ((eig_pos_iff hs).2.2.1 h)), C10_error M hs h1]

/-- Such matrices exist, and the object is then inconsistent: starting from a consistent `Lorenz63` object, the
failed assignment of `diag(1, 1, -1)` changes `sigma`, and `inverse_sigma` is no longer its inverse. -/
theorem C31_witness_violated (o : L63 G) (h : o.sigma = 1) (hinv : o.sig_inv = 1) :
    ∃ M : Matrix (Fin 3) (Fin 3) ℝ, (o.setSigma (.mat 3 3 M)).1 = .error .linAlgError
      ∧ (o.setSigma (.mat 3 3 M)).2.sigma ≠ o.sigma
      ∧ (o.setSigma (.mat 3 3 M)).2.sig_inv * (o.setSigma (.mat 3 3 M)).2.sigma ≠ 1 := by
  refine ⟨Matrix.diagonal ![1, 1, -1], ?_⟩
  have h1 : ¬ (Matrix.diagonal ![1, 1, -1] : Matrix (Fin 3) (Fin 3) ℝ).PosDef := by
    rw [diag_posDef_iff]
    intro h
    have := h 2
    simp at this
    linarith
  have h2 : ¬ (-(Matrix.diagonal ![1, 1, -1] : Matrix (Fin 3) (Fin 3) ℝ)).PosSemidef := by
    intro h
    have := h.diag_nonneg (i := 0)
    simp at this
    linarith
  rw [C31_indefinite_violated o _ (Matrix.isSymm_diagonal _) h1 h2]
  refine ⟨rfl, ?_, ?_⟩
  · simp only [h]
    intro hc
    have := congrFun (congrFun hc 2) 2
    simp at this
    linarith
  · simp only [hinv, one_mul]
    intro hc
    have := congrFun (congrFun hc 2) 2
    simp at this
    linarith

/-- C31 fails for non-symmetric matrices too: the assignment succeeds, because only the lower triangle is read when
the inverse is computed, and `inverse_sigma` is not the inverse of `sigma`. -/
theorem C31_nonsymmetric_violated (o : L63 G) :
    ∃ M : Matrix (Fin 3) (Fin 3) ℝ, (o.setSigma (.mat 3 3 M)).1 = .ok ()
      ∧ (o.setSigma (.mat 3 3 M)).2.sigma = M
      ∧ (o.setSigma (.mat 3 3 M)).2.sig_inv * (o.setSigma (.mat 3 3 M)).2.sigma ≠ 1 := by
  refine ⟨!![1, 5, 0; 0, 1, 0; 0, 0, 1], ?_⟩
  set M : Matrix (Fin 3) (Fin 3) ℝ := !![1, 5, 0; 0, 1, 0; 0, 0, 1] with hM
  have hc : ∃ c, cholInv M = .ok (1⁻¹, c) := by
    obtain ⟨c, h, -⟩ := (C11_result_of_symmetrised M 1 Matrix.isSymm_one (by
      intro i j hij
      fin_cases i <;> fin_cases j <;> simp [hM] at hij ⊢)).1 Matrix.PosDef.one
    exact ⟨c, h⟩
  obtain ⟨c, hc⟩ := hc
  have hne : ¬ ∀ z ∈ npEigvals M, npLeZero z := by
    intro h
    have := h 1 ?_
    · rcases this with h | h <;> norm_num at h
    · unfold npEigvals
      have ht : (M.map Complex.ofReal).IsUpperTriangular := by
        intro i j hij
        fin_cases i <;> fin_cases j <;> simp [hM] at hij ⊢
      rw [Matrix.charpoly_of_isUpperTriangular _ ht, Polynomial.mem_roots']
      refine ⟨Finset.prod_ne_zero_iff.2 fun i _ => Polynomial.X_sub_C_ne_zero _, ?_⟩
      simp [Polynomial.IsRoot, Fin.prod_univ_three, hM]
  rw [setSigma_mat, if_neg hne, hc]
  refine ⟨rfl, rfl, ?_⟩
  simp only [inv_one, one_mul]
  intro h
  have := congrFun (congrFun h 0) 1
  simp [hM] at this

namespace Spec

/-- Noise values whose assignment C31 covers: everything except square matrices of the right size that are neither
positive definite nor symmetric without a positive direction. -/
def NoiseCovered (d : ℕ) (v : NdArr) : Prop :=
  ∀ M : Matrix (Fin d) (Fin d) ℝ, v = .mat d d M → M.PosDef ∨ (M.IsSymm ∧ (-M).PosSemidef)

end Spec

theorem setSigma_inv {T : Type} {d : ℕ} (hd : 0 < d) (o : LorenzObj G d T) (v : NdArr) (hv : Spec.NoiseCovered d v)
    (h : o.sig_inv * o.sigma = 1) : (o.setSigma v).2.sig_inv * (o.setSigma v).2.sigma = 1 := by
  obtain ⟨c1, c2, c3, c4, c5, c6⟩ := C31_assignment_partial hd o
  cases v with
  | scalar s => rw [c4]; exact h
  | vec n v => rw [c5]; exact h
  | high n => rw [c6]; exact h
  | mat r c M =>
    by_cases hrc : r = d ∧ c = d
    · obtain ⟨rfl, rfl⟩ := hrc
      rcases hv M rfl with hM | ⟨hs, hM⟩
      · obtain ⟨-, h2, h3⟩ := c1 M hM
        rw [h2, h3]
      · rw [c2 M hs hM]; exact h
    · rw [c3 r c M hrc]; exact h

theorem lorenz_traj_frame {T : Type} {d : ℕ} (R : Rng G) (o : LorenzObj G d T) (drift : (Fin d → ℝ) → Fin d → ℝ)
    (x0 : Fin d → ℝ) (t0 tf dt : ℝ) :
    (o.makeTrajectory R drift x0 t0 tf dt).2.sigma = o.sigma
      ∧ (o.makeTrajectory R drift x0 t0 tf dt).2.sig_inv = o.sig_inv
      ∧ (o.makeTrajectory R drift x0 t0 tf dt).2.theta = o.theta := by
  unfold LorenzObj.makeTrajectory
  split
  · simp
  · dsimp only
    split
    · simp
    · split <;> simp

/-- C31 (partial) over histories of `Lorenz63`: if every assigned noise is of a covered kind, then after any history
of calls on a constructed object `inverse_sigma` is the inverse of `sigma`. -/
theorem C31_history63_partial (R : Rng G) (g : G) (arg : NdArr) (theta : Fin 3 → ℝ) (seed : Option ℤ) (o : L63 G)
    (h : L63.init R g arg theta seed = .ok o) (hsym : o.sigma.IsSymm) (ops : List (Op (api R .lorenz63)))
    (hops : ∀ v : NdArr, Op.setSigma v ∈ ops → Spec.NoiseCovered 3 v) (o' : L63 G)
    (ho' : (runOps (A := api R .lorenz63) o ops).2 = o') :
    o'.sig_inv * o'.sigma = 1 := by
  subst ho'
  have h0 : o.sig_inv * o.sigma = 1 := by
    obtain ⟨-, -, he, ⟨c, hc⟩, -⟩ := l63_init_ok h
    have hp := (eig_pos_iff hsym).2.1.1 he
    obtain ⟨c', hc'⟩ := cholInv_posDef hp
    rw [hc] at hc'
    simp only [Except.ok.injEq, Prod.mk.injEq] at hc'
    rw [hc'.1]
    exact Matrix.nonsing_inv_mul _ (isUnit_iff_ne_zero.2 hp.det_pos.ne')
  clear h hsym
  induction ops generalizing o with
  | nil => exact h0
  | cons op ops ih =>
    refine ih (Op.run (A := api R .lorenz63) o op).2 (fun M hM => hops M (List.mem_cons_of_mem _ hM)) ?_
    cases op with
    | setSigma v => exact setSigma_inv (by norm_num) o v (hops v List.mem_cons_self) h0
    | makeTrajectory t0 tf dt mu =>
      obtain ⟨h1, h2, -⟩ := lorenz_traj_frame R o (fun x => l63 x o.theta) (fun _ => 1) t0 tf dt
      show (L63.makeTrajectory R o t0 tf dt).2.sig_inv * (L63.makeTrajectory R o t0 tf dt).2.sigma = 1
      unfold L63.makeTrajectory
      rw [h1, h2]; exact h0
    | setTheta v => exact h0
    | setPath v => exact h0
    | setWindow v => exact h0
    | collectObs n rn mask => exact h0
    | samplePath => exact h0
    | timeWindow => exact h0
    | timeStep => exact h0

/-- C31 (partial) over histories of `Lorenz96`, in every dimension. -/
theorem C31_history96_partial (R : Rng G) (g : G) (d : ℕ) (arg : NdArr) (theta : ℝ) (seed : Option ℤ) (o : L96 G d)
    (h : L96.init R g arg theta seed d = .ok o) (hsym : o.sigma.IsSymm) (ops : List (Op (api R (.lorenz96 d))))
    (hops : ∀ v : NdArr, Op.setSigma v ∈ ops → Spec.NoiseCovered d v) (o' : L96 G d)
    (ho' : (runOps (A := api R (.lorenz96 d)) o ops).2 = o') :
    o'.sig_inv * o'.sigma = 1 := by
  subst ho'
  have hd : 0 < d := by have := (l96_init_ok h).2.1; omega
  have h0 : o.sig_inv * o.sigma = 1 := by
    obtain ⟨-, -, -, he, ⟨c, hc⟩, -⟩ := l96_init_ok h
    have hp := (eig_pos_iff hsym).1.1 he
    obtain ⟨c', hc'⟩ := cholInv_posDef hp
    rw [hc] at hc'
    simp only [Except.ok.injEq, Prod.mk.injEq] at hc'
    rw [hc'.1]
    exact Matrix.nonsing_inv_mul _ (isUnit_iff_ne_zero.2 hp.det_pos.ne')
  clear h hsym
  induction ops generalizing o with
  | nil => exact h0
  | cons op ops ih =>
    refine ih (Op.run (A := api R (.lorenz96 d)) o op).2 (fun M hM => hops M (List.mem_cons_of_mem _ hM)) ?_
    cases op with
    | setSigma v => exact setSigma_inv hd o v (hops v List.mem_cons_self) h0
    | makeTrajectory t0 tf dt mu =>
      obtain ⟨h1, h2, -⟩ := lorenz_traj_frame R o (fun x => l96 x o.theta) (L96.start o.theta) t0 tf dt
      show (L96.makeTrajectory R o t0 tf dt).2.sig_inv * (L96.makeTrajectory R o t0 tf dt).2.sigma = 1
      unfold L96.makeTrajectory
      rw [h1, h2]; exact h0
    | setTheta v => exact h0
    | setPath v => exact h0
    | setWindow v => exact h0
    | collectObs n rn mask => exact h0
    | samplePath => exact h0
    | timeWindow => exact h0
    | timeStep => exact h0

/-- Non-vacuity of C31. -/
example (R : Rng G) (g : G) : ∃ o, L63.init R g (.mat 3 3 1) 0 none = .ok o ∧ o.sigma = 1 ∧ o.sig_inv * o.sigma = 1 := by
  obtain ⟨o, h1, h2, -, h3, -⟩ := ((C30_matrix_partial R g none (fun s h => by simp at h)).1 1 0 Matrix.isSymm_one).1
    Matrix.PosDef.one
  exact ⟨o, h1, h2, h3⟩

end VGPA
