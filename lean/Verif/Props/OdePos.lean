import Verif.Props.OdeVarying
import Mathlib.LinearAlgebra.Matrix.PosDef
import Mathlib.Analysis.RCLike.Basic
import Mathlib.Algebra.Order.Chebyshev

/-!
# C105: covariance matrices stay positive definite for small steps
-/

namespace VGPA

noncomputable section

open Matrix Set

attribute [local instance] Matrix.normedAddCommGroup Matrix.normedSpace

theorem dot_self_nonneg {d : ℕ} (x : Fin d → ℝ) : 0 ≤ x ⬝ᵥ x := Finset.sum_nonneg fun i _ => mul_self_nonneg (x i)

theorem dot_self_pos {d : ℕ} {x : Fin d → ℝ} (h : x ≠ 0) : 0 < x ⬝ᵥ x := by
  refine lt_of_le_of_ne (dot_self_nonneg x) fun h0 => h ?_
  funext i
  have := (Finset.sum_eq_zero_iff_of_nonneg fun i _ => mul_self_nonneg (x i)).1 h0.symm i (Finset.mem_univ i)
  exact mul_self_eq_zero.1 this

theorem quad_le {d : ℕ} (M : Matrix (Fin d) (Fin d) ℝ) (x : Fin d → ℝ) : |x ⬝ᵥ M *ᵥ x| ≤ d * ‖M‖ * (x ⬝ᵥ x) := by
  have h1 : |x ⬝ᵥ M *ᵥ x| ≤ ‖M‖ * (∑ i, |x i|) ^ 2 := by
    rw [dotProduct]
    refine (Finset.abs_sum_le_sum_abs _ _).trans ?_
    rw [sq, Finset.sum_mul, Finset.mul_sum]
    refine Finset.sum_le_sum fun i _ => ?_
    rw [abs_mul, Matrix.mulVec, dotProduct]
    have : |∑ j, M i j * x j| ≤ ‖M‖ * ∑ j, |x j| := by
      refine (Finset.abs_sum_le_sum_abs _ _).trans ?_
      rw [Finset.mul_sum]
      refine Finset.sum_le_sum fun j _ => ?_
      rw [abs_mul]
      gcongr
      exact Matrix.norm_entry_le_entrywise_sup_norm M
    calc _ ≤ |x i| * (‖M‖ * ∑ j, |x j|) := by gcongr
      _ = _ := by ring
  have h2 : (∑ i, |x i|) ^ 2 ≤ d * (x ⬝ᵥ x) := by
    have := sq_sum_le_card_mul_sum_sq (s := (Finset.univ : Finset (Fin d))) (f := fun i : Fin d => |x i|)
    simpa [dotProduct, sq] using this
  calc _ ≤ _ := h1
    _ ≤ ‖M‖ * (d * (x ⬝ᵥ x)) := by gcongr
    _ = _ := by ring

/-- A positive definite matrix is bounded below by a multiple of the identity. -/
theorem posDef_lower {d : ℕ} {M : Matrix (Fin d) (Fin d) ℝ} (h : M.PosDef) : ∃ σ > 0, ∀ x : Fin d → ℝ, σ * (x ⬝ᵥ x) ≤ x ⬝ᵥ M *ᵥ x := by
  have hinv := h.inv
  obtain ⟨r, hr0, hr⟩ : ∃ r > 0, ∀ x : Fin d → ℝ, x ⬝ᵥ M *ᵥ x ≤ r * (x ⬝ᵥ x) := by
    refine ⟨d * ‖M‖ + 1, by positivity, fun x => ?_⟩
    have := (le_abs_self _).trans (quad_le M x)
    have h0 : 0 ≤ x ⬝ᵥ x := dot_self_nonneg x
    linarith
  obtain ⟨s, hs0, hs⟩ : ∃ s > 0, ∀ x : Fin d → ℝ, x ⬝ᵥ M⁻¹ *ᵥ x ≤ s * (x ⬝ᵥ x) := by
    refine ⟨d * ‖M⁻¹‖ + 1, by positivity, fun x => ?_⟩
    have := (le_abs_self _).trans (quad_le M⁻¹ x)
    have h0 : 0 ≤ x ⬝ᵥ x := dot_self_nonneg x
    linarith
  refine ⟨1 / s, by positivity, fun x => ?_⟩
  -- `(M - 1/s)` is nonnegative: Cauchy-Schwarz in the metric of `M`
  have hsymm : Mᵀ = M := h.isHermitian
  have hu : M * M⁻¹ = 1 := Matrix.mul_nonsing_inv _ (Matrix.isUnit_iff_isUnit_det _ |>.1 h.isUnit)
  -- nonnegativity of the form at `x - t M⁻¹ x`
  have key : 0 ≤ (x - (1 / s) • M⁻¹ *ᵥ x) ⬝ᵥ M *ᵥ (x - (1 / s) • M⁻¹ *ᵥ x) := by
    have := h.posSemidef.dotProduct_mulVec_nonneg (x - (1 / s) • M⁻¹ *ᵥ x)
    simpa using this
  have e1 : M *ᵥ (M⁻¹ *ᵥ x) = x := by rw [Matrix.mulVec_mulVec, hu, Matrix.one_mulVec]
  have e2 : (M⁻¹ *ᵥ x) ⬝ᵥ M *ᵥ x = x ⬝ᵥ x := by
    rw [Matrix.dotProduct_mulVec, ← Matrix.mulVec_transpose, hsymm, e1]
  have e3 : (M⁻¹ *ᵥ x) ⬝ᵥ x = x ⬝ᵥ M⁻¹ *ᵥ x := dotProduct_comm _ _
  rw [Matrix.mulVec_sub, Matrix.mulVec_smul, e1, sub_dotProduct, dotProduct_sub, dotProduct_sub, smul_dotProduct, smul_dotProduct,
    dotProduct_smul, e2, dotProduct_smul, e3] at key
  simp only [smul_eq_mul] at key
  have h4 := hs x
  have h5 : 1 / s * (1 / s * (x ⬝ᵥ M⁻¹ *ᵥ x)) ≤ 1 / s * (x ⬝ᵥ x) := by
    have : 1 / s * (x ⬝ᵥ M⁻¹ *ᵥ x) ≤ x ⬝ᵥ x := by
      rw [one_div, inv_mul_le_iff₀ hs0]; exact h4
    have hs1 : 0 ≤ 1 / s := by positivity
    exact mul_le_mul_of_nonneg_left this hs1
  linarith

/-- One step keeps a covariance positive definite. -/
theorem step_posDef {d : ℕ} {S S' Ab R sigma : Matrix (Fin d) (Fin d) ℝ} {dt σ : ℝ} (hS : S.PosSemidef) (hS' : S'.IsSymm)
    (hstep : S' = S + dt • (-(Ab * S) - S * Abᵀ + sigma) + R) (hdt : 0 < dt)
    (hσ : ∀ x : Fin d → ℝ, σ * (x ⬝ᵥ x) ≤ x ⬝ᵥ sigma *ᵥ x)
    (hsmall : dt * (d * ‖Ab * S * Abᵀ‖) * dt + d * ‖R‖ < dt * σ) : S'.PosDef := by
  have e : S' = (1 - dt • Ab) * S * (1 - dt • Ab)ᵀ + (dt • sigma - (dt * dt) • (Ab * S * Abᵀ) + R) := by
    rw [hstep]
    simp only [Matrix.transpose_sub, Matrix.transpose_one, Matrix.transpose_smul, sub_mul, mul_sub, one_mul, mul_one, Matrix.smul_mul, Matrix.mul_smul]
    module
  refine Matrix.PosDef.of_dotProduct_mulVec_pos hS' fun x hx => ?_
  have hx0 : 0 < x ⬝ᵥ x := dot_self_pos hx
  have h1 : 0 ≤ x ⬝ᵥ ((1 - dt • Ab) * S * (1 - dt • Ab)ᵀ) *ᵥ x := by
    have := (hS.mul_mul_conjTranspose_same (1 - dt • Ab)).dotProduct_mulVec_nonneg x
    simpa using this
  have h2 := (le_abs_self _).trans (quad_le (Ab * S * Abᵀ) x)
  have h3 := (neg_abs_le _).trans' (neg_le_neg (quad_le R x))
  have h4 := hσ x
  have h5 : star x ⬝ᵥ S' *ᵥ x = x ⬝ᵥ ((1 - dt • Ab) * S * (1 - dt • Ab)ᵀ) *ᵥ x + dt * (x ⬝ᵥ sigma *ᵥ x)
      - dt * dt * (x ⬝ᵥ (Ab * S * Abᵀ) *ᵥ x) + x ⬝ᵥ R *ᵥ x := by
    have : star x = x := by ext i; simp
    rw [this, e]
    simp only [Matrix.add_mulVec, Matrix.sub_mulVec, Matrix.smul_mulVec, dotProduct_add, dotProduct_sub, dotProduct_smul, smul_eq_mul]
    ring
  rw [h5]
  have i1 := mul_le_mul_of_nonneg_left h4 hdt.le
  have i2 := mul_le_mul_of_nonneg_left h2 (mul_pos hdt hdt).le
  have i3 := mul_lt_mul_of_pos_right hsmall hx0
  nlinarith

/-- C105. Let the process noise be positive definite and the initial covariance positive semidefinite. For every length `T` of the time window and every
bound on the entries of the linear parameters there is a step size below which all four methods return only positive definite covariances
(after the given first one), on every grid in the window and for every series of linear and offset parameters within the bound. -/
theorem C105_covariance_positive (d : ℕ) (T α : ℝ) (s0 sigma : Matrix (Fin d) (Fin d) ℝ) (hs0 : s0.PosSemidef) (hsig : sigma.PosDef) :
    ∃ δ > 0, ∀ (meth : Method) (dt : ℝ) (A : List (Matrix (Fin d) (Fin d) ℝ)) (b : List (Fin d → ℝ)) (m0 : Fin d → ℝ) (mt st),
      0 < dt → dt < δ → A.length = b.length → ((b.length - 1 : ℕ) : ℝ) * dt ≤ T → (∀ M ∈ A, ∀ i j, |M i j| ≤ α) →
      solveFwd meth (rhsN d) dt A b m0 s0 sigma = .ok (mt, st) →
      ∀ k (h : k < st.length), (k = 0 → st[k] = s0) ∧ (0 < k → (st[k]).PosDef) := by
  obtain ⟨σ, hσ0, hσ⟩ := posDef_lower hsig
  let hF := bilinN d
  have hβ : 0 ≤ (2 * d : ℝ) := by positivity
  obtain ⟨α', hα', hα0⟩ : ∃ α', α ≤ α' ∧ 0 ≤ α' := ⟨max α 0, le_max_left _ _, le_max_right _ _⟩
  obtain ⟨T', hT', hT0⟩ : ∃ T', T ≤ T' ∧ 0 ≤ T' := ⟨max T 0, le_max_left _ _, le_max_right _ _⟩
  obtain ⟨q, hq⟩ : ∃ q : ℝ, q = 2 * d * α' := ⟨_, rfl⟩
  have hq0 : 0 ≤ q := by rw [hq]; positivity
  obtain ⟨r, hr⟩ : ∃ r, r = Real.exp (q * T') * (‖s0‖ + T' * (‖sigma‖ + 1)) := ⟨_, rfl⟩
  have hr0 : 0 ≤ r := by rw [hr]; positivity
  obtain ⟨κ, hκ⟩ : ∃ κ, κ = max (q * r + ‖sigma‖) (2 * d * r * r + ‖sigma‖) := ⟨_, rfl⟩
  have hκ0 : 0 ≤ κ := by rw [hκ]; exact le_trans (by positivity) (le_max_left _ _)
  obtain ⟨K, hK⟩ : ∃ K, K = q * κ * (1 + q) ^ 2 := ⟨_, rfl⟩
  have hK0 : 0 ≤ K := by rw [hK]; positivity
  obtain ⟨E, hE⟩ : ∃ E : ℝ, E = d * (d * α' * r) * α' := ⟨_, rfl⟩
  have hE0 : 0 ≤ E := by rw [hE]; positivity
  refine ⟨min 1 (min (1 / (K + 1)) (σ / (d * E + d * K + 1))), lt_min one_pos (lt_min (by positivity) (by positivity)), ?_⟩
  intro meth dt A b m0 mt st hdt hδ hlen hwin hA hrun
  have hdt1 : dt ≤ 1 := (hδ.trans_le (min_le_left _ _)).le
  have hKdt : K * dt ≤ 1 := by
    have : dt * (K + 1) < 1 := (lt_div_iff₀ (by positivity)).1 (hδ.trans_le ((min_le_right _ _).trans (min_le_left _ _)))
    nlinarith
  have hσdt : dt * (d * E + d * K + 1) < σ :=
    (lt_div_iff₀ (by positivity)).1 (hδ.trans_le ((min_le_right _ _).trans (min_le_right _ _)))
  have hsym := C19_covariance_symmetric meth dt A b m0 s0 sigma mt st hrun hs0.isHermitian hsig.isHermitian
  obtain ⟨hpos, -, -, hst⟩ := solveFwd_inv hrun
  let x := traj (m0, s0) (fwdStep meth (rhsN d) dt (asFun A) (asFun b) sigma)
  have hlst : st.length = b.length := by rw [hst]; simp
  have hget : ∀ k (h : k < st.length), st[k] = (x k).2 := by
    intro k h
    subst hst
    rw [List.getElem_map, List.getElem_range]
  have hAn : ∀ k < b.length, ‖asFun A k‖ ≤ α' := by
    intro k hk
    rw [asFun_eq (by omega), Matrix.norm_le_iff hα0]
    exact fun i j => (hA _ (List.getElem_mem _) i j).trans hα'
  -- one step
  have hone : ∀ k, k + 1 < b.length → ‖(x k).2‖ ≤ r → ∃ Ab R, ‖Ab‖ ≤ α' ∧ ‖R‖ ≤ K * dt ^ 2
      ∧ (x (k + 1)).2 = (x k).2 + dt • (-(Ab * (x k).2) - (x k).2 * Abᵀ + sigma) + R := by
    intro k hk hxr
    have hθ := endShare_bounds meth
    have h := affStep_remainder (B := hF.cov) (g := fun s => aff hF.cov s sigma s) (κ := κ) (γ := ‖sigma‖) hβ hF.cov_le meth
      (by rw [abs_of_pos hdt]; exact hdt1) (hAn k (by omega)) (hAn (k + 1) hk) (c0 := sigma) (c1 := sigma) le_rfl le_rfl hxr
      (by rw [hκ, ← hq]; exact le_max_left _ _)
      ((aff_bound hβ hF.cov_le hxr le_rfl hxr).trans (by rw [hκ]; exact le_max_right _ _))
    rw [← fwdStep_cov (rhsN d) hF meth dt (asFun A) (asFun b) sigma k (x k), ← hq, ← hK] at h
    refine ⟨asFun A k + endShare meth • (asFun A (k + 1) - asFun A k), _, ?_, h, ?_⟩
    · have e : asFun A k + endShare meth • (asFun A (k + 1) - asFun A k) = (1 - endShare meth) • asFun A k + endShare meth • asFun A (k + 1) := by module
      rw [e]
      refine (norm_add_le _ _).trans ?_
      rw [norm_smul, norm_smul, Real.norm_eq_abs, Real.norm_eq_abs, abs_of_nonneg hθ.1, abs_of_nonneg (by linarith [hθ.2])]
      calc _ ≤ (1 - endShare meth) * α' + endShare meth * α' := by
            gcongr
            · linarith [hθ.2]
            · exact hAn k (by omega)
            · exact hθ.1
            · exact hAn (k + 1) hk
        _ = α' := by ring
    · have e : sigma + endShare meth • (sigma - sigma) = sigma := by rw [sub_self, smul_zero, add_zero]
      rw [e]
      show (fwdStep meth (rhsN d) dt (asFun A) (asFun b) sigma k (x k)).2 = _
      have e2 : aff hF.cov (asFun A k + endShare meth • (asFun A (k + 1) - asFun A k)) sigma (x k).2
          = -((asFun A k + endShare meth • (asFun A (k + 1) - asFun A k)) * (x k).2)
            - (x k).2 * (asFun A k + endShare meth • (asFun A (k + 1) - asFun A k))ᵀ + sigma := rfl
      rw [e2]
      abel
  -- all covariances are bounded
  have hbd : ∀ k ≤ b.length - 1, ‖(x k).2‖ ≤ r := by
    rw [hr]
    refine gronwall_window (u := fun k => ‖(x k).2‖) hq0 (by positivity) hdt (hwin.trans hT') (norm_nonneg _) ?_
    intro k hk hu
    obtain ⟨Ab, R, hAb, hR, hs⟩ := hone k (by omega) (by rw [hr]; exact hu)
    show ‖(x (k + 1)).2‖ ≤ (1 + q * dt) * ‖(x k).2‖ + dt * (‖sigma‖ + 1)
    rw [hs]
    have h1 := aff_bound hβ hF.cov_le hAb (c := sigma) le_rfl (y := (x k).2) le_rfl
    have e2 : aff hF.cov Ab sigma (x k).2 = -(Ab * (x k).2) - (x k).2 * Abᵀ + sigma := rfl
    rw [e2, ← hq] at h1
    have h2 := norm_add₃_le (a := (x k).2) (b := dt • (-(Ab * (x k).2) - (x k).2 * Abᵀ + sigma)) (c := R)
    rw [norm_smul, Real.norm_eq_abs, abs_of_pos hdt] at h2
    have h3 := mul_le_mul_of_nonneg_left h1 hdt.le
    have h4 : K * dt ^ 2 ≤ dt := by nlinarith
    nlinarith
  -- and positive
  have hpd : ∀ k, k < b.length → (x k).2.PosSemidef ∧ (0 < k → (x k).2.PosDef) := by
    intro k
    induction k with
    | zero => exact fun _ => ⟨hs0, fun h => absurd h (lt_irrefl 0)⟩
    | succ k ih =>
      intro hk
      have hbk := hbd k (by omega)
      obtain ⟨Ab, R, hAb, hR, hs⟩ := hone k hk hbk
      have hsy : (x (k + 1)).2.IsSymm := by
        rw [← hget (k + 1) (by omega)]
        exact hsym _ (List.getElem_mem _)
      have hN : ‖Ab * (x k).2 * Abᵀ‖ ≤ E := by
        refine (norm_mul_sup _ _).trans ?_
        rw [norm_transpose_sup, hE]
        gcongr
        exact (norm_mul_sup _ _).trans (by gcongr)
      have hp := step_posDef (ih (by omega)).1 hsy hs hdt hσ (by
        have i1 : dt * (d * ‖Ab * (x k).2 * Abᵀ‖) * dt ≤ dt * (d * E) * dt := by gcongr
        have i2 : (d : ℝ) * ‖R‖ ≤ d * (K * dt ^ 2) := by gcongr
        have i3 : dt * (dt * (d * E + d * K + 1)) < dt * σ := mul_lt_mul_of_pos_left hσdt hdt
        have i4 : 0 < dt * dt := mul_pos hdt hdt
        nlinarith)
      exact ⟨hp.posSemidef, fun _ => hp⟩
  intro k hk
  rw [hget k hk]
  exact ⟨fun h => by subst h; rfl, (hpd k (by omega)).2⟩

theorem step_pos1 {S r Ab α' R K dt sigma : ℝ} (h0 : 0 ≤ S) (hx : S ≤ r) (hAb : |Ab| ≤ α') (hR : |R| ≤ K * dt ^ 2) (hdt : 0 < dt)
    (hsmall : dt * (α' * α' * r + K + 1) < sigma) : 0 < S + dt * (-(2 * Ab * S) + sigma) + R := by
  have hA2 : Ab * Ab ≤ α' * α' := by
    rw [← abs_mul_abs_self Ab]
    exact mul_le_mul hAb hAb (abs_nonneg _) ((abs_nonneg _).trans hAb)
  have i1 : Ab * Ab * S ≤ α' * α' * r := mul_le_mul hA2 hx h0 (mul_self_nonneg _)
  have i2 : dt * dt * (Ab * Ab * S) ≤ dt * dt * (α' * α' * r) := mul_le_mul_of_nonneg_left i1 (mul_self_nonneg _)
  have i3 : dt * (dt * (α' * α' * r + K + 1)) < dt * sigma := mul_lt_mul_of_pos_left hsmall hdt
  have i4 : 0 < dt * dt := mul_pos hdt hdt
  have i5 : 0 ≤ (1 - dt * Ab) ^ 2 * S := by positivity
  have i6 := (abs_le.1 hR).1
  have e : S + dt * (-(2 * Ab * S) + sigma) + R = (1 - dt * Ab) ^ 2 * S + dt * sigma - dt * dt * (Ab * Ab * S) + R := by ring
  rw [e]
  linarith

/-- C105 in one dimension: variances. -/
theorem C105_variance_positive (T α s0 sigma : ℝ) (hs0 : 0 ≤ s0) (hsig : 0 < sigma) :
    ∃ δ > 0, ∀ (meth : Method) (dt : ℝ) (A b : List ℝ) (m0 : ℝ) (mt st : List ℝ),
      0 < dt → dt < δ → A.length = b.length → ((b.length - 1 : ℕ) : ℝ) * dt ≤ T → (∀ a ∈ A, |a| ≤ α) →
      solveFwd meth (rhs1) dt A b m0 s0 sigma = .ok (mt, st) →
      ∀ k (h : k < st.length), (k = 0 → st[k] = s0) ∧ (0 < k → 0 < st[k]) := by
  let hF := bilin1
  have haff : ∀ a s : ℝ, aff hF.cov a sigma s = -(2 * a * s) + sigma := fun a s => by simp [aff, hF, bilin1]; ring
  have hβ : 0 ≤ (2 : ℝ) := by norm_num
  obtain ⟨α', hα', hα0⟩ : ∃ α', α ≤ α' ∧ 0 ≤ α' := ⟨max α 0, le_max_left _ _, le_max_right _ _⟩
  obtain ⟨T', hT', hT0⟩ : ∃ T', T ≤ T' ∧ 0 ≤ T' := ⟨max T 0, le_max_left _ _, le_max_right _ _⟩
  obtain ⟨q, hq⟩ : ∃ q : ℝ, q = 2 * α' := ⟨_, rfl⟩
  have hq0 : 0 ≤ q := by rw [hq]; positivity
  obtain ⟨r, hr⟩ : ∃ r, r = Real.exp (q * T') * (‖s0‖ + T' * (‖sigma‖ + 1)) := ⟨_, rfl⟩
  have hr0 : 0 ≤ r := by rw [hr]; positivity
  obtain ⟨κ, hκ⟩ : ∃ κ, κ = max (q * r + ‖sigma‖) (2 * r * r + ‖sigma‖) := ⟨_, rfl⟩
  have hκ0 : 0 ≤ κ := by rw [hκ]; exact le_trans (by positivity) (le_max_left _ _)
  obtain ⟨K, hK⟩ : ∃ K, K = q * κ * (1 + q) ^ 2 := ⟨_, rfl⟩
  have hK0 : 0 ≤ K := by rw [hK]; positivity
  obtain ⟨E, hE⟩ : ∃ E : ℝ, E = α' * α' * r := ⟨_, rfl⟩
  have hE0 : 0 ≤ E := by rw [hE]; positivity
  refine ⟨min 1 (min (1 / (K + 1)) (sigma / (E + K + 1))), lt_min one_pos (lt_min (by positivity) (by positivity)), ?_⟩
  intro meth dt A b m0 mt st hdt hδ hlen hwin hA hrun
  have hdt1 : dt ≤ 1 := (hδ.trans_le (min_le_left _ _)).le
  have hKdt : K * dt ≤ 1 := by
    have : dt * (K + 1) < 1 := (lt_div_iff₀ (by positivity)).1 (hδ.trans_le ((min_le_right _ _).trans (min_le_left _ _)))
    nlinarith
  have hσdt : dt * (E + K + 1) < sigma :=
    (lt_div_iff₀ (by positivity)).1 (hδ.trans_le ((min_le_right _ _).trans (min_le_right _ _)))
  obtain ⟨hpos, -, -, hst⟩ := solveFwd_inv hrun
  let x := traj (m0, s0) (fwdStep meth (rhs1) dt (asFun A) (asFun b) sigma)
  have hlst : st.length = b.length := by rw [hst]; simp
  have hget : ∀ k (h : k < st.length), st[k] = (x k).2 := by
    intro k h
    subst hst
    rw [List.getElem_map, List.getElem_range]
  have hAn : ∀ k < b.length, ‖asFun A k‖ ≤ α' := by
    intro k hk
    rw [asFun_eq (by omega)]
    exact (hA _ (List.getElem_mem _)).trans hα'
  -- one step
  have hone : ∀ k, k + 1 < b.length → ‖(x k).2‖ ≤ r → ∃ Ab R, ‖Ab‖ ≤ α' ∧ ‖R‖ ≤ K * dt ^ 2
      ∧ (x (k + 1)).2 = (x k).2 + dt • (-(2 * Ab * (x k).2) + sigma) + R := by
    intro k hk hxr
    have hθ := endShare_bounds meth
    have h := affStep_remainder (B := hF.cov) (g := fun s => aff hF.cov s sigma s) (κ := κ) (γ := ‖sigma‖) hβ hF.cov_le meth
      (by rw [abs_of_pos hdt]; exact hdt1) (hAn k (by omega)) (hAn (k + 1) hk) (c0 := sigma) (c1 := sigma) le_rfl le_rfl hxr
      (by rw [hκ, ← hq]; exact le_max_left _ _)
      ((aff_bound hβ hF.cov_le hxr le_rfl hxr).trans (by rw [hκ]; exact le_max_right _ _))
    rw [← fwdStep_cov (rhs1) hF meth dt (asFun A) (asFun b) sigma k (x k), ← hq, ← hK] at h
    refine ⟨asFun A k + endShare meth • (asFun A (k + 1) - asFun A k), _, ?_, h, ?_⟩
    · have e : asFun A k + endShare meth • (asFun A (k + 1) - asFun A k) = (1 - endShare meth) • asFun A k + endShare meth • asFun A (k + 1) := by module
      rw [e]
      refine (norm_add_le _ _).trans ?_
      rw [norm_smul, norm_smul, Real.norm_of_nonneg hθ.1, Real.norm_of_nonneg (by linarith [hθ.2] : 0 ≤ 1 - endShare meth)]
      calc _ ≤ (1 - endShare meth) * α' + endShare meth * α' := by
            gcongr
            · linarith [hθ.2]
            · exact hAn k (by omega)
            · exact hθ.1
            · exact hAn (k + 1) hk
        _ = α' := by ring
    · have e : sigma + endShare meth • (sigma - sigma) = sigma := by rw [sub_self, smul_zero, add_zero]
      rw [e]
      show (fwdStep meth (rhs1) dt (asFun A) (asFun b) sigma k (x k)).2 = _
      have e2 : aff hF.cov (asFun A k + endShare meth • (asFun A (k + 1) - asFun A k)) sigma (x k).2
          = -(2 * (asFun A k + endShare meth • (asFun A (k + 1) - asFun A k)) * (x k).2) + sigma := haff _ _
      rw [e2]
      abel
  -- all covariances are bounded
  have hbd : ∀ k ≤ b.length - 1, ‖(x k).2‖ ≤ r := by
    rw [hr]
    refine gronwall_window (u := fun k => ‖(x k).2‖) hq0 (by positivity) hdt (hwin.trans hT') (norm_nonneg _) ?_
    intro k hk hu
    obtain ⟨Ab, R, hAb, hR, hs⟩ := hone k (by omega) (by rw [hr]; exact hu)
    show ‖(x (k + 1)).2‖ ≤ (1 + q * dt) * ‖(x k).2‖ + dt * (‖sigma‖ + 1)
    rw [hs]
    have h1 := aff_bound hβ hF.cov_le hAb (c := sigma) le_rfl (y := (x k).2) le_rfl
    have e2 : aff hF.cov Ab sigma (x k).2 = -(2 * Ab * (x k).2) + sigma := haff _ _
    rw [e2, ← hq] at h1
    have h2 := norm_add₃_le (a := (x k).2) (b := dt • (-(2 * Ab * (x k).2) + sigma)) (c := R)
    rw [norm_smul, Real.norm_of_nonneg hdt.le] at h2
    have h3 := mul_le_mul_of_nonneg_left h1 hdt.le
    have h4 : K * dt ^ 2 ≤ dt := by nlinarith
    nlinarith
  -- and positive
  have hpd : ∀ k, k < b.length → 0 ≤ (x k).2 ∧ (0 < k → 0 < (x k).2) := by
    intro k
    induction k with
    | zero => exact fun _ => ⟨hs0, fun h => absurd h (lt_irrefl 0)⟩
    | succ k ih =>
      intro hk
      have hbk := hbd k (by omega)
      obtain ⟨Ab, R, hAb, hR, hs⟩ := hone k hk hbk
      have hp : 0 < (x (k + 1)).2 := by
        rw [hs]
        exact step_pos1 (ih (by omega)).1 ((le_abs_self _).trans hbk) hAb hR hdt (by rw [← hE]; exact hσdt)
      exact ⟨hp.le, fun _ => hp⟩
  intro k hk
  rw [hget k hk]
  exact ⟨fun h => by subst h; rfl, (hpd k (by omega)).2⟩

/-- Non-vacuity: the hypotheses on the series can be met for every bound and every step. -/
example (dt : ℝ) (meth : Method) : ∃ (A : List (Matrix (Fin 2) (Fin 2) ℝ)) (b : List (Fin 2 → ℝ)) (mt : _) (st : _),
    A.length = b.length ∧ b.length = 3 ∧ (∀ M ∈ A, ∀ i j, |M i j| ≤ 5) ∧ ((b.length - 1 : ℕ) : ℝ) * dt ≤ 2 * dt
    ∧ solveFwd meth (rhsN 2) dt A b 0 ((0.2 : ℝ) • 1) 1 = .ok (mt, st) := by
  obtain ⟨mt, st, h, -⟩ := (C16_forward_shapes meth (rhsN 2) dt [!![1, 2; 3, 4], !![5, 0; 0, -5], 1] [0, 1, ![1, 2]] 0 ((0.2 : ℝ) • 1) 1).1 (by simp)
  refine ⟨_, _, mt, st, rfl, rfl, ?_, by norm_num, h⟩
  intro M hM i j
  simp only [List.mem_cons, List.not_mem_nil, or_false] at hM
  rcases hM with rfl | rfl | rfl <;> fin_cases i <;> fin_cases j <;> norm_num

example (dt : ℝ) (meth : Method) : ∃ (A b mt st : List ℝ), A.length = b.length ∧ b.length = 3 ∧ (∀ a ∈ A, |a| ≤ 5)
    ∧ ((b.length - 1 : ℕ) : ℝ) * dt ≤ 2 * dt ∧ solveFwd meth rhs1 dt A b 0 0.2 1 = .ok (mt, st) := by
  obtain ⟨mt, st, h, -⟩ := (C16_forward_shapes meth rhs1 dt [1, 5, -5] [0, 1, 2] 0 (0.2 : ℝ) 1).1 (by simp)
  refine ⟨[1, 5, -5], [0, 1, 2], mt, st, rfl, rfl, ?_, by norm_num, h⟩
  intro a ha
  simp only [List.mem_cons, List.not_mem_nil, or_false] at ha
  rcases ha with rfl | rfl | rfl <;> norm_num

end

end VGPA
