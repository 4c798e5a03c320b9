import Verif.Props.Lorenz96
import Verif.Props.Meaning1

/-!
# C111, C112: what the energy of the Lorenz-96 model and its gradients estimate
-/

namespace VGPA

open Matrix

variable {G : Type} {n d : ℕ}

namespace Spec

/-- `w` and `p` are the weights and the points of `ut_approx` in dimension `d`: for every mean and positive definite covariance the weights are positive with sum one,
weighted mean and covariance of the points are the given ones, and `ut_approx` of any callable returns the weighted mean of the rows that the callable returns
for the array of the points. -/
structure Unscented (d : ℕ) (w : Fin (d + d + 1) → ℝ) (p : (Fin d → ℝ) → Matrix (Fin d) (Fin d) ℝ → Fin (d + d + 1) → Fin d → ℝ) : Prop where
  pos : ∀ i, 0 < w i
  total : ∑ i, w i = 1
  mean : ∀ m S, S.PosDef → ∑ i, w i • p m S i = m
  cov : ∀ m S, S.PosDef → ∀ a b, ∑ i, w i * ((p m S i a - m a) * (p m S i b - m b)) = S a b
  eval : ∀ m S, S.PosDef → ∀ (k : ℕ) (f : List (Fin d → ℝ) → Py (List (Fin k → ℝ))) (Y : Fin (d + d + 1) → Fin k → ℝ),
    f (List.ofFn (p m S)) = .ok (List.ofFn Y) → ∃ C, utApprox f m S = .ok (∑ i, w i • Y i, C)

/-- Half the squared difference between a drift value `f` at the point `x` and the linear drift `-A x + b`, weighted with `c`. -/
noncomputable def weightedSq (c : Fin d → ℝ) (A : Matrix (Fin d) (Fin d) ℝ) (b f x : Fin d → ℝ) : ℝ :=
  1 / 2 * ∑ j, c j * (f j - (-(A *ᵥ x) j + b j)) ^ 2

end Spec

/-- Weights and points exist. -/
theorem unscented (hd : 0 < d) : Spec.Unscented d (utWeights d) (fun m S => utChi m (utRoot S)) where
  pos := utWeights_pos hd
  total := utWeights_sum hd
  mean m S _ := utMean hd m _
  cov m S hS a b := by
    obtain ⟨s, hs, hss⟩ := utSqrt_posDef hd S hS
    have : utRoot S = s := by simp [utRoot, hs]
    rw [this, utCov, hss, Matrix.smul_apply, smul_eq_mul]
    have := utD_pos hd
    field_simp
  eval m S hS k f Y hf := by
    refine ⟨(Matrix.of Y)ᵀ * utQ d * Matrix.of Y, (utApprox_rows f m S _ (utRoot_ok hd S hS) (Matrix.of Y) hf).trans ?_⟩
    congr 2
    funext a
    simp [Matrix.vecMul, dotProduct, Finset.sum_apply]

/-- Weights and points are determined by `ut_approx`. -/
theorem unscented_unique (hd : 0 < d) {w : Fin (d + d + 1) → ℝ} {p : (Fin d → ℝ) → Matrix (Fin d) (Fin d) ℝ → Fin (d + d + 1) → Fin d → ℝ}
    (h : Spec.Unscented d w p) : w = utWeights d ∧ ∀ m S, S.PosDef → p m S = utChi m (utRoot S) := by
  classical
  have hp : ∀ m S, S.PosDef → p m S = utChi m (utRoot S) := fun m S hS => by
    obtain ⟨C, hC⟩ := h.eval m S hS 1 (fun l => if l = List.ofFn (p m S) then .ok (List.ofFn fun _ : Fin (d + d + 1) => fun _ => 0) else .error .valueError)
      (fun _ _ => 0) (if_pos rfl)
    by_contra hne
    unfold utApprox at hC
    rw [utRoot_ok hd S hS] at hC
    simp only [py_ok_bind] at hC
    rw [if_neg (fun e => hne (List.ofFn_injective e).symm)] at hC
    cases hC
  refine ⟨?_, hp⟩
  have h1 := Matrix.PosDef.one (n := Fin d) (R := ℝ)
  funext i
  obtain ⟨C, hC⟩ := h.eval 0 1 h1 1 (fun _ => .ok (List.ofFn fun j _ => if j = i then 1 else 0)) (fun j _ => if j = i then 1 else 0) rfl
  obtain ⟨C', hC'⟩ := (unscented hd).eval 0 1 h1 1 (fun _ => .ok (List.ofFn fun j _ => if j = i then 1 else 0)) (fun j _ => if j = i then 1 else 0) rfl
  rw [hC] at hC'
  injection hC' with e
  have := congrFun (congrArg Prod.fst e) 0
  simpa [Finset.sum_apply] using this

theorem weightedSq_eq (c : Fin d → ℝ) (A : Matrix (Fin d) (Fin d) ℝ) (b : Fin d → ℝ) {r : ℕ} (F X : Matrix (Fin r) (Fin d) ℝ) (i : Fin r) :
    0.5 * (c ⬝ᵥ sqMismatch F X A b i) = Spec.weightedSq c A b (F i) (X i) := by
  unfold Spec.weightedSq
  have e : ∀ j, (X * Aᵀ) i j = (A *ᵥ X i) j := fun j => by
    rw [Matrix.mul_apply]
    simp only [Matrix.transpose_apply, Matrix.mulVec, dotProduct]
    exact Finset.sum_congr rfl fun k _ => mul_comm _ _
  simp only [sqMismatch, dotProduct, Matrix.of_apply, Matrix.add_apply, e]
  norm_num
  refine Finset.sum_congr rfl fun j _ => ?_
  ring

/-- C111, the part that holds: `energy` succeeds for positive definite covariances, and its `Esde` is the integration rule applied to the weighted mean, over the
points of `ut_approx`, of the weighted squares; the drift values are those of the code's function `l96` for the array of the points. `dsigma` is made from the
same means, component by component. Missing: `l96` of an array of several points is not the drift of each point, see `C49_batch_violated`, and so the energy
is not the one claimed, see `C111_violated`. -/
theorem C111_energy_partial (hd : 0 < d) {w : Fin (d + d + 1) → ℝ} {p : (Fin d → ℝ) → Matrix (Fin d) (Fin d) ℝ → Fin (d + d + 1) → Fin d → ℝ}
    (hu : Spec.Unscented d w p) (o : L96 G d) (a : Fin n → Matrix (Fin d) (Fin d) ℝ) (b m : Fin n → Fin d → ℝ) (s : Fin n → Matrix (Fin d) (Fin d) ℝ)
    (obs : Option (List ℕ)) (dt : ℝ) (hg : Spec.HasGrid o.base n dt) (hobs : Spec.ObsSorted obs) (hs : ∀ t, (s t).PosDef) :
    ∃ e, o.energy (List.ofFn a) (List.ofFn b) (List.ofFn m) (List.ofFn s) obs = .ok e
      ∧ e.Esde = Spec.trapezoidRule dt (List.ofFn fun t => ∑ i, w i *
          Spec.weightedSq o.sig_inv.diag (a t) (b t) (l96Batch (Matrix.of (p (m t) (s t))) o.theta i) (p (m t) (s t) i))
      ∧ e.dsigma = (-1 / 2 : ℝ) • (o.sig_inv * Matrix.diagonal (fun j => Spec.trapezoidRule dt (List.ofFn fun t => ∑ i, w i *
          (l96Batch (Matrix.of (p (m t) (s t))) o.theta i j - (-(a t *ᵥ p (m t) (s t) i) j + b t j)) ^ 2)) * o.sig_inv) := by
  obtain ⟨rfl, hp⟩ := unscented_unique hd hu
  refine ⟨_, l96_energy_eq hd o a b m s obs dt hg hobs hs, ?_, ?_⟩
  · dsimp only
    congr 2
    funext t
    rw [hp _ _ (hs t)]
    have : o.sig_inv.diag ⬝ᵥ (utWeights d ᵥ* l96Sq o.theta (a t) (b t) (m t) (utRoot (s t)))
        = ∑ i, utWeights d i * (o.sig_inv.diag ⬝ᵥ l96Sq o.theta (a t) (b t) (m t) (utRoot (s t)) i) := by
      simp only [dotProduct, vecMul, Finset.mul_sum]
      rw [Finset.sum_comm]
      exact Finset.sum_congr rfl fun r _ => Finset.sum_congr rfl fun j _ => by ring
    rw [this, Finset.mul_sum]
    refine Finset.sum_congr rfl fun i _ => ?_
    rw [mul_left_comm]
    congr 1
    exact weightedSq_eq _ _ _ _ _ _
  · dsimp only
    congr 1
    · norm_num
    · congr 2
      congr 1
      funext j
      rw [rule_apply]
      congr 2
      funext t
      rw [hp _ _ (hs t)]
      simp only [vecMul, dotProduct]
      refine Finset.sum_congr rfl fun i _ => ?_
      congr 1
      simp only [l96Sq, sqMismatch, Matrix.of_apply, Matrix.add_apply]
      congr 1
      have e : (Matrix.of (utChi (m t) (utRoot (s t))) * (a t)ᵀ) i j = (a t *ᵥ utChi (m t) (utRoot (s t)) i) j := by
        rw [Matrix.mul_apply]
        simp only [Matrix.transpose_apply, Matrix.mulVec, dotProduct]
        exact Finset.sum_congr rfl fun k _ => mul_comm _ _
      rw [e]
      ring

/-- C112, the part that holds: the returned gradients are the weighted means, over the points of `ut_approx`, of `g(x) S⁻¹(x - m)` and of
`g(x) (S⁻¹ (x - m) (x - m)ᵀ S⁻¹ - S⁻¹) / 2`, where `g` is the weighted square: the estimates of the derivatives of an expectation under a normal law with
respect to its mean and covariance. Missing: they are not the derivatives of the returned energy, see `C112_violated`. -/
theorem C112_estimates_partial (hd : 0 < d) {w : Fin (d + d + 1) → ℝ} {p : (Fin d → ℝ) → Matrix (Fin d) (Fin d) ℝ → Fin (d + d + 1) → Fin d → ℝ}
    (hu : Spec.Unscented d w p) (o : L96 G d) (a : Fin n → Matrix (Fin d) (Fin d) ℝ) (b m : Fin n → Fin d → ℝ) (s : Fin n → Matrix (Fin d) (Fin d) ℝ)
    (obs : Option (List ℕ)) (dt : ℝ) (hg : Spec.HasGrid o.base n dt) (hobs : Spec.ObsSorted obs) (hs : ∀ t, (s t).PosDef) :
    ∃ e, o.energy (List.ofFn a) (List.ofFn b) (List.ofFn m) (List.ofFn s) obs = .ok e
      ∧ e.dm = List.ofFn (fun t => ∑ i, (w i * Spec.weightedSq o.sig_inv.diag (a t) (b t) (l96Batch (Matrix.of (p (m t) (s t))) o.theta i) (p (m t) (s t) i))
          • ((s t)⁻¹ *ᵥ (p (m t) (s t) i - m t)))
      ∧ e.ds = List.ofFn (fun t => ∑ i, (w i * Spec.weightedSq o.sig_inv.diag (a t) (b t) (l96Batch (Matrix.of (p (m t) (s t))) o.theta i) (p (m t) (s t) i) / 2)
          • ((s t)⁻¹ * vecMulVec (p (m t) (s t) i - m t) (p (m t) (s t) i - m t) * (s t)⁻¹ - (s t)⁻¹)) := by
  obtain ⟨rfl, hp⟩ := unscented_unique hd hu
  refine ⟨_, l96_energy_eq hd o a b m s obs dt hg hobs hs, ?_, ?_⟩
  · dsimp only
    congr 1
    funext t j
    rw [hp _ _ (hs t), Finset.sum_apply]
    refine Finset.sum_congr rfl fun i _ => ?_
    rw [Pi.smul_apply, smul_eq_mul, show 0.5 * (o.sig_inv.diag ⬝ᵥ l96Sq o.theta (a t) (b t) (m t) (utRoot (s t)) i)
      = Spec.weightedSq o.sig_inv.diag (a t) (b t) (l96Batch (Matrix.of (utChi (m t) (utRoot (s t)))) o.theta i) (utChi (m t) (utRoot (s t)) i)
        from weightedSq_eq _ _ _ _ _ _]
    ring
  · dsimp only
    congr 1
    funext t
    ext i j
    have hsym : (s t)⁻¹ᵀ = (s t)⁻¹ := (posDef_iff_quad.1 (hs t).inv).1
    rw [hp _ _ (hs t), Matrix.sum_apply, Matrix.of_apply, Finset.mul_sum]
    refine Finset.sum_congr rfl fun r _ => ?_
    rw [Matrix.mul_vecMulVec, Matrix.vecMulVec_mul, ← Matrix.mulVec_transpose, hsym, Matrix.smul_apply, Matrix.sub_apply, vecMulVec_apply, smul_eq_mul,
      show 0.5 * (o.sig_inv.diag ⬝ᵥ l96Sq o.theta (a t) (b t) (m t) (utRoot (s t)) r)
      = Spec.weightedSq o.sig_inv.diag (a t) (b t) (l96Batch (Matrix.of (utChi (m t) (utRoot (s t)))) o.theta r) (utChi (m t) (utRoot (s t)) r)
        from weightedSq_eq _ _ _ _ _ _]
    norm_num
    ring

/-! ## The energy is not the one of the drift -/

theorem rule_same (dt c : ℝ) : ∀ n : ℕ, Spec.trapezoidRule dt (List.ofFn fun _ : Fin (n + 1) => c) = n * dt * c
  | 0 => by simp [Spec.trapezoidRule]
  | n + 1 => by
    have ih := rule_same dt c n
    rw [List.ofFn_succ] at ih ⊢
    rw [List.ofFn_succ, Spec.trapezoidRule, ih, smul_eq_mul]
    push_cast
    ring

/-- The last column of the drift of an array of points takes its right neighbour from the next row. -/
theorem l96Batch_last [NeZero d] (hd : 4 ≤ d) {r : ℕ} [NeZero r] (x : Matrix (Fin r) (Fin d) ℝ) (F : ℝ) (i : Fin r) :
    l96Batch x F i ⟨d - 1, by omega⟩ - Spec.l96Field F (x i) ⟨d - 1, by omega⟩ = (x (i + 1) 0 - x i 0) * x i ⟨d - 2, by omega⟩ := by
  rw [← l96_eq_field]
  simp only [l96Batch, l96, Matrix.of_apply]
  rw [npRoll2_inner 2 x i _ ⟨d - 3, by omega⟩ (by push_cast; omega), npRoll2_inner 1 x i _ ⟨d - 2, by omega⟩ (by push_cast; omega),
    npRoll_inner 2 (x i) _ ⟨d - 3, by omega⟩ (by push_cast; omega), npRoll_inner 1 (x i) _ ⟨d - 2, by omega⟩ (by push_cast; omega)]
  have e1 : npRoll2 (-1) x i ⟨d - 1, by omega⟩ = x (i + 1) 0 := by
    have hr : rollIdx (-1) (finProdFinEquiv (i, (⟨d - 1, by omega⟩ : Fin d))) = finProdFinEquiv (i + 1, (0 : Fin d)) := by
      apply Fin.ext
      have hv : ∀ (i : Fin r) (q : Fin d), ((finProdFinEquiv (i, q) : Fin (r * d)) : ℕ) = q + d * i := fun _ _ => rfl
      simp only [rollIdx, hv]
      have h1 : ((d - 1 + d * (i : ℕ) : ℕ) : ℤ) - -1 = ((d * ((i : ℕ) + 1) : ℕ) : ℤ) := by
        have : d - 1 + d * (i : ℕ) + 1 = d * (i + 1) := by rw [mul_add, mul_one]; omega
        rw [← this]
        push_cast
        ring
      rw [h1]
      have h2 : (((d * ((i : ℕ) + 1) : ℕ) : ℤ) % ((r * d : ℕ) : ℤ)) = ((d * (((i : ℕ) + 1) % r) : ℕ) : ℤ) := by
        rw [← Int.natCast_mod, mul_comm r d, Nat.mul_mod_mul_left]
      rw [h2, Int.toNat_natCast, Fin.val_add]
      have h3 : (((0 : Fin d) : ℕ)) = 0 := rfl
      rw [h3, zero_add]
      congr 1
      rw [Fin.val_one']
      simp
    simp only [npRoll2, Matrix.of_apply, hr, Equiv.symm_apply_apply]
  have e2 : npRoll (-1) (x i) ⟨d - 1, by omega⟩ = x i 0 := by
    unfold npRoll
    rw [(rollIdx_fin _).1]
    congr 1
    apply Fin.ext
    rw [Fin.val_add, Fin.val_one', Nat.mod_eq_of_lt (show 1 < d by omega)]
    simp only
    rw [show d - 1 + 1 = d by omega]
    simp
  rw [e1, e2]
  ring

theorem utRoot_first (hd : 0 < d) [NeZero d] (S : Matrix (Fin d) (Fin d) ℝ) (hS : S.PosDef) : utRoot S 0 0 ≠ 0 := by
  have hc := utD_pos hd
  have hs : symLower S = S := symLower_of_isSymm (posDef_iff_quad.1 hS).1
  obtain ⟨L, hL⟩ := chol_some_of_posDef d (((d : ℝ) + utK d) • S) (by rw [symLower_smul, hs]; exact (posDef_smul_iff hc S).2 hS)
  have : utRoot S = Lᵀ := by simp only [utRoot, utSqrt, npCholesky_eq_ok.2 hL]
  rw [this, Matrix.transpose_apply]
  exact ((chol_spec _ _ _ hL).2.2.1 0).ne'

/-- What the wrong neighbours add up to. -/
theorem wrong_neighbours (hd : 4 ≤ d) [NeZero d] (m : Fin d → ℝ) (s : Matrix (Fin d) (Fin d) ℝ) (q : Fin d) :
    ∑ i, utWeights d i * ((utChi m s (i + 1) 0 - utChi m s i 0) * utChi m s i q)
      = m q * ((utWeights d 0 - 1 / (2 * (d + utK d))) * s 0 0)
        + ∑ i, utWeights d i * ((utChi 0 s (i + 1) 0 - utChi 0 s i 0) * utChi 0 s i q) := by
  have hchi : ∀ (i : Fin (d + d + 1)) (j : Fin d), utChi m s i j = m j + utChi 0 s i j := fun i j => by
    refine Fin.cases ?_ (fun i => ?_) i
    · simp [utChi]
    · simp only [utChi, Fin.cons_succ]
      refine Fin.addCases (fun i => ?_) (fun i => ?_) i
      · simp only [Fin.append_left, Pi.add_apply, Pi.zero_apply, zero_add]
      · simp only [Fin.append_right, Pi.sub_apply, Pi.zero_apply]
        ring
  have hrot : ∑ i : Fin (d + d + 1), (utChi 0 s (i + 1) 0 - utChi 0 s i 0) = 0 := by
    rw [Finset.sum_sub_distrib, sub_eq_zero]
    exact Equiv.sum_comp (Equiv.addRight (1 : Fin (d + d + 1))) fun i => utChi 0 s i 0
  have hw : ∀ i : Fin (d + d + 1), utWeights d i = 1 / (2 * (d + utK d)) + if i = 0 then utWeights d 0 - 1 / (2 * (d + utK d)) else 0 := fun i => by
    refine Fin.cases ?_ (fun i => ?_) i
    · simp
    · rw [if_neg (Fin.succ_ne_zero _)]
      simp only [utWeights, Fin.cons_succ]
      norm_num
  have h1 : ∑ i, utWeights d i * (utChi 0 s (i + 1) 0 - utChi 0 s i 0) = (utWeights d 0 - 1 / (2 * (d + utK d))) * s 0 0 := by
    have : ∀ i, utWeights d i * (utChi 0 s (i + 1) 0 - utChi 0 s i 0)
        = 1 / (2 * (d + utK d)) * (utChi 0 s (i + 1) 0 - utChi 0 s i 0)
          + if i = 0 then (utWeights d 0 - 1 / (2 * (d + utK d))) * (utChi 0 s (i + 1) 0 - utChi 0 s i 0) else 0 := fun i => by
      rw [hw i]
      split_ifs with h
      · subst h; ring
      · ring
    simp only [this]
    rw [Finset.sum_add_distrib, ← Finset.mul_sum, hrot, Finset.sum_ite_eq' Finset.univ (0 : Fin (d + d + 1))]
    have e0 : utChi 0 s 0 = 0 := by simp [utChi]
    have e1 : utChi 0 s (0 + 1) 0 = s 0 0 := by
      have : (0 : Fin (d + d + 1)) + 1 = Fin.succ (Fin.castAdd d (0 : Fin d)) := by
        apply Fin.ext
        simp [Fin.val_add, Nat.mod_eq_of_lt (show 1 < d + d + 1 by omega)]
      rw [this]
      simp [utChi, Fin.append_left]
    rw [e1, e0]
    simp
  rw [← h1, Finset.mul_sum, ← Finset.sum_add_distrib]
  refine Finset.sum_congr rfl fun i _ => ?_
  rw [hchi (i + 1) 0, hchi i 0, hchi i q]
  ring

/-- C111 fails in every dimension of at least four, for every process with positive noise, every positive definite covariance and every linear parameter: for some mean
and offset (the same at all times) the energy differs from the one with the drift of each point. -/
theorem C111_violated [NeZero d] (hd : 4 ≤ d) {w : Fin (d + d + 1) → ℝ} {p : (Fin d → ℝ) → Matrix (Fin d) (Fin d) ℝ → Fin (d + d + 1) → Fin d → ℝ}
    (hu : Spec.Unscented d w p) (o : L96 G d) (hpos : ∀ j, 0 < o.sig_inv j j) (n : ℕ) (dt : ℝ) (hdt : 0 < dt) (hg : Spec.HasGrid o.base (n + 2) dt)
    (A S : Matrix (Fin d) (Fin d) ℝ) (hS : S.PosDef) (obs : Option (List ℕ)) (hobs : Spec.ObsSorted obs) :
    ∃ (b m : Fin d → ℝ) (e : EnergyN d),
      o.energy (List.ofFn fun _ : Fin (n + 2) => A) (List.ofFn fun _ : Fin (n + 2) => b) (List.ofFn fun _ : Fin (n + 2) => m)
        (List.ofFn fun _ : Fin (n + 2) => S) obs = .ok e
      ∧ e.Esde ≠ Spec.trapezoidRule dt (List.ofFn fun _ : Fin (n + 2) => ∑ i, w i *
          Spec.weightedSq o.sig_inv.diag A b (Spec.l96Field o.theta (p m S i)) (p m S i)) := by
  have hd0 : 0 < d := by omega
  by_contra hcon
  push Not at hcon
  have key : ∀ b m : Fin d → ℝ, ∑ i, w i * Spec.weightedSq o.sig_inv.diag A b (l96Batch (Matrix.of (p m S)) o.theta i) (p m S i)
      = ∑ i, w i * Spec.weightedSq o.sig_inv.diag A b (Spec.l96Field o.theta (p m S i)) (p m S i) := fun b m => by
    obtain ⟨e, he, h1, -⟩ := C111_energy_partial hd0 hu o (fun _ : Fin (n + 2) => A) (fun _ => b) (fun _ => m) (fun _ => S) obs dt hg hobs fun _ => hS
    have h2 := hcon b m e he
    rw [h1, rule_same, rule_same] at h2
    have hne : ((n + 1 : ℕ) : ℝ) * dt ≠ 0 := by positivity
    exact mul_left_cancel₀ hne h2
  obtain ⟨rfl, hp⟩ := unscented_unique hd0 hu
  obtain ⟨J, hJ⟩ : ∃ J : Fin d, J = ⟨d - 1, by omega⟩ := ⟨_, rfl⟩
  obtain ⟨q, hq⟩ : ∃ q : Fin d, q = ⟨d - 2, by omega⟩ := ⟨_, rfl⟩
  -- the coefficient of the offset
  have hzero : ∀ m : Fin d → ℝ, ∑ i, utWeights d i * ((utChi m (utRoot S) (i + 1) 0 - utChi m (utRoot S) i 0) * utChi m (utRoot S) i q) = 0 := fun m => by
    have k0 := key 0 m
    have k1 := key (Pi.single J 1) m
    rw [hp m S hS] at k0 k1
    have hdiff : ∀ (f x : Fin d → ℝ), Spec.weightedSq o.sig_inv.diag A (Pi.single J 1) f x - Spec.weightedSq o.sig_inv.diag A 0 f x
        = o.sig_inv.diag J * (1 / 2 - (f J + (A *ᵥ x) J)) := fun f x => by
      unfold Spec.weightedSq
      rw [← mul_sub, ← Finset.sum_sub_distrib, Finset.sum_eq_single J]
      · simp only [Pi.single_eq_same, Pi.zero_apply]
        ring
      · intro j _ hj
        simp [Pi.single_eq_of_ne hj]
      · simp
    have h2 : ∑ i, utWeights d i * (o.sig_inv.diag J * (1 / 2 - (l96Batch (Matrix.of (utChi m (utRoot S))) o.theta i J + (A *ᵥ utChi m (utRoot S) i) J)))
        = ∑ i, utWeights d i * (o.sig_inv.diag J * (1 / 2 - (Spec.l96Field o.theta (utChi m (utRoot S) i) J + (A *ᵥ utChi m (utRoot S) i) J))) := by
      simp only [← hdiff, mul_sub, Finset.sum_sub_distrib]
      rw [k0, k1]
    have h3 : ∀ i, l96Batch (Matrix.of (utChi m (utRoot S))) o.theta i J = Spec.l96Field o.theta (utChi m (utRoot S) i) J
        + (utChi m (utRoot S) (i + 1) 0 - utChi m (utRoot S) i 0) * utChi m (utRoot S) i q := fun i => by
      have := l96Batch_last hd (Matrix.of (utChi m (utRoot S))) o.theta i
      rw [hJ, hq]
      simp only [Matrix.of_apply] at this
      have e : (Matrix.of (utChi m (utRoot S))) i = utChi m (utRoot S) i := rfl
      rw [e] at this
      linarith
    have h4 : o.sig_inv.diag J * ∑ i, utWeights d i * ((utChi m (utRoot S) (i + 1) 0 - utChi m (utRoot S) i 0) * utChi m (utRoot S) i q) = 0 := by
      rw [← sub_eq_zero, ← Finset.sum_sub_distrib] at h2
      rw [Finset.mul_sum, ← neg_eq_zero, ← Finset.sum_neg_distrib, ← h2]
      refine Finset.sum_congr rfl fun i _ => ?_
      rw [h3 i]
      ring
    exact (mul_eq_zero.1 h4).resolve_left (hpos J).ne'
  have z0 := hzero 0
  have z1 := hzero (Pi.single q 1)
  rw [wrong_neighbours hd] at z0 z1
  have hk : (utWeights d 0 - 1 / (2 * (d + utK d))) * utRoot S 0 0 = 0 := by
    simp only [Pi.single_eq_same, Pi.zero_apply, zero_mul, zero_add, one_mul] at z0 z1
    linarith
  rcases mul_eq_zero.1 hk with h | h
  · have hdr : (4 : ℝ) ≤ d := by exact_mod_cast hd
    have hD := utD_pos hd0
    have e : utWeights d 0 - 1 / (2 * (d + utK d)) = (utK d - 1 / 2) / (d + utK d) := by
      simp only [utWeights, Fin.cons_zero]
      field_simp
    rw [e, div_eq_zero_iff] at h
    rcases h with h | h
    · unfold utK at h
      norm_num at h
      linarith
    · linarith
  · exact utRoot_first hd0 S hS h

/-! ## The gradients are not the derivatives of the energy -/

theorem chol_smul_one : ∀ (n : ℕ) {c : ℝ}, 0 < c → chol n (c • (1 : Matrix (Fin n) (Fin n) ℝ)) = some (Real.sqrt c • (1 : Matrix (Fin n) (Fin n) ℝ))
  | 0, c, hc => by
    simp only [chol, Option.some.injEq]
    ext i
    exact i.elim0
  | n + 1, c, hc => by
    have e : (Matrix.of fun i j : Fin n => (c • (1 : Matrix (Fin (n + 1)) (Fin (n + 1)) ℝ)) i.succ j.succ
        - (c • (1 : Matrix (Fin (n + 1)) (Fin (n + 1)) ℝ)) i.succ 0 / Real.sqrt ((c • (1 : Matrix (Fin (n + 1)) (Fin (n + 1)) ℝ)) 0 0)
          * ((c • (1 : Matrix (Fin (n + 1)) (Fin (n + 1)) ℝ)) j.succ 0 / Real.sqrt ((c • (1 : Matrix (Fin (n + 1)) (Fin (n + 1)) ℝ)) 0 0)))
        = c • (1 : Matrix (Fin n) (Fin n) ℝ) := by
      ext i j
      simp [Matrix.one_apply, Fin.succ_ne_zero]
    have h0 : ¬ (c • (1 : Matrix (Fin (n + 1)) (Fin (n + 1)) ℝ)) 0 0 ≤ 0 := by simpa using hc
    simp only [chol, if_neg h0, e, chol_smul_one n hc, Option.some.injEq]
    ext i j
    refine Fin.cases ?_ (fun i => ?_) i
    · refine Fin.cases ?_ (fun j => ?_) j
      · simp
      · simp [Matrix.one_apply, (Fin.succ_ne_zero j).symm]
    · refine Fin.cases ?_ (fun j => ?_) j
      · simp [Matrix.one_apply, Fin.succ_ne_zero]
      · simp [Matrix.one_apply]

/-- With unit covariance every point differs from the mean in one coordinate at most. -/
theorem chi_one (hd : 0 < d) (i : Fin (d + d + 1)) {j k : Fin d} (hjk : j ≠ k) : utChi 0 (utRoot (1 : Matrix (Fin d) (Fin d) ℝ)) i j * utChi 0 (utRoot 1) i k = 0 := by
  have hroot : utRoot (1 : Matrix (Fin d) (Fin d) ℝ) = Real.sqrt (d + utK d) • 1 := by
    have := npCholesky_eq_ok.2 (chol_smul_one d (utD_pos hd))
    simp only [utRoot, utSqrt, this]
    simp
  have key : ∀ l : Fin d, (Real.sqrt (d + utK d) • (1 : Matrix (Fin d) (Fin d) ℝ)) l j * (Real.sqrt (d + utK d) • (1 : Matrix (Fin d) (Fin d) ℝ)) l k = 0 := fun l => by
    simp only [Matrix.smul_apply, Matrix.one_apply, smul_eq_mul]
    by_cases h : l = j
    · subst h
      simp [hjk]
    · simp [h]
  rw [hroot]
  refine Fin.cases ?_ (fun i => ?_) i
  · simp [utChi]
  · simp only [utChi, Fin.cons_succ]
    refine Fin.addCases (fun l => ?_) (fun l => ?_) i
    · simp only [Fin.append_left, zero_add]
      exact key l
    · simp only [Fin.append_right, zero_sub, Pi.neg_apply, neg_mul_neg]
      exact key l

/-- C112 fails in every dimension of at least four: at mean zero, unit covariance and zero offset there is a linear parameter for which the energy, as a function of
a shift of the second component of the mean at all times, does not have the derivative that the returned gradients give. -/
theorem C112_violated (hd : 4 ≤ d) (o : L96 G d) (hpos : ∀ j, 0 < o.sig_inv j j) (n : ℕ) (dt : ℝ) (hdt : 0 < dt) (hg : Spec.HasGrid o.base (n + 2) dt)
    (obs : Option (List ℕ)) (hobs : Spec.ObsSorted obs) :
    ∃ (A : Matrix (Fin d) (Fin d) ℝ) (U : ℝ → ℝ) (e : EnergyN d),
      (∀ ε, ∃ e', o.energy (List.ofFn fun _ : Fin (n + 2) => A) (List.ofFn fun _ : Fin (n + 2) => 0)
        (List.ofFn fun _ : Fin (n + 2) => Pi.single ⟨1, by omega⟩ ε) (List.ofFn fun _ : Fin (n + 2) => 1) obs = .ok e' ∧ e'.Esde = U ε)
      ∧ o.energy (List.ofFn fun _ : Fin (n + 2) => A) (List.ofFn fun _ : Fin (n + 2) => 0) (List.ofFn fun _ : Fin (n + 2) => 0)
        (List.ofFn fun _ : Fin (n + 2) => 1) obs = .ok e
      ∧ ¬ HasDerivAt U (Spec.trapezoidRule dt (e.dm.map fun g => g ⟨1, by omega⟩)) 0 := by
  have hd0 : 0 < d := by omega
  obtain ⟨w, hw⟩ : ∃ w, w = utWeights d := ⟨_, rfl⟩
  obtain ⟨p, hp⟩ : ∃ p : (Fin d → ℝ) → Matrix (Fin d) (Fin d) ℝ → Fin (d + d + 1) → Fin d → ℝ, p = fun m S => utChi m (utRoot S) := ⟨_, rfl⟩
  have hu : Spec.Unscented d w p := by rw [hw, hp]; exact unscented hd0
  have hS := Matrix.PosDef.one (n := Fin d) (R := ℝ)
  obtain ⟨k0, hk0⟩ : ∃ k : Fin d, k = ⟨0, by omega⟩ := ⟨_, rfl⟩
  obtain ⟨k1, hk1⟩ : ∃ k : Fin d, k = ⟨1, by omega⟩ := ⟨_, rfl⟩
  obtain ⟨k2, hk2⟩ : ∃ k : Fin d, k = ⟨2, by omega⟩ := ⟨_, rfl⟩
  obtain ⟨k3, hk3⟩ : ∃ k : Fin d, k = ⟨3, by omega⟩ := ⟨_, rfl⟩
  rw [← hk1]
  obtain ⟨N, hN, hN0⟩ : ∃ N : ℝ, N = ((n + 1 : ℕ) : ℝ) * dt ∧ N ≠ 0 := ⟨_, rfl, by positivity⟩
  obtain ⟨c, hc⟩ : ∃ c, c = o.sig_inv.diag := ⟨_, rfl⟩
  -- the energy per time for the linear parameter `α` at position (2, 3)
  obtain ⟨V, hV⟩ : ∃ V : ℝ → (Fin d → ℝ) → Fin (d + d + 1) → ℝ, V = fun α m i =>
    Spec.weightedSq c (Matrix.single k2 k3 α) 0 (l96Batch (Matrix.of (p m 1)) o.theta i) (p m 1 i) := ⟨_, rfl⟩
  have hE : ∀ α m, ∃ e, o.energy (List.ofFn fun _ : Fin (n + 2) => Matrix.single k2 k3 α) (List.ofFn fun _ : Fin (n + 2) => 0)
      (List.ofFn fun _ : Fin (n + 2) => m) (List.ofFn fun _ : Fin (n + 2) => 1) obs = .ok e
      ∧ e.Esde = N * ∑ i, w i * V α m i
      ∧ Spec.trapezoidRule dt (e.dm.map fun g => g k1) = N * ∑ i, w i * V α m i * (p m 1 i - m) k1 := fun α m => by
    obtain ⟨e, he, h1, -⟩ := C111_energy_partial hd0 hu o (fun _ : Fin (n + 2) => Matrix.single k2 k3 α) (fun _ => 0) (fun _ => m) (fun _ => 1) obs dt hg hobs fun _ => hS
    obtain ⟨e', he', h2, -⟩ := C112_estimates_partial hd0 hu o (fun _ : Fin (n + 2) => Matrix.single k2 k3 α) (fun _ => 0) (fun _ => m) (fun _ => 1) obs dt hg hobs fun _ => hS
    rw [he] at he'
    injection he' with he'
    subst he'
    refine ⟨e, he, ?_, ?_⟩
    · rw [h1, rule_same, hV, hN, hc]
    · rw [h2, List.map_ofFn]
      simp only [Function.comp_def]
      rw [rule_same, hV, hN, hc, inv_one]
      simp only [Matrix.one_mulVec, Finset.sum_apply, Pi.smul_apply, smul_eq_mul]
  have hVd : ∀ m i, V 1 m i - V (-1) m i = 2 * c k2 * (((p m 1 i k3 - p m 1 i k0) * p m 1 i k1 - p m 1 i k2 + o.theta) * p m 1 i k3) := fun m i => by
    rw [hV]
    unfold Spec.weightedSq
    simp only
    rw [← mul_sub, ← Finset.sum_sub_distrib, Finset.sum_eq_single k2]
    · have hl : l96Batch (Matrix.of (p m 1)) o.theta i k2 = (p m 1 i k3 - p m 1 i k0) * p m 1 i k1 - p m 1 i k2 + o.theta := by
        simp only [l96Batch, Matrix.of_apply]
        rw [npRoll2_inner (-1) _ i k2 k3 (by rw [hk2, hk3]; rfl), npRoll2_inner 2 _ i k2 k0 (by rw [hk2, hk0]; rfl), npRoll2_inner 1 _ i k2 k1 (by rw [hk2, hk1]; rfl)]
        rfl
      rw [hl]
      simp only [Matrix.single_mulVec, Function.update_self, Pi.zero_apply]
      ring
    · intro j _ hj
      simp [Matrix.single_mulVec, Function.update_of_ne hj]
    · simp
  choose eE heE hEs hdm using hE
  by_contra hcon
  push Not at hcon
  have hD : ∀ α, HasDerivAt (fun ε => N * ∑ i, w i * V α (Pi.single k1 ε) i) (N * ∑ i, w i * V α 0 i * (p 0 1 i - 0) k1) 0 := fun α => by
    have := hcon (Matrix.single k2 k3 α) (fun ε => N * ∑ i, w i * V α (Pi.single k1 ε) i) (eE α 0) (fun ε => ⟨_, heE α (Pi.single k1 ε), hEs _ _⟩) (heE α 0)
    rwa [hdm] at this
  have hdiff := (hD 1).fun_sub (hD (-1))
  have hshift : ∀ ε i j, p (Pi.single k1 ε) 1 i j = (if j = k1 then ε else 0) + p 0 1 i j := fun ε i j => by
    rw [hp]
    simp only
    have hs : (Pi.single k1 ε : Fin d → ℝ) j = if j = k1 then ε else 0 := by rw [Pi.single_apply]
    rw [← hs]
    generalize (Pi.single k1 ε : Fin d → ℝ) = m
    refine Fin.cases ?_ (fun i => ?_) i
    · simp [utChi]
    · simp only [utChi, Fin.cons_succ]
      refine Fin.addCases (fun i => ?_) (fun i => ?_) i
      · simp only [Fin.append_left, Pi.add_apply, Pi.zero_apply, zero_add]
      · simp only [Fin.append_right, Pi.sub_apply, Pi.zero_apply]
        ring
  have ne01 : k0 ≠ k1 := by rw [hk0, hk1]; simp
  have ne21 : k2 ≠ k1 := by rw [hk2, hk1]; simp
  have ne31 : k3 ≠ k1 := by rw [hk3, hk1]; simp
  have ne30 : k3 ≠ k0 := by rw [hk3, hk0]; simp
  have h13 : ∀ i, p 0 1 i k1 * p 0 1 i k3 = 0 := fun i => by
    rw [hp]
    exact chi_one hd0 i ne31.symm
  -- the difference of the energies is linear in the shift with slope `2 c N`
  have hcov := fun a b => hu.cov 0 1 hS a b
  have hlin : ∀ ε, N * ∑ i, w i * V 1 (Pi.single k1 ε) i - N * ∑ i, w i * V (-1) (Pi.single k1 ε) i
      = N * (2 * c k2 * (ε + ∑ i, w i * ((-p 0 1 i k2 + o.theta) * p 0 1 i k3))) := fun ε => by
    rw [← mul_sub, ← Finset.sum_sub_distrib]
    congr 1
    have e33 := hcov k3 k3
    have e30 := hcov k3 k0
    simp only [Pi.zero_apply, sub_zero, Matrix.one_apply_eq, Matrix.one_apply_ne ne30] at e33 e30
    rw [mul_add, show 2 * c k2 * ε = 2 * c k2 * (ε * (∑ i, w i * (p 0 1 i k3 * p 0 1 i k3) - ∑ i, w i * (p 0 1 i k3 * p 0 1 i k0))) by rw [e33, e30]; ring,
      ← Finset.sum_sub_distrib, Finset.mul_sum, Finset.mul_sum, Finset.mul_sum, ← Finset.sum_add_distrib]
    refine Finset.sum_congr rfl fun i _ => ?_
    rw [← mul_sub, hVd, hshift, hshift, hshift, hshift, if_pos rfl, if_neg ne01, if_neg ne21, if_neg ne31]
    have := h13 i
    linear_combination (2 * c k2 * w i * (p 0 1 i k3 - p 0 1 i k0)) * this
  have hslope : HasDerivAt (fun ε => N * ∑ i, w i * V 1 (Pi.single k1 ε) i - N * ∑ i, w i * V (-1) (Pi.single k1 ε) i) (N * (2 * c k2 * 1)) 0 := by
    rw [funext hlin]
    exact (((hasDerivAt_id (0 : ℝ)).add_const _).const_mul _).const_mul _
  have hzero : N * ∑ i, w i * V 1 0 i * (p 0 1 i - 0) k1 - N * ∑ i, w i * V (-1) 0 i * (p 0 1 i - 0) k1 = 0 := by
    rw [← mul_sub, ← Finset.sum_sub_distrib, Finset.sum_eq_zero, mul_zero]
    intro i _
    rw [sub_zero, ← sub_mul, ← mul_sub, hVd]
    have := h13 i
    linear_combination (w i * 2 * c k2 * ((p 0 1 i k3 - p 0 1 i k0) * p 0 1 i k1 - p 0 1 i k2 + o.theta)) * this
  have := hdiff.unique hslope
  rw [hzero] at this
  have hck : 0 < c k2 := by rw [hc]; exact hpos k2
  have : N * (2 * c k2 * 1) ≠ 0 := mul_ne_zero hN0 (by positivity)
  simp_all

/-! Non-vacuity: a process of dimension ten with unit noise, on a grid of two points. -/

/-- A Lorenz-96 object with a grid of two points. -/
noncomputable def ex96 : L96 ℕ 10 where
  base := { xt := some [0, 0], tk := some [0, 1], rng := 0, single_dimension := false }
  sigma := 1
  theta := 8
  sig_inv := 1

theorem ex96_grid : Spec.HasGrid ex96.base 2 1 := ⟨[0, 1], rfl, rfl, by simp [ex96, Proc.timeStep, idx, pure, Except.pure]⟩

example : ∃ (b m : Fin 10 → ℝ) (e : EnergyN 10),
    ex96.energy (List.ofFn fun _ : Fin 2 => 1) (List.ofFn fun _ : Fin 2 => b) (List.ofFn fun _ : Fin 2 => m) (List.ofFn fun _ : Fin 2 => 1) none = .ok e
      ∧ e.Esde ≠ Spec.trapezoidRule 1 (List.ofFn fun _ : Fin 2 => ∑ i, utWeights 10 i *
          Spec.weightedSq ex96.sig_inv.diag 1 b (Spec.l96Field ex96.theta (utChi m (utRoot 1) i)) (utChi m (utRoot 1) i)) :=
  C111_violated (by norm_num) (unscented (by norm_num)) ex96 (fun j => by simp [ex96]) 0 1 one_pos ex96_grid 1 1 Matrix.PosDef.one none (fun l hl => by cases hl)

example : ∃ (A : Matrix (Fin 10) (Fin 10) ℝ) (U : ℝ → ℝ) (e : EnergyN 10),
    (∀ ε, ∃ e', ex96.energy (List.ofFn fun _ : Fin 2 => A) (List.ofFn fun _ : Fin 2 => 0) (List.ofFn fun _ : Fin 2 => Pi.single 1 ε)
      (List.ofFn fun _ : Fin 2 => 1) none = .ok e' ∧ e'.Esde = U ε)
    ∧ ex96.energy (List.ofFn fun _ : Fin 2 => A) (List.ofFn fun _ : Fin 2 => 0) (List.ofFn fun _ : Fin 2 => 0) (List.ofFn fun _ : Fin 2 => 1) none = .ok e
    ∧ ¬ HasDerivAt U (Spec.trapezoidRule 1 (e.dm.map fun g => g 1)) 0 :=
  C112_violated (by norm_num) ex96 (fun j => by simp [ex96]) 0 1 one_pos ex96_grid none (fun l hl => by cases hl)

example (a : Fin 2 → Matrix (Fin 10) (Fin 10) ℝ) (b m : Fin 2 → Fin 10 → ℝ) :
    ∃ e, ex96.energy (List.ofFn a) (List.ofFn b) (List.ofFn m) (List.ofFn fun _ : Fin 2 => 1) none = .ok e
      ∧ e.Esde = Spec.trapezoidRule 1 (List.ofFn fun t => ∑ i, utWeights 10 i *
          Spec.weightedSq ex96.sig_inv.diag (a t) (b t) (l96Batch (Matrix.of (utChi (m t) (utRoot 1))) ex96.theta i) (utChi (m t) (utRoot 1) i)) := by
  obtain ⟨e, h1, h2, -⟩ := C111_energy_partial (by norm_num) (unscented (by norm_num)) ex96 a b m (fun _ => 1) none 1 ex96_grid
    (fun l hl => by cases hl) fun _ => Matrix.PosDef.one
  exact ⟨e, h1, h2⟩

end VGPA
