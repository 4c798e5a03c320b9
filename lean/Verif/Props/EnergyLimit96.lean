import Verif.Props.EnergyLimit63
import Verif.Props.Meaning96
import Verif.Props.OdePos
import Verif.Props.Defined96
import Verif.Lemmas.CholSmooth

/-!
# C108 for the Lorenz-96 process
-/

namespace VGPA

open Set Matrix

noncomputable section

attribute [local instance] Matrix.normedAddCommGroup Matrix.normedSpace

/-- A continuous curve of positive definite matrices over a compact interval is uniformly positive definite. -/
theorem aboveSet_curve {d : ℕ} {T : ℝ} {S : ℝ → Matrix (Fin d) (Fin d) ℝ} (hc : ContinuousOn S (Icc 0 T)) (hS : ∀ t ∈ Icc 0 T, (S t).PosDef) :
    ∃ ε > 0, ∀ t ∈ Icc 0 T, S t ∈ aboveSet d ε := by
  refine isCompact_Icc.induction_on (p := fun U => ∃ ε > 0, ∀ t ∈ U, S t ∈ aboveSet d ε) ⟨1, one_pos, fun t ht => ht.elim⟩
    (fun U V hUV ⟨ε, h0, h⟩ => ⟨ε, h0, fun t ht => h t (hUV ht)⟩) (fun U V ⟨ε, h0, h⟩ ⟨ε', h0', h'⟩ => ⟨min ε ε', lt_min h0 h0', fun t ht => ?_⟩) fun t ht => ?_
  · have mono : ∀ {a b : ℝ} {S : Matrix (Fin d) (Fin d) ℝ}, b ≤ a → S ∈ aboveSet d a → S ∈ aboveSet d b := fun hab hS =>
      ⟨hS.1, fun x => (mul_le_mul_of_nonneg_right hab (dot_self_nonneg x)).trans (hS.2 x)⟩
    rcases ht with ht | ht
    · exact mono (min_le_left _ _) (h t ht)
    · exact mono (min_le_right _ _) (h' t ht)
  · obtain ⟨σ, h0, hσ⟩ := posDef_lower (hS t ht)
    have hab : S t ∈ aboveSet d (2 * (σ / 2)) := ⟨(hS t ht).isHermitian, fun x => by rw [mul_div_cancel₀ _ two_ne_zero, ← quad_eq]; exact hσ x⟩
    have hcont : ContinuousWithinAt (fun s => (d : ℝ) * ‖S s - S t‖) (Icc 0 T) t := ((hc t ht).sub continuousWithinAt_const).norm.const_mul _ |>.congr (fun _ _ => rfl) rfl
    have hev : ∀ᶠ s in nhdsWithin t (Icc 0 T), (d : ℝ) * ‖S s - S t‖ < σ / 2 := by
      have := hcont.eventually (eventually_lt_nhds (b := σ / 2) (by simpa using h0))
      exact this
    refine ⟨_, Filter.inter_mem hev self_mem_nhdsWithin, σ / 2, by positivity, fun s hs => ?_⟩
    exact aboveSet_near hab (hS s hs.2).isHermitian (le_of_lt hs.1)

/-- Parameters and moments at one time. -/
abbrev PointN (d : ℕ) := Matrix (Fin d) (Fin d) ℝ × (Fin d → ℝ) × (Fin d → ℝ) × Matrix (Fin d) (Fin d) ℝ

variable {d : ℕ}

theorem pt1_contDiff (i j : Fin d) : ContDiff ℝ 1 fun p : PointN d => p.1 i j := by
  have : ContDiff ℝ 1 fun p : PointN d => (p.1 : Fin d → Fin d → ℝ) := contDiff_fst
  exact contDiff_pi.1 (contDiff_pi.1 this i) j

theorem pt2_contDiff (i : Fin d) : ContDiff ℝ 1 fun p : PointN d => p.2.1 i :=
  contDiff_pi.1 (contDiff_fst.comp contDiff_snd : ContDiff ℝ 1 fun p : PointN d => p.2.1) i

theorem pt3_contDiff (i : Fin d) : ContDiff ℝ 1 fun p : PointN d => p.2.2.1 i :=
  contDiff_pi.1 (contDiff_fst.comp (contDiff_snd.comp contDiff_snd) : ContDiff ℝ 1 fun p : PointN d => p.2.2.1) i

theorem pt4_contDiff (i j : Fin d) : ContDiff ℝ 1 fun p : PointN d => p.2.2.2 i j := by
  have : ContDiff ℝ 1 fun p : PointN d => (p.2.2.2 : Fin d → Fin d → ℝ) := contDiff_snd.comp (contDiff_snd.comp contDiff_snd)
  exact contDiff_pi.1 (contDiff_pi.1 this i) j

/-- The density of the Lorenz-96 energy with the square root computed without tests. -/
def q96 (θ : ℝ) (c : Fin d → ℝ) (p : PointN d) : ℝ :=
  0.5 * (c ⬝ᵥ (utWeights d ᵥ* l96Sq θ p.1 p.2.1 p.2.2.1 (cholT d (((d : ℝ) + utK d) • p.2.2.2))ᵀ))

theorem q96_contDiffAt (hd : 0 < d) (θ : ℝ) (c : Fin d → ℝ) (p : PointN d) (hp : p.2.2.2.PosDef) : ContDiffAt ℝ 1 (q96 θ c) p := by
  have hr : ∀ i j, ContDiffAt ℝ 1 (fun p : PointN d => (cholT d (((d : ℝ) + utK d) • p.2.2.2))ᵀ i j) p := by
    intro i j
    have hpos : 0 < (d : ℝ) + utK d := utD_pos hd
    obtain ⟨L, hL⟩ := chol_some_of_posDef d (((d : ℝ) + utK d) • p.2.2.2) (by
      rw [symLower_of_isSymm]
      · exact hp.smul hpos
      · exact (hp.smul hpos).isHermitian)
    exact cholT_contDiffAt d (fun p : PointN d => ((d : ℝ) + utK d) • p.2.2.2) p L (fun i j => by
      simp only [Matrix.smul_apply, smul_eq_mul]
      exact contDiffAt_const.mul (pt4_contDiff i j).contDiffAt) hL j i
  have hchi : ∀ i j, ContDiffAt ℝ 1 (fun p : PointN d => utChi p.2.2.1 (cholT d (((d : ℝ) + utK d) • p.2.2.2))ᵀ i j) p := by
    intro i j
    refine Fin.cases ?_ (fun i => ?_) i
    · exact (pt3_contDiff j).contDiffAt
    · simp only [utChi, Fin.cons_succ]
      refine Fin.addCases (fun i => ?_) (fun i => ?_) i
      · simp only [Fin.append_left, Pi.add_apply]
        exact (pt3_contDiff j).contDiffAt.add (hr i j)
      · simp only [Fin.append_right, Pi.sub_apply]
        exact (pt3_contDiff j).contDiffAt.sub (hr i j)
  have hsq : ∀ r i, ContDiffAt ℝ 1 (fun p : PointN d => l96Sq θ p.1 p.2.1 p.2.2.1 (cholT d (((d : ℝ) + utK d) • p.2.2.2))ᵀ r i) p := by
    intro r i
    have hb : ∀ j, ContDiffAt ℝ 1 (fun p : PointN d => l96Batch (utChi p.2.2.1 (cholT d (((d : ℝ) + utK d) • p.2.2.2))ᵀ) θ r j) p := by
      intro j
      simp only [l96Batch, npRoll2]
      exact ((((hchi _ _).sub (hchi _ _)).mul (hchi _ _)).sub (hchi _ _)).add contDiffAt_const
    simp only [l96Sq, sqMismatch, Matrix.add_apply, Matrix.mul_apply, Matrix.transpose_apply]
    exact (((hb i).add (ContDiffAt.sum fun k _ => (hchi r k).mul (pt1_contDiff i k).contDiffAt)).sub (pt2_contDiff i).contDiffAt).pow 2
  unfold q96
  simp only [dotProduct, Matrix.vecMul]
  exact contDiffAt_const.mul (ContDiffAt.sum fun i _ => contDiffAt_const.mul (ContDiffAt.sum fun r _ => contDiffAt_const.mul (hsq r i)))

theorem utRoot_cholT (hd : 0 < d) {S : Matrix (Fin d) (Fin d) ℝ} (hS : S.PosDef) : utRoot S = (cholT d (((d : ℝ) + utK d) • S))ᵀ := by
  have hpos : 0 < (d : ℝ) + utK d := utD_pos hd
  obtain ⟨L, hL⟩ := chol_some_of_posDef d (((d : ℝ) + utK d) • S) (by
    rw [symLower_of_isSymm]
    · exact hS.smul hpos
    · exact (hS.smul hpos).isHermitian)
  rw [← chol_eq_cholT _ _ _ hL]
  simp only [utRoot, utSqrt, npCholesky_eq_ok.2 hL]

/-- The density is Lipschitz near a curve of positive definite covariances. -/
theorem q96_lip (hd : 0 < d) (θ : ℝ) (c : Fin d → ℝ) {T : ℝ} {sigma : Matrix (Fin d) (Fin d) ℝ} (hsig : sigma.IsSymm) {A : ℝ → Matrix (Fin d) (Fin d) ℝ}
    {b m : ℝ → Fin d → ℝ} {S : ℝ → Matrix (Fin d) (Fin d) ℝ} (hc : Spec.CurveN T sigma A b m S) (hS : ∀ t ∈ Icc 0 T, (S t).PosDef) :
    ∃ (D : Set (PointN d)) (K r : ℝ), 0 ≤ K ∧ 0 < r ∧ (∀ x ∈ D, x.2.2.2.PosDef) ∧ (∀ x ∈ D, ∀ y ∈ D, |q96 θ c x - q96 θ c y| ≤ K * ‖x - y‖)
      ∧ ∀ t ∈ Icc 0 T, ∀ M P, ‖M - m t‖ ≤ r → ‖P - S t‖ ≤ r → (sigma.IsSymm → P.IsSymm) → (A t, b t, M, P) ∈ D := by
  obtain ⟨hT, ⟨L0, hL0⟩, hm, hcov, -⟩ := hc
  obtain ⟨αA, hαA⟩ := bounded_of_lip (u := A) (T := T) (abs_nonneg L0) fun s hs t ht =>
    (Matrix.norm_le_iff (by positivity)).2 fun i j => ((hL0 s hs t ht).1 i j).trans (mul_le_mul_of_nonneg_right (le_abs_self _) (abs_nonneg _))
  obtain ⟨αb, hαb⟩ := bounded_of_lip (u := b) (T := T) (abs_nonneg L0) fun s hs t ht =>
    (pi_norm_le_iff_of_nonneg (by positivity)).2 fun i => ((hL0 s hs t ht).2 i).trans (mul_le_mul_of_nonneg_right (le_abs_self _) (abs_nonneg _))
  obtain ⟨αm, hαm⟩ := isCompact_Icc.exists_bound_of_continuousOn fun t ht => (hasDerivWithinAt_pi.2 (hm t ht)).continuousWithinAt
  have hScont : ContinuousOn S (Icc 0 T) := fun t ht => (hasDerivWithinAt_pi.2 fun i => hasDerivWithinAt_pi.2 (hcov t ht i)).continuousWithinAt
  obtain ⟨αS, hαS⟩ := isCompact_Icc.exists_bound_of_continuousOn hScont
  obtain ⟨ε, hε, habove⟩ := aboveSet_curve hScont hS
  obtain ⟨ρ, hρ⟩ : ∃ ρ, ρ = max (max αA αb) (max (αm + 1) (αS + 1)) := ⟨_, rfl⟩
  have hcl : IsClosed {x : PointN d | x.2.2.2 ∈ aboveSet d (ε / 2)} :=
    (aboveSet_closed d (ε / 2)).preimage (continuous_snd.comp (continuous_snd.comp continuous_snd))
  have hcpt : IsCompact (Metric.closedBall (0 : PointN d) ρ ∩ {x : PointN d | x.2.2.2 ∈ aboveSet d (ε / 2)}) := (isCompact_closedBall _ _).inter_right hcl
  have hcvx : Convex ℝ (Metric.closedBall (0 : PointN d) ρ ∩ {x : PointN d | x.2.2.2 ∈ aboveSet d (ε / 2)}) :=
    (convex_closedBall _ _).inter fun x hx y hy a b ha hb hab => aboveSet_convex d (ε / 2) hx hy ha hb hab
  obtain ⟨K, hK, hlip⟩ := lip_on_convex hcpt hcvx fun x hx => q96_contDiffAt hd θ c x (aboveSet_posDef (by positivity) hx.2)
  refine ⟨_, K, min 1 (ε / (2 * (d + 1))), hK, by positivity, fun x hx => aboveSet_posDef (by positivity) hx.2, hlip, fun t ht M P hM hP hsy => ⟨?_, ?_⟩⟩
  · have h3 : ‖M‖ ≤ αm + 1 := by
      have := norm_add_le (m t) (M - m t)
      rw [add_sub_cancel] at this
      linarith [hαm t ht, hM.trans (min_le_left _ _)]
    have h4 : ‖P‖ ≤ αS + 1 := by
      have := norm_add_le (S t) (P - S t)
      rw [add_sub_cancel] at this
      linarith [hαS t ht, hP.trans (min_le_left _ _)]
    rw [mem_closedBall_zero_iff, hρ]
    simp only [Prod.norm_mk]
    exact max_le ((hαA t ht).trans ((le_max_left _ _).trans (le_max_left _ _))) (max_le ((hαb t ht).trans ((le_max_right _ _).trans (le_max_left _ _)))
      (max_le (h3.trans ((le_max_left _ _).trans (le_max_right _ _))) (h4.trans ((le_max_right _ _).trans (le_max_right _ _)))))
  · refine aboveSet_near (S := S t) (by rw [mul_div_cancel₀ _ two_ne_zero]; exact habove t ht) (hsy hsig) ?_
    have h1 := (le_div_iff₀ (by positivity)).1 (hP.trans (min_le_right _ _))
    have := norm_nonneg (P - S t)
    nlinarith

/-- C108 for Lorenz-96, the part that holds (observation noise without correlations): let the covariances of the curve be positive definite. The numbers that
`free_energy` returns on finer and finer grids converge, with an error of at most a constant times `dt`, to the energy of the prior plus the integral over the window
of the weighted means over the points of `ut_approx` (weights `w`, points `p`) plus the claimed observation energies plus a further term: the code takes the
variances for observation number `j` at the grid point `j`. Missing: the limit is not the claimed continuous-time energy, see `C108_lorenz96_violated`. -/
theorem C108_lorenz96_partial {G : Type} (hd : 1 < d) {w : Fin (d + d + 1) → ℝ} {pt : (Fin d → ℝ) → Matrix (Fin d) (Fin d) ℝ → Fin (d + d + 1) → Fin d → ℝ}
    (hu : Spec.Unscented d w pt) (T θ : ℝ) (sigma : Matrix (Fin d) (Fin d) ℝ) (hsig : sigma.IsSymm) (r : Fin d → ℝ) (hr : ∀ i, 0 < r i)
    (A : ℝ → Matrix (Fin d) (Fin d) ℝ) (b m : ℝ → Fin d → ℝ) (S : ℝ → Matrix (Fin d) (Fin d) ℝ) (hc : Spec.CurveN T sigma A b m S)
    (hS : ∀ t ∈ Icc 0 T, (S t).PosDef) {k : ℕ} (y : Fin k → Fin d → ℝ) (τ : Fin k → ℝ) (E0 : ℝ) :
    ∃ C δ, 0 < δ ∧ ∀ (p : L96 G d) (o : VarGP (Fin d → ℝ) (Matrix (Fin d) (Fin d) ℝ)) (n : ℕ) (dt : ℝ), dt < δ → o.model = p.sde → p.theta = θ →
      p.sigma = sigma → p.sig_inv = p.sigma⁻¹ → Spec.HasGrid p.base (n + 1) dt → Spec.DiscretisesN o n dt T (Matrix.diagonal r) E0 y τ m S →
      ∃ F, (o.freeEnergy (shapeN d) (Spec.packGrid A b n dt)).1 = .ok F
        ∧ |F - (E0 + (∫ t in (0 : ℝ)..T, ∑ i, w i *
              Spec.weightedSq sigma⁻¹.diag (A t) (b t) (l96Batch (Matrix.of (pt (m t) (S t))) θ i) (pt (m t) (S t) i))
            + ∑ j, Spec.obsEnergyN (y j) (Matrix.diagonal r) (m (τ j)) (S (τ j)) + ∑ j, ∑ i, (S 0 i i - S (τ j) i i) / (2 * r i))| ≤ C * dt := by
  have hd0 : 0 < d := by omega
  obtain ⟨rfl, hp⟩ := unscented_unique hd0 hu
  obtain ⟨D, K, ρ, hK, hρ, hpos, hlip, hnear⟩ := q96_lip hd0 θ sigma⁻¹.diag hsig hc hS
  obtain ⟨C, δ, hδ, h⟩ := freeEnergyN_limit_on (R := Matrix.diagonal r) (by omega) hc y τ E0 hK hlip hρ hnear
  refine ⟨C, δ, hδ, fun p o n dt hdt hmod hθ hσ hinv hg hdisc => ?_⟩
  obtain ⟨F, hF, hb⟩ := h o n dt hdt hdisc (by rw [hmod]; exact hσ) fun obs hobs a b m s hin => by
    rw [hmod]
    simp only [L96.sde, l96_energy_eq hd0 p a b m s (some obs) dt hg (fun l hl => by cases hl; exact hobs) (fun i => hpos _ (hin i)), bind, Except.bind, hinv, hσ, hθ,
      pure, Except.pure]
    have hfun : (fun t => 0.5 * (sigma⁻¹.diag ⬝ᵥ (utWeights d ᵥ* l96Sq θ (a t) (b t) (m t) (utRoot (s t))))) = fun i => q96 θ sigma⁻¹.diag (a i, b i, m i, s i) :=
      funext fun i => by rw [q96, utRoot_cholT hd0 (hpos _ (hin i))]
    rw [hfun]
    exact ⟨_, _, _, _, rfl⟩
  refine ⟨F, hF, ?_⟩
  have e1 : (∫ t in (0 : ℝ)..T, q96 θ sigma⁻¹.diag (A t, b t, m t, S t))
      = ∫ t in (0 : ℝ)..T, ∑ i, utWeights d i *
          Spec.weightedSq sigma⁻¹.diag (A t) (b t) (l96Batch (Matrix.of (pt (m t) (S t))) θ i) (pt (m t) (S t) i) := by
    refine intervalIntegral.integral_congr fun t ht => ?_
    rw [uIcc_of_le hc.window] at ht
    simp only [q96]
    rw [← utRoot_cholT hd0 (hS t ht), hp _ _ (hS t ht)]
    have : sigma⁻¹.diag ⬝ᵥ (utWeights d ᵥ* l96Sq θ (A t) (b t) (m t) (utRoot (S t)))
        = ∑ i, utWeights d i * (sigma⁻¹.diag ⬝ᵥ l96Sq θ (A t) (b t) (m t) (utRoot (S t)) i) := by
      simp only [dotProduct, vecMul, Finset.mul_sum]
      rw [Finset.sum_comm]
      exact Finset.sum_congr rfl fun r _ => Finset.sum_congr rfl fun j _ => by ring
    rw [this, Finset.mul_sum]
    refine Finset.sum_congr rfl fun i _ => ?_
    rw [mul_left_comm]
    congr 1
    exact weightedSq_eq _ _ _ _ _ _
  have e2 : ∑ j, obsPolyN (y j) (Matrix.diagonal r) (m (τ j), S 0)
      = ∑ j, Spec.obsEnergyN (y j) (Matrix.diagonal r) (m (τ j)) (S (τ j)) + ∑ j, ∑ i, (S 0 i i - S (τ j) i i) / (2 * r i) := by
    rw [← Finset.sum_add_distrib]
    refine Finset.sum_congr rfl fun j _ => ?_
    obtain ⟨hdt, hn, ⟨t, ht, -⟩, -⟩ := hdisc
    have hτ : τ j ∈ Icc 0 T := by
      have hk : ((t j : ℕ)) ≤ n := Nat.lt_succ_iff.1 (t j).2
      rw [← ht j, ← hn]
      exact ⟨by positivity, by gcongr⟩
    exact obsPolyN_diag hr _ _ _ (hc.psd _ hτ)
  rw [e2, e1] at hb
  refine le_trans (le_of_eq (congrArg _ ?_)) hb
  ring

/-- C108 does not hold for Lorenz-96: when the sum of the variances at the observations does not balance that at the start, then for at least one of the
observation noises `1` and `2` the returned numbers stay away from the claimed limit by a fixed amount for all small steps. -/
theorem C108_lorenz96_violated {G : Type} [NeZero d] (hd : 1 < d) (T θ : ℝ) (sigma : Matrix (Fin d) (Fin d) ℝ) (hsig : sigma.IsSymm)
    (A : ℝ → Matrix (Fin d) (Fin d) ℝ) (b m : ℝ → Fin d → ℝ) (S : ℝ → Matrix (Fin d) (Fin d) ℝ) (hc : Spec.CurveN T sigma A b m S)
    (hS : ∀ t ∈ Icc 0 T, (S t).PosDef) {k : ℕ} (y : Fin k → Fin d → ℝ) (τ : Fin k → ℝ) (E0 : ℝ) (hne : ∑ j, ∑ i, (S 0 i i - S (τ j) i i) ≠ 0) :
    ∃ r : ℝ, (r = 1 ∨ r = 2) ∧ ∃ ε > 0, ∃ δ > 0, ∀ (p : L96 G d) (o : VarGP (Fin d → ℝ) (Matrix (Fin d) (Fin d) ℝ)) (n : ℕ) (dt : ℝ), dt < δ → o.model = p.sde →
      p.theta = θ → p.sigma = sigma → p.sig_inv = p.sigma⁻¹ → Spec.HasGrid p.base (n + 1) dt → Spec.DiscretisesN o n dt T (Matrix.diagonal fun _ => r) E0 y τ m S →
      ∃ F, (o.freeEnergy (shapeN d) (Spec.packGrid A b n dt)).1 = .ok F
        ∧ ε ≤ |F - (E0 + Spec.continuousEnergyN (Spec.l96Field θ) sigma (Matrix.diagonal fun _ => r) T y τ A b m S)| := by
  obtain ⟨J, hJ⟩ : ∃ J, J = (∫ t in (0 : ℝ)..T, ∑ i, utWeights d i *
      Spec.weightedSq sigma⁻¹.diag (A t) (b t) (l96Batch (Matrix.of (utChi (m t) (utRoot (S t)))) θ i) (utChi (m t) (utRoot (S t)) i))
    - ∫ t in (0 : ℝ)..T, 1 / 2 * Spec.weightedMismatch (Spec.l96Field θ) sigma⁻¹ (A t) (b t) (m t) (S t) := ⟨_, rfl⟩
  obtain ⟨V, hV⟩ : ∃ V, V = ∑ j, ∑ i, (S 0 i i - S (τ j) i i) := ⟨_, rfl⟩
  have hsum : ∀ r : ℝ, ∑ j, ∑ i, (S 0 i i - S (τ j) i i) / (2 * r) = V / (2 * r) := fun r => by
    rw [hV, Finset.sum_div]
    exact Finset.sum_congr rfl fun j _ => by rw [Finset.sum_div]
  obtain ⟨r, hr, hI⟩ : ∃ r : ℝ, (r = 1 ∨ r = 2) ∧ J + V / (2 * r) ≠ 0 := by
    by_contra hcon
    push Not at hcon
    have h1 := hcon 1 (Or.inl rfl)
    have h2 := hcon 2 (Or.inr rfl)
    exact hne (by rw [← hV]; linarith)
  have hr0 : 0 < r := by rcases hr with rfl | rfl <;> norm_num
  refine ⟨r, hr, ?_⟩
  obtain ⟨C, δ, hδ, h⟩ := C108_lorenz96_partial (G := G) hd (unscented (by omega)) T θ sigma hsig (fun _ => r) (fun _ => hr0) A b m S hc hS y τ E0
  have hI0 : 0 < |J + V / (2 * r)| := abs_pos.2 hI
  refine ⟨|J + V / (2 * r)| / 2, by positivity, min δ (|J + V / (2 * r)| / (2 * (|C| + 1))), lt_min hδ (by positivity), fun p o n dt hdt hmod hθ hσ hinv hg hdisc => ?_⟩
  obtain ⟨F, hF, hb⟩ := h p o n dt (hdt.trans_le (min_le_left _ _)) hmod hθ hσ hinv hg hdisc
  refine ⟨F, hF, ?_⟩
  rw [hsum r] at hb
  have hX : E0 + (∫ t in (0 : ℝ)..T, ∑ i, utWeights d i *
        Spec.weightedSq sigma⁻¹.diag (A t) (b t) (l96Batch (Matrix.of (utChi (m t) (utRoot (S t)))) θ i) (utChi (m t) (utRoot (S t)) i))
      + ∑ j, Spec.obsEnergyN (y j) (Matrix.diagonal fun _ => r) (m (τ j)) (S (τ j)) + V / (2 * r)
      = E0 + Spec.continuousEnergyN (Spec.l96Field θ) sigma (Matrix.diagonal fun _ => r) T y τ A b m S + (J + V / (2 * r)) := by
    rw [hJ, Spec.continuousEnergyN]; ring
  rw [hX] at hb
  generalize E0 + Spec.continuousEnergyN (Spec.l96Field θ) sigma (Matrix.diagonal fun _ => r) T y τ A b m S = X at hb ⊢
  generalize J + V / (2 * r) = I at *
  have h2 : dt * (2 * (|C| + 1)) < |I| := (lt_div_iff₀ (by positivity)).1 (hdt.trans_le (min_le_right _ _))
  have h3 : C * dt ≤ |C| * dt := mul_le_mul_of_nonneg_right (le_abs_self C) hdisc.step.le
  have h4 := hdisc.step
  have h5 : |I| ≤ |F - X| + |F - (X + I)| := by
    have := abs_sub (F - X) (F - (X + I))
    rwa [show F - X - (F - (X + I)) = I by ring] at this
  nlinarith

/-- Non-vacuity: four components, a constant mean, variances `1 + t`, no drift; `2 N` steps on `[0, 1]`, one observation in the middle. -/
theorem example_curve96 : Spec.CurveN 1 (1 : Matrix (Fin 4) (Fin 4) ℝ) (fun _ => 0) (fun _ => 0) (fun _ _ => 1) (fun t => Matrix.diagonal fun _ => 1 + t) where
  window := zero_le_one
  lip := ⟨0, fun s _ t _ => by simp⟩
  mean t _ i := by
    simp only [Matrix.zero_mulVec, neg_zero, add_zero, Pi.zero_apply]
    exact hasDerivWithinAt_const _ _ _
  cov t _ i j := by
    simp only [Matrix.zero_mul, Matrix.transpose_zero, Matrix.mul_zero, neg_zero, sub_zero, zero_add]
    by_cases hij : i = j
    · subst hij
      simp only [Matrix.diagonal_apply_eq, Matrix.one_apply_eq]
      exact ((hasDerivAt_id t).const_add 1).hasDerivWithinAt
    · simp only [Matrix.diagonal_apply_ne _ hij, Matrix.one_apply_ne hij]
      exact hasDerivWithinAt_const _ _ _
  psd t ht := Matrix.PosSemidef.diagonal fun _ => by
    simp only [Pi.zero_apply]
    linarith [ht.1]

def midObj96 (r : ℝ) (meth : Method) (N : ℕ) : VarGP (Fin 4 → ℝ) (Matrix (Fin 4) (Fin 4) ℝ) where
  model := (gridL96 (2 * N)).sde
  fwd_ode := ⟨1 / (2 * N), "", meth⟩
  bwd_ode := ⟨1 / (2 * N), "", meth⟩
  likelihood := (⟨List.ofFn fun _ : Fin 1 => fun _ => 2, List.ofFn fun _ : Fin 1 => N, Matrix.diagonal fun _ => r, 1⟩ : LikeN 4).toIf
  kl0 := fun _ _ => .ok 7
  obs_y := List.ofFn fun _ : Fin 1 => fun _ => 2
  obs_t := List.ofFn fun _ : Fin 1 => N
  dt := 1 / (2 * N)
  dim_n := 2 * N + 1
  m0 := fun _ => 1
  s0 := 1
  cache := none

theorem midObj96_discretises {r : ℝ} (hr : 0 < r) (meth : Method) {N : ℕ} (hN : 0 < N) :
    Spec.DiscretisesN (midObj96 r meth N) (2 * N) (1 / (2 * N)) 1 (Matrix.diagonal fun _ => r) 7 (fun _ : Fin 1 => fun _ => 2) (fun _ => 1 / 2)
      (fun _ _ => 1) (fun t => Matrix.diagonal fun _ => 1 + t) where
  step := by positivity
  window := by push_cast; field_simp
  object := ⟨fun _ => ⟨N, by omega⟩, fun j => by simp only; field_simp,
    ⟨by omega, rfl, rfl, Matrix.PosDef.diagonal fun _ => hr, fun i j _ => Subsingleton.elim _ _, ⟨7, rfl⟩, rfl⟩⟩
  solver := rfl
  m0 := rfl
  s0 := by simp [midObj96]
  prior := rfl
  sorted := by simp [midObj96]

example (meth : Method) : ∃ r : ℝ, (r = 1 ∨ r = 2) ∧ ∃ ε > 0, ∃ δ > 0, ∀ N : ℕ, 0 < N → (1 / (2 * N) : ℝ) < δ →
    ∃ F, ((midObj96 r meth N).freeEnergy (shapeN 4) (Spec.packGrid (d := 4) (fun _ => 0) (fun _ => 0) (2 * N) (1 / (2 * N)))).1 = .ok F
      ∧ ε ≤ |F - (7 + Spec.continuousEnergyN (Spec.l96Field (d := 4) 8) 1 (Matrix.diagonal fun _ => r) 1 (fun _ : Fin 1 => fun _ => 2)
        (fun _ => 1 / 2) (fun _ => 0) (fun _ => 0) (fun _ _ => 1) (fun t => Matrix.diagonal fun _ => 1 + t))| := by
  obtain ⟨r, hr, ε, hε, δ, hδ, h⟩ := C108_lorenz96_violated (G := ℕ) (d := 4) (by norm_num) 1 8 1 Matrix.isSymm_one _ _ _ _ example_curve96
    (fun t ht => Matrix.PosDef.diagonal fun _ => by linarith [ht.1]) (fun _ : Fin 1 => fun _ => 2) (fun _ => 1 / 2) 7 (by norm_num [Fin.sum_univ_four])
  have hr0 : 0 < r := by rcases hr with rfl | rfl <;> norm_num
  refine ⟨r, hr, ε, hε, δ, hδ, fun N hN hd => h (gridL96 (2 * N)) _ _ _ hd rfl rfl rfl rfl ?_ (midObj96_discretises hr0 meth hN)⟩
  have := gridL96_grid (N := 2 * N) (by omega)
  push_cast at this
  exact this

end

end VGPA
