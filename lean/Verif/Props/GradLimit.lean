import Verif.Lemmas.FuncDeriv
import Verif.Lemmas.BwdStable

/-!
# C109: the gradient for small time steps
-/

namespace VGPA

open Set Filter Topology MeasureTheory

noncomputable section

namespace Spec

/-- `gA` and `gB` are the functional derivatives of the continuous-time free energy with respect to the parameters `a` and `b`: along every line
`(a + ε α, b + ε β)`, where the moments `M ε`, `P ε` solve the moment equations with the given initial values, the derivative of the energy at `ε = 0` is the
integral of `gA α + gB β`. -/
structure FunctionalGradient {k : ℕ} (f : ℝ → ℝ) (sigma R T : ℝ) (y τ : Fin k → ℝ) (a b m S gA gB : ℝ → ℝ) : Prop where
  integrable : IntervalIntegrable gA volume 0 T ∧ IntervalIntegrable gB volume 0 T
  leftContinuous : ∀ t ∈ Ioc 0 T, ContinuousWithinAt gA (Iic t) t ∧ ContinuousWithinAt gB (Iic t) t
  derivative : ∀ (α β : ℝ → ℝ) (M P : ℝ → ℝ → ℝ), (∀ ε, Curve T sigma (fun t => a t + ε * α t) (fun t => b t + ε * β t) (M ε) (P ε)) →
    (∀ ε, M ε 0 = m 0) → (∀ ε, P ε 0 = S 0) →
    HasDerivAt (fun ε => continuousEnergy f sigma R T y τ (fun t => a t + ε * α t) (fun t => b t + ε * β t) (M ε) (P ε))
      (∫ t in (0 : ℝ)..T, (gA t * α t + gB t * β t)) 0

/-- What `gradient` does on the grids: for every variational object that holds the problem on a grid with a small step `dt` (any of the four integrators),
`gradient` at the grid values of `a`, `b` returns an array whose two blocks, divided by `dt`, differ from `gA` and `gB` at the grid points by at most a constant
times `dt`. -/
def GradientConverges {k : ℕ} (isModel : SdeModel ℝ ℝ → ℝ → Prop) (R T : ℝ) (y τ : Fin k → ℝ) (pr : Prior1) (a b m S gA gB : ℝ → ℝ) : Prop :=
  ∃ C δ, 0 < δ ∧ ∀ (o : VarGP ℝ ℝ) (n : ℕ) (dt : ℝ), dt < δ → isModel o.model dt → Discretises o n dt T R pr y τ m S → o.dt = dt → o.bwd_ode.dt = dt →
    ∃ (g1 g2 : Fin (n + 1) → ℝ) (o' : VarGP ℝ ℝ),
      o.gradient shape1 (onGrid a n dt ++ onGrid b n dt) true = (.ok (List.ofFn g1 ++ List.ofFn g2), o')
      ∧ ∀ k : Fin (n + 1), |g1 k / dt - gA (k * dt)| ≤ C * dt ∧ |g2 k / dt - gB (k * dt)| ≤ C * dt

end Spec

/-- `gradient` with any integrators: what it returns, and the two sweeps behind it. -/
theorem grad1_eval {n k : ℕ} {o : VarGP ℝ ℝ} {y : Fin k → ℝ} {t : Fin k → Fin n} {R dt : ℝ} {p : Prior1} {ef edf : ℝ → ℝ → ℝ} {Q Qa Qb Qm Qs X : ℝ → ℝ → ℝ → ℝ → ℝ}
    (ho : Vgp1Ok o n k y t R 1 p) (he : Energy1Of o.model n o.obs_t dt ef edf Q Qa Qb Qm Qs X) (a b : Fin n → ℝ) :
    ∃ (m s lam psi : Fin n → ℝ) (o' : VarGP ℝ ℝ),
      o.gradient shape1 (List.ofFn a ++ List.ofFn b) true = (.ok
        (List.ofFn (fun i => o.dt * (Qa (a i) (b i) (m i) (s i) - lam i * m i - 2 * psi i * s i))
          ++ List.ofFn (fun i => o.dt * (Qb (a i) (b i) (m i) (s i) + lam i))), o')
      ∧ solveFwd o.fwd_ode.solver rhs1 o.fwd_ode.dt (List.ofFn a) (List.ofFn b) o.m0 o.s0 o.model.sigma = .ok (List.ofFn m, List.ofFn s)
      ∧ solveBwd o.bwd_ode.solver rhs1 o.bwd_ode.dt (List.ofFn a) (List.ofFn fun i => Qm (a i) (b i) (m i) (s i))
          (List.ofFn fun i => Qs (a i) (b i) (m i) (s i)) (List.ofFn fun i => ∑ j, if t j = i then (m (t j) - y j) / R else 0)
          (List.ofFn fun i => ∑ j, if t j = i then 1 / (2 * R) else 0) = .ok (List.ofFn lam, List.ofFn psi) := by
  have hp := ho.pos
  obtain ⟨mt, st, h1, hm, hs, _⟩ := (C16_forward_shapes o.fwd_ode.solver rhs1 o.fwd_ode.dt (List.ofFn a) (List.ofFn b)
    o.m0 o.s0 o.model.sigma).1 ⟨by simpa using hp, Or.inl (by simp)⟩
  obtain ⟨m, rfl⟩ := list_eq_ofFn (hm.trans (List.length_ofFn))
  obtain ⟨s, rfl⟩ := list_eq_ofFn (hs.trans (List.length_ofFn))
  have h2 := he.energy a b m s
  obtain ⟨om, os, or_, h3, g1, g2, -, g3⟩ := like1_gradients_eq 1 R y t ho.inj m s
  have sum1 : ∀ (v : Fin k → ℝ) (w : Fin n → ℝ), (∀ j, w (t j) = v j) → (∀ i, (∀ j, t j ≠ i) → w i = 0) → w = fun i => ∑ j, if t j = i then v j else 0 := by
    intro v w hv hw
    funext i
    by_cases h : ∃ j, t j = i
    · obtain ⟨j, rfl⟩ := h
      rw [Finset.sum_eq_single j (fun j' _ hj' => if_neg fun h => hj' (ho.inj h)) (fun h => absurd (Finset.mem_univ j) h), if_pos rfl, hv]
    · push Not at h
      rw [hw i h, Finset.sum_eq_zero fun j _ => if_neg (h j)]
  have eom := sum1 (fun j => (m (t j) - y j) / R) om (fun j => by rw [g1]; ring) fun i hi => (g3 i hi).1
  have eos := sum1 (fun _ => 1 / (2 * R)) os (fun j => by rw [g2]; norm_num; ring) fun i hi => (g3 i hi).2.1
  obtain ⟨lt, pt, h4, hl, hps, _⟩ := (C16_backward_shapes o.bwd_ode.solver rhs1 o.bwd_ode.dt (List.ofFn a) (List.ofFn fun i => Qm (a i) (b i) (m i) (s i))
    (List.ofFn fun i => Qs (a i) (b i) (m i) (s i)) (List.ofFn om) (List.ofFn os)).1 (Or.inr (by simp))
  obtain ⟨lam, rfl⟩ := list_eq_ofFn (hl.trans (List.length_ofFn))
  obtain ⟨psi, rfl⟩ := list_eq_ofFn (hps.trans (List.length_ofFn))
  have hu := (C58_pack_unpack_1d a b).2.1
  simp only [shape1, id] at hu
  obtain ⟨F, hev⟩ : ∃ F, o.eval shape1 (List.ofFn a ++ List.ofFn b) = .ok (F, ⟨List.ofFn m, List.ofFn s, List.ofFn fun i => ef (m i) (s i),
      List.ofFn fun i => edf (m i) (s i), List.ofFn lam, List.ofFn psi⟩) := by
    refine ⟨p.gauss o.m0 o.s0 + Spec.trapezoidRule dt (List.ofFn fun i => Q (a i) (b i) (m i) (s i) + X (a i) (b i) (m i) (s i))
      + ∑ j, (0.5 * (y j ^ 2 - 2 * y j * m (t j) + (m (t j) ^ 2 + s (t j))) / R + 0.5 * (log2pi + Real.log R)), ?_⟩
    unfold VarGP.eval
    rw [ho.dim, ho.like, ho.prior]
    simp only [shape1, hu, Bind.bind, Except.bind, h1, Like1.toIf, like1_gauss_eq 1 R y t m s, h2, h3, pure, Except.pure, h4]
  refine ⟨m, s, lam, psi, { o with cache := some ⟨List.ofFn m, List.ofFn s, List.ofFn fun i => ef (m i) (s i), List.ofFn fun i => edf (m i) (s i), List.ofFn lam,
    List.ofFn psi⟩ }, ?_, h1, by rw [← eom, ← eos]; exact h4⟩
  unfold VarGP.gradient VarGP.freeEnergy
  rw [hev]
  simp only [if_true]
  congr 1
  have e2 : (2.0 : ℝ) = 2 := by norm_num
  refine (gradBody_ofFn shape1 _ (List.ofFn a ++ List.ofFn b) a b m _ lam s _ psi (by exact ho.dim) rfl
    (C58_pack_unpack_1d a b).2.2).trans ?_
  simp only [smul_eq_mul, shape1, id, e2, he.da]
  simp only [he.db]

theorem curve_lip {T sigma : ℝ} {a b m S : ℝ → ℝ} (hc : Spec.Curve T sigma a b m S) :
    ∃ L, 0 ≤ L ∧ ∀ s ∈ Icc 0 T, ∀ t ∈ Icc 0 T, ‖((a s, b s, m s, S s) : ℝ × ℝ × ℝ × ℝ) - (a t, b t, m t, S t)‖ ≤ L * |s - t| := by
  obtain ⟨ca, cb, cm, cS⟩ := curve_parts hc
  obtain ⟨hT, ⟨L0, hL0⟩, hm, hS, -⟩ := hc
  obtain ⟨Lm, hLm0, hLm⟩ := lip_of_deriv hm ((ca.mul cm).neg.add cb)
  obtain ⟨LS, hLS0, hLS⟩ := lip_of_deriv hS (((continuousOn_const.mul ca).mul cS).neg.add continuousOn_const)
  refine ⟨|L0| + Lm + LS, by positivity, fun s hs t ht => ?_⟩
  have := abs_nonneg (s - t)
  have i1 := hL0 s hs t ht
  have i2 := hLm s hs t ht
  have i3 := hLS s hs t ht
  have j1 : L0 * |s - t| ≤ (|L0| + Lm + LS) * |s - t| := by gcongr; linarith [le_abs_self L0]
  have j2 : Lm * |s - t| ≤ (|L0| + Lm + LS) * |s - t| := by gcongr; linarith [abs_nonneg L0]
  have j3 : LS * |s - t| ≤ (|L0| + Lm + LS) * |s - t| := by gcongr; linarith [abs_nonneg L0]
  simp only [Prod.mk_sub_mk, Prod.norm_mk]
  exact max_le (i1.1.trans j1) (max_le (i1.2.trans j1) (max_le (i2.trans j2) (i3.trans j3)))

/-- The convergence of the gradients of an object whose energy has the density `Q + X`, while the gradients that it reports are those of `Q`. -/
theorem gradient_limit {Qa Qb Qm Qs : ℝ → ℝ → ℝ → ℝ → ℝ} (sa : ContDiff ℝ 1 (unc Qa)) (sb : ContDiff ℝ 1 (unc Qb))
    (sm : ContDiff ℝ 1 (unc Qm)) (ss : ContDiff ℝ 1 (unc Qs)) {T sigma R : ℝ} {a b m S : ℝ → ℝ} (hc : Spec.Curve T sigma a b m S) (hR : 0 < R)
    {k : ℕ} {y τ : Fin k → ℝ} (pr : Prior1) {lam psi : ℝ → ℝ}
    (hl : Jumping T lam (fun t => -Qm (a t) (b t) (m t) (S t) + lam t * a t) τ (fun j => (m (τ j) - y j) / R)) (hlT : lam T = 0)
    (hp : Jumping T psi (fun t => -Qs (a t) (b t) (m t) (S t) + psi t * (2 * a t)) τ (fun _ => 1 / (2 * R))) (hpT : psi T = 0)
    (isModel : SdeModel ℝ ℝ → ℝ → Prop) (hsig : ∀ M dt, isModel M dt → M.sigma = sigma)
    (hen : ∀ M dt n obs, isModel M dt → obs.Pairwise (· ≤ ·) → ∃ ef edf Q X, Energy1Of M n obs dt ef edf Q Qa Qb Qm Qs X) :
    Spec.GradientConverges isModel R T y τ pr a b m S (fun t => Qa (a t) (b t) (m t) (S t) - lam t * m t - 2 * psi t * S t)
      (fun t => Qb (a t) (b t) (m t) (S t) + lam t) := by
  have hT := hc.window
  obtain ⟨L, hL, hu⟩ := curve_lip hc
  obtain ⟨B, hB⟩ := bounded_of_lip hL hu
  have hB0 : 0 ≤ B := (norm_nonneg _).trans (hB 0 ⟨le_rfl, hT⟩)
  obtain ⟨Bl, hBl⟩ := hl.bounded
  obtain ⟨Bp, hBp⟩ := hp.bounded
  have pl : 0 ≤ Bl := (abs_nonneg _).trans (hBl 0 ⟨le_rfl, hT⟩)
  have pp : 0 ≤ Bp := (abs_nonneg _).trans (hBp 0 ⟨le_rfl, hT⟩)
  have hua : ∀ s ∈ Icc 0 T, ∀ t ∈ Icc 0 T, |a s - a t| ≤ L * |s - t| := fun s hs t ht => (norm_fst_le _).trans (hu s hs t ht)
  have hub : ∀ s ∈ Icc 0 T, ∀ t ∈ Icc 0 T, |b s - b t| ≤ L * |s - t| := fun s hs t ht => (norm_fst_le _).trans ((norm_snd_le _).trans (hu s hs t ht))
  obtain ⟨C0, δ0, hδ0, fwd⟩ := C106_converges_1D T L sigma hT a b m S hua hub hc.mean hc.var
  obtain ⟨Km, hKm, lipm⟩ := lip_on_ball sm (B + |C0|)
  obtain ⟨Ks, hKs, lips⟩ := lip_on_ball ss (B + |C0|)
  have hBC : ∀ t ∈ Icc 0 T, ‖((a t, b t, m t, S t) : ℝ × ℝ × ℝ × ℝ)‖ ≤ B + |C0| := fun t ht => (hB t ht).trans (by linarith [abs_nonneg C0])
  obtain ⟨L', hL'⟩ : ∃ L', L' = L + Km * L + Ks * L := ⟨_, rfl⟩
  have hKmL : 0 ≤ Km * L := by positivity
  have hKsL : 0 ≤ Ks * L := by positivity
  obtain ⟨C1, δ1, hδ1, bwd⟩ := C107_converges_1D T L' hT a (fun t => Qm (a t) (b t) (m t) (S t)) (fun t => Qs (a t) (b t) (m t) (S t)) lam psi
    (fun t => ∑ j, if τ j = t then (m (τ j) - y j) / R else 0) (fun t => ∑ j, if τ j = t then 1 / (2 * R) else 0)
    (fun s hs t ht => (hua s hs t ht).trans (mul_le_mul_of_nonneg_right (by linarith) (abs_nonneg _)))
    (fun s hs t ht => by
      have := lipm _ _ (hBC s hs) (hBC t ht)
      refine this.trans ((mul_le_mul_of_nonneg_left (hu s hs t ht) hKm).trans ?_)
      rw [← mul_assoc]
      exact mul_le_mul_of_nonneg_right (by linarith) (abs_nonneg _))
    (fun s hs t ht => by
      have := lips _ _ (hBC s hs) (hBC t ht)
      refine this.trans ((mul_le_mul_of_nonneg_left (hu s hs t ht) hKs).trans ?_)
      rw [← mul_assoc]
      exact mul_le_mul_of_nonneg_right (by linarith) (abs_nonneg _))
    hl.deriv (fun t ht => (hp.deriv t ht).congr_deriv (by ring)) hl.jump hp.jump hlT hpT
  obtain ⟨K, hK, stable⟩ := bwd_stable rhs1 bwdBilin1 B T hT
  obtain ⟨D, hD⟩ : ∃ D, D = (Km + Ks + ∑ _j : Fin k, 1 / R) * |C0| := ⟨_, rfl⟩
  have hsum0 : 0 ≤ ∑ _j : Fin k, 1 / R := Finset.sum_nonneg fun _ _ => by positivity
  have hD0 : 0 ≤ D := by rw [hD]; positivity
  obtain ⟨E, hE⟩ : ∃ E, E = |C0| + |C1| + K * D := ⟨_, rfl⟩
  have hKD : 0 ≤ K * D := by positivity
  have hE0 : 0 ≤ E := by rw [hE]; positivity
  have cA : ContDiff ℝ 1 fun p : (ℝ × ℝ × ℝ × ℝ) × ℝ × ℝ => unc Qa p.1 - p.2.1 * p.1.2.2.1 - 2 * p.2.2 * p.1.2.2.2 := by
    have := sa.comp (contDiff_fst (E := ℝ × ℝ × ℝ × ℝ) (F := ℝ × ℝ))
    simp only [Function.comp_def] at this
    fun_prop
  have cB : ContDiff ℝ 1 fun p : (ℝ × ℝ × ℝ × ℝ) × ℝ × ℝ => unc Qb p.1 + p.2.1 := by
    have := sb.comp (contDiff_fst (E := ℝ × ℝ × ℝ × ℝ) (F := ℝ × ℝ))
    simp only [Function.comp_def] at this
    fun_prop
  obtain ⟨KA, hKA, lipA⟩ := lip_on_ball cA (B + Bl + Bp + E)
  obtain ⟨KB, hKB, lipB⟩ := lip_on_ball cB (B + Bl + Bp + E)
  refine ⟨(KA + KB) * E, min (min δ0 δ1) 1, lt_min (lt_min hδ0 hδ1) one_pos, fun o n dt hdt hmod hd hodt hbdt => ?_⟩
  have hdt1 : dt ≤ 1 := hdt.le.trans (min_le_right _ _)
  obtain ⟨hdt0, hn, ⟨t, htau, ho⟩, hsolv, hm0, hs0, hsort⟩ := hd
  obtain ⟨ef, edf, Q, X, he⟩ := hen _ dt (n + 1) _ hmod hsort
  obtain ⟨mm, sv, ll, ps, o', hg, hf, hb⟩ := grad1_eval ho he (fun k => a (k * dt)) (fun k => b (k * dt))
  obtain ⟨M, P, hrun, hclose⟩ := fwd o.fwd_ode.solver dt n hdt0 (hdt.trans_le ((min_le_left _ _).trans (min_le_left _ _))) hn.le
  rw [hsolv, hm0, hs0, hsig _ dt hmod, hrun] at hf
  injection hf with hf
  simp only [Prod.mk.injEq, List.ofFn_inj] at hf
  obtain ⟨rfl, rfl⟩ := hf
  have hin : ∀ i : Fin (n + 1), (i : ℝ) * dt ∈ Icc 0 T := fun i => ⟨by positivity, by
    rw [← hn]
    have : ((i : ℕ) : ℝ) ≤ n := by exact_mod_cast Nat.lt_succ_iff.1 i.2
    gcongr⟩
  have cl : ∀ i : Fin (n + 1), |M i - m (i * dt)| ≤ |C0| * dt ∧ |P i - S (i * dt)| ≤ |C0| * dt := fun i => by
    obtain ⟨c1, c2⟩ := hclose i (Nat.lt_succ_iff.1 i.2)
    have : C0 * dt ≤ |C0| * dt := mul_le_mul_of_nonneg_right (le_abs_self C0) hdt0.le
    exact ⟨c1.trans this, c2.trans this⟩
  have hC0dt : 0 ≤ |C0| * dt := by positivity
  have near : ∀ i : Fin (n + 1), ‖((a (i * dt), b (i * dt), M i, P i) : ℝ × ℝ × ℝ × ℝ) - (a (i * dt), b (i * dt), m (i * dt), S (i * dt))‖ ≤ |C0| * dt := fun i => by
    simp only [Prod.mk_sub_mk, Prod.norm_mk, sub_self, norm_zero]
    exact max_le hC0dt (max_le hC0dt (max_le (cl i).1 (cl i).2))
  have nearb : ∀ i : Fin (n + 1), ‖((a (i * dt), b (i * dt), M i, P i) : ℝ × ℝ × ℝ × ℝ)‖ ≤ B + |C0| := fun i => by
    have h1 := norm_add_le ((a (i * dt), b (i * dt), m (i * dt), S (i * dt)) : ℝ × ℝ × ℝ × ℝ)
      (((a (i * dt), b (i * dt), M i, P i) : ℝ × ℝ × ℝ × ℝ) - (a (i * dt), b (i * dt), m (i * dt), S (i * dt)))
    rw [add_sub_cancel] at h1
    have h2 : |C0| * dt ≤ |C0| := mul_le_of_le_one_right (abs_nonneg _) hdt1
    linarith [hB _ (hin i), near i]
  obtain ⟨Λ', Ψ', hrun', hclose'⟩ := bwd o.bwd_ode.solver dt n hdt0 (hdt.trans_le ((min_le_left _ _).trans (min_le_right _ _))) hn (fun s _ hs => by
    by_cases h : ∃ j, τ j = s
    · obtain ⟨j, rfl⟩ := h
      exact ⟨t j, (htau j).symm⟩
    · push Not at h
      simp only [h, if_false, Finset.sum_const_zero, ne_eq, not_true_eq_false, or_self] at hs)
  have hgrid : ∀ (j : Fin k) (i : Fin (n + 1)), τ j = i * dt ↔ t j = i := fun j i => by
    rw [← htau j]
    constructor
    · intro h
      have := mul_right_cancel₀ hdt0.ne' h
      exact Fin.ext (by exact_mod_cast this)
    · rintro rfl; rfl
  have hDdt : D * dt = Km * (|C0| * dt) + Ks * (|C0| * dt) + (∑ _j : Fin k, 1 / R) * (|C0| * dt) := by rw [hD]; ring
  have q1 : 0 ≤ Km * (|C0| * dt) := by positivity
  have q2 : 0 ≤ Ks * (|C0| * dt) := by positivity
  have q3 : 0 ≤ (∑ _j : Fin k, 1 / R) * (|C0| * dt) := by positivity
  obtain ⟨Λ, Λ2, Ψ, Ψ2, r1, r2, r3⟩ := stable o.bwd_ode.solver dt n (D * dt) (fun i : Fin (n + 1) => a (i * dt))
    (fun i => Qs (a (i * dt)) (b (i * dt)) (M i) (P i)) (fun i => Qs (a (i * dt)) (b (i * dt)) (m (i * dt)) (S (i * dt)))
    (fun i => ∑ j, if t j = i then 1 / (2 * R) else 0) (fun i => ∑ j, if τ j = i * dt then 1 / (2 * R) else 0)
    (fun i => Qm (a (i * dt)) (b (i * dt)) (M i) (P i)) (fun i => Qm (a (i * dt)) (b (i * dt)) (m (i * dt)) (S (i * dt)))
    (fun i => ∑ j, if t j = i then (M (t j) - y j) / R else 0) (fun i => ∑ j, if τ j = i * dt then (m (τ j) - y j) / R else 0)
    hdt0 hdt1 hn.le (fun i => (norm_fst_le ((a (i * dt), b (i * dt), m (i * dt), S (i * dt)) : ℝ × ℝ × ℝ × ℝ)).trans (hB _ (hin i)))
    (fun i => by
      have := (lipm _ _ (nearb i) (hBC _ (hin i))).trans (mul_le_mul_of_nonneg_left (near i) hKm)
      simp only [unc] at this
      rw [Real.norm_eq_abs]
      linarith)
    (fun i => by
      have := (lips _ _ (nearb i) (hBC _ (hin i))).trans (mul_le_mul_of_nonneg_left (near i) hKs)
      simp only [unc] at this
      rw [Real.norm_eq_abs]
      linarith)
    (by
      have e : ∀ i : Fin (n + 1), ‖(∑ j, if t j = i then (M (t j) - y j) / R else 0) - ∑ j, if τ j = i * dt then (m (τ j) - y j) / R else 0‖
          ≤ ∑ j, if t j = i then 1 / R * (|C0| * dt) else 0 := fun i => by
        simp only [hgrid]
        rw [← Finset.sum_sub_distrib]
        refine (norm_sum_le _ _).trans (Finset.sum_le_sum fun j _ => ?_)
        split_ifs with h
        · have hc2 := (cl (t j)).1
          rw [htau j] at hc2
          rw [Real.norm_eq_abs, ← sub_div, sub_sub_sub_cancel_right, abs_div, abs_of_pos hR, div_eq_mul_inv, mul_comm, one_div]
          exact mul_le_mul_of_nonneg_left hc2 (inv_pos.2 hR).le
        · simp
      refine (Finset.sum_le_sum fun i _ => e i).trans ?_
      rw [Finset.sum_comm]
      simp only [Finset.sum_ite_eq, Finset.mem_univ, if_true]
      rw [← Finset.sum_mul]
      linarith)
    (by
      simp only [hgrid, sub_self, norm_zero, Finset.sum_const_zero]
      positivity)
  rw [hbdt, r1] at hb
  injection hb with hb
  simp only [Prod.mk.injEq, List.ofFn_inj] at hb
  obtain ⟨rfl, rfl⟩ := hb
  rw [hrun'] at r2
  injection r2 with r2
  simp only [Prod.mk.injEq, List.ofFn_inj] at r2
  obtain ⟨rfl, rfl⟩ := r2
  refine ⟨_, _, o', hg, fun i => ?_⟩
  have hE1 : E * dt = |C0| * dt + |C1| * dt + K * (D * dt) := by rw [hE]; ring
  have p1 : 0 ≤ |C1| * dt := by positivity
  have p2 : 0 ≤ K * (D * dt) := by positivity
  have bl : |Λ i - lam (i * dt)| ≤ E * dt := by
    have h1 := abs_add_le (Λ i - Λ' i) (Λ' i - lam (i * dt))
    rw [sub_add_sub_cancel] at h1
    have h2 := (r3 i).1
    have h3 := (hclose' i (Nat.lt_succ_iff.1 i.2)).1
    rw [Real.norm_eq_abs] at h2
    have h4 : C1 * dt ≤ |C1| * dt := mul_le_mul_of_nonneg_right (le_abs_self C1) hdt0.le
    linarith
  have bp : |Ψ i - psi (i * dt)| ≤ E * dt := by
    have h1 := abs_add_le (Ψ i - Ψ' i) (Ψ' i - psi (i * dt))
    rw [sub_add_sub_cancel] at h1
    have h2 := (r3 i).2
    have h3 := (hclose' i (Nat.lt_succ_iff.1 i.2)).2
    rw [Real.norm_eq_abs] at h2
    have h4 : C1 * dt ≤ |C1| * dt := mul_le_mul_of_nonneg_right (le_abs_self C1) hdt0.le
    linarith
  have dist : ‖((((a (i * dt), b (i * dt), M i, P i), Λ i, Ψ i) : (ℝ × ℝ × ℝ × ℝ) × ℝ × ℝ))
      - ((a (i * dt), b (i * dt), m (i * dt), S (i * dt)), lam (i * dt), psi (i * dt))‖ ≤ E * dt := by
    rw [Prod.mk_sub_mk, Prod.norm_mk, Prod.mk_sub_mk (Λ i), Prod.norm_mk]
    exact max_le ((near i).trans (by linarith)) (max_le bl bp)
  have base : ‖((((a (i * dt), b (i * dt), m (i * dt), S (i * dt)), lam (i * dt), psi (i * dt)) : (ℝ × ℝ × ℝ × ℝ) × ℝ × ℝ))‖ ≤ B + Bl + Bp := by
    rw [Prod.norm_mk, Prod.norm_mk]
    exact max_le ((hB _ (hin i)).trans (by linarith)) (max_le ((hBl _ (hin i)).trans (by linarith)) ((hBp _ (hin i)).trans (by linarith)))
  have hEdt : E * dt ≤ E := mul_le_of_le_one_right hE0 hdt1
  have pert : ‖((((a (i * dt), b (i * dt), M i, P i), Λ i, Ψ i) : (ℝ × ℝ × ℝ × ℝ) × ℝ × ℝ))‖ ≤ B + Bl + Bp + E := by
    have h1 := norm_add_le ((((a (i * dt), b (i * dt), m (i * dt), S (i * dt)), lam (i * dt), psi (i * dt)) : (ℝ × ℝ × ℝ × ℝ) × ℝ × ℝ))
      (((((a (i * dt), b (i * dt), M i, P i), Λ i, Ψ i) : (ℝ × ℝ × ℝ × ℝ) × ℝ × ℝ))
      - ((a (i * dt), b (i * dt), m (i * dt), S (i * dt)), lam (i * dt), psi (i * dt)))
    rw [add_sub_cancel] at h1
    linarith
  have fA := (lipA _ _ pert (base.trans (by linarith))).trans (mul_le_mul_of_nonneg_left dist hKA)
  have fB := (lipB _ _ pert (base.trans (by linarith))).trans (mul_le_mul_of_nonneg_left dist hKB)
  have w1 : 0 ≤ KA * (E * dt) := by positivity
  have w2 : 0 ≤ KB * (E * dt) := by positivity
  simp only [unc] at fA fB
  rw [hodt, mul_div_cancel_left₀ _ hdt0.ne', mul_div_cancel_left₀ _ hdt0.ne']
  have w3 : (KA + KB) * E * dt = KA * (E * dt) + KB * (E * dt) := by ring
  rw [w3]
  exact ⟨fA.trans (by linarith), fB.trans (by linarith)⟩

/-- Both parts together. -/
theorem gradient_limit_core {f : ℝ → ℝ} {q Qa Qb Qm Qs : ℝ → ℝ → ℝ → ℝ → ℝ} (hch : Chain4 q Qa Qb Qm Qs) (hq : ContDiff ℝ 2 (unc q)) (sa : ContDiff ℝ 1 (unc Qa))
    (sb : ContDiff ℝ 1 (unc Qb)) (sm : ContDiff ℝ 1 (unc Qm)) (ss : ContDiff ℝ 1 (unc Qs)) {T sigma R : ℝ} {a b m S : ℝ → ℝ}
    (hdens : ∀ a b m v, 0 ≤ v → Spec.sdeDensity f sigma a b m v = q a b m v) (hc : Spec.Curve T sigma a b m S) (hR : 0 < R)
    {k : ℕ} {y τ : Fin k → ℝ} (hτ : ∀ j, τ j ∈ Ico 0 T) (pr : Prior1)
    (isModel : SdeModel ℝ ℝ → ℝ → Prop) (hsig : ∀ M dt, isModel M dt → M.sigma = sigma)
    (hen : ∀ M dt n obs, isModel M dt → obs.Pairwise (· ≤ ·) → ∃ ef edf Q X, Energy1Of M n obs dt ef edf Q Qa Qb Qm Qs X) :
    ∃ gA gB : ℝ → ℝ, Spec.FunctionalGradient f sigma R T y τ a b m S gA gB ∧ Spec.GradientConverges isModel R T y τ pr a b m S gA gB := by
  have hT := hc.window
  obtain ⟨c1, c2, c3, c4⟩ := curve_parts hc
  have ia := unc_continuousOn sa.continuous hc
  have ib := unc_continuousOn sb.continuous hc
  obtain ⟨lam, hlT, hl⟩ := exists_jumping hT c1 (unc_continuousOn sm.continuous hc) τ (fun j => (m (τ j) - y j) / R) hτ
  obtain ⟨psi, hpT, hp⟩ := exists_jumping hT (continuousOn_const.mul c1) (unc_continuousOn ss.continuous hc) τ (fun _ => 1 / (2 * R)) hτ
  have il := hl.integrable hT
  have ip := hp.integrable hT
  have ii : ∀ {f : ℝ → ℝ}, ContinuousOn f (Icc 0 T) → IntervalIntegrable f volume 0 T := fun h => (h.mono (uIcc_of_le hT).subset).intervalIntegrable
  have mc : ∀ {f g : ℝ → ℝ}, IntervalIntegrable f volume 0 T → ContinuousOn g (Icc 0 T) → IntervalIntegrable (fun t => f t * g t) volume 0 T := fun hf hg =>
    hf.mul_continuousOn (hg.mono (uIcc_of_le hT).subset)
  refine ⟨_, _, ⟨⟨((ii ia).sub (mc il c3)).sub (mc (ip.const_mul 2) c4), (ii ib).add il⟩, fun t ht => ?_, fun α β M P hMP hM0 hP0 => ?_⟩,
    gradient_limit sa sb sm ss hc hR pr hl hlT hp hpT isModel hsig hen⟩
  · have left : ∀ {g : ℝ → ℝ}, ContinuousOn g (Icc 0 T) → ContinuousWithinAt g (Iic t) t := fun hg =>
      (hg t ⟨ht.1.le, ht.2⟩).mono_of_mem_nhdsWithin (by
        filter_upwards [self_mem_nhdsWithin, mem_nhdsWithin_of_mem_nhds (Ioi_mem_nhds ht.1)] with s hs hs'
        exact ⟨le_of_lt hs', le_trans hs ht.2⟩)
    have l1 := (hl.deriv t ht).continuousWithinAt
    have l2 := (hp.deriv t ht).continuousWithinAt
    exact ⟨((left ia).sub (l1.mul (left c3))).sub ((continuousWithinAt_const.mul l2).mul (left c4)), (left ib).add l1⟩
  · have h := functional_derivative hch hq sa.continuous sb.continuous sm.continuous ss.continuous hc hR hτ hl hlT hp hpT hMP hM0 hP0
    have e : (fun ε => Spec.continuousEnergy f sigma R T y τ (fun t => a t + ε * α t) (fun t => b t + ε * β t) (M ε) (P ε))
        = fun ε => (∫ t in (0 : ℝ)..T, q (a t + ε * α t) (b t + ε * β t) (M ε t) (P ε t)) + ∑ j, obsPoly (y j) R (M ε (τ j), P ε (τ j)) := by
      funext ε
      unfold Spec.continuousEnergy
      congr 1
      · refine intervalIntegral.integral_congr fun t ht => ?_
        rw [uIcc_of_le hT] at ht
        exact hdens _ _ _ _ ((hMP ε).nonneg t ht)
      · refine Finset.sum_congr rfl fun j _ => ?_
        rw [obsEnergy1_eq _ _ _ _ _ hR ((hMP ε).nonneg _ ⟨(hτ j).1, (hτ j).2.le⟩), obsPoly]
        ring
    rw [e]
    exact h

theorem momPoly_smooth {r : WithTop ℕ∞} : ∀ n : ℕ, ContDiff ℝ r fun p : ℝ × ℝ × ℝ × ℝ => momPoly n p.2.2.1 p.2.2.2
  | 0 => by simp only [momPoly]; fun_prop
  | 1 => by simp only [momPoly]; fun_prop
  | n + 2 => by
    have h1 := momPoly_smooth (r := r) n
    have h2 := momPoly_smooth (r := r) (n + 1)
    simp only [momPoly]
    fun_prop

namespace Spec

/-- The model is an Ornstein-Uhlenbeck process with the given parameters and time step. -/
def IsOU (G : Type) (θ sigma : ℝ) (M : SdeModel ℝ ℝ) (dt : ℝ) : Prop :=
  ∃ p : OU G, M = p.sde ∧ p.theta = θ ∧ p.sigma = sigma ∧ p.sig_inv * p.sigma = 1 ∧ p.base.timeStep = .ok dt

/-- The model is a double well process with the given parameters and time step. -/
def IsDW (G : Type) (θ sigma : ℝ) (M : SdeModel ℝ ℝ) (dt : ℝ) : Prop :=
  ∃ p : DW G, M = p.sde ∧ p.theta = θ ∧ p.sigma = sigma ∧ p.sig_inv * p.sigma = 1 ∧ p.base.timeStep = .ok dt

end Spec

/-- C109 for the Ornstein-Uhlenbeck process: fix a continuous-time problem, with observations before the end of the window. The continuous-time free energy has
functional derivatives `gA`, `gB`, and on grids with small steps the two blocks that `gradient` returns, divided by the step, differ from them at the grid points by
at most a constant times the step. -/
theorem C109_ornstein_uhlenbeck (G : Type) (T θ sigma R : ℝ) (hσ : 0 < sigma) (hR : 0 < R) (a b m S : ℝ → ℝ) (hc : Spec.Curve T sigma a b m S) {k : ℕ}
    (y τ : Fin k → ℝ) (hτ : ∀ j, τ j ∈ Ico 0 T) (pr : Prior1) :
    ∃ gA gB : ℝ → ℝ, Spec.FunctionalGradient (Spec.ouDrift θ) sigma R T y τ a b m S gA gB
      ∧ Spec.GradientConverges (Spec.IsOU G θ sigma) R T y τ pr a b m S gA gB := by
  have hch := (ou_energy1Of (G := ℕ) ⟨gridProc 1, sigma, θ, 1 / sigma⟩ 1 [] _ (gridProc_step one_pos) List.Pairwise.nil (one_div_mul_cancel hσ.ne')).chain
  refine gradient_limit_core hch ?_ ?_ ?_ ?_ ?_ ?_ hc hR hτ pr _ ?_ ?_
  · unfold unc ouQ; fun_prop
  · unfold unc; fun_prop
  · unfold unc; fun_prop
  · unfold unc; fun_prop
  · unfold unc; fun_prop
  · intro a b m v hv
    simp only [Spec.sdeDensity, ouQ_eq _ _ _ _ _ hv]
  · rintro M dt ⟨p, rfl, -, hσ, -⟩
    exact hσ
  · rintro M dt n obs ⟨p, rfl, rfl, rfl, hinv, hstep⟩ hobs
    exact ⟨_, _, _, _, ou_energy1Of p n obs dt hstep hobs hinv⟩

/-- C109 for the double well: here `gradient` converges to the functional derivative of the continuous-time free energy although `free_energy` itself does not
converge to that energy (`C108_double_well_violated`). -/
theorem C109_double_well (G : Type) (T θ sigma R : ℝ) (hσ : 0 < sigma) (hR : 0 < R) (a b m S : ℝ → ℝ) (hc : Spec.Curve T sigma a b m S) {k : ℕ}
    (y τ : Fin k → ℝ) (hτ : ∀ j, τ j ∈ Ico 0 T) (pr : Prior1) :
    ∃ gA gB : ℝ → ℝ, Spec.FunctionalGradient (Spec.dwDrift θ) sigma R T y τ a b m S gA gB
      ∧ Spec.GradientConverges (Spec.IsDW G θ sigma) R T y τ pr a b m S gA gB := by
  have hch := (dw_energy1Of (G := ℕ) ⟨gridProc 1, sigma, θ, 1 / sigma⟩ 1 [] _ (gridProc_step one_pos) List.Pairwise.nil (one_div_mul_cancel hσ.ne')).chain
  have s : ∀ (r : WithTop ℕ∞) n, ∃ f : ℝ × ℝ × ℝ × ℝ → ℝ, (∀ p, momPoly n p.2.2.1 p.2.2.2 = f p) ∧ ContDiff ℝ r f := fun r n =>
    ⟨_, fun _ => rfl, momPoly_smooth n⟩
  refine gradient_limit_core hch ?_ ?_ ?_ ?_ ?_ ?_ hc hR hτ pr _ ?_ ?_
  · unfold unc dwQ
    obtain ⟨f2, e2, h2⟩ := s 2 2
    obtain ⟨f3, e3, h3⟩ := s 2 3
    obtain ⟨f4, e4, h4⟩ := s 2 4
    obtain ⟨f6, e6, h6⟩ := s 2 6
    simp only [e2, e3, e4, e6]
    fun_prop
  · unfold unc
    obtain ⟨f2, e2, h2⟩ := s 1 2
    obtain ⟨f4, e4, h4⟩ := s 1 4
    simp only [e2, e4]
    fun_prop
  · unfold unc
    obtain ⟨f3, e3, h3⟩ := s 1 3
    simp only [e3]
    fun_prop
  · unfold unc
    obtain ⟨f1, e1, h1⟩ := s 1 1
    obtain ⟨f2, e2, h2⟩ := s 1 2
    obtain ⟨f3, e3, h3⟩ := s 1 3
    obtain ⟨f5, e5, h5⟩ := s 1 5
    simp only [e1, e2, e3, e5]
    fun_prop
  · unfold unc
    obtain ⟨f1, e1, h1⟩ := s 1 1
    obtain ⟨f2, e2, h2⟩ := s 1 2
    obtain ⟨f4, e4, h4⟩ := s 1 4
    simp only [e1, e2, e4]
    fun_prop
  · intro a b m v hv
    simp only [Spec.sdeDensity, dwQ_eq _ _ _ _ _ hv]
  · rintro M dt ⟨p, rfl, -, hσ, -⟩
    exact hσ
  · rintro M dt n obs ⟨p, rfl, rfl, rfl, hinv, hstep⟩ hobs
    exact ⟨_, _, _, _, dw_energy1Of p n obs dt hstep hobs hinv⟩

/-- The moment equations have a solution for all Lipschitz continuous parameters and all initial values: the curves that C108 and C109 speak about exist, and so do
the families in `Spec.FunctionalGradient`. -/
theorem exists_curve {T sigma : ℝ} (hT : 0 ≤ T) (hσ : 0 ≤ sigma) {a b : ℝ → ℝ}
    (hab : ∃ L, ∀ s ∈ Icc 0 T, ∀ t ∈ Icc 0 T, |a s - a t| ≤ L * |s - t| ∧ |b s - b t| ≤ L * |s - t|) (m0 s0 : ℝ) (hs0 : 0 ≤ s0) :
    ∃ m S : ℝ → ℝ, m 0 = m0 ∧ S 0 = s0 ∧ Spec.Curve T sigma a b m S := by
  obtain ⟨L, hL⟩ := hab
  have cont : ∀ {f : ℝ → ℝ}, (∀ s ∈ Icc 0 T, ∀ t ∈ Icc 0 T, |f s - f t| ≤ L * |s - t|) → ContinuousOn f (Icc 0 T) := fun {f} h => by
    have : LipschitzOnWith |L|.toNNReal f (Icc 0 T) := LipschitzOnWith.of_dist_le_mul fun s hs t ht => by
      rw [Real.coe_toNNReal _ (abs_nonneg _), Real.dist_eq, Real.dist_eq]
      exact (h s hs t ht).trans (mul_le_mul_of_nonneg_right (le_abs_self _) (abs_nonneg _))
    exact this.continuousOn
  have ext : ∀ {f : ℝ → ℝ}, ContinuousOn f (Icc 0 T) → ∃ g : ℝ → ℝ, Continuous g ∧ ∀ t ∈ Icc 0 T, g t = f t := fun {f} h =>
    ⟨IccExtend hT ((Icc 0 T).domRestrict f), (continuousOn_iff_continuous_domRestrict.1 h).Icc_extend', fun t ht => by
      rw [IccExtend_of_mem hT _ ht]; rfl⟩
  obtain ⟨a', ca, ea⟩ := ext (cont fun s hs t ht => (hL s hs t ht).1)
  obtain ⟨b', cb, eb⟩ := ext (cont fun s hs t ht => (hL s hs t ht).2)
  -- the solution of `dz/dt = -c z + e` with `z 0 = z0`
  have sol : ∀ (c e : ℝ → ℝ) (z0 : ℝ), Continuous c → Continuous e → ∃ z : ℝ → ℝ, z 0 = z0 ∧ (∀ t, HasDerivAt z (-(c t * z t) + e t) t)
      ∧ (0 ≤ z0 → (∀ t, 0 ≤ e t) → ∀ t, 0 ≤ t → 0 ≤ z t) := by
    intro c e z0 hc he
    let P : ℝ → ℝ := fun t => ∫ s in (0 : ℝ)..t, c s
    have hP : ∀ t, HasDerivAt P (c t) t := fun t => (hc.integral_hasStrictDerivAt 0 t).hasDerivAt
    have cP : Continuous P := continuous_iff_continuousAt.2 fun t => (hP t).continuousAt
    let Q : ℝ → ℝ := fun t => ∫ s in (0 : ℝ)..t, Real.exp (P s) * e s
    have hQ : ∀ t, HasDerivAt Q (Real.exp (P t) * e t) t := fun t =>
      (Continuous.integral_hasStrictDerivAt (f := fun s => Real.exp (P s) * e s) (by fun_prop) 0 t).hasDerivAt
    have hexp : ∀ t, HasDerivAt (fun s => Real.exp (-P s)) (Real.exp (-P t) * -c t) t := fun t =>
      (hP t).fun_neg.exp
    refine ⟨fun t => Real.exp (-P t) * (z0 + Q t), ?_, fun t => ?_, fun h0 he0 t ht => ?_⟩
    · simp [P, Q]
    · refine ((hexp t).mul ((hQ t).const_add z0)).congr_deriv ?_
      have : Real.exp (-P t) * Real.exp (P t) = 1 := by rw [← Real.exp_add, neg_add_cancel, Real.exp_zero]
      linear_combination e t * this
    · have : 0 ≤ Q t := intervalIntegral.integral_nonneg ht fun s _ => mul_nonneg (Real.exp_pos _).le (he0 s)
      positivity
  obtain ⟨m, hm0, hm, -⟩ := sol a' b' m0 ca cb
  obtain ⟨S, hS0, hS, hSp⟩ := sol (fun t => 2 * a' t) (fun _ => sigma) s0 (by fun_prop) continuous_const
  refine ⟨m, S, hm0, hS0, hT, ⟨L, hL⟩, fun t ht => ?_, fun t ht => ?_, fun t ht => hSp hs0 (fun _ => hσ) t ht.1⟩
  · rw [← ea t ht, ← eb t ht]
    exact (hm t).hasDerivWithinAt
  · rw [← ea t ht]
    exact (hS t).hasDerivWithinAt

/-! Non-vacuity: the problem of `EnergyLimit` with one observation in the middle of the window, and objects on every even grid. -/

example (θ : ℝ) (meth : Method) : ∃ gA gB : ℝ → ℝ, Spec.FunctionalGradient (Spec.dwDrift θ) 3 1 1 (fun _ : Fin 1 => 2) (fun _ => 1 / 2)
      (fun t => 1 / (1 + t)) (fun t => 2 - 1 / (1 + t)) (fun t => t) (fun t => 1 + t) gA gB ∧
    ∃ C δ, 0 < δ ∧ ∀ N : ℕ, 0 < N → (1 / (2 * N) : ℝ) < δ → ∃ (g1 g2 : Fin (2 * N + 1) → ℝ) (o' : VarGP ℝ ℝ),
      (gridObj (DW.sde (G := ℕ) ⟨gridProc N, 3, θ, 1 / 3⟩) meth N).gradient shape1
          (Spec.onGrid (fun t => 1 / (1 + t)) (2 * N) (1 / (2 * N)) ++ Spec.onGrid (fun t => 2 - 1 / (1 + t)) (2 * N) (1 / (2 * N))) true
        = (.ok (List.ofFn g1 ++ List.ofFn g2), o')
      ∧ ∀ k : Fin (2 * N + 1), |g1 k / (1 / (2 * N)) - gA (k * (1 / (2 * N)))| ≤ C * (1 / (2 * N))
        ∧ |g2 k / (1 / (2 * N)) - gB (k * (1 / (2 * N)))| ≤ C * (1 / (2 * N)) := by
  obtain ⟨gA, gB, h1, C, δ, hδ, h2⟩ := C109_double_well ℕ 1 θ 3 1 (by norm_num) one_pos _ _ _ _ example_curve (fun _ : Fin 1 => 2) (fun _ => 1 / 2)
    (fun _ => ⟨by norm_num, by norm_num⟩) ⟨0, 1⟩
  exact ⟨gA, gB, h1, C, δ, hδ, fun N hN hd => h2 _ _ _ hd ⟨_, rfl, rfl, rfl, by norm_num, gridProc_step hN⟩ (gridObj_discretises _ meth hN) rfl rfl⟩

end

end VGPA
