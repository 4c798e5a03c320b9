import Verif.Props.GradExact

/-!
# C96: the difference between gradient and derivative is of the order of the step
-/

namespace VGPA

open Finset

/-- The discrete Gronwall inequality. -/
theorem discrete_gronwall {dt c d : ℝ} (hdt : 0 ≤ dt) (hc : 0 ≤ c) (hd : 0 ≤ d) (x : ℕ → ℝ) (n : ℕ)
    (h : ∀ k, k < n → |x (k + 1)| ≤ (1 + c * dt) * |x k| + d * dt) :
    ∀ k, k ≤ n → |x k| ≤ (|x 0| + d * (k * dt)) * Real.exp (c * (k * dt)) := by
  intro k
  induction k with
  | zero => simp
  | succ k ih =>
    intro hk
    have h1 := h k (by omega)
    have h2 := ih (by omega)
    have e1 : 1 + c * dt ≤ Real.exp (c * dt) := by linarith [Real.add_one_le_exp (c * dt)]
    have e2 : Real.exp (c * ((k + 1 : ℕ) * dt)) = Real.exp (c * dt) * Real.exp (c * (k * dt)) := by
      rw [← Real.exp_add]; congr 1; push_cast; ring
    have e3 : (1 : ℝ) ≤ Real.exp (c * ((k + 1 : ℕ) * dt)) := Real.one_le_exp (by positivity)
    calc |x (k + 1)| ≤ (1 + c * dt) * |x k| + d * dt := h1
      _ ≤ Real.exp (c * dt) * ((|x 0| + d * (k * dt)) * Real.exp (c * (k * dt))) + d * dt * Real.exp (c * ((k + 1 : ℕ) * dt)) := by
          refine add_le_add ?_ (le_mul_of_one_le_right (by positivity) e3)
          gcongr
      _ = _ := by rw [e2]; push_cast; ring

/-- The bound that follows on a bounded interval. -/
theorem bounded_on_interval {dt c d x0 T : ℝ} (hdt : 0 ≤ dt) (hc : 0 ≤ c) (hd : 0 ≤ d) (x : ℕ → ℝ) (n : ℕ) (h0 : |x 0| ≤ x0)
    (hT : n * dt ≤ T) (h : ∀ k, k < n → |x (k + 1)| ≤ (1 + c * dt) * |x k| + d * dt) :
    ∀ k, k ≤ n → |x k| ≤ (x0 + d * T) * Real.exp (c * T) := by
  intro k hk
  have hk' : (k : ℝ) * dt ≤ T := le_trans (by gcongr) hT
  have hT0 : 0 ≤ T := le_trans (by positivity) hT
  refine (discrete_gronwall hdt hc hd x n h k hk).trans ?_
  gcongr
  exact add_nonneg ((abs_nonneg _).trans h0) (by positivity)

section
variable {K T dt m0 s0 sigma : ℝ} {a b α β : ℕ → ℝ} {n : ℕ}

/-- The bound of the mean. -/
noncomputable def bndM (K T : ℝ) : ℝ := (K + K * T) * Real.exp (K * T)

/-- The bound of the variance. -/
noncomputable def bndS (K T : ℝ) : ℝ := (K + K * T) * Real.exp (2 * K * T)

/-- The bound of the derivative of the mean. -/
noncomputable def bndM' (K T : ℝ) : ℝ := (0 + (K + K * bndM K T) * T) * Real.exp (K * T)

/-- The bound of the derivative of the variance. -/
noncomputable def bndS' (K T : ℝ) : ℝ := (0 + (2 * K * bndS K T) * T) * Real.exp (2 * K * T)

theorem bndM_nonneg (hK : 0 ≤ K) (hT : 0 ≤ T) : 0 ≤ bndM K T := by unfold bndM; positivity

theorem bndS_nonneg (hK : 0 ≤ K) (hT : 0 ≤ T) : 0 ≤ bndS K T := by unfold bndS; positivity

theorem step_abs {dt c d a x u : ℝ} (hdt : 0 ≤ dt) (ha : |a| ≤ c) (hu : |u| ≤ d) :
    |x + dt * (-(a * x) + u)| ≤ (1 + c * dt) * |x| + d * dt := by
  have h1 : |dt * (a * x)| ≤ dt * (c * |x|) := by
    rw [abs_mul, abs_mul, abs_of_nonneg hdt]
    gcongr
  have h2 : |dt * u| ≤ dt * d := by
    rw [abs_mul, abs_of_nonneg hdt]
    gcongr
  calc |x + dt * (-(a * x) + u)| = |x - dt * (a * x) + dt * u| := by congr 1; ring
    _ ≤ |x - dt * (a * x)| + |dt * u| := abs_add_le _ _
    _ ≤ |x| + |dt * (a * x)| + |dt * u| := by gcongr; exact abs_sub _ _
    _ ≤ |x| + dt * (c * |x|) + dt * d := by gcongr
    _ = _ := by ring

theorem abs_mul_le {x y u v : ℝ} (hx : |x| ≤ u) (hy : |y| ≤ v) : |x * y| ≤ u * v := by
  rw [abs_mul]
  exact mul_le_mul hx hy (abs_nonneg _) ((abs_nonneg _).trans hx)

theorem eulerMean_bound (hK : 0 ≤ K) (hdt : 0 ≤ dt) (hT : n * dt ≤ T) (hm : |m0| ≤ K) (ha : ∀ i, |a i| ≤ K) (hb : ∀ i, |b i| ≤ K) :
    ∀ i ≤ n, |eulerMean dt m0 a b i| ≤ bndM K T :=
  bounded_on_interval hdt hK hK _ n hm hT fun i _ => step_abs hdt (ha i) (hb i)

theorem abs_two_mul_le {x : ℝ} (h : |x| ≤ K) : |2 * x| ≤ 2 * K := by
  rw [abs_mul, abs_two]; gcongr

theorem eulerVar_bound (hK : 0 ≤ K) (hdt : 0 ≤ dt) (hT : n * dt ≤ T) (hs : |s0| ≤ K) (hsig : |sigma| ≤ K) (ha : ∀ i, |a i| ≤ K) :
    ∀ i ≤ n, |eulerVar dt s0 sigma a i| ≤ bndS K T :=
  bounded_on_interval hdt (by positivity) hK _ n hs hT fun i _ => step_abs hdt (abs_two_mul_le (ha i)) hsig

theorem eulerMean'_bound (hK : 0 ≤ K) (hdt : 0 ≤ dt) (hT : n * dt ≤ T) (hm : |m0| ≤ K) (ha : ∀ i, |a i| ≤ K) (hb : ∀ i, |b i| ≤ K)
    (hα : ∀ i, |α i| ≤ K) (hβ : ∀ i, |β i| ≤ K) : ∀ i ≤ n, |eulerMean' dt m0 a b α β i| ≤ bndM' K T := by
  have hT0 : 0 ≤ T := le_trans (by positivity) hT
  have hM := bndM_nonneg hK hT0
  refine bounded_on_interval hdt hK (by positivity) _ n (by simp [eulerMean']) hT fun i hi => ?_
  exact step_abs hdt (ha i) ((abs_sub _ _).trans (add_le_add (hβ i)
    (abs_mul_le (hα i) (eulerMean_bound hK hdt hT hm ha hb i hi.le))))

theorem eulerVar'_bound (hK : 0 ≤ K) (hdt : 0 ≤ dt) (hT : n * dt ≤ T) (hs : |s0| ≤ K) (hsig : |sigma| ≤ K) (ha : ∀ i, |a i| ≤ K)
    (hα : ∀ i, |α i| ≤ K) : ∀ i ≤ n, |eulerVar' dt s0 sigma a α i| ≤ bndS' K T := by
  have hT0 : 0 ≤ T := le_trans (by positivity) hT
  have hM := bndS_nonneg hK hT0
  refine bounded_on_interval hdt (by positivity) (by positivity) _ n (by simp [eulerVar']) hT fun i hi => ?_
  refine step_abs hdt (abs_two_mul_le (ha i)) ?_
  rw [abs_neg]
  exact abs_mul_le (abs_two_mul_le (hα i)) (eulerVar_bound hK hdt hT hs hsig ha i hi.le)

end

theorem abs_add_le' {x y u v : ℝ} (hx : |x| ≤ u) (hy : |y| ≤ v) : |x + y| ≤ u + v := (abs_add_le _ _).trans (add_le_add hx hy)

theorem abs_sub_le' {x y u v : ℝ} (hx : |x| ≤ u) (hy : |y| ≤ v) : |x - y| ≤ u + v := (abs_sub _ _).trans (add_le_add hx hy)

theorem abs_sq_le {x u : ℝ} (hx : |x| ≤ u) : |x ^ 2| ≤ u ^ 2 := by
  rw [abs_pow]
  exact pow_le_pow_left₀ (abs_nonneg _) hx 2

/-- The bound of the derivative of the energy density. -/
noncomputable def bndQ (K M S M' S' : ℝ) : ℝ :=
  ((K + K) * (M ^ 2 + S) + M * K) * K * K + (M * (K + K) + K) * K * K + (M * (K + K) ^ 2 + (K + K) * K) * K * M'
    + 1 / 2 * (K + K) ^ 2 * K * S'

theorem ou_density_bound {K M S M' S' θ σ a b m s α β m' s' : ℝ} (hθ : |θ| ≤ K) (hσ : |σ⁻¹| ≤ K) (ha : |a| ≤ K) (hb : |b| ≤ K)
    (hm : |m| ≤ M) (hs : |s| ≤ S) (hα : |α| ≤ K) (hβ : |β| ≤ K) (hm' : |m'| ≤ M') (hs' : |s'| ≤ S') :
    |((θ - a) * -(m ^ 2 + s) - m * b) / σ * α + (m * (θ - a) + b) / σ * β + (m * (θ - a) ^ 2 + (θ - a) * b) / σ * m'
      + 0.5 * (θ - a) ^ 2 / σ * s'| ≤ bndQ K M S M' S' := by
  have hd := abs_sub_le' hθ ha
  have h05 : |(0.5 : ℝ)| ≤ 1 / 2 := by norm_num
  simp only [div_eq_mul_inv (b := σ)]
  refine abs_add_le' (abs_add_le' (abs_add_le' ?_ ?_) ?_) ?_
  · refine abs_mul_le (abs_mul_le (abs_sub_le' (abs_mul_le hd ?_) (abs_mul_le hm hb)) hσ) hα
    rw [abs_neg]
    exact abs_add_le' (abs_sq_le hm) hs
  · exact abs_mul_le (abs_mul_le (abs_add_le' (abs_mul_le hm hd) hb) hσ) hβ
  · exact abs_mul_le (abs_mul_le (abs_add_le' (abs_mul_le hm (abs_sq_le hd)) (abs_mul_le hd hb)) hσ) hm'
  · exact abs_mul_le (abs_mul_le (abs_mul_le h05 (abs_sq_le hd)) hσ) hs'

theorem entry_bound {n : ℕ} {K : ℝ} (hK : 0 ≤ K) {a : Fin n → ℝ} (h : ∀ i, |a i| ≤ K) (i : ℕ) : |entry (List.ofFn a) i| ≤ K := by
  by_cases hi : i < n
  · have := h ⟨i, hi⟩
    simpa [entry, hi] using this
  · simpa [entry, hi] using hK

/-- C96 for the Ornstein-Uhlenbeck process with Euler's method, second part: the difference between the derivative of the free energy and the inner product of
gradient and direction is at most a constant times the step. The constant depends on the number `k` of observations, the length `T` of the
window and a bound `K` of the parameters, the data, the point and the direction; not on the step, nor on the number of
grid points. Observations at the last grid point are excluded (see C27). -/
theorem C96_order_partial (K T : ℝ) (hK : 0 ≤ K) (k : ℕ) : ∃ C : ℝ, ∀ {G : Type} (p : OU G) {n : ℕ} (o : VarGP ℝ ℝ) (y : Fin k → ℝ)
    (t : Fin k → Fin n) (R : ℝ) (pr : Prior1), Vgp1Ok o n k y t R 1 pr → EulerOnly o → o.model = p.sde → p.sig_inv * p.sigma = 1 →
    p.base.timeStep = .ok o.dt → StrictMono t → (∀ j, (t j : ℕ) + 1 < n) → 0 < o.dt → n * o.dt ≤ T →
    |p.theta| ≤ K → |p.sigma| ≤ K → |p.sigma⁻¹| ≤ K → |R⁻¹| ≤ K → (∀ j, |y j| ≤ K) → |o.m0| ≤ K → |o.s0| ≤ K →
    ∀ a b α β : Fin n → ℝ, (∀ i, |a i| ≤ K) → (∀ i, |b i| ≤ K) → (∀ i, |α i| ≤ K) → (∀ i, |β i| ≤ K) →
    ∃ (F : ℝ → ℝ) (m s : ℝ → Fin n → ℝ) (gA gB : Fin n → ℝ) (o' : VarGP ℝ ℝ) (D : ℝ),
      Spec.AlongLine o a b α β F m s
      ∧ o.gradient shape1 (List.ofFn a ++ List.ofFn b) true = (.ok (List.ofFn gA ++ List.ofFn gB), o')
      ∧ HasDerivAt F D 0 ∧ |D - ∑ i, (gA i * α i + gB i * β i)| ≤ C * o.dt := by
  refine ⟨bndQ K (bndM K T) (bndS K T) (bndM' K T) (bndS' K T)
    + k * ((bndM K T + K) * K * (K * bndM' K T + (K + K * bndM K T)) + 1 / 2 * K * (2 * K * bndS' K T + 2 * K * bndS K T)), ?_⟩
  intro G p n o y t R pr ho hE hmodel hinv hdt ht hlast hpos hT hθ hσ hσi hR hy hm0 hs0 a b α β ha hb hα hβ
  have hobs : o.obs_t.Pairwise (· ≤ ·) := by
    rw [ho.obs, List.pairwise_ofFn]
    intro i j hij
    exact (ht hij).le
  have hen : Energy1Of o.model n o.obs_t o.dt _ _ _ _ _ _ _ _ := hmodel ▸ ou_energy1Of p n o.obs_t o.dt hdt hobs hinv
  obtain ⟨F, m, s, gA, gB, m', s', q', x', o', h1, h2, h3, h4, h5, h6, h7⟩ := gradient_derivative ho hE hen
    (fun _ _ _ _ _ _ _ _ _ _ _ _ => ⟨0, hasDerivAt_const _ _⟩) a b α β
  refine ⟨F, m, s, gA, gB, o', _, h1, h2, h7, ?_⟩
  have hx : x' = fun _ => 0 := funext fun i => (h6 i).unique (hasDerivAt_const _ _)
  have e0 : Spec.trapezoidRule o.dt (List.ofFn x') = 0 := by
    obtain ⟨N, rfl⟩ : ∃ N, n = N + 1 := ⟨n - 1, by have := ho.pos; omega⟩
    rw [rule_fin, hx]
    simp
  rw [e0]
  have hσ' : |o.model.sigma| ≤ K := by rw [hmodel]; exact hσ
  have hmo := fun ε => alongLine_moments ho hE h1 ε
  have hm : ∀ i : Fin n, |m 0 i| ≤ bndM K T := fun i => by
    rw [(hmo 0).1 i]
    simp only [zero_mul, add_zero]
    exact eulerMean_bound hK hpos.le hT hm0 (entry_bound hK ha) (entry_bound hK hb) i i.2.le
  have hs : ∀ i : Fin n, |s 0 i| ≤ bndS K T := fun i => by
    rw [(hmo 0).2 i]
    simp only [zero_mul, add_zero]
    exact eulerVar_bound hK hpos.le hT hs0 hσ' (entry_bound hK ha) i i.2.le
  have em : ∀ i : Fin n, m' i = eulerMean' o.dt o.m0 (entry (List.ofFn a)) (entry (List.ofFn b)) (entry (List.ofFn α)) (entry (List.ofFn β)) i :=
    fun i => by
      have := h3 i
      simp only [(hmo _).1 i, entry_line] at this
      exact this.unique (eulerMean_hasDerivAt _ _ _ _ _ _ _)
  have es : ∀ i : Fin n, s' i = eulerVar' o.dt o.s0 o.model.sigma (entry (List.ofFn a)) (entry (List.ofFn α)) i :=
    fun i => by
      have := h4 i
      simp only [(hmo _).2 i, entry_line] at this
      exact this.unique (eulerVar_hasDerivAt _ _ _ _ _ _)
  have hm' : ∀ i : Fin n, |m' i| ≤ bndM' K T := fun i => by
    rw [em i]
    exact eulerMean'_bound hK hpos.le hT hm0 (entry_bound hK ha) (entry_bound hK hb) (entry_bound hK hα) (entry_bound hK hβ) i i.2.le
  have hs' : ∀ i : Fin n, |s' i| ≤ bndS' K T := fun i => by
    rw [es i]
    exact eulerVar'_bound hK hpos.le hT hs0 hσ' (entry_bound hK ha) (entry_bound hK hα) i i.2.le
  have hq : ∀ i : Fin n, |q' i| ≤ bndQ K (bndM K T) (bndS K T) (bndM' K T) (bndS' K T) := fun i => by
    have dm := h3 i
    have ds := h4 i
    have da : HasDerivAt (fun ε : ℝ => a i + ε * α i) (α i) 0 := by
      simpa using ((hasDerivAt_id' (0 : ℝ)).mul_const (α i)).const_add (a i)
    have db : HasDerivAt (fun ε : ℝ => b i + ε * β i) (β i) 0 := by
      simpa using ((hasDerivAt_id' (0 : ℝ)).mul_const (β i)).const_add (b i)
    have := hen.chain _ _ _ _ _ _ _ _ da db dm ds
    rw [(h5 i).unique this]
    simp only [zero_mul, add_zero]
    exact ou_density_bound hθ hσi (ha i) (hb i) (hm i) (hs i) (hα i) (hβ i) (hm' i) (hs' i)
  have hdm : ∀ j, |Spec.after m' (t j) - m' (t j)| ≤ (K * bndM' K T + (K + K * bndM K T)) * o.dt := fun j => by
    have e : Spec.after m' (t j) = m' ⟨t j + 1, hlast j⟩ := by unfold Spec.after; rw [dif_pos]
    have hmj := hm (t j)
    have hm'j := hm' (t j)
    rw [(hmo 0).1 (t j)] at hmj
    simp only [zero_mul, add_zero] at hmj
    rw [em] at hm'j
    rw [e, em, em, eulerMean', add_sub_cancel_left, abs_mul, abs_of_pos hpos, mul_comm]
    gcongr
    refine abs_add_le' ?_ (abs_sub_le' (entry_bound hK hβ _) (abs_mul_le (entry_bound hK hα _) hmj))
    rw [abs_neg]
    exact abs_mul_le (entry_bound hK ha _) hm'j
  have hds : ∀ j, |Spec.after s' (t j) - s' (t j)| ≤ (2 * K * bndS' K T + 2 * K * bndS K T) * o.dt := fun j => by
    have e : Spec.after s' (t j) = s' ⟨t j + 1, hlast j⟩ := by unfold Spec.after; rw [dif_pos]
    have hsj := hs (t j)
    have hs'j := hs' (t j)
    rw [(hmo 0).2 (t j)] at hsj
    simp only [zero_mul, add_zero] at hsj
    rw [es] at hs'j
    rw [e, es, es, eulerVar', add_sub_cancel_left, abs_mul, abs_of_pos hpos, mul_comm]
    gcongr
    refine abs_add_le' ?_ ?_
    · rw [abs_neg]
      exact abs_mul_le (abs_two_mul_le (entry_bound hK ha _)) hs'j
    · rw [abs_neg]
      exact abs_mul_le (abs_two_mul_le (entry_bound hK hα _)) hsj
  have hsum : |∑ j, ((m 0 (t j) - y j) / R * (Spec.after m' (t j) - m' (t j)) + 1 / (2 * R) * (Spec.after s' (t j) - s' (t j)))|
      ≤ k * ((bndM K T + K) * K * (K * bndM' K T + (K + K * bndM K T)) + 1 / 2 * K * (2 * K * bndS' K T + 2 * K * bndS K T)) * o.dt := by
    refine (Finset.abs_sum_le_sum_abs _ _).trans ?_
    have hj : ∀ j ∈ Finset.univ, |(m 0 (t j) - y j) / R * (Spec.after m' (t j) - m' (t j)) + 1 / (2 * R) * (Spec.after s' (t j) - s' (t j))|
        ≤ (bndM K T + K) * K * ((K * bndM' K T + (K + K * bndM K T)) * o.dt)
          + 1 / 2 * K * ((2 * K * bndS' K T + 2 * K * bndS K T) * o.dt) := fun j _ => by
      rw [div_eq_mul_inv, show 1 / (2 * R) = 1 / 2 * R⁻¹ by rw [one_div, mul_inv]; ring]
      exact abs_add_le' (abs_mul_le (abs_mul_le (abs_sub_le' (hm _) (hy j)) hR) (hdm j))
        (abs_mul_le (abs_mul_le (by rw [abs_of_pos (by norm_num)]) hR) (hds j))
    refine (Finset.sum_le_sum hj).trans (le_of_eq ?_)
    rw [Finset.sum_const, Finset.card_univ, Fintype.card_fin, nsmul_eq_mul]
    ring
  have hq0 := hq ⟨0, ho.pos⟩
  have hqn := hq ⟨n - 1, by have := ho.pos; omega⟩
  have hends : |o.dt / 2 * (q' ⟨0, ho.pos⟩ + q' ⟨n - 1, by have := ho.pos; omega⟩)|
      ≤ bndQ K (bndM K T) (bndS K T) (bndM' K T) (bndS' K T) * o.dt := by
    rw [abs_mul, abs_of_pos (by positivity)]
    have := abs_add_le' hq0 hqn
    nlinarith
  rw [show ∀ A B C : ℝ, A - B - C + 0 - A = -(B + C) by intros; ring, abs_neg]
  refine (abs_add_le' hends hsum).trans (le_of_eq ?_)
  ring

/-- The hypotheses are met by the four-point example of `C96_violated`, with the bounds `K = 2` and `T = 2`. -/
example : ∃ (C : ℝ) (F : ℝ → ℝ) (m s : ℝ → Fin 4 → ℝ) (gA gB : Fin 4 → ℝ) (o' : VarGP ℝ ℝ) (D : ℝ),
    Spec.AlongLine (vgpObj vgpOU.sde .euler) (fun _ => 1) (fun _ => 2) (fun _ => 1) (fun _ => -1) F m s
    ∧ (vgpObj vgpOU.sde .euler).gradient shape1 (List.ofFn (fun _ : Fin 4 => (1 : ℝ)) ++ List.ofFn (fun _ : Fin 4 => (2 : ℝ))) true
      = (.ok (List.ofFn gA ++ List.ofFn gB), o')
    ∧ HasDerivAt F D 0 ∧ |D - ∑ i, (gA i * 1 + gB i * (-1))| ≤ C * (1 / 2) := by
  obtain ⟨C, hC⟩ := C96_order_partial 2 2 (by norm_num) 2
  exact ⟨C, hC vgpOU _ _ _ _ _ (vgpObj_ok _ .euler) ⟨rfl, rfl, rfl, rfl⟩ rfl (by norm_num [vgpOU]) vgpOU_step (by decide) (by decide)
    (by norm_num [vgpObj]) (by norm_num [vgpObj]) (by norm_num [vgpOU]) (by norm_num [vgpOU]) (by norm_num [vgpOU]) (by norm_num)
    (by intro j; fin_cases j <;> norm_num) (by norm_num [vgpObj]) (by norm_num [vgpObj]) _ _ _ _ (by norm_num) (by norm_num) (by norm_num)
    (by norm_num)⟩

end VGPA
