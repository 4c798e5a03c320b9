import Verif.Lemmas.Rounding
import Mathlib.Data.Int.Log
import Mathlib.Algebra.Order.Round

/-!
# The sweeps in rounded arithmetic (C115, C116)
-/

open Set Filter Topology
open scoped Matrix

namespace VGPA

noncomputable section

/-! ## Specification: accuracy of the arithmetic -/

/-- Unit roundoff `u`: a single operation has a relative error of at most `u`, and an inner product of `d` terms the error of `d` such operations
(which holds for every order of summation). -/
structure Floats.Accurate (R : Floats) (u : ℝ) : Prop where
  rnd : ∀ x, |R.rnd x - x| ≤ u * |x|
  dot : ∀ (d : ℕ) (x y : Fin d → ℝ), |R.dot x y - ∑ i, x i * y i| ≤ ((1 + u) ^ d - 1) * ∑ i, |x i * y i|

/-! ## Right-hand sides -/

/-- The operations of a machine approximate the exact ones. -/
structure MachineNear {V W : Type} [NormedAddCommGroup V] [NormedSpace ℝ V] [NormedAddCommGroup W] [NormedSpace ℝ W] (M : Machine V W) (F : Rhs V W)
    (κ u : ℝ) : Prop where
  mul : ∀ x y, |M.mul x y - x * y| ≤ u * |x * y|
  v : OpsNear M.v u
  w : OpsNear M.w u
  mt : ∀ m a b, ‖M.rhs.fun_mt m a b - F.fun_mt m a b‖ ≤ κ * u * (‖a‖ * ‖m‖ + ‖b‖)
  st : ∀ s a c, ‖M.rhs.fun_st s a c - F.fun_st s a c‖ ≤ κ * u * (‖a‖ * ‖s‖ + ‖c‖)
  lam : ∀ e a l, ‖M.rhs.fun_lam e a l - F.fun_lam e a l‖ ≤ κ * u * (‖a‖ * ‖l‖ + ‖e‖)
  psi : ∀ e a p, ‖M.rhs.fun_psi e a p - F.fun_psi e a p‖ ≤ κ * u * (‖a‖ * ‖p‖ + ‖e‖)

section near
variable {X W : Type} [NormedAddCommGroup X] [NormedSpace ℝ X] [NormedAddCommGroup W] [NormedSpace ℝ W] {u : ℝ}

omit [NormedSpace ℝ X] in
theorem Near.mono {A E A' E' : ℝ} {xh x : X} (hu0 : 0 ≤ u) (h : Near u A E xh x) (hA : A ≤ A') (hE : E ≤ E') : Near u A' E' xh x :=
  ⟨h.1.trans hE, h.2.1.trans hA, h.2.2.trans (by gcongr)⟩

theorem OpsNear.near_mid {o : ArrOps X} (h : OpsNear o u) (hu0 : 0 ≤ u) (hu1 : u ≤ 1) {α : ℝ} {x y : X} (hx : ‖x‖ ≤ α) (hy : ‖y‖ ≤ α) :
    Near u α (3 * α) (o.mid x y) ((0.5 : ℝ) • (x + y)) := by
  have h1 := h.near_smul hu0 hu1 (Near.refl (A := 0.5) (x := (0.5 : ℝ)) (by norm_num)) (h.addPair.near hu0 hu1 (Near.refl hx) (Near.refl hy))
  exact h1.mono hu0 (by linarith) (by linarith)

/-- The size and the variation of an expression that is bilinear in `a`, `x` plus `c`. -/
structure AffLike (β : ℝ) (f : W → X → X → X) : Prop where
  size : ∀ a c x, ‖f a c x‖ ≤ β * ‖a‖ * ‖x‖ + ‖c‖
  diff : ∀ a c x a' c' x', ‖f a c x - f a' c' x'‖ ≤ β * ‖a - a'‖ * ‖x‖ + β * ‖a'‖ * ‖x - x'‖ + ‖c - c'‖

theorem affLike {B : W →ₗ[ℝ] X →ₗ[ℝ] X} {β : ℝ} (hB : ∀ a y, ‖B a y‖ ≤ β * ‖a‖ * ‖y‖) : AffLike β (fun a c x => aff B a c x) where
  size a c x := (norm_add_le _ _).trans (add_le_add (hB _ _) le_rfl)
  diff a c x a' c' x' := by
    have e : aff B a c x - aff B a' c' x' = B (a - a') x + B a' (x - x') + (c - c') := by
      simp only [aff, map_sub, LinearMap.sub_apply]; abel
    rw [e]
    exact (norm_add_le _ _).trans (add_le_add ((norm_add_le _ _).trans (add_le_add (hB _ _) (hB _ _))) le_rfl)

omit [NormedSpace ℝ X] [NormedSpace ℝ W] in
theorem AffLike.neg {β : ℝ} {f : W → X → X → X} (h : AffLike β f) : AffLike β fun a c x => -f a c x where
  size a c x := by rw [norm_neg]; exact h.size a c x
  diff a c x a' c' x' := by rw [← neg_sub', norm_neg]; exact h.diff _ _ _ _ _ _

def rhsSize (β α γ A : ℝ) : ℝ := β * (α + A) * A + γ

def rhsErr (β κ α γ A E : ℝ) : ℝ :=
  κ * ((α + A + (3 * α + E)) * (A + E) + (γ + 3 * γ)) + (β * (3 * α + E) * (A + E) + β * (α + A) * E + 3 * γ)

omit [NormedSpace ℝ X] [NormedSpace ℝ W] in
/-- A right-hand side at approximate arguments. -/
theorem rhs_near {β κ α γ : ℝ} {fh f : W → X → X → X} (hβ : 0 ≤ β) (hκ : 0 ≤ κ) (hu0 : 0 ≤ u) (hu1 : u ≤ 1) (hf : AffLike β f)
    (hr : ∀ a c x, ‖fh a c x - f a c x‖ ≤ κ * u * (‖a‖ * ‖x‖ + ‖c‖)) {A E : ℝ} {ah a : W} {ch c xh x : X}
    (ha : Near u (α + A) (3 * α + E) ah a) (hc : Near u γ (3 * γ) ch c) (hx : Near u A E xh x) :
    Near u (rhsSize β α γ A) (rhsErr β κ α γ A E) (fh ah ch xh) (f a c x) := by
  have hA := hx.nonneg
  have hE := hx.1
  have hαA := ha.nonneg
  have hαE := ha.1
  have hγ := hc.nonneg
  have hγ3 := hc.1
  refine ⟨by unfold rhsErr; positivity, (hf.size _ _ _).trans ?_, ?_⟩
  · unfold rhsSize
    gcongr
    exacts [ha.2.1, hx.2.1, hc.2.1]
  · have h1 : ‖fh ah ch xh - f ah ch xh‖ ≤ κ * u * ((α + A + (3 * α + E)) * (A + E) + (γ + 3 * γ)) := by
      refine (hr _ _ _).trans ?_
      gcongr
      exacts [ha.size hu1, hx.size hu1, hc.size hu1]
    have h2 : ‖f ah ch xh - f a c x‖ ≤ β * ((3 * α + E) * u) * (A + E) + β * (α + A) * (E * u) + 3 * γ * u := by
      refine (hf.diff _ _ _ _ _ _).trans ?_
      gcongr
      exacts [ha.2.2, hx.size hu1, ha.2.1, hx.2.2, hc.2.2]
    calc _ = ‖(fh ah ch xh - f ah ch xh) + (f ah ch xh - f a c x)‖ := by congr 1; abel
      _ ≤ _ := norm_add_le _ _
      _ ≤ _ := add_le_add h1 h2
      _ = _ := by unfold rhsErr; ring

end near

/-! ## Forward -/

section fwd
variable {V W : Type} [NormedAddCommGroup V] [NormedSpace ℝ V] [NormedAddCommGroup W] [NormedSpace ℝ W]

theorem stepR_exact_add {X : Type} [NormedAddCommGroup X] [NormedSpace ℝ X] (meth : Method) (dt : ℝ) (f0 fm f1 g : X → X) (y : X) :
    stepR meth (fun x y => x * y) (exactOps X) (fun x y => x + y) dt f0 fm f1 g y = gStep meth dt f0 fm f1 g y := by
  cases meth <;> simp only [stepR, gStep, exactOps, ArrOps.combine, one_div]

theorem lipschitz_bounded {X : Type} [NormedAddCommGroup X] {T L : ℝ} (hT : 0 ≤ T) (hL : 0 ≤ L) {a : ℝ → X}
    (hLa : ∀ s ∈ Icc 0 T, ∀ t ∈ Icc 0 T, ‖a s - a t‖ ≤ L * |s - t|) : ∃ α, 0 ≤ α ∧ ∀ t ∈ Icc 0 T, ‖a t‖ ≤ α := by
  refine ⟨‖a 0‖ + L * T, by positivity, fun t ht => ?_⟩
  have h1 := hLa t ht 0 ⟨le_rfl, hT⟩
  rw [sub_zero, abs_of_nonneg ht.1] at h1
  have h2 : ‖a t‖ ≤ ‖a 0‖ + ‖a t - a 0‖ := by simpa using norm_add_le (a 0) (a t - a 0)
  have h3 : L * t ≤ L * T := by gcongr; exact ht.2
  linarith

/-- Both series of a forward sweep in rounded arithmetic. -/
theorem fwdR_converges (F : Rhs V W) {β κ : ℝ} (hF : FwdBilin F β) (hκ : 0 ≤ κ) {T L : ℝ} (hT : 0 ≤ T) (hL : 0 ≤ L) {a : ℝ → W} {b m : ℝ → V} {S : ℝ → W} (sigma : W)
    (hLa : ∀ s ∈ Icc 0 T, ∀ t ∈ Icc 0 T, ‖a s - a t‖ ≤ L * |s - t|)
    (hLb : ∀ s ∈ Icc 0 T, ∀ t ∈ Icc 0 T, ‖b s - b t‖ ≤ L * |s - t|)
    (hm : ∀ t ∈ Icc 0 T, HasDerivWithinAt m (F.fun_mt (m t) (a t) (b t)) (Icc 0 T) t)
    (hS : ∀ t ∈ Icc 0 T, HasDerivWithinAt S (F.fun_st (S t) (a t) sigma) (Icc 0 T) t) :
    ∃ C δ, 0 < δ ∧ ∀ (M : Machine V W) (u : ℝ), 0 ≤ u → MachineNear M F κ u → ∀ (meth : Method) (dt : ℝ) (n : ℕ), 0 < dt → dt < δ → u < δ * dt → n * dt ≤ T →
      ∃ (Mn : ℕ → V) (P : ℕ → W),
        M.solveFwd meth dt (List.ofFn fun k : Fin (n + 1) => a (k * dt)) (List.ofFn fun k : Fin (n + 1) => b (k * dt)) (m 0) (S 0) sigma
          = .ok (List.ofFn fun k : Fin (n + 1) => Mn k, List.ofFn fun k : Fin (n + 1) => P k)
        ∧ ∀ k ≤ n, ‖Mn k - m (k * dt)‖ ≤ C * (dt + u / dt) ∧ ‖P k - S (k * dt)‖ ≤ C * (dt + u / dt) := by
  simp only [hF.mean_eq] at hm
  simp only [hF.cov_eq] at hS
  obtain ⟨α, hα0, hα⟩ := lipschitz_bounded hT hL hLa
  obtain ⟨γ, hγ0, hγ⟩ := lipschitz_bounded hT hL hLb
  choose A1 E1 hE1 using fun r => stepR_near (X := V) (fun A _ => rhsSize β α γ A) (rhsErr β κ α γ) r
  choose A2 E2 hE2 using fun r => stepR_near (X := W) (fun A _ => rhsSize β α ‖sigma‖ A) (rhsErr β κ α ‖sigma‖) r
  obtain ⟨C1, δ1, hC1, hδ1, h1⟩ := affine_converges_pert hF.nonneg hF.mean_le hT hL hLa hLb hm (fun r => β * α * r + γ) E1
  obtain ⟨C2, δ2, hC2, hδ2, h2⟩ := affine_converges_pert (c := fun _ => sigma) hF.nonneg hF.cov_le hT hL hLa
    (by intro s _ t _; rw [sub_self, norm_zero]; positivity) hS (fun r => β * r * r + ‖sigma‖) E2
  refine ⟨max C1 C2, min (min δ1 δ2) 1, lt_min (lt_min hδ1 hδ2) one_pos, ?_⟩
  intro M u hu0 hM meth dt n hdt hδ huδ hn
  have hdt1 : dt < 1 := hδ.trans_le (min_le_right _ _)
  have hu1 : u ≤ 1 := by
    have : min (min δ1 δ2) 1 * dt ≤ 1 * 1 := mul_le_mul (min_le_right _ _) hdt1.le hdt.le zero_le_one
    linarith
  have hmem : ∀ k ≤ n, (k : ℝ) * dt ∈ Icc 0 T := fun k hk => ⟨by positivity, le_trans (by gcongr) hn⟩
  have hdta : |dt| ≤ 1 := by rw [abs_of_pos hdt]; exact hdt1.le
  let A := List.ofFn fun k : Fin (n + 1) => a (k * dt)
  let b' := List.ofFn fun k : Fin (n + 1) => b (k * dt)
  have hA : ∀ k ≤ n, asFun A k = a (k * dt) := fun k hk => by
    rw [asFun_eq (by rw [List.length_ofFn]; omega), List.getElem_ofFn]
  have hb : ∀ k ≤ n, asFun b' k = b (k * dt) := fun k hk => by
    rw [asFun_eq (by rw [List.length_ofFn]; omega), List.getElem_ofFn]
  have hnA : ∀ k ≤ n, ‖asFun A k‖ ≤ α := fun k hk => by rw [hA k hk]; exact hα _ (hmem k hk)
  have hnb : ∀ k ≤ n, ‖asFun b' k‖ ≤ γ := fun k hk => by rw [hb k hk]; exact hγ _ (hmem k hk)
  let x := traj (m 0, S 0) (fwdStepR meth M dt (asFun A) (asFun b') sigma)
  refine ⟨fun k => (x k).1, fun k => (x k).2, ?_, ?_⟩
  · rw [solveFwdR_ok meth M dt A b' (m 0) (S 0) sigma (by rw [List.length_ofFn]; omega)
      (by rw [List.length_ofFn, List.length_ofFn]; cases meth <;> simp only [needA] <;> (try split_ifs) <;> omega)]
    have hl : b'.length = n + 1 := List.length_ofFn
    rw [hl]
    refine congrArg Except.ok (congrArg₂ Prod.mk ?_ ?_) <;>
    · apply List.ext_getElem (by rw [List.length_map, List.length_range, List.length_ofFn])
      intro i h1 h2
      rw [List.getElem_map, List.getElem_range, List.getElem_ofFn]
  · have exa : ∀ {A E : ℝ} {w : W}, 0 ≤ A → 0 ≤ E → ‖w‖ ≤ α → Near u (α + A) (3 * α + E) w w := fun hA hE h =>
      (Near.refl h).mono hu0 (by linarith) (by linarith)
    have mida : ∀ {A E : ℝ} {w w' : W}, 0 ≤ A → 0 ≤ E → ‖w‖ ≤ α → ‖w'‖ ≤ α → Near u (α + A) (3 * α + E) (M.w.mid w w') ((0.5 : ℝ) • (w + w')) :=
      fun hA hE h h' => (hM.w.near_mid hu0 hu1 h h').mono hu0 (by linarith) (by linarith)
    intro k hk
    constructor
    · refine (h1 meth dt u n (fun k => (x k).1) (fun k => aff hF.mean (a (k * dt)) (b (k * dt))) hdt (hδ.trans_le ((min_le_left _ _).trans (min_le_left _ _))) hu0
        (huδ.trans_le (by gcongr; exact (min_le_left _ _).trans (min_le_left _ _))) hn rfl ?_ ?_ k hk).trans ?_
      · intro k hk r v hv
        exact aff_bound hF.nonneg hF.mean_le (hα _ (hmem k hk.le)) (hγ _ (hmem k hk.le)) hv
      · intro k hk r hr
        have rn := fun {A E : ℝ} {ah a ch c xh x} => rhs_near (fh := fun a c x => M.rhs.fun_mt x a c) (f := fun a c x => F.fun_mt x a c)
          (α := α) (γ := γ) (A := A) (E := E) (ah := ah) (a := a) (ch := ch) (c := c) (xh := xh) (x := x) hF.nonneg hκ hu0 hu1
          (by simp only [hF.mean_eq]; exact affLike hF.mean_le) (fun a c x => hM.mt x a c)
        have exb : ∀ {v : V}, ‖v‖ ≤ γ → Near u γ (3 * γ) v v := fun h => (Near.refl h).mono hu0 le_rfl (by linarith)
        have key := (hE1 r meth u M.mul M.v M.v.add (fun x y => x + y) dt _ _ _ _
          (fun m => F.fun_mt m (asFun A k) (asFun b' k))
          (fun m => F.fun_mt m ((0.5 : ℝ) • (asFun A k + asFun A (k + 1))) ((0.5 : ℝ) • (asFun b' k + asFun b' (k + 1))))
          (fun m => F.fun_mt m (asFun A (k + 1)) (asFun b' (k + 1))) (fun m => F.fun_mt m (asFun A k) (asFun b' k)) _ hu0 hu1 hdta hM.mul hM.v hM.v.addPair
          (fun A E xh x hx => rn (exa hx.nonneg hx.1 (hnA k hk.le)) (exb (hnb k hk.le)) hx)
          (fun A E xh x hx => rn (mida hx.nonneg hx.1 (hnA k hk.le) (hnA (k + 1) hk)) (hM.v.near_mid hu0 hu1 (hnb k hk.le) (hnb (k + 1) hk)) hx)
          (fun A E xh x hx => rn (exa hx.nonneg hx.1 (hnA (k + 1) hk)) (exb (hnb (k + 1) hk)) hx)
          (fun A E xh x hx => rn (exa hx.nonneg hx.1 (hnA k hk.le)) (exb (hnb k hk.le)) hx) hr).2.2
        rw [stepR_exact_add] at key
        simp only [hF.mean_eq, hA k hk.le, hA (k + 1) hk, hb k hk.le, hb (k + 1) hk] at key
        show ‖(fwdStepR meth M dt (asFun A) (asFun b') sigma k (x k)).1 - _‖ ≤ _
        simp only [fwdStepR, hA k hk.le, hA (k + 1) hk, hb k hk.le, hb (k + 1) hk]
        exact key
      · gcongr; exact le_max_left _ _
    · refine (h2 meth dt u n (fun k => (x k).2) (fun _ s => aff hF.cov s sigma s) hdt (hδ.trans_le ((min_le_left _ _).trans (min_le_right _ _))) hu0
        (huδ.trans_le (by gcongr; exact (min_le_left _ _).trans (min_le_right _ _))) hn rfl ?_ ?_ k hk).trans ?_
      · intro k hk r v hv
        exact aff_bound hF.nonneg hF.cov_le hv le_rfl hv
      · intro k hk r hr
        have e : (0.5 : ℝ) • (sigma + sigma) = sigma := by
          rw [← two_smul ℝ sigma, smul_smul]; norm_num
        rw [e]
        have rn := fun {A E : ℝ} {ah a xh x} => rhs_near (fh := fun a c x => M.rhs.fun_st x a c) (f := fun a c x => F.fun_st x a c)
          (α := α) (γ := ‖sigma‖) (A := A) (E := E) (ah := ah) (a := a) (ch := sigma) (c := sigma) (xh := xh) (x := x) hF.nonneg hκ hu0 hu1
          (by simp only [hF.cov_eq]; exact affLike hF.cov_le) (fun a c x => hM.st x a c)
        have exb : Near u ‖sigma‖ (3 * ‖sigma‖) sigma sigma := (Near.refl le_rfl).mono hu0 le_rfl (by positivity)
        have key := (hE2 r meth u M.mul M.w M.w.add (fun x y => x + y) dt _ _ _ _
          (fun m => F.fun_st m (asFun A k) sigma)
          (fun m => F.fun_st m ((0.5 : ℝ) • (asFun A k + asFun A (k + 1))) sigma)
          (fun m => F.fun_st m (asFun A (k + 1)) sigma) (fun m => F.fun_st m m sigma) _ hu0 hu1 hdta hM.mul hM.w hM.w.addPair
          (fun A E xh x hx => rn (exa hx.nonneg hx.1 (hnA k hk.le)) exb hx)
          (fun A E xh x hx => rn (mida hx.nonneg hx.1 (hnA k hk.le) (hnA (k + 1) hk)) exb hx)
          (fun A E xh x hx => rn (exa hx.nonneg hx.1 (hnA (k + 1) hk)) exb hx)
          (fun A E xh x hx => rn (hx.mono hu0 (by linarith) (by linarith)) exb hx) hr).2.2
        rw [stepR_exact_add] at key
        simp only [hF.cov_eq, hA k hk.le, hA (k + 1) hk] at key
        show ‖(fwdStepR meth M dt (asFun A) (asFun b') sigma k (x k)).2 - _‖ ≤ _
        simp only [fwdStepR, hA k hk.le, hA (k + 1) hk]
        exact key
      · gcongr; exact le_max_right _ _

end fwd

/-! ## Backward -/

section bwd
variable {V W : Type} [NormedAddCommGroup V] [NormedSpace ℝ V] [NormedAddCommGroup W] [NormedSpace ℝ W]

theorem jumps_bounded {X : Type} [NormedAddCommGroup X] [NormedSpace ℝ X] {z f J : ℝ → X} {T : ℝ} (hT : 0 ≤ T)
    (hz : ∀ t ∈ Ico 0 T, HasDerivWithinAt z (f t) (Ici t) t)
    (hl : ∀ t ∈ Ioc 0 T, Tendsto z (𝓝[<] t) (𝓝 (z t - J t))) : ∃ j, 0 ≤ j ∧ ∀ t ∈ Ioc 0 T, ‖J t‖ ≤ j := by
  obtain ⟨b, hb⟩ := bounded_of_limits hz hl
  have hb0 : 0 ≤ b := (norm_nonneg _).trans (hb 0 ⟨le_rfl, hT⟩)
  refine ⟨2 * b, by positivity, fun t ht => ?_⟩
  have h1 : ‖z t - J t‖ ≤ b := by
    refine le_of_tendsto (hl t ht).norm ?_
    have : ∀ᶠ x in 𝓝[<] t, x ∈ Ioo 0 t := Ioo_mem_nhdsLT ht.1
    exact this.mono fun x hx => hb x ⟨hx.1.le, hx.2.le.trans ht.2⟩
  have h2 := hb t ⟨ht.1.le, ht.2⟩
  calc ‖J t‖ = ‖z t - (z t - J t)‖ := by congr 1; abel
    _ ≤ ‖z t‖ + ‖z t - J t‖ := norm_sub_le _ _
    _ ≤ _ := by linarith

/-- Both series of a backward sweep in rounded arithmetic. -/
theorem bwdR_converges (F : Rhs V W) {β κ : ℝ} (hF : BwdBilin F β) (hκ : 0 ≤ κ) {T L : ℝ} (hT : 0 ≤ T) (hL : 0 ≤ L) {a es psi Js : ℝ → W} {em lam Jm : ℝ → V}
    (hLa : ∀ s ∈ Icc 0 T, ∀ t ∈ Icc 0 T, ‖a s - a t‖ ≤ L * |s - t|)
    (hLm : ∀ s ∈ Icc 0 T, ∀ t ∈ Icc 0 T, ‖em s - em t‖ ≤ L * |s - t|)
    (hLs : ∀ s ∈ Icc 0 T, ∀ t ∈ Icc 0 T, ‖es s - es t‖ ≤ L * |s - t|)
    (hlam : ∀ t ∈ Ioc 0 T, HasDerivWithinAt lam (F.fun_lam (em t) (a t) (lam t)) (Iic t) t)
    (hpsi : ∀ t ∈ Ioc 0 T, HasDerivWithinAt psi (F.fun_psi (es t) (a t) (psi t)) (Iic t) t)
    (hJm : ∀ t ∈ Ico 0 T, Tendsto lam (𝓝[>] t) (𝓝 (lam t - Jm t))) (hJs : ∀ t ∈ Ico 0 T, Tendsto psi (𝓝[>] t) (𝓝 (psi t - Js t)))
    (hlamT : lam T = 0) (hpsiT : psi T = 0) :
    ∃ C δ, 0 < δ ∧ ∀ (M : Machine V W) (u : ℝ), 0 ≤ u → MachineNear M F κ u → ∀ (meth : Method) (dt : ℝ) (n : ℕ), 0 < dt → dt < δ → u < δ * dt → n * dt = T →
      (∀ t ∈ Ico 0 T, Jm t ≠ 0 ∨ Js t ≠ 0 → ∃ k : ℕ, t = k * dt) →
      ∃ (Λ : ℕ → V) (Ψ : ℕ → W),
        M.solveBwd meth dt (List.ofFn fun k : Fin (n + 1) => a (k * dt)) (List.ofFn fun k : Fin (n + 1) => em (k * dt))
            (List.ofFn fun k : Fin (n + 1) => es (k * dt)) (List.ofFn fun k : Fin (n + 1) => Jm (k * dt)) (List.ofFn fun k : Fin (n + 1) => Js (k * dt))
          = .ok (List.ofFn fun k : Fin (n + 1) => Λ k, List.ofFn fun k : Fin (n + 1) => Ψ k)
        ∧ ∀ k ≤ n, ‖Λ k - lam (k * dt)‖ ≤ C * (dt + u / dt) ∧ ‖Ψ k - psi (k * dt)‖ ≤ C * (dt + u / dt) := by
  simp only [hF.lam_eq] at hlam
  simp only [hF.psi_eq] at hpsi
  have hr : ∀ s ∈ Icc 0 T, T - s ∈ Icc 0 T := fun s hs => ⟨by linarith [hs.2], by linarith [hs.1]⟩
  have habs : ∀ s t : ℝ, |T - s - (T - t)| = |s - t| := fun s t => by
    rw [show T - s - (T - t) = -(s - t) by ring, abs_neg]
  have rev : ∀ {E : Type} [NormedAddCommGroup E] {f : ℝ → E}, (∀ s ∈ Icc 0 T, ∀ t ∈ Icc 0 T, ‖f s - f t‖ ≤ L * |s - t|) →
      ∀ s ∈ Icc 0 T, ∀ t ∈ Icc 0 T, ‖f (T - s) - f (T - t)‖ ≤ L * |s - t| := fun h s hs t ht => by
    rw [← habs s t]; exact h _ (hr s hs) _ (hr t ht)
  have hz1 : ∀ t ∈ Ico 0 T, HasDerivWithinAt (fun s => lam (T - s)) (aff hF.lam (a (T - t)) (em (T - t)) (lam (T - t))) (Ici t) t :=
    fun t ht => reverse_deriv (hlam _ ⟨by linarith [ht.2], by linarith [ht.1]⟩)
  have hz2 : ∀ t ∈ Ico 0 T, HasDerivWithinAt (fun s => psi (T - s)) (aff hF.psi (a (T - t)) (es (T - t)) (psi (T - t))) (Ici t) t :=
    fun t ht => reverse_deriv (hpsi _ ⟨by linarith [ht.2], by linarith [ht.1]⟩)
  have hl1 : ∀ t ∈ Ioc 0 T, Tendsto (fun s => lam (T - s)) (𝓝[<] t) (𝓝 (lam (T - t) - Jm (T - t))) :=
    fun t ht => reverse_limit (hJm _ ⟨by linarith [ht.2], by linarith [ht.1]⟩)
  have hl2 : ∀ t ∈ Ioc 0 T, Tendsto (fun s => psi (T - s)) (𝓝[<] t) (𝓝 (psi (T - t) - Js (T - t))) :=
    fun t ht => reverse_limit (hJs _ ⟨by linarith [ht.2], by linarith [ht.1]⟩)
  obtain ⟨α, hα0, hα⟩ := lipschitz_bounded hT hL hLa
  obtain ⟨γ1, hγ10, hγ1⟩ := lipschitz_bounded hT hL hLm
  obtain ⟨γ2, hγ20, hγ2⟩ := lipschitz_bounded hT hL hLs
  obtain ⟨j1, hj10, hj1⟩ := jumps_bounded (J := fun s => Jm (T - s)) hT hz1 hl1
  obtain ⟨j2, hj20, hj2⟩ := jumps_bounded (J := fun s => Js (T - s)) hT hz2 hl2
  choose A1 E1 hE1 using fun r => stepR_near (X := V) (fun A _ => rhsSize β α γ1 A) (rhsErr β κ α γ1) r
  choose A2 E2 hE2 using fun r => stepR_near (X := W) (fun A _ => rhsSize β α γ2 A) (rhsErr β κ α γ2) r
  obtain ⟨C1, δ1, hC1, hδ1, h1⟩ := affine_converges_jumps_pert (a := fun s => a (T - s)) (c := fun s => em (T - s)) (z := fun s => lam (T - s))
    (J := fun s => Jm (T - s)) hF.nonneg hF.lam_le hT hL (rev hLa) (rev hLm) hz1 hl1 fun r => (A1 r + E1 r + (j1 + 0)) + (E1 r + 0)
  obtain ⟨C2, δ2, hC2, hδ2, h2⟩ := affine_converges_jumps_pert (a := fun s => a (T - s)) (c := fun s => es (T - s)) (z := fun s => psi (T - s))
    (J := fun s => Js (T - s)) hF.nonneg hF.psi_le hT hL (rev hLa) (rev hLs) hz2 hl2 fun r => (A2 r + E2 r + (j2 + 0)) + (E2 r + 0)
  refine ⟨max C1 C2, min (min δ1 δ2) 1, lt_min (lt_min hδ1 hδ2) one_pos, ?_⟩
  intro M u hu0 hM meth dt n hdt hδ huδ hn hgrid
  have hdt1 : dt < 1 := hδ.trans_le (min_le_right _ _)
  have hu1 : u ≤ 1 := by
    have : min (min δ1 δ2) 1 * dt ≤ 1 * 1 := mul_le_mul (min_le_right _ _) hdt1.le hdt.le zero_le_one
    linarith
  have hdta : |dt| ≤ 1 := by rw [abs_of_pos hdt]; exact hdt1.le
  let A := List.ofFn fun k : Fin (n + 1) => a (k * dt)
  let em' := List.ofFn fun k : Fin (n + 1) => em (k * dt)
  let es' := List.ofFn fun k : Fin (n + 1) => es (k * dt)
  let om' := List.ofFn fun k : Fin (n + 1) => Jm (k * dt)
  let os' := List.ofFn fun k : Fin (n + 1) => Js (k * dt)
  have asf : ∀ {E : Type} [Zero E] (f : ℝ → E) (k : ℕ), k ≤ n → asFun (List.ofFn fun k : Fin (n + 1) => f (k * dt)) k = f (k * dt) := by
    intro E _ f k hk
    rw [asFun_eq (by rw [List.length_ofFn]; omega), List.getElem_ofFn]
  have hmem : ∀ k ≤ n, (k : ℝ) * dt ∈ Icc 0 T := fun k hk => ⟨by positivity, by rw [← hn]; gcongr⟩
  have hnA : ∀ k ≤ n, ‖asFun A k‖ ≤ α := fun k hk => by rw [asf a k hk]; exact hα _ (hmem k hk)
  have hnm : ∀ k ≤ n, ‖asFun em' k‖ ≤ γ1 := fun k hk => by rw [asf em k hk]; exact hγ1 _ (hmem k hk)
  have hns : ∀ k ≤ n, ‖asFun es' k‖ ≤ γ2 := fun k hk => by rw [asf es k hk]; exact hγ2 _ (hmem k hk)
  have hTs : ∀ k ≤ n, T - (k : ℝ) * dt = ((n - k : ℕ) : ℝ) * dt := fun k hk => by
    rw [Nat.cast_sub hk, ← hn]; ring
  have hgt : ∀ k < n, T - (k : ℝ) * dt ∈ Ioc 0 T := fun k hk => by
    rw [hTs k hk.le]
    refine ⟨?_, (hmem (n - k) (by omega)).2⟩
    have : 0 < ((n - k : ℕ) : ℝ) := by exact_mod_cast (by omega : 0 < n - k)
    positivity
  have hom : ∀ k < n, ‖asFun om' k‖ ≤ j1 := fun k hk => by
    rw [asf Jm k hk.le]
    have := hj1 _ (hgt k hk)
    simpa using this
  have hos : ∀ k < n, ‖asFun os' k‖ ≤ j2 := fun k hk => by
    rw [asf Js k hk.le]
    have := hj2 _ (hgt k hk)
    simpa using this
  -- no jumps inside a step
  have hno : ∀ k < n, ∀ t ∈ Ioo (k * dt) ((k + 1 : ℕ) * dt), ¬ (Jm (T - t) ≠ 0 ∨ Js (T - t) ≠ 0) := by
    intro k hk t ht hne
    have ht1 : ((k + 1 : ℕ) : ℝ) * dt ≤ T := by rw [← hn]; gcongr; omega
    have ht0 : 0 ≤ (k : ℝ) * dt := by positivity
    obtain ⟨j, hj⟩ := hgrid (T - t) ⟨by linarith [ht.2], by linarith [ht.1]⟩ hne
    have e : t = ((n : ℝ) - j) * dt := by rw [← hn] at hj; linarith
    rw [e] at ht
    have l1 := lt_of_mul_lt_mul_right ht.1 hdt.le
    have l2 := lt_of_mul_lt_mul_right ht.2 hdt.le
    have l1' : (k : ℤ) < n - j := by exact_mod_cast (by push_cast; linarith : ((k : ℤ) : ℝ) < ((n - j : ℤ) : ℝ))
    have l2' : (n - j : ℤ) < (k + 1 : ℕ) := by exact_mod_cast (by push_cast; push_cast at l2; linarith : ((n - j : ℤ) : ℝ) < (((k + 1 : ℕ) : ℤ) : ℝ))
    push_cast at l2'
    omega
  have hl : em'.length = n + 1 := List.length_ofFn
  let x := traj (0 : V × W) (fun k => bwdStepR meth M dt (asFun A) (asFun em') (asFun es') (asFun om') (asFun os') (n - k))
  refine ⟨fun k => (x (n - k)).1, fun k => (x (n - k)).2, ?_, ?_⟩
  · rw [solveBwdR_ok meth M dt A em' es' om' os' (by
      right
      simp only [A, em', es', om', os', List.length_ofFn]
      omega)]
    rw [hl]
    refine congrArg Except.ok (congrArg₂ Prod.mk ?_ ?_) <;>
    · apply List.ext_getElem (by rw [List.length_map, List.length_range, List.length_ofFn])
      intro i h1 h2
      rw [List.getElem_map, List.getElem_range, List.getElem_ofFn]
      rfl
  · have hstep : ∀ k < n, n - (k + 1) = n - k - 1 := fun k _ => by omega
    have exa : ∀ {A E : ℝ} {w : W}, 0 ≤ A → 0 ≤ E → ‖w‖ ≤ α → Near u (α + A) (3 * α + E) w w := fun hA hE h =>
      (Near.refl h).mono hu0 (by linarith) (by linarith)
    have mida : ∀ {A E : ℝ} {w w' : W}, 0 ≤ A → 0 ≤ E → ‖w‖ ≤ α → ‖w'‖ ≤ α → Near u (α + A) (3 * α + E) (M.w.mid w w') ((0.5 : ℝ) • (w + w')) :=
      fun hA hE h h' => (hM.w.near_mid hu0 hu1 h h').mono hu0 (by linarith) (by linarith)
    have k1 := h1 meth dt u n (fun k => (x k).1) hdt (hδ.trans_le ((min_le_left _ _).trans (min_le_left _ _))) hu0
      (huδ.trans_le (by gcongr; exact (min_le_left _ _).trans (min_le_left _ _))) hn.le (by simp [x, traj, hlamT])
      (fun k hk t ht => by by_contra h; exact hno k hk t ht (.inl h)) (by
        intro k hk r hr
        have rn := fun {A E : ℝ} {ah a ch c xh x} => rhs_near (fh := fun a c x => M.rhs.fun_lam c a x) (f := fun a c x => F.fun_lam c a x)
          (α := α) (γ := γ1) (A := A) (E := E) (ah := ah) (a := a) (ch := ch) (c := c) (xh := xh) (x := x) hF.nonneg hκ hu0 hu1
          (by simp only [hF.lam_eq]; exact (affLike hF.lam_le).neg) (fun a c x => hM.lam c a x)
        have exb : ∀ {v : V}, ‖v‖ ≤ γ1 → Near u γ1 (3 * γ1) v v := fun h => (Near.refl h).mono hu0 le_rfl (by linarith)
        have i0 : n - k ≤ n := by omega
        have i1 : n - k - 1 ≤ n := by omega
        have i2 : n - k - 1 < n := by omega
        have key := (hM.v.addPair.near hu0 hu1 (hE1 r meth u M.mul M.v M.v.sub (fun x y => x - y) dt _ _ _ _
          (fun l => F.fun_lam (asFun em' (n - k)) (asFun A (n - k)) l)
          (fun l => F.fun_lam ((0.5 : ℝ) • (asFun em' (n - k - 1) + asFun em' (n - k))) ((0.5 : ℝ) • (asFun A (n - k - 1) + asFun A (n - k))) l)
          (fun l => F.fun_lam (asFun em' (n - k - 1)) (asFun A (n - k - 1)) l) (fun l => F.fun_lam (asFun em' (n - k)) (asFun A (n - k)) l) _
          hu0 hu1 hdta hM.mul hM.v hM.v.subPair
          (fun A E xh x hx => rn (exa hx.nonneg hx.1 (hnA _ i0)) (exb (hnm _ i0)) hx)
          (fun A E xh x hx => rn (mida hx.nonneg hx.1 (hnA _ i1) (hnA _ i0)) (hM.v.near_mid hu0 hu1 (hnm _ i1) (hnm _ i0)) hx)
          (fun A E xh x hx => rn (exa hx.nonneg hx.1 (hnA _ i1)) (exb (hnm _ i1)) hx)
          (fun A E xh x hx => rn (exa hx.nonneg hx.1 (hnA _ i0)) (exb (hnm _ i0)) hx) hr) (Near.refl (hom _ i2))).2.2
        have ex : (fun x y => x + y) (stepR meth (fun x y => x * y) (exactOps V) (fun x y => x - y) dt
            (fun l => F.fun_lam (asFun em' (n - k)) (asFun A (n - k)) l)
            (fun l => F.fun_lam ((0.5 : ℝ) • (asFun em' (n - k - 1) + asFun em' (n - k))) ((0.5 : ℝ) • (asFun A (n - k - 1) + asFun A (n - k))) l)
            (fun l => F.fun_lam (asFun em' (n - k - 1)) (asFun A (n - k - 1)) l) (fun l => F.fun_lam (asFun em' (n - k)) (asFun A (n - k)) l) (x k).1)
              (asFun om' (n - k - 1)) = (bwdStep meth F dt (asFun A) (asFun em') (asFun es') (asFun om') (asFun os') (n - k) (x k)).1 := by
          rw [← bwdStepR_exact]; rfl
        beta_reduce at ex
        rw [ex, bwdStep_lam F hF] at key
        show ‖(bwdStepR meth M dt (asFun A) (asFun em') (asFun es') (asFun om') (asFun os') (n - k) (x k)).1 - _‖ ≤ _
        rw [hTs k hk.le, hTs (k + 1) hk, hstep k hk, ← asf a (n - k) i0, ← asf a (n - k - 1) i1, ← asf em (n - k) i0, ← asf em (n - k - 1) i1,
          ← asf Jm (n - k - 1) i1]
        exact key)
    have k2 := h2 meth dt u n (fun k => (x k).2) hdt (hδ.trans_le ((min_le_left _ _).trans (min_le_right _ _))) hu0
      (huδ.trans_le (by gcongr; exact (min_le_left _ _).trans (min_le_right _ _))) hn.le (by simp [x, traj, hpsiT])
      (fun k hk t ht => by by_contra h; exact hno k hk t ht (.inr h)) (by
        intro k hk r hr
        have rn := fun {A E : ℝ} {ah a ch c xh x} => rhs_near (fh := fun a c x => M.rhs.fun_psi c a x) (f := fun a c x => F.fun_psi c a x)
          (α := α) (γ := γ2) (A := A) (E := E) (ah := ah) (a := a) (ch := ch) (c := c) (xh := xh) (x := x) hF.nonneg hκ hu0 hu1
          (by simp only [hF.psi_eq]; exact (affLike hF.psi_le).neg) (fun a c x => hM.psi c a x)
        have exb : ∀ {v : W}, ‖v‖ ≤ γ2 → Near u γ2 (3 * γ2) v v := fun h => (Near.refl h).mono hu0 le_rfl (by linarith)
        have i0 : n - k ≤ n := by omega
        have i1 : n - k - 1 ≤ n := by omega
        have i2 : n - k - 1 < n := by omega
        have key := (hM.w.addPair.near hu0 hu1 (hE2 r meth u M.mul M.w M.w.sub (fun x y => x - y) dt _ _ _ _
          (fun l => F.fun_psi (asFun es' (n - k)) (asFun A (n - k)) l)
          (fun l => F.fun_psi ((0.5 : ℝ) • (asFun es' (n - k - 1) + asFun es' (n - k))) ((0.5 : ℝ) • (asFun A (n - k - 1) + asFun A (n - k))) l)
          (fun l => F.fun_psi (asFun es' (n - k - 1)) (asFun A (n - k - 1)) l) (fun l => F.fun_psi (asFun es' (n - k)) (asFun A (n - k)) l) _
          hu0 hu1 hdta hM.mul hM.w hM.w.subPair
          (fun A E xh x hx => rn (exa hx.nonneg hx.1 (hnA _ i0)) (exb (hns _ i0)) hx)
          (fun A E xh x hx => rn (mida hx.nonneg hx.1 (hnA _ i1) (hnA _ i0)) (hM.w.near_mid hu0 hu1 (hns _ i1) (hns _ i0)) hx)
          (fun A E xh x hx => rn (exa hx.nonneg hx.1 (hnA _ i1)) (exb (hns _ i1)) hx)
          (fun A E xh x hx => rn (exa hx.nonneg hx.1 (hnA _ i0)) (exb (hns _ i0)) hx) hr) (Near.refl (hos _ i2))).2.2
        have ex : (fun x y => x + y) (stepR meth (fun x y => x * y) (exactOps W) (fun x y => x - y) dt
            (fun l => F.fun_psi (asFun es' (n - k)) (asFun A (n - k)) l)
            (fun l => F.fun_psi ((0.5 : ℝ) • (asFun es' (n - k - 1) + asFun es' (n - k))) ((0.5 : ℝ) • (asFun A (n - k - 1) + asFun A (n - k))) l)
            (fun l => F.fun_psi (asFun es' (n - k - 1)) (asFun A (n - k - 1)) l) (fun l => F.fun_psi (asFun es' (n - k)) (asFun A (n - k)) l) (x k).2)
              (asFun os' (n - k - 1)) = (bwdStep meth F dt (asFun A) (asFun em') (asFun es') (asFun om') (asFun os') (n - k) (x k)).2 := by
          rw [← bwdStepR_exact]; rfl
        beta_reduce at ex
        rw [ex, bwdStep_psi F hF] at key
        show ‖(bwdStepR meth M dt (asFun A) (asFun em') (asFun es') (asFun om') (asFun os') (n - k) (x k)).2 - _‖ ≤ _
        rw [hTs k hk.le, hTs (k + 1) hk, hstep k hk, ← asf a (n - k) i0, ← asf a (n - k - 1) i1, ← asf es (n - k) i0, ← asf es (n - k - 1) i1,
          ← asf Js (n - k - 1) i1]
        exact key)
    intro k hk
    have e : T - ((n - k : ℕ) : ℝ) * dt = k * dt := by rw [Nat.cast_sub hk, ← hn]; ring
    have j1 := k1 (n - k) (by omega)
    have j2 := k2 (n - k) (by omega)
    rw [e] at j1 j2
    exact ⟨j1.trans (by gcongr; exact le_max_left _ _), j2.trans (by gcongr; exact le_max_right _ _)⟩

end bwd

/-! ## The machines of the code -/

theorem ops1_near {R : Floats} {u : ℝ} (h : R.Accurate u) : OpsNear R.ops1 u where
  add x y := h.rnd _
  sub x y := h.rnd _
  smul c x := h.rnd _
  sdiv x c := by
    show |R.rnd (x / c) - c⁻¹ * x| ≤ u * |c⁻¹ * x|
    rw [show c⁻¹ * x = x / c by ring]
    exact h.rnd _

theorem opsV_near {R : Floats} {u : ℝ} (hu : 0 ≤ u) (h : R.Accurate u) (d : ℕ) : OpsNear (R.opsV d) u where
  add x y := (pi_norm_le_iff_of_nonneg (by positivity)).2 fun i => (h.rnd _).trans (mul_le_mul_of_nonneg_left (norm_le_pi_norm (x + y) i) hu)
  sub x y := (pi_norm_le_iff_of_nonneg (by positivity)).2 fun i => (h.rnd _).trans (mul_le_mul_of_nonneg_left (norm_le_pi_norm (x - y) i) hu)
  smul c x := (pi_norm_le_iff_of_nonneg (by positivity)).2 fun i => (h.rnd _).trans (mul_le_mul_of_nonneg_left (norm_le_pi_norm (c • x) i) hu)
  sdiv x c := (pi_norm_le_iff_of_nonneg (by positivity)).2 fun i => by
    show |R.rnd (x i / c) - c⁻¹ * x i| ≤ _
    rw [show c⁻¹ * x i = x i / c by ring]
    refine (h.rnd _).trans (mul_le_mul_of_nonneg_left ?_ hu)
    rw [show x i / c = (c⁻¹ • x) i by simp [div_eq_inv_mul]]
    exact norm_le_pi_norm (c⁻¹ • x) i

theorem machine1_near {R : Floats} {u : ℝ} (hu0 : 0 ≤ u) (hu1 : u ≤ 1) (h : R.Accurate u) : MachineNear R.machine1 rhs1 20 u := by
  have r2 : ∀ p q x : ℝ, |p - q| ≤ x * u → |R.rnd p - q| ≤ (|q| + 2 * x) * u := fun p q x hpq => by
    have h0 : 0 ≤ x * u := (abs_nonneg _).trans hpq
    have h1 := h.rnd p
    have h2 : |p| ≤ |q| + |p - q| := by simpa using abs_add_le q (p - q)
    have h3 : |R.rnd p - q| ≤ |R.rnd p - p| + |p - q| := by simpa using abs_add_le (R.rnd p - p) (p - q)
    have h4 : u * |p| ≤ u * (|q| + x * u) := by gcongr; linarith
    have h5 : u * (x * u) ≤ 1 * (x * u) := by gcongr
    nlinarith
  have r1 : ∀ p : ℝ, |R.rnd p - p| ≤ |p| * u := fun p => by rw [mul_comm]; exact h.rnd p
  refine ⟨fun x y => h.rnd _, ops1_near h, ops1_near h, fun m a b => ?_, fun s a c => ?_, fun e a l => ?_, fun e a p => ?_⟩
  · show |R.rnd (-(R.rnd (a * m)) + b) - (-(a * m) + b)| ≤ 20 * u * (|a| * |m| + |b|)
    have h1 := r1 (a * m)
    have h2 := r2 (-(R.rnd (a * m)) + b) (-(a * m) + b) (|a * m|) (by
      rw [show -(R.rnd (a * m)) + b - (-(a * m) + b) = -(R.rnd (a * m) - a * m) by ring, abs_neg]; exact h1)
    have h3 : |-(a * m) + b| ≤ |a * m| + |b| := by rw [← abs_neg (a * m)]; exact abs_add_le _ _
    have := abs_nonneg (a * m)
    have := abs_nonneg b
    have h4 : (|-(a * m) + b| + 2 * |a * m|) * u ≤ (20 * (|a * m| + |b|)) * u := by gcongr; linarith
    rw [← abs_mul]
    linarith
  · show |R.rnd (-(R.rnd (R.rnd (2 * a) * s)) + c) - (-(2 * a * s) + c)| ≤ 20 * u * (|a| * |s| + |c|)
    have h0 : |R.rnd (2 * a) * s - 2 * a * s| ≤ |2 * a * s| * u := by
      rw [← sub_mul, abs_mul, abs_mul (2 * a) s]
      calc _ ≤ (|2 * a| * u) * |s| := by gcongr; exact r1 _
        _ = _ := by ring
    have h1 := r2 _ _ _ h0
    have h2 := r2 (-(R.rnd (R.rnd (2 * a) * s)) + c) (-(2 * a * s) + c) (|2 * a * s| + 2 * |2 * a * s|) (by
      rw [show -(R.rnd (R.rnd (2 * a) * s)) + c - (-(2 * a * s) + c) = -(R.rnd (R.rnd (2 * a) * s) - 2 * a * s) by ring, abs_neg]; exact h1)
    have h3 : |-(2 * a * s) + c| ≤ |2 * a * s| + |c| := by rw [← abs_neg (2 * a * s)]; exact abs_add_le _ _
    have e : |2 * a * s| = 2 * (|a| * |s|) := by rw [abs_mul, abs_mul, abs_two]; ring
    have : 0 ≤ |a| * |s| := by positivity
    have := abs_nonneg c
    have h4 : (|-(2 * a * s) + c| + 2 * (|2 * a * s| + 2 * |2 * a * s|)) * u ≤ (20 * (|a| * |s| + |c|)) * u := by gcongr; linarith
    linarith
  · show |R.rnd (-e + R.rnd (l * a)) - (-e + l * a)| ≤ 20 * u * (|a| * |l| + |e|)
    have h1 := r1 (l * a)
    have h2 := r2 (-e + R.rnd (l * a)) (-e + l * a) (|l * a|) (by
      rw [show -e + R.rnd (l * a) - (-e + l * a) = R.rnd (l * a) - l * a by ring]; exact h1)
    have h3 : |-e + l * a| ≤ |e| + |l * a| := by rw [← abs_neg e]; exact abs_add_le _ _
    have := abs_nonneg (l * a)
    have := abs_nonneg e
    have h4 : (|-e + l * a| + 2 * |l * a|) * u ≤ (20 * (|l * a| + |e|)) * u := by gcongr; linarith
    rw [← abs_mul, mul_comm a l]
    linarith
  · show |R.rnd (-e + R.rnd (R.rnd (2 * p) * a)) - (-e + 2 * p * a)| ≤ 20 * u * (|a| * |p| + |e|)
    have h0 : |R.rnd (2 * p) * a - 2 * p * a| ≤ |2 * p * a| * u := by
      rw [← sub_mul, abs_mul, abs_mul (2 * p) a]
      calc _ ≤ (|2 * p| * u) * |a| := by gcongr; exact r1 _
        _ = _ := by ring
    have h1 := r2 _ _ _ h0
    have h2 := r2 (-e + R.rnd (R.rnd (2 * p) * a)) (-e + 2 * p * a) (|2 * p * a| + 2 * |2 * p * a|) (by
      rw [show -e + R.rnd (R.rnd (2 * p) * a) - (-e + 2 * p * a) = R.rnd (R.rnd (2 * p) * a) - 2 * p * a by ring]; exact h1)
    have h3 : |-e + 2 * p * a| ≤ |e| + |2 * p * a| := by rw [← abs_neg e]; exact abs_add_le _ _
    have e' : |2 * p * a| = 2 * (|a| * |p|) := by rw [abs_mul, abs_mul, abs_two]; ring
    have : 0 ≤ |a| * |p| := by positivity
    have := abs_nonneg e
    have h4 : (|-e + 2 * p * a| + 2 * (|2 * p * a| + 2 * |2 * p * a|)) * u ≤ (20 * (|a| * |p| + |e|)) * u := by gcongr; linarith
    linarith

section matrices

attribute [local instance] Matrix.normedAddCommGroup Matrix.normedSpace

theorem opsM_near {R : Floats} {u : ℝ} (hu : 0 ≤ u) (h : R.Accurate u) (d : ℕ) : OpsNear (R.opsM d) u where
  add x y := (Matrix.norm_le_iff (by positivity)).2 fun i j =>
    (h.rnd _).trans (mul_le_mul_of_nonneg_left (Matrix.norm_entry_le_entrywise_sup_norm (x + y) (i := i) (j := j)) hu)
  sub x y := (Matrix.norm_le_iff (by positivity)).2 fun i j =>
    (h.rnd _).trans (mul_le_mul_of_nonneg_left (Matrix.norm_entry_le_entrywise_sup_norm (x - y) (i := i) (j := j)) hu)
  smul c x := (Matrix.norm_le_iff (by positivity)).2 fun i j =>
    (h.rnd _).trans (mul_le_mul_of_nonneg_left (Matrix.norm_entry_le_entrywise_sup_norm (c • x) (i := i) (j := j)) hu)
  sdiv x c := (Matrix.norm_le_iff (by positivity)).2 fun i j => by
    show |R.rnd (x i j / c) - c⁻¹ * x i j| ≤ _
    rw [show c⁻¹ * x i j = x i j / c by ring]
    refine (h.rnd _).trans (mul_le_mul_of_nonneg_left ?_ hu)
    rw [show x i j / c = (c⁻¹ • x) i j by simp [div_eq_inv_mul]]
    exact Matrix.norm_entry_le_entrywise_sup_norm (c⁻¹ • x)

theorem pow_sub_one_le {u : ℝ} (hu0 : 0 ≤ u) (hu1 : u ≤ 1) (d : ℕ) : (1 + u) ^ d - 1 ≤ 2 ^ d * u := by
  induction d with
  | zero => simpa using hu0
  | succ d ih =>
    have h1 : (1 : ℝ) ≤ 2 ^ d := one_le_pow₀ one_le_two
    have h2 : (1 + u) ^ d ≤ 2 ^ d := pow_le_pow_left₀ (by linarith) (by linarith) d
    rw [pow_succ, pow_succ]
    nlinarith [mul_le_mul_of_nonneg_right h2 hu0]

/-- An inner product of vectors with entries of sizes at most `A`, `B`. -/
theorem dot_near {R : Floats} {u : ℝ} (hu0 : 0 ≤ u) (hu1 : u ≤ 1) (h : R.Accurate u) {d : ℕ} {x y : Fin d → ℝ} {A B : ℝ} (hA : 0 ≤ A)
    (hx : ∀ i, |x i| ≤ A) (hy : ∀ i, |y i| ≤ B) :
    |R.dot x y - ∑ i, x i * y i| ≤ 2 ^ d * d * (A * B) * u ∧ |∑ i, x i * y i| ≤ d * (A * B) := by
  have hs : ∑ i, |x i * y i| ≤ d * (A * B) := by
    calc _ ≤ ∑ _i : Fin d, A * B := Finset.sum_le_sum fun i _ => by
          rw [abs_mul]; exact mul_le_mul (hx i) (hy i) (abs_nonneg _) hA
      _ = _ := by simp
  refine ⟨?_, (Finset.abs_sum_le_sum_abs _ _).trans hs⟩
  calc _ ≤ ((1 + u) ^ d - 1) * ∑ i, |x i * y i| := h.dot d x y
    _ ≤ (2 ^ d * u) * (d * (A * B)) := mul_le_mul (pow_sub_one_le hu0 hu1 d) hs (Finset.sum_nonneg fun i _ => abs_nonneg _) (by positivity)
    _ = _ := by ring

/-- The constant of `machineN_near`. -/
def kappaN (d : ℕ) : ℝ := 20 * (1 + 2 ^ d * d + d)

theorem machineN_near {R : Floats} {u : ℝ} (hu0 : 0 ≤ u) (hu1 : u ≤ 1) (h : R.Accurate u) (d : ℕ) : MachineNear (R.machineN d) (rhsN d) (kappaN d) u := by
  have r2 : ∀ p q x : ℝ, |p - q| ≤ x * u → |R.rnd p - q| ≤ (|q| + 2 * x) * u := fun p q x hpq => by
    have h0 : 0 ≤ x * u := (abs_nonneg _).trans hpq
    have h1 := h.rnd p
    have h2 : |p| ≤ |q| + |p - q| := by simpa using abs_add_le q (p - q)
    have h3 : |R.rnd p - q| ≤ |R.rnd p - p| + |p - q| := by simpa using abs_add_le (R.rnd p - p) (p - q)
    have h4 : u * |p| ≤ u * (|q| + x * u) := by gcongr; linarith
    have h5 : u * (x * u) ≤ 1 * (x * u) := by gcongr
    nlinarith
  have ent : ∀ (x : Matrix (Fin d) (Fin d) ℝ) i j, |x i j| ≤ ‖x‖ := fun x i j => Matrix.norm_entry_le_entrywise_sup_norm x
  have entv : ∀ (x : Fin d → ℝ) i, |x i| ≤ ‖x‖ := fun x i => norm_le_pi_norm x i
  have hκ : 0 ≤ kappaN d := by unfold kappaN; positivity
  have hP : 0 ≤ (2 : ℝ) ^ d * d := by positivity
  have hd : (0 : ℝ) ≤ d := by positivity
  refine ⟨fun x y => h.rnd _, opsV_near hu0 h d, opsM_near hu0 h d, fun m a b => ?_, fun s a c => ?_, fun e a l => ?_, fun e a p => ?_⟩
  · refine (pi_norm_le_iff_of_nonneg (by positivity)).2 fun i => ?_
    show |R.rnd (-(R.dot (a i) m) + b i) - (-(∑ j, a i j * m j) + b i)| ≤ _
    obtain ⟨d1, d2⟩ := dot_near hu0 hu1 h (norm_nonneg a) (ent a i) (entv m)
    have h2 := r2 (-(R.dot (a i) m) + b i) (-(∑ j, a i j * m j) + b i) (2 ^ d * d * (‖a‖ * ‖m‖)) (by
      rw [show -(R.dot (a i) m) + b i - (-(∑ j, a i j * m j) + b i) = -(R.dot (a i) m - ∑ j, a i j * m j) by ring, abs_neg]; exact d1)
    have h3 : |-(∑ j, a i j * m j) + b i| ≤ d * (‖a‖ * ‖m‖) + ‖b‖ := by
      refine (abs_add_le _ _).trans (add_le_add ?_ (entv b i)); rw [abs_neg]; exact d2
    have n1 : 0 ≤ ‖a‖ * ‖m‖ := by positivity
    have n2 := norm_nonneg b
    have h4 : (|-(∑ j, a i j * m j) + b i| + 2 * (2 ^ d * d * (‖a‖ * ‖m‖))) * u ≤ (kappaN d * (‖a‖ * ‖m‖ + ‖b‖)) * u := by
      gcongr
      unfold kappaN
      nlinarith [mul_nonneg hP n1, mul_nonneg hd n1, mul_nonneg hP n2, mul_nonneg hd n2]
    linarith
  · refine (Matrix.norm_le_iff (by positivity)).2 fun i j => ?_
    show |R.rnd (R.rnd (-(R.dot (a i) fun k => s k j) - R.dot (s i) (a j)) + c i j) - (-(∑ k, a i k * s k j) - (∑ k, s i k * a j k) + c i j)| ≤ _
    obtain ⟨d1, d2⟩ := dot_near (y := fun k => s k j) hu0 hu1 h (norm_nonneg a) (ent a i) (fun k => ent s k j)
    obtain ⟨d3, d4⟩ := dot_near hu0 hu1 h (norm_nonneg s) (ent s i) (ent a j)
    rw [mul_comm ‖s‖] at d3 d4
    have h1 := r2 (-(R.dot (a i) fun k => s k j) - R.dot (s i) (a j)) (-(∑ k, a i k * s k j) - (∑ k, s i k * a j k))
      (2 ^ d * d * (‖a‖ * ‖s‖) + 2 ^ d * d * (‖a‖ * ‖s‖)) (by
        rw [show -(R.dot (a i) fun k => s k j) - R.dot (s i) (a j) - (-(∑ k, a i k * s k j) - (∑ k, s i k * a j k))
          = -((R.dot (a i) fun k => s k j) - ∑ k, a i k * s k j) + -(R.dot (s i) (a j) - ∑ k, s i k * a j k) by ring, add_mul]
        refine (abs_add_le _ _).trans (add_le_add ?_ ?_) <;> rw [abs_neg] <;> assumption)
    have h0 : |-(∑ k, a i k * s k j) - (∑ k, s i k * a j k)| ≤ d * (‖a‖ * ‖s‖) + d * (‖a‖ * ‖s‖) := by
      refine (abs_sub _ _).trans (add_le_add ?_ d4); rw [abs_neg]; exact d2
    have h2 := r2 (R.rnd (-(R.dot (a i) fun k => s k j) - R.dot (s i) (a j)) + c i j) (-(∑ k, a i k * s k j) - (∑ k, s i k * a j k) + c i j) _ (by
      rw [add_sub_add_right_eq_sub]; exact h1)
    have h3 : |-(∑ k, a i k * s k j) - (∑ k, s i k * a j k) + c i j| ≤ d * (‖a‖ * ‖s‖) + d * (‖a‖ * ‖s‖) + ‖c‖ :=
      (abs_add_le _ _).trans (add_le_add h0 (ent c i j))
    have n1 : 0 ≤ ‖a‖ * ‖s‖ := by positivity
    have n2 := norm_nonneg c
    refine h2.trans ?_
    rw [show kappaN d * u * (‖a‖ * ‖s‖ + ‖c‖) = (kappaN d * (‖a‖ * ‖s‖ + ‖c‖)) * u by ring]
    gcongr
    unfold kappaN
    nlinarith [mul_nonneg hP n1, mul_nonneg hd n1, mul_nonneg hP n2, mul_nonneg hd n2]
  · refine (pi_norm_le_iff_of_nonneg (by positivity)).2 fun i => ?_
    show |R.rnd (-e i + R.dot l (a i)) - (-e i + ∑ j, l j * a i j)| ≤ _
    obtain ⟨d1, d2⟩ := dot_near hu0 hu1 h (norm_nonneg l) (entv l) (ent a i)
    rw [mul_comm ‖l‖] at d1 d2
    have h2 := r2 (-e i + R.dot l (a i)) (-e i + ∑ j, l j * a i j) (2 ^ d * d * (‖a‖ * ‖l‖)) (by
      rw [add_sub_add_left_eq_sub]; exact d1)
    have h3 : |-e i + ∑ j, l j * a i j| ≤ ‖e‖ + d * (‖a‖ * ‖l‖) := by
      refine (abs_add_le _ _).trans (add_le_add ?_ d2); rw [abs_neg]; exact entv e i
    have n1 : 0 ≤ ‖a‖ * ‖l‖ := by positivity
    have n2 := norm_nonneg e
    refine h2.trans ?_
    rw [show kappaN d * u * (‖a‖ * ‖l‖ + ‖e‖) = (kappaN d * (‖a‖ * ‖l‖ + ‖e‖)) * u by ring]
    gcongr
    unfold kappaN
    nlinarith [mul_nonneg hP n1, mul_nonneg hd n1, mul_nonneg hP n2, mul_nonneg hd n2]
  · refine (Matrix.norm_le_iff (by positivity)).2 fun i j => ?_
    show |R.rnd (R.rnd (-e i j + R.dot (p i) fun k => a k j) + R.dot (fun k => a k i) fun k => p k j) - (-e i j + (∑ k, p i k * a k j) + ∑ k, a k i * p k j)| ≤ _
    obtain ⟨d1, d2⟩ := dot_near (y := fun k => a k j) hu0 hu1 h (norm_nonneg p) (ent p i) (fun k => ent a k j)
    obtain ⟨d3, d4⟩ := dot_near (x := fun k => a k i) (y := fun k => p k j) hu0 hu1 h (norm_nonneg a) (fun k => ent a k i) (fun k => ent p k j)
    rw [mul_comm ‖p‖] at d1 d2
    have h1 := r2 (-e i j + R.dot (p i) fun k => a k j) (-e i j + ∑ k, p i k * a k j) (2 ^ d * d * (‖a‖ * ‖p‖)) (by
      rw [add_sub_add_left_eq_sub]; exact d1)
    have h0 : |-e i j + ∑ k, p i k * a k j| ≤ ‖e‖ + d * (‖a‖ * ‖p‖) := by
      refine (abs_add_le _ _).trans (add_le_add ?_ d2); rw [abs_neg]; exact ent e i j
    have h2 := r2 (R.rnd (-e i j + R.dot (p i) fun k => a k j) + R.dot (fun k => a k i) fun k => p k j)
      (-e i j + (∑ k, p i k * a k j) + ∑ k, a k i * p k j) (|-e i j + ∑ k, p i k * a k j| + 2 * (2 ^ d * d * (‖a‖ * ‖p‖)) + 2 ^ d * d * (‖a‖ * ‖p‖)) (by
      rw [add_sub_add_comm, add_mul]
      exact (abs_add_le _ _).trans (add_le_add h1 d3))
    have h3 : |-e i j + (∑ k, p i k * a k j) + ∑ k, a k i * p k j| ≤ ‖e‖ + d * (‖a‖ * ‖p‖) + d * (‖a‖ * ‖p‖) :=
      (abs_add_le _ _).trans (add_le_add h0 d4)
    have n1 : 0 ≤ ‖a‖ * ‖p‖ := by positivity
    have n2 := norm_nonneg e
    refine h2.trans ?_
    rw [show kappaN d * u * (‖a‖ * ‖p‖ + ‖e‖) = (kappaN d * (‖a‖ * ‖p‖ + ‖e‖)) * u by ring]
    gcongr
    unfold kappaN
    nlinarith [mul_nonneg hP n1, mul_nonneg hd n1, mul_nonneg hP n2, mul_nonneg hd n2]

/-! ## C115 -/

/-- C115 in one dimension. The functions and the grid are as in C106, and the sweep runs in rounded arithmetic with unit roundoff `u`. For small `dt`
and `u / dt`, all four methods return means and variances that differ from the solutions of the equations by at most a constant times
`dt + u / dt`. -/
theorem C115_converges_1D (T L sigma : ℝ) (hT : 0 ≤ T) (a b m S : ℝ → ℝ)
    (ha : ∀ s ∈ Icc 0 T, ∀ t ∈ Icc 0 T, |a s - a t| ≤ L * |s - t|) (hb : ∀ s ∈ Icc 0 T, ∀ t ∈ Icc 0 T, |b s - b t| ≤ L * |s - t|)
    (hm : ∀ t ∈ Icc 0 T, HasDerivWithinAt m (-(a t * m t) + b t) (Icc 0 T) t)
    (hS : ∀ t ∈ Icc 0 T, HasDerivWithinAt S (-(2 * a t * S t) + sigma) (Icc 0 T) t) :
    ∃ C δ, 0 < δ ∧ ∀ (R : Floats) (u : ℝ), 0 ≤ u → R.Accurate u → ∀ (meth : Method) (dt : ℝ) (n : ℕ), 0 < dt → dt < δ → u < δ * dt → n * dt ≤ T →
      ∃ M P : ℕ → ℝ,
        R.machine1.solveFwd meth dt (List.ofFn fun k : Fin (n + 1) => a (k * dt)) (List.ofFn fun k : Fin (n + 1) => b (k * dt)) (m 0) (S 0) sigma
          = .ok (List.ofFn fun k : Fin (n + 1) => M k, List.ofFn fun k : Fin (n + 1) => P k)
        ∧ ∀ k ≤ n, |M k - m (k * dt)| ≤ C * (dt + u / dt) ∧ |P k - S (k * dt)| ≤ C * (dt + u / dt) := by
  have wk : ∀ {f : ℝ → ℝ}, (∀ s ∈ Icc 0 T, ∀ t ∈ Icc 0 T, |f s - f t| ≤ L * |s - t|) →
      ∀ s ∈ Icc 0 T, ∀ t ∈ Icc 0 T, ‖f s - f t‖ ≤ |L| * |s - t| := fun h s hs t ht =>
    (h s hs t ht).trans (mul_le_mul_of_nonneg_right (le_abs_self L) (abs_nonneg _))
  obtain ⟨C, δ, hδ, h⟩ := fwdR_converges (κ := 20) rhs1 bilin1 (by norm_num) hT (abs_nonneg L) sigma (wk ha) (wk hb) hm hS
  refine ⟨C, min δ 1, lt_min hδ one_pos, fun R u hu0 hR meth dt n hdt hd hu hn => ?_⟩
  have hu1 : u ≤ 1 := by
    have : min δ 1 * dt ≤ 1 * 1 := mul_le_mul (min_le_right _ _) (hd.le.trans (min_le_right _ _)) hdt.le zero_le_one
    linarith
  exact h R.machine1 u hu0 (machine1_near hu0 hu1 hR) meth dt n hdt (hd.trans_le (min_le_left _ _)) (hu.trans_le (by gcongr; exact min_le_left _ _)) hn

/-- C115 in `d` dimensions, entry by entry. -/
theorem C115_converges_nD (d : ℕ) (T L : ℝ) (hT : 0 ≤ T) (A : ℝ → Matrix (Fin d) (Fin d) ℝ) (b m : ℝ → Fin d → ℝ)
    (S : ℝ → Matrix (Fin d) (Fin d) ℝ) (sigma : Matrix (Fin d) (Fin d) ℝ)
    (hA : ∀ s ∈ Icc 0 T, ∀ t ∈ Icc 0 T, ∀ i j, |A s i j - A t i j| ≤ L * |s - t|)
    (hb : ∀ s ∈ Icc 0 T, ∀ t ∈ Icc 0 T, ∀ i, |b s i - b t i| ≤ L * |s - t|)
    (hm : ∀ t ∈ Icc 0 T, ∀ i, HasDerivWithinAt (fun s => m s i) ((-(A t *ᵥ m t) + b t) i) (Icc 0 T) t)
    (hS : ∀ t ∈ Icc 0 T, ∀ i j, HasDerivWithinAt (fun s => S s i j) ((-(A t * S t) - S t * (A t)ᵀ + sigma) i j) (Icc 0 T) t) :
    ∃ C δ, 0 < δ ∧ ∀ (R : Floats) (u : ℝ), 0 ≤ u → R.Accurate u → ∀ (meth : Method) (dt : ℝ) (n : ℕ), 0 < dt → dt < δ → u < δ * dt → n * dt ≤ T →
      ∃ (M : ℕ → Fin d → ℝ) (P : ℕ → Matrix (Fin d) (Fin d) ℝ),
        (R.machineN d).solveFwd meth dt (List.ofFn fun k : Fin (n + 1) => A (k * dt)) (List.ofFn fun k : Fin (n + 1) => b (k * dt)) (m 0) (S 0) sigma
          = .ok (List.ofFn fun k : Fin (n + 1) => M k, List.ofFn fun k : Fin (n + 1) => P k)
        ∧ ∀ k ≤ n, (∀ i, |M k i - m (k * dt) i| ≤ C * (dt + u / dt)) ∧ ∀ i j, |P k i j - S (k * dt) i j| ≤ C * (dt + u / dt) := by
  have hL : ∀ s t : ℝ, L * |s - t| ≤ |L| * |s - t| := fun s t => mul_le_mul_of_nonneg_right (le_abs_self L) (abs_nonneg _)
  obtain ⟨C, δ, hδ, h⟩ := fwdR_converges (κ := kappaN d) (rhsN d) (bilinN d) (by unfold kappaN; positivity) hT (abs_nonneg L) (a := A) (b := b) (m := m) (S := S) sigma
    (fun s hs t ht => (Matrix.norm_le_iff (by positivity)).2 fun i j => (hA s hs t ht i j).trans (hL s t))
    (fun s hs t ht => (pi_norm_le_iff_of_nonneg (by positivity)).2 fun i => (hb s hs t ht i).trans (hL s t))
    (fun t ht => hasDerivWithinAt_pi.2 (hm t ht))
    (fun t ht => hasDerivWithinAt_pi.2 fun i => hasDerivWithinAt_pi.2 (hS t ht i))
  refine ⟨C, min δ 1, lt_min hδ one_pos, fun R u hu0 hR meth dt n hdt hd hu hn => ?_⟩
  have hu1 : u ≤ 1 := by
    have : min δ 1 * dt ≤ 1 * 1 := mul_le_mul (min_le_right _ _) (hd.le.trans (min_le_right _ _)) hdt.le zero_le_one
    linarith
  obtain ⟨M, P, hrun, hclose⟩ := h (R.machineN d) u hu0 (machineN_near hu0 hu1 hR d) meth dt n hdt (hd.trans_le (min_le_left _ _))
    (hu.trans_le (by gcongr; exact min_le_left _ _)) hn
  refine ⟨M, P, hrun, fun k hk => ⟨fun i => ?_, fun i j => ?_⟩⟩
  · exact (norm_le_pi_norm (M k - m (k * dt)) i).trans (hclose k hk).1
  · exact (Matrix.norm_entry_le_entrywise_sup_norm (P k - S (k * dt))).trans (hclose k hk).2

/-! ## C116 -/

/-- C116 in one dimension: the backward sweep of C107 in rounded arithmetic. -/
theorem C116_converges_1D (T L : ℝ) (hT : 0 ≤ T) (a em es lam psi Jm Js : ℝ → ℝ)
    (ha : ∀ s ∈ Icc 0 T, ∀ t ∈ Icc 0 T, |a s - a t| ≤ L * |s - t|) (hem : ∀ s ∈ Icc 0 T, ∀ t ∈ Icc 0 T, |em s - em t| ≤ L * |s - t|)
    (hes : ∀ s ∈ Icc 0 T, ∀ t ∈ Icc 0 T, |es s - es t| ≤ L * |s - t|)
    (hlam : ∀ t ∈ Ioc 0 T, HasDerivWithinAt lam (-em t + lam t * a t) (Iic t) t)
    (hpsi : ∀ t ∈ Ioc 0 T, HasDerivWithinAt psi (-es t + 2 * psi t * a t) (Iic t) t)
    (hJm : ∀ t ∈ Ico 0 T, Tendsto lam (𝓝[>] t) (𝓝 (lam t - Jm t))) (hJs : ∀ t ∈ Ico 0 T, Tendsto psi (𝓝[>] t) (𝓝 (psi t - Js t)))
    (hlamT : lam T = 0) (hpsiT : psi T = 0) :
    ∃ C δ, 0 < δ ∧ ∀ (R : Floats) (u : ℝ), 0 ≤ u → R.Accurate u → ∀ (meth : Method) (dt : ℝ) (n : ℕ), 0 < dt → dt < δ → u < δ * dt → n * dt = T →
      (∀ t ∈ Ico 0 T, Jm t ≠ 0 ∨ Js t ≠ 0 → ∃ k : ℕ, t = k * dt) →
      ∃ Λ Ψ : ℕ → ℝ,
        R.machine1.solveBwd meth dt (List.ofFn fun k : Fin (n + 1) => a (k * dt)) (List.ofFn fun k : Fin (n + 1) => em (k * dt))
            (List.ofFn fun k : Fin (n + 1) => es (k * dt)) (List.ofFn fun k : Fin (n + 1) => Jm (k * dt)) (List.ofFn fun k : Fin (n + 1) => Js (k * dt))
          = .ok (List.ofFn fun k : Fin (n + 1) => Λ k, List.ofFn fun k : Fin (n + 1) => Ψ k)
        ∧ ∀ k ≤ n, |Λ k - lam (k * dt)| ≤ C * (dt + u / dt) ∧ |Ψ k - psi (k * dt)| ≤ C * (dt + u / dt) := by
  have wk : ∀ {f : ℝ → ℝ}, (∀ s ∈ Icc 0 T, ∀ t ∈ Icc 0 T, |f s - f t| ≤ L * |s - t|) →
      ∀ s ∈ Icc 0 T, ∀ t ∈ Icc 0 T, ‖f s - f t‖ ≤ |L| * |s - t| := fun h s hs t ht =>
    (h s hs t ht).trans (mul_le_mul_of_nonneg_right (le_abs_self L) (abs_nonneg _))
  obtain ⟨C, δ, hδ, h⟩ := bwdR_converges (κ := 20) rhs1 bwdBilin1 (by norm_num) hT (abs_nonneg L) (wk ha) (wk hem) (wk hes) hlam hpsi hJm hJs hlamT hpsiT
  refine ⟨C, min δ 1, lt_min hδ one_pos, fun R u hu0 hR meth dt n hdt hd hu hn hg => ?_⟩
  have hu1 : u ≤ 1 := by
    have : min δ 1 * dt ≤ 1 * 1 := mul_le_mul (min_le_right _ _) (hd.le.trans (min_le_right _ _)) hdt.le zero_le_one
    linarith
  exact h R.machine1 u hu0 (machine1_near hu0 hu1 hR) meth dt n hdt (hd.trans_le (min_le_left _ _)) (hu.trans_le (by gcongr; exact min_le_left _ _)) hn hg

/-- C116 in `d` dimensions, entry by entry. -/
theorem C116_converges_nD (d : ℕ) (T L : ℝ) (hT : 0 ≤ T) (A es psi Js : ℝ → Matrix (Fin d) (Fin d) ℝ) (em lam Jm : ℝ → Fin d → ℝ)
    (hA : ∀ s ∈ Icc 0 T, ∀ t ∈ Icc 0 T, ∀ i j, |A s i j - A t i j| ≤ L * |s - t|)
    (hem : ∀ s ∈ Icc 0 T, ∀ t ∈ Icc 0 T, ∀ i, |em s i - em t i| ≤ L * |s - t|)
    (hes : ∀ s ∈ Icc 0 T, ∀ t ∈ Icc 0 T, ∀ i j, |es s i j - es t i j| ≤ L * |s - t|)
    (hlam : ∀ t ∈ Ioc 0 T, ∀ i, HasDerivWithinAt (fun s => lam s i) ((-em t + A t *ᵥ lam t) i) (Iic t) t)
    (hpsi : ∀ t ∈ Ioc 0 T, ∀ i j, HasDerivWithinAt (fun s => psi s i j) ((-es t + psi t * A t + (A t)ᵀ * psi t) i j) (Iic t) t)
    (hJm : ∀ t ∈ Ico 0 T, ∀ i, Tendsto (fun s => lam s i) (𝓝[>] t) (𝓝 (lam t i - Jm t i)))
    (hJs : ∀ t ∈ Ico 0 T, ∀ i j, Tendsto (fun s => psi s i j) (𝓝[>] t) (𝓝 (psi t i j - Js t i j)))
    (hlamT : lam T = 0) (hpsiT : psi T = 0) :
    ∃ C δ, 0 < δ ∧ ∀ (R : Floats) (u : ℝ), 0 ≤ u → R.Accurate u → ∀ (meth : Method) (dt : ℝ) (n : ℕ), 0 < dt → dt < δ → u < δ * dt → n * dt = T →
      (∀ t ∈ Ico 0 T, Jm t ≠ 0 ∨ Js t ≠ 0 → ∃ k : ℕ, t = k * dt) →
      ∃ (Λ : ℕ → Fin d → ℝ) (Ψ : ℕ → Matrix (Fin d) (Fin d) ℝ),
        (R.machineN d).solveBwd meth dt (List.ofFn fun k : Fin (n + 1) => A (k * dt)) (List.ofFn fun k : Fin (n + 1) => em (k * dt))
            (List.ofFn fun k : Fin (n + 1) => es (k * dt)) (List.ofFn fun k : Fin (n + 1) => Jm (k * dt)) (List.ofFn fun k : Fin (n + 1) => Js (k * dt))
          = .ok (List.ofFn fun k : Fin (n + 1) => Λ k, List.ofFn fun k : Fin (n + 1) => Ψ k)
        ∧ ∀ k ≤ n, (∀ i, |Λ k i - lam (k * dt) i| ≤ C * (dt + u / dt)) ∧ ∀ i j, |Ψ k i j - psi (k * dt) i j| ≤ C * (dt + u / dt) := by
  have hL : ∀ s t : ℝ, L * |s - t| ≤ |L| * |s - t| := fun s t => mul_le_mul_of_nonneg_right (le_abs_self L) (abs_nonneg _)
  obtain ⟨C, δ, hδ, h⟩ := bwdR_converges (κ := kappaN d) (rhsN d) (bwdBilinN d) (by unfold kappaN; positivity) hT (abs_nonneg L)
    (a := A) (em := em) (es := es) (lam := lam) (psi := psi) (Jm := Jm) (Js := Js)
    (fun s hs t ht => (Matrix.norm_le_iff (by positivity)).2 fun i j => (hA s hs t ht i j).trans (hL s t))
    (fun s hs t ht => (pi_norm_le_iff_of_nonneg (by positivity)).2 fun i => (hem s hs t ht i).trans (hL s t))
    (fun s hs t ht => (Matrix.norm_le_iff (by positivity)).2 fun i j => (hes s hs t ht i j).trans (hL s t))
    (fun t ht => hasDerivWithinAt_pi.2 fun i => by
      have := hlam t ht i
      simpa only [rhsN, Matrix.vecMul_transpose] using this)
    (fun t ht => hasDerivWithinAt_pi.2 fun i => hasDerivWithinAt_pi.2 (hpsi t ht i))
    (fun t ht => tendsto_pi_nhds.2 (hJm t ht))
    (fun t ht => tendsto_pi_nhds.2 fun i => tendsto_pi_nhds.2 (hJs t ht i)) hlamT hpsiT
  refine ⟨C, min δ 1, lt_min hδ one_pos, fun R u hu0 hR meth dt n hdt hd hu hn hg => ?_⟩
  have hu1 : u ≤ 1 := by
    have : min δ 1 * dt ≤ 1 * 1 := mul_le_mul (min_le_right _ _) (hd.le.trans (min_le_right _ _)) hdt.le zero_le_one
    linarith
  obtain ⟨Λ, Ψ, hrun, hk⟩ := h (R.machineN d) u hu0 (machineN_near hu0 hu1 hR d) meth dt n hdt (hd.trans_le (min_le_left _ _))
    (hu.trans_le (by gcongr; exact min_le_left _ _)) hn hg
  refine ⟨Λ, Ψ, hrun, fun k hkn => ⟨fun i => (norm_le_pi_norm (Λ k - lam (k * dt)) i).trans (hk k hkn).1, fun i j => ?_⟩⟩
  exact (Matrix.norm_entry_le_entrywise_sup_norm (Ψ k - psi (k * dt))).trans (hk k hkn).2

end matrices

/-! Non-vacuity: binary numbers with `p` significant digits, rounding to nearest, and inner products computed from left to right; the equations of
the examples of C106 and C107. -/

/-- Round to nearest with `p` significant binary digits. -/
def roundBin (p : ℕ) (x : ℝ) : ℝ := round (x / 2 ^ (Int.log 2 |x| - p + 1)) * 2 ^ (Int.log 2 |x| - p + 1)

theorem roundBin_accurate (p : ℕ) (x : ℝ) : |roundBin p x - x| ≤ (2 ^ p)⁻¹ * |x| := by
  by_cases hx : x = 0
  · subst hx; simp [roundBin]
  have hx0 : 0 < |x| := abs_pos.2 hx
  set e := Int.log 2 |x| with he
  have hl : (2 : ℝ) ^ e ≤ |x| := by exact_mod_cast Int.zpow_log_le_self (b := 2) (by norm_num) hx0
  have hu : (0 : ℝ) < 2 ^ (e - p + 1) := by positivity
  have h1 := abs_sub_round (x / 2 ^ (e - p + 1))
  have e1 : roundBin p x - x = -((x / 2 ^ (e - p + 1) - round (x / 2 ^ (e - p + 1))) * 2 ^ (e - p + 1)) := by
    unfold roundBin
    rw [sub_mul, div_mul_cancel₀ _ hu.ne']; ring
  rw [e1, abs_neg, abs_mul, abs_of_pos hu]
  have e2 : (2 : ℝ) ^ (e - p + 1) = 2 * ((2 ^ p)⁻¹ * 2 ^ e) := by
    rw [zpow_add₀ two_ne_zero, zpow_sub₀ two_ne_zero, zpow_one, zpow_natCast]; field_simp
  refine (mul_le_mul_of_nonneg_right h1 hu.le).trans ?_
  rw [e2]
  have h3 : (2 ^ p : ℝ)⁻¹ * 2 ^ e ≤ (2 ^ p)⁻¹ * |x| := by gcongr
  linarith

/-- Left-to-right inner product. -/
def dotSeq (rnd : ℝ → ℝ) : (d : ℕ) → (Fin d → ℝ) → (Fin d → ℝ) → ℝ
  | 0, _, _ => 0
  | 1, x, y => rnd (x 0 * y 0)
  | d + 2, x, y => rnd (dotSeq rnd (d + 1) (fun i => x i.castSucc) (fun i => y i.castSucc) + rnd (x (Fin.last (d + 1)) * y (Fin.last (d + 1))))

theorem dotSeq_accurate {rnd : ℝ → ℝ} {u : ℝ} (hu : 0 ≤ u) (h : ∀ x, |rnd x - x| ≤ u * |x|) :
    ∀ (d : ℕ) (x y : Fin d → ℝ), |dotSeq rnd d x y - ∑ i, x i * y i| ≤ ((1 + u) ^ d - 1) * ∑ i, |x i * y i|
  | 0, _, _ => by simp [dotSeq]
  | 1, x, y => by simpa [dotSeq] using h (x 0 * y 0)
  | d + 2, x, y => by
    have ih := dotSeq_accurate hu h (d + 1) (fun i => x i.castSucc) (fun i => y i.castSucc)
    rw [Fin.sum_univ_castSucc, Fin.sum_univ_castSucc (n := d + 1), dotSeq]
    have hS := Finset.abs_sum_le_sum_abs (fun i : Fin (d + 1) => x i.castSucc * y i.castSucc) Finset.univ
    set s := dotSeq rnd (d + 1) (fun i => x i.castSucc) (fun i => y i.castSucc)
    set S := ∑ i : Fin (d + 1), x i.castSucc * y i.castSucc
    set T := ∑ i : Fin (d + 1), |x i.castSucc * y i.castSucc|
    set p := x (Fin.last (d + 1)) * y (Fin.last (d + 1))
    have h1 := h p
    have h2 := h (s + rnd p)
    have h3 : |s + rnd p| ≤ (|S| + |s - S|) + (|p| + |rnd p - p|) := by
      rw [show s + rnd p = (S + (s - S)) + (p + (rnd p - p)) by ring]
      exact (abs_add_le _ _).trans (add_le_add (abs_add_le _ _) (abs_add_le _ _))
    have h4 : |rnd (s + rnd p) - (S + p)| ≤ |rnd (s + rnd p) - (s + rnd p)| + |s - S| + |rnd p - p| := by
      rw [show rnd (s + rnd p) - (S + p) = (rnd (s + rnd p) - (s + rnd p)) + (s - S) + (rnd p - p) by ring]
      exact abs_add_three _ _ _
    have hg : (1 + u) ^ 2 ≤ (1 + u) ^ (d + 2) := pow_le_pow_right₀ (by linarith) (by omega)
    have hg' : (1 + u) ^ (d + 2) = (1 + u) * (1 + u) ^ (d + 1) := by ring
    have hp := abs_nonneg p
    have k1 : u * |s + rnd p| ≤ u * ((|S| + |s - S|) + (|p| + |rnd p - p|)) := by gcongr
    have k2 : u * |rnd p - p| ≤ u * (u * |p|) := by gcongr
    have k3 : u * |S| ≤ u * T := by gcongr
    have k4 : (1 + u) * |s - S| ≤ (1 + u) * (((1 + u) ^ (d + 1) - 1) * T) := by gcongr
    have k5 : (1 + u) ^ 2 * |p| ≤ (1 + u) ^ (d + 2) * |p| := by gcongr
    rw [hg'] at k5 ⊢
    nlinarith

/-- Binary arithmetic with `p` digits. -/
def binaryFloats (p : ℕ) : Floats where
  rnd := roundBin p
  dot := dotSeq (roundBin p) _

theorem binaryFloats_accurate (p : ℕ) : (binaryFloats p).Accurate (2 ^ p)⁻¹ where
  rnd := roundBin_accurate p
  dot := dotSeq_accurate (by positivity) (roundBin_accurate p)

/-- Every tolerance is met by a small enough step and enough digits. -/
theorem digits_suffice {C δ ε : ℝ} (hδ : 0 < δ) (hε : 0 < ε) :
    ∃ N : ℕ, ∀ n : ℕ, N ≤ n → 0 < n ∧ (1 / n : ℝ) < δ ∧ ∃ p : ℕ, ((2 : ℝ) ^ p)⁻¹ < δ * (1 / n) ∧ C * (1 / n + ((2 : ℝ) ^ p)⁻¹ / (1 / n)) < ε := by
  obtain ⟨N, hN⟩ := exists_nat_gt (max (max (1 / δ) (2 * |C| / ε)) 1)
  refine ⟨N, fun n hn => ?_⟩
  have hnN : (N : ℝ) ≤ n := by exact_mod_cast hn
  have h1 : 1 / δ < n := ((le_max_left _ _).trans (le_max_left _ _)).trans_lt (hN.trans_le hnN)
  have h2 : 2 * |C| / ε < n := ((le_max_right _ _).trans (le_max_left _ _)).trans_lt (hN.trans_le hnN)
  have h3 : 1 < (n : ℝ) := (le_max_right _ _).trans_lt (hN.trans_le hnN)
  have hn0 : (0 : ℝ) < n := by linarith
  refine ⟨by exact_mod_cast hn0, by rw [div_lt_iff₀ hn0]; rw [div_lt_iff₀ hδ] at h1; linarith, ?_⟩
  obtain ⟨p, hp⟩ := pow_unbounded_of_one_lt (max (n / δ) (n * n : ℝ)) one_lt_two
  have hp1 : (n : ℝ) / δ < 2 ^ p := (le_max_left _ _).trans_lt hp
  have hp2 : (n : ℝ) * n < 2 ^ p := (le_max_right _ _).trans_lt hp
  have h2p : (0 : ℝ) < 2 ^ p := by positivity
  refine ⟨p, ?_, ?_⟩
  · rw [inv_lt_iff_one_lt_mul₀ h2p]
    rw [div_lt_iff₀ hδ] at hp1
    rw [mul_one_div, div_mul_eq_mul_div, lt_div_iff₀ hn0]
    linarith
  · have k1 : ((2 : ℝ) ^ p)⁻¹ / (1 / n) ≤ 1 / n := by
      rw [div_div_eq_mul_div, div_one, inv_mul_le_iff₀ h2p, mul_one_div, le_div_iff₀ hn0]
      exact hp2.le
    have k0 : 0 ≤ 1 / (n : ℝ) + ((2 : ℝ) ^ p)⁻¹ / (1 / n) := by positivity
    calc _ ≤ |C| * (1 / n + ((2 : ℝ) ^ p)⁻¹ / (1 / n)) := mul_le_mul_of_nonneg_right (le_abs_self C) k0
      _ ≤ |C| * (1 / n + 1 / n) := by gcongr
      _ = 2 * |C| / n := by ring
      _ < ε := by
        rw [div_lt_iff₀ hn0]
        rw [div_lt_iff₀ hε] at h2
        linarith

example (ε : ℝ) (hε : 0 < ε) : ∃ n p : ℕ, 0 < n ∧ ∀ meth : Method, ∃ M P : ℕ → ℝ,
    (binaryFloats p).machine1.solveFwd meth (1 / n) (List.ofFn fun k : Fin (n + 1) => 1 / (1 + k * (1 / n)))
        (List.ofFn fun k : Fin (n + 1) => 2 - 1 / (1 + k * (1 / n))) 0 (1 + 0) 3
      = .ok (List.ofFn fun k : Fin (n + 1) => M k, List.ofFn fun k : Fin (n + 1) => P k)
    ∧ ∀ k ≤ n, |M k - k * (1 / n)| < ε ∧ |P k - (1 + k * (1 / n))| < ε := by
  obtain ⟨C, δ, hδ, h⟩ := C115_converges_1D 1 1 3 zero_le_one (fun t => 1 / (1 + t)) (fun t => 2 - 1 / (1 + t)) (fun t => t) (fun t => 1 + t)
    example_lip example_lip' example_mean example_cov
  obtain ⟨n, hn⟩ := digits_suffice (C := C) hδ hε
  obtain ⟨hn0, hnδ, p, hp, hpe⟩ := hn n le_rfl
  refine ⟨n, p, hn0, fun meth => ?_⟩
  have hn' : (0 : ℝ) < n := by exact_mod_cast hn0
  obtain ⟨M, P, hrun, hk⟩ := h (binaryFloats p) _ (by positivity) (binaryFloats_accurate p) meth (1 / n) n (by positivity) hnδ hp (by
    rw [mul_one_div, div_self hn'.ne'])
  exact ⟨M, P, hrun, fun k hkn => ⟨(hk k hkn).1.trans_lt hpe, (hk k hkn).2.trans_lt hpe⟩⟩

example (d : ℕ) (ε : ℝ) (hε : 0 < ε) : ∃ n p : ℕ, 0 < n ∧ ∀ meth : Method, ∃ (M : ℕ → Fin d → ℝ) (P : ℕ → Matrix (Fin d) (Fin d) ℝ),
    ((binaryFloats p).machineN d).solveFwd meth (1 / n) (List.ofFn fun k : Fin (n + 1) => Matrix.diagonal fun _ => 1 / (1 + k * (1 / n)))
        (List.ofFn fun k : Fin (n + 1) => fun _ => 2 - 1 / (1 + k * (1 / n))) (fun _ => 0) (Matrix.diagonal fun _ => 1 + 0) (Matrix.diagonal fun _ => 3)
      = .ok (List.ofFn fun k : Fin (n + 1) => M k, List.ofFn fun k : Fin (n + 1) => P k)
    ∧ ∀ k ≤ n, ∀ i, |M k i - k * (1 / n)| < ε := by
  obtain ⟨C, δ, hδ, h⟩ := C115_converges_nD d 1 1 zero_le_one (fun t => Matrix.diagonal fun _ => 1 / (1 + t)) (fun t _ => 2 - 1 / (1 + t)) (fun t _ => t)
    (fun t => Matrix.diagonal fun _ => 1 + t) (Matrix.diagonal fun _ => 3)
    (fun s hs t ht i j => by
      simp only [Matrix.diagonal_apply]
      split_ifs
      · exact example_lip s hs t ht
      · simp)
    (fun s hs t ht i => example_lip' s hs t ht)
    (fun t ht i => by
      have := example_mean t ht
      simp only [Pi.add_apply, Pi.neg_apply, Matrix.mulVec_diagonal]
      exact this)
    (fun t ht i j => by
      have := example_cov t ht
      rw [Matrix.diagonal_transpose, Matrix.diagonal_mul_diagonal, Matrix.diagonal_mul_diagonal]
      simp only [Matrix.add_apply, Matrix.sub_apply, Matrix.neg_apply, Matrix.diagonal_apply]
      split_ifs
      · have e : -(1 / (1 + t) * (1 + t)) - (1 + t) * (1 / (1 + t)) + 3 = -(2 * (1 / (1 + t)) * (1 + t)) + 3 := by ring
        rw [e]
        exact this
      · simpa using hasDerivWithinAt_const t (Icc (0 : ℝ) 1) (0 : ℝ))
  obtain ⟨n, hn⟩ := digits_suffice (C := C) hδ hε
  obtain ⟨hn0, hnδ, p, hp, hpe⟩ := hn n le_rfl
  refine ⟨n, p, hn0, fun meth => ?_⟩
  have hn' : (0 : ℝ) < n := by exact_mod_cast hn0
  obtain ⟨M, P, hrun, hk⟩ := h (binaryFloats p) _ (by positivity) (binaryFloats_accurate p) meth (1 / n) n (by positivity) hnδ hp (by
    rw [mul_one_div, div_self hn'.ne'])
  exact ⟨M, P, hrun, fun k hkn i => ((hk k hkn).1 i).trans_lt hpe⟩

example (ε : ℝ) (hε : 0 < ε) : ∃ n p : ℕ, 0 < n ∧ ∀ meth : Method, ∃ Λ Ψ : ℕ → ℝ,
    (binaryFloats p).machine1.solveBwd meth (1 / n) (List.ofFn fun k : Fin (n + 1) => 1 / (1 + k * (1 / n)))
        (List.ofFn fun k : Fin (n + 1) => 2 * (1 / (1 + k * (1 / n)))) (List.ofFn fun _ : Fin (n + 1) => 0)
        (List.ofFn fun k : Fin (n + 1) => if (k * (1 / n) : ℝ) = 1 / 2 then 3 * (1 + (k : ℝ) * (1 / n)) else 0)
        (List.ofFn fun k : Fin (n + 1) => if (k * (1 / n) : ℝ) = 1 / 2 then 2 * (1 + (k : ℝ) * (1 / n)) ^ 2 else 0)
      = .ok (List.ofFn fun k : Fin (n + 1) => Λ k, List.ofFn fun k : Fin (n + 1) => Ψ k)
    ∧ ∀ k ≤ n, |Λ k - ((1 - k * (1 / n)) + if (k * (1 / n) : ℝ) ≤ 1 / 2 then 3 * (1 + (k : ℝ) * (1 / n)) else 0)| < ε
      ∧ |Ψ k - (if (k * (1 / n) : ℝ) ≤ 1 / 2 then 2 * (1 + (k : ℝ) * (1 / n)) ^ 2 else 0)| < ε := by
  obtain ⟨C, δ, hδ, h⟩ := C116_converges_1D 1 2 zero_le_one (fun t => 1 / (1 + t)) (fun t => 2 * (1 / (1 + t))) (fun _ => 0)
    (fun t => (1 - t) + if t ≤ 1 / 2 then 3 * (1 + t) else 0) (fun t => if t ≤ 1 / 2 then 2 * (1 + t) ^ 2 else 0)
    (fun t => if t = 1 / 2 then 3 * (1 + t) else 0) (fun t => if t = 1 / 2 then 2 * (1 + t) ^ 2 else 0)
    (fun s hs t ht => (example_lip s hs t ht).trans (by gcongr; norm_num))
    (fun s hs t ht => by rw [← mul_sub, abs_mul, abs_two]; have := example_lip s hs t ht; linarith)
    (fun s _ t _ => by simp)
    (fun t ht => by
      have h1 := (hasDerivWithinAt_id t (Iic t)).const_sub 1
      have h2 := example_jump_deriv (g := fun t => 3 * (1 + t)) (g' := fun _ => 3) (fun t => by simpa using ((hasDerivAt_id t).const_add 1).const_mul 3) t
      have h0 : 1 + t ≠ 0 := by linarith [ht.1]
      have e : -(2 * (1 / (1 + t))) + ((1 - t) + if t ≤ 1 / 2 then 3 * (1 + t) else 0) * (1 / (1 + t)) = -1 + if t ≤ 1 / 2 then 3 else 0 := by
        split_ifs <;> field_simp <;> ring
      rw [e]
      exact h1.add h2)
    (fun t ht => by
      have h2 := example_jump_deriv (g := fun t => 2 * (1 + t) ^ 2) (g' := fun t => 4 * (1 + t)) (fun t => by
        have := (((hasDerivAt_id t).const_add 1).pow 2).const_mul 2
        have e : 4 * (1 + t) = 2 * (((2 : ℕ) : ℝ) * (1 + id t) ^ (2 - 1) * 1) := by norm_num; ring
        rw [e]
        exact this) t
      have h0 : 1 + t ≠ 0 := by linarith [ht.1]
      have e : -0 + 2 * (if t ≤ 1 / 2 then 2 * (1 + t) ^ 2 else 0) * (1 / (1 + t)) = if t ≤ 1 / 2 then 4 * (1 + t) else 0 := by
        split_ifs <;> field_simp <;> ring
      rw [e]
      exact h2)
    (fun t ht => by
      have h1 : Tendsto (fun s : ℝ => 1 - s) (𝓝[>] t) (𝓝 (1 - t)) := ((continuous_const.sub continuous_id).tendsto t).mono_left nhdsWithin_le_nhds
      have h2 := example_jump_limit (g := fun t => 3 * (1 + t)) (by fun_prop) t
      have h3 := h1.add h2
      rw [← add_sub_assoc] at h3
      exact h3)
    (fun t ht => example_jump_limit (g := fun t => 2 * (1 + t) ^ 2) (by fun_prop) t)
    (by norm_num) (by norm_num)
  obtain ⟨N, hN⟩ := digits_suffice (C := C) hδ hε
  obtain ⟨hn0, hnδ, p, hp, hpe⟩ := hN (2 * N) (by omega)
  generalize hn : 2 * N = n at *
  refine ⟨n, p, hn0, fun meth => ?_⟩
  have hn' : (0 : ℝ) < n := by exact_mod_cast hn0
  obtain ⟨Λ, Ψ, hrun, hk⟩ := h (binaryFloats p) _ (by positivity) (binaryFloats_accurate p) meth (1 / n) n (by positivity) hnδ hp (by
    rw [mul_one_div, div_self hn'.ne']) (by
    rintro t - hne
    have : t = 1 / 2 := by
      by_contra hc
      rw [if_neg hc, if_neg hc] at hne
      simp at hne
    refine ⟨N, ?_⟩
    rw [this, ← hn]
    have : (N : ℝ) ≠ 0 := by
      rintro h0
      have : N = 0 := by exact_mod_cast h0
      omega
    push_cast
    field_simp)
  exact ⟨Λ, Ψ, hrun, fun k hkn => ⟨(hk k hkn).1.trans_lt hpe, (hk k hkn).2.trans_lt hpe⟩⟩

end

end VGPA
