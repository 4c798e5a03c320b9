import Verif.Props.OdeJumps

/-!
# Backward sweeps with slightly different right-hand sides
-/

namespace VGPA

noncomputable section

section generic
variable {X W : Type} [NormedAddCommGroup X] [NormedSpace ℝ X] [NormedAddCommGroup W] [NormedSpace ℝ W]

/-- A discrete Gronwall lemma with jumps. -/
theorem gronwall_jumps {u η : ℕ → ℝ} {n : ℕ} {q c dt T : ℝ} (hq : 0 ≤ q) (hc : 0 ≤ c) (hη : ∀ k, 0 ≤ η k) (hdt : 0 < dt) (hT : n * dt ≤ T) (h0 : 0 ≤ u 0)
    (h : ∀ k < n, u (k + 1) ≤ (1 + q * dt) * u k + dt * c + η k) :
    ∀ k ≤ n, u k ≤ Real.exp (q * T) * (u 0 + T * c + ∑ i ∈ Finset.range n, η i) := by
  have key : ∀ k ≤ n, u k ≤ Real.exp (q * (k * dt)) * (u 0 + k * dt * c + ∑ i ∈ Finset.range k, η i) := by
    intro k
    induction k with
    | zero => intro _; simp
    | succ k ih =>
      intro hk
      have i1 := ih (by omega)
      have i2 := h k hk
      have hs : 0 ≤ ∑ i ∈ Finset.range k, η i := Finset.sum_nonneg fun i _ => hη i
      have e1 : Real.exp (q * ((k + 1 : ℕ) * dt)) = Real.exp (q * (k * dt)) * Real.exp (q * dt) := by
        rw [← Real.exp_add]; congr 1; push_cast; ring
      have e2 : 1 + q * dt ≤ Real.exp (q * dt) := by linarith [Real.add_one_le_exp (q * dt)]
      have e3 : 1 ≤ Real.exp (q * ((k + 1 : ℕ) * dt)) := Real.one_le_exp (by positivity)
      rw [Finset.sum_range_succ]
      have j1 : (1 + q * dt) * u k ≤ Real.exp (q * ((k + 1 : ℕ) * dt)) * (u 0 + k * dt * c + ∑ i ∈ Finset.range k, η i) := by
        rw [e1]
        calc _ ≤ (1 + q * dt) * (Real.exp (q * (k * dt)) * (u 0 + k * dt * c + ∑ i ∈ Finset.range k, η i)) := by gcongr
          _ ≤ Real.exp (q * dt) * (Real.exp (q * (k * dt)) * (u 0 + k * dt * c + ∑ i ∈ Finset.range k, η i)) := by gcongr
          _ = _ := by ring
      have j2 : dt * c + η k ≤ Real.exp (q * ((k + 1 : ℕ) * dt)) * (dt * c + η k) := by
        have : 0 ≤ dt * c + η k := add_nonneg (by positivity) (hη k)
        nlinarith
      push_cast at j1 j2 ⊢
      nlinarith
  intro k hk
  refine (key k hk).trans ?_
  have h1 : (k : ℝ) * dt ≤ T := le_trans (by gcongr) hT
  have h2 : ∑ i ∈ Finset.range k, η i ≤ ∑ i ∈ Finset.range n, η i :=
    Finset.sum_le_sum_of_subset_of_nonneg (Finset.range_subset_range.2 hk) fun i _ _ => hη i
  have h3 : 0 ≤ ∑ i ∈ Finset.range k, η i := Finset.sum_nonneg fun i _ => hη i
  gcongr

/-- One step is affine in the value and in the inhomogeneity. -/
theorem affStep_sub (B : W →ₗ[ℝ] X →ₗ[ℝ] X) (meth : Method) (dt : ℝ) (a0 a1 : W) (c0 c1 c0' c1' y y' : X) :
    gStep meth dt (aff B a0 c0) (aff B ((0.5 : ℝ) • (a0 + a1)) ((0.5 : ℝ) • (c0 + c1))) (aff B a1 c1) (aff B a0 c0) y
      - gStep meth dt (aff B a0 c0') (aff B ((0.5 : ℝ) • (a0 + a1)) ((0.5 : ℝ) • (c0' + c1'))) (aff B a1 c1') (aff B a0 c0') y'
      = gStep meth dt (aff B a0 (c0 - c0')) (aff B ((0.5 : ℝ) • (a0 + a1)) ((0.5 : ℝ) • ((c0 - c0') + (c1 - c1')))) (aff B a1 (c1 - c1')) (aff B a0 (c0 - c0')) (y - y') := by
  cases meth <;>
  · simp only [gStep, aff, map_add, map_sub, map_smul, LinearMap.add_apply, LinearMap.smul_apply]
    module

theorem affStep_bound {B : W →ₗ[ℝ] X →ₗ[ℝ] X} {β α ε dt : ℝ} (hβ : 0 ≤ β) (hB : ∀ a y, ‖B a y‖ ≤ β * ‖a‖ * ‖y‖) (meth : Method)
    (hdt : 0 < dt) (hdt1 : dt ≤ 1) {a0 a1 : W} (ha0 : ‖a0‖ ≤ α) (ha1 : ‖a1‖ ≤ α) {c0 c1 : X} (hc0 : ‖c0‖ ≤ ε) (hc1 : ‖c1‖ ≤ ε) (y : X) :
    ‖gStep meth dt (aff B a0 c0) (aff B ((0.5 : ℝ) • (a0 + a1)) ((0.5 : ℝ) • (c0 + c1))) (aff B a1 c1) (aff B a0 c0) y‖
      ≤ (1 + β * α * (1 + β * α * (1 + β * α) ^ 2) * dt) * ‖y‖ + dt * ((1 + β * α * (1 + β * α) ^ 2) * ε) := by
  have hα : 0 ≤ α := (norm_nonneg _).trans ha0
  have hε : 0 ≤ ε := (norm_nonneg _).trans hc0
  have hR := affStep_remainder (g := aff B a0 c0) (r := ‖y‖) (κ := β * α * ‖y‖ + ε) hβ hB meth (by rw [abs_of_pos hdt]; exact hdt1)
    ha0 ha1 hc0 hc1 le_rfl le_rfl (aff_bound hβ hB ha0 hc0 le_rfl)
  obtain ⟨θ, hθ⟩ : ∃ θ, θ = endShare meth := ⟨_, rfl⟩
  have hθb := endShare_bounds meth
  rw [← hθ] at hR hθb
  have conv : ∀ {E : Type} [NormedAddCommGroup E] [NormedSpace ℝ E] {x z : E} {r : ℝ}, ‖x‖ ≤ r → ‖z‖ ≤ r → ‖x + θ • (z - x)‖ ≤ r := by
    intro E _ _ x z r hx hz
    have e : x + θ • (z - x) = (1 - θ) • x + θ • z := by module
    rw [e]
    refine (norm_add_le _ _).trans ?_
    rw [norm_smul, norm_smul, Real.norm_eq_abs, Real.norm_eq_abs, abs_of_nonneg hθb.1, abs_of_nonneg (by linarith [hθb.2])]
    nlinarith [hθb.1, hθb.2]
  have hA := aff_bound hβ hB (conv ha0 ha1) (conv hc0 hc1) (le_refl ‖y‖)
  set z := aff B (a0 + θ • (a1 - a0)) (c0 + θ • (c1 - c0)) y
  set g := gStep meth dt (aff B a0 c0) (aff B ((0.5 : ℝ) • (a0 + a1)) ((0.5 : ℝ) • (c0 + c1))) (aff B a1 c1) (aff B a0 c0) y
  have h1 : ‖g‖ ≤ ‖y‖ + dt * ‖z‖ + ‖g - (y + dt • z)‖ := by
    have e : g = y + dt • z + (g - (y + dt • z)) := by abel
    have i1 := norm_add_le (y + dt • z) (g - (y + dt • z))
    have i2 := norm_add_le y (dt • z)
    rw [norm_smul, Real.norm_eq_abs, abs_of_pos hdt] at i2
    rw [← e] at i1
    linarith
  have h2 : dt ^ 2 ≤ dt := by nlinarith
  have h3 : β * α * (β * α * ‖y‖ + ε) * (1 + β * α) ^ 2 * dt ^ 2 ≤ β * α * (β * α * ‖y‖ + ε) * (1 + β * α) ^ 2 * dt := by gcongr
  have h4 : dt * ‖z‖ ≤ dt * (β * α * ‖y‖ + ε) := by gcongr
  calc ‖g‖ ≤ ‖y‖ + dt * (β * α * ‖y‖ + ε) + β * α * (β * α * ‖y‖ + ε) * (1 + β * α) ^ 2 * dt := by linarith
    _ = _ := by ring

end generic

section bwd
variable {V W : Type} [NormedAddCommGroup V] [NormedSpace ℝ V] [NormedAddCommGroup W] [NormedSpace ℝ W]

/-- Backward sweeps depend continuously on the driving series, uniformly in the step size. -/
theorem bwd_stable (F : Rhs V W) {β : ℝ} (hF : BwdBilin F β) (α T : ℝ) (hT : 0 ≤ T) :
    ∃ K, 0 ≤ K ∧ ∀ (meth : Method) (dt : ℝ) (n : ℕ) (ε : ℝ) (a es es' os os' : Fin (n + 1) → W) (em em' om om' : Fin (n + 1) → V), 0 < dt → dt ≤ 1 → n * dt ≤ T →
      (∀ k, ‖a k‖ ≤ α) → (∀ k, ‖em k - em' k‖ ≤ ε) → (∀ k, ‖es k - es' k‖ ≤ ε) →
      ∑ k, ‖om k - om' k‖ ≤ ε → ∑ k, ‖os k - os' k‖ ≤ ε →
      ∃ (Λ Λ' : Fin (n + 1) → V) (Ψ Ψ' : Fin (n + 1) → W),
        solveBwd meth F dt (List.ofFn a) (List.ofFn em) (List.ofFn es) (List.ofFn om) (List.ofFn os) = .ok (List.ofFn Λ, List.ofFn Ψ)
        ∧ solveBwd meth F dt (List.ofFn a) (List.ofFn em') (List.ofFn es') (List.ofFn om') (List.ofFn os') = .ok (List.ofFn Λ', List.ofFn Ψ')
        ∧ ∀ k, ‖Λ k - Λ' k‖ ≤ K * ε ∧ ‖Ψ k - Ψ' k‖ ≤ K * ε := by
  let q := β * |α| * (1 + β * |α| * (1 + β * |α|) ^ 2)
  let K0 := 1 + β * |α| * (1 + β * |α|) ^ 2
  have hβ := hF.nonneg
  have hq : 0 ≤ q := by positivity
  have hK0 : 0 ≤ K0 := by positivity
  refine ⟨Real.exp (q * T) * (T * K0 + 1), by positivity, ?_⟩
  intro meth dt n ε a es es' os os' em em' om om' hdt hdt1 hn ha hem hes hom hos
  have hε : 0 ≤ ε := (norm_nonneg _).trans (hem 0)
  have sol : ∀ (em om : Fin (n + 1) → V) (es os : Fin (n + 1) → W), ∃ x : ℕ → V × W, x 0 = 0
      ∧ (∀ k, x (k + 1) = bwdStep meth F dt (asFun (List.ofFn a)) (asFun (List.ofFn em)) (asFun (List.ofFn es)) (asFun (List.ofFn om)) (asFun (List.ofFn os)) (n - k) (x k))
      ∧ solveBwd meth F dt (List.ofFn a) (List.ofFn em) (List.ofFn es) (List.ofFn om) (List.ofFn os)
        = .ok (List.ofFn fun k : Fin (n + 1) => (x (n - k)).1, List.ofFn fun k : Fin (n + 1) => (x (n - k)).2) := by
    intro em om es os
    refine ⟨traj (0 : V × W) (fun k => bwdStep meth F dt (asFun (List.ofFn a)) (asFun (List.ofFn em)) (asFun (List.ofFn es)) (asFun (List.ofFn om))
      (asFun (List.ofFn os)) (n - k)), rfl, fun k => rfl, ?_⟩
    rw [solveBwd_ok meth F dt (List.ofFn a) (List.ofFn em) (List.ofFn es) (List.ofFn om) (List.ofFn os) (by
      right
      simp only [List.length_ofFn]
      omega)]
    refine congrArg Except.ok (congrArg₂ Prod.mk ?_ ?_) <;>
    · apply List.ext_getElem (by rw [List.length_map, List.length_range, List.length_ofFn, List.length_ofFn])
      intro i h1 h2
      rw [List.getElem_map, List.getElem_range, List.getElem_ofFn, List.length_ofFn]
      rfl
  obtain ⟨x, x0, xs, hx⟩ := sol em om es os
  obtain ⟨x', x0', xs', hx'⟩ := sol em' om' es' os'
  have asf : ∀ {E : Type} [Zero E] (f : Fin (n + 1) → E) (k : ℕ) (hk : k < n + 1), asFun (List.ofFn f) k = f ⟨k, hk⟩ := by
    intro E _ f k hk
    rw [asFun_eq (by rw [List.length_ofFn]; exact hk), List.getElem_ofFn]
  have revsum : ∀ f : Fin (n + 1) → ℝ, (∀ k, 0 ≤ f k) → ∑ i ∈ Finset.range n, f ⟨n - i - 1, by omega⟩ ≤ ∑ k, f k := by
    intro f hf
    have e : ∑ i ∈ Finset.range n, f ⟨n - i - 1, by omega⟩ = ∑ i : Fin n, f i.castSucc := by
      rw [Finset.sum_range, ← Equiv.sum_comp Fin.revPerm]
      refine Finset.sum_congr rfl fun i _ => congrArg f (Fin.ext ?_)
      simp only [Fin.revPerm_apply, Fin.val_rev, Fin.val_castSucc]
      omega
    rw [e, Fin.sum_univ_castSucc]
    linarith [hf (Fin.last n)]
  have haa : ∀ k, ‖a k‖ ≤ |α| := fun k => (ha k).trans (le_abs_self _)
  have fin : Real.exp (q * T) * (0 + T * (K0 * ε) + ε) = Real.exp (q * T) * (T * K0 + 1) * ε := by ring
  have b1 := gronwall_jumps (u := fun k => ‖(x k).1 - (x' k).1‖) (η := fun i => ‖om ⟨n - i - 1, by omega⟩ - om' ⟨n - i - 1, by omega⟩‖) (n := n) (q := q) (c := K0 * ε)
    (dt := dt) (T := T) hq (by positivity) (fun _ => norm_nonneg _) hdt hn (norm_nonneg _) (fun k hk => by
      have hk1 : n - k < n + 1 := by omega
      have hk2 : n - k - 1 < n + 1 := by omega
      simp only [xs, xs', bwdStep_lam F hF, asf _ _ hk1, asf _ _ hk2]
      have := affStep_bound hβ hF.lam_le meth hdt hdt1 (haa ⟨n - k, hk1⟩) (haa ⟨n - k - 1, hk2⟩) (hem ⟨n - k, hk1⟩) (hem ⟨n - k - 1, hk2⟩) ((x k).1 - (x' k).1)
      rw [← affStep_sub] at this
      rw [add_sub_add_comm]
      exact (norm_add_le _ _).trans (add_le_add this le_rfl))
  have b2 := gronwall_jumps (u := fun k => ‖(x k).2 - (x' k).2‖) (η := fun i => ‖os ⟨n - i - 1, by omega⟩ - os' ⟨n - i - 1, by omega⟩‖) (n := n) (q := q) (c := K0 * ε)
    (dt := dt) (T := T) hq (by positivity) (fun _ => norm_nonneg _) hdt hn (norm_nonneg _) (fun k hk => by
      have hk1 : n - k < n + 1 := by omega
      have hk2 : n - k - 1 < n + 1 := by omega
      simp only [xs, xs', bwdStep_psi F hF, asf _ _ hk1, asf _ _ hk2]
      have := affStep_bound hβ hF.psi_le meth hdt hdt1 (haa ⟨n - k, hk1⟩) (haa ⟨n - k - 1, hk2⟩) (hes ⟨n - k, hk1⟩) (hes ⟨n - k - 1, hk2⟩) ((x k).2 - (x' k).2)
      rw [← affStep_sub] at this
      rw [add_sub_add_comm]
      exact (norm_add_le _ _).trans (add_le_add this le_rfl))
  refine ⟨_, _, _, _, hx, hx', fun k => ⟨?_, ?_⟩⟩
  · refine (b1 (n - k) (by omega)).trans ?_
    rw [← fin, x0, x0', sub_self, norm_zero]
    gcongr
    exact (revsum (fun k => ‖om k - om' k‖) fun _ => norm_nonneg _).trans hom
  · refine (b2 (n - k) (by omega)).trans ?_
    rw [← fin, x0, x0', sub_self, norm_zero]
    gcongr
    exact (revsum (fun k => ‖os k - os' k‖) fun _ => norm_nonneg _).trans hos

end bwd

end

end VGPA
