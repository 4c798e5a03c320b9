import Verif.Props.ScgMethod

/-!
# C125: the optimizer leaves its start when short steps help
-/

namespace VGPA

open Matrix

section
variable {n : ℕ} {F : (Fin n → ℝ) → ℝ} {G : (Fin n → ℝ) → Fin n → ℝ} {x0 : Fin n → ℝ}

/-- As long as every trial point is rejected, the method is at its start, searches along the negative gradient, and the scale grows. -/
theorem scg_rejects (hg : 0 < G x0 ⬝ᵥ G x0) {k : ℕ} (hk : k ≤ 100)
    (h : ∀ j < k, ¬ F ((Spec.scg F G x0 j).trial G) ≤ F (Spec.scg F G x0 j).x) :
    (Spec.scg F G x0 k).x = x0 ∧ (Spec.scg F G x0 k).d = -G x0 ∧ 4 ^ k ≤ (Spec.scg F G x0 k).scale := by
  induction k with
  | zero => exact ⟨rfl, rfl, by simp [Spec.scg]⟩
  | succ k ih =>
    obtain ⟨i1, i2, i3⟩ := ih (by omega) (fun j hj => h j (by omega))
    have hrej := h k (by omega)
    show ((Spec.scg F G x0 k).next F G).x = x0 ∧ ((Spec.scg F G x0 k).next F G).d = -G x0 ∧ _ ≤ ((Spec.scg F G x0 k).next F G).scale
    generalize Spec.scg F G x0 k = S at i1 i2 i3 hrej
    have hdir : S.dir G = -G x0 := by
      unfold Spec.ScgState.dir
      rw [i1, i2]
      split <;> rfl
    have hlen : S.len2 G = G x0 ⬝ᵥ G x0 := by
      unfold Spec.ScgState.len2
      rw [hdir, neg_dotProduct, dotProduct_neg, neg_neg]
    have hslope : S.slope G = -(G x0 ⬝ᵥ G x0) := by
      unfold Spec.ScgState.slope
      rw [hdir, i1, neg_dotProduct]
    have hs0 : 0 < S.scale := lt_of_lt_of_le (by positivity) i3
    have hraised : S.scale ≤ S.raised G := by
      unfold Spec.ScgState.raised
      split
      · exact le_rfl
      · next hneg =>
        rw [hlen] at hneg ⊢
        have : S.curvature G / (G x0 ⬝ᵥ G x0) ≤ 0 := div_nonpos_of_nonpos_of_nonneg (by nlinarith) hg.le
        linarith
    have hscaled : 0 < S.scaled G := by
      unfold Spec.ScgState.scaled
      rw [hlen]
      split
      · assumption
      · positivity
    have hstep : 0 < S.stepLength G := by
      unfold Spec.ScgState.stepLength
      rw [hslope, neg_div, neg_neg]
      positivity
    have hratio : S.ratio F G < 1 / 4 := by
      unfold Spec.ScgState.ratio
      have : 2 * (F (S.trial G) - F S.x) / (S.stepLength G * S.slope G) ≤ 0 := by
        apply div_nonpos_of_nonneg_of_nonpos
        · linarith [not_le.1 hrej]
        · rw [hslope]; nlinarith
      linarith
    unfold Spec.ScgState.next
    rw [if_neg hrej]
    refine ⟨i1, hdir, ?_⟩
    show _ ≤ S.newScale F G
    unfold Spec.ScgState.newScale
    rw [if_pos hratio, le_min_iff]
    refine ⟨by rw [pow_succ]; linarith, ?_⟩
    calc (4 : ℝ) ^ (k + 1) ≤ 4 ^ 100 := pow_le_pow_right₀ (by norm_num) hk
      _ ≤ 10 ^ 100 := by norm_num

theorem scg_le (k m : ℕ) : F (Spec.scg F G x0 (k + m)).x ≤ F (Spec.scg F G x0 k).x := by
  induction m with
  | zero => exact le_rfl
  | succ m ih =>
    refine le_trans ?_ ih
    show F ((Spec.scg F G x0 (k + m)).next F G).x ≤ _
    by_cases h : F ((Spec.scg F G x0 (k + m)).trial G) ≤ F (Spec.scg F G x0 (k + m)).x
    · rw [next_x h]; exact h
    · unfold Spec.ScgState.next
      rw [if_neg h]

variable {σ A : Type} {o : Oracle σ A ℝ (Fin n → ℝ)} {args : A}

/-- C125, as far as it holds: if the gradient at the start is not numerically zero, no step of at most `1e-50` times the negative gradient
increases the objective, the measured curvature at the start is not below `-1e50` (relative to the squared gradient), and at least 101 iterations are
allowed, then the optimizer takes a step: its result is at least as good as a point on the line of steepest descent from the start, which is at least as good as the
start (equality is possible if a longer step leads to an equal value). Missing: gradient functions whose negative is not a descent direction, such as the one of
`run()`, see `C125_progress_violated`. -/
theorem C125_progress_partial (ho : Spec.Computes o args F G) (p p' : Scg ℝ) (hp : Spec.Arrays p) (hn : 101 ≤ p.nit) (x : Fin n → ℝ) (s s' : σ)
    (fx : ℝ) (hk : 1 / 2 ^ 52 ≤ G x0 ⬝ᵥ G x0)
    (hcurv : -(10 ^ 50) * (G x0 ⬝ᵥ G x0) ≤ (Spec.scg F G x0 0).curvature G)
    (hdown : ∀ α : ℝ, 0 < α → α ≤ 1 / 10 ^ 50 → F (x0 - α • G x0) ≤ F x0)
    (h : Scg.call (realArith n) o args p x0 s = (.ok (x, fx), p', s')) :
    ∃ α : ℝ, 0 < α ∧ F (x0 - α • G x0) ≤ F x0 ∧ fx ≤ F (x0 - α • G x0) := by
  have hg : 0 < G x0 ⬝ᵥ G x0 := lt_of_lt_of_le (by positivity) hk
  obtain ⟨k, rfl, rfl, -, -, -, hstop⟩ := C92_method ho p p' hp x0 x s s' fx h
  have at_start : ∀ S : Spec.ScgState n, S.x = x0 → S.d = -G x0 → 0 < S.scale →
      S.dir G = -G x0 ∧ S.len2 G = G x0 ⬝ᵥ G x0 ∧ S.curvature G = (Spec.scg F G x0 0).curvature G
      ∧ S.trial G = x0 - S.stepLength G • G x0 ∧ 0 < S.stepLength G
      ∧ (0 < S.curvature G + S.scale * (G x0 ⬝ᵥ G x0) → S.stepLength G = (G x0 ⬝ᵥ G x0) / (S.curvature G + S.scale * (G x0 ⬝ᵥ G x0))) := by
    intro S h1 h2 h3
    have hdir : ∀ S : Spec.ScgState n, S.x = x0 → S.d = -G x0 → S.dir G = -G x0 := by
      intro S h1 h2
      unfold Spec.ScgState.dir
      rw [h1, h2]
      split <;> rfl
    have hlen : ∀ S : Spec.ScgState n, S.x = x0 → S.d = -G x0 → S.len2 G = G x0 ⬝ᵥ G x0 := by
      intro S h1 h2
      unfold Spec.ScgState.len2
      rw [hdir S h1 h2, neg_dotProduct, dotProduct_neg, neg_neg]
    have hslope : S.slope G = -(G x0 ⬝ᵥ G x0) := by
      unfold Spec.ScgState.slope
      rw [hdir S h1 h2, h1, neg_dotProduct]
    have hscaled : 0 < S.scaled G := by
      unfold Spec.ScgState.scaled
      rw [hlen S h1 h2]
      split
      · assumption
      · positivity
    refine ⟨hdir S h1 h2, hlen S h1 h2, ?_, ?_, ?_, fun hpos => ?_⟩
    · unfold Spec.ScgState.curvature
      rw [hdir S h1 h2, hlen S h1 h2, hdir (Spec.scg F G x0 0) rfl rfl, hlen (Spec.scg F G x0 0) rfl rfl, h1]
      rfl
    · unfold Spec.ScgState.trial
      rw [hdir S h1 h2, h1, smul_neg, sub_eq_add_neg]
    · unfold Spec.ScgState.stepLength
      rw [hslope, neg_div, neg_neg]
      positivity
    · unfold Spec.ScgState.stepLength Spec.ScgState.scaled
      rw [hslope, hlen S h1 h2, if_pos hpos, neg_div, neg_neg]
  have short : ∀ j, j = 100 → (∀ i < j, ¬ F ((Spec.scg F G x0 i).trial G) ≤ F (Spec.scg F G x0 i).x) →
      F ((Spec.scg F G x0 j).trial G) ≤ F (Spec.scg F G x0 j).x := by
    rintro j rfl hr
    obtain ⟨a1, a2, a3⟩ := scg_rejects hg le_rfl hr
    obtain ⟨-, -, b3, b4, b5, b6⟩ := at_start _ a1 a2 (lt_of_lt_of_le (by positivity) a3)
    generalize hS : Spec.scg F G x0 100 = S at a1 a2 a3 b3 b4 b5 b6
    have h1 : (10 : ℝ) ^ 50 * (G x0 ⬝ᵥ G x0) ≤ S.curvature G + S.scale * (G x0 ⬝ᵥ G x0) := by
      rw [b3]
      have : (2 * 10 ^ 50 : ℝ) ≤ S.scale := le_trans (by norm_num) a3
      nlinarith
    have hpos : 0 < S.curvature G + S.scale * (G x0 ⬝ᵥ G x0) := lt_of_lt_of_le (by positivity) h1
    rw [b4, a1]
    refine hdown _ b5 ?_
    rw [b6 hpos, div_le_div_iff₀ hpos (by positivity)]
    linarith
  by_cases hex : ∃ j < k, F ((Spec.scg F G x0 j).trial G) ≤ F (Spec.scg F G x0 j).x
  · classical
    obtain ⟨j, hj, hacc, hrej⟩ : ∃ j < k, F ((Spec.scg F G x0 j).trial G) ≤ F (Spec.scg F G x0 j).x
        ∧ ∀ i < j, ¬ F ((Spec.scg F G x0 i).trial G) ≤ F (Spec.scg F G x0 i).x :=
      ⟨Nat.find hex, (Nat.find_spec hex).1, (Nat.find_spec hex).2,
        fun i hi hc => Nat.find_min hex hi ⟨hi.trans (Nat.find_spec hex).1, hc⟩⟩
    by_cases hj100 : j ≤ 100
    · obtain ⟨a1, a2, a3⟩ := scg_rejects hg hj100 hrej
      obtain ⟨-, -, -, b4, b5, -⟩ := at_start _ a1 a2 (lt_of_lt_of_le (by positivity) a3)
      refine ⟨_, b5, ?_, ?_⟩
      · rw [← b4]; exact hacc.trans_eq (congrArg F a1)
      · obtain ⟨m, rfl⟩ := Nat.exists_eq_add_of_lt hj
        have := scg_le (F := F) (G := G) (x0 := x0) (j + 1) m
        rw [show j + 1 + m = j + m + 1 by omega] at this
        refine this.trans ?_
        rw [← b4]
        show F ((Spec.scg F G x0 j).next F G).x ≤ _
        rw [next_x hacc]
    · exact (hrej 100 (by omega) (short 100 rfl fun i hi => hrej i (by omega))).elim
  · push Not at hex
    have hrej : ∀ i < k, ¬ F ((Spec.scg F G x0 i).trial G) ≤ F (Spec.scg F G x0 i).x := fun i hi => not_le.2 (hex i hi)
    by_cases hk100 : 100 < k
    · exact (hrej 100 hk100 (short 100 rfl fun i hi => hrej i (by omega))).elim
    obtain ⟨a1, a2, a3⟩ := scg_rejects hg (not_lt.1 hk100) hrej
    obtain ⟨-, b2, -⟩ := at_start _ a1 a2 (lt_of_lt_of_le (by positivity) a3)
    rcases hstop with ⟨-, hno, -⟩ | ⟨j, rfl, -, hcv, -⟩ | ⟨rfl, -⟩
    · unfold Spec.ScgState.NoDirection at hno
      rw [b2] at hno
      exact (not_lt.2 hk hno).elim
    · exact (hrej j (by omega) hcv.1).elim
    · omega

/-- The hypotheses of `C125_progress_partial` hold for `x^2/2` from `1`, with an optimizer made without options. -/
example : ∃ F : (Fin 1 → ℝ) → ℝ, ∃ G : (Fin 1 → ℝ) → Fin 1 → ℝ, ∃ x0 : Fin 1 → ℝ,
    Spec.Computes (pureOracle F G) () F G ∧ Spec.Arrays (Scg.init (realArith 1) none none none) ∧ 101 ≤ (Scg.init (realArith 1) none none none).nit
    ∧ 1 / 2 ^ 52 ≤ G x0 ⬝ᵥ G x0 ∧ -(10 ^ 50) * (G x0 ⬝ᵥ G x0) ≤ (Spec.scg F G x0 0).curvature G
    ∧ (∀ α : ℝ, 0 < α → α ≤ 1 / 10 ^ 50 → F (x0 - α • G x0) ≤ F x0)
    ∧ ∃ x fx p' s', Scg.call (realArith 1) (pureOracle F G) () (Scg.init (realArith 1) none none none) x0 () = (.ok (x, fx), p', s') := by
  refine ⟨fun x => x 0 ^ 2 / 2, fun x => x, fun _ => 1, pureOracle_computes, init_arrays _ _ _, by simp [Scg.init], by simp [dotProduct]; norm_num, ?_, ?_, ?_⟩
  · rw [parabola_first.2.2.2.1]; simp [dotProduct]; linarith [show (0:ℝ) ≤ 10 ^ 50 by positivity]
  · intro α h0 h1
    have : α ≤ 1 := h1.trans (by norm_num)
    simp only [Pi.sub_apply, Pi.smul_apply, smul_eq_mul]
    nlinarith
  · obtain ⟨x, fx, p', s', h, _⟩ := C66_never_raises (Scg.init (realArith 1) none none none) (init_arrays _ _ _)
      (pureOracle_total _ _) (fun _ => 1) ()
    exact ⟨x, fx, p', s', h⟩

end

end VGPA
