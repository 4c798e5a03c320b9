import Mathlib.Algebra.QuadraticDiscriminant
import Verif.Props.ScgMethod

/-!
# C101: the optimizer finds the minimum of a strictly convex quadratic
-/

namespace VGPA

open Matrix

variable {σ A : Type} {n : ℕ} {o : Oracle σ A ℝ (Fin n → ℝ)} {args : A}

theorem psd_symm {Q : Matrix (Fin n) (Fin n) ℝ} (hQ : Q.PosSemidef) (u v : Fin n → ℝ) : u ⬝ᵥ Q *ᵥ v = v ⬝ᵥ Q *ᵥ u := by
  rw [Matrix.dotProduct_mulVec, ← Matrix.mulVec_transpose]
  have : Qᵀ = Q := by
    have h0 := hQ.isHermitian
    rwa [Matrix.IsHermitian, Matrix.conjTranspose_eq_transpose_of_trivial] at h0
  rw [this, dotProduct_comm]

theorem psd_nonneg {Q : Matrix (Fin n) (Fin n) ℝ} (hQ : Q.PosSemidef) (v : Fin n → ℝ) : 0 ≤ v ⬝ᵥ Q *ᵥ v := by
  simpa using hQ.dotProduct_mulVec_nonneg v

theorem psd_cauchy {Q : Matrix (Fin n) (Fin n) ℝ} (hQ : Q.PosSemidef) (u v : Fin n → ℝ) :
    (u ⬝ᵥ Q *ᵥ v) ^ 2 ≤ (u ⬝ᵥ Q *ᵥ u) * (v ⬝ᵥ Q *ᵥ v) := by
  have h : ∀ t : ℝ, 0 ≤ (v ⬝ᵥ Q *ᵥ v) * (t * t) + 2 * (u ⬝ᵥ Q *ᵥ v) * t + u ⬝ᵥ Q *ᵥ u := by
    intro t
    have := psd_nonneg hQ (u + t • v)
    rw [Matrix.mulVec_add, Matrix.mulVec_smul] at this
    simp only [add_dotProduct, dotProduct_add, smul_dotProduct, dotProduct_smul, smul_eq_mul, psd_symm hQ v u] at this
    linarith
  have := discrim_le_zero h
  unfold discrim at this
  nlinarith

theorem dot_cauchy (u v : Fin n → ℝ) : (u ⬝ᵥ v) ^ 2 ≤ (u ⬝ᵥ u) * (v ⬝ᵥ v) := by
  have := psd_cauchy (Q := 1) Matrix.PosSemidef.one u v
  simpa using this

theorem sub_sq_le (u v : Fin n → ℝ) : (u - v) ⬝ᵥ (u - v) ≤ 2 * (u ⬝ᵥ u) + 2 * (v ⬝ᵥ v) := by
  have h : 0 ≤ (u + v) ⬝ᵥ (u + v) := dotProduct_self_nonneg_real _
  simp only [add_dotProduct, dotProduct_add, sub_dotProduct, dotProduct_sub] at h ⊢
  rw [dotProduct_comm v u] at h ⊢
  linarith

/-- A quadratic whose curvature in every direction is between `m` and `L`, with the minimum at `xmin`. -/
structure Quad (n : ℕ) where
  Q : Matrix (Fin n) (Fin n) ℝ
  b : Fin n → ℝ
  c : ℝ
  m : ℝ
  L : ℝ
  psd : Q.PosSemidef
  mpos : 0 < m
  low : ∀ v, m * (v ⬝ᵥ v) ≤ v ⬝ᵥ Q *ᵥ v
  high : ∀ v, v ⬝ᵥ Q *ᵥ v ≤ L * (v ⬝ᵥ v)

namespace Quad

variable (q : Quad n)

noncomputable def F (x : Fin n → ℝ) : ℝ := x ⬝ᵥ q.Q *ᵥ x / 2 - q.b ⬝ᵥ x + q.c

noncomputable def G (x : Fin n → ℝ) : Fin n → ℝ := q.Q *ᵥ x - q.b

variable {q}

theorem step (x d : Fin n → ℝ) (α : ℝ) : q.F (x + α • d) - q.F x = α * (d ⬝ᵥ q.G x) + α ^ 2 / 2 * (d ⬝ᵥ q.Q *ᵥ d) := by
  unfold F G
  rw [Matrix.mulVec_add, Matrix.mulVec_smul]
  simp only [add_dotProduct, dotProduct_add, smul_dotProduct, dotProduct_smul, smul_eq_mul, dotProduct_sub, psd_symm q.psd x d]
  rw [dotProduct_comm q.b d]
  ring

theorem G_step (x d : Fin n → ℝ) (α : ℝ) : q.G (x + α • d) = q.G x + α • q.Q *ᵥ d := by
  unfold G
  rw [Matrix.mulVec_add, Matrix.mulVec_smul]
  abel

/-- The distance to the minimum is bounded by the gradient. -/
theorem gap_le (x y : Fin n → ℝ) : 2 * q.m * (q.F x - q.F y) ≤ q.G x ⬝ᵥ q.G x := by
  have h := q.step x (y - x) 1
  rw [one_smul, add_sub_cancel] at h
  have h1 := q.low (y - x)
  have h2 : 0 ≤ (q.m • (y - x) + q.G x) ⬝ᵥ (q.m • (y - x) + q.G x) := dotProduct_self_nonneg_real _
  simp only [add_dotProduct, dotProduct_add, smul_dotProduct, dotProduct_smul, smul_eq_mul] at h2
  rw [dotProduct_comm (q.G x) (y - x)] at h2
  have hm := q.mpos
  nlinarith

/-- What holds for the states of the method between two iterations. -/
structure Inv (q : Quad n) (S : Spec.ScgState n) : Prop where
  pos : 0 < S.scale
  le : S.scale ≤ 1
  descent : S.d ⬝ᵥ q.G S.x ≤ -(q.G S.x ⬝ᵥ q.G S.x)
  short : q.m * (S.d ⬝ᵥ S.d) ≤ 2 * (q.L + q.m) * (q.G S.x ⬝ᵥ q.G S.x)

theorem Lpos (hn : 0 < n) : 0 < q.L := by
  have h1 := q.low (fun _ => 1)
  have h2 := q.high (fun _ => 1)
  have h3 : (fun _ : Fin n => (1 : ℝ)) ⬝ᵥ (fun _ => 1) = n := by simp [dotProduct]
  have : (0 : ℝ) < n := by exact_mod_cast hn
  rw [h3] at h1 h2
  have := q.mpos
  by_contra hc
  nlinarith [mul_pos ‹0 < q.m› ‹(0 : ℝ) < n›]

theorem inv_start (x0 : Fin n → ℝ) (hn : 0 < n) : q.Inv ⟨x0, -q.G x0, 1, 0⟩ := by
  have h0 := dotProduct_self_nonneg_real (q.G x0)
  have := q.mpos
  have := q.Lpos hn
  refine ⟨one_pos, le_rfl, ?_, ?_⟩
  · simp
  · simp only [neg_dotProduct, dotProduct_neg, neg_neg]
    nlinarith [mul_nonneg this.le h0, mul_nonneg q.mpos.le h0]

theorem inv_dir {S : Spec.ScgState n} (h : q.Inv S) (hd : ¬ S.NoDirection q.G) :
    S.dir q.G = S.d ∧ 0 < S.len2 q.G ∧ 0 < q.G S.x ⬝ᵥ q.G S.x := by
  have h0 := dotProduct_self_nonneg_real (q.G S.x)
  have hl : 0 < S.len2 q.G := by
    unfold Spec.ScgState.NoDirection at hd
    exact lt_of_lt_of_le (by norm_num) (not_lt.1 hd)
  have hg : 0 < q.G S.x ⬝ᵥ q.G S.x := by
    rcases h0.eq_or_lt with h1 | h1
    · exfalso
      have hg : q.G S.x = 0 := dotProduct_self_eq_zero.1 h1.symm
      have : S.dir q.G = 0 := by
        unfold Spec.ScgState.dir
        rw [if_neg (by rw [hg]; simp), hg, neg_zero]
      rw [Spec.ScgState.len2, this] at hl
      simp at hl
    · exact h1
  refine ⟨?_, hl, hg⟩
  unfold Spec.ScgState.dir
  rw [if_pos (by linarith [h.descent])]

theorem curvature_eq {S : Spec.ScgState n} (hl : 0 < S.len2 q.G) : S.curvature q.G = S.dir q.G ⬝ᵥ q.Q *ᵥ S.dir q.G := by
  unfold Spec.ScgState.curvature
  have hs : (1 / 1000 / √(S.len2 q.G) : ℝ) ≠ 0 := by
    have := Real.sqrt_pos.2 hl
    positivity
  simp only [G_step, add_sub_cancel_left, dotProduct_smul, smul_eq_mul]
  field_simp

/-- The factor by which an iteration reduces the distance to the minimum. -/
noncomputable def rate (q : Quad n) : ℝ := 1 - q.m ^ 2 / (2 * (q.L + 1) * (q.L + q.m))

theorem decrease_arith {m L l g2 μ δ t D : ℝ} (hm : 0 < m) (hL : 0 < L) (ht : 0 ≤ t) (hg : 0 < g2) (hμ0 : μ ≤ -g2) (h2 : μ ^ 2 = t * δ)
    (hδ1 : δ ≤ (L + 1) * l) (h4 : m * l ≤ 2 * (L + m) * g2) (h1 : t / 2 ≤ D) : m * g2 ≤ 4 * (L + 1) * (L + m) * D := by
  have hsq : g2 ^ 2 ≤ μ ^ 2 := by nlinarith
  have h3 : g2 ^ 2 ≤ t * ((L + 1) * l) := hsq.trans (h2 ▸ mul_le_mul_of_nonneg_left hδ1 ht)
  have h5 : m * g2 ^ 2 ≤ t * (L + 1) * (2 * (L + m) * g2) := by
    calc m * g2 ^ 2 ≤ m * (t * ((L + 1) * l)) := by gcongr
      _ = t * (L + 1) * (m * l) := by ring
      _ ≤ _ := by gcongr
  have h6 : m * g2 ≤ t * (L + 1) * (2 * (L + m)) := by
    have : (m * g2) * g2 ≤ (t * (L + 1) * (2 * (L + m))) * g2 := by
      calc _ = m * g2 ^ 2 := by ring
        _ ≤ _ := h5
        _ = _ := by ring
    exact le_of_mul_le_mul_right this hg
  calc _ ≤ _ := h6
    _ = 4 * (L + 1) * (L + m) * (t / 2) := by ring
    _ ≤ _ := by gcongr

theorem inv_next {S : Spec.ScgState n} (h : q.Inv S) (hd : ¬ S.NoDirection q.G) (hn : 0 < n) :
    q.Inv (S.next q.F q.G) ∧ q.m * (q.G S.x ⬝ᵥ q.G S.x) ≤ 4 * (q.L + 1) * (q.L + q.m) * (q.F S.x - q.F (S.next q.F q.G).x) := by
  obtain ⟨e1, hl, hg⟩ := inv_dir h hd
  have ecurv := curvature_eq hl
  have hm := q.mpos
  have hL := q.Lpos hn
  have hsc := h.pos
  have ek : S.len2 q.G = S.d ⬝ᵥ S.d := by rw [Spec.ScgState.len2, e1]
  have eμ : S.slope q.G = S.d ⬝ᵥ q.G S.x := by rw [Spec.ScgState.slope, e1]
  rw [e1] at ecurv
  set κ := S.d ⬝ᵥ q.Q *ᵥ S.d with hκ
  set l := S.d ⬝ᵥ S.d with hldef
  set g2 := q.G S.x ⬝ᵥ q.G S.x with hg2
  set μ := S.d ⬝ᵥ q.G S.x with hμ
  rw [ek] at hl
  have hκ0 : q.m * l ≤ κ := q.low _
  have hκ1 : κ ≤ q.L * l := q.high _
  have hκp : 0 < κ := lt_of_lt_of_le (mul_pos hm hl) hκ0
  have hμ0 : μ ≤ -g2 := h.descent
  have hμn : μ < 0 := by linarith
  obtain ⟨δ, hδ⟩ : ∃ δ, δ = κ + S.scale * l := ⟨_, rfl⟩
  have hδp : 0 < δ := by rw [hδ]; positivity
  have hκδ : κ ≤ δ := by rw [hδ]; linarith [mul_pos hsc hl]
  have hδ1 : δ ≤ (q.L + 1) * l := by rw [hδ]; nlinarith [h.le]
  have esc : S.scaled q.G = δ := by
    rw [Spec.ScgState.scaled, ecurv, ek, ← hδ, if_pos hδp]
  have era : S.raised q.G = S.scale := by
    rw [Spec.ScgState.raised, ecurv, ek, ← hδ, if_pos hδp]
  have eα : S.stepLength q.G = -(μ / δ) := by rw [Spec.ScgState.stepLength, esc, eμ]
  obtain ⟨α, hα⟩ : ∃ α, α = -(μ / δ) := ⟨_, rfl⟩
  rw [← hα] at eα
  have hαδ : α * δ = -μ := by rw [hα]; field_simp
  have hαp : 0 < α := by rw [hα]; exact neg_pos.2 (div_neg_of_neg_of_pos hμn hδp)
  have etr : S.trial q.G = S.x + α • S.d := by rw [Spec.ScgState.trial, eα, e1]
  have hdiff : q.F (S.trial q.G) - q.F S.x = α * μ + α ^ 2 / 2 * κ := by rw [etr, q.step]
  have hdec : q.F (S.trial q.G) - q.F S.x ≤ α * μ / 2 := by
    rw [hdiff]
    have : α * (α * κ) ≤ α * (α * δ) := by gcongr
    rw [hαδ] at this
    nlinarith
  have hαμ : α * μ < 0 := mul_neg_of_pos_of_neg hαp hμn
  have hratio : 1 ≤ S.ratio q.F q.G := by
    rw [Spec.ScgState.ratio, eα, eμ, le_div_iff_of_neg hαμ]
    linarith
  have hle : q.F (S.trial q.G) ≤ q.F S.x := by linarith
  have hx := next_x hle
  have enew : S.newScale q.F q.G = max (1 / 2 * S.scale) (1 / 10 ^ 15) := by
    rw [Spec.ScgState.newScale, if_neg (by linarith), if_pos (by linarith), era]
  have eg' : q.G (S.trial q.G) = q.G S.x + α • q.Q *ᵥ S.d := by rw [etr, G_step]
  have hdg : S.d ⬝ᵥ q.G (S.trial q.G) ≤ 0 := by
    rw [eg', dotProduct_add, dotProduct_smul, smul_eq_mul, ← hμ, ← hκ]
    have : α * κ ≤ α * δ := by gcongr
    rw [hαδ] at this
    linarith
  constructor
  · have hscale : (S.next q.F q.G).scale = S.newScale q.F q.G := by
      rw [Spec.ScgState.next, if_pos hle]
      split <;> rfl
    have hdir : ∃ γ, 0 ≤ γ ∧ (S.next q.F q.G).d = γ • S.d - q.G (S.trial q.G)
        ∧ q.m * (γ ^ 2 * l) ≤ q.L * (q.G (S.trial q.G) ⬝ᵥ q.G (S.trial q.G)) := by
      have hgg := dotProduct_self_nonneg_real (q.G (S.trial q.G))
      rw [Spec.ScgState.next, if_pos hle]
      split
      · exact ⟨0, le_rfl, by simp, by simpa using mul_nonneg hL.le hgg⟩
      · refine ⟨S.polakRibiere q.G, le_max_right _ _, by rw [e1], ?_⟩
        set g' := q.G (S.trial q.G) with hg'
        have eγ : g' ⬝ᵥ (q.G S.x - g') / S.slope q.G = (g' ⬝ᵥ q.Q *ᵥ S.d) / δ := by
          rw [eg', sub_add_cancel_left, ← eg', dotProduct_neg, dotProduct_smul, smul_eq_mul, eμ, hα]
          field_simp
          exact mul_div_cancel_left₀ _ hμn.ne
        have hsq : (S.polakRibiere q.G) ^ 2 ≤ ((g' ⬝ᵥ q.Q *ᵥ S.d) / δ) ^ 2 := by
          unfold Spec.ScgState.polakRibiere
          rw [← hg', eγ]
          rcases le_total ((g' ⬝ᵥ q.Q *ᵥ S.d) / δ) 0 with h0 | h0
          · rw [max_eq_right h0]
            simpa using sq_nonneg ((g' ⬝ᵥ q.Q *ᵥ S.d) / δ)
          · rw [max_eq_left h0]
        have hc := psd_cauchy q.psd g' S.d
        have hg1 := q.high g'
        have hcc : (g' ⬝ᵥ q.Q *ᵥ S.d) ^ 2 ≤ q.L * (g' ⬝ᵥ g') * δ := by
          calc (g' ⬝ᵥ q.Q *ᵥ S.d) ^ 2 ≤ (g' ⬝ᵥ q.Q *ᵥ g') * κ := hc
            _ ≤ q.L * (g' ⬝ᵥ g') * δ := by gcongr
        have hfin : ((g' ⬝ᵥ q.Q *ᵥ S.d) / δ) ^ 2 * δ ≤ q.L * (g' ⬝ᵥ g') := by
          rw [div_pow, div_mul_eq_mul_div, div_le_iff₀ (by positivity)]
          nlinarith
        calc q.m * ((S.polakRibiere q.G) ^ 2 * l) = (S.polakRibiere q.G) ^ 2 * (q.m * l) := by ring
          _ ≤ ((g' ⬝ᵥ q.Q *ᵥ S.d) / δ) ^ 2 * δ := by
            gcongr
            exact hκ0.trans hκδ
          _ ≤ _ := hfin
    obtain ⟨γ, hγ0, hγ1, hγ2⟩ := hdir
    set g' := q.G (S.trial q.G) with hg'
    refine ⟨?_, ?_, ?_, ?_⟩
    · rw [hscale, enew]
      exact lt_of_lt_of_le (by norm_num) (le_max_right _ _)
    · rw [hscale, enew]
      exact max_le (by linarith [h.le]) (by norm_num)
    · rw [hx, hγ1, sub_dotProduct, smul_dotProduct, smul_eq_mul]
      have : γ * (S.d ⬝ᵥ g') ≤ 0 := mul_nonpos_of_nonneg_of_nonpos hγ0 hdg
      linarith
    · rw [hx, hγ1]
      have hp : (γ • S.d - g') ⬝ᵥ (γ • S.d - g') ≤ 2 * (γ ^ 2 * l) + 2 * (g' ⬝ᵥ g') := by
        have := sub_sq_le (γ • S.d) g'
        have e : (γ • S.d) ⬝ᵥ (γ • S.d) = γ ^ 2 * l := by
          rw [smul_dotProduct, dotProduct_smul, smul_eq_mul, smul_eq_mul, hldef]; ring
        rwa [e] at this
      calc q.m * ((γ • S.d - g') ⬝ᵥ (γ • S.d - g')) ≤ q.m * (2 * (γ ^ 2 * l) + 2 * (g' ⬝ᵥ g')) := by gcongr
        _ = 2 * (q.m * (γ ^ 2 * l)) + 2 * q.m * (g' ⬝ᵥ g') := by ring
        _ ≤ 2 * (q.L * (g' ⬝ᵥ g')) + 2 * q.m * (g' ⬝ᵥ g') := by gcongr
        _ = _ := by ring
  · rw [hx]
    have h1 : (-(α * μ)) / 2 ≤ q.F S.x - q.F (S.trial q.G) := by linarith
    exact decrease_arith hm hL (by linarith) hg hμ0 (by rw [hα]; field_simp) hδ1 h.short h1

theorem rate_bounds (hn : 0 < n) : 0 < q.rate ∧ q.rate < 1 := by
  have hm := q.mpos
  have hL := q.Lpos hn
  have hmL : q.m ≤ q.L := by
    have h1 := q.low (fun _ => 1)
    have h2 := q.high (fun _ => 1)
    have h3 : (fun _ : Fin n => (1 : ℝ)) ⬝ᵥ (fun _ => 1) = n := by simp [dotProduct]
    have hn' : (0 : ℝ) < n := by exact_mod_cast hn
    rw [h3] at h1 h2
    exact le_of_mul_le_mul_right (h1.trans h2) hn'
  unfold rate
  constructor
  · rw [sub_pos, div_lt_one (by positivity)]
    nlinarith
  · have : 0 < q.m ^ 2 / (2 * (q.L + 1) * (q.L + q.m)) := by positivity
    linarith

/-- One iteration reduces the distance to any lower value by the factor `rate`. -/
theorem gap_next {S : Spec.ScgState n} (h : q.Inv S) (hd : ¬ S.NoDirection q.G) (hn : 0 < n) (y : Fin n → ℝ) :
    (1 - q.rate) * (q.F S.x - q.F y) ≤ q.F S.x - q.F (S.next q.F q.G).x := by
  have h1 := (inv_next h hd hn).2
  have h2 := q.gap_le S.x y
  have hm := q.mpos
  have hL := q.Lpos hn
  have h3 : 1 - q.rate = q.m ^ 2 / (2 * (q.L + 1) * (q.L + q.m)) := by unfold rate; ring
  rw [h3, div_mul_eq_mul_div, div_le_iff₀ (by positivity)]
  have h4 : q.m * (2 * q.m * (q.F S.x - q.F y)) ≤ q.m * (q.G S.x ⬝ᵥ q.G S.x) := by gcongr
  nlinarith

theorem scg_inv (x0 : Fin n → ℝ) (hn : 0 < n) (k : ℕ) (hd : ∀ j < k, ¬ (Spec.scg q.F q.G x0 j).NoDirection q.G) :
    q.Inv (Spec.scg q.F q.G x0 k) := by
  induction k with
  | zero => exact inv_start x0 hn
  | succ k ih => exact (inv_next (ih fun j hj => hd j (by omega)) (hd k (by omega)) hn).1

theorem scg_gap (x0 y : Fin n → ℝ) (hn : 0 < n) (k : ℕ) (hd : ∀ j < k, ¬ (Spec.scg q.F q.G x0 j).NoDirection q.G) :
    q.F (Spec.scg q.F q.G x0 k).x - q.F y ≤ q.rate ^ k * (q.F x0 - q.F y) := by
  induction k with
  | zero => simp [Spec.scg]
  | succ k ih =>
    have h1 := gap_next (scg_inv x0 hn k fun j hj => hd j (by omega)) (hd k (by omega)) hn y
    have h2 := ih fun j hj => hd j (by omega)
    have h3 := mul_le_mul_of_nonneg_left h2 (q.rate_bounds hn).1.le
    have h4 : (Spec.scg q.F q.G x0 (k + 1)) = (Spec.scg q.F q.G x0 k).next q.F q.G := rfl
    rw [h4, pow_succ']
    nlinarith

end Quad

/-- The objective is a quadratic, given with its exact gradient, and its curvature in every direction is between `m > 0` and `L`. -/
structure Spec.StrictlyConvex (o : Oracle σ A ℝ (Fin n → ℝ)) (args : A) (F : (Fin n → ℝ) → ℝ) (Q : Matrix (Fin n) (Fin n) ℝ)
    (b : Fin n → ℝ) (c m L : ℝ) : Prop extends Spec.ConvexQuadratic o args F Q b c where
  mpos : 0 < m
  low : ∀ v, m * (v ⬝ᵥ v) ≤ v ⬝ᵥ Q *ᵥ v
  high : ∀ v, v ⬝ᵥ Q *ᵥ v ≤ L * (v ⬝ᵥ v)

/-- C101: on a strictly convex quadratic, whatever call returns is close to the minimum: with `r = 1 - m² / (2 (L + 1) (L + m))`, the
distance of the returned value to the value at any point `y` (so to the minimum) is at most the largest of: `r^max_it` times
the distance at the start, `r / (1 - r)` times the tolerance for the value, and `1e-8 / (2 m)`, which stands for the test whether the gradient is zero. -/
theorem C101_quadratic_minimum (F : (Fin n → ℝ) → ℝ) (Q : Matrix (Fin n) (Fin n) ℝ) (b : Fin n → ℝ) (c m L : ℝ)
    (hq : Spec.StrictlyConvex o args F Q b c m L) (hn : 0 < n) (p p' : Scg ℝ) (hp : Spec.Arrays p) (x0 x : Fin n → ℝ) (s s' : σ) (fx : ℝ)
    (h : Scg.call (realArith n) o args p x0 s = (.ok (x, fx), p', s')) (r : ℝ) (hr : r = 1 - m ^ 2 / (2 * (L + 1) * (L + m)))
    (y : Fin n → ℝ) :
    0 < r ∧ r < 1
      ∧ fx - F y ≤ max (r ^ p.nit * (F x0 - F y)) (max (r / (1 - r) * p.f_tol) (1 / 10 ^ 8 / (2 * m))) := by
  let q : Quad n := ⟨Q, b, c, m, L, hq.psd, hq.mpos, hq.low, hq.high⟩
  have hF : F = q.F := funext fun x => hq.value x
  have hG : Spec.Computes o args q.F q.G := ⟨fun x s v s' h => hF ▸ hq.f x s v s' h, hq.df, hq.dfEval⟩
  have hr' : r = q.rate := hr
  obtain ⟨r0, r1⟩ := q.rate_bounds hn
  obtain ⟨k, h1, h2, -, h4, -, h6⟩ := C92_method hG p p' hp x0 x s s' fx h
  rw [h2, h1, hr', hF]
  refine ⟨r0, r1, ?_⟩
  have hm : 0 < q.m := q.mpos
  have hflat : ∀ z, q.G z ⬝ᵥ q.G z ≤ 1 / 10 ^ 8 → q.F z - q.F y ≤ 1 / 10 ^ 8 / (2 * m) := fun z hz => by
    rw [le_div_iff₀ (by have : 0 < m := hm; positivity)]
    have := q.gap_le z y
    have e : q.m = m := rfl
    rw [e] at this
    linarith
  rcases h6 with ⟨_, hno, _⟩ | ⟨j, rfl, _, hc, _⟩ | ⟨rfl, _⟩
  · refine le_max_of_le_right (le_max_of_le_right (hflat _ ?_))
    have hi := q.scg_inv x0 hn k h4
    set S := Spec.scg q.F q.G x0 k
    have hg0 := dotProduct_self_nonneg_real (q.G S.x)
    have hsmall : q.G S.x ⬝ᵥ q.G S.x ≤ S.len2 q.G := by
      unfold Spec.ScgState.len2 Spec.ScgState.dir
      split
      · have hc := dot_cauchy S.d (q.G S.x)
        have hd := hi.descent
        rcases hg0.eq_or_lt with h0 | h0
        · rw [← h0]; exact dotProduct_self_nonneg_real _
        · have : (q.G S.x ⬝ᵥ q.G S.x) ^ 2 ≤ (S.d ⬝ᵥ q.G S.x) ^ 2 := by nlinarith
          nlinarith
      · simp
    unfold Spec.ScgState.NoDirection at hno
    refine (hsmall.trans hno.le).trans (by norm_num)
  · obtain ⟨hle, ⟨-, hf⟩ | hf⟩ := hc
    · refine le_max_of_le_right (le_max_of_le_left ?_)
      have hgap := q.gap_next (q.scg_inv x0 hn j fun i hi => h4 i (by omega)) (h4 j (by omega)) hn y
      have e : (Spec.scg q.F q.G x0 (j + 1)) = (Spec.scg q.F q.G x0 j).next q.F q.G := rfl
      rw [e]
      have ex := next_x hle
      rw [ex] at hgap ⊢
      rw [abs_le] at hf
      have h7 : q.F (Spec.scg q.F q.G x0 j).x - q.F y ≤ p.f_tol / (1 - q.rate) := by
        rw [le_div_iff₀ (by linarith)]
        linarith
      have h8 : q.F ((Spec.scg q.F q.G x0 j).trial q.G) - q.F y ≤ q.rate * (q.F (Spec.scg q.F q.G x0 j).x - q.F y) := by linarith
      calc _ ≤ _ := h8
        _ ≤ q.rate * (p.f_tol / (1 - q.rate)) := by gcongr
        _ = _ := by ring
    · refine le_max_of_le_right (le_max_of_le_right ?_)
      rw [show (Spec.scg q.F q.G x0 (j + 1)) = (Spec.scg q.F q.G x0 j).next q.F q.G from rfl, next_x hle]
      exact hflat _ hf
  · exact le_max_of_le_left (q.scg_gap x0 y hn p.nit h4)

/-- Non-vacuity of C101: `x²/2 + 3 y²/2 - x` and the calls on it return. -/
example : ∃ (F : (Fin 2 → ℝ) → ℝ) (G : (Fin 2 → ℝ) → Fin 2 → ℝ) (Q : Matrix (Fin 2) (Fin 2) ℝ) (b : Fin 2 → ℝ),
    Spec.StrictlyConvex (pureOracle F G) () F Q b 0 1 3 ∧ ∀ x0, ∃ x fx p' s',
      Scg.call (realArith 2) (pureOracle F G) () (Scg.init (realArith 2) none none none) x0 () = (.ok (x, fx), p', s') := by
  let Q : Matrix (Fin 2) (Fin 2) ℝ := Matrix.diagonal ![1, 3]
  let b : Fin 2 → ℝ := ![1, 0]
  refine ⟨fun x => x ⬝ᵥ Q *ᵥ x / 2 - b ⬝ᵥ x + 0, fun x => Q *ᵥ x - b, Q, b, ⟨⟨?_, fun _ => rfl, ?_, ?_, ?_⟩, one_pos, fun v => ?_, fun v => ?_⟩,
    fun x0 => ?_⟩
  · exact (Matrix.PosDef.diagonal fun i => by fin_cases i <;> norm_num).posSemidef
  · intro x s v s' h; cases h; rfl
  · intro x s v s' h; cases h; rfl
  · intro x s v s' h; cases h; rfl
  · simp [Q, dotProduct, Matrix.mulVec_diagonal, Fin.sum_univ_two]
    nlinarith [sq_nonneg (v 1)]
  · simp [Q, dotProduct, Matrix.mulVec_diagonal, Fin.sum_univ_two]
    nlinarith [sq_nonneg (v 0)]
  · obtain ⟨q, p', s', h⟩ := call_total (Scg.init_arrays _ none none none) (pureOracle_total _ _) x0 ()
    exact ⟨q.1, q.2, p', s', h⟩

end VGPA
