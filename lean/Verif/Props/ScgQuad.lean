import Verif.Props.ScgReal

/-!
# C71: the optimizer on a convex quadratic, and concrete runs
-/

namespace VGPA

open Matrix

variable {σ A : Type} {n : ℕ} {o : Oracle σ A ℝ (Fin n → ℝ)} {args : A}

/-- A convex quadratic objective with its exact gradient. -/
structure Spec.ConvexQuadratic (o : Oracle σ A ℝ (Fin n → ℝ)) (args : A) (F : (Fin n → ℝ) → ℝ) (Q : Matrix (Fin n) (Fin n) ℝ)
    (b : Fin n → ℝ) (c : ℝ) : Prop where
  psd : Q.PosSemidef
  value : ∀ x, F x = x ⬝ᵥ Q.mulVec x / 2 - b ⬝ᵥ x + c
  f : ∀ x s v s', o.f x args s = (.ok v, s') → v = F x
  df : ∀ x s v s', o.df x args s = (.ok v, s') → v = Q.mulVec x - b
  dfEval : ∀ x s v s', o.dfEval x s = (.ok v, s') → v = Q.mulVec x - b

theorem Spec.ConvexQuadratic.step {F : (Fin n → ℝ) → ℝ} {Q : Matrix (Fin n) (Fin n) ℝ} {b : Fin n → ℝ} {c : ℝ}
    (h : Spec.ConvexQuadratic o args F Q b c) (x d : Fin n → ℝ) (α : ℝ) :
    F (x + α • d) - F x = α * (d ⬝ᵥ (Q.mulVec x - b)) + α ^ 2 / 2 * (d ⬝ᵥ Q.mulVec d) := by
  have hsym : x ⬝ᵥ Q.mulVec d = d ⬝ᵥ Q.mulVec x := by
    rw [Matrix.dotProduct_mulVec, ← Matrix.mulVec_transpose]
    have : Qᵀ = Q := by
      have h0 := h.psd.isHermitian
      rwa [Matrix.IsHermitian, Matrix.conjTranspose_eq_transpose_of_trivial] at h0
    rw [this, dotProduct_comm]
  rw [h.value, h.value, Matrix.mulVec_add, Matrix.mulVec_smul]
  simp only [add_dotProduct, dotProduct_add, smul_dotProduct, dotProduct_smul, smul_eq_mul, dotProduct_sub, hsym]
  rw [dotProduct_comm b d]
  ring

/-- One iteration on a convex quadratic, from locals left by an accepted step. -/
theorem turn_quadratic {F : (Fin n → ℝ) → ℝ} {Q : Matrix (Fin n) (Fin n) ℝ} {b : Fin n → ℝ} {c : ℝ}
    (h : Spec.ConvexQuadratic o args F Q b c) {p : Scg ℝ} {j : ℕ} {L : ScgLoc ℝ (Fin n → ℝ)} {w w' : World σ ℝ} {r}
    (hL : GoodLoc n L) (hs : L.success = true) (hg : L.grad_new = Q.mulVec L.x - b) (hf : L.f_old = F L.x)
    (ht : Scg.turn (realArith n) o args p n j L w = (.ok r, w')) :
    (r = .inr (L.x, L.f_now) ∧ w'.stats.fx = w.stats.fx ∧ w'.stats.beta = w.stats.beta)
    ∨ ∃ a, w'.stats.fx = w.stats.fx.set j a ∧ w'.stats.beta = w.stats.beta.set j L.beta ∧ a < L.f_old
      ∧ (∀ L', r = .inl L' → L'.f_old = a ∧ L'.success = true ∧ L'.grad_new = Q.mulVec L'.x - b
          ∧ L'.beta = max (L.beta / 2) (1 / 10 ^ 15)) ∧ (∀ q, r = .inr q → q.2 = a) := by
  rcases (turn_ok _ o args).1 ht with ⟨q, rfl, hd⟩ | ⟨L1, w1, beta, alpha, hd, hst, hm⟩
  · cases hd with
    | zero hs _ => exact .inl ⟨rfl, rfl, rfl⟩
  · right
    have h1 := dirPath_good hL hd
    obtain ⟨l1, l2, l3⟩ := dirPath_lengths hd
    obtain ⟨hx, hgr, hfo, hbe, hth⟩ : L1.x = L.x ∧ L1.grad_new = L.grad_new ∧ L1.f_old = L.f_old ∧ L1.beta = L.beta
        ∧ L1.theta = L1.d ⬝ᵥ Q.mulVec L1.d := by
      cases hd with
      | keep h' => rw [hs] at h'; cases h'
      | curv _ _ sigma theta g st hsg hgp hth =>
        refine ⟨rfl, rfl, rfl, rfl, ?_⟩
        have hsne : sigma ≠ 0 := by
          intro h0
          simp only [realArith, h0, if_true] at hth
          cases hth
        rw [h.dfEval _ _ _ _ hgp, hg] at hth
        generalize (dirOf (realArith n) L).1 = d at hth
        have e : (d ⬝ᵥ (Q.mulVec (L.x + sigma • d) - b - (Q.mulVec L.x - b))) / sigma = theta :=
          Except.ok.inj ((if_neg hsne).symm.trans hth)
        rw [← e, Matrix.mulVec_add, Matrix.mulVec_smul]
        have : Q.mulVec L.x + sigma • Q.mulVec d - b - (Q.mulVec L.x - b) = sigma • Q.mulVec d := by abel
        rw [this, dotProduct_smul, smul_eq_mul, mul_div_assoc, mul_comm, div_mul_cancel₀ _ hsne]
    obtain ⟨hn, hkpos, hbpos⟩ := h1.pos
    have hth0 : 0 ≤ L1.theta := by
      rw [hth]
      simpa using h.psd.dotProduct_mulVec_nonneg L1.d
    have hdpos : 0 < L1.theta + L1.beta * L1.kappa := by positivity
    obtain ⟨b', dl, e1, e2, e3, e4, e5⟩ := stepSize_real h1
    obtain ⟨rfl, rfl⟩ := e5 hdpos
    rw [e1] at hst
    obtain ⟨rfl, rfl⟩ := Prod.mk.inj (Except.ok.inj hst)
    rw [← l1, ← l2, ← hbe]
    have hmu := h1.descent
    obtain ⟨al, hal⟩ : ∃ al, al = -(L1.mu / (L1.theta + L1.beta * L1.kappa)) := ⟨_, rfl⟩
    rw [← hal] at hm e3
    have halm : al * (L1.theta + L1.beta * L1.kappa) = -L1.mu := by rw [hal]; field_simp
    have hnew : ∀ v st st', o.f ((realArith n).vadd L1.x ((realArith n).smul al L1.d)) args st = (.ok v, st') →
        v - L1.f_old = al * L1.mu + al ^ 2 / 2 * L1.theta := by
      intro v st st' hv
      rw [h.f _ _ _ _ hv, hfo, hf, ← hx]
      have := h.step L1.x L1.d al
      rw [← hth, show Q.mulVec L1.x - b = L1.grad_new by rw [hgr, hg, hx], ← h1.mu] at this
      exact this
    have hneg : al * L1.mu < 0 := mul_neg_of_pos_of_neg e3 hmu
    have hsq : al ^ 2 * L1.theta ≤ -(al * L1.mu) := by
      have : al * (al * (L1.theta + L1.beta * L1.kappa)) = al * -L1.mu := by rw [halm]
      nlinarith [mul_pos (mul_pos e3 e3) (mul_pos hbpos hkpos)]
    have hlow : ∀ v st st', o.f ((realArith n).vadd L1.x ((realArith n).smul al L1.d)) args st = (.ok v, st') → v < L1.f_old := by
      intro v st st' hv
      have := hnew v st st' hv
      nlinarith
    have hrat : ∀ v st st', o.f ((realArith n).vadd L1.x ((realArith n).smul al L1.d)) args st = (.ok v, st') →
        1 ≤ 2 * (v - L1.f_old) / (al * L1.mu) := by
      intro v st st' hv
      rw [le_div_iff_of_neg hneg, hnew v st st' hv]
      nlinarith
    have hdl' : ∀ v delta, (realArith n).div ((realArith n).mul ((realArith n).lit 2) ((realArith n).sub v L1.f_old))
        ((realArith n).mul al L1.mu) = .ok delta → delta = 2 * (v - L1.f_old) / (al * L1.mu) := by
      intro v delta hd
      obtain ⟨r1, _⟩ := ratio_real (n := n) (f_new := v) (f_old := L1.f_old) e3 hmu
      rw [r1] at hd
      exact (Except.ok.inj hd).symm
    cases hm with
    | reject f_new delta st hfn hdl hr hj L' hfin =>
      exfalso
      have := hrat _ _ _ hfn
      rw [← hdl' _ _ hdl] at this
      simp only [realArith, Rat.cast_zero, decide_eq_false_iff_not] at hr
      linarith
    | tol f_new delta big st hfn hdl hr hj _ _ _ =>
      refine ⟨f_new, rfl, rfl, ?_, fun L'' h => (by cases h), fun q h => by cases h; rfl⟩
      rw [← hfo]; exact hlow _ _ _ hfn
    | flat f_new delta big f_now g st st2 st3 hfn hdl hr hj _ _ hf2 _ _ =>
      refine ⟨f_new, rfl, rfl, ?_, fun L'' h => (by cases h), fun q hq => ?_⟩
      · rw [← hfo]; exact hlow _ _ _ hfn
      · cases hq
        rw [h.f _ _ _ _ hfn, h.f _ _ _ _ hf2]
    | accept f_new delta big f_now g st st2 st3 hfn hdl hr hj _ _ hf2 hgn _ L' hfin =>
      refine ⟨f_new, rfl, rfl, ?_, fun L'' hL'' => ?_, fun q h => by cases h⟩
      · rw [← hfo]; exact hlow _ _ _ hfn
      · cases hL''
        obtain ⟨f1, f2, f3, f4, _, f6, _⟩ := finish_ok _ hfin
        refine ⟨f3, f6, ?_, ?_⟩
        · rw [f4, f1]; exact h.df _ _ _ _ hgn
        · have h1' := hrat _ _ _ hfn
          rw [← hdl' _ _ hdl] at h1'
          have hb : ∀ x : ℝ, (if (realArith n).lt ((realArith n).lit (3 / 4)) delta
              then (realArith n).max ((realArith n).mul ((realArith n).lit (1 / 2))
                (if (realArith n).lt delta ((realArith n).lit (1 / 4)) then (realArith n).min ((realArith n).mul ((realArith n).lit 4) x)
                  ((realArith n).lit (10 ^ 100)) else x)) ((realArith n).lit (1 / 10 ^ 15))
              else if (realArith n).lt delta ((realArith n).lit (1 / 4)) then (realArith n).min ((realArith n).mul ((realArith n).lit 4) x)
                  ((realArith n).lit (10 ^ 100)) else x) = max (x / 2) (1 / 10 ^ 15) := by
            intro x
            have a1 : ¬ (delta < ((1 / 4 : ℚ) : ℝ)) := by push_cast; linarith
            have a2 : ((3 / 4 : ℚ) : ℝ) < delta := by push_cast; linarith
            simp only [realArith, a1, a2, decide_true, decide_false, if_true, if_false, Bool.false_eq_true]
            push_cast
            congr 1
            ring
          unfold Scg.finish at hfin
          dsimp only at hfin
          rw [hb] at hfin
          split at hfin
          · simp only [pure, Except.pure, Except.ok.injEq] at hfin
            rw [← hfin]
          · rw [if_pos rfl] at hfin
            simp only [bind, Except.bind, pure, Except.pure] at hfin
            split at hfin
            · cases hfin
            · simp only [Except.ok.injEq] at hfin
              rw [← hfin]

/-- C71: on a convex quadratic with its exact gradient every iteration lowers the objective strictly (a rejected step would
record the old value again), and the recorded scales are `max(2^-j, 1e-15)`, `j = 0, 1, ...`: they are halved every time,
as after successful steps only. -/
theorem C71_convex_quadratic (F : (Fin n → ℝ) → ℝ) (Q : Matrix (Fin n) (Fin n) ℝ) (b : Fin n → ℝ) (c : ℝ)
    (hq : Spec.ConvexQuadratic o args F Q b c) (p p' : Scg ℝ) (hp : Spec.Arrays p) (x0 x : Fin n → ℝ) (s s' : σ) (fx : ℝ)
    (h : Scg.call (realArith n) o args p x0 s = (.ok (x, fx), p', s')) :
    ∃ vals, vals.length ≤ p.nit ∧ p'.stats.fx = vals ++ p.stats.fx.drop vals.length
      ∧ (F x0 :: vals).Pairwise (fun a b => b < a) ∧ (F x0 :: vals).getLast? = some fx
      ∧ p'.stats.beta = List.ofFn (fun j : Fin vals.length => max ((1 / 2) ^ (j : ℕ)) (1 / 10 ^ 15))
          ++ p.stats.beta.drop vals.length := by
  have snoc : ∀ {v a : ℝ} {vals : List ℝ}, (F x0 :: vals).Pairwise (fun a b => b < a) → (F x0 :: vals).getLast? = some v →
      a < v → (F x0 :: (vals ++ [a])).Pairwise (fun a b => b < a) ∧ (F x0 :: (vals ++ [a])).getLast? = some a := by
    intro v a vals h1 h2 ha
    constructor
    · rw [← List.cons_append, List.pairwise_append]
      refine ⟨h1, List.pairwise_singleton _ _, fun b hb c hc => ?_⟩
      rw [List.mem_singleton] at hc
      subst hc
      refine lt_of_lt_of_le ha ?_
      rw [List.getLast?_eq_some_iff] at h2
      obtain ⟨ys, hys⟩ := h2
      rw [hys] at hb h1
      rcases List.mem_append.1 hb with hb | hb
      · exact ((List.pairwise_append.1 h1).2.2 b hb v (by simp)).le
      · rw [List.mem_singleton] at hb; exact hb.ge
    · rw [← List.cons_append, List.getLast?_append]; rfl
  have betas : ∀ (m : ℕ) (l : List ℝ), m < l.length →
      (List.ofFn (fun j : Fin m => max ((1 / 2 : ℝ) ^ (j : ℕ)) (1 / 10 ^ 15)) ++ l.drop m).set m (max ((1 / 2) ^ m) (1 / 10 ^ 15))
        = List.ofFn (fun j : Fin (m + 1) => max ((1 / 2 : ℝ) ^ (j : ℕ)) (1 / 10 ^ 15)) ++ l.drop (m + 1) := by
    intro m l hl
    have := set_append_drop (List.ofFn (fun j : Fin m => max ((1 / 2 : ℝ) ^ (j : ℕ)) (1 / 10 ^ 15))) l (max ((1 / 2) ^ m) (1 / 10 ^ 15))
      (by simpa using hl)
    rw [List.length_append, List.length_ofFn] at this
    rw [this, List.ofFn_succ_last]
    rfl
  have inv : ∀ {it L w}, Reach (realArith n) o args p x0 s it L w → ∃ vals : List ℝ, vals.length = it
      ∧ w.stats.fx = vals ++ p.stats.fx.drop vals.length
      ∧ (F x0 :: vals).Pairwise (fun a b => b < a) ∧ (F x0 :: vals).getLast? = some L.f_old
      ∧ w.stats.beta = List.ofFn (fun j : Fin it => max ((1 / 2) ^ (j : ℕ)) (1 / 10 ^ 15)) ++ p.stats.beta.drop it
      ∧ L.success = true ∧ L.grad_new = Q.mulVec L.x - b ∧ L.beta = max ((1 / 2) ^ it) (1 / 10 ^ 15) := by
    intro it L w hr
    induction hr with
    | start f0 g0 s1 s2 hf hg =>
      refine ⟨[], rfl, rfl, List.pairwise_singleton _ _, ?_, rfl, rfl, hq.df _ _ _ _ hg, ?_⟩
      · rw [← hq.f _ _ _ _ hf]; rfl
      · simp only [ScgLoc.start, realArith]
        rw [max_eq_left (by norm_num)]
        simp
    | @step it L L' w w' hr hit ht ih =>
      obtain ⟨vals, h1, h2, h3, h4, h5, h6, h7, h8⟩ := ih
      rcases turn_quadratic hq (reach_good hr) h6 h7 (reach_value F hq.f hr).1 ht with ⟨h, _⟩ | ⟨a, e1, e2, e3, e4, _⟩
      · cases h
      · obtain ⟨k1, k2, k3, k4⟩ := e4 _ rfl
        obtain ⟨s1, s2⟩ := snoc h3 h4 e3
        refine ⟨vals ++ [a], by simp [h1], ?_, s1, by rw [k1]; exact s2, ?_, k2, k3, ?_⟩
        · rw [e1, h2, ← h1]
          exact set_append_drop _ _ _ (by rw [hp.fx, h1]; exact hit)
        · rw [e2, h5, h8]
          exact betas it _ (by rw [hp.beta]; exact hit)
        · rw [k4, h8]
          rcases le_total ((1 / 2 : ℝ) ^ it) (1 / 10 ^ 15) with hle | hle
          · rw [max_eq_right hle, max_eq_right (by norm_num), max_eq_right]
            rw [pow_succ]
            linarith [show (0 : ℝ) ≤ (1 / 2) ^ it by positivity]
          · rw [max_eq_left hle, pow_succ]
            congr 1
            ring
  obtain ⟨it, L, w, hr, hc, _⟩ := call_reach _ o args h
  obtain ⟨vals, h1, h2, h3, h4, h5, h6, h7, h8⟩ := inv hr
  rcases hc with ⟨rfl, hq', rfl⟩ | ⟨hit, ht⟩
  · cases hq'
    refine ⟨vals, h1.le, h2, h3, h4, ?_⟩
    rw [h1]; exact h5
  · rcases turn_quadratic hq (reach_good hr) h6 h7 (reach_value F hq.f hr).1 ht with ⟨h, e1, e2⟩ | ⟨a, e1, e2, e3, _, e5⟩
    · cases h
      obtain ⟨v1, v2⟩ := reach_value F hq.f hr
      refine ⟨vals, by omega, e1.trans h2, h3, ?_, ?_⟩
      · rw [v2 h6, ← v1]; exact h4
      · rw [h1]; exact e2.trans h5
    · obtain ⟨s1, s2⟩ := snoc h3 h4 e3
      refine ⟨vals ++ [a], by simp; omega, ?_, s1, ?_, ?_⟩
      · refine e1.trans ?_
        rw [h2, ← h1]
        exact set_append_drop _ _ _ (by rw [hp.fx, h1]; exact hit)
      · rw [show fx = a from e5 _ rfl]; exact s2
      · refine e2.trans ?_
        rw [h5, h8, betas it _ (by rw [hp.beta]; exact hit)]
        have : (vals ++ [a]).length = it + 1 := by simp [h1]
        rw [this]

/-! ## Concrete runs -/

/-- Two functions without memory. -/
def pureOracle (F : (Fin n → ℝ) → ℝ) (G : (Fin n → ℝ) → Fin n → ℝ) : Oracle Unit Unit ℝ (Fin n → ℝ) where
  f x _ s := (.ok (F x), s)
  df x _ s := (.ok (G x), s)
  dfEval x s := (.ok (G x), s)

theorem pureOracle_total (F : (Fin n → ℝ) → ℝ) (G : (Fin n → ℝ) → Fin n → ℝ) : Spec.NeverRaises (pureOracle F G) () :=
  ⟨fun x s => ⟨F x, s, rfl⟩, fun x s => ⟨G x, s, rfl⟩, fun x s => ⟨G x, s, rfl⟩⟩

/-- Two functions that remember the last point and count evaluations. -/
def tracing (F : (Fin n → ℝ) → ℝ) (G : (Fin n → ℝ) → Fin n → ℝ) : Oracle ((Fin n → ℝ) × ℕ × ℕ) Unit ℝ (Fin n → ℝ) where
  f x _ s := (.ok (F x), (x, s.2.1 + 1, s.2.2))
  df x _ s := (.ok (G x), (s.1, s.2.1, s.2.2 + 1))
  dfEval x s := (.ok (G x), (x, s.2.1 + 1, s.2.2 + 1))

theorem tracing_total (F : (Fin n → ℝ) → ℝ) (G : (Fin n → ℝ) → Fin n → ℝ) : Spec.NeverRaises (tracing F G) () :=
  ⟨fun _ _ => ⟨_, _, rfl⟩, fun _ _ => ⟨_, _, rfl⟩, fun _ _ => ⟨_, _, rfl⟩⟩

/-- Non-vacuity of C65, C66, C70, C72: every pair of functions gives a run, from every start point. -/
example (F : (Fin n → ℝ) → ℝ) (G : (Fin n → ℝ) → Fin n → ℝ) (k : Option ℕ) (x0 : Fin n → ℝ) :
    ∃ x fx p', Scg.call (realArith n) (pureOracle F G) () (Scg.init (realArith n) k none none) x0 () = (.ok (x, fx), p', ()) := by
  obtain ⟨q, p', s', h⟩ := call_total (Scg.init_arrays _ _ _ _) (pureOracle_total F G) x0 ()
  exact ⟨q.1, q.2, p', h⟩

/-- Non-vacuity of C64. -/
example (F : (Fin n → ℝ) → ℝ) (G : (Fin n → ℝ) → Fin n → ℝ) (k : Option ℕ) (x0 x : Fin n → ℝ) (fx p')
    (h : Scg.call (realArith n) (pureOracle F G) () (Scg.init (realArith n) k none none) x0 () = (.ok (x, fx), p', ())) : fx = F x :=
  C64_consistent_pair (o := pureOracle F G) F (fun x s v s' h => by cases h; rfl) _ p' x0 () () x fx h

/-- Non-vacuity of C67. -/
example (F : (Fin n → ℝ) → ℝ) (G : (Fin n → ℝ) → Fin n → ℝ) :
    Spec.CountsCalls (tracing F G) () (fun s => s.2.1) (fun s => s.2.2) := by
  refine ⟨fun x s v s' h => ?_, fun x s v s' h => ?_, fun x s v s' h => ?_⟩ <;> cases h <;> exact ⟨rfl, rfl⟩

/-- Non-vacuity of C69. -/
theorem tracing_remembers (F : (Fin n → ℝ) → ℝ) (G : (Fin n → ℝ) → Fin n → ℝ) :
    Spec.Remembers (tracing F G) () (fun x s => s.1 = x) := by
  refine ⟨fun x s v s' h => ?_, fun x s v s' h0 h => ?_, fun x s v s' h => ?_⟩
  · cases h; rfl
  · cases h; exact h0
  · cases h; rfl

/-- Non-vacuity of C71. -/
example (Q : Matrix (Fin n) (Fin n) ℝ) (hQ : Q.PosSemidef) (b : Fin n → ℝ) :
    Spec.ConvexQuadratic (pureOracle (fun x => x ⬝ᵥ Q.mulVec x / 2 - b ⬝ᵥ x + 1) (fun x => Q.mulVec x - b)) ()
      (fun x => x ⬝ᵥ Q.mulVec x / 2 - b ⬝ᵥ x + 1) Q b 1 := by
  refine ⟨hQ, fun _ => rfl, fun x s v s' h => ?_, fun x s v s' h => ?_, fun x s v s' h => ?_⟩ <;> cases h <;> rfl

/-- Non-vacuity of `C72_violated`: the gradient of a linear function. -/
example : (1 / 2 ^ 52 : ℝ) ≤ (fun _ : Fin 3 => (1 : ℝ)) ⬝ᵥ (fun _ : Fin 3 => (1 : ℝ)) := by
  simp [dotProduct]; norm_num

end VGPA
