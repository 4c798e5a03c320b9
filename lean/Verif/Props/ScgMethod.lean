import Verif.Spec.Scg
import Verif.Props.ScgQuad

/-!
# C92, C93: the optimizer is the scaled conjugate gradient method
-/

namespace VGPA

open Matrix

variable {σ A : Type} {n : ℕ} {o : Oracle σ A ℝ (Fin n → ℝ)} {args : A}

/-- The two functions compute `F` and `G`, whatever state they share and whichever way they are called. -/
structure Spec.Computes (o : Oracle σ A ℝ (Fin n → ℝ)) (args : A) (F : (Fin n → ℝ) → ℝ) (G : (Fin n → ℝ) → Fin n → ℝ) :
    Prop where
  f : ∀ x s v s', o.f x args s = (.ok v, s') → v = F x
  df : ∀ x s v s', o.df x args s = (.ok v, s') → v = G x
  dfEval : ∀ x s v s', o.dfEval x s = (.ok v, s') → v = G x

section
variable {F : (Fin n → ℝ) → ℝ} {G : (Fin n → ℝ) → Fin n → ℝ}

/-- The locals of the loop represent a state of the method. -/
structure ScgFollows (F : (Fin n → ℝ) → ℝ) (G : (Fin n → ℝ) → Fin n → ℝ) (L : ScgLoc ℝ (Fin n → ℝ)) (S : Spec.ScgState n)
    (y : Fin n → ℝ) : Prop where
  x : L.x = S.x
  d : L.d = S.d
  scale : L.beta = S.scale
  steps : L.count_success = S.steps
  value : L.f_old = F S.x
  grad : L.grad_new = G S.x
  old : L.grad_old = G y
  now : L.success = true → L.f_now = F S.x
  kept : L.success = false → L.theta = S.curvature G

/-- The locals when the step is computed. -/
structure ScgFollowsDir (F : (Fin n → ℝ) → ℝ) (G : (Fin n → ℝ) → Fin n → ℝ) (L : ScgLoc ℝ (Fin n → ℝ)) (S : Spec.ScgState n)
    (y : Fin n → ℝ) : Prop where
  x : L.x = S.x
  d : L.d = S.dir G
  scale : L.beta = S.scale
  steps : L.count_success = S.steps
  value : L.f_old = F S.x
  grad : L.grad_new = G S.x
  old : L.grad_old = G y
  slope : L.mu = S.slope G
  len2 : L.kappa = S.len2 G
  curvature : L.theta = S.curvature G
  direction : ¬ S.NoDirection G

theorem dirOf_follows {L : ScgLoc ℝ (Fin n → ℝ)} {S : Spec.ScgState n} {y : Fin n → ℝ} (h : ScgFollows F G L S y) :
    dirOf (realArith n) L = (S.dir G, S.slope G) := by
  have e : (dirOf (realArith n) L).1 = S.dir G := by
    unfold dirOf Spec.ScgState.dir
    simp only [realArith, Rat.cast_zero, decide_eq_true_eq, h.d, h.grad]
    by_cases hc : S.d ⬝ᵥ G S.x < 0
    · rw [if_neg (not_le.2 hc), if_pos hc]
    · rw [if_pos (not_lt.1 hc), if_neg hc]
  refine Prod.ext e ?_
  rw [(dirOf_real L).1, e, h.grad]
  rfl

theorem dirPath_follows (ho : Spec.Computes o args F G) {j : ℕ} {L : ScgLoc ℝ (Fin n → ℝ)} {S : Spec.ScgState n} {y : Fin n → ℝ} {w w1 : World σ ℝ}
    {r} (hL : GoodLoc n L) (h : ScgFollows F G L S y) (hd : DirPath (realArith n) o j L w r w1) :
    (∀ L1, r = .inl L1 → ScgFollowsDir F G L1 S y) ∧ ∀ q, r = .inr q → S.NoDirection G ∧ q = (S.x, F S.x) := by
  cases hd with
  | keep hs =>
    refine ⟨fun L1 e => ?_, fun q e => by cases e⟩
    cases e
    obtain ⟨k1, k2, k3, k4⟩ := hL.kept hs
    have hdir : S.dir G = S.d := by
      unfold Spec.ScgState.dir
      rw [if_pos]
      rw [← h.d, ← h.grad, ← k1]
      exact k2
    refine ⟨h.x, hdir ▸ h.d, h.scale, h.steps, h.value, h.grad, h.old, ?_, ?_, h.kept hs, ?_⟩
    · rw [k1, h.d, h.grad, Spec.ScgState.slope, hdir]
    · rw [k3, h.d, Spec.ScgState.len2, hdir]
    · rw [Spec.ScgState.NoDirection, Spec.ScgState.len2, hdir, ← h.d, ← k3]
      exact not_lt.2 k4
  | zero hs hk =>
    refine ⟨fun L1 e => (by cases e), fun q e => ?_⟩
    cases e
    rw [dirOf_follows h] at hk
    refine ⟨?_, by rw [h.x, h.now hs]⟩
    simp only [realArith, decide_eq_true_eq] at hk
    rw [Spec.ScgState.NoDirection, Spec.ScgState.len2]
    push_cast at hk
    exact hk
  | curv hs hk sigma theta g st hsg hg ht =>
    refine ⟨fun L1 e => ?_, fun q e => by cases e⟩
    cases e
    have hd := dirOf_follows h
    rw [hd] at hk hsg hg ht
    have hg' := ho.dfEval _ _ _ _ hg
    have hbig : ¬ S.NoDirection G := by
      simp only [realArith, decide_eq_false_iff_not] at hk
      rw [Spec.ScgState.NoDirection, Spec.ScgState.len2]
      push_cast at hk
      exact hk
    have hs' : sigma = 1 / 1000 / √(S.len2 G) := by
      simp only [realArith] at hsg
      split at hsg
      · cases hsg
      · cases hsg
        push_cast
        rfl
    refine ⟨h.x, by rw [hd], h.scale, h.steps, h.value, h.grad, h.old, by rw [hd], by rw [hd]; rfl, ?_, hbig⟩
    simp only [realArith] at ht
    split at ht
    · cases ht
    · cases ht
      rw [hg', h.grad, hs']
      simp only [realArith, h.x]
      rfl

theorem stepSize_follows {L : ScgLoc ℝ (Fin n → ℝ)} {S : Spec.ScgState n} {y : Fin n → ℝ} (hL : StepLoc n L) (h : ScgFollowsDir F G L S y) {b a : ℝ}
    (hst : Scg.stepSize (realArith n) L = .ok (b, a)) : b = S.raised G ∧ a = S.stepLength G := by
  unfold Spec.ScgState.raised Spec.ScgState.stepLength Spec.ScgState.scaled
  rw [← h.curvature, ← h.scale, ← h.len2, ← h.slope]
  unfold Scg.stepSize at hst
  simp only [realArith, Rat.cast_zero, decide_eq_true_eq, bind, Except.bind, pure, Except.pure] at hst
  obtain ⟨_, hk, hb⟩ := hL.pos
  have hpos : 0 < L.beta * L.kappa := mul_pos hb hk
  by_cases hd : L.theta + L.beta * L.kappa ≤ 0
  · rw [if_pos hd] at hst
    simp only [hk.ne', if_false, hpos.ne'] at hst
    cases hst
    rw [if_neg (not_lt.2 hd), if_neg (not_lt.2 hd)]
    exact ⟨rfl, rfl⟩
  · rw [if_neg hd] at hst
    have hp := not_le.1 hd
    simp only [hp.ne', if_false] at hst
    cases hst
    rw [if_pos hp, if_pos hp]
    exact ⟨rfl, rfl⟩

theorem newScale_eq {S : Spec.ScgState n} {delta b : ℝ} (hd : delta = S.ratio F G) (hb : b = S.raised G) :
    (if (realArith n).lt ((realArith n).lit (3 / 4)) delta
      then (realArith n).max ((realArith n).mul ((realArith n).lit (1 / 2))
        (if (realArith n).lt delta ((realArith n).lit (1 / 4)) then (realArith n).min ((realArith n).mul ((realArith n).lit 4) b)
          ((realArith n).lit (10 ^ 100)) else b)) ((realArith n).lit (1 / 10 ^ 15))
      else if (realArith n).lt delta ((realArith n).lit (1 / 4)) then (realArith n).min ((realArith n).mul ((realArith n).lit 4) b)
          ((realArith n).lit (10 ^ 100)) else b) = S.newScale F G := by
  unfold Spec.ScgState.newScale
  rw [← hd, ← hb]
  simp only [realArith, decide_eq_true_eq]
  push_cast
  by_cases h1 : delta < 1 / 4
  · rw [if_neg (by linarith : ¬ (3 / 4 : ℝ) < delta), if_pos h1, if_pos h1]
  · by_cases h2 : 3 / 4 < delta
    · rw [if_pos h2, if_neg h1, if_neg h1, if_pos h2]
    · rw [if_neg h2, if_neg h1, if_neg h1, if_neg h2]

/-- What an iteration of the method stores: the value at the point reached, the scale it used, and the absolute entries of the
gradient at `y`. -/
def ScgRecordsStep (F : (Fin n → ℝ) → ℝ) (G : (Fin n → ℝ) → Fin n → ℝ) (S : Spec.ScgState n) (y : Fin n → ℝ) (j : ℕ) (t t' : ScgStats ℝ) :
    Prop :=
  t'.fx = t.fx.set j (F (S.next F G).x) ∧ t'.beta = t.beta.set j (S.raised G) ∧ t'.dfx = t.dfx.set j (∑ i, |G y i|)

theorem next_x {S : Spec.ScgState n} (h : F (S.trial G) ≤ F S.x) : (S.next F G).x = S.trial G := by
  rw [Spec.ScgState.next, if_pos h]
  split <;> rfl

theorem absMax_le {v : Fin n → ℝ} {a big t : ℝ} (h : (realArith n).absMax ((realArith n).smul a v) = .ok big) :
    (realArith n).le big t = true ↔ ∀ i, |a * v i| ≤ t := by
  simp only [realArith] at h ⊢
  split at h
  · cases h
  · cases h
    rw [decide_eq_true_eq]
    refine (Finset.sup'_le_iff _ _).trans ?_
    simp

theorem isClose_le {v : Fin n → ℝ} : (realArith n).isClose0 ((realArith n).dot v v) = true ↔ v ⬝ᵥ v ≤ 1 / 10 ^ 8 := by
  simp only [realArith, decide_eq_true_eq]
  rw [abs_of_nonneg (dotProduct_self_nonneg_real v)]

theorem turn_follows (ho : Spec.Computes o args F G) {p : Scg ℝ} {j : ℕ} {L : ScgLoc ℝ (Fin n → ℝ)} {S : Spec.ScgState n}
    {y : Fin n → ℝ} {w w' : World σ ℝ} {r} (hL : GoodLoc n L) (h : ScgFollows F G L S y)
    (ht : Scg.turn (realArith n) o args p n j L w = (.ok r, w')) :
    (S.NoDirection G ∧ r = .inr (S.x, F S.x) ∧ w'.stats.fx = w.stats.fx ∧ w'.stats.beta = w.stats.beta
        ∧ w'.stats.dfx = w.stats.dfx ∧ w'.stats.MaxIt = j + 1)
    ∨ (¬ S.NoDirection G ∧ ScgRecordsStep F G S (S.origin F G y) j w.stats w'.stats ∧
        ((S.Converged F G p.x_tol p.f_tol ∧ r = .inr ((S.next F G).x, F (S.next F G).x) ∧ w'.stats.MaxIt = j + 1)
        ∨ (¬ S.Converged F G p.x_tol p.f_tol ∧ w'.stats.MaxIt = w.stats.MaxIt
            ∧ ∃ L', r = .inl L' ∧ ScgFollows F G L' (S.next F G) (S.origin F G y)))) := by
  rcases (turn_ok _ o args).1 ht with ⟨q, rfl, hd⟩ | ⟨L1, w1, beta, alpha, hd, hst, hm⟩
  · obtain ⟨e1, e2⟩ := (dirPath_follows ho hL h hd).2 q rfl
    obtain ⟨l1, l2, l3⟩ := dirPath_lengths hd
    refine .inl ⟨e1, by rw [e2], l1, l2, l3, ?_⟩
    cases hd with
    | zero _ _ => rfl
  · have h1 := dirPath_good hL hd
    have f1 := (dirPath_follows ho hL h hd).1 L1 rfl
    obtain ⟨l1, l2, l3⟩ := dirPath_lengths hd
    have lM : w1.stats.MaxIt = w.stats.MaxIt := by
      cases hd with
      | keep _ => rfl
      | curv _ _ _ _ _ _ _ _ _ => rfl
    obtain ⟨b, dl, e1, e2, e3, e4, _⟩ := stepSize_real h1
    obtain ⟨hb, ha⟩ := stepSize_follows h1 f1 hst
    rw [e1] at hst
    obtain ⟨rfl, rfl⟩ := Prod.mk.inj (Except.ok.inj hst)
    rw [ha] at hm e3
    have hslope : S.slope G < 0 := f1.slope ▸ h1.descent
    have htrial : (realArith n).vadd L1.x ((realArith n).smul (S.stepLength G) L1.d) = S.trial G := by
      rw [f1.x, f1.d]; rfl
    obtain ⟨r1, r2⟩ := ratio_real (n := n) (f_new := F (S.trial G)) (f_old := F S.x) e3 hslope
    have hratio : 2 * (F (S.trial G) - F S.x) / (S.stepLength G * S.slope G) = S.ratio F G := rfl
    rw [hratio] at r1 r2
    have hsum : ∀ v, (realArith n).absSum v = ∑ i, |v i| := fun v => rfl
    refine .inr ⟨f1.direction, ?_⟩
    cases hm with
    | reject f_new delta st hf hdl hr hj L'' hfin =>
      simp only [htrial] at hf
      have hv := ho.f _ _ _ _ hf
      subst hv
      simp only [f1.value, f1.slope] at hdl
      rw [r1] at hdl
      cases hdl
      have hno : ¬ F (S.trial G) ≤ F S.x := fun hc => by rw [r2.2 hc] at hr; cases hr
      have hnext : S.next F G = ⟨S.x, S.dir G, S.newScale F G, S.steps⟩ := by
        rw [Spec.ScgState.next, if_neg hno]
      have horig : S.origin F G y = y := by rw [Spec.ScgState.origin, if_neg hno]
      refine ⟨⟨?_, ?_, ?_⟩, .inr ⟨fun hc => hno hc.1, lM, L'', rfl, ?_⟩⟩
      · simp only [ScgStats.recorded, ScgStats.bumped, l1, hnext, f1.value]
      · simp only [ScgStats.recorded, ScgStats.bumped, l2, hb]
      · simp only [ScgStats.recorded, ScgStats.bumped, l3, horig, f1.old, hsum]
      · rw [horig, hnext]
        unfold Scg.finish at hfin
        simp only [h1.count.ne, if_false, pure, Except.pure, Bool.false_eq_true, newScale_eq rfl hb] at hfin
        cases hfin
        refine ⟨f1.x, f1.d, rfl, f1.steps, f1.value, f1.grad, f1.old, (fun h' => by cases h'), fun _ => ?_⟩
        rw [f1.curvature]
        have hdir : (⟨S.x, S.dir G, S.newScale F G, S.steps⟩ : Spec.ScgState n).dir G = S.dir G := by
          conv_lhs => rw [Spec.ScgState.dir]
          rw [if_pos]
          exact hslope
        simp only [Spec.ScgState.curvature, Spec.ScgState.len2, hdir]
    | tol f_new delta big st hf hdl hr hj hbig hx hft =>
      simp only [htrial] at hf
      have hv := ho.f _ _ _ _ hf
      subst hv
      simp only [f1.value, f1.slope] at hdl
      rw [r1] at hdl
      cases hdl
      have hle := r2.1 hr
      refine ⟨⟨?_, ?_, ?_⟩, .inl ⟨⟨hle, .inl ⟨?_, ?_⟩⟩, ?_, rfl⟩⟩
      · simp only [ScgStats.recorded, ScgStats.bumped, l1, next_x hle]
      · simp only [ScgStats.recorded, ScgStats.bumped, l2, hb]
      · simp only [ScgStats.recorded, ScgStats.bumped, l3, Spec.ScgState.origin, if_pos hle, f1.grad, hsum]
      · simp only [f1.d] at hbig
        exact (absMax_le hbig).1 hx
      · simpa [realArith, f1.value] using hft
      · simp only [htrial, next_x hle]
    | flat f_new delta big f_now g st st2 st3 hf hdl hr hj hbig hn hf2 hg hc =>
      simp only [htrial] at hf hf2 hg
      have hv := ho.f _ _ _ _ hf
      subst hv
      have hv := ho.f _ _ _ _ hf2
      subst hv
      have hv := ho.df _ _ _ _ hg
      subst hv
      simp only [f1.value, f1.slope] at hdl
      rw [r1] at hdl
      cases hdl
      have hle := r2.1 hr
      refine ⟨⟨?_, ?_, ?_⟩, .inl ⟨⟨hle, .inr (isClose_le.1 hc)⟩, ?_, rfl⟩⟩
      · simp only [ScgStats.recorded, ScgStats.bumped, l1, next_x hle]
      · simp only [ScgStats.recorded, ScgStats.bumped, l2, hb]
      · simp only [ScgStats.recorded, ScgStats.bumped, l3, Spec.ScgState.origin, if_pos hle, f1.grad, hsum]
      · simp only [htrial, next_x hle]
    | accept f_new delta big f_now g st st2 st3 hf hdl hr hj hbig hn hf2 hg hc L'' hfin =>
      simp only [htrial] at hf hf2 hg hfin
      have hv := ho.f _ _ _ _ hf
      subst hv
      have hv := ho.f _ _ _ _ hf2
      subst hv
      have hv := ho.df _ _ _ _ hg
      subst hv
      simp only [f1.value, f1.slope] at hdl
      rw [r1] at hdl
      cases hdl
      have hle := r2.1 hr
      have horig : S.origin F G y = S.x := by rw [Spec.ScgState.origin, if_pos hle]
      refine ⟨⟨?_, ?_, ?_⟩, .inr ⟨?_, lM, L'', rfl, ?_⟩⟩
      · simp only [ScgStats.recorded, ScgStats.bumped, l1, next_x hle]
      · simp only [ScgStats.recorded, ScgStats.bumped, l2, hb]
      · simp only [ScgStats.recorded, ScgStats.bumped, l3, horig, f1.grad, hsum]
      · rintro ⟨_, ⟨c1, c2⟩ | c1⟩
        · simp only [f1.d] at hbig
          exact hn ⟨(absMax_le hbig).2 c1, by simpa [realArith, f1.value] using c2⟩
        · rw [isClose_le.2 c1] at hc
          cases hc
      · rw [horig, Spec.ScgState.next, if_pos hle]
        unfold Scg.finish at hfin
        simp only [newScale_eq rfl hb, f1.steps, if_true, f1.slope, f1.grad] at hfin
        by_cases hn : S.steps + 1 = n
        · rw [if_pos hn] at hfin ⊢
          simp only [pure, Except.pure] at hfin
          cases hfin
          exact ⟨rfl, rfl, rfl, rfl, rfl, rfl, rfl, fun _ => rfl, fun h' => by cases h'⟩
        · rw [if_neg hn] at hfin ⊢
          have hdiv : (realArith n).div ((realArith n).dot (G (S.trial G)) ((realArith n).vsub (G S.x) (G (S.trial G)))) (S.slope G)
              = .ok (G (S.trial G) ⬝ᵥ (G S.x - G (S.trial G)) / S.slope G) := by
            simp only [realArith, hslope.ne, if_false]
          rw [hdiv] at hfin
          simp only [bind, Except.bind, pure, Except.pure] at hfin
          cases hfin
          refine ⟨rfl, ?_, rfl, rfl, rfl, rfl, rfl, fun _ => rfl, fun h' => by cases h'⟩
          simp only [f1.d, Spec.ScgState.polakRibiere, realArith, Rat.cast_zero]

/-- `t'` are the statistics `t` with the first `k` entries replaced by those of the first `k` iterations of the method from `x0`. -/
structure Spec.ScgRecords (F : (Fin n → ℝ) → ℝ) (G : (Fin n → ℝ) → Fin n → ℝ) (x0 : Fin n → ℝ) (k : ℕ) (t t' : ScgStats ℝ) :
    Prop where
  fx : t'.fx = List.ofFn (fun j : Fin k => F (Spec.scg F G x0 (j + 1)).x) ++ t.fx.drop k
  beta : t'.beta = List.ofFn (fun j : Fin k => (Spec.scg F G x0 j).raised G) ++ t.beta.drop k
  dfx : t'.dfx = List.ofFn (fun j : Fin k => ∑ i, |G (Spec.scgOrigin F G x0 (j + 1)) i|) ++ t.dfx.drop k

theorem set_snoc {k : ℕ} {f : ℕ → ℝ} {l t : List ℝ} (h : l = List.ofFn (fun j : Fin k => f j) ++ t.drop k) (hk : k < t.length) :
    l.set k (f k) = List.ofFn (fun j : Fin (k + 1) => f j) ++ t.drop (k + 1) := by
  rw [h, List.set_append_right _ _ (by simp), List.drop_eq_getElem_cons hk, List.length_ofFn, Nat.sub_self,
    List.set_cons_zero, List.ofFn_succ']
  simp

theorem Spec.ScgRecords.snoc {x0 : Fin n → ℝ} {k : ℕ} {t t1 t' : ScgStats ℝ} (h : Spec.ScgRecords F G x0 k t t1)
    (hk : k < t.fx.length ∧ k < t.beta.length ∧ k < t.dfx.length)
    (hr : ScgRecordsStep F G (Spec.scg F G x0 k) ((Spec.scg F G x0 k).origin F G (Spec.scgOrigin F G x0 k)) k t1 t') :
    Spec.ScgRecords F G x0 (k + 1) t t' := by
  obtain ⟨r1, r2, r3⟩ := hr
  refine ⟨?_, ?_, ?_⟩
  · rw [r1]
    exact set_snoc (f := fun j => F (Spec.scg F G x0 (j + 1)).x) h.fx hk.1
  · rw [r2]
    exact set_snoc (f := fun j => (Spec.scg F G x0 j).raised G) h.beta hk.2.1
  · rw [r3]
    exact set_snoc (f := fun j => ∑ i, |G (Spec.scgOrigin F G x0 (j + 1)) i|) h.dfx hk.2.2

theorem reach_follows (ho : Spec.Computes o args F G) {p : Scg ℝ} (hp : Spec.Arrays p) {x0 : Fin n → ℝ} {s : σ} {it : ℕ}
    {L : ScgLoc ℝ (Fin n → ℝ)} {w : World σ ℝ} (hr : Reach (realArith n) o args p x0 s it L w) :
    ScgFollows F G L (Spec.scg F G x0 it) (Spec.scgOrigin F G x0 it) ∧ it ≤ p.nit ∧ w.stats.MaxIt = p.stats.MaxIt
      ∧ (∀ j < it, ¬ (Spec.scg F G x0 j).NoDirection G ∧ ¬ (Spec.scg F G x0 j).Converged F G p.x_tol p.f_tol)
      ∧ Spec.ScgRecords F G x0 it p.stats w.stats := by
  induction hr with
  | start f0 g0 s1 s2 hf hg =>
    have e1 := ho.f _ _ _ _ hf
    have e2 := ho.df _ _ _ _ hg
    subst e1 e2
    refine ⟨⟨rfl, rfl, ?_, rfl, rfl, rfl, rfl, fun _ => rfl, fun h => by cases h⟩, Nat.zero_le _, rfl,
      fun j hj => absurd hj (Nat.not_lt_zero _), ⟨by simp [ScgStats.bumped], by simp [ScgStats.bumped], by simp [ScgStats.bumped]⟩⟩
    simp [ScgLoc.start, realArith, Spec.scg]
  | @step it L L' w w' hr hit ht ih =>
    obtain ⟨i1, i2, i3, i4, i5⟩ := ih
    rcases turn_follows ho (reach_good hr) i1 ht with ⟨_, hq, _⟩ | ⟨hd, hrec, ⟨_, hq, _⟩ | ⟨hc, hM, L'', hq, hf⟩⟩
    · cases hq
    · cases hq
    · cases hq
      refine ⟨hf, hit, hM.trans i3, fun j hj => ?_, i5.snoc ⟨hp.fx ▸ hit, hp.beta ▸ hit, hp.dfx ▸ hit⟩ hrec⟩
      rcases Nat.lt_succ_iff_lt_or_eq.1 hj with h | rfl
      · exact i4 j h
      · exact ⟨hd, hc⟩

/-- C92: with functions that compute `F` and `G`, a call that returns has made some number `k` of iterations of the scaled
conjugate gradient method, returns the point reached and the value there, and the statistics show these iterations. It
stops for the first of the three possible reasons: there is no direction to search in, the last iteration converged, or all
iterations are used up. -/
theorem C92_method (ho : Spec.Computes o args F G) (p p' : Scg ℝ) (hp : Spec.Arrays p) (x0 x : Fin n → ℝ) (s s' : σ) (fx : ℝ)
    (h : Scg.call (realArith n) o args p x0 s = (.ok (x, fx), p', s')) :
    ∃ k, x = (Spec.scg F G x0 k).x ∧ fx = F x ∧ Spec.ScgRecords F G x0 k p.stats p'.stats
      ∧ (∀ j < k, ¬ (Spec.scg F G x0 j).NoDirection G)
      ∧ (∀ j, j + 1 < k → ¬ (Spec.scg F G x0 j).Converged F G p.x_tol p.f_tol)
      ∧ ((k < p.nit ∧ (Spec.scg F G x0 k).NoDirection G ∧ p'.stats.MaxIt = k + 1
            ∧ ∀ j < k, ¬ (Spec.scg F G x0 j).Converged F G p.x_tol p.f_tol)
        ∨ (∃ j, k = j + 1 ∧ k ≤ p.nit ∧ (Spec.scg F G x0 j).Converged F G p.x_tol p.f_tol ∧ p'.stats.MaxIt = k)
        ∨ (k = p.nit ∧ p'.stats.MaxIt = p.stats.MaxIt
            ∧ ∀ j < k, ¬ (Spec.scg F G x0 j).Converged F G p.x_tol p.f_tol)) := by
  obtain ⟨it, L, w, hr, hc, _⟩ := call_reach (realArith n) o args h
  obtain ⟨i1, i2, i3, i4, i5⟩ := reach_follows ho hp hr
  rcases hc with ⟨rfl, hq, rfl⟩ | ⟨hit, ht⟩
  · cases hq
    exact ⟨p.nit, i1.x, by rw [i1.value, i1.x], i5, fun j hj => (i4 j hj).1, fun j hj => (i4 j (by omega)).2,
      .inr (.inr ⟨rfl, i3, fun j hj => (i4 j hj).2⟩)⟩
  · rcases turn_follows ho (reach_good hr) i1 ht with ⟨hd, hq, l1, l2, l3, hM⟩ | ⟨hd, hrec, ⟨hc, hq, hM⟩ | ⟨_, _, L'', hq, _⟩⟩
    · cases hq
      exact ⟨it, rfl, rfl, ⟨l1.trans i5.fx, l2.trans i5.beta, l3.trans i5.dfx⟩, fun j hj => (i4 j hj).1,
        fun j hj => (i4 j (by omega)).2, .inl ⟨hit, hd, hM, fun j hj => (i4 j hj).2⟩⟩
    · cases hq
      refine ⟨it + 1, rfl, rfl, i5.snoc ⟨hp.fx ▸ hit, hp.beta ▸ hit, hp.dfx ▸ hit⟩ hrec, fun j hj => ?_,
        fun j hj => (i4 j (by omega)).2, .inr (.inl ⟨it, rfl, hit, hc, hM⟩)⟩
      rcases Nat.lt_succ_iff_lt_or_eq.1 hj with h | rfl
      · exact (i4 j h).1
      · exact hd
    · cases hq

/-- C93, what holds: entry `j` of `statistics["fx"]` is the value at the point reached by iteration `j`, and entry `j` of
`statistics["dfx"]` is the sum of the absolute entries of the gradient at the point from which the last successful step
was made (the start point if there was none). Missing: that the two entries belong to the same point, see `C93_violated`. -/
theorem C93_gradient_statistic_partial (ho : Spec.Computes o args F G) (p p' : Scg ℝ) (hp : Spec.Arrays p) (x0 x : Fin n → ℝ)
    (s s' : σ) (fx : ℝ) (h : Scg.call (realArith n) o args p x0 s = (.ok (x, fx), p', s')) :
    ∃ k, x = (Spec.scg F G x0 k).x ∧ (∀ j < k, p'.stats.fx[j]? = some (F (Spec.scg F G x0 (j + 1)).x)
      ∧ p'.stats.dfx[j]? = some (∑ i, |G (Spec.scgOrigin F G x0 (j + 1)) i|))
      ∧ ∀ j ≥ k, p'.stats.fx[j]? = p.stats.fx[j]? ∧ p'.stats.dfx[j]? = p.stats.dfx[j]? := by
  obtain ⟨k, h1, h2, h3, _⟩ := C92_method ho p p' hp x0 x s s' fx h
  refine ⟨k, h1, fun j hj => ?_, fun j hj => ?_⟩
  · rw [h3.fx, h3.dfx]
    simp [List.getElem?_append, hj]
  · rw [h3.fx, h3.dfx]
    have : k + (j - k) = j := by omega
    simp [List.getElem?_append, not_lt.2 hj, this]

theorem pureOracle_computes : Spec.Computes (pureOracle F G) () F G := by
  constructor <;> intro x s v s' h <;> cases h <;> rfl

theorem init_arrays (m : Option ℕ) (a b : Option ℝ) : Spec.Arrays (Scg.init (realArith n) m a b) := by
  constructor <;> simp [Scg.init]

/-- C95: an optimizer made without options makes at most 150 iterations, and stops earlier only if there is no direction to search
in or the last iteration converged with the tolerances `1e-6` for the point and `1e-8` for the value; an option that is given
replaces its default, and has no effect on the other two. -/
theorem C95_options (ho : Spec.Computes o args F G) (max_it : Option ℕ) (x_tol f_tol : Option ℝ) (p' : Scg ℝ) (x0 x : Fin n → ℝ)
    (s s' : σ) (fx : ℝ)
    (h : Scg.call (realArith n) o args (Scg.init (realArith n) max_it x_tol f_tol) x0 s = (.ok (x, fx), p', s'))
    (N : ℕ) (hN : max_it = some N ∨ max_it = none ∧ N = 150) (xt : ℝ) (hx : x_tol = some xt ∨ x_tol = none ∧ xt = 1 / 10 ^ 6)
    (ft : ℝ) (hf : f_tol = some ft ∨ f_tol = none ∧ ft = 1 / 10 ^ 8) :
    ∃ k ≤ N, x = (Spec.scg F G x0 k).x ∧ (∀ j, j + 1 < k → ¬ (Spec.scg F G x0 j).Converged F G xt ft)
      ∧ (k = N ∨ (Spec.scg F G x0 k).NoDirection G ∨ ∃ j, k = j + 1 ∧ (Spec.scg F G x0 j).Converged F G xt ft)
      ∧ p'.stats.fx.length = N ∧ p'.stats.dfx.length = N ∧ p'.stats.beta.length = N := by
  have e1 : (Scg.init (realArith n) max_it x_tol f_tol).nit = N := by
    rcases hN with rfl | ⟨rfl, rfl⟩ <;> rfl
  have e2 : (Scg.init (realArith n) max_it x_tol f_tol).x_tol = xt := by
    rcases hx with rfl | ⟨rfl, rfl⟩
    · rfl
    · simp [Scg.init, realArith]
  have e3 : (Scg.init (realArith n) max_it x_tol f_tol).f_tol = ft := by
    rcases hf with rfl | ⟨rfl, rfl⟩
    · rfl
    · simp [Scg.init, realArith]
  have l0 := init_arrays (n := n) max_it x_tol f_tol
  obtain ⟨k, h1, _, h3, _, h5, h6⟩ := C92_method ho _ p' l0 x0 x s s' fx h
  rw [e1, e2, e3] at h6
  rw [e2, e3] at h5
  have hk : k ≤ N := by
    rcases h6 with h6 | ⟨_, _, h6, _⟩ | h6
    · exact h6.1.le
    · exact h6
    · exact h6.1.le
  refine ⟨k, hk, h1, h5, ?_, ?_, ?_, ?_⟩
  · rcases h6 with h6 | ⟨j, h6, _, h7, _⟩ | h6
    · exact .inr (.inl h6.2.1)
    · exact .inr (.inr ⟨j, h6, h7⟩)
    · exact .inl h6.1
  · rw [h3.fx, List.length_append, List.length_ofFn, List.length_drop, l0.fx, e1]; omega
  · rw [h3.dfx, List.length_append, List.length_ofFn, List.length_drop, l0.dfx, e1]; omega
  · rw [h3.beta, List.length_append, List.length_ofFn, List.length_drop, l0.beta, e1]; omega

/-- The first iteration on `x^2/2` from `1`: the step of length one half is taken. -/
theorem parabola_first : let F : (Fin 1 → ℝ) → ℝ := fun x => x 0 ^ 2 / 2
    let S := Spec.scg F (fun x => x) (fun _ => 1) 0
    S.dir (fun x => x) = (fun _ => -1) ∧ S.slope (fun x => x) = -1 ∧ S.len2 (fun x => x) = 1 ∧ S.curvature (fun x => x) = 1
      ∧ S.stepLength (fun x => x) = 1 / 2 ∧ S.trial (fun x => x) = fun _ => 1 / 2 := by
  intro F S
  have e1 : S.dir (fun x => x) = (fun _ => -1) := by
    unfold Spec.ScgState.dir
    rw [if_pos]
    · funext i; simp [S, Spec.scg]
    · simp [S, Spec.scg, dotProduct]
  have hx : S.x = fun _ => 1 := rfl
  have e2 : S.slope (fun x => x) = -1 := by simp [Spec.ScgState.slope, e1, hx, dotProduct]
  have e3 : S.len2 (fun x => x) = 1 := by simp [Spec.ScgState.len2, e1, dotProduct]
  have e4 : S.curvature (fun x => x) = 1 := by
    simp only [Spec.ScgState.curvature, e1, e3, hx, dotProduct]
    simp
  have e5 : S.stepLength (fun x => x) = 1 / 2 := by
    have : S.scale = 1 := rfl
    simp only [Spec.ScgState.stepLength, Spec.ScgState.scaled, e2, e3, e4, this]
    norm_num
  refine ⟨e1, e2, e3, e4, e5, ?_⟩
  funext i
  simp only [Spec.ScgState.trial, e1, e5, hx, Pi.add_apply, Pi.smul_apply, smul_eq_mul]
  norm_num

/-- C93 fails: one iteration on `x^2/2` from `1` returns `1/2`; the entry of `fx` is the value there, the entry of `dfx` is
`1`, the gradient at the start point. -/
theorem C93_violated : let F : (Fin 1 → ℝ) → ℝ := fun x => x 0 ^ 2 / 2
    ∃ p' x, Scg.call (realArith 1) (pureOracle F (fun x => x)) () (Scg.init (realArith 1) (some 1) none none) (fun _ => 1) ()
      = (.ok (x, F x), p', ()) ∧ x = (fun _ => 1 / 2) ∧ p'.stats.fx = [F x] ∧ p'.stats.dfx = [1] ∧ (∑ i, |x i|) ≠ 1 := by
  intro F
  obtain ⟨x, fx, p', s', h, _⟩ := C66_never_raises (Scg.init (realArith 1) (some 1) none none) (init_arrays _ _ _)
    (pureOracle_total F fun x => x) (fun _ => 1) ()
  obtain ⟨e1, e2, e3, e4, e5, e6⟩ := parabola_first
  obtain ⟨k, h1, h2, h3, _, _, h4⟩ := C92_method pureOracle_computes _ p' (init_arrays _ _ _) _ x _ s' fx h
  have hnit : (Scg.init (realArith 1) (some 1) none none).nit = 1 := rfl
  have hk : k = 1 := by
    rcases h4 with ⟨hk, hd, _⟩ | ⟨j, rfl, hk, _⟩ | ⟨hk, _⟩
    · exfalso
      obtain rfl : k = 0 := by omega
      rw [Spec.ScgState.NoDirection, e3] at hd
      norm_num at hd
    · omega
    · omega
  subst hk
  have hle : F ((Spec.scg F (fun x => x) (fun _ => 1) 0).trial fun x => x) ≤ F (Spec.scg F (fun x => x) (fun _ => 1) 0).x := by
    rw [e6]
    simp only [F, Spec.scg]
    norm_num
  have hx : (Spec.scg F (fun x => x) (fun _ => 1) 1).x = fun _ => 1 / 2 := by
    rw [Spec.scg, next_x hle, e6]
  rw [hx] at h1
  subst h2
  refine ⟨p', x, h, h1, ?_, ?_, ?_⟩
  · rw [h3.fx]
    simp [hx, h1, Scg.init]
  · rw [h3.dfx]
    simp only [List.ofFn_succ, List.ofFn_zero, Scg.init]
    simp only [Spec.scgOrigin, Spec.ScgState.origin]
    rw [if_pos]
    · simp [Spec.scg]
    · exact hle
  · rw [h1]
    norm_num

-- Non-vacuity of C92, C93 and C95: there are calls that return, for every objective.
example : ∃ q p', Scg.call (realArith n) (pureOracle F G) () (Scg.init (realArith n) none none none) (fun _ => 1) () = (.ok q, p', ()) := by
  obtain ⟨x, fx, p', s', h, _⟩ := C66_never_raises (Scg.init (realArith n) none none none) (init_arrays _ _ _)
    (pureOracle_total F G) (fun _ => 1) ()
  exact ⟨_, _, h⟩

end

end VGPA
