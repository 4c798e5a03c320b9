import Verif.Lemmas.Scg
import Verif.Props.VarGP

/-!
# C64, C67, C68, C70, C73: the optimizer over an arbitrary arithmetic
-/

namespace VGPA

variable {σ A S V : Type}

section
variable {ar : Arith S V} {o : Oracle σ A S V} {args : A}

/-! ## C64 -/

/-- The values kept by the loop belong to the current point. -/
theorem reach_value (F : V → S) (hF : ∀ x s v s', o.f x args s = (.ok v, s') → v = F x) {p : Scg S} {x0 : V} {s : σ} {it : ℕ}
    {L : ScgLoc S V} {w : World σ S} (hr : Reach ar o args p x0 s it L w) :
    L.f_old = F L.x ∧ (L.success = true → L.f_now = F L.x) := by
  induction hr with
  | start f0 g0 s1 s2 hf hg => exact ⟨hF _ _ _ _ hf, fun _ => hF _ _ _ _ hf⟩
  | step hr hit ht ih =>
    rcases (turn_ok ar o args).1 ht with ⟨q, hq, _⟩ | ⟨L1, w1, beta, alpha, hd, _, hm⟩
    · cases hq
    · have hL1 : L1.f_old = F L1.x := by
        cases hd with
        | keep _ => exact ih.1
        | curv _ _ _ _ _ _ _ _ _ => exact ih.1
      cases hm with
      | reject f_new delta st hf _ _ _ L' hL =>
        obtain ⟨e1, _, e3, _, _, e6, _⟩ := finish_ok ar hL
        refine ⟨by rw [e1, e3]; exact hL1, fun hs => ?_⟩
        rw [e6] at hs
        cases hs
      | accept f_new delta big f_now g st st2 st3 hf _ _ _ _ _ hf2 _ _ L' hL =>
        obtain ⟨e1, e2, e3, _⟩ := finish_ok ar hL
        rw [e1, e2, e3]
        exact ⟨hF _ _ _ _ hf, fun _ => hF _ _ _ _ hf2⟩

/-- C64: if the value of the objective at a point depends on the point only, the returned number is the value of the
objective at the returned point. Every arithmetic, every gradient function, every way to leave the call. -/
theorem C64_consistent_pair (F : V → S) (hF : ∀ x s v s', o.f x args s = (.ok v, s') → v = F x) (p p' : Scg S) (x0 : V)
    (s s' : σ) (x : V) (fx : S) (h : Scg.call ar o args p x0 s = (.ok (x, fx), p', s')) : fx = F x := by
  have inv := fun it L w => reach_value (ar := ar) F hF (p := p) (x0 := x0) (s := s) (it := it) (L := L) (w := w)
  obtain ⟨it, L, w, hr, hc, _⟩ := call_reach ar o args h
  obtain ⟨i1, i2⟩ := inv it L w hr
  rcases hc with ⟨_, hq, _⟩ | ⟨_, ht⟩
  · cases hq; exact i1
  · rcases (turn_ok ar o args).1 ht with ⟨q, hq, hd⟩ | ⟨L1, w1, beta, alpha, hd, _, hm⟩
    · cases hq
      generalize (⟨s', p'.stats⟩ : World σ S) = w' at hd
      cases hd with
      | zero hs _ => exact i2 hs
    · generalize (⟨s', p'.stats⟩ : World σ S) = w' at hm
      cases hm with
      | tol f_new delta big st hf _ _ _ _ _ _ => exact hF _ _ _ _ hf
      | flat f_new delta big f_now g st st2 st3 hf _ _ _ _ _ hf2 _ _ => exact hF _ _ _ _ hf2

/-! ## C67 -/

/-- The two functions count their own calls in the shared state; a call with `eval_fun` counts for both. -/
structure Spec.CountsCalls (o : Oracle σ A S V) (args : A) (nf nd : σ → ℕ) : Prop where
  f : ∀ x s v s', o.f x args s = (.ok v, s') → nf s' = nf s + 1 ∧ nd s' = nd s
  df : ∀ x s v s', o.df x args s = (.ok v, s') → nf s' = nf s ∧ nd s' = nd s + 1
  dfEval : ∀ x s v s', o.dfEval x s = (.ok v, s') → nf s' = nf s + 1 ∧ nd s' = nd s + 1

theorem dirPath_counts {nf nd : σ → ℕ} (hc : Spec.CountsCalls o args nf nd) {j : ℕ} {L : ScgLoc S V} {w w1 : World σ S} {r}
    (hd : DirPath ar o j L w r w1) :
    ∃ i, i ≤ 1 ∧ w1.stats.f_eval = w.stats.f_eval + i ∧ nf w1.st = nf w.st + i ∧ w1.stats.df_eval = w.stats.df_eval + i
      ∧ nd w1.st = nd w.st + i := by
  cases hd with
  | keep _ => exact ⟨0, by omega, rfl, rfl, rfl, rfl⟩
  | zero _ _ => exact ⟨0, by omega, rfl, rfl, rfl, rfl⟩
  | curv _ _ _ _ _ st _ hg _ =>
    obtain ⟨h1, h2⟩ := hc.dfEval _ _ _ _ hg
    exact ⟨1, le_rfl, rfl, h1, rfl, h2⟩

theorem turn_counts {nf nd : σ → ℕ} (hc : Spec.CountsCalls o args nf nd) {p : Scg S} {n j : ℕ} {L : ScgLoc S V} {w w' : World σ S}
    {r} (ht : Scg.turn ar o args p n j L w = (.ok r, w')) :
    ∃ a b, a ≤ 3 ∧ b ≤ 2 ∧ w'.stats.f_eval = w.stats.f_eval + a ∧ nf w'.st = nf w.st + a
      ∧ w'.stats.df_eval = w.stats.df_eval + b ∧ nd w'.st = nd w.st + b := by
  rcases (turn_ok ar o args).1 ht with ⟨q, rfl, hd⟩ | ⟨L1, w1, beta, alpha, hd, _, hm⟩
  · obtain ⟨i, h0, h1, h2, h3, h4⟩ := dirPath_counts hc hd
    exact ⟨i, i, by omega, by omega, h1, h2, h3, h4⟩
  · obtain ⟨i, h0, h1, h2, h3, h4⟩ := dirPath_counts hc hd
    cases hm with
    | reject f_new delta st hf _ _ _ L' hL =>
      obtain ⟨e1, e2⟩ := hc.f _ _ _ _ hf
      exact ⟨i + 1, i, by omega, by omega, by simp [ScgStats.recorded, ScgStats.bumped, h1]; ring, by simp only [e1, h2]; ring,
        by simp [ScgStats.recorded, ScgStats.bumped, h3], by simp only [e2, h4]⟩
    | tol f_new delta big st hf _ _ _ _ _ _ =>
      obtain ⟨e1, e2⟩ := hc.f _ _ _ _ hf
      exact ⟨i + 1, i, by omega, by omega, by simp [ScgStats.recorded, ScgStats.bumped, h1]; ring, by simp only [e1, h2]; ring,
        by simp [ScgStats.recorded, ScgStats.bumped, h3], by simp only [e2, h4]⟩
    | flat f_new delta big f_now g st st2 st3 hf _ _ _ _ _ hf2 hg _ =>
      obtain ⟨e1, e2⟩ := hc.f _ _ _ _ hf
      obtain ⟨e3, e4⟩ := hc.f _ _ _ _ hf2
      obtain ⟨e5, e6⟩ := hc.df _ _ _ _ hg
      exact ⟨i + 2, i + 1, by omega, by omega, by simp [ScgStats.recorded, ScgStats.bumped, h1]; ring,
        by simp only [e5, e3, e1, h2]; ring, by simp [ScgStats.recorded, ScgStats.bumped, h3]; ring,
        by simp only [e6, e4, e2, h4]; ring⟩
    | accept f_new delta big f_now g st st2 st3 hf _ _ _ _ _ hf2 hg _ L' hL =>
      obtain ⟨e1, e2⟩ := hc.f _ _ _ _ hf
      obtain ⟨e3, e4⟩ := hc.f _ _ _ _ hf2
      obtain ⟨e5, e6⟩ := hc.df _ _ _ _ hg
      exact ⟨i + 2, i + 1, by omega, by omega, by simp [ScgStats.recorded, ScgStats.bumped, h1]; ring,
        by simp only [e5, e3, e1, h2]; ring, by simp [ScgStats.recorded, ScgStats.bumped, h3]; ring,
        by simp only [e6, e4, e2, h4]; ring⟩

/-- C67: after a call that returns, the counters have grown by exactly the numbers `a`, `b` of evaluations that the functions
saw; and `a ≤ 1 + 3 max_it`, `b ≤ 1 + 2 max_it`. -/
theorem C67_counters {nf nd : σ → ℕ} (hc : Spec.CountsCalls o args nf nd) (p p' : Scg S) (x0 : V) (s s' : σ) (q : V × S)
    (h : Scg.call ar o args p x0 s = (.ok q, p', s')) :
    ∃ a b, nf s' = nf s + a ∧ nd s' = nd s + b ∧ p'.stats.f_eval = p.stats.f_eval + a
      ∧ p'.stats.df_eval = p.stats.df_eval + b ∧ a ≤ 1 + 3 * p.nit ∧ b ≤ 1 + 2 * p.nit := by
  have inv : ∀ it L w, Reach ar o args p x0 s it L w → it ≤ p.nit ∧ ∃ a b, nf w.st = nf s + a ∧ nd w.st = nd s + b
      ∧ w.stats.f_eval = p.stats.f_eval + a ∧ w.stats.df_eval = p.stats.df_eval + b ∧ a ≤ 1 + 3 * it ∧ b ≤ 1 + 2 * it := by
    intro it L w hr
    induction hr with
    | start f0 g0 s1 s2 hf hg =>
      obtain ⟨e1, e2⟩ := hc.f _ _ _ _ hf
      obtain ⟨e3, e4⟩ := hc.df _ _ _ _ hg
      exact ⟨Nat.zero_le _, 1, 1, by simp only [e3, e1], by simp only [e4, e2], rfl, rfl, by omega, by omega⟩
    | step hr hit ht ih =>
      obtain ⟨_, a, b, i1, i2, i3, i4, i5, i6⟩ := ih
      obtain ⟨a', b', h0, h1, h2, h3, h4, h5⟩ := turn_counts hc ht
      exact ⟨hit, a + a', b + b', by omega, by omega, by omega, by omega, by omega, by omega⟩
  obtain ⟨it, L, w, hr, hcase, _⟩ := call_reach ar o args h
  obtain ⟨hle, a, b, i1, i2, i3, i4, i5, i6⟩ := inv it L w hr
  rcases hcase with ⟨rfl, _, rfl⟩ | ⟨hit, ht⟩
  · exact ⟨a, b, i1, i2, i3, i4, i5, i6⟩
  · obtain ⟨a', b', h0, h1, h2, h3, h4, h5⟩ := turn_counts hc ht
    dsimp only at h2 h3 h4 h5
    exact ⟨a + a', b + b', by omega, by omega, by omega, by omega, by omega, by omega⟩

/-! ## C70 -/

theorem reach_maxIt {p : Scg S} {x0 : V} {s : σ} {it : ℕ} {L : ScgLoc S V} {w : World σ S} (hr : Reach ar o args p x0 s it L w) :
    w.stats.MaxIt = p.stats.MaxIt := by
  induction hr with
  | start => rfl
  | step hr hit ht ih =>
    rcases (turn_ok ar o args).1 ht with ⟨q, hq, _⟩ | ⟨L1, w1, beta, alpha, hd, _, hm⟩
    · cases hq
    · have hw1 : w1.stats.MaxIt = p.stats.MaxIt := by
        cases hd with
        | keep _ => exact ih
        | curv _ _ _ _ _ _ _ _ _ => exact ih
      cases hm with
      | reject => exact hw1
      | accept => exact hw1

/-- C70: a call that returns has made `it ≤ max_it` complete iterations (and reached the locals `L`), and returns for
one of four reasons. Either all iterations are used up, and `MaxIt` keeps its value (initially `max_it`). Or, in iteration `it + 1`, which is the value of
`statistics["MaxIt"]`, the squared norm of the search direction is below machine precision and the current point is
returned; or the returned point differs from the previous one by a step with all entries at most `x_tol`, and the two
values by at most `f_tol`; or the gradient just computed at the returned point has a squared norm that is close to zero.
(`dirOf L` is the search direction; `realArith` gives the comparisons their usual meaning.) -/
theorem C70_reasons (p p' : Scg S) (x0 : V) (s s' : σ) (x : V) (fx : S)
    (h : Scg.call ar o args p x0 s = (.ok (x, fx), p', s')) :
    ∃ it L w, Reach ar o args p x0 s it L w ∧ it ≤ p.nit ∧
      ((it = p.nit ∧ x = L.x ∧ fx = L.f_old ∧ p'.stats.MaxIt = p.stats.MaxIt)
      ∨ (it < p.nit ∧ p'.stats.MaxIt = it + 1
          ∧ (ar.lt (ar.dot (dirOf ar L).1 (dirOf ar L).1) (ar.lit (1 / 2 ^ 52)) = true ∧ x = L.x
            ∨ (∃ step big, x = ar.vadd L.x step ∧ ar.absMax step = .ok big ∧ ar.le big p.x_tol = true
                ∧ ar.le (ar.abs (ar.sub fx L.f_old)) p.f_tol = true)
            ∨ ∃ g st, o.df x args st = (.ok g, s') ∧ ar.isClose0 (ar.dot g g) = true))) := by
  obtain ⟨it, L, w, hr, hc, _⟩ := call_reach ar o args h
  have hxold : ∀ L1 w1, DirPath ar o it L w (.inl L1) w1 → L1.x = L.x ∧ L1.f_old = L.f_old := by
    intro L1 w1 hd
    cases hd with
    | keep _ => exact ⟨rfl, rfl⟩
    | curv _ _ _ _ _ _ _ _ _ => exact ⟨rfl, rfl⟩
  rcases hc with ⟨h1, h2, rfl⟩ | ⟨hit, ht⟩
  · cases h2
    exact ⟨it, L, _, hr, h1.le, .inl ⟨h1, rfl, rfl, reach_maxIt hr⟩⟩
  · refine ⟨it, L, w, hr, hit.le, .inr ?_⟩
    rcases (turn_ok ar o args).1 ht with ⟨q, hq, hd⟩ | ⟨L1, w1, beta, alpha, hd, _, hm⟩
    · cases hq
      generalize hw : (⟨s', p'.stats⟩ : World σ S) = w' at hd
      cases hd with
      | zero hs hk =>
        rw [World.mk.injEq] at hw
        exact ⟨hit, by rw [hw.2], .inl ⟨hk, rfl⟩⟩
    · obtain ⟨ex, ef⟩ := hxold L1 w1 hd
      generalize hw : (⟨s', p'.stats⟩ : World σ S) = w' at hm
      generalize hq : (Sum.inr (x, fx) : ScgLoc S V ⊕ (V × S)) = q at hm
      cases hm with
      | reject => cases hq
      | accept => cases hq
      | tol f_new delta big st hf hd' hr' hj hb hx hft =>
        cases hq
        rw [World.mk.injEq] at hw
        refine ⟨hit, by rw [hw.2], .inr (.inl ⟨_, big, by rw [ex], hb, hx, ?_⟩)⟩
        rw [← ef]; exact hft
      | flat f_new delta big f_now g st st2 st3 hf hd' hr' hj hb hn hf2 hg hcl =>
        cases hq
        rw [World.mk.injEq] at hw
        refine ⟨hit, by rw [hw.2], .inr (.inr ⟨g, st2, ?_, hcl⟩)⟩
        rw [hw.1]; exact hg

/-! ## C73 -/

/-- C73, the part that holds: if a call leaves early, `MaxIt` is the number of iterations begun by this call; and if the
entry still has its initial value `max_it` when the call starts, it is the number of iterations begun in any case.
Missing: a call that uses all iterations after an earlier call that did not, see `C73_violated`. -/
theorem C73_max_it_partial (p p' : Scg S) (x0 : V) (s s' : σ) (q : V × S)
    (h : Scg.call ar o args p x0 s = (.ok q, p', s')) :
    ∃ it L w, Reach ar o args p x0 s it L w
      ∧ ((it < p.nit ∧ p'.stats.MaxIt = it + 1) ∨ (it = p.nit ∧ p'.stats.MaxIt = p.stats.MaxIt)) := by
  have inv := fun it L w => reach_maxIt (ar := ar) (o := o) (args := args) (p := p) (x0 := x0) (s := s) (it := it) (L := L) (w := w)
  obtain ⟨it, L, w, hr, hc, _⟩ := call_reach ar o args h
  rcases hc with ⟨h1, h2, h3⟩ | ⟨hit, ht⟩
  · exact ⟨it, L, w, hr, .inr ⟨h1, by rw [← inv it L w hr, h3]⟩⟩
  · refine ⟨it, L, w, hr, .inl ⟨hit, ?_⟩⟩
    rcases (turn_ok ar o args).1 ht with ⟨q, hq, hd⟩ | ⟨L1, w1, beta, alpha, hd, _, hm⟩
    · cases hq
      generalize hw : (⟨s', p'.stats⟩ : World σ S) = w' at hd
      cases hd with
      | zero hs hk => rw [World.mk.injEq] at hw; rw [hw.2]
    · generalize hw : (⟨s', p'.stats⟩ : World σ S) = w' at hm
      generalize hq : (Sum.inr q : ScgLoc S V ⊕ (V × S)) = r at hm
      cases hm with
      | reject => cases hq
      | accept => cases hq
      | tol => rw [World.mk.injEq] at hw; rw [hw.2]
      | flat => rw [World.mk.injEq] at hw; rw [hw.2]

/-! ## C68 -/

theorem ScgM.bind_congr {w α β : Type} {m : ScgM w α} {k k' : α → ScgM w β} {s : w}
    (h : ∀ a s', m s = (.ok a, s') → k a s' = k' a s') : (m >>= k) s = (m >>= k') s := by
  show (match m s with | (.ok a, s') => k a s' | (.error e, s') => (.error e, s'))
    = (match m s with | (.ok a, s') => k' a s' | (.error e, s') => (.error e, s'))
  rcases hm : m s with ⟨r, s'⟩
  cases r with
  | ok a => exact h a s' hm
  | error e => rfl

theorem ScgM.bind_congr_left {w α β : Type} {m m' : ScgM w α} {k : α → ScgM w β} {s : w} (h : m s = m' s) :
    (m >>= k) s = (m' >>= k) s := by
  show (match m s with | (.ok a, s') => k a s' | (.error e, s') => (.error e, s'))
    = (match m' s with | (.ok a, s') => k a s' | (.error e, s') => (.error e, s'))
  rw [h]

/-- The run depends on the plain gradient only through its value directly after an evaluation of the objective at the same
point. Results, exceptions, statistics and final states coincide. -/
theorem call_congr {o₁ o₂ : Oracle σ A S V} (hf : o₁.f = o₂.f) (he : o₁.dfEval = o₂.dfEval)
    (hd : ∀ x s v s', o₁.f x args s = (.ok v, s') → o₁.df x args s' = o₂.df x args s') (p : Scg S) (x0 : V) (s : σ) :
    Scg.call ar o₁ args p x0 s = Scg.call ar o₂ args p x0 s := by
  have hcf : ∀ x, callF o₁ x args = callF o₂ x args := fun x => by unfold callF; rw [hf]
  have pair : ∀ {β : Type} (x : V) (k : S → V → ScgM (World σ S) β),
      (callF o₁ x args >>= fun a => callDf o₁ x args >>= k a) = (callF o₂ x args >>= fun a => callDf o₂ x args >>= k a) := by
    intro β x k
    rw [← hcf]
    funext w
    refine ScgM.bind_congr fun a w' hw => ?_
    obtain ⟨st, h1, rfl⟩ := callF_ok.1 hw
    have : callDf o₁ x args { w with st } = callDf o₂ x args { w with st } := by
      unfold callDf
      rw [hd x _ _ _ h1]
    exact ScgM.bind_congr_left this
  have hdir : ∀ j (L : ScgLoc S V), Scg.directional ar o₁ j L = Scg.directional ar o₂ j L := by
    intro j L
    have : ∀ x, callDfEval o₁ x = callDfEval o₂ x := fun x => by unfold callDfEval; rw [he]
    unfold Scg.directional
    simp only [this]
  have hmove : ∀ n j (L : ScgLoc S V) al, Scg.move ar o₁ args p n j L al = Scg.move ar o₂ args p n j L al := by
    intro n j L al
    unfold Scg.move
    simp only [pair]
    simp only [hcf]
  have hturn : ∀ n j (L : ScgLoc S V), Scg.turn ar o₁ args p n j L = Scg.turn ar o₂ args p n j L := by
    intro n j L
    unfold Scg.turn
    simp only [hdir, hmove]
  have hloop : ∀ n js (L : ScgLoc S V), Scg.loop ar o₁ args p n js L = Scg.loop ar o₂ args p n js L := by
    intro n js
    induction js with
    | nil => intro L; rfl
    | cons j js ih =>
      intro L
      unfold Scg.loop
      rw [hturn]
      congr 1
      funext r
      cases r with
      | inl L' => exact ih L'
      | inr q => rfl
  unfold Scg.call
  simp only [pair, hloop]

end

/-- Optimizing `VarGP.free_energy` with `VarGP.gradient`, as `/repo/src/var_bayes/simulation.py:219,231` does:
the shared state is the object itself. -/
noncomputable def vgpOracle {V W : Type} [AddCommGroup V] [Module ℝ V] [AddCommGroup W] [Module ℝ W] (sh : Shape V W) :
    Oracle (VarGP V W) Unit ℝ (List ℝ) where
  f x _ o := o.freeEnergy sh x
  df x _ o := o.gradient sh x false
  dfEval x o := o.gradient sh x true

/-- The same with a gradient that never relies on what is stored: it always evaluates the free energy first. -/
noncomputable def vgpFresh {V W : Type} [AddCommGroup V] [Module ℝ V] [AddCommGroup W] [Module ℝ W] (sh : Shape V W) :
    Oracle (VarGP V W) Unit ℝ (List ℝ) where
  f x _ o := o.freeEnergy sh x
  df x _ o := o.gradient sh x true
  dfEval x o := o.gradient sh x true

/-- C68: optimizing a `VarGP` object gives the same results, exceptions, statistics and final object as with the
gradient that re-evaluates everything at its argument. -/
theorem C68_no_stale_gradient {V W : Type} [AddCommGroup V] [Module ℝ V] [AddCommGroup W] [Module ℝ W] (sh : Shape V W)
    (ar : Arith ℝ (List ℝ)) (p : Scg ℝ) (x0 : List ℝ) (g : VarGP V W) :
    Scg.call ar (vgpOracle sh) () p x0 g = Scg.call ar (vgpFresh sh) () p x0 g := by
  refine call_congr (o₁ := vgpOracle sh) (o₂ := vgpFresh sh) rfl rfl (fun x g v g' h => ?_) p x0 g
  simp only [vgpOracle, vgpFresh] at h ⊢
  have h' := h
  unfold VarGP.freeEnergy at h
  rcases he : g.eval sh x with _ | ⟨F, c⟩
  · rw [he] at h; cases h
  · rw [he] at h
    simp only [Prod.mk.injEq] at h
    obtain ⟨_, rfl⟩ := h
    have he2 : ({ g with cache := some c } : VarGP V W).eval sh x = .ok (F, c) := he
    unfold VarGP.gradient VarGP.freeEnergy
    rw [he2]
    simp

end VGPA
