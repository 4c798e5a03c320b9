import Verif.Props.ScgReal

/-!
# C64 for every objective, and changing the state of the functions

The state that the objective and the gradient share may be replaced by another representation of it: the optimizer
only passes it along.
-/

namespace VGPA

variable {σ τ A S V : Type}

section
variable {ar : Arith S V} {o : Oracle σ A S V} {args : A}

theorem reach_evaluated {p : Scg S} {x0 : V} {s : σ} {it : ℕ}
    {L : ScgLoc S V} {w : World σ S} (hr : Reach ar o args p x0 s it L w) :
    (∃ t t', o.f L.x args t = (.ok L.f_old, t')) ∧ (L.success = true → ∃ t t', o.f L.x args t = (.ok L.f_now, t')) := by
  induction hr with
  | start f0 g0 s1 s2 hf hg => exact ⟨⟨_, _, hf⟩, fun _ => ⟨_, _, hf⟩⟩
  | step hr hit ht ih =>
    rcases (turn_ok ar o args).1 ht with ⟨q, hq, _⟩ | ⟨L1, w1, beta, alpha, hd, _, hm⟩
    · cases hq
    · have hL1 : ∃ t t', o.f L1.x args t = (.ok L1.f_old, t') := by
        cases hd with
        | keep _ => exact ih.1
        | curv _ _ _ _ _ _ _ _ _ => exact ih.1
      cases hm with
      | reject f_new delta st hf _ _ _ L' hL =>
        obtain ⟨e1, _, e3, _, _, e6, _⟩ := finish_ok ar hL
        refine ⟨by rw [e1, e3]; exact hL1, fun hs => ?_⟩
        rw [e6] at hs
        cases hs
      | accept f_new delta big f_now g st st2 st3 hf _ _ _ _ _ hf2 _ _ L' hL =>
        obtain ⟨e1, e2, e3, _⟩ := finish_ok ar hL
        rw [e1, e2, e3]
        exact ⟨⟨_, _, hf⟩, fun _ => ⟨_, _, hf2⟩⟩

/-- C64 without any assumption on the functions: the returned number is a number that the objective returned, when it was
called with the returned point. -/
theorem C64_evaluated (p p' : Scg S) (x0 : V) (s s' : σ) (x : V) (fx : S)
    (h : Scg.call ar o args p x0 s = (.ok (x, fx), p', s')) : ∃ t t', o.f x args t = (.ok fx, t') := by
  obtain ⟨it, L, w, hr, hc, _⟩ := call_reach ar o args h
  obtain ⟨i1, i2⟩ := reach_evaluated hr
  rcases hc with ⟨_, hq, _⟩ | ⟨_, ht⟩
  · cases hq; exact i1
  · rcases (turn_ok ar o args).1 ht with ⟨q, hq, hd⟩ | ⟨L1, w1, beta, alpha, hd, _, hm⟩
    · cases hq
      generalize (⟨s', p'.stats⟩ : World σ S) = w' at hd
      cases hd with
      | zero hs _ => exact i2 hs
    · generalize (⟨s', p'.stats⟩ : World σ S) = w' at hm
      cases hm with
      | tol f_new delta big st hf _ _ _ _ _ _ => exact ⟨_, _, hf⟩
      | flat f_new delta big f_now g st st2 st3 hf _ _ _ _ _ hf2 _ _ => exact ⟨_, _, hf2⟩

end

/-! ## Another representation of the state -/

/-- The functions `o` on states `ι s` do what `o'` does on states `s`. -/
structure Follows (ι : τ → σ) (o' : Oracle τ A S V) (o : Oracle σ A S V) (args : A) : Prop where
  f : ∀ x s, o.f x args (ι s) = ((o'.f x args s).1, ι (o'.f x args s).2)
  df : ∀ x s, o.df x args (ι s) = ((o'.df x args s).1, ι (o'.df x args s).2)
  dfEval : ∀ x s, o.dfEval x (ι s) = ((o'.dfEval x s).1, ι (o'.dfEval x s).2)

section
variable (ι : τ → σ)

/-- The same statistics with the other state. -/
def World.map (w : World τ S) : World σ S := ⟨ι w.st, w.stats⟩

/-- Two computations that do the same on the two kinds of states. -/
def SameRun {α : Type} (m : ScgM (World σ S) α) (m' : ScgM (World τ S) α) : Prop :=
  ∀ w, m (w.map ι) = ((m' w).1, (m' w).2.map ι)

variable {ι} {ar : Arith S V} {o : Oracle σ A S V} {o' : Oracle τ A S V} {args : A}

theorem SameRun.pure {α : Type} (a : α) : SameRun (S := S) ι (Pure.pure a) (Pure.pure a) := fun _ => rfl

theorem SameRun.lift {α : Type} (a : Py α) : SameRun (S := S) ι (ScgM.lift a) (ScgM.lift a) := fun _ => rfl

theorem SameRun.bump (a b : ℕ) : SameRun (S := S) ι (VGPA.bump a b) (VGPA.bump a b) := fun _ => rfl

theorem SameRun.setMaxIt (a : ℕ) : SameRun (S := S) ι (VGPA.setMaxIt a) (VGPA.setMaxIt a) := fun _ => rfl

theorem SameRun.record (j : ℕ) (a b c : S) : SameRun ι (VGPA.record j a b c) (VGPA.record j a b c) := by
  intro w
  unfold VGPA.record
  simp only [World.map]
  rcases setIdx w.stats.fx j a with _ | _
  · rfl
  · rcases setIdx w.stats.beta j b with _ | _
    · rfl
    · rcases setIdx w.stats.dfx j c with _ | _ <;> rfl

theorem ScgM.bind_fail {w α β : Type} {m : ScgM w α} {k : α → ScgM w β} {s s' : w} {e : PyErr} (h : m s = (.error e, s')) :
    (m >>= k) s = (.error e, s') := by
  show (match m s with | (.ok a, s') => k a s' | (.error e, s') => ((.error e, s') : Py β × w)) = _
  rw [h]

theorem SameRun.bind {α β : Type} {m : ScgM (World σ S) α} {m' : ScgM (World τ S) α} {k : α → ScgM (World σ S) β}
    {k' : α → ScgM (World τ S) β} (h : SameRun ι m m') (hk : ∀ a, SameRun ι (k a) (k' a)) :
    SameRun ι (m >>= k) (m' >>= k') := by
  intro w
  have hw := h w
  rcases hm : m' w with ⟨r, w'⟩
  rw [hm] at hw
  cases r with
  | ok a => rw [ScgM.bind_step hw, ScgM.bind_step hm]; exact hk a w'
  | error e => rw [ScgM.bind_fail hw, ScgM.bind_fail hm]

theorem SameRun.callF (h : Follows ι o' o args) (x : V) : SameRun ι (VGPA.callF o x args) (VGPA.callF o' x args) := by
  intro w
  unfold VGPA.callF
  simp only [World.map, h.f]

theorem SameRun.callDf (h : Follows ι o' o args) (x : V) : SameRun ι (VGPA.callDf o x args) (VGPA.callDf o' x args) := by
  intro w
  unfold VGPA.callDf
  simp only [World.map, h.df]

theorem SameRun.callDfEval (h : Follows ι o' o args) (x : V) : SameRun ι (VGPA.callDfEval o x) (VGPA.callDfEval o' x) := by
  intro w
  unfold VGPA.callDfEval
  simp only [World.map, h.dfEval]

theorem sameRun_directional (h : Follows ι o' o args) (j : ℕ) (L : ScgLoc S V) :
    SameRun ι (Scg.directional ar o j L) (Scg.directional ar o' j L) := by
  unfold Scg.directional
  split
  · dsimp only
    split <;> dsimp only <;> split
    all_goals first
      | exact (SameRun.setMaxIt _).bind fun _ => .pure _
      | exact (SameRun.lift _).bind fun _ => (SameRun.callDfEval h _).bind fun _ => (SameRun.bump _ _).bind fun _ =>
          (SameRun.lift _).bind fun _ => .pure _
  · exact .pure _

theorem sameRun_move (h : Follows ι o' o args) (p : Scg S) (n j : ℕ) (L : ScgLoc S V) (al : S) :
    SameRun ι (Scg.move ar o args p n j L al) (Scg.move ar o' args p n j L al) := by
  unfold Scg.move
  refine (SameRun.callF h _).bind fun f => (SameRun.bump _ _).bind fun _ => (SameRun.lift _).bind fun delta => ?_
  split
  · refine (SameRun.record _ _ _ _).bind fun _ => (SameRun.lift _).bind fun big => ?_
    split
    · exact (SameRun.setMaxIt _).bind fun _ => .pure _
    · refine (SameRun.callF h _).bind fun _ => (SameRun.callDf h _).bind fun g => (SameRun.bump _ _).bind fun _ => ?_
      split
      · exact (SameRun.setMaxIt _).bind fun _ => .pure _
      · exact (SameRun.lift _).bind fun _ => .pure _
  · exact (SameRun.record _ _ _ _).bind fun _ => (SameRun.lift _).bind fun _ => .pure _

theorem sameRun_turn (h : Follows ι o' o args) (p : Scg S) (n j : ℕ) (L : ScgLoc S V) :
    SameRun ι (Scg.turn ar o args p n j L) (Scg.turn ar o' args p n j L) := by
  unfold Scg.turn
  refine (sameRun_directional h j L).bind fun r => ?_
  cases r with
  | inr q => exact .pure _
  | inl L => exact (SameRun.lift _).bind fun _ => sameRun_move h _ _ _ _ _

theorem sameRun_loop (h : Follows ι o' o args) (p : Scg S) (n : ℕ) (js : List ℕ) (L : ScgLoc S V) :
    SameRun ι (Scg.loop ar o args p n js L) (Scg.loop ar o' args p n js L) := by
  induction js generalizing L with
  | nil => exact .pure _
  | cons j js ih =>
    unfold Scg.loop
    refine (sameRun_turn h _ _ _ _).bind fun r => ?_
    cases r with
    | inr q => exact .pure _
    | inl L => exact ih L

/-- The whole call. -/
theorem call_map (h : Follows ι o' o args) (p : Scg S) (x0 : V) (s : τ) :
    Scg.call ar o args p x0 (ι s)
      = ((Scg.call ar o' args p x0 s).1, (Scg.call ar o' args p x0 s).2.1, ι (Scg.call ar o' args p x0 s).2.2) := by
  have := ((SameRun.callF h x0).bind fun f => (SameRun.callDf h x0).bind fun g => (SameRun.bump 1 1).bind fun _ =>
    sameRun_loop (ar := ar) h p (ar.size x0) (List.range p.nit) {
      x := x0, f_now := f, f_old := f, grad_new := g, grad_old := g, d := ar.vneg g
      success := true, count_success := 0, beta := ar.lit 1
      kappa := ar.lit 0, theta := ar.lit 0, mu := ar.lit 0 }) ⟨s, p.stats⟩
  unfold Scg.call
  simp only [World.map] at this
  simp only [this]

theorem reach_map (h : Follows ι o' o args) {p : Scg S} {x0 : V} {s : τ} {it : ℕ} {L : ScgLoc S V} {w : World τ S}
    (hr : Reach ar o' args p x0 s it L w) : Reach ar o args p x0 (ι s) it L (w.map ι) := by
  induction hr with
  | start f0 g0 s1 s2 hf hg =>
    refine Reach.start f0 g0 (ι s1) (ι s2) ?_ ?_
    · rw [h.f, hf]
    · rw [h.df, hg]
  | @step it L L' w w' hr hit ht ih =>
    refine Reach.step ih hit ?_
    rw [sameRun_turn h _ _ _ _ w, ht]

end

end VGPA
