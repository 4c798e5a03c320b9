import Verif.Model.ScgPrint

/-!
# C154: what the optimizer prints
-/

namespace VGPA

section
variable {σ A S V : Type}

theorem sm_bind {w α β : Type} (m : ScgM w α) (k : α → ScgM w β) (s : w) :
    (m >>= k) s = match m s with
      | (.ok a, s') => k a s'
      | (.error e, s') => (.error e, s') := rfl

/-- The program `P` does what `Q` does, and prints. -/
def SameButPrints {α : Type} (P : ScgM (PWorld σ S) α) (Q : ScgM (World σ S) α) : Prop :=
  ∀ w, (P w).1 = (Q w.base).1 ∧ (P w).2.base = (Q w.base).2

theorem same_quiet {α : Type} (Q : ScgM (World σ S) α) : SameButPrints (quiet Q) Q := fun _ => ⟨rfl, rfl⟩

theorem same_lift {α : Type} (q : Py α) : SameButPrints (σ := σ) (S := S) (ScgM.lift q) (ScgM.lift q) := fun _ => ⟨rfl, rfl⟩

theorem same_pure {α : Type} (a : α) : SameButPrints (σ := σ) (S := S) (pure a) (pure a) := fun _ => ⟨rfl, rfl⟩

theorem same_bind {α β : Type} {P : ScgM (PWorld σ S) α} {Q : ScgM (World σ S) α} {k : α → ScgM (PWorld σ S) β} {l : α → ScgM (World σ S) β}
    (h : SameButPrints P Q) (hk : ∀ a, SameButPrints (k a) (l a)) : SameButPrints (P >>= k) (Q >>= l) := by
  intro w
  obtain ⟨h1, h2⟩ := h w
  rw [sm_bind, sm_bind]
  rcases hP : P w with ⟨e | a, w'⟩ <;> rcases hQ : Q w.base with ⟨e' | a', s'⟩ <;> rw [hP, hQ] at h1 h2 <;> simp only at h1 h2
  · exact ⟨by simp only [Except.error.injEq] at h1; rw [h1], h2⟩
  · cases h1
  · cases h1
  · cases h1
    subst h2
    exact hk a w'

theorem same_say {β : Type} {l : ScgLine S} {k : Unit → ScgM (PWorld σ S) β} {Q : ScgM (World σ S) β} (h : SameButPrints (k ()) Q) : SameButPrints (say l >>= k) Q := fun w => h { w with out := w.out ++ [l] }

theorem same_progress {β : Type} (display : Bool) (j : ℕ) (a b : S) {k : Unit → ScgM (PWorld σ S) β} {Q : ScgM (World σ S) β} (h : SameButPrints (k ()) Q) :
    SameButPrints (sayProgress display j a b >>= k) Q := by
  unfold sayProgress
  split
  · exact same_say h
  · exact fun w => h w

variable (ar : Arith S V) (o : Oracle σ A S V) (args : A)

theorem same_move (p : Scg S) (display : Bool) (dim_x j : ℕ) (L : ScgLoc S V) (alpha : S) :
    SameButPrints (Scg.pMove ar o args p display dim_x j L alpha) (Scg.move ar o args p dim_x j L alpha) := by
  unfold Scg.pMove Scg.move
  refine same_bind (same_quiet _) fun f_new => same_bind (same_quiet _) fun _ => same_bind (same_lift _) fun delta => ?_
  split
  · refine same_bind (same_quiet _) fun _ => same_progress _ _ _ _ (same_bind (same_lift _) fun big => ?_)
    split
    · exact same_bind (same_quiet _) fun _ => same_pure _
    · refine same_bind (same_quiet _) fun f_now => same_bind (same_quiet _) fun grad_new => same_bind (same_quiet _) fun _ => ?_
      split
      · exact same_bind (same_quiet _) fun _ => same_pure _
      · exact same_bind (same_lift _) fun _ => same_pure _
  · exact same_bind (same_quiet _) fun _ => same_progress _ _ _ _ (same_bind (same_lift _) fun _ => same_pure _)

theorem same_turn (p : Scg S) (display : Bool) (dim_x j : ℕ) (L : ScgLoc S V) :
    SameButPrints (Scg.pTurn ar o args p display dim_x j L) (Scg.turn ar o args p dim_x j L) := by
  unfold Scg.pTurn Scg.turn
  refine same_bind (same_quiet _) fun r => ?_
  rcases r with L | r
  · exact same_bind (same_lift _) fun q => same_move ar o args p display dim_x j _ _
  · exact same_pure _

theorem same_loop (p : Scg S) (display : Bool) (dim_x : ℕ) (js : List ℕ) (L : ScgLoc S V) :
    SameButPrints (Scg.pLoop ar o args p display dim_x js L) (Scg.loop ar o args p dim_x js L) := by
  induction js generalizing L with
  | nil => exact same_say (same_pure _)
  | cons j js ih =>
    unfold Scg.pLoop Scg.loop
    refine same_bind (same_turn ar o args p display dim_x j L) fun r => ?_
    rcases r with L | r
    · exact ih L
    · exact same_pure _

/-- C154, printing changes nothing: with and without `display`, a call of the optimizer has the result of `Scg.call`, and leaves the object and the functions in the same state. -/
theorem C154_no_effect (p : Scg S) (display : Bool) (x0 : V) (s : σ) : (Scg.pCall ar o args p display x0 s).1 = Scg.call ar o args p x0 s := by
  have h : SameButPrints (do
      let f_now ← quiet (callF o x0 args)
      let grad_new ← quiet (callDf o x0 args)
      quiet (bump 1 1)
      Scg.pLoop ar o args p display (ar.size x0) (List.range p.nit) {
        x := x0, f_now, f_old := f_now, grad_new, grad_old := grad_new, d := ar.vneg grad_new
        success := true, count_success := 0, beta := ar.lit 1
        kappa := ar.lit 0, theta := ar.lit 0, mu := ar.lit 0 }) (do
      let f_now ← callF o x0 args
      let grad_new ← callDf o x0 args
      bump 1 1
      Scg.loop ar o args p (ar.size x0) (List.range p.nit) {
        x := x0, f_now, f_old := f_now, grad_new, grad_old := grad_new, d := ar.vneg grad_new
        success := true, count_success := 0, beta := ar.lit 1
        kappa := ar.lit 0, theta := ar.lit 0, mu := ar.lit 0 }) :=
    same_bind (same_quiet _) fun _ => same_bind (same_quiet _) fun _ => same_bind (same_quiet _) fun _ => same_loop ar o args p display _ _ _
  obtain ⟨h1, h2⟩ := h { base := { st := s, stats := p.stats }, out := [] }
  show (_, _, _) = (_, _, _)
  rw [h1, h2]

/-! ## The lines -/

/-- What a turn with index `j` does to the statistics and the output. -/
def TurnLines (display : Bool) (j : ℕ) (w : PWorld σ S) (r : Py (ScgLoc S V ⊕ (V × S)) × PWorld σ S) : Prop :=
  (∀ i, i ≠ j → r.2.base.stats.fx[i]? = w.base.stats.fx[i]? ∧ r.2.base.stats.dfx[i]? = w.base.stats.dfx[i]?)
  ∧ ((r.2.out = w.out ∧ ∀ L, r.1 ≠ .ok (.inl L)) ∨ ∃ a b, r.2.base.stats.fx[j]? = some a ∧ r.2.base.stats.dfx[j]? = some b
      ∧ r.2.out = w.out ++ (if display ∧ j % 10 = 0 then [.progress j a b] else []))
  ∧ match r.1 with
    | .ok (.inr _) => r.2.base.stats.MaxIt = j + 1
    | _ => r.2.base.stats.MaxIt = w.base.stats.MaxIt

theorem record_error {j : ℕ} {a b c : S} {w w' : World σ S} {e : PyErr} (h : record j a b c w = (.error e, w')) :
    w'.stats.MaxIt = w.stats.MaxIt ∧ ∀ i, i ≠ j → w'.stats.fx[i]? = w.stats.fx[i]? ∧ w'.stats.dfx[i]? = w.stats.dfx[i]? := by
  unfold record setIdx at h
  split_ifs at h <;> cases h <;> refine ⟨rfl, fun i hi => ⟨?_, rfl⟩⟩ <;> first | rfl | exact List.getElem?_set_ne (Ne.symm hi)

theorem record_keeps_ok {j : ℕ} {a b c : S} {w w' : World σ S} (h : record j a b c w = (.ok (), w')) :
    w'.stats.MaxIt = w.stats.MaxIt ∧ w'.stats.fx[j]? = some a ∧ w'.stats.dfx[j]? = some c
      ∧ ∀ i, i ≠ j → w'.stats.fx[i]? = w.stats.fx[i]? ∧ w'.stats.dfx[i]? = w.stats.dfx[i]? := by
  unfold record setIdx at h
  split_ifs at h with h1 h2 h3 <;> cases h
  exact ⟨rfl, List.getElem?_set_self h1, List.getElem?_set_self h3, fun i hi => ⟨List.getElem?_set_ne (Ne.symm hi), List.getElem?_set_ne (Ne.symm hi)⟩⟩

theorem sayProgress_eq (display : Bool) (j : ℕ) (a b : S) (w : PWorld σ S) :
    sayProgress display j a b w = (.ok (), { w with out := w.out ++ (if display ∧ j % 10 = 0 then [.progress j a b] else []) }) := by
  unfold sayProgress
  split
  · rfl
  · simp only [List.append_nil]
    rfl

theorem move_lines (p : Scg S) (display : Bool) (dim_x j : ℕ) (L : ScgLoc S V) (alpha : S) (w : PWorld σ S) :
    TurnLines display j w (Scg.pMove ar o args p display dim_x j L alpha w) := by
  have nothing : ∀ (e : PyErr) (w' : PWorld σ S), w'.base.stats.fx = w.base.stats.fx → w'.base.stats.dfx = w.base.stats.dfx → w'.out = w.out → w'.base.stats.MaxIt = w.base.stats.MaxIt →
      TurnLines (V := V) display j w (.error e, w') := fun e w' h1 h2 h3 h4 =>
    ⟨fun i _ => by rw [h1, h2]; exact ⟨rfl, rfl⟩, .inl ⟨h3, fun L h => by cases h⟩, h4⟩
  unfold Scg.pMove
  simp only [sm_bind, quiet, callF, bump, ScgM.lift]
  rcases o.f (ar.vadd L.x (ar.smul alpha L.d)) args w.base.st with ⟨e | f_new, st1⟩
  · exact nothing e _ rfl rfl rfl rfl
  simp only
  rcases ar.div (ar.mul (ar.lit 2) (ar.sub f_new L.f_old)) (ar.mul alpha L.mu) with e | delta
  · exact nothing e _ rfl rfl rfl rfl
  simp only
  split
  · simp only [sm_bind, quiet]
    generalize hr : record j f_new L.beta (ar.absSum L.grad_new) _ = R
    rcases R with ⟨e | ⟨⟩, w1⟩
    · obtain ⟨h1, h2⟩ := record_error hr
      exact ⟨h2, .inl ⟨rfl, fun L h => by cases h⟩, h1⟩
    obtain ⟨h1, h2, h3, h4⟩ := record_keeps_ok hr
    simp only [sayProgress_eq, ScgM.lift]
    rcases ar.absMax (ar.smul alpha L.d) with e | big
    · exact ⟨h4, .inr ⟨_, _, h2, h3, rfl⟩, h1⟩
    simp only
    split
    · exact ⟨h4, .inr ⟨_, _, h2, h3, rfl⟩, rfl⟩
    simp only [sm_bind, quiet, callF, callDf, bump]
    rcases o.f (ar.vadd L.x (ar.smul alpha L.d)) args w1.st with ⟨e | f_now, st2⟩
    · exact ⟨h4, .inr ⟨_, _, h2, h3, rfl⟩, h1⟩
    simp only
    rcases o.df (ar.vadd L.x (ar.smul alpha L.d)) args st2 with ⟨e | grad_new, st3⟩
    · exact ⟨h4, .inr ⟨_, _, h2, h3, rfl⟩, h1⟩
    simp only
    split
    · exact ⟨h4, .inr ⟨_, _, h2, h3, rfl⟩, rfl⟩
    simp only [sm_bind, ScgM.lift]
    generalize Scg.finish ar dim_x delta _ = q
    rcases q with e | L'
    · exact ⟨h4, .inr ⟨_, _, h2, h3, rfl⟩, h1⟩
    · exact ⟨h4, .inr ⟨_, _, h2, h3, rfl⟩, h1⟩
  · simp only [sm_bind, quiet]
    generalize hr : record j L.f_old L.beta (ar.absSum L.grad_old) _ = R
    rcases R with ⟨e | ⟨⟩, w1⟩
    · obtain ⟨h1, h2⟩ := record_error hr
      exact ⟨h2, .inl ⟨rfl, fun L h => by cases h⟩, h1⟩
    obtain ⟨h1, h2, h3, h4⟩ := record_keeps_ok hr
    simp only [sayProgress_eq, ScgM.lift]
    generalize Scg.finish ar dim_x delta _ = q
    rcases q with e | L'
    · exact ⟨h4, .inr ⟨_, _, h2, h3, rfl⟩, h1⟩
    · exact ⟨h4, .inr ⟨_, _, h2, h3, rfl⟩, h1⟩

/-- What the directional derivatives do to the statistics. -/
theorem directional_stats (j : ℕ) (L : ScgLoc S V) (w : World σ S) :
    (Scg.directional ar o j L w).2.stats.fx = w.stats.fx ∧ (Scg.directional ar o j L w).2.stats.dfx = w.stats.dfx
    ∧ match (Scg.directional ar o j L w).1 with
      | .ok (.inr _) => (Scg.directional ar o j L w).2.stats.MaxIt = j + 1
      | _ => (Scg.directional ar o j L w).2.stats.MaxIt = w.stats.MaxIt := by
  unfold Scg.directional
  split
  · simp only
    generalize (if ar.le (ar.lit 0) (ar.dot L.d L.grad_new) = true then (ar.vneg L.grad_new, ar.dot (ar.vneg L.grad_new) L.grad_new) else (L.d, ar.dot L.d L.grad_new)) = q
    obtain ⟨d, mu⟩ := q
    simp only
    split
    · exact ⟨rfl, rfl, rfl⟩
    simp only [sm_bind, ScgM.lift]
    rcases ar.div (ar.lit (1 / 1000)) (ar.sqrt (ar.dot d d)) with e | sigma
    · exact ⟨rfl, rfl, rfl⟩
    simp only [callDfEval, bump]
    rcases o.dfEval (ar.vadd L.x (ar.smul sigma d)) w.st with ⟨e | g_plus, st1⟩
    · exact ⟨rfl, rfl, rfl⟩
    simp only
    rcases ar.div (ar.dot d (ar.vsub g_plus L.grad_new)) sigma with e | theta <;> exact ⟨rfl, rfl, rfl⟩
  · exact ⟨rfl, rfl, rfl⟩

theorem turn_lines (p : Scg S) (display : Bool) (dim_x j : ℕ) (L : ScgLoc S V) (w : PWorld σ S) :
    TurnLines display j w (Scg.pTurn ar o args p display dim_x j L w) := by
  unfold Scg.pTurn
  simp only [sm_bind, quiet]
  obtain ⟨h1, h2, h3⟩ := directional_stats ar o j L w.base
  rcases hd : Scg.directional ar o j L w.base with ⟨e | L' | r, w1⟩ <;> rw [hd] at h1 h2 h3 <;> simp only at h1 h2 h3
  · exact ⟨fun i _ => by rw [h1, h2]; exact ⟨rfl, rfl⟩, .inl ⟨rfl, fun L h => by cases h⟩, h3⟩
  · simp only [sm_bind, ScgM.lift]
    rcases Scg.stepSize ar L' with e | ⟨beta, alpha⟩
    · exact ⟨fun i _ => by rw [h1, h2]; exact ⟨rfl, rfl⟩, .inl ⟨rfl, fun L h => by cases h⟩, h3⟩
    have hm := move_lines ar o args p display dim_x j { L' with beta } alpha { w with base := w1 }
    unfold TurnLines at hm ⊢
    simp only [h1, h2, h3] at hm
    exact hm
  · exact ⟨fun i _ => by show w1.stats.fx[i]? = _ ∧ w1.stats.dfx[i]? = _; rw [h1, h2]; exact ⟨rfl, rfl⟩, .inl ⟨rfl, fun L h => by cases h⟩, h3⟩

end

/-! ## The statement -/

section
variable {σ A S V : Type}

/-- The lines about the progress of the first `k` iterations, in terms of the statistics: with `display` one for every tenth iteration, beginning with the first; else none. -/
structure Spec.Progress (display : Bool) (fx dfx : List S) (k : ℕ) (lines : List (ScgLine S)) : Prop where
  number : lines.length = if display then (k + 9) / 10 else 0
  line : ∀ i < lines.length, ∃ a b, fx[10 * i]? = some a ∧ dfx[10 * i]? = some b ∧ lines[i]? = some (.progress (10 * i) a b)

theorem Spec.Progress.same {display : Bool} {fx dfx fx' dfx' : List S} {k : ℕ} {lines : List (ScgLine S)} (h : Spec.Progress display fx dfx k lines)
    (he : ∀ i, i ≠ k → fx'[i]? = fx[i]? ∧ dfx'[i]? = dfx[i]?) : Spec.Progress display fx' dfx' k lines where
  number := h.number
  line := fun i hi => by
    obtain ⟨a, b, h1, h2, h3⟩ := h.line i hi
    have hn := h.number
    have : 10 * i ≠ k := by
      split_ifs at hn <;> omega
    exact ⟨a, b, by rw [(he _ this).1, h1], by rw [(he _ this).2, h2], h3⟩

theorem Spec.Progress.next {display : Bool} {fx dfx fx' dfx' : List S} {k : ℕ} {lines : List (ScgLine S)} (h : Spec.Progress display fx dfx k lines)
    (he : ∀ i, i ≠ k → fx'[i]? = fx[i]? ∧ dfx'[i]? = dfx[i]?) {a b : S} (ha : fx'[k]? = some a) (hb : dfx'[k]? = some b) :
    Spec.Progress display fx' dfx' (k + 1) (lines ++ (if display ∧ k % 10 = 0 then [.progress k a b] else [])) := by
  have h' := h.same he
  have hn := h.number
  cases display with
  | false =>
    simp only [Bool.false_eq_true, false_and, if_false, List.append_nil] at hn ⊢
    exact ⟨by simpa using hn, h'.line⟩
  | true =>
    simp only [if_true, true_and] at hn ⊢
    by_cases hk : k % 10 = 0
    · rw [if_pos hk]
      refine ⟨by simp only [List.length_append, List.length_singleton, if_true]; omega, fun i hi => ?_⟩
      rw [List.length_append, List.length_singleton] at hi
      by_cases hl : i < lines.length
      · rw [List.getElem?_append_left hl]
        exact h'.line i hl
      · have hik : 10 * i = k := by omega
        refine ⟨a, b, by rw [hik]; exact ha, by rw [hik]; exact hb, ?_⟩
        rw [List.getElem?_append_right (by omega), show i - lines.length = 0 by omega, hik]
        rfl
    · rw [if_neg hk, List.append_nil]
      refine ⟨by simp only [if_true]; omega, h'.line⟩

/-- What a call prints, in terms of its result `r` and of the statistics before and after it: lines about the first `k` iterations, and after these the warning if and only if the call returns after the last iteration without
having set the number of iterations. -/
def Spec.Prints (display : Bool) (nit : ℕ) (before after : ScgStats S) (r : Py (V × S)) (out : List (ScgLine S)) : Prop :=
  ∃ k lines, k ≤ nit ∧ Spec.Progress display after.fx after.dfx k lines
    ∧ ((out = lines ∧ ∃ e, r = .error e) ∨ (out = lines ∧ (∃ x, r = .ok x) ∧ (after.MaxIt = k ∨ after.MaxIt = k + 1) ∧ 1 ≤ after.MaxIt ∧ after.MaxIt ≤ nit)
      ∨ (out = lines ++ [.exhausted] ∧ (∃ x, r = .ok x) ∧ k = nit ∧ after.MaxIt = before.MaxIt))

variable (ar : Arith S V) (o : Oracle σ A S V) (args : A)

theorem loop_lines (p : Scg S) (display : Bool) (dim_x nit : ℕ) (before : ScgStats S) (m j : ℕ) (hj : j + m = nit) (L : ScgLoc S V) (w : PWorld σ S) (hw : Spec.Progress display w.base.stats.fx w.base.stats.dfx j w.out)
    (hb : w.base.stats.MaxIt = before.MaxIt) :
    Spec.Prints display nit before (Scg.pLoop ar o args p display dim_x (List.range' j m) L w).2.base.stats (Scg.pLoop ar o args p display dim_x (List.range' j m) L w).1
      (Scg.pLoop ar o args p display dim_x (List.range' j m) L w).2.out := by
  induction m generalizing j L w with
  | zero =>
    exact ⟨j, w.out, by omega, hw, .inr (.inr ⟨rfl, ⟨_, rfl⟩, by omega, hb⟩)⟩
  | succ m ih =>
    rw [List.range'_succ]
    unfold Scg.pLoop
    simp only [sm_bind]
    obtain ⟨h1, h2, h3⟩ := turn_lines ar o args p display dim_x j L w
    rcases hr : Scg.pTurn ar o args p display dim_x j L w with ⟨e | L' | r, w1⟩ <;> rw [hr] at h1 h2 h3 <;> simp only at h1 h2 h3
    · rcases h2 with ⟨h2, -⟩ | ⟨a, b, ha, hb', h2⟩
      · exact ⟨j, w.out, by omega, hw.same h1, .inl ⟨h2, _, rfl⟩⟩
      · exact ⟨j + 1, _, by omega, hw.next h1 ha hb', .inl ⟨h2, _, rfl⟩⟩
    · rcases h2 with ⟨-, h2⟩ | ⟨a, b, ha, hb', h2⟩
      · exact absurd rfl (h2 L')
      · exact ih (j + 1) (by omega) L' w1 (by rw [h2]; exact hw.next h1 ha hb') (h3.trans hb)
    · rcases h2 with ⟨h2, -⟩ | ⟨a, b, ha, hb', h2⟩
      · exact ⟨j, w.out, by omega, hw.same h1, .inr (.inl ⟨h2, ⟨_, rfl⟩, .inr h3, by show 1 ≤ w1.base.stats.MaxIt; omega, by show w1.base.stats.MaxIt ≤ nit; omega⟩)⟩
      · exact ⟨j + 1, _, by omega, hw.next h1 ha hb', .inr (.inl ⟨h2, ⟨_, rfl⟩, .inl h3, by show 1 ≤ w1.base.stats.MaxIt; omega, by show w1.base.stats.MaxIt ≤ nit; omega⟩)⟩

/-- C154, what is printed. -/
theorem C154_lines (p : Scg S) (display : Bool) (x0 : V) (s : σ) :
    Spec.Prints display p.nit p.stats (Scg.call ar o args p x0 s).2.1.stats (Scg.call ar o args p x0 s).1 (Scg.pCall ar o args p display x0 s).2 := by
  have none : ∀ (st : ScgStats S), Spec.Progress display st.fx st.dfx 0 [] := fun st => ⟨by simp, fun i hi => absurd hi (by simp)⟩
  rw [← C154_no_effect ar o args p display x0 s]
  unfold Scg.pCall
  simp only [sm_bind, quiet, callF, callDf, bump]
  rcases o.f x0 args s with ⟨e | f_now, st1⟩
  · exact ⟨0, [], by omega, none _, .inl ⟨rfl, _, rfl⟩⟩
  simp only
  rcases o.df x0 args st1 with ⟨e | grad_new, st2⟩
  · exact ⟨0, [], by omega, none _, .inl ⟨rfl, _, rfl⟩⟩
  simp only [List.range_eq_range']
  exact loop_lines ar o args p display _ p.nit p.stats p.nit 0 (by omega) _ _ (none _) rfl

end

/-! ## Non-vacuity -/

/-- An arithmetic with one number, in which no comparison holds: every step is a failure, and the optimizer uses all its iterations. -/
def stuckArith : Arith Unit Unit where
  lit _ := ()
  add _ _ := ()
  sub _ _ := ()
  mul _ _ := ()
  neg _ := ()
  div _ _ := .ok ()
  sqrt _ := ()
  abs _ := ()
  max _ _ := ()
  min _ _ := ()
  le _ _ := false
  lt _ _ := false
  isClose0 _ := false
  vneg _ := ()
  vadd _ _ := ()
  vsub _ _ := ()
  smul _ _ := ()
  dot _ _ := ()
  size _ := 1
  absSum _ := ()
  absMax _ := .ok ()

def stuckOracle : Oracle Unit Unit Unit Unit := ⟨fun _ _ _ => (.ok (), ()), fun _ _ _ => (.ok (), ()), fun _ _ => (.ok (), ())⟩

/-- Two lines about the progress, and the warning. -/
example : (Scg.pCall stuckArith stuckOracle () (Scg.init stuckArith (some 12) none none) true () ()).2 = [.progress 0 () (), .progress 10 () (), .exhausted] := by
  simp [Scg.pCall, quiet, callF, callDf, bump, Scg.init, List.range_succ_eq_map, Scg.pLoop, Scg.pTurn, Scg.directional, stuckArith, stuckOracle, callDfEval, ScgM.lift, Scg.stepSize, Scg.pMove, record, setIdx,
    sayProgress_eq, Scg.finish, say, pure, bind, Except.bind, Except.pure]

/-- Without `display` the warning is printed all the same. -/
example : (Scg.pCall stuckArith stuckOracle () (Scg.init stuckArith (some 2) none none) false () ()).2 = [.exhausted] := by
  simp [Scg.pCall, quiet, callF, callDf, bump, Scg.init, List.range_succ_eq_map, Scg.pLoop, Scg.pTurn, Scg.directional, stuckArith, stuckOracle, callDfEval, ScgM.lift, Scg.stepSize, Scg.pMove, record, setIdx,
    sayProgress_eq, Scg.finish, say, pure, bind, Except.bind, Except.pure]

/-- When no lower value can be found because the gradient is zero, nothing is printed. -/
example (c : ℝ) (p : Scg ℝ) (display : Bool) (hp : 0 < p.nit) (x0 : Fin 1 → ℝ) :
    (Scg.pCall (realArith 1) (⟨fun _ _ _ => (.ok c, ()), fun _ _ _ => (.ok 0, ()), fun _ _ => (.ok 0, ())⟩ : Oracle Unit Unit ℝ (Fin 1 → ℝ)) () p display x0 ()).2 = [] := by
  obtain ⟨n, hn⟩ : ∃ n, p.nit = n + 1 := ⟨p.nit - 1, by omega⟩
  simp [Scg.pCall, sm_bind, quiet, callF, callDf, bump, hn, List.range_succ_eq_map, Scg.pLoop, Scg.pTurn, Scg.directional, realArith, pure]
  rfl

end VGPA
