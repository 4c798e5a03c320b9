import Verif.Props.ScgReal

/-!
# C66: the optimizer raises nothing of its own

The function and the gradient are compared with versions of them that return zero instead of raising.
-/

namespace VGPA

noncomputable section

variable {σ A : Type} {n : ℕ}

/-- The exception `e` is what one of the functions raises for some point. -/
inductive Spec.RaisedBy {σ A S V : Type} (o : Oracle σ A S V) (args : A) (e : PyErr) : Prop
  | f (x : V) (s : σ) (h : (o.f x args s).1 = .error e)
  | df (x : V) (s : σ) (h : (o.df x args s).1 = .error e)
  | dfEval (x : V) (s : σ) (h : (o.dfEval x s).1 = .error e)

/-- Zero instead of an exception. -/
def patch {α : Type} (z : α) (r : Py α × σ) : Py α × σ := (.ok (match r.1 with | .ok v => v | .error _ => z), r.2)

def patched (o : Oracle σ A ℝ (Fin n → ℝ)) : Oracle σ A ℝ (Fin n → ℝ) where
  f x a s := patch 0 (o.f x a s)
  df x a s := patch 0 (o.df x a s)
  dfEval x s := patch 0 (o.dfEval x s)

/-- Both computations do the same, or the first raises what one of the functions raises. -/
def Agrees {α : Type} (o : Oracle σ A ℝ (Fin n → ℝ)) (args : A) (m m₀ : ScgM (World σ ℝ) α) : Prop :=
  ∀ w, m w = m₀ w ∨ ∃ e w', m w = (.error e, w') ∧ Spec.RaisedBy o args e

variable {o : Oracle σ A ℝ (Fin n → ℝ)} {args : A}

theorem Agrees.rfl' {α : Type} (m : ScgM (World σ ℝ) α) : Agrees o args m m := fun _ => .inl rfl

theorem bind_eval {w α β : Type} (m : ScgM w α) (k : α → ScgM w β) (s : w) :
    (m >>= k) s = match m s with | (.ok a, s') => k a s' | (.error e, s') => (.error e, s') := rfl

theorem Agrees.bind {α β : Type} {m m₀ : ScgM (World σ ℝ) α} {k k₀ : α → ScgM (World σ ℝ) β} (h : Agrees o args m m₀)
    (hk : ∀ a, Agrees o args (k a) (k₀ a)) : Agrees o args (m >>= k) (m₀ >>= k₀) := by
  intro w
  rw [bind_eval, bind_eval]
  rcases h w with h | ⟨e, w', h, hr⟩
  · rw [h]
    rcases m₀ w with ⟨r, w1⟩
    cases r with
    | error e => exact .inl rfl
    | ok a => exact hk a w1
  · rw [h]
    exact .inr ⟨e, w', rfl, hr⟩

theorem Agrees.ite {α : Type} {c : Prop} [Decidable c] {m m₀ k k₀ : ScgM (World σ ℝ) α} (h : Agrees o args m m₀) (hk : Agrees o args k k₀) :
    Agrees o args (if c then m else k) (if c then m₀ else k₀) := by
  split
  · exact h
  · exact hk

theorem agrees_f (x : Fin n → ℝ) : Agrees o args (callF o x args) (callF (patched o) x args) := by
  intro w
  simp only [callF, patched, patch]
  rcases h : o.f x args w.st with ⟨r, s'⟩
  cases r with
  | ok v => exact .inl rfl
  | error e => exact .inr ⟨e, _, rfl, .f x w.st (by rw [h])⟩

theorem agrees_df (x : Fin n → ℝ) : Agrees o args (callDf o x args) (callDf (patched o) x args) := by
  intro w
  simp only [callDf, patched, patch]
  rcases h : o.df x args w.st with ⟨r, s'⟩
  cases r with
  | ok v => exact .inl rfl
  | error e => exact .inr ⟨e, _, rfl, .df x w.st (by rw [h])⟩

theorem agrees_dfEval (x : Fin n → ℝ) : Agrees o args (callDfEval o x) (callDfEval (patched o) x) := by
  intro w
  simp only [callDfEval, patched, patch]
  rcases h : o.dfEval x w.st with ⟨r, s'⟩
  cases r with
  | ok v => exact .inl rfl
  | error e => exact .inr ⟨e, _, rfl, .dfEval x w.st (by rw [h])⟩

variable (ar : Arith ℝ (Fin n → ℝ)) (p : Scg ℝ)

theorem agrees_directional (j : ℕ) (L : ScgLoc ℝ (Fin n → ℝ)) :
    Agrees o args (Scg.directional ar o j L) (Scg.directional ar (patched o) j L) := by
  unfold Scg.directional
  refine .ite (.ite (.rfl' _) (.bind (.rfl' _) fun _ => .bind (agrees_dfEval _) fun _ => .rfl' _)) (.rfl' _)

theorem agrees_move (m j : ℕ) (L : ScgLoc ℝ (Fin n → ℝ)) (alpha : ℝ) :
    Agrees o args (Scg.move ar o args p m j L alpha) (Scg.move ar (patched o) args p m j L alpha) := by
  unfold Scg.move
  refine .bind (agrees_f _) fun _ => .bind (.rfl' _) fun _ => .bind (.rfl' _) fun _ => .ite (.bind (.rfl' _) fun _ => .bind (.rfl' _) fun _ =>
    .ite (.rfl' _) (.bind (agrees_f _) fun _ => .bind (agrees_df _) fun _ => .rfl' _)) (.rfl' _)

theorem agrees_turn (m j : ℕ) (L : ScgLoc ℝ (Fin n → ℝ)) :
    Agrees o args (Scg.turn ar o args p m j L) (Scg.turn ar (patched o) args p m j L) := by
  unfold Scg.turn
  refine .bind (agrees_directional ar j L) fun r => ?_
  cases r with
  | inr r => exact .rfl' _
  | inl L => exact .bind (.rfl' _) fun _ => agrees_move ar p m j _ _

theorem agrees_loop (m : ℕ) (js : List ℕ) (L : ScgLoc ℝ (Fin n → ℝ)) :
    Agrees o args (Scg.loop ar o args p m js L) (Scg.loop ar (patched o) args p m js L) := by
  induction js generalizing L with
  | nil => exact .rfl' _
  | cons j js ih =>
    refine .bind (agrees_turn ar p m j L) fun r => ?_
    cases r with
    | inr r => exact .rfl' _
    | inl L => exact ih L

theorem call_agrees (x0 : Fin n → ℝ) (s : σ) :
    Scg.call ar o args p x0 s = Scg.call ar (patched o) args p x0 s
      ∨ ∃ e p' s', Scg.call ar o args p x0 s = (.error e, p', s') ∧ Spec.RaisedBy o args e := by
  have h : Agrees o args (do
      let f_now ← callF o x0 args
      let grad_new ← callDf o x0 args
      bump 1 1
      Scg.loop ar o args p (ar.size x0) (List.range p.nit) {
        x := x0, f_now, f_old := f_now, grad_new, grad_old := grad_new, d := ar.vneg grad_new
        success := true, count_success := 0, beta := ar.lit 1
        kappa := ar.lit 0, theta := ar.lit 0, mu := ar.lit 0 }) (do
      let f_now ← callF (patched o) x0 args
      let grad_new ← callDf (patched o) x0 args
      bump 1 1
      Scg.loop ar (patched o) args p (ar.size x0) (List.range p.nit) {
        x := x0, f_now, f_old := f_now, grad_new, grad_old := grad_new, d := ar.vneg grad_new
        success := true, count_success := 0, beta := ar.lit 1
        kappa := ar.lit 0, theta := ar.lit 0, mu := ar.lit 0 }) :=
    .bind (agrees_f x0) fun _ => .bind (agrees_df x0) fun _ => .bind (.rfl' _) fun _ => agrees_loop ar p _ _ _
  rcases h { st := s, stats := p.stats } with h | ⟨e, w', h, hr⟩
  · exact .inl (congrArg (fun r : Py ((Fin n → ℝ) × ℝ) × World σ ℝ => (r.1, { p with stats := r.2.stats }, r.2.st)) h)
  · exact .inr ⟨e, _, _, congrArg (fun r : Py ((Fin n → ℝ) × ℝ) × World σ ℝ => (r.1, { p with stats := r.2.stats }, r.2.st)) h, hr⟩

/-- C66, the other case: whatever the two functions do, a call on an optimizer as the constructor makes it returns, or it raises an exception
that one of the two functions has raised. It never divides by zero and never leaves its arrays. -/
theorem C66_raises_nothing_else (o : Oracle σ A ℝ (Fin n → ℝ)) (args : A) (p : Scg ℝ) (hp : Spec.Arrays p) (x0 : Fin n → ℝ) (s : σ) :
    (∃ q p' s', Scg.call (realArith n) o args p x0 s = (.ok q, p', s'))
      ∨ ∃ e p' s', Scg.call (realArith n) o args p x0 s = (.error e, p', s') ∧ Spec.RaisedBy o args e := by
  rcases call_agrees (o := o) (args := args) (realArith n) p x0 s with h | h
  · left
    rw [h]
    exact call_total hp ⟨fun _ _ => ⟨_, _, rfl⟩, fun _ _ => ⟨_, _, rfl⟩, fun _ _ => ⟨_, _, rfl⟩⟩ x0 s
  · exact .inr h

/-- The second case occurs: the gradient raises at the start. -/
example : ∃ (o : Oracle Unit Unit ℝ (Fin 1 → ℝ)) (p' : Scg ℝ),
    Scg.call (realArith 1) o () (Scg.init (realArith 1) none none none) 0 () = (.error .linAlgError, p', ())
      ∧ Spec.RaisedBy o () .linAlgError ∧ Spec.Arrays (Scg.init (realArith 1) none none none) :=
  ⟨⟨fun _ _ _ => (.ok 0, ()), fun _ _ _ => (.error .linAlgError, ()), fun _ _ => (.ok 0, ())⟩, _, rfl, .df 0 () rfl,
    Scg.init_arrays _ none none none⟩

end

end VGPA
