import Verif.Props.ScgMap
import Verif.Props.ScgQuad

/-!
# C113: the optimizer does not depend on how the coordinates are numbered, signed or centred, nor on a constant in the objective

Two problems are compared: `f` with gradient `df`, and the same problem written in other coordinates `y`, where `y` is `x` with its
entries reordered, some of them negated, and a fixed vector added, and with a constant added to the objective.
-/

namespace VGPA

variable {σ τ A B : Type} {n : ℕ}

namespace Spec

/-- The vector with entry `π i`, multiplied by `ε i`, at place `i`. -/
def relabel (π : Equiv.Perm (Fin n)) (ε : Fin n → ℝ) (v : Fin n → ℝ) : Fin n → ℝ := fun i => ε i * v (π i)

/-- Two outcomes of a call: the same exception, or two values that are related. -/
inductive Alike {α β : Type} (R : α → β → Prop) : Py α → Py β → Prop
  | ok {a : α} {b : β} (h : R a b) : Alike R (.ok a) (.ok b)
  | error (e : PyErr) : Alike R (.error e) (.error e)

/-- `o'` is the problem `o` in the coordinates `y = relabel π ε x + v`, with `k` added to the objective: in related states the objectives
at `x` and `y` either raise the same exception or differ by `k`, the gradients either raise the same exception or are related like the
coordinates, and the states afterwards are related. -/
structure SameProblem (π : Equiv.Perm (Fin n)) (ε v : Fin n → ℝ) (k : ℝ) (T : σ → τ → Prop) (o : Oracle σ A ℝ (Fin n → ℝ)) (args : A)
    (o' : Oracle τ B ℝ (Fin n → ℝ)) (args' : B) : Prop where
  f : ∀ x s t, T s t → Alike (fun a b => b = a + k) (o.f x args s).1 (o'.f (relabel π ε x + v) args' t).1
    ∧ T (o.f x args s).2 (o'.f (relabel π ε x + v) args' t).2
  df : ∀ x s t, T s t → Alike (fun g h => h = relabel π ε g) (o.df x args s).1 (o'.df (relabel π ε x + v) args' t).1
    ∧ T (o.df x args s).2 (o'.df (relabel π ε x + v) args' t).2
  dfEval : ∀ x s t, T s t → Alike (fun g h => h = relabel π ε g) (o.dfEval x s).1 (o'.dfEval (relabel π ε x + v) t).1
    ∧ T (o.dfEval x s).2 (o'.dfEval (relabel π ε x + v) t).2

/-- The statistics of two calls agree, except that the first `m` recorded values of the objective differ by `k`. -/
structure SameStats (k : ℝ) (m : ℕ) (a b : ScgStats ℝ) : Prop where
  maxIt : b.MaxIt = a.MaxIt
  f_eval : b.f_eval = a.f_eval
  df_eval : b.df_eval = a.df_eval
  beta : b.beta = a.beta
  dfx : b.dfx = a.dfx
  len : b.fx.length = a.fx.length
  shifted : ∀ i (h : i < a.fx.length), i < m → b.fx[i]'(by omega) = a.fx[i] + k
  same : ∀ i (h : i < a.fx.length), m ≤ i → b.fx[i]'(by omega) = a.fx[i]

end Spec

open Spec

section
variable {π : Equiv.Perm (Fin n)} {ε : Fin n → ℝ}

theorem relabel_neg (x : Fin n → ℝ) : relabel π ε (-x) = -relabel π ε x := by funext i; simp [relabel]
theorem relabel_add (x y : Fin n → ℝ) : relabel π ε (x + y) = relabel π ε x + relabel π ε y := by funext i; simp [relabel, mul_add]
theorem relabel_sub (x y : Fin n → ℝ) : relabel π ε (x - y) = relabel π ε x - relabel π ε y := by funext i; simp [relabel, mul_sub]
theorem relabel_smul (a : ℝ) (x : Fin n → ℝ) : relabel π ε (a • x) = a • relabel π ε x := by funext i; simp [relabel]; ring

theorem relabel_dot (hε : ∀ i, ε i = 1 ∨ ε i = -1) (x y : Fin n → ℝ) : relabel π ε x ⬝ᵥ relabel π ε y = x ⬝ᵥ y := by
  unfold relabel dotProduct
  rw [← Equiv.sum_comp π fun i => x i * y i]
  refine Finset.sum_congr rfl fun i _ => ?_
  rcases hε i with h | h <;> simp [h]

theorem relabel_abs (hε : ∀ i, ε i = 1 ∨ ε i = -1) (x : Fin n → ℝ) (i : Fin n) : |relabel π ε x i| = |x (π i)| := by
  unfold relabel
  rcases hε i with h | h <;> rw [h] <;> simp

theorem relabel_absSum (hε : ∀ i, ε i = 1 ∨ ε i = -1) (x : Fin n → ℝ) :
    (realArith n).absSum (relabel π ε x) = (realArith n).absSum x := by
  show ∑ i, |relabel π ε x i| = ∑ i, |x i|
  rw [← Equiv.sum_comp π fun i => |x i|]
  exact Finset.sum_congr rfl fun i _ => relabel_abs hε x i

theorem relabel_absMax (hε : ∀ i, ε i = 1 ∨ ε i = -1) (x : Fin n → ℝ) :
    (realArith n).absMax (relabel π ε x) = (realArith n).absMax x := by
  simp only [realArith]
  split
  · rfl
  · congr 1
    apply le_antisymm
    · refine Finset.sup'_le _ _ fun i _ => ?_
      rw [relabel_abs hε]
      exact Finset.le_sup' (fun i => |x i|) (Finset.mem_univ _)
    · refine Finset.sup'_le _ _ fun i _ => ?_
      have := Finset.le_sup' (fun i => |relabel π ε x i|) (Finset.mem_univ (π.symm i))
      simpa [relabel_abs hε] using this

end

/-! ## Runs of related computations -/

/-- Two computations end alike: with values and worlds related by `P`, or with the same exception in worlds related by `F`. -/
inductive Ends {w w' α β : Type} (P : α → β → w → w' → Prop) (F : w → w' → Prop) : Py α × w → Py β × w' → Prop
  | ok {a : α} {b : β} {u : w} {u' : w'} (h : P a b u u') : Ends P F (.ok a, u) (.ok b, u')
  | error (e : PyErr) {u : w} {u' : w'} (h : F u u') : Ends P F (.error e, u) (.error e, u')

/-- From worlds related by `W`, two computations end alike. -/
def RelRun {w w' α β : Type} (W : w → w' → Prop) (P : α → β → w → w' → Prop) (F : w → w' → Prop) (m : ScgM w α) (m' : ScgM w' β) : Prop :=
  ∀ s s', W s s' → Ends P F (m s) (m' s')

section
variable {w w' α β γ δ : Type} {W F : w → w' → Prop}

theorem RelRun.pure {P : α → β → w → w' → Prop} {a : α} {b : β} (h : ∀ s s', W s s' → P a b s s') :
    RelRun W P F (Pure.pure a) (Pure.pure b) := fun _ _ hs => .ok (h _ _ hs)

theorem RelRun.lift {R : α → β → Prop} {a : Py α} {b : Py β} (h : Alike R a b) (hF : ∀ s s', W s s' → F s s') :
    RelRun W (fun a b s s' => R a b ∧ W s s') F (ScgM.lift a) (ScgM.lift b) := by
  intro s s' hs
  unfold ScgM.lift
  cases h with
  | ok h => exact .ok ⟨h, hs⟩
  | error e => exact .error e (hF _ _ hs)

theorem RelRun.bind {P : α → β → w → w' → Prop} {Q : γ → δ → w → w' → Prop} {m : ScgM w α} {m' : ScgM w' β} {k : α → ScgM w γ}
    {k' : β → ScgM w' δ} (h : RelRun W P F m m') (hk : ∀ a b, RelRun (P a b) Q F (k a) (k' b)) :
    RelRun W Q F (m >>= k) (m' >>= k') := by
  intro s s' hs
  have h1 := h s s' hs
  rcases hm : m s with ⟨r, u⟩
  rcases hm' : m' s' with ⟨r', u'⟩
  rw [hm, hm'] at h1
  cases h1 with
  | ok hab => rw [ScgM.bind_step hm, ScgM.bind_step hm']; exact hk _ _ u u' hab
  | error e hF => rw [ScgM.bind_fail hm, ScgM.bind_fail hm']; exact .error e hF

/-- The usual case: the worlds stay related by the same relation, the values are related by `R`. -/
theorem RelRun.step {R : α → β → Prop} {W1 : w → w' → Prop} {Q : γ → δ → w → w' → Prop} {m : ScgM w α} {m' : ScgM w' β} {k : α → ScgM w γ}
    {k' : β → ScgM w' δ} (h : RelRun W (fun a b s s' => R a b ∧ W1 s s') F m m') (hk : ∀ a b, R a b → RelRun W1 Q F (k a) (k' b)) :
    RelRun W Q F (m >>= k) (m' >>= k') :=
  h.bind fun a b s s' hs => hk a b hs.1 s s' hs.2

end

/-- Worlds with related states and the same statistics up to the shift in the first `m` values. -/
def RelW (T : σ → τ → Prop) (k : ℝ) (m : ℕ) (w : World σ ℝ) (w' : World τ ℝ) : Prop := T w.st w'.st ∧ SameStats k m w.stats w'.stats

/-- The same with at most `N` shifted values. -/
def RelE (T : σ → τ → Prop) (k : ℝ) (N : ℕ) (w : World σ ℝ) (w' : World τ ℝ) : Prop := ∃ j ≤ N, RelW T k j w w'

section
variable {π : Equiv.Perm (Fin n)} {ε v : Fin n → ℝ} {k : ℝ} {T : σ → τ → Prop} {o : Oracle σ A ℝ (Fin n → ℝ)} {args : A}
  {o' : Oracle τ B ℝ (Fin n → ℝ)} {args' : B}

theorem relRun_callF (h : SameProblem π ε v k T o args o' args') {m N : ℕ} (hm : m ≤ N) {x y : Fin n → ℝ} (hy : y = relabel π ε x + v) :
    RelRun (RelW T k m) (fun a b s s' => b = a + k ∧ RelW T k m s s') (RelE T k N) (callF o x args) (callF o' y args') := by
  subst hy
  intro s s' hs
  obtain ⟨h1, h2⟩ := h.f x s.st s'.st hs.1
  unfold callF
  dsimp only
  generalize o.f x args s.st = r at h1 h2
  generalize o'.f (relabel π ε x + v) args' s'.st = r' at h1 h2
  obtain ⟨r, u⟩ := r
  obtain ⟨r', u'⟩ := r'
  cases h1 with
  | ok h1 => exact .ok ⟨h1, h2, hs.2⟩
  | error e => exact .error e ⟨m, hm, h2, hs.2⟩

theorem relRun_callDf (h : SameProblem π ε v k T o args o' args') {m N : ℕ} (hm : m ≤ N) {x y : Fin n → ℝ} (hy : y = relabel π ε x + v) :
    RelRun (RelW T k m) (fun a b s s' => b = relabel π ε a ∧ RelW T k m s s') (RelE T k N) (callDf o x args) (callDf o' y args') := by
  subst hy
  intro s s' hs
  obtain ⟨h1, h2⟩ := h.df x s.st s'.st hs.1
  unfold callDf
  dsimp only
  generalize o.df x args s.st = r at h1 h2
  generalize o'.df (relabel π ε x + v) args' s'.st = r' at h1 h2
  obtain ⟨r, u⟩ := r
  obtain ⟨r', u'⟩ := r'
  cases h1 with
  | ok h1 => exact .ok ⟨h1, h2, hs.2⟩
  | error e => exact .error e ⟨m, hm, h2, hs.2⟩

theorem relRun_callDfEval (h : SameProblem π ε v k T o args o' args') {m N : ℕ} (hm : m ≤ N) {x y : Fin n → ℝ}
    (hy : y = relabel π ε x + v) :
    RelRun (RelW T k m) (fun a b s s' => b = relabel π ε a ∧ RelW T k m s s') (RelE T k N) (callDfEval o x) (callDfEval o' y) := by
  subst hy
  intro s s' hs
  obtain ⟨h1, h2⟩ := h.dfEval x s.st s'.st hs.1
  unfold callDfEval
  dsimp only
  generalize o.dfEval x s.st = r at h1 h2
  generalize o'.dfEval (relabel π ε x + v) s'.st = r' at h1 h2
  obtain ⟨r, u⟩ := r
  obtain ⟨r', u'⟩ := r'
  cases h1 with
  | ok h1 => exact .ok ⟨h1, h2, hs.2⟩
  | error e => exact .error e ⟨m, hm, h2, hs.2⟩

theorem relRun_bump {m : ℕ} {F : World σ ℝ → World τ ℝ → Prop} (a b : ℕ) :
    RelRun (RelW T k m) (fun _ _ s s' => True ∧ RelW T k m s s') F (bump a b) (bump a b) :=
  fun _ _ hs => .ok ⟨trivial, hs.1, ⟨hs.2.maxIt, by simp [hs.2.f_eval], by simp [hs.2.df_eval], hs.2.beta, hs.2.dfx, hs.2.len,
    hs.2.shifted, hs.2.same⟩⟩

theorem relRun_setMaxIt {m : ℕ} {F : World σ ℝ → World τ ℝ → Prop} (a : ℕ) :
    RelRun (RelW T k m) (fun _ _ s s' => True ∧ RelW T k m s s') F (setMaxIt a) (setMaxIt a) :=
  fun _ _ hs => .ok ⟨trivial, hs.1, ⟨rfl, hs.2.f_eval, hs.2.df_eval, hs.2.beta, hs.2.dfx, hs.2.len, hs.2.shifted, hs.2.same⟩⟩

theorem setIdx_cases {α : Type} (l : List α) (j : ℕ) (a : α) :
    (j < l.length ∧ setIdx l j a = .ok (l.set j a)) ∨ (l.length ≤ j ∧ setIdx l j a = .error .indexError) := by
  unfold setIdx
  split
  · exact .inl ⟨by assumption, rfl⟩
  · exact .inr ⟨by omega, rfl⟩

theorem sameStats_set {m : ℕ} {s s' : ScgStats ℝ} (h : SameStats k m s s') {a b : ℝ} (hb : b = a + k) :
    SameStats k (m + 1) { s with fx := s.fx.set m a } { s' with fx := s'.fx.set m b } := by
  refine ⟨h.maxIt, h.f_eval, h.df_eval, h.beta, h.dfx, by simp [h.len], fun i hi him => ?_, fun i hi him => ?_⟩
  · simp only [List.length_set] at hi
    simp only [List.getElem_set]
    split
    · exact hb
    · exact h.shifted i hi (by omega)
  · simp only [List.length_set] at hi
    simp only [List.getElem_set]
    rw [if_neg (by omega), if_neg (by omega)]
    exact h.same i hi (by omega)

theorem relRun_record {m N : ℕ} (hm : m + 1 ≤ N) {a b c c' d d' : ℝ} (hb : b = a + k) (hc : c' = c) (hd : d' = d) :
    RelRun (RelW T k m) (fun _ _ s s' => True ∧ RelW T k (m + 1) s s') (RelE T k N) (record m a c d) (record m b c' d') := by
  subst hc hd
  intro s s' hs
  have hl := hs.2.len
  unfold record
  rcases setIdx_cases s.stats.fx m a with ⟨h1, e1⟩ | ⟨h1, e1⟩
  · rcases setIdx_cases s'.stats.fx m b with ⟨h2, e2⟩ | ⟨h2, e2⟩
    swap
    · omega
    rw [e1, e2, hs.2.beta, hs.2.dfx]
    have key := sameStats_set hs.2 hb
    dsimp only
    rcases setIdx_cases s.stats.beta m c' with ⟨h3, e3⟩ | ⟨h3, e3⟩
    · rw [e3]
      dsimp only
      rcases setIdx_cases s.stats.dfx m d' with ⟨h4, e4⟩ | ⟨h4, e4⟩
      · rw [e4]
        exact .ok ⟨trivial, hs.1, key.maxIt, key.f_eval, key.df_eval, rfl, rfl, key.len, key.shifted, key.same⟩
      · rw [e4]
        exact .error _ ⟨m + 1, hm, hs.1, key.maxIt, key.f_eval, key.df_eval, rfl, hs.2.dfx, key.len, key.shifted, key.same⟩
    · rw [e3]
      exact .error _ ⟨m + 1, hm, hs.1, key⟩
  · rcases setIdx_cases s'.stats.fx m b with ⟨h2, e2⟩ | ⟨h2, e2⟩
    · omega
    rw [e1, e2]
    exact .error _ ⟨m, by omega, hs⟩

/-! ## The parts of a call -/

/-- The local variables of the two calls. -/
structure RelLoc (π : Equiv.Perm (Fin n)) (ε v : Fin n → ℝ) (k : ℝ) (L L' : ScgLoc ℝ (Fin n → ℝ)) : Prop where
  x : L'.x = relabel π ε L.x + v
  f_now : L'.f_now = L.f_now + k
  f_old : L'.f_old = L.f_old + k
  grad_new : L'.grad_new = relabel π ε L.grad_new
  grad_old : L'.grad_old = relabel π ε L.grad_old
  d : L'.d = relabel π ε L.d
  success : L'.success = L.success
  count : L'.count_success = L.count_success
  beta : L'.beta = L.beta
  kappa : L'.kappa = L.kappa
  theta : L'.theta = L.theta
  mu : L'.mu = L.mu

/-- The results of the two calls. -/
def RelRes (π : Equiv.Perm (Fin n)) (ε v : Fin n → ℝ) (k : ℝ) (r r' : (Fin n → ℝ) × ℝ) : Prop :=
  r'.1 = relabel π ε r.1 + v ∧ r'.2 = r.2 + k

/-- After an iteration: both calls go on, with one more shifted value, or both return. -/
def RelTurn (π : Equiv.Perm (Fin n)) (ε v : Fin n → ℝ) (k : ℝ) (T : σ → τ → Prop) (m N : ℕ)
    (r r' : ScgLoc ℝ (Fin n → ℝ) ⊕ (Fin n → ℝ) × ℝ) (w : World σ ℝ) (w' : World τ ℝ) : Prop :=
  (∃ L L', r = .inl L ∧ r' = .inl L' ∧ RelLoc π ε v k L L' ∧ RelW T k m w w')
    ∨ ∃ q q', r = .inr q ∧ r' = .inr q' ∧ RelRes π ε v k q q' ∧ RelE T k N w w'

theorem Spec.Alike.refl {α : Type} (a : Py α) : Alike (fun a b => b = a) a a := by
  cases a with
  | ok a => exact .ok rfl
  | error e => exact .error e

theorem relRun_directional (hε : ∀ i, ε i = 1 ∨ ε i = -1) (h : SameProblem π ε v k T o args o' args') {m N : ℕ} (hm : m ≤ N)
    {L L' : ScgLoc ℝ (Fin n → ℝ)} (hL : RelLoc π ε v k L L') :
    RelRun (RelW T k m) (RelTurn π ε v k T m N) (RelE T k N) (Scg.directional (realArith n) o m L) (Scg.directional (realArith n) o' m L') := by
  obtain ⟨x', fn', fo', gn', go', d', su', co', be', ka', th', mu'⟩ := L'
  obtain ⟨hx1, hfn, hfo, hgn, hgo, hd1, hsu, hco, hbe, hka, hth, hmu⟩ := hL
  dsimp only at hx1 hfn hfo hgn hgo hd1 hsu hco hbe hka hth hmu
  subst hx1 hfn hfo hgn hgo hd1 hsu hco hbe hka hth hmu
  have hF : ∀ s s', RelW T k m s s' → RelE T k N s s' := fun s s' hs => ⟨m, hm, hs⟩
  have key : ∀ d d' mu mu' : _, d' = relabel π ε d → mu' = mu → RelRun (RelW T k m) (RelTurn π ε v k T m N) (RelE T k N)
      (let kappa := (realArith n).dot d d
       if (realArith n).lt kappa ((realArith n).lit (1 / 2 ^ 52)) then do
        setMaxIt (m + 1)
        pure (.inr (L.x, L.f_now))
       else do
        let sigma ← .lift ((realArith n).div ((realArith n).lit (1 / 1000)) ((realArith n).sqrt kappa))
        let x_plus := (realArith n).vadd L.x ((realArith n).smul sigma d)
        let g_plus ← callDfEval o x_plus
        bump 1 1
        let theta ← .lift ((realArith n).div ((realArith n).dot d ((realArith n).vsub g_plus L.grad_new)) sigma)
        pure (.inl { L with d, mu, kappa, theta }))
      (let kappa := (realArith n).dot d' d'
       if (realArith n).lt kappa ((realArith n).lit (1 / 2 ^ 52)) then do
        setMaxIt (m + 1)
        pure (.inr (relabel π ε L.x + v, L.f_now + k))
       else do
        let sigma ← .lift ((realArith n).div ((realArith n).lit (1 / 1000)) ((realArith n).sqrt kappa))
        let x_plus := (realArith n).vadd (relabel π ε L.x + v) ((realArith n).smul sigma d')
        let g_plus ← callDfEval o' x_plus
        bump 1 1
        let theta ← .lift ((realArith n).div ((realArith n).dot d' ((realArith n).vsub g_plus (relabel π ε L.grad_new))) sigma)
        pure (.inl ⟨relabel π ε L.x + v, L.f_now + k, L.f_old + k, relabel π ε L.grad_new, relabel π ε L.grad_old, d', L.success,
          L.count_success, L.beta, kappa, theta, mu'⟩)) := by
    rintro d _ mu _ rfl rfl
    have hdot : (realArith n).dot (relabel π ε d) (relabel π ε d) = (realArith n).dot d d := relabel_dot hε d d
    simp only [hdot]
    split
    · exact (relRun_setMaxIt _).step fun _ _ _ => .pure fun s s' hs => .inr ⟨_, _, rfl, rfl, ⟨rfl, rfl⟩, hF _ _ hs⟩
    · refine (RelRun.lift (Alike.refl _) hF).step fun sg sg' hsg => ?_
      subst hsg
      refine (relRun_callDfEval h hm ?_).step fun g g' hg => (relRun_bump _ _).step fun _ _ _ => ?_
      · show relabel π ε L.x + v + sg' • relabel π ε d = relabel π ε (L.x + sg' • d) + v
        rw [relabel_add, relabel_smul]
        abel
      · subst hg
        have e : (realArith n).dot (relabel π ε d) ((realArith n).vsub (relabel π ε g) (relabel π ε L.grad_new))
            = (realArith n).dot d ((realArith n).vsub g L.grad_new) := by
          show relabel π ε d ⬝ᵥ (relabel π ε g - relabel π ε L.grad_new) = d ⬝ᵥ (g - L.grad_new)
          rw [← relabel_sub, relabel_dot hε]
        rw [e]
        refine (RelRun.lift (Alike.refl _) hF).step fun th th' hth => ?_
        subst hth
        exact .pure fun s s' hs => .inl ⟨_, _, rfl, rfl, ⟨rfl, rfl, rfl, rfl, rfl, rfl, rfl, rfl, rfl, rfl, rfl, rfl⟩, hs⟩
  have e1 : (realArith n).dot (relabel π ε L.d) (relabel π ε L.grad_new) = (realArith n).dot L.d L.grad_new := relabel_dot hε _ _
  have e2 : (realArith n).vneg (relabel π ε L.grad_new) = relabel π ε ((realArith n).vneg L.grad_new) := (relabel_neg _).symm
  have e3 : (realArith n).dot ((realArith n).vneg (relabel π ε L.grad_new)) (relabel π ε L.grad_new)
      = (realArith n).dot ((realArith n).vneg L.grad_new) L.grad_new := by
    rw [e2]; exact relabel_dot hε _ _
  unfold Scg.directional
  dsimp only
  split
  · rw [e1]
    cases hc : (realArith n).le ((realArith n).lit 0) ((realArith n).dot L.d L.grad_new)
    · simp only [Bool.false_eq_true, if_false]
      exact key _ _ _ _ rfl rfl
    · simp only [if_true]
      exact key _ _ _ _ e2 e3
  · exact .pure fun s s' hs => .inl ⟨_, _, rfl, rfl, ⟨rfl, rfl, rfl, rfl, rfl, rfl, rfl, rfl, rfl, rfl, rfl, rfl⟩, hs⟩

theorem alike_stepSize {L L' : ScgLoc ℝ (Fin n → ℝ)} (hL : RelLoc π ε v k L L') :
    Alike (fun a b => b = a) (Scg.stepSize (realArith n) L) (Scg.stepSize (realArith n) L') := by
  have : Scg.stepSize (realArith n) L' = Scg.stepSize (realArith n) L := by
    unfold Scg.stepSize
    rw [hL.theta, hL.beta, hL.kappa, hL.mu]
  rw [this]
  exact .refl _

theorem alike_finish (hε : ∀ i, ε i = 1 ∨ ε i = -1) {L L' : ScgLoc ℝ (Fin n → ℝ)} (hL : RelLoc π ε v k L L') (dim : ℕ) (delta : ℝ) :
    Alike (RelLoc π ε v k) (Scg.finish (realArith n) dim delta L) (Scg.finish (realArith n) dim delta L') := by
  obtain ⟨x', fn', fo', gn', go', d', su', co', be', ka', th', mu'⟩ := L'
  obtain ⟨hx1, hfn, hfo, hgn, hgo, hd1, hsu, hco, hbe, hka, hth, hmu⟩ := hL
  dsimp only at hx1 hfn hfo hgn hgo hd1 hsu hco hbe hka hth hmu
  subst hx1 hfn hfo hgn hgo hd1 hsu hco hbe hka hth hmu
  have e : (realArith n).dot (relabel π ε L.grad_new) ((realArith n).vsub (relabel π ε L.grad_old) (relabel π ε L.grad_new))
      = (realArith n).dot L.grad_new ((realArith n).vsub L.grad_old L.grad_new) := by
    show relabel π ε L.grad_new ⬝ᵥ (relabel π ε L.grad_old - relabel π ε L.grad_new) = L.grad_new ⬝ᵥ (L.grad_old - L.grad_new)
    rw [← relabel_sub, relabel_dot hε]
  unfold Scg.finish
  simp only [e]
  split
  · exact .ok ⟨rfl, rfl, rfl, rfl, rfl, (relabel_neg _).symm, rfl, rfl, rfl, rfl, rfl, rfl⟩
  · split
    · cases hdiv : (realArith n).div ((realArith n).dot L.grad_new ((realArith n).vsub L.grad_old L.grad_new)) L.mu with
      | error e => exact .error e
      | ok q => exact .ok ⟨rfl, rfl, rfl, rfl, rfl, by
          show (realArith n).max q ((realArith n).lit 0) • relabel π ε L.d - relabel π ε L.grad_new
            = relabel π ε ((realArith n).max q ((realArith n).lit 0) • L.d - L.grad_new)
          rw [relabel_sub, relabel_smul], rfl, rfl, rfl, rfl, rfl, rfl⟩
    · exact .ok ⟨rfl, rfl, rfl, rfl, rfl, rfl, rfl, rfl, rfl, rfl, rfl, rfl⟩

theorem relRun_move (hε : ∀ i, ε i = 1 ∨ ε i = -1) (h : SameProblem π ε v k T o args o' args') {m N : ℕ} (hm : m + 1 ≤ N)
    {L L' : ScgLoc ℝ (Fin n → ℝ)} (hL : RelLoc π ε v k L L') (p p' : Scg ℝ) (hx : p'.x_tol = p.x_tol) (hf : p'.f_tol = p.f_tol) (dim : ℕ)
    (alpha : ℝ) :
    RelRun (RelW T k m) (RelTurn π ε v k T (m + 1) N) (RelE T k N) (Scg.move (realArith n) o args p dim m L alpha)
      (Scg.move (realArith n) o' args' p' dim m L' alpha) := by
  obtain ⟨x', fn', fo', gn', go', d', su', co', be', ka', th', mu'⟩ := L'
  obtain ⟨hx1, hfn, hfo, hgn, hgo, hd1, hsu, hco, hbe, hka, hth, hmu⟩ := hL
  dsimp only at hx1 hfn hfo hgn hgo hd1 hsu hco hbe hka hth hmu
  subst hx1 hfn hfo hgn hgo hd1 hsu hco hbe hka hth hmu
  have hF : ∀ s s', RelW T k m s s' → RelE T k N s s' := fun s s' hs => ⟨m, by omega, hs⟩
  have hF1 : ∀ s s', RelW T k (m + 1) s s' → RelE T k N s s' := fun s s' hs => ⟨m + 1, hm, hs⟩
  have hxn : (realArith n).vadd (relabel π ε L.x + v) ((realArith n).smul alpha (relabel π ε L.d))
      = relabel π ε ((realArith n).vadd L.x ((realArith n).smul alpha L.d)) + v := by
    show relabel π ε L.x + v + alpha • relabel π ε L.d = relabel π ε (L.x + alpha • L.d) + v
    rw [relabel_add, relabel_smul]
    abel
  unfold Scg.move
  dsimp only
  refine (relRun_callF h (by omega) hxn).step fun f f' hff => (relRun_bump _ _).step fun _ _ _ => ?_
  subst hff
  have hd : (realArith n).sub (f + k) (L.f_old + k) = (realArith n).sub f L.f_old := by
    show f + k - (L.f_old + k) = f - L.f_old
    ring
  rw [hd]
  refine (RelRun.lift (Alike.refl _) hF).step fun delta delta' hdel => ?_
  subst hdel
  split
  · refine (relRun_record hm rfl rfl (relabel_absSum hε _)).step fun _ _ _ => ?_
    have hb : (realArith n).absMax ((realArith n).smul alpha (relabel π ε L.d)) = (realArith n).absMax ((realArith n).smul alpha L.d) := by
      show (realArith n).absMax (alpha • relabel π ε L.d) = _
      rw [← relabel_smul, relabel_absMax hε]
      rfl
    rw [hb, hx, hf]
    refine (RelRun.lift (Alike.refl _) hF1).step fun big big' hbig => ?_
    subst hbig
    split
    · exact (relRun_setMaxIt _).step fun _ _ _ => .pure fun s s' hs => .inr ⟨_, _, rfl, rfl, ⟨hxn, rfl⟩, hF1 _ _ hs⟩
    · refine (relRun_callF h hm hxn).step fun g g' hg => (relRun_callDf h hm hxn).step fun gr gr' hgr => (relRun_bump _ _).step fun _ _ _ => ?_
      subst hg hgr
      have hdd : (realArith n).dot (relabel π ε gr) (relabel π ε gr) = (realArith n).dot gr gr := relabel_dot hε _ _
      rw [hdd]
      split
      · exact (relRun_setMaxIt _).step fun _ _ _ => .pure fun s s' hs => .inr ⟨_, _, rfl, rfl, ⟨hxn, rfl⟩, hF1 _ _ hs⟩
      · refine (RelRun.lift (alike_finish hε ?_ _ _) hF1).step fun a b hab => .pure fun s s' hs => .inl ⟨_, _, rfl, rfl, hab, hs⟩
        exact ⟨hxn, rfl, rfl, rfl, rfl, rfl, rfl, rfl, rfl, rfl, rfl, rfl⟩
  · refine (relRun_record hm rfl rfl (relabel_absSum hε _)).step fun _ _ _ => ?_
    refine (RelRun.lift (alike_finish hε ?_ _ _) hF1).step fun a b hab => .pure fun s s' hs => .inl ⟨_, _, rfl, rfl, hab, hs⟩
    exact ⟨rfl, rfl, rfl, rfl, rfl, rfl, rfl, rfl, rfl, rfl, rfl, rfl⟩

theorem relRun_turn (hε : ∀ i, ε i = 1 ∨ ε i = -1) (h : SameProblem π ε v k T o args o' args') {m N : ℕ} (hm : m + 1 ≤ N)
    {L L' : ScgLoc ℝ (Fin n → ℝ)} (hL : RelLoc π ε v k L L') (p p' : Scg ℝ) (hx : p'.x_tol = p.x_tol) (hf : p'.f_tol = p.f_tol) (dim : ℕ) :
    RelRun (RelW T k m) (RelTurn π ε v k T (m + 1) N) (RelE T k N) (Scg.turn (realArith n) o args p dim m L)
      (Scg.turn (realArith n) o' args' p' dim m L') := by
  unfold Scg.turn
  refine (relRun_directional hε h (by omega) hL).bind fun r r' s s' hs => ?_
  rcases hs with ⟨L1, L1', rfl, rfl, h1, hs⟩ | ⟨q, q', rfl, rfl, h1, hs⟩
  · refine RelRun.step (RelRun.lift (alike_stepSize h1) fun s s' hs => ⟨m, by omega, hs⟩) (fun a b hab => ?_) s s' hs
    subst hab
    obtain ⟨be, al⟩ := b
    exact relRun_move hε h hm (L := { L1 with beta := be }) (L' := { L1' with beta := be })
      ⟨h1.x, h1.f_now, h1.f_old, h1.grad_new, h1.grad_old, h1.d, h1.success, h1.count, rfl, h1.kappa, h1.theta, h1.mu⟩ p p' hx hf dim _
  · exact .ok (.inr ⟨_, _, rfl, rfl, h1, hs⟩)

theorem relRun_loop (hε : ∀ i, ε i = 1 ∨ ε i = -1) (h : SameProblem π ε v k T o args o' args') (p p' : Scg ℝ) (hx : p'.x_tol = p.x_tol)
    (hf : p'.f_tol = p.f_tol) (dim : ℕ) (c m : ℕ) {L L' : ScgLoc ℝ (Fin n → ℝ)} (hL : RelLoc π ε v k L L') :
    RelRun (RelW T k m) (fun a b s s' => RelRes π ε v k a b ∧ RelE T k (m + c) s s') (RelE T k (m + c))
      (Scg.loop (realArith n) o args p dim (List.range' m c) L) (Scg.loop (realArith n) o' args' p' dim (List.range' m c) L') := by
  induction c generalizing m L L' with
  | zero => exact .pure fun s s' hs => ⟨⟨hL.x, hL.f_old⟩, m, le_rfl, hs⟩
  | succ c ih =>
    rw [List.range'_succ]
    unfold Scg.loop
    refine (relRun_turn hε h (N := m + (c + 1)) (by omega) hL p p' hx hf dim).bind fun r r' s s' hs => ?_
    rcases hs with ⟨L1, L1', rfl, rfl, h1, hs⟩ | ⟨q, q', rfl, rfl, h1, hs⟩
    · have := ih (m + 1) h1 s s' hs
      rwa [show m + 1 + c = m + (c + 1) by omega] at this
    · exact .ok ⟨h1, hs⟩

end

/-- What a call does to the state and the statistics. -/
noncomputable def callWorld (o : Oracle σ A ℝ (Fin n → ℝ)) (args : A) (p : Scg ℝ) (x0 : Fin n → ℝ) : ScgM (World σ ℝ) ((Fin n → ℝ) × ℝ) :=
  callF o x0 args >>= fun f => callDf o x0 args >>= fun g => bump 1 1 >>= fun _ =>
    Scg.loop (realArith n) o args p n (List.range p.nit) {
      x := x0, f_now := f, f_old := f, grad_new := g, grad_old := g, d := (realArith n).vneg g
      success := true, count_success := 0, beta := (realArith n).lit 1
      kappa := (realArith n).lit 0, theta := (realArith n).lit 0, mu := (realArith n).lit 0 }

theorem call_world (o : Oracle σ A ℝ (Fin n → ℝ)) (args : A) (p : Scg ℝ) (x0 : Fin n → ℝ) (s : σ) :
    Scg.call (realArith n) o args p x0 s = ((callWorld o args p x0 ⟨s, p.stats⟩).1,
      { p with stats := (callWorld o args p x0 ⟨s, p.stats⟩).2.stats }, (callWorld o args p x0 ⟨s, p.stats⟩).2.st) := rfl

/-! ## C113 -/

/-- C113: for two problems that differ only in the order, the signs and the origin of the coordinates and in a constant in the objective,
started at the same point, the two calls end alike: both raise the same exception, or both return, the same point in the two coordinate
systems, with values that differ by the constant. The statistics agree up to the constant in the recorded values, and the states
that the functions leave behind are related. -/
theorem C113_coordinates (π : Equiv.Perm (Fin n)) (ε : Fin n → ℝ) (hε : ∀ i, ε i = 1 ∨ ε i = -1) (v : Fin n → ℝ) (k : ℝ) (T : σ → τ → Prop)
    (o : Oracle σ A ℝ (Fin n → ℝ)) (args : A) (o' : Oracle τ B ℝ (Fin n → ℝ)) (args' : B) (h : SameProblem π ε v k T o args o' args')
    (p : Scg ℝ) (x0 : Fin n → ℝ) (s : σ) (t : τ) (hst : T s t) :
    Alike (fun r r' => r'.1 = relabel π ε r.1 + v ∧ r'.2 = r.2 + k) (Scg.call (realArith n) o args p x0 s).1
        (Scg.call (realArith n) o' args' p (relabel π ε x0 + v) t).1
      ∧ T (Scg.call (realArith n) o args p x0 s).2.2 (Scg.call (realArith n) o' args' p (relabel π ε x0 + v) t).2.2
      ∧ ∃ m ≤ p.nit, SameStats k m (Scg.call (realArith n) o args p x0 s).2.1.stats
          (Scg.call (realArith n) o' args' p (relabel π ε x0 + v) t).2.1.stats := by
  have h0 : RelW T k 0 (⟨s, p.stats⟩ : World σ ℝ) (⟨t, p.stats⟩ : World τ ℝ) :=
    ⟨hst, rfl, rfl, rfl, rfl, rfl, rfl, fun i _ hi => absurd hi (Nat.not_lt_zero _), fun _ _ _ => rfl⟩
  have hloop : ∀ f f' g g', f' = f + k → g' = relabel π ε g → RelRun (RelW T k 0) (fun a b s s' => RelRes π ε v k a b ∧ RelE T k p.nit s s')
      (RelE T k p.nit) (Scg.loop (realArith n) o args p n (List.range p.nit) {
        x := x0, f_now := f, f_old := f, grad_new := g, grad_old := g, d := (realArith n).vneg g
        success := true, count_success := 0, beta := (realArith n).lit 1
        kappa := (realArith n).lit 0, theta := (realArith n).lit 0, mu := (realArith n).lit 0 })
      (Scg.loop (realArith n) o' args' p n (List.range p.nit) {
        x := relabel π ε x0 + v, f_now := f', f_old := f', grad_new := g', grad_old := g', d := (realArith n).vneg g'
        success := true, count_success := 0, beta := (realArith n).lit 1
        kappa := (realArith n).lit 0, theta := (realArith n).lit 0, mu := (realArith n).lit 0 }) := by
    rintro f _ g _ rfl rfl
    have := relRun_loop hε h p p rfl rfl n p.nit 0 (L := {
        x := x0, f_now := f, f_old := f, grad_new := g, grad_old := g, d := (realArith n).vneg g
        success := true, count_success := 0, beta := (realArith n).lit 1
        kappa := (realArith n).lit 0, theta := (realArith n).lit 0, mu := (realArith n).lit 0 }) (L' := {
        x := relabel π ε x0 + v, f_now := f + k, f_old := f + k, grad_new := relabel π ε g, grad_old := relabel π ε g
        d := (realArith n).vneg (relabel π ε g)
        success := true, count_success := 0, beta := (realArith n).lit 1
        kappa := (realArith n).lit 0, theta := (realArith n).lit 0, mu := (realArith n).lit 0 })
        ⟨rfl, rfl, rfl, rfl, rfl, (relabel_neg g).symm, rfl, rfl, rfl, rfl, rfl, rfl⟩
    rwa [Nat.zero_add, ← List.range_eq_range'] at this
  have key : Ends (fun a b s s' => RelRes π ε v k a b ∧ RelE T k p.nit s s') (RelE T k p.nit) (callWorld o args p x0 ⟨s, p.stats⟩)
      (callWorld o' args' p (relabel π ε x0 + v) ⟨t, p.stats⟩) :=
    RelRun.step (relRun_callF h (Nat.zero_le p.nit) (rfl : relabel π ε x0 + v = _)) (fun f f' hf =>
      RelRun.step (relRun_callDf h (Nat.zero_le p.nit) (rfl : relabel π ε x0 + v = _)) (fun g g' hg =>
        RelRun.step (relRun_bump 1 1) (fun _ _ _ => hloop f f' g g' hf hg))) _ _ h0
  rw [call_world, call_world]
  generalize callWorld o args p x0 ⟨s, p.stats⟩ = r at key ⊢
  generalize callWorld o' args' p (relabel π ε x0 + v) ⟨t, p.stats⟩ = r' at key ⊢
  cases key with
  | ok h =>
    obtain ⟨h1, j, hj, h2, h3⟩ := h
    exact ⟨.ok h1, h2, j, hj, h3⟩
  | error e h =>
    obtain ⟨j, hj, h2, h3⟩ := h
    exact ⟨.error e, h2, j, hj, h3⟩

/-- Non-vacuity of C113: a quadratic in two variables, and the same with the variables exchanged, the second one negated, the origin moved and 7
added to the value. -/
example : SameProblem (Equiv.swap 0 1) ![1, -1] ![3, 4] 7 (fun _ _ => True)
    (pureOracle (fun x : Fin 2 → ℝ => x 0 ^ 2 + 2 * x 1 ^ 2) fun x => ![2 * x 0, 4 * x 1]) ()
    (pureOracle (fun y : Fin 2 → ℝ => (y 1 - 4) ^ 2 + 2 * (y 0 - 3) ^ 2 + 7) fun y => ![4 * (y 0 - 3), 2 * (y 1 - 4)]) () := by
  have hg : ∀ x y : Fin 2 → ℝ, y = relabel (Equiv.swap 0 1) ![1, -1] x + ![3, 4] →
      ![4 * (y 0 - 3), 2 * (y 1 - 4)] = relabel (Equiv.swap 0 1) ![1, -1] ![2 * x 0, 4 * x 1] := by
    rintro x _ rfl
    funext i
    fin_cases i <;> simp [relabel]
  refine ⟨fun x s t _ => ⟨.ok ?_, trivial⟩, fun x s t _ => ⟨.ok (hg x _ rfl), trivial⟩, fun x s t _ => ⟨.ok (hg x _ rfl), trivial⟩⟩
  simp [relabel]

end VGPA
