import Verif.Model.Scg

/-!
# The paths through one iteration of the optimizer
-/

namespace VGPA

variable {w α β σ A S V : Type}

theorem ScgM.bind_ok {m : ScgM w α} {k : α → ScgM w β} {s s' : w} {b : β} :
    (m >>= k) s = (.ok b, s') ↔ ∃ a s1, m s = (.ok a, s1) ∧ k a s1 = (.ok b, s') := by
  show (match m s with | (.ok a, s') => k a s' | (.error e, s') => (.error e, s')) = _ ↔ _
  rcases h : m s with ⟨r, s1⟩
  cases r with
  | ok a => simp
  | error e => simp

theorem ScgM.pure_ok {s s' : w} {a b : α} : (pure a : ScgM w α) s = (.ok b, s') ↔ a = b ∧ s = s' := by
  show ((Except.ok a, s) : Py α × w) = _ ↔ _
  simp

theorem ScgM.lift_ok {p : Py α} {s s' : w} {b : α} : (ScgM.lift p : ScgM w α) s = (.ok b, s') ↔ p = .ok b ∧ s = s' := by
  unfold ScgM.lift; simp

theorem callF_ok {o : Oracle σ A S V} {x : V} {args : A} {s s' : World σ S} {v : S} :
    callF o x args s = (.ok v, s') ↔ ∃ st, o.f x args s.st = (.ok v, st) ∧ s' = { s with st } := by
  unfold callF
  rcases h : o.f x args s.st with ⟨r, st⟩
  simp [eq_comm]

theorem callDf_ok {o : Oracle σ A S V} {x : V} {args : A} {s s' : World σ S} {v : V} :
    callDf o x args s = (.ok v, s') ↔ ∃ st, o.df x args s.st = (.ok v, st) ∧ s' = { s with st } := by
  unfold callDf
  rcases h : o.df x args s.st with ⟨r, st⟩
  simp [eq_comm]

theorem callDfEval_ok {o : Oracle σ A S V} {x : V} {s s' : World σ S} {v : V} :
    callDfEval o x s = (.ok v, s') ↔ ∃ st, o.dfEval x s.st = (.ok v, st) ∧ s' = { s with st } := by
  unfold callDfEval
  rcases h : o.dfEval x s.st with ⟨r, st⟩
  simp [eq_comm]

/-- The statistics after `bump`. -/
def ScgStats.bumped (t : ScgStats S) (a b : ℕ) : ScgStats S := { t with f_eval := t.f_eval + a, df_eval := t.df_eval + b }

theorem bump_ok {a b : ℕ} {s s' : World σ S} {u : Unit} :
    bump a b s = (.ok u, s') ↔ s' = { s with stats := s.stats.bumped a b } := by
  unfold bump ScgStats.bumped; simp [eq_comm]

theorem setMaxIt_ok {v : ℕ} {s s' : World σ S} {u : Unit} :
    setMaxIt v s = (.ok u, s') ↔ s' = { s with stats := { s.stats with MaxIt := v } } := by
  unfold setMaxIt; simp [eq_comm]

/-- The statistics after `record`. -/
def ScgStats.recorded (t : ScgStats S) (j : ℕ) (a b c : S) : ScgStats S :=
  { t with fx := t.fx.set j a, beta := t.beta.set j b, dfx := t.dfx.set j c }

theorem record_ok {j : ℕ} {a b c : S} {s s' : World σ S} {u : Unit} :
    record j a b c s = (.ok u, s') ↔ (j < s.stats.fx.length ∧ j < s.stats.beta.length ∧ j < s.stats.dfx.length)
      ∧ s' = { s with stats := s.stats.recorded j a b c } := by
  unfold record ScgStats.recorded setIdx
  by_cases l1 : j < s.stats.fx.length
  · by_cases l2 : j < s.stats.beta.length
    · by_cases l3 : j < s.stats.dfx.length
      · simp [l1, l2, l3, eq_comm]
      · simp [l1, l2, l3]
    · simp [l1, l2]
  · simp [l1]

variable (ar : Arith S V) (o : Oracle σ A S V) (args : A)

/-- Search direction and directional derivative that an iteration uses after an accepted step. -/
def dirOf (L : ScgLoc S V) : V × S :=
  if ar.le (ar.lit 0) (ar.dot L.d L.grad_new) then (ar.vneg L.grad_new, ar.dot (ar.vneg L.grad_new) L.grad_new)
  else (L.d, ar.dot L.d L.grad_new)

/-- How `directional` can end normally. -/
inductive DirPath (j : ℕ) (L : ScgLoc S V) (s : World σ S) : ScgLoc S V ⊕ (V × S) → World σ S → Prop
  /-- after a rejected step everything is kept -/
  | keep (h : L.success = false) : DirPath j L s (.inl L) s
  /-- the search direction is numerically zero: return -/
  | zero (h : L.success = true) (hk : ar.lt (ar.dot (dirOf ar L).1 (dirOf ar L).1) (ar.lit (1 / 2 ^ 52)) = true) :
      DirPath j L s (.inr (L.x, L.f_now)) { s with stats := { s.stats with MaxIt := j + 1 } }
  /-- curvature from a second gradient -/
  | curv (h : L.success = true) (hk : ar.lt (ar.dot (dirOf ar L).1 (dirOf ar L).1) (ar.lit (1 / 2 ^ 52)) = false)
      (sigma theta : S) (g_plus : V) (st : σ)
      (hs : ar.div (ar.lit (1 / 1000)) (ar.sqrt (ar.dot (dirOf ar L).1 (dirOf ar L).1)) = .ok sigma)
      (hg : o.dfEval (ar.vadd L.x (ar.smul sigma (dirOf ar L).1)) s.st = (.ok g_plus, st))
      (ht : ar.div (ar.dot (dirOf ar L).1 (ar.vsub g_plus L.grad_new)) sigma = .ok theta) :
      DirPath j L s (.inl { L with d := (dirOf ar L).1, mu := (dirOf ar L).2, kappa := ar.dot (dirOf ar L).1 (dirOf ar L).1, theta })
        { st, stats := s.stats.bumped 1 1 }

theorem directional_ok {j : ℕ} {L : ScgLoc S V} {s s' : World σ S} {r : ScgLoc S V ⊕ (V × S)} :
    Scg.directional ar o j L s = (.ok r, s') ↔ DirPath ar o j L s r s' := by
  unfold Scg.directional
  by_cases hs : L.success = true
  · rw [if_pos hs]
    have e : (if ar.le (ar.lit 0) (ar.dot L.d L.grad_new) = true then
        (ar.vneg L.grad_new, ar.dot (ar.vneg L.grad_new) L.grad_new) else (L.d, ar.dot L.d L.grad_new)) = dirOf ar L := rfl
    simp only [e]
    by_cases hk : ar.lt (ar.dot (dirOf ar L).1 (dirOf ar L).1) (ar.lit (1 / 2 ^ 52)) = true
    · rw [if_pos hk]
      simp only [ScgM.bind_ok, setMaxIt_ok, ScgM.pure_ok]
      constructor
      · rintro ⟨_, s1, rfl, rfl, rfl⟩
        exact .zero hs hk
      · intro h
        cases h with
        | keep h => simp [hs] at h
        | zero _ _ => exact ⟨(), _, rfl, rfl, rfl⟩
        | curv _ h => exact absurd hk (by rw [h]; decide)
    · rw [if_neg hk]
      simp only [ScgM.bind_ok, ScgM.lift_ok, bump_ok, callDfEval_ok, ScgM.pure_ok]
      constructor
      · rintro ⟨sigma, _, ⟨h1, rfl⟩, g, _, ⟨st, h2, rfl⟩, _, _, rfl, theta, _, ⟨h3, rfl⟩, rfl, rfl⟩
        exact .curv hs (by simpa using hk) sigma theta g st h1 h2 h3
      · intro h
        cases h with
        | keep h => simp [hs] at h
        | zero _ h => exact absurd h hk
        | curv _ _ sigma theta g st h1 h2 h3 =>
          exact ⟨sigma, _, ⟨h1, rfl⟩, g, _, ⟨st, h2, rfl⟩, (), _, rfl, theta, _, ⟨h3, rfl⟩, rfl, rfl⟩
  · rw [if_neg hs]
    simp only [ScgM.pure_ok]
    constructor
    · rintro ⟨rfl, rfl⟩
      exact .keep (by simpa using hs)
    · intro h
      cases h with
      | keep h => exact ⟨rfl, rfl⟩
      | zero h => exact absurd h hs
      | curv h => exact absurd h hs

/-- How `move` can end normally. -/
inductive MovePath (p : Scg S) (dim_x j : ℕ) (L : ScgLoc S V) (alpha : S) (s : World σ S) :
    ScgLoc S V ⊕ (V × S) → World σ S → Prop
  /-- rejected step -/
  | reject (f_new delta : S) (st : σ) (hf : o.f (ar.vadd L.x (ar.smul alpha L.d)) args s.st = (.ok f_new, st))
      (hd : ar.div (ar.mul (ar.lit 2) (ar.sub f_new L.f_old)) (ar.mul alpha L.mu) = .ok delta)
      (hr : ar.le (ar.lit 0) delta = false)
      (hj : j < s.stats.fx.length ∧ j < s.stats.beta.length ∧ j < s.stats.dfx.length) (L' : ScgLoc S V)
      (hL : Scg.finish ar dim_x delta { L with f_now := L.f_old, success := false } = .ok L') :
      MovePath p dim_x j L alpha s (.inl L')
        { st, stats := (s.stats.bumped 1 0).recorded j L.f_old L.beta (ar.absSum L.grad_old) }
  /-- accepted step that meets both tolerances: return -/
  | tol (f_new delta big : S) (st : σ) (hf : o.f (ar.vadd L.x (ar.smul alpha L.d)) args s.st = (.ok f_new, st))
      (hd : ar.div (ar.mul (ar.lit 2) (ar.sub f_new L.f_old)) (ar.mul alpha L.mu) = .ok delta)
      (hr : ar.le (ar.lit 0) delta = true)
      (hj : j < s.stats.fx.length ∧ j < s.stats.beta.length ∧ j < s.stats.dfx.length)
      (hb : ar.absMax (ar.smul alpha L.d) = .ok big) (hx : ar.le big p.x_tol = true)
      (hft : ar.le (ar.abs (ar.sub f_new L.f_old)) p.f_tol = true) :
      MovePath p dim_x j L alpha s (.inr (ar.vadd L.x (ar.smul alpha L.d), f_new))
        { st, stats := { (s.stats.bumped 1 0).recorded j f_new L.beta (ar.absSum L.grad_new) with MaxIt := j + 1 } }
  /-- accepted step to a point with a vanishing gradient: return -/
  | flat (f_new delta big f_now : S) (g : V) (st st2 st3 : σ)
      (hf : o.f (ar.vadd L.x (ar.smul alpha L.d)) args s.st = (.ok f_new, st))
      (hd : ar.div (ar.mul (ar.lit 2) (ar.sub f_new L.f_old)) (ar.mul alpha L.mu) = .ok delta)
      (hr : ar.le (ar.lit 0) delta = true)
      (hj : j < s.stats.fx.length ∧ j < s.stats.beta.length ∧ j < s.stats.dfx.length)
      (hb : ar.absMax (ar.smul alpha L.d) = .ok big)
      (hn : ¬ (ar.le big p.x_tol = true ∧ ar.le (ar.abs (ar.sub f_new L.f_old)) p.f_tol = true))
      (hf2 : o.f (ar.vadd L.x (ar.smul alpha L.d)) args st = (.ok f_now, st2))
      (hg : o.df (ar.vadd L.x (ar.smul alpha L.d)) args st2 = (.ok g, st3))
      (hc : ar.isClose0 (ar.dot g g) = true) :
      MovePath p dim_x j L alpha s (.inr (ar.vadd L.x (ar.smul alpha L.d), f_now))
        { st := st3, stats := { ((s.stats.bumped 1 0).recorded j f_new L.beta (ar.absSum L.grad_new)).bumped 1 1 with
            MaxIt := j + 1 } }
  /-- accepted step -/
  | accept (f_new delta big f_now : S) (g : V) (st st2 st3 : σ)
      (hf : o.f (ar.vadd L.x (ar.smul alpha L.d)) args s.st = (.ok f_new, st))
      (hd : ar.div (ar.mul (ar.lit 2) (ar.sub f_new L.f_old)) (ar.mul alpha L.mu) = .ok delta)
      (hr : ar.le (ar.lit 0) delta = true)
      (hj : j < s.stats.fx.length ∧ j < s.stats.beta.length ∧ j < s.stats.dfx.length)
      (hb : ar.absMax (ar.smul alpha L.d) = .ok big)
      (hn : ¬ (ar.le big p.x_tol = true ∧ ar.le (ar.abs (ar.sub f_new L.f_old)) p.f_tol = true))
      (hf2 : o.f (ar.vadd L.x (ar.smul alpha L.d)) args st = (.ok f_now, st2))
      (hg : o.df (ar.vadd L.x (ar.smul alpha L.d)) args st2 = (.ok g, st3))
      (hc : ar.isClose0 (ar.dot g g) = false) (L' : ScgLoc S V)
      (hL : Scg.finish ar dim_x delta { L with
          x := ar.vadd L.x (ar.smul alpha L.d), f_now, f_old := f_new, grad_new := g, grad_old := L.grad_new
          success := true, count_success := L.count_success + 1 } = .ok L') :
      MovePath p dim_x j L alpha s (.inl L')
        { st := st3, stats := ((s.stats.bumped 1 0).recorded j f_new L.beta (ar.absSum L.grad_new)).bumped 1 1 }

theorem move_ok {p : Scg S} {dim_x j : ℕ} {L : ScgLoc S V} {alpha : S} {s s' : World σ S} {r : ScgLoc S V ⊕ (V × S)} :
    Scg.move ar o args p dim_x j L alpha s = (.ok r, s') ↔ MovePath ar o args p dim_x j L alpha s r s' := by
  unfold Scg.move
  simp only [ScgM.bind_ok, callF_ok, bump_ok, ScgM.lift_ok]
  constructor
  · rintro ⟨f_new, _, ⟨st, hf, rfl⟩, _, _, rfl, delta, _, ⟨hd, rfl⟩, h⟩
    by_cases hr : ar.le (ar.lit 0) delta = true
    · rw [if_pos hr] at h
      simp only [ScgM.bind_ok, record_ok, ScgM.lift_ok] at h
      obtain ⟨_, _, ⟨hj, rfl⟩, big, _, ⟨hb, rfl⟩, h⟩ := h
      by_cases hn : ar.le big p.x_tol = true ∧ ar.le (ar.abs (ar.sub f_new L.f_old)) p.f_tol = true
      · rw [if_pos (by simpa using hn)] at h
        simp only [ScgM.bind_ok, setMaxIt_ok, ScgM.pure_ok] at h
        obtain ⟨_, _, rfl, rfl, rfl⟩ := h
        exact .tol f_new delta big st hf hd hr hj hb hn.1 hn.2
      · rw [if_neg (by simpa using hn)] at h
        simp only [ScgM.bind_ok, callF_ok, callDf_ok, bump_ok] at h
        obtain ⟨f_now, _, ⟨st2, hf2, rfl⟩, g, _, ⟨st3, hg, rfl⟩, _, _, rfl, h⟩ := h
        by_cases hc : ar.isClose0 (ar.dot g g) = true
        · rw [if_pos hc] at h
          simp only [ScgM.bind_ok, setMaxIt_ok, ScgM.pure_ok] at h
          obtain ⟨_, _, rfl, rfl, rfl⟩ := h
          exact .flat f_new delta big f_now g st st2 st3 hf hd hr hj hb hn hf2 hg hc
        · rw [if_neg hc] at h
          simp only [ScgM.bind_ok, ScgM.lift_ok, ScgM.pure_ok] at h
          obtain ⟨L', _, ⟨hL, rfl⟩, rfl, rfl⟩ := h
          exact .accept f_new delta big f_now g st st2 st3 hf hd hr hj hb hn hf2 hg (by simpa using hc) L' hL
    · rw [if_neg hr] at h
      simp only [ScgM.bind_ok, record_ok, ScgM.lift_ok, ScgM.pure_ok] at h
      obtain ⟨_, _, ⟨hj, rfl⟩, L', _, ⟨hL, rfl⟩, rfl, rfl⟩ := h
      exact .reject f_new delta st hf hd (by simpa using hr) hj L' hL
  · intro h
    cases h with
    | reject f_new delta st hf hd hr hj L' hL =>
      refine ⟨f_new, _, ⟨st, hf, rfl⟩, (), _, rfl, delta, _, ⟨hd, rfl⟩, ?_⟩
      rw [if_neg (by simpa using hr)]
      simp only [ScgM.bind_ok, record_ok, ScgM.lift_ok, ScgM.pure_ok]
      exact ⟨(), _, ⟨hj, rfl⟩, L', _, ⟨hL, rfl⟩, rfl, rfl⟩
    | tol f_new delta big st hf hd hr hj hb hx hft =>
      refine ⟨f_new, _, ⟨st, hf, rfl⟩, (), _, rfl, delta, _, ⟨hd, rfl⟩, ?_⟩
      rw [if_pos hr]
      simp only [ScgM.bind_ok, record_ok, ScgM.lift_ok]
      refine ⟨(), _, ⟨hj, rfl⟩, big, _, ⟨hb, rfl⟩, ?_⟩
      rw [if_pos (by simp [hx, hft])]
      simp only [ScgM.bind_ok, setMaxIt_ok, ScgM.pure_ok]
      exact ⟨(), _, rfl, by simp, rfl⟩
    | flat f_new delta big f_now g st st2 st3 hf hd hr hj hb hn hf2 hg hc =>
      refine ⟨f_new, _, ⟨st, hf, rfl⟩, (), _, rfl, delta, _, ⟨hd, rfl⟩, ?_⟩
      rw [if_pos hr]
      simp only [ScgM.bind_ok, record_ok, ScgM.lift_ok]
      refine ⟨(), _, ⟨hj, rfl⟩, big, _, ⟨hb, rfl⟩, ?_⟩
      rw [if_neg (by simpa using hn)]
      simp only [ScgM.bind_ok, callF_ok, callDf_ok, bump_ok]
      refine ⟨f_now, _, ⟨st2, hf2, rfl⟩, g, _, ⟨st3, hg, rfl⟩, (), _, rfl, ?_⟩
      rw [if_pos hc]
      simp only [ScgM.bind_ok, setMaxIt_ok, ScgM.pure_ok]
      exact ⟨(), _, rfl, by simp, rfl⟩
    | accept f_new delta big f_now g st st2 st3 hf hd hr hj hb hn hf2 hg hc L' hL =>
      refine ⟨f_new, _, ⟨st, hf, rfl⟩, (), _, rfl, delta, _, ⟨hd, rfl⟩, ?_⟩
      rw [if_pos hr]
      simp only [ScgM.bind_ok, record_ok, ScgM.lift_ok]
      refine ⟨(), _, ⟨hj, rfl⟩, big, _, ⟨hb, rfl⟩, ?_⟩
      rw [if_neg (by simpa using hn)]
      simp only [ScgM.bind_ok, callF_ok, callDf_ok, bump_ok]
      refine ⟨f_now, _, ⟨st2, hf2, rfl⟩, g, _, ⟨st3, hg, rfl⟩, (), _, rfl, ?_⟩
      rw [if_neg (by simpa using hc)]
      simp only [ScgM.bind_ok, ScgM.lift_ok, ScgM.pure_ok]
      exact ⟨L', _, ⟨hL, rfl⟩, rfl, rfl⟩

theorem turn_ok {p : Scg S} {dim_x j : ℕ} {L : ScgLoc S V} {s s' : World σ S} {r : ScgLoc S V ⊕ (V × S)} :
    Scg.turn ar o args p dim_x j L s = (.ok r, s')
      ↔ (∃ q, r = .inr q ∧ DirPath ar o j L s (.inr q) s')
        ∨ ∃ L1 s1 beta alpha, DirPath ar o j L s (.inl L1) s1 ∧ Scg.stepSize ar L1 = .ok (beta, alpha)
          ∧ MovePath ar o args p dim_x j { L1 with beta } alpha s1 r s' := by
  unfold Scg.turn
  simp only [ScgM.bind_ok, directional_ok]
  constructor
  · rintro ⟨r1, s1, h1, h⟩
    cases r1 with
    | inr q =>
      simp only [ScgM.pure_ok] at h
      obtain ⟨rfl, rfl⟩ := h
      exact .inl ⟨q, rfl, h1⟩
    | inl L1 =>
      simp only [ScgM.bind_ok, ScgM.lift_ok] at h
      obtain ⟨⟨beta, alpha⟩, _, ⟨h2, rfl⟩, h3⟩ := h
      exact .inr ⟨L1, s1, beta, alpha, h1, h2, (move_ok ar o args).1 h3⟩
  · rintro (⟨q, rfl, h⟩ | ⟨L1, s1, beta, alpha, h1, h2, h3⟩)
    · exact ⟨.inr q, s', h, rfl⟩
    · refine ⟨.inl L1, s1, h1, ?_⟩
      simp only [ScgM.bind_ok, ScgM.lift_ok]
      exact ⟨(beta, alpha), s1, ⟨h2, rfl⟩, (move_ok ar o args).2 h3⟩

/-- What `finish` leaves alone. -/
theorem finish_ok {dim_x : ℕ} {delta : S} {L L' : ScgLoc S V} (h : Scg.finish ar dim_x delta L = .ok L') :
    L'.x = L.x ∧ L'.f_now = L.f_now ∧ L'.f_old = L.f_old ∧ L'.grad_new = L.grad_new ∧ L'.grad_old = L.grad_old
      ∧ L'.success = L.success ∧ L'.kappa = L.kappa ∧ L'.theta = L.theta ∧ L'.mu = L.mu := by
  unfold Scg.finish at h
  by_cases h1 : L.count_success = dim_x
  · simp only [h1, if_true, pure, Except.pure] at h
    injection h with h; subst h
    exact ⟨rfl, rfl, rfl, rfl, rfl, rfl, rfl, rfl, rfl⟩
  · simp only [h1, if_false] at h
    by_cases h2 : L.success = true
    · simp only [h2, if_true, bind, Except.bind, pure, Except.pure] at h
      split at h
      · cases h
      · injection h with h; subst h
        exact ⟨rfl, rfl, rfl, rfl, rfl, h2.symm, rfl, rfl, rfl⟩
    · simp only [h2, pure, Except.pure] at h
      injection h with h; subst h
      exact ⟨rfl, rfl, rfl, rfl, rfl, by simpa using h2, rfl, rfl, rfl⟩

/-- Induction over the loop. `I js L s` holds when the iterations `js` are still to come. -/
theorem loop_induction {p : Scg S} {dim_x : ℕ} (I : List ℕ → ScgLoc S V → World σ S → Prop)
    (Q : V × S → World σ S → Prop)
    (stop : ∀ L s, I [] L s → Q (L.x, L.f_old) s)
    (ret : ∀ j js L s q s', I (j :: js) L s → Scg.turn ar o args p dim_x j L s = (.ok (.inr q), s') → Q q s')
    (next : ∀ j js L s L' s', I (j :: js) L s → Scg.turn ar o args p dim_x j L s = (.ok (.inl L'), s') → I js L' s')
    (js : List ℕ) (L : ScgLoc S V) (s : World σ S) (h : I js L s) (q : V × S) (s' : World σ S)
    (hl : Scg.loop ar o args p dim_x js L s = (.ok q, s')) : Q q s' := by
  induction js generalizing L s with
  | nil =>
    simp only [Scg.loop, ScgM.pure_ok] at hl
    obtain ⟨rfl, rfl⟩ := hl
    exact stop L s h
  | cons j js ih =>
    simp only [Scg.loop, ScgM.bind_ok] at hl
    obtain ⟨r, s1, h1, h2⟩ := hl
    cases r with
    | inr q' =>
      simp only [ScgM.pure_ok] at h2
      obtain ⟨rfl, rfl⟩ := h2
      exact ret j js L s _ _ h h1
    | inl L1 => exact ih L1 s1 (next j js L s L1 s1 h h1) h2

/-- The locals at the start of the loop. -/
def ScgLoc.start (x0 : V) (f0 : S) (g0 : V) : ScgLoc S V :=
  { x := x0, f_now := f0, f_old := f0, grad_new := g0, grad_old := g0, d := ar.vneg g0, success := true, count_success := 0
    beta := ar.lit 1, kappa := ar.lit 0, theta := ar.lit 0, mu := ar.lit 0 }

theorem call_ok {p p' : Scg S} {x0 : V} {s s' : σ} {q : V × S} :
    Scg.call ar o args p x0 s = (.ok q, p', s') ↔ ∃ f0 g0 s1 s2 t, o.f x0 args s = (.ok f0, s1) ∧ o.df x0 args s1 = (.ok g0, s2)
      ∧ Scg.loop ar o args p (ar.size x0) (List.range p.nit) (ScgLoc.start ar x0 f0 g0) ⟨s2, p.stats.bumped 1 1⟩
        = (.ok q, ⟨s', t⟩) ∧ p' = { p with stats := t } := by
  have key : ∀ (m : ScgM (World σ S) (V × S)) (w0 : World σ S),
      ((m w0).1, ({ p with stats := (m w0).2.stats } : Scg S), (m w0).2.st) = (.ok q, p', s')
        ↔ ∃ t, m w0 = (.ok q, ⟨s', t⟩) ∧ p' = { p with stats := t } := by
    intro m w0
    rcases m w0 with ⟨r, w1⟩
    rcases w1 with ⟨st1, t1⟩
    constructor
    · intro h
      simp only [Prod.mk.injEq] at h
      obtain ⟨rfl, rfl, rfl⟩ := h
      exact ⟨t1, rfl, rfl⟩
    · rintro ⟨t, h, rfl⟩
      simp only [Prod.mk.injEq, World.mk.injEq] at h
      obtain ⟨rfl, rfl, rfl⟩ := h
      rfl
  unfold Scg.call
  simp only [key, ScgM.bind_ok, callF_ok, callDf_ok, bump_ok]
  constructor
  · rintro ⟨t, ⟨f0, _, ⟨s1, h1, rfl⟩, g0, _, ⟨s2, h2, rfl⟩, _, _, rfl, h⟩, rfl⟩
    exact ⟨f0, g0, s1, s2, t, h1, h2, h, rfl⟩
  · rintro ⟨f0, g0, s1, s2, t, h1, h2, h, rfl⟩
    exact ⟨t, ⟨f0, _, ⟨s1, h1, rfl⟩, g0, _, ⟨s2, h2, rfl⟩, (), _, rfl, h⟩, rfl⟩

/-- The locals and the world after `it` complete iterations of a call. -/
inductive Reach (p : Scg S) (x0 : V) (s : σ) : ℕ → ScgLoc S V → World σ S → Prop
  | start (f0 : S) (g0 : V) (s1 s2 : σ) (hf : o.f x0 args s = (.ok f0, s1)) (hg : o.df x0 args s1 = (.ok g0, s2)) :
      Reach p x0 s 0 (ScgLoc.start ar x0 f0 g0) ⟨s2, p.stats.bumped 1 1⟩
  | step {it : ℕ} {L L' : ScgLoc S V} {w w' : World σ S} (h : Reach p x0 s it L w) (hit : it < p.nit)
      (ht : Scg.turn ar o args p (ar.size x0) it L w = (.ok (.inl L'), w')) : Reach p x0 s (it + 1) L' w'

/-- A call that returns does so after the last iteration, or in the middle of one. -/
theorem call_reach {p p' : Scg S} {x0 : V} {s s' : σ} {q : V × S} (h : Scg.call ar o args p x0 s = (.ok q, p', s')) :
    ∃ it L w, Reach ar o args p x0 s it L w ∧
      ((it = p.nit ∧ q = (L.x, L.f_old) ∧ w = ⟨s', p'.stats⟩)
        ∨ (it < p.nit ∧ Scg.turn ar o args p (ar.size x0) it L w = (.ok (.inr q), ⟨s', p'.stats⟩)))
      ∧ p' = { p with stats := p'.stats } := by
  obtain ⟨f0, g0, s1, s2, t, h1, h2, h3, rfl⟩ := (call_ok ar o args).1 h
  rw [List.range_eq_range'] at h3
  have := loop_induction ar o args (p := p) (dim_x := ar.size x0)
    (fun js L w => ∃ it, Reach ar o args p x0 s it L w ∧ it ≤ p.nit ∧ js = List.range' it (p.nit - it))
    (fun q w' => ∃ it L w, Reach ar o args p x0 s it L w ∧ ((it = p.nit ∧ q = (L.x, L.f_old) ∧ w = w')
        ∨ (it < p.nit ∧ Scg.turn ar o args p (ar.size x0) it L w = (.ok (.inr q), w'))))
    ?_ ?_ ?_ (List.range' 0 p.nit) _ _ ⟨0, .start f0 g0 s1 s2 h1 h2, Nat.zero_le _, by simp⟩ q _ h3
  · obtain ⟨it, L, w, hr, hc⟩ := this
    exact ⟨it, L, w, hr, hc, rfl⟩
  · rintro L w ⟨it, hr, hle, hjs⟩
    have : p.nit - it = 0 := by simpa using congrArg List.length hjs.symm
    exact ⟨it, L, w, hr, .inl ⟨by omega, rfl, rfl⟩⟩
  · rintro j js L w q w' ⟨it, hr, hle, hjs⟩ ht
    have hpos : p.nit - it ≠ 0 := by intro h0; rw [h0] at hjs; simp at hjs
    obtain ⟨m, hm⟩ : ∃ m, p.nit - it = m + 1 := ⟨p.nit - it - 1, by omega⟩
    rw [hm, List.range'_succ] at hjs
    injection hjs with hj _
    subst hj
    exact ⟨j, L, w, hr, .inr ⟨by omega, ht⟩⟩
  · rintro j js L w L' w' ⟨it, hr, hle, hjs⟩ ht
    have hpos : p.nit - it ≠ 0 := by intro h0; rw [h0] at hjs; simp at hjs
    obtain ⟨m, hm⟩ : ∃ m, p.nit - it = m + 1 := ⟨p.nit - it - 1, by omega⟩
    rw [hm, List.range'_succ] at hjs
    injection hjs with hj hjs
    subst hj
    refine ⟨j + 1, .step hr (by omega) ht, by omega, ?_⟩
    rw [hjs]
    congr 1
    omega

end VGPA
