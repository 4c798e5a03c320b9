import Verif.Props.RunTotal
import Verif.Props.History

/-!
# C89: a simulation with a seed can be repeated
-/

namespace VGPA

noncomputable section

variable {G : Type}

/-- The parameters contain a number other than zero as seed. -/
def Spec.Seeded (params : Json) : Prop := ∃ x, params.item "Random-Seed" = .ok (.num x) ∧ x ≠ 0

/-- All calls of `setup` in a list of calls have a seed. -/
def Spec.AllSeeded (ops : List (Spec.Op Arr)) : Prop := ∀ params data, Spec.Op.setup params data ∈ ops → Spec.Seeded params

section
variable {M A α β : Type}

theorem congr_lift {p : Py α} {k k' : α → Sim.Step M A β} {m : MData M A} (h : ∀ a, p = .ok a → k a m = k' a m) :
    ((ScgM.lift p : Sim.Step M A α) >>= k) m = ((ScgM.lift p : Sim.Step M A α) >>= k') m := by
  cases p with
  | error e => rfl
  | ok a => exact h a rfl

theorem congr_view {g : MData M A → Py α} {k k' : α → Sim.Step M A β} {m : MData M A} (h : ∀ a, g m = .ok a → k a m = k' a m) :
    (Sim.view g >>= k) m = (Sim.view g >>= k') m := by
  rcases hg : g m with e | a
  · rw [ScgM.bind_fail (m := Sim.view g) (s' := m) (e := e) (by simp only [Sim.view, hg]),
      ScgM.bind_fail (m := Sim.view g) (s' := m) (e := e) (by simp only [Sim.view, hg])]
  · rw [step_view hg, step_view hg]
    exact h a hg

theorem congr_write {g : MData M A → MData M A} {k k' : Unit → Sim.Step M A β} {m : MData M A}
    (h : ∀ m', m' = g m → k () m' = k' () m') : (Sim.write g >>= k) m = (Sim.write g >>= k') m := h _ rfl

end

/-- Only the constructor looks at the state of the operating system. -/
theorem classes_entropy (E : Env G) (g : G) :
    pyClasses (E.withEntropy g) = { pyClasses E with create := AnyProc.create (E.withEntropy g) } := rfl

theorem create_entropy (E : Env G) (g g' : G) (k : SysName) (sys theta : Json) {x : ℝ} (hx : x ≠ 0) :
    AnyProc.create (E.withEntropy g) k sys theta (.num x) = AnyProc.create (E.withEntropy g') k sys theta (.num x) := by
  have hs : Json.seed (.num x) = .error .typeError ∨ ∃ s : ℤ, s ≠ 0 ∧ Json.seed (.num x) = .ok (some s) := by
    by_cases h : x = ⌊x⌋
    · refine .inr ⟨⌊x⌋, ?_, by simp only [Json.seed, Json.int, Json.real, py_ok_bind, if_pos h]; rfl⟩
      intro h0
      rw [h0] at h
      exact hx (by simpa using h)
    · exact .inl (by simp only [Json.seed, Json.int, Json.real, py_ok_bind, if_neg h]; rfl)
  rcases hs with hs | ⟨s, h0, hs⟩
  · cases k <;> simp only [AnyProc.create, hs] <;> rfl
  · have hi : ∀ (X : Type) b, (Proc.init E.R g (some s) b : Py (Proc G X)) = Proc.init E.R g' (some s) b :=
      fun X b => proc_init_seed E.R g g' s h0 b
    cases k <;> simp only [AnyProc.create, hs, py_ok_bind, DW.init, OU.init, L63.init, L96.init, Env.withEntropy, hi]

theorem setup_create {M A F B L K Vg X : Type} (C : Classes M A F B L K Vg X) (c c' : SysName → Json → Json → Json → Py M)
    (params js : Json) (hx : params.item "Random-Seed" = .ok js) (hc : ∀ k sys theta, c k sys theta js = c' k sys theta js)
    (data : Option (Data A)) (m : MData M A) :
    Sim.setupBody { C with create := c } params data m = Sim.setupBody { C with create := c' } params data m := by
  unfold Sim.setupBody Sim.setupObs Sim.setupMoments
  dsimp only
  refine congr_lift fun v1 h1 => ?_
  refine congr_write fun m1 e1 => ?_
  refine congr_lift fun v2 h2 => ?_
  refine congr_write fun m2 e2 => ?_
  refine congr_lift fun v3 h3 => ?_
  refine congr_write fun m3 e3 => ?_
  refine congr_lift fun v4 h4 => ?_
  refine congr_write fun m4 e4 => ?_
  refine congr_lift fun v5 h5 => ?_
  obtain rfl : js = v5 := by rw [hx] at h5; exact Except.ok.inj h5
  refine congr_write fun m5 e5 => ?_
  have s5 : m5.random_seed = some js := by rw [e5]
  refine congr_lift fun v6 h6 => ?_
  refine congr_write fun m6 e6 => ?_
  have s6 : m6.random_seed = some js := by rw [e6]; exact s5
  refine congr_lift fun v7 h7 => ?_
  refine congr_write fun m7 e7 => ?_
  have s7 : m7.random_seed = some js := by rw [e7]; exact s6
  refine congr_lift fun v8 h8 => ?_
  refine congr_write fun m8 e8 => ?_
  have s8 : m8.random_seed = some js := by rw [e8]; exact s7
  refine congr_view fun v9 h9 => ?_
  refine congr_view fun v10 h10 => ?_
  refine congr_view fun v11 h11 => ?_
  rw [s8] at h11
  obtain rfl : js = v11 := Except.ok.inj h11
  refine congr_lift fun v12 h12 => ?_
  have e : Sim.stochasticModel { C with create := c } v12 v9 v10 js = Sim.stochasticModel { C with create := c' } v12 v9 v10 js := by
    unfold Sim.stochasticModel
    simp only [hc]
  rw [e]

theorem setup_entropy (E : Env G) (g g' : G) (params : Json) (h : Spec.Seeded params) (data : Option (Data Arr))
    (m : MData (AnyProc G) Arr) :
    Sim.setupBody (pyClasses (E.withEntropy g)) params data m = Sim.setupBody (pyClasses (E.withEntropy g')) params data m := by
  obtain ⟨x, hx, h0⟩ := h
  rw [classes_entropy E g, classes_entropy E g']
  exact setup_create _ _ _ params _ hx (fun k sys theta => create_entropy E g g' k sys theta h0) data m

theorem exec_entropy (E : Env G) (canOpen : String → Py Unit) (g g' : G) (op : Spec.Op Arr)
    (h : ∀ params data, op = .setup params data → Spec.Seeded params) (s : Sim (AnyProc G) Arr × Files) :
    Spec.exec (pyClasses (E.withEntropy g)) canOpen op s = Spec.exec (pyClasses (E.withEntropy g')) canOpen op s := by
  cases op with
  | setup params data => simp only [Spec.exec, Sim.setup, setup_entropy E g g' params (h params data rfl) data]
  | run => rfl
  | save => rfl

/-- C89: two programs that make the same calls on a new simulation, where every `setup` gets a seed other than zero, see the same outcomes
and end with the same output, internal data and files, whatever the operating system provides as randomness. Missing: the seed zero, for
which it fails, see `C89_violated`. -/
theorem C89_repeatable_partial (E : Env G) (canOpen : String → Py Unit) (name : Option String) (files : Files)
    (h h' : List (Spec.Op Arr × Py Unit)) (s s' : Sim (AnyProc G) Arr × Files)
    (hist : Spec.PyHistory E canOpen name files h s) (hist' : Spec.PyHistory E canOpen name files h' s')
    (same : h.map Prod.fst = h'.map Prod.fst) (seeds : Spec.AllSeeded (h.map Prod.fst)) : h = h' ∧ s = s' := by
  induction hist generalizing h' s' with
  | new =>
    cases hist' with
    | new => exact ⟨rfl, rfl⟩
    | call _ _ _ => cases same
  | @call h1 s1 hist1 op g ih =>
    cases hist' with
    | new => cases same
    | @call h2 s2 hist2 op2 g2 =>
      simp only [List.map_cons, List.cons.injEq] at same
      obtain ⟨rfl, hm⟩ := same
      obtain ⟨rfl, rfl⟩ := ih h2 s2 hist2 hm fun p d hp => seeds p d (by simp [hp])
      have := exec_entropy E canOpen g g2 op (fun p d hp => seeds p d (by simp [hp])) s1
      rw [this]
      exact ⟨rfl, rfl⟩

/-- An Ornstein-Uhlenbeck simulation with the seed zero. -/
def Spec.zeroSeed : Json :=
  .obj [("Model", .str "OU"), ("Ode-method", .str "Euler"), ("Random-Seed", .num 0),
    ("Time-window", .obj [("t0", .num 0), ("tf", .num 10), ("dt", .num 0.01)]), ("Noise", .obj [("sys", .num 0.8), ("obs", .num 0.04)]),
    ("Observations", .obj [("density", .num ((2 : ℤ) : ℝ)), ("operator", .null)]), ("Drift", .obj [("theta", .num 1)]),
    ("Prior", .obj [("tau0", .num 0.5), ("mu0", .num 1)])]

theorem exposed_state (g : ℝ) (n : ℕ) : Spec.stateAfter exposedRng g n = g := by
  induction n with
  | zero => rfl
  | succ n ih => rw [Spec.stateAfter, Function.iterate_succ_apply', ← Spec.stateAfter, ih]; rfl

/-- The mean of the first time point that `setup` stores, with the generator that shows its state. -/
theorem zeroSeed_m0 (E : Env ℝ) (hE : E.R = exposedRng) {c : Spec.Config1} {params : Json} (hin : c.In params) {N : ℕ} (hv : c.Valid N)
    (hn : Spec.SameUpToCase c.name "OU") (hz : c.seed = .num 0) (m : MData (AnyProc ℝ) Arr) :
    ∃ m', Sim.setupBody (pyClasses E) params none m = (.ok (), m') ∧ m'.m0 = some (.nd (.scalar (0.1 * E.entropy))) := by
  obtain ⟨M, hM⟩ := Int.eq_ofNat_of_zero_le hv.some_obs.le
  obtain ⟨m', x, g, k, h1, h2, h3⟩ := setup_total E hin hv M hM m
  refine ⟨m', h1, ?_⟩
  rcases h3 with ⟨hd, -⟩ | ⟨-, hz', -, h0, -⟩
  · exact (not_both hd hn).elim
  · have e := congrFun hz' (k + M)
    rw [h2.m0, e, h0, hz, hE, Spec.draw, exposed_state]
    simp [Spec.startState, exposedRng]

/-- C89 does not hold for the seed zero: two new simulations get the same valid parameters, with the seed zero, both calls of `setup`
succeed, and the moments with which the optimization starts differ. -/
theorem C89_violated (canOpen : String → Py Unit) (files : Files) : ∃ (E : Env ℝ) (h : List (Spec.Op Arr × Py Unit))
    (s s' : Sim (AnyProc ℝ) Arr × Files),
    Spec.PyHistory E canOpen none files h s ∧ Spec.PyHistory E canOpen none files h s'
      ∧ h = [(.setup Spec.zeroSeed none, .ok ())] ∧ s.1.m_data.m0 ≠ s'.1.m_data.m0 := by
  let E : Env ℝ := ⟨exposedRng, 0, fun _ _ x => x, fun _ _ _ _ _ => 0⟩
  let c : Spec.Config1 := { Spec.exampleConfig "OU" with seed := .num 0 }
  have hin : c.In Spec.zeroSeed :=
    ⟨rfl, ⟨_, rfl, rfl⟩, ⟨_, rfl, rfl, rfl⟩, ⟨_, rfl, rfl, rfl, rfl⟩, rfl, rfl, ⟨_, rfl, rfl, rfl⟩, _, rfl, rfl, rfl⟩
  have hv : c.Valid 1000 := { example_valid "OU" (.inr rfl) with seed := .inr ⟨0, by simp [c]⟩ }
  have hn : Spec.SameUpToCase c.name "OU" := (pyUpper_eq_iff (by decide)).1 (by show pyUpper "OU" = "OU"; decide)
  have hs : ∀ g : ℝ, ∃ s, Spec.PyHistory E canOpen none files [(.setup Spec.zeroSeed none, .ok ())] s
      ∧ s.1.m_data.m0 = some (.nd (.scalar (0.1 * g))) := by
    intro g
    obtain ⟨m', e, h⟩ := zeroSeed_m0 (E.withEntropy g) rfl hin hv hn rfl
      (Sim.init (M := AnyProc ℝ) (A := Arr) none).m_data
    have hist := (Spec.PyHistory.new (E := E) (canOpen := canOpen) (name := none) (files := files)).call (.setup Spec.zeroSeed none) g
    simp only [Spec.exec, Sim.setup, e] at hist
    exact ⟨_, hist, h⟩
  obtain ⟨s, hh, h0⟩ := hs 0
  obtain ⟨s', hh', h1⟩ := hs 1
  refine ⟨E, _, s, s', hh, hh', rfl, ?_⟩
  rw [h0, h1]
  norm_num

example (E : Env G) (canOpen : String → Py Unit) (files : Files) (g g' : G) :=
  C89_repeatable_partial E canOpen none files _ _ _ _ ((Spec.PyHistory.new.call (.setup (Spec.exampleParams "DW") none) g).call .run g)
    ((Spec.PyHistory.new.call (.setup (Spec.exampleParams "DW") none) g').call .run g') rfl (by
      intro p d h
      simp only [List.map_cons, List.map_nil, List.mem_cons, List.not_mem_nil, or_false, reduceCtorEq, false_or,
        Spec.Op.setup.injEq] at h
      rw [h.1]
      exact ⟨31415926535, rfl, by norm_num⟩)

end

end VGPA
