import Verif.Props.PriorShift
import Verif.Props.Shipped

/-!
# C117, C118: a simulation that has been used before

`setup` writes its entries one by one into the dictionary of the simulation, and never removes one. The theorems say which results can
depend on earlier calls.
-/

namespace VGPA

noncomputable section

variable {G M A F B L K Vg X : Type}

section
variable {α β : Type}

/-- From states related by `P`, both executions raise the same exception, or both return the same value in states related by `Q`. -/
def Twin (P : MData M A → MData M A → Prop) (f : Sim.Step M A α) (Q : α → MData M A → MData M A → Prop) : Prop :=
  ∀ m m', P m m' → (∃ e u u', f m = (.error e, u) ∧ f m' = (.error e, u')) ∨ ∃ a u u', f m = (.ok a, u) ∧ f m' = (.ok a, u') ∧ Q a u u'

theorem Twin.bind {P : MData M A → MData M A → Prop} {f : Sim.Step M A α} {Q : α → MData M A → MData M A → Prop} {k : α → Sim.Step M A β}
    {R : β → MData M A → MData M A → Prop} (h : Twin P f Q) (hk : ∀ a, Twin (Q a) (k a) R) : Twin P (f >>= k) R := by
  intro m m' hm
  rcases h m m' hm with ⟨e, u, u', h1, h2⟩ | ⟨a, u, u', h1, h2, h3⟩
  · rw [ScgM.bind_fail h1, ScgM.bind_fail h2]
    exact .inl ⟨e, u, u', rfl, rfl⟩
  · rw [ScgM.bind_step h1, ScgM.bind_step h2]
    exact hk a u u' h3

theorem Twin.lift {P : MData M A → MData M A → Prop} {p : Py α} : Twin P (ScgM.lift p) (fun _ => P) := by
  intro m m' hm
  cases p with
  | error e => exact .inl ⟨e, m, m', rfl, rfl⟩
  | ok a => exact .inr ⟨a, m, m', rfl, rfl, hm⟩

theorem Twin.view {P : MData M A → MData M A → Prop} {g : MData M A → Py α} (h : ∀ m m', P m m' → g m = g m') :
    Twin P (Sim.view g) (fun _ => P) := by
  intro m m' hm
  unfold Sim.view
  rw [← h m m' hm]
  cases g m with
  | error e => exact .inl ⟨e, m, m', rfl, rfl⟩
  | ok a => exact .inr ⟨a, m, m', rfl, rfl, hm⟩

theorem Twin.write {P Q : MData M A → MData M A → Prop} {g : MData M A → MData M A} (h : ∀ m m', P m m' → Q (g m) (g m')) :
    Twin P (Sim.write g) (fun _ => Q) := fun m m' hm => .inr ⟨(), g m, g m', rfl, rfl, h m m' hm⟩

theorem Twin.onModel {P : MData M A → MData M A → Prop} {meth : M → Py α × M} (h : ∀ m m', P m m' → m.model = m'.model)
    (hw : ∀ m m' p, P m m' → P { m with model := some p } { m' with model := some p }) : Twin P (Sim.onModel meth) (fun _ => P) := by
  intro m m' hm
  unfold Sim.onModel
  rw [← h m m' hm]
  cases m.model with
  | none => exact .inl ⟨.keyError, m, m', rfl, rfl⟩
  | some p =>
    rcases hr : (meth p).1 with e | a
    · exact .inl ⟨e, _, _, Prod.ext hr rfl, Prod.ext hr rfl⟩
    · exact .inr ⟨a, _, _, Prod.ext hr rfl, Prod.ext hr rfl, hw m m' _ hm⟩

/-- Two dictionaries agree in the first `k` entries that `setup` writes, and in `obs_noise` if `c`. -/
def Agree (k : ℕ) (c : Bool) (m m' : MData M A) : Prop :=
  (1 ≤ k → m.drift = m'.drift) ∧ (2 ≤ k → m.noise = m'.noise) ∧ (3 ≤ k → m.time_window = m'.time_window)
  ∧ (4 ≤ k → m.ode_solver = m'.ode_solver) ∧ (5 ≤ k → m.random_seed = m'.random_seed) ∧ (6 ≤ k → m.obs_setup = m'.obs_setup)
  ∧ (7 ≤ k → m.mu0 = m'.mu0) ∧ (8 ≤ k → m.tau0 = m'.tau0) ∧ (9 ≤ k → m.model = m'.model) ∧ (10 ≤ k → m.single_dim = m'.single_dim)
  ∧ (11 ≤ k → m.obs_t = m'.obs_t) ∧ (12 ≤ k → m.obs_y = m'.obs_y) ∧ (13 ≤ k → m.m0 = m'.m0) ∧ (14 ≤ k → m.s0 = m'.s0)
  ∧ (c = true → m.obs_noise = m'.obs_noise)

set_option maxHeartbeats 1000000 in
/-- Whatever the simulation contains, `setup` raises the same exception, or succeeds and leaves the same entries; with observations given
by the caller, except for the noise of the observations. -/
theorem setup_twin (C : Classes M A F B L K Vg X) (params : Json) (data : Option (Data A)) :
    Twin (fun _ _ => True) (Sim.setupBody C params data) (fun _ => Agree 14 data.isNone) := by
  have wr : ∀ {k c k' c'} (g : MData M A → MData M A), (∀ m m', Agree k c m m' → Agree k' c' (g m) (g m')) →
      Twin (Agree k c) (Sim.write g) (fun _ => Agree k' c') := fun g h => Twin.write h
  have vw : ∀ {k c} {α : Type} (g : MData M A → Py α), (∀ m m', Agree k c m m' → g m = g m') → Twin (Agree k c) (Sim.view g) (fun _ => Agree k c) :=
    fun g h => Twin.view h
  have om : ∀ {k c} {α : Type} (meth : M → Py α × M), 9 ≤ k → Twin (A := A) (Agree k c) (Sim.onModel meth) (fun _ => Agree k c) := fun meth hk =>
    Twin.onModel (fun m m' h => h.2.2.2.2.2.2.2.2.1 hk) (fun m m' p h => by simp only [Agree] at h ⊢; simp_all)
  have h0 : Twin (fun _ _ => True) (Sim.setupBody C params data) (fun _ => Agree 14 data.isNone)
      ↔ Twin (Agree 0 false) (Sim.setupBody C params data) (fun _ => Agree 14 data.isNone) := by
    have : (fun _ _ => True) = (Agree (M := M) (A := A) 0 false) := by
      funext m m'
      simp [Agree]
    rw [this]
  rw [h0]
  unfold Sim.setupBody
  refine Twin.lift.bind fun v => (wr (k' := 1) (c' := false) _ fun m m' h => by simp [Agree] at h ⊢).bind fun _ => ?_
  refine Twin.lift.bind fun v => (wr (k' := 2) (c' := false) _ fun m m' h => by simp [Agree] at h ⊢; simp [*]).bind fun _ => ?_
  refine Twin.lift.bind fun v => (wr (k' := 3) (c' := false) _ fun m m' h => by simp [Agree] at h ⊢; simp [*]).bind fun _ => ?_
  refine Twin.lift.bind fun v => (wr (k' := 4) (c' := false) _ fun m m' h => by simp [Agree] at h ⊢; simp [*]).bind fun _ => ?_
  refine Twin.lift.bind fun v => (wr (k' := 5) (c' := false) _ fun m m' h => by simp [Agree] at h ⊢; simp [*]).bind fun _ => ?_
  refine Twin.lift.bind fun v => (wr (k' := 6) (c' := false) _ fun m m' h => by simp [Agree] at h ⊢; simp [*]).bind fun _ => ?_
  refine Twin.lift.bind fun v => (wr (k' := 7) (c' := false) _ fun m m' h => by simp [Agree] at h ⊢; simp [*]).bind fun _ => ?_
  refine Twin.lift.bind fun v => (wr (k' := 8) (c' := false) _ fun m m' h => by simp [Agree] at h ⊢; simp [*]).bind fun _ => ?_
  refine (vw _ fun m m' h => by simp [Agree] at h; simp only [h]).bind fun sn => ?_
  refine (vw _ fun m m' h => by simp [Agree] at h; simp only [h]).bind fun dv => ?_
  refine (vw _ fun m m' h => by simp [Agree] at h; simp only [h]).bind fun rs => ?_
  refine Twin.lift.bind fun nm => Twin.lift.bind fun p => ?_
  refine (wr (k' := 9) (c' := false) _ fun m m' h => by simp [Agree] at h ⊢; simp [*]).bind fun _ => ?_
  refine (wr (k' := 10) (c' := false) _ fun m m' h => by simp [Agree] at h ⊢; simp [*]).bind fun _ => ?_
  refine (vw _ fun m m' h => by simp [Agree] at h; simp only [h]).bind fun t0 => ?_
  refine (vw _ fun m m' h => by simp [Agree] at h; simp only [h]).bind fun tf => ?_
  refine (vw _ fun m m' h => by simp [Agree] at h; simp only [h]).bind fun dt => ?_
  refine (om _ (by omega)).bind fun _ => ?_
  have hobs : Twin (Agree 10 false) (Sim.setupObs C data) (fun _ => Agree 12 data.isNone) := by
    unfold Sim.setupObs
    cases data with
    | some d =>
      refine Twin.lift.bind fun t => (wr (k' := 11) (c' := false) _ fun m m' h => by simp [Agree] at h ⊢; simp [*]).bind fun _ => ?_
      exact Twin.lift.bind fun t => wr (k' := 12) (c' := false) _ fun m m' h => by simp [Agree] at h ⊢; simp [*]
    | none =>
      refine (vw _ fun m m' h => by simp [Agree] at h; simp only [h]).bind fun n => ?_
      refine (vw _ fun m m' h => by simp [Agree] at h; simp only [h]).bind fun rn => ?_
      refine (vw _ fun m m' h => by simp [Agree] at h; simp only [h]).bind fun op => ?_
      refine (om _ (by omega)).bind fun r => ?_
      refine (wr (k' := 11) (c' := false) _ fun m m' h => by simp [Agree] at h ⊢; simp [*]).bind fun _ => ?_
      refine (wr (k' := 12) (c' := false) _ fun m m' h => by simp [Agree] at h ⊢; simp [*]).bind fun _ => ?_
      exact wr (k' := 12) (c' := true) _ fun m m' h => by simp [Agree] at h ⊢; simp [*]
  refine hobs.bind fun _ => ?_
  unfold Sim.setupMoments
  generalize data.isNone = c
  refine (vw _ fun m m' h => by simp [Agree] at h; simp only [h]).bind fun one => ?_
  refine (om _ (by omega)).bind fun m0 => ?_
  refine (wr (k' := 13) (c' := c) _ fun m m' h => by simp [Agree] at h ⊢; simp_all).bind fun _ => ?_
  refine (vw _ fun m m' h => by simp [Agree] at h; simp only [h]).bind fun s0 => ?_
  refine (wr (k' := 14) (c' := c) _ fun m m' h => by simp [Agree] at h ⊢; simp_all).bind fun _ => ?_
  split
  · exact fun m m' h => .inr ⟨(), m, m', rfl, rfl, h⟩
  · refine (vw _ fun m m' h => by simp [Agree] at h; simp only [h]).bind fun a => ?_
    refine (wr (k' := 14) (c' := c) _ fun m m' h => by simp [Agree] at h ⊢; simp_all).bind fun _ => ?_
    refine (vw _ fun m m' h => by simp [Agree] at h; simp only [h]).bind fun b => ?_
    exact wr (k' := 14) (c' := c) _ fun m m' h => by simp [Agree] at h ⊢; simp_all

theorem agree_all {m m' : MData M A} (h : Agree 14 true m m') : m = m' := by
  simp [Agree] at h
  cases m
  cases m'
  simp_all

/-- `setup` without data: the same outcome on every simulation, and the same entries when it succeeds. -/
theorem setup_any (C : Classes M A F B L K Vg X) (params : Json) (m m' : MData M A) :
    (Sim.setupBody C params none m).1 = (Sim.setupBody C params none m').1
    ∧ ((Sim.setupBody C params none m).1 = .ok () → (Sim.setupBody C params none m).2 = (Sim.setupBody C params none m').2) := by
  rcases setup_twin C params none m m' trivial with ⟨e, u, u', h1, h2⟩ | ⟨a, u, u', h1, h2, h3⟩
  · rw [h1, h2]
    exact ⟨rfl, fun h => (by cases h)⟩
  · rw [h1, h2]
    exact ⟨rfl, fun _ => agree_all h3⟩

end

/-! ## C117 -/

theorem run_data (C : Classes M A F B L K Vg X) (s s' : Sim M A) (h : s.m_data = s'.m_data) : (s.run C).1 = (s'.run C).1 := by
  unfold Sim.run
  rw [h]
  rcases Sim.runBody C s'.m_data with e | ⟨p, x, fx, g⟩
  · rfl
  · dsimp only
    rcases C.unpack_a p x with e | a
    · rfl
    · dsimp only
      rcases C.unpack_b p x with e | b <;> rfl

/-- When only the eleven names are in use, a successful `run()` replaces them all. -/
theorem run_lookup (E : Env G) (s s' : Sim (AnyProc G) Arr) (hm : s.m_data = s'.m_data)
    (hk : ∀ k, s.output.lookup k ≠ none → k ∈ "at" :: "bt" :: "fx" :: Spec.momentNames)
    (hk' : ∀ k, s'.output.lookup k ≠ none → k ∈ "at" :: "bt" :: "fx" :: Spec.momentNames)
    (hr : (s.run (pyClasses E)).1 = .ok ()) (key : String) :
    (s.run (pyClasses E)).2.output.lookup key = (s'.run (pyClasses E)).2.output.lookup key := by
  have hr' : (s'.run (pyClasses E)).1 = .ok () := by rw [← run_data _ s s' hm]; exact hr
  obtain ⟨p, x, fx, g, a, b, hb, h1, h2, ho⟩ := run_ok_output _ s hr
  obtain ⟨p', x', fx', g', a', b', hb', h1', h2', ho'⟩ := run_ok_output _ s' hr'
  rw [← hm, hb] at hb'
  cases hb'
  rw [h1] at h1'
  rw [h2] at h2'
  cases h1'
  cases h2'
  obtain ⟨v, x0, hbu, hopt⟩ := runBody_builds.1 hb
  obtain ⟨_, h3, _, h4⟩ := optimize_ok hopt
  obtain ⟨y, F', hy⟩ : ∃ y F', v.freeEnergy y = (.ok F', g) := by
    rcases h4 with rfl | ⟨_, y, Fy, hy, _⟩
    · exact ⟨x, fx, Prod.ext h3 rfl⟩
    · exact ⟨y, Fy, hy⟩
  have hd : Spec.DistinctKeys ((pyClasses E).arg_out g) := argOut_distinct g
  rw [ho, ho']
  dsimp only
  rw [lookup_update _ _ hd, lookup_update _ _ hd]
  rcases hg : ((pyClasses E).arg_out g).lookup key with _ | z
  · simp only [Option.none_or, lookup_put]
    split
    · rfl
    split
    · rfl
    split
    · rfl
    rename_i n1 n2 n3
    have hno : key ∉ Spec.momentNames := by
      intro hmem
      have : ((pyClasses E).arg_out g).lookup key ≠ none := by
        rw [lookup_ne_none]
        show key ∈ g.argOut.map Prod.fst
        rw [argOut_fe hy]
        exact hmem
      exact this hg
    have none_of : ∀ o : Dict Val, (∀ k, o.lookup k ≠ none → k ∈ "at" :: "bt" :: "fx" :: Spec.momentNames) → o.lookup key = none := by
      intro o h
      by_contra hne
      have := h key hne
      simp only [List.mem_cons] at this
      rcases this with h | h | h | h
      · exact n3 h
      · exact n2 h
      · exact n1 h
      · exact hno h
    rw [none_of _ hk, none_of _ hk']
  · rfl

/-- C117: take a simulation with any history, and a new one. `setup(params)` without data has the same outcome on both (given the same
randomness). If it succeeds, `run()` has the same outcome on both, and if that succeeds too, the outputs are the same under every name. So
nothing of earlier calls, successful or not, gets into the results. Missing: `setup` with data given by the caller, see `C117_violated`. -/
theorem C117_reuse_partial (E : Env G) (canOpen : String → Py Unit) (name name' : Option String) (files : Files)
    (h : List (Spec.Op Arr × Py Unit)) (s : Sim (AnyProc G) Arr × Files) (hist : Spec.PyHistory E canOpen name files h s) (params : Json) :
    (s.1.setup (pyClasses E) params none).1 = ((Sim.init name').setup (pyClasses E) params none).1
    ∧ ((s.1.setup (pyClasses E) params none).1 = .ok () →
      ((s.1.setup (pyClasses E) params none).2.run (pyClasses E)).1 = (((Sim.init name').setup (pyClasses E) params none).2.run (pyClasses E)).1
      ∧ (((s.1.setup (pyClasses E) params none).2.run (pyClasses E)).1 = .ok () → ∀ key,
        ((s.1.setup (pyClasses E) params none).2.run (pyClasses E)).2.output.lookup key
          = (((Sim.init name').setup (pyClasses E) params none).2.run (pyClasses E)).2.output.lookup key)) := by
  obtain ⟨h1, h2⟩ := setup_any (pyClasses E) params s.1.m_data (Sim.init name' : Sim (AnyProc G) Arr).m_data
  refine ⟨h1, fun hok => ?_⟩
  have hm : (s.1.setup (pyClasses E) params none).2.m_data = ((Sim.init name').setup (pyClasses E) params none).2.m_data := h2 hok
  refine ⟨run_data _ _ _ hm, fun hr key => run_lookup E _ _ hm (history_keys hist) (fun k hk => absurd rfl hk) hr key⟩

/-! ### With data from the caller -/

/-- `setup` with data on a simulation that has a noise variance from before. -/
theorem setup_data_total (E : Env G) {c : Spec.Config1} {params : Json} (hin : c.In params) {N : ℕ} (hv : c.Valid N) {M : ℕ} (y : Fin M → ℝ)
    {r : ℝ} (m : MData (AnyProc G) Arr) (hr : m.obs_noise = some (.nd (.scalar r))) :
    ∃ m' x g k a, Sim.setupBody (pyClasses E) params (some (.seq [.times (List.ofFn fun i : Fin M => eqIdx N M i), .series (List.ofFn y)])) m
        = (.ok (), m')
      ∧ Prepared1 E.R c N M x g k y r a m' := by
  have hN : 0 < N := by have := hv.not_all; have := hv.some_obs; omega
  obtain ⟨hmod, ⟨jd, hd1, hd2⟩, ⟨jn, hn1, hn2, hn3⟩, ⟨jt, ht1, ht2, ht3, ht4⟩, hode, hseed, ⟨jo, ho1, ho2, ho3⟩, jp, hp1, hp2,
    hp3⟩ := hin
  obtain ⟨p, b, hc, hb, hb0⟩ := create_ready E hv
  obtain ⟨p1, x, g, k, h1, r1, hpath⟩ := traj_ready E hb hv.dt N
  obtain ⟨p3, h3, r3⟩ := mean_ready E r1
  rw [← hv.tf] at h1
  let m1 : MData (AnyProc G) Arr := { m with
    drift := some jd, noise := some jn, time_window := some jt, ode_solver := some (.str c.method), random_seed := some c.seed
    obs_setup := some jo, mu0 := some (.given (.num c.mu0)), tau0 := some (.given (.num c.tau0)), model := some p1
    single_dim := some p.singleDim }
  let m2 : MData (AnyProc G) Arr := { m1 with
    obs_t := some (.times (List.ofFn fun i : Fin M => eqIdx N M i)), obs_y := some (.series (List.ofFn y)) }
  let m3 : MData (AnyProc G) Arr := { m2 with
    model := some p3, m0 := some (.nd (.scalar (x 0 + 0.1 * Spec.draw E.R g k))), s0 := some (.nd (.scalar 0.2)) }
  have e2 : Sim.setupObs (pyClasses E) (some (.seq [.times (List.ofFn fun i : Fin M => eqIdx N M i), .series (List.ofFn y)])) m1
      = (.ok (), m2) := rfl
  have e3 : Sim.setupMoments (pyClasses E) m2 = (.ok (), m3) := by
    unfold Sim.setupMoments
    rw [step_view (a := true) (by simp only [m2, m1, is1_single hb]; rfl), step_model (p := p1) (p' := p3) (by rfl) (by exact h3), step_write,
      step_view (a := .nd (.scalar 0.2)) (by
        simp only [need, py_ok_bind]
        exact congrArg Except.ok (ready_single r3).2.1)]
    rfl
  refine ⟨m3, x, g, k + 1, _, ?_, ⟨⟨jt, rfl, ht4⟩, rfl, ?_, rfl, rfl, hr, ⟨jo, rfl, ho3⟩, rfl, rfl, ⟨p3, rfl, r3⟩, rfl, rfl⟩⟩
  · unfold Sim.setupBody
    rw [step_lift hd1, step_write, step_lift hn1, step_write, step_lift ht1, step_write, step_lift hode, step_write,
      step_lift hseed, step_write, step_lift ho1, step_write, step_lift (a := .num c.mu0) (by rw [hp1]; exact hp2), step_write,
      step_lift (a := .num c.tau0) (by rw [hp1]; exact hp3), step_write, step_view (a := .num c.sys) (by exact hn2),
      step_view (a := .num c.theta) (by exact hd2), step_view (a := c.seed) (by rfl), step_lift hmod, step_lift hc, step_write, step_write,
      step_view (a := .num c.t0) (by exact ht2), step_view (a := .num c.tf) (by exact ht3), step_view (a := .num c.dt) (by exact ht4),
      step_model (p := p) (p' := p1) (a := ()) (by rfl) (by exact h1)]
    exact (ScgM.bind_step e2).trans e3
  · exact congrArg some (is1_single hb)

/-- C117 fails for data given by the caller. Take two valid one dimensional configurations whose noise variances of the observations may
differ. On a new simulation, `setup` with data is followed by a `run()` that raises. On a simulation that was set up with the first
configuration before, the same call is followed by a `run()` that succeeds, with the noise variance of the first configuration in
place of that of the second. -/
theorem C117_violated (E : Env G) (name : Option String) (c c' : Spec.Config1) (params params' : Json) (hin : c.In params) (hin' : c'.In params')
    (N N' : ℕ) (hv : c.Valid N) (hv' : c'.Valid N') (M : ℕ) (hpos : 0 < M) (hlt : M < N') (y : Fin M → ℝ) :
    ∃ data : Data Arr, data = .seq [.times (List.ofFn fun i : Fin M => eqIdx N' M i), .series (List.ofFn y)]
      ∧ (∃ e, (((Sim.init name).setup (pyClasses E) params' (some data)).2.run (pyClasses E)).1 = .error e)
      ∧ let used := (((Sim.init name).setup (pyClasses E) params none).2.setup (pyClasses E) params' (some data)).2
        (used.run (pyClasses E)).1 = .ok () ∧ used.m_data.obs_noise = some (.nd (.scalar c.obs)) := by
  refine ⟨_, rfl, C77_violated _ _ _ _, ?_⟩
  obtain ⟨K, hK⟩ := Int.eq_ofNat_of_zero_le hv.some_obs.le
  obtain ⟨m1, x, g, k, h1, h2, -⟩ := setup_total E hin hv K hK (Sim.init name : Sim (AnyProc G) Arr).m_data
  obtain ⟨m2, x', g', k', a, h3, h4⟩ := setup_data_total E hin' hv' y m1 h2.noise
  have e : (((Sim.init name).setup (pyClasses E) params none).2.setup (pyClasses E) params'
      (some (.seq [.times (List.ofFn fun i : Fin M => eqIdx N' M i), .series (List.ofFn y)]))).2 = { (Sim.init name : Sim (AnyProc G) Arr) with m_data := m2 } := by
    simp only [Sim.setup, h1, h3]
  dsimp only
  rw [e]
  exact ⟨prepared_run E hv' hpos hlt (s := { (Sim.init name : Sim (AnyProc G) Arr) with m_data := m2 }) h4, h4.noise⟩

/-! ## C118 -/

/-- A dictionary of parameters without a documented model name. -/
def Spec.NoModel (params : Json) : Prop :=
  ∀ s, params.item "Model" = .ok (.str s) → ∀ t k, (t, k) ∈ Spec.modelNames → ¬ Spec.SameUpToCase s t

theorem noModel_fails (C : Classes M A F B L K Vg X) {params : Json} (h : Spec.NoModel params) {nm : Json} (hn : params.item "Model" = .ok nm)
    (sys theta seed : Json) : Sim.stochasticModel C nm sys theta seed = .error .valueError := by
  cases nm with
  | str s => exact (C75_model_names C s sys theta seed).2 (h s hn)
  | _ => rfl

/-- The entries that a run takes from the process. -/
def Untouched (m w : MData M A) : Prop :=
  w.model = m.model ∧ w.single_dim = m.single_dim ∧ w.obs_t = m.obs_t ∧ w.obs_y = m.obs_y ∧ w.obs_noise = m.obs_noise ∧ w.m0 = m.m0 ∧ w.s0 = m.s0

/-- C118, as far as it holds: when the parameters have no valid model name, `setup` raises, and the process with its path, the
observations with their noise, the initial moments and the output are what they were. Missing: the other entries, see `C118_violated`. -/
theorem C118_failed_setup_partial (C : Classes M A F B L K Vg X) (s : Sim M A) (params : Json) (data : Option (Data A)) (h : Spec.NoModel params) :
    ∃ e, (s.setup C params data).1 = .error e
      ∧ (s.setup C params data).2.m_data.model = s.m_data.model ∧ (s.setup C params data).2.m_data.single_dim = s.m_data.single_dim
      ∧ (s.setup C params data).2.m_data.obs_t = s.m_data.obs_t ∧ (s.setup C params data).2.m_data.obs_y = s.m_data.obs_y
      ∧ (s.setup C params data).2.m_data.obs_noise = s.m_data.obs_noise ∧ (s.setup C params data).2.m_data.m0 = s.m_data.m0
      ∧ (s.setup C params data).2.m_data.s0 = s.m_data.s0
      ∧ (s.setup C params data).2.output = s.output ∧ (s.setup C params data).2.name = s.name := by
  have key : Trip (Untouched s.m_data) (Sim.setupBody C params data) (fun _ _ => False) (Untouched s.m_data) := by
    set P : MData M A → Prop := Untouched s.m_data with hP
    have hE : ∀ s, P s → P s := fun s h => h
    have lf : ∀ {α : Type} (p : Py α), Trip P (ScgM.lift p) (fun _ => P) P := fun p =>
      (Trip.lift hE).weaken (fun _ h => h) (fun _ _ h => h.2) (fun _ h => h)
    have vw : ∀ {α : Type} (g : MData M A → Py α), Trip P (Sim.view g) (fun _ => P) P := fun p =>
      (Trip.view hE).weaken (fun _ h => h) (fun _ _ h => h.2) (fun _ h => h)
    have wr : ∀ (g : MData M A → MData M A), (∀ s, P s → P (g s)) → Trip P (Sim.write g) (fun _ => P) P := fun g h => Trip.write h
    unfold Sim.setupBody
    iterate 8
      refine (lf _).bind fun _ => ?_
      refine (wr _ (by exact fun s h => h)).bind fun _ => ?_
    iterate 3 refine (vw _).bind fun _ => ?_
    refine (Trip.lift hE).bind fun nm => ?_
    by_cases hn : params.item "Model" = .ok nm
    · intro w hw
      have hf := noModel_fails C h hn
      constructor
      · intro a s' h'
        rw [step_fail (hf _ _ _)] at h'
        cases h'
      · intro e s' h'
        rw [step_fail (hf _ _ _)] at h'
        cases h'
        exact hw.2
    · intro w hw
      exact absurd hw.1 hn
  obtain ⟨k1, k2⟩ := key s.m_data ⟨rfl, rfl, rfl, rfl, rfl, rfl, rfl⟩
  unfold Sim.setup
  rcases hb : Sim.setupBody C params data s.m_data with ⟨e | u, w⟩
  · obtain ⟨h1, h2, h3, h4, h5, h6, h7⟩ := k2 _ _ hb
    exact ⟨e, rfl, h1, h2, h3, h4, h5, h6, h7, rfl, rfl⟩
  · exact (k1 _ _ hb).elim

/-- What a setup with an unknown model name leaves behind when all entries but the prior mean are as before. -/
def Spec.badParams (mu : ℝ) : Json :=
  .obj [("Model", .str "XX"), ("Ode-method", .str "Euler"), ("Random-Seed", .num 31415926535),
    ("Time-window", .obj [("t0", .num 0), ("tf", .num 10), ("dt", .num 0.01)]), ("Noise", .obj [("sys", .num 0.8), ("obs", .num 0.04)]),
    ("Observations", .obj [("density", .num ((2 : ℤ) : ℝ)), ("operator", .null)]), ("Drift", .obj [("theta", .num 1)]),
    ("Prior", .obj [("tau0", .num 0.5), ("mu0", .num mu)])]

theorem bad_setup (E : Env G) (mu : ℝ) (m : MData (AnyProc G) Arr) :
    Sim.setupBody (pyClasses E) (Spec.badParams mu) none m = (.error .valueError, { m with
      drift := some (.obj [("theta", .num 1)]), noise := some (.obj [("sys", .num 0.8), ("obs", .num 0.04)])
      time_window := some (.obj [("t0", .num 0), ("tf", .num 10), ("dt", .num 0.01)]), ode_solver := some (.str "Euler")
      random_seed := some (.num 31415926535), obs_setup := some (.obj [("density", .num ((2 : ℤ) : ℝ)), ("operator", .null)])
      mu0 := some (.given (.num mu)), tau0 := some (.given (.num 0.5)) }) := by
  rfl

/-- The number `fx` that a run reports. -/
theorem run_fx {E : Env G} {s : Sim (AnyProc G) Arr} {p : AnyProc G} {v v' : AnyVgp} {x0 z : List ℝ} {fx : ℝ}
    (hb : Spec.Builds (pyClasses E) s.m_data p v x0) (ho : v.optimize x0 = (.ok (z, fx), v')) (hr : (s.run (pyClasses E)).1 = .ok ()) :
    (s.run (pyClasses E)).2.output.lookup "fx" = some (.scalar fx) := by
  obtain ⟨p', x', fx', g', a', b', hr', ha', hb', ho'⟩ := run_ok_output _ s hr
  rw [runBody_builds.2 ⟨v, x0, hb, ho⟩] at hr'
  cases hr'
  have hd : Spec.DistinctKeys ((pyClasses E).arg_out v') := argOut_distinct v'
  have hno : ((pyClasses E).arg_out v').lookup "fx" = none := argOut_none v' "fx" (by simp)
  rw [ho']
  dsimp only
  rw [lookup_update _ _ hd, hno, lookup_put, if_pos rfl, Option.none_or]

theorem ready_mu {R : Rng G} {c : Spec.Config1} {N : ℕ} {x : ℕ → ℝ} {g : G} {n : ℕ} {p : AnyProc G} (mu : ℝ) (h : Ready1 R c N x g n p) :
    Ready1 R { c with mu0 := mu } N x g n p := by
  obtain ⟨b, hb, h1, h2, h3⟩ := h
  refine ⟨b, ?_, h1, h2, h3⟩
  cases hb with
  | dw _ hn h => exact .dw (c := { c with mu0 := mu }) b hn h
  | ou _ hn h => exact .ou (c := { c with mu0 := mu }) b hn h

theorem prior_shift_eq (l t q z z' s : ℝ) : q * (z' - z) = (-l - 0.5 * (1.0 - t) + q * (z' + s)) - (-l - 0.5 * (1.0 - t) + q * (z + s)) := by
  generalize (0.5 : ℝ) * (1.0 - t) = w
  ring

/-- The numbers reported by two simulations that are ready to run and differ only in the mean of the prior. -/
theorem prepared_shift (E : Env G) {c : Spec.Config1} {N : ℕ} (hv : c.Valid N) {M : ℕ} (hpos : 0 < M) (hlt : M < N)
    {x : ℕ → ℝ} {g : G} {n : ℕ} {y : Fin M → ℝ} {r a : ℝ} {s s' : Sim (AnyProc G) Arr} {mu : ℝ}
    (h : Prepared1 E.R c N M x g n y r a s.m_data) (h' : Prepared1 E.R { c with mu0 := mu } N M x g n y r a s'.m_data)
    (hmodel : s'.m_data.model = s.m_data.model) :
    ∃ fx, (s.run (pyClasses E)).2.output.lookup "fx" = some (.scalar fx)
      ∧ (s'.run (pyClasses E)).2.output.lookup "fx" = some (.scalar (fx + 0.5 / c.tau0 * ((a - mu) ^ 2 - (a - c.mu0) ^ 2))) := by
  have hv' : Spec.Config1.Valid { c with mu0 := mu } N := ⟨hv.name, hv.sys, hv.obs, hv.tau0, hv.dt, hv.tf, hv.method, hv.seed, hv.density, hv.some_obs, hv.not_all⟩
  obtain ⟨p, b, sde, meth, x0, z, fx, v, -, -, -, -, -, hB, -, ho⟩ := prepared_builds E hv hpos hlt h
  obtain ⟨p', b', sde', meth', x0', z', fx', v', -, -, -, -, -, hB', -, ho'⟩ := prepared_builds E hv' hpos hlt h'
  have hr := prepared_run E hv hpos hlt h
  have hr' := prepared_run E hv' hpos hlt h'
  have hB2 : Spec.Builds (pyClasses E) { s.m_data with mu0 := s'.m_data.mu0, tau0 := s'.m_data.tau0 } p'
      (.one (vgpOf sde' ⟨c.dt, c.method, meth'⟩ ⟨c.dt, pyLower c.method, meth'⟩ a 0.2 c.dt r ⟨mu, c.tau0⟩ (N + 1) N M y)) x0' := by
    obtain ⟨tw, dt, ode, one, f, b, yy, t, rr, os, op, lik, mu0, tau0, k, m0, s0, i1, i2, i3, i4, i5, i8, i9, i10, i11, i12,
        i13, i15, i16, i17, i19, i20, i21, i22, i23, i24⟩ := hB'
    obtain ⟨j, j1, j2⟩ := h.tw
    obtain ⟨j', j1', j2'⟩ := h'.tw
    obtain ⟨o, o1, o2⟩ := h.op
    obtain ⟨o', o1', o2'⟩ := h'.op
    rw [j1'] at i1
    cases i1
    rw [o1'] at i12
    cases i12
    exact ⟨j, dt, ode, one, f, b, yy, t, rr, o, op, lik, mu0, tau0, k, m0, s0, j1, by rw [j2, ← i2, j2'], by rw [← i3, h.ode, h'.ode],
      by rw [← i4, h.one, h'.one], i5, i8, by rw [← i9, h.obs, h'.obs], by rw [← i10, h.times, h'.times], by rw [← i11, h.noise, h'.noise],
      o1, by rw [o2, ← i13, o2'], i15, i16, i17, i19, hmodel.symm.trans i20, by rw [← i21, h.m0, h'.m0], by rw [← i22, h.s0, h'.s0], i23, i24⟩
  obtain ⟨rfl, hbp, rfl⟩ := builds_prior ⟨_, _, rfl⟩ hB hB2
  refine ⟨fx, run_fx hB ho hr, ?_⟩
  rw [run_fx hB' ho' hr']
  have hk : OnlyPrior (0.5 / c.tau0 * ((a - mu) ^ 2 - (a - c.mu0) ^ 2))
      (.one (vgpOf sde ⟨c.dt, c.method, meth⟩ ⟨c.dt, pyLower c.method, meth⟩ a 0.2 c.dt r ⟨c.mu0, c.tau0⟩ (N + 1) N M y))
      (.one (vgpOf sde' ⟨c.dt, c.method, meth'⟩ ⟨c.dt, pyLower c.method, meth'⟩ a 0.2 c.dt r ⟨mu, c.tau0⟩ (N + 1) N M y)) := by
    generalize hq : vgpOf sde' ⟨c.dt, c.method, meth'⟩ ⟨c.dt, pyLower c.method, meth'⟩ a 0.2 c.dt r ⟨mu, c.tau0⟩ (N + 1) N M y = o' at *
    cases hbp with
    | one o q =>
      have hkl := congrArg VarGP.kl0 hq
      dsimp only [vgpOf] at hkl
      subst hkl
      refine .one _ _ rfl rfl ?_
      exact prior_shift_eq _ _ _ _ _ _
  obtain ⟨hal, -⟩ := onlyPrior_optimize hk x0'
  rw [ho, ho'] at hal
  cases hal with
  | ok h => injection h with _ h2; rw [h2]

/-- C118 fails: a `setup` that raises leaves its traces. Set up a simulation with the shipped double well configuration. A second call of
`setup`, which differs in an unknown model name and in the mean of the prior, raises `ValueError`. The `run()` that follows goes
through, and for some prior mean in that rejected call reports another free energy than the `run()` without the rejected call. -/
theorem C118_violated (E : Env G) (s : Sim (AnyProc G) Arr) :
    ∃ mu : ℝ, let t := (s.setup (pyClasses E) (Spec.exampleParams "DW") none).2
      let t' := (t.setup (pyClasses E) (Spec.badParams mu) none).2
      (t.setup (pyClasses E) (Spec.badParams mu) none).1 = .error .valueError
      ∧ (t.run (pyClasses E)).1 = .ok () ∧ (t'.run (pyClasses E)).1 = .ok ()
      ∧ (t'.run (pyClasses E)).2.output.lookup "fx" ≠ (t.run (pyClasses E)).2.output.lookup "fx" := by
  have hv := example_valid "DW" (.inl rfl)
  obtain ⟨M, hM⟩ := Int.eq_ofNat_of_zero_le hv.some_obs.le
  have hpos : 0 < M := by have := hv.some_obs; omega
  have hlt : M < 1000 := by have := hv.not_all; omega
  obtain ⟨m, x, g, k, h1, h2, -⟩ := setup_total E (example_in "DW") hv M hM s.m_data
  have et : (s.setup (pyClasses E) (Spec.exampleParams "DW") none).2 = { s with m_data := m } := by simp only [Sim.setup, h1]
  rw [et]
  set a := x 0 + 0.1 * Spec.draw E.R g (k + M) with ha
  obtain ⟨mu, hmu⟩ : ∃ mu : ℝ, (a - mu) ^ 2 - (a - 1) ^ 2 ≠ 0 := by
    by_cases h : (a - 2) ^ 2 - (a - 1) ^ 2 = 0
    · refine ⟨3, fun h3 => ?_⟩
      nlinarith
    · exact ⟨2, h⟩
  have h2' := h2.prepared
  refine ⟨mu, ?_⟩
  have hb := bad_setup E mu m
  have et' : (({ s with m_data := m } : Sim (AnyProc G) Arr).setup (pyClasses E) (Spec.badParams mu) none)
      = (.error .valueError, { s with m_data := (Sim.setupBody (pyClasses E) (Spec.badParams mu) none m).2 }) := by
    simp only [Sim.setup, hb]
  dsimp only
  rw [et', hb]
  have h3 : Prepared1 E.R { Spec.exampleConfig "DW" with mu0 := mu } 1000 M x g (k + M + 1)
      (fun i => x (eqIdx 1000 M i) + Real.sqrt (Spec.exampleConfig "DW").obs * Spec.draw E.R g (k + i)) (Spec.exampleConfig "DW").obs a
      (Sim.setupBody (pyClasses E) (Spec.badParams mu) none m).2 := by
    rw [hb]
    exact ⟨⟨_, rfl, rfl⟩, rfl, h2'.one, h2'.times, h2'.obs, h2'.noise, ⟨_, rfl, rfl⟩, rfl, rfl,
      h2'.model.imp fun p hp => ⟨hp.1, ready_mu mu hp.2⟩, h2'.m0, h2'.s0⟩
  rw [hb] at h3
  refine ⟨rfl, prepared_run E hv hpos hlt (s := { s with m_data := m }) h2', ?_, ?_⟩
  · refine prepared_run E (c := { Spec.exampleConfig "DW" with mu0 := mu }) (N := 1000) ?_ hpos hlt h3
    exact ⟨hv.name, hv.sys, hv.obs, hv.tau0, hv.dt, hv.tf, hv.method, hv.seed, hv.density, hv.some_obs, hv.not_all⟩
  · obtain ⟨fx, e1, e2⟩ := prepared_shift E hv hpos hlt (s := { s with m_data := m }) (mu := mu) h2'
      (s' := { s with m_data := (Sim.setupBody (pyClasses E) (Spec.badParams mu) none m).2 }) (by rw [hb]; exact h3) (by rw [hb])
    rw [hb] at e2
    rw [e1, e2]
    intro h
    injection h with h
    injection h with h
    have h0 : 0.5 / (Spec.exampleConfig "DW").tau0 * ((a - mu) ^ 2 - (a - (Spec.exampleConfig "DW").mu0) ^ 2) = 0 := by
      rw [← ha] at h
      linarith
    have e3 : (Spec.exampleConfig "DW").tau0 = 0.5 := rfl
    have e4 : (Spec.exampleConfig "DW").mu0 = 1 := rfl
    rw [e3, e4] at h0
    rcases mul_eq_zero.1 h0 with h5 | h5
    · norm_num at h5
    · exact hmu h5

/-! ## The hypotheses can be met -/

/-- Non-vacuity of C117: a simulation that has run the double well example before, and then runs the Ornstein-Uhlenbeck example. -/
example (E : Env G) (canOpen : String → Py Unit) (files : Files) :=
  ((C117_reuse_partial E canOpen none none files _ _ ((Spec.PyHistory.new.call (.setup (Spec.exampleParams "DW") none) E.entropy).call .run E.entropy)
    (Spec.exampleParams "OU")).2 (C87_setup_and_run E _ _ (example_in "OU") 1000 (example_valid "OU" (.inr rfl)) _).1).2
    (example_run E "OU" (.inr rfl) _)

/-- The hypotheses of `C117_violated`: two valid configurations, and five observations. -/
example (E : Env G) (y : Fin 5 → ℝ) :=
  C117_violated E none _ _ _ _ (example_in "DW") (example_in "OU") 1000 1000 (example_valid "DW" (.inl rfl)) (example_valid "OU" (.inr rfl)) 5
    (by norm_num) (by norm_num) y

/-- The hypothesis of C118. -/
example (mu : ℝ) : Spec.NoModel (Spec.badParams mu) := by
  intro s hs t k hk h
  cases hs
  rw [← pyUpper_eq_iff (names_upper hk)] at h
  simp only [Spec.modelNames, List.mem_cons, Prod.mk.injEq, List.not_mem_nil, or_false] at hk
  rcases hk with ⟨rfl, _⟩ | ⟨rfl, _⟩ | ⟨rfl, _⟩ | ⟨rfl, _⟩ <;> exact absurd h (by decide)

end

end VGPA
