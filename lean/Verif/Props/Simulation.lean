import Verif.Model.Simulation
import Verif.Lemmas.Scg

/-!
# Properties of the front end: C75 model names, C76 workflow, C77 user data
-/

namespace VGPA

variable {M A F B L K Vg X : Type}

/-! ## C75 -/

/-- Two characters are equal, or the same letter in lower and upper case. -/
def Spec.SameLetter (a b : Char) : Prop :=
  a = b ∨ (97 ≤ a.toNat ∧ a.toNat ≤ 122 ∧ a.toNat = b.toNat + 32) ∨ (97 ≤ b.toNat ∧ b.toNat ≤ 122 ∧ b.toNat = a.toNat + 32)

/-- Two strings are equal up to the case of ASCII letters. -/
def Spec.SameUpToCase (s t : String) : Prop := List.Forall₂ Spec.SameLetter s.toList t.toList

/-- The documented model names with the classes they stand for. -/
def Spec.modelNames : List (String × SysName) := [("DW", .DW), ("OU", .OU), ("L63", .L63), ("L96", .L96)]

theorem toUpper_eq_iff {c b : Char} (hb : ¬ (97 ≤ b.toNat ∧ b.toNat ≤ 122)) : c.toUpper = b ↔ Spec.SameLetter c b := by
  unfold Char.toUpper Spec.SameLetter
  have hval : ∀ (x y : Char), x = y ↔ x.toNat = y.toNat := by
    intro x y
    refine ⟨fun h => by rw [h], fun h => ?_⟩
    apply Char.ext
    apply UInt32.toNat_inj.1
    exact h
  have hn : ∀ x : Char, x.val.toNat = x.toNat := fun _ => rfl
  split
  · rename_i h
    have h1 : 97 ≤ c.toNat := by have := UInt32.le_iff_toNat_le.1 h.1; simpa using this
    have h2 : c.toNat ≤ 122 := by have := UInt32.le_iff_toNat_le.1 h.2; simpa using this
    have key : ∀ p, (Char.mk (c.val + ('A'.val - 'a'.val)) p).toNat = c.toNat - 32 := by
      intro p
      show (c.val + ('A'.val - 'a'.val)).toNat = _
      rw [UInt32.toNat_add, hn]
      have : ('A'.val - 'a'.val).toNat = 4294967264 := by decide
      rw [this]
      omega
    rw [hval, key, hval c b]
    omega
  · rename_i h
    have h3 : ¬ (97 ≤ c.toNat ∧ c.toNat ≤ 122) := by
      intro ⟨h1, h2⟩
      exact h ⟨UInt32.le_iff_toNat_le.2 (by simpa using h1), UInt32.le_iff_toNat_le.2 (by simpa using h2)⟩
    rw [hval c b]
    omega

theorem pyUpper_eq_iff {s t : String} (ht : ∀ b ∈ t.toList, ¬ (97 ≤ b.toNat ∧ b.toNat ≤ 122)) :
    pyUpper s = t ↔ Spec.SameUpToCase s t := by
  have hl : pyUpper s = t ↔ s.toList.map Char.toUpper = t.toList := by
    unfold pyUpper
    rw [← String.toList_inj]
    simp
  rw [hl]
  clear hl
  unfold Spec.SameUpToCase
  revert ht
  generalize t.toList = l
  intro ht
  generalize s.toList = u
  induction u generalizing l with
  | nil => cases l <;> simp
  | cons c u ih =>
    cases l with
    | nil => simp
    | cons b l =>
      simp only [List.map_cons, List.cons.injEq, List.forall₂_cons]
      exact and_congr (toUpper_eq_iff (ht b List.mem_cons_self)) (ih l (fun b hb => ht b (List.mem_cons_of_mem _ hb)))

theorem names_upper {t : String} {k : SysName} (h : (t, k) ∈ Spec.modelNames) :
    ∀ b ∈ t.toList, ¬ (97 ≤ b.toNat ∧ b.toNat ≤ 122) := by
  simp only [Spec.modelNames, List.mem_cons, Prod.mk.injEq, List.not_mem_nil, or_false] at h
  rcases h with ⟨rfl, _⟩ | ⟨rfl, _⟩ | ⟨rfl, _⟩ | ⟨rfl, _⟩ <;> decide

/-- C75: a name that equals one of the four documented names up to letter case constructs that class (a `KeyError` of the
constructor is reported as `ValueError`), for every other string `ValueError` is raised. -/
theorem C75_model_names (C : Classes M A F B L K Vg X) (s : String) (sys theta seed : Json) :
    (∀ t k, (t, k) ∈ Spec.modelNames → Spec.SameUpToCase s t →
      Sim.stochasticModel C (.str s) sys theta seed
        = match C.create k sys theta seed with
          | .ok p => .ok p
          | .error e => if e = .keyError then .error .valueError else .error e)
    ∧ ((∀ t k, (t, k) ∈ Spec.modelNames → ¬ Spec.SameUpToCase s t) →
      Sim.stochasticModel C (.str s) sys theta seed = .error .valueError) := by
  constructor
  · intro t k hk hs
    have hu := (pyUpper_eq_iff (names_upper hk)).2 hs
    have hf : Sim.findSystem (.str s) = some k := by
      show dynamicalSystems.lookup (pyUpper s) = some k
      rw [hu]
      simp only [Spec.modelNames, List.mem_cons, Prod.mk.injEq, List.not_mem_nil, or_false] at hk
      rcases hk with ⟨rfl, rfl⟩ | ⟨rfl, rfl⟩ | ⟨rfl, rfl⟩ | ⟨rfl, rfl⟩ <;> decide
    unfold Sim.stochasticModel
    rw [hf]
    simp only
    rcases C.create k sys theta seed with e | p
    · cases e <;> rfl
    · rfl
  · intro hno
    have hf : Sim.findSystem (.str s) = none := by
      unfold Sim.findSystem dynamicalSystems
      rw [List.lookup_eq_none_iff]
      intro p hp
      have hne : pyUpper s ≠ p.1 := fun h => hno p.1 p.2 hp ((pyUpper_eq_iff (names_upper (k := p.2) hp)).1 h)
      simpa using hne
    unfold Sim.stochasticModel
    rw [hf]

/-- The hypotheses of C75 on names: `l63` is the class Lorenz63, `Lorenz` is no model. -/
example : Spec.SameUpToCase "l63" "L63" ∧ ∀ t k, (t, k) ∈ Spec.modelNames → ¬ Spec.SameUpToCase "Lorenz" t := by
  constructor
  · rw [← pyUpper_eq_iff (names_upper (k := .L63) (by decide))]
    decide
  · intro t k hk h
    rw [← pyUpper_eq_iff (names_upper hk)] at h
    simp only [Spec.modelNames, List.mem_cons, Prod.mk.injEq, List.not_mem_nil, or_false] at hk
    rcases hk with ⟨rfl, _⟩ | ⟨rfl, _⟩ | ⟨rfl, _⟩ | ⟨rfl, _⟩ <;> exact absurd h (by decide)

/-! ## C76 -/

/-- The calls a user can make. -/
inductive Spec.Op (A : Type)
  | setup (params : Json) (data : Option (Data A))
  | run
  | save

/-- One call, on the simulation object and the files. -/
noncomputable def Spec.exec (C : Classes M A F B L K Vg X) (canOpen : String → Py Unit) (op : Spec.Op A) (s : Sim M A × Files) :
    Py Unit × Sim M A × Files :=
  match op with
  | .setup params data => let r := s.1.setup C params data; (r.1, r.2, s.2)
  | .run => let r := s.1.run C; (r.1, r.2, s.2)
  | .save => s.1.save canOpen s.2

/-- A history of calls that starts with `Simulation(name)`: the calls made with their outcomes (latest first) and the
state reached. The program goes on after an exception. -/
inductive Spec.History (C : Classes M A F B L K Vg X) (canOpen : String → Py Unit) (name : Option String) (files : Files) :
    List (Spec.Op A × Py Unit) → Sim M A × Files → Prop
  | new : Spec.History C canOpen name files [] (Sim.init name, files)
  | call {h s} (hist : Spec.History C canOpen name files h s) (op : Spec.Op A) :
      Spec.History C canOpen name files ((op, (Spec.exec C canOpen op s).1) :: h) (Spec.exec C canOpen op s).2

/-- What the caller of `run` relies on in the parts: the optimal vector splits into both blocks. `Props/Pipeline.lean`
proves it for the modelled classes. -/
def Spec.Splits (C : Classes M A F B L K Vg X) : Prop :=
  ∀ m p x fx g a, Sim.runBody C m = .ok (p, x, fx, g) → C.unpack_a p x = .ok a → ∃ b, C.unpack_b p x = .ok b

/-- C76, second half: a `run()` that raises changes nothing, so the output of the last successful run stays in place. -/
theorem C76_failed_run_keeps_output (C : Classes M A F B L K Vg X) (hC : Spec.Splits C) (s : Sim M A) (e : PyErr)
    (h : (s.run C).1 = .error e) : (s.run C).2 = s := by
  unfold Sim.run at h ⊢
  rcases hr : Sim.runBody C s.m_data with e' | ⟨p, x, fx, g⟩
  · rfl
  · rw [hr] at h
    simp only at h ⊢
    rcases ha : C.unpack_a p x with e' | a
    · rfl
    · obtain ⟨b, hb⟩ := hC _ _ _ _ _ _ hr ha
      rw [ha, hb] at h
      cases h

/-- `run()` succeeds only by filling the dictionary. -/
theorem run_ok_output (C : Classes M A F B L K Vg X) (s : Sim M A) (h : (s.run C).1 = .ok ()) :
    ∃ p x fx g a b, Sim.runBody C s.m_data = .ok (p, x, fx, g) ∧ C.unpack_a p x = .ok a ∧ C.unpack_b p x = .ok b
      ∧ (s.run C).2 = { s with
          output := (((s.output.put "at" (.array a)).put "bt" (.array b)).put "fx" (.scalar fx)).update (C.arg_out g) } := by
  unfold Sim.run at h ⊢
  rcases hr : Sim.runBody C s.m_data with e' | ⟨p, x, fx, g⟩
  · rw [hr] at h; cases h
  · rw [hr] at h
    simp only at h ⊢
    rcases ha : C.unpack_a p x with e' | a
    · rw [ha] at h; cases h
    · rcases hb : C.unpack_b p x with e' | b
      · rw [ha, hb] at h; cases h
      · exact ⟨p, x, fx, g, a, b, rfl, ha, hb, rfl⟩

/-- `need` succeeds on keys that are present. -/
theorem need_ok {α : Type} {v : Option α} {a : α} : need v = .ok a ↔ v = some a := by
  cases v <;> simp [need]

theorem py_bind_ok {α β : Type} {p : Py α} {k : α → Py β} {b : β} : (p >>= k) = .ok b ↔ ∃ a, p = .ok a ∧ k a = .ok b := by
  cases p with
  | ok a => exact ⟨fun h => ⟨a, rfl, h⟩, fun ⟨a', h1, h2⟩ => by cases h1; exact h2⟩
  | error e => exact ⟨fun h => (by cases h), fun ⟨a', h1, h2⟩ => (by cases h1)⟩

/-- What a successful `run()` has read and built. -/
theorem runBody_ok {C : Classes M A F B L K Vg X} {m : MData M A} {p : M} {x : X} {fx : ℝ} {g' : Vg} :
    Sim.runBody C m = .ok (p, x, fx, g') ↔
      ∃ tw dt ode one f b y t r os op lik mu0 tau0 k m0 s0 g x0,
        m.time_window = some tw ∧ tw.item "dt" = .ok dt ∧ m.ode_solver = some ode ∧ m.single_dim = some one
        ∧ C.fwd_ode dt ode one = .ok f ∧ C.bwd_ode dt ode one = .ok b ∧ m.obs_y = some y ∧ m.obs_t = some t
        ∧ m.obs_noise = some r ∧ m.obs_setup = some os ∧ os.item "operator" = .ok op ∧ C.likelihood y t r op one = .ok lik
        ∧ m.mu0 = some mu0 ∧ m.tau0 = some tau0 ∧ C.prior mu0 tau0 one = .ok k ∧ m.model = some p ∧ m.m0 = some m0
        ∧ m.s0 = some s0 ∧ C.var_gp p m0 s0 f b lik k y t = .ok g ∧ C.initialization g = .ok x0
        ∧ C.optimize g x0 = (.ok (x, fx), g') := by
  unfold Sim.runBody
  simp only [py_bind_ok, need_ok]
  constructor
  · rintro ⟨tw, h1, dt, h2, ode, h3, one, h4, f, h5, ode', h6, one', h7, b, h8, y, h9, t, h10, r, h11, os, h12, op, h13,
      one'', h14, lik, h15, mu0, h16, tau0, h17, one3, h18, k, h19, p', h20, m0, h21, s0, h22, g, h23, x0, h24, h25⟩
    rw [h3] at h6
    rw [h4] at h7 h14 h18
    cases h6; cases h7; cases h14; cases h18
    rcases ho : C.optimize g x0 with ⟨e | q, g''⟩
    · rw [ho] at h25; cases h25
    · rw [ho] at h25
      cases h25
      exact ⟨tw, dt, ode, one, f, b, y, t, r, os, op, lik, mu0, tau0, k, m0, s0, g, x0, h1, h2, h3, h4, h5, h8, h9, h10, h11, h12,
        h13, h15, h16, h17, h19, h20, h21, h22, h23, h24, ho⟩
  · rintro ⟨tw, dt, ode, one, f, b, y, t, r, os, op, lik, mu0, tau0, k, m0, s0, g, x0, h1, h2, h3, h4, h5, h8, h9, h10, h11, h12,
        h13, h15, h16, h17, h19, h20, h21, h22, h23, h24, ho⟩
    refine ⟨tw, h1, dt, h2, ode, h3, one, h4, f, h5, ode, h3, one, h4, b, h8, y, h9, t, h10, r, h11, os, h12, op, h13,
      one, h4, lik, h15, mu0, h16, tau0, h17, one, h4, k, h19, p, h20, m0, h21, s0, h22, g, h23, x0, h24, ?_⟩
    rw [ho]
    rfl

/-- C76, middle part: in every history in which no `run()` has succeeded, `save()` (and everything else) leaves all
files as they were, and the output is empty. -/
theorem C76_save_needs_run (C : Classes M A F B L K Vg X) (hC : Spec.Splits C) (canOpen : String → Py Unit)
    (name : Option String) (files : Files) (h : List (Spec.Op A × Py Unit)) (s : Sim M A × Files)
    (hist : Spec.History C canOpen name files h s) (hno : ∀ o ∈ h, o.1 = .run → o.2 ≠ .ok ()) :
    s.2 = files ∧ s.1.output = [] := by
  induction hist with
  | new => exact ⟨rfl, rfl⟩
  | @call h s hist op ih =>
    obtain ⟨i1, i2⟩ := ih fun o ho => hno o (List.mem_cons_of_mem _ ho)
    have hop := hno _ List.mem_cons_self
    cases op with
    | setup params data => exact ⟨i1, i2⟩
    | run =>
      have hne : (s.1.run C).1 ≠ .ok () := hop rfl
      rcases hr : (s.1.run C).1 with e | u
      · have := C76_failed_run_keeps_output C hC s.1 e hr
        simp only [Spec.exec, this]
        exact ⟨i1, i2⟩
      · exact absurd hr hne
    | save =>
      simp only [Spec.exec, Sim.save, i2, List.isEmpty_nil, if_true]
      exact ⟨i1, trivial⟩

/-- A step that starts in `P` ends in `Q`, or raises and leaves `E`. -/
def Trip {w α : Type} (P : w → Prop) (m : ScgM w α) (Q : α → w → Prop) (E : w → Prop) : Prop :=
  ∀ s, P s → (∀ a s', m s = (.ok a, s') → Q a s') ∧ (∀ e s', m s = (.error e, s') → E s')

theorem Trip.bind {w α β : Type} {P : w → Prop} {m : ScgM w α} {k : α → ScgM w β} {Q : α → w → Prop} {R : β → w → Prop}
    {E : w → Prop} (h : Trip P m Q E) (hk : ∀ a, Trip (Q a) (k a) R E) : Trip P (m >>= k) R E := by
  intro s hs
  obtain ⟨h1, h2⟩ := h s hs
  have hb : (m >>= k) s = match m s with | (.ok a, s') => k a s' | (.error e, s') => (.error e, s') := rfl
  rw [hb]
  rcases hm : m s with ⟨e | a, s1⟩
  · refine ⟨fun a s' h => (by cases h), fun e' s' h => ?_⟩
    cases h
    exact h2 _ _ hm
  · exact hk a s1 (h1 _ _ hm)

theorem Trip.lift {w α : Type} {P : w → Prop} {E : w → Prop} {p : Py α} (h : ∀ s, P s → E s) :
    Trip P (ScgM.lift p) (fun a s => p = .ok a ∧ P s) E := by
  intro s hs
  refine ⟨fun a s' h' => ?_, fun e s' h' => ?_⟩
  · cases h'; exact ⟨rfl, hs⟩
  · cases h'; exact h _ hs

theorem Trip.view {α : Type} {P : MData M A → Prop} {E : MData M A → Prop} {g : MData M A → Py α} (h : ∀ s, P s → E s) :
    Trip P (Sim.view g) (fun a s => g s = .ok a ∧ P s) E := by
  intro s hs
  refine ⟨fun a s' h' => ?_, fun e s' h' => ?_⟩
  · unfold Sim.view at h'
    obtain ⟨h1, rfl⟩ := Prod.mk.inj h'
    exact ⟨h1, hs⟩
  · unfold Sim.view at h'
    obtain ⟨h1, rfl⟩ := Prod.mk.inj h'
    exact h _ hs

theorem Trip.write {P Q : MData M A → Prop} {E : MData M A → Prop} {g : MData M A → MData M A} (h : ∀ s, P s → Q (g s)) :
    Trip P (Sim.write g) (fun _ => Q) E := by
  intro s hs
  refine ⟨fun a s' h' => ?_, fun e s' h' => ?_⟩
  · cases h'; exact h _ hs
  · cases h'

theorem Trip.onModel {α : Type} {P Q : MData M A → Prop} {E : MData M A → Prop} {meth : M → Py α × M}
    (h : ∀ s p, P s → Q { s with model := some p }) (hn : ∀ s, P s → s.model = none → E s) (he : ∀ s, Q s → E s) :
    Trip P (Sim.onModel meth) (fun _ => Q) E := by
  intro s hs
  unfold Sim.onModel
  rcases hm : s.model with _ | p
  · refine ⟨fun a s' h' => (by cases h'), fun e s' h' => ?_⟩
    cases h'
    exact hn _ hs hm
  · refine ⟨fun a s' h' => ?_, fun e s' h' => ?_⟩
    · obtain ⟨_, rfl⟩ := Prod.mk.inj h'
      exact h _ _ hs
    · obtain ⟨_, rfl⟩ := Prod.mk.inj h'
      exact he _ (h _ _ hs)

theorem Trip.weaken {w α : Type} {P P' : w → Prop} {m : ScgM w α} {Q Q' : α → w → Prop} {E E' : w → Prop} (h : Trip P m Q E)
    (hP : ∀ s, P' s → P s) (hQ : ∀ a s, Q a s → Q' a s) (hE : ∀ s, E s → E' s) : Trip P' m Q' E' :=
  fun s hs => ⟨fun a s' h' => hQ _ _ ((h s (hP _ hs)).1 a s' h'), fun e s' h' => hE _ ((h s (hP _ hs)).2 e s' h')⟩

theorem Trip.pure {w α : Type} {P : w → Prop} {Q : α → w → Prop} {E : w → Prop} {a : α} (h : ∀ s, P s → Q a s) :
    Trip P (Pure.pure a) Q E := by
  intro s hs
  refine ⟨fun b s' h' => ?_, fun e s' h' => ?_⟩
  · cases h'; exact h _ hs
  · cases h'

theorem Trip.obs (C : Classes M A F B L K Vg X) (data : Option (Data A)) {P : MData M A → Prop} {E : MData M A → Prop}
    (hE : ∀ s, P s → E s) (h1 : ∀ s t, P s → P { s with obs_t := t }) (h2 : ∀ s t, P s → P { s with obs_y := t })
    (h3 : ∀ s t, P s → P { s with obs_noise := t }) (h4 : ∀ s p, P s → P { s with model := some p }) :
    Trip P (Sim.setupObs C data) (fun _ => P) E := by
  unfold Sim.setupObs
  split
  · refine (Trip.lift hE).bind fun _ => ?_
    refine (Trip.write (Q := P) fun s hs => h1 _ _ hs.2).bind fun _ => ?_
    refine (Trip.lift hE).bind fun _ => ?_
    exact Trip.write (Q := P) fun s hs => h2 _ _ hs.2
  · refine (Trip.view hE).bind fun _ => ?_
    refine ((Trip.view hE).weaken (fun s hs => hs.2) (fun _ _ h => h) (fun _ h => h)).bind fun _ => ?_
    refine ((Trip.view hE).weaken (fun s hs => hs.2) (fun _ _ h => h) (fun _ h => h)).bind fun _ => ?_
    refine ((Trip.onModel (Q := P) h4 (fun s hs _ => hE _ hs) hE).weaken (fun s hs => hs.2) (fun _ _ h => h)
      (fun _ h => h)).bind fun r => ?_
    obtain ⟨t, y, z⟩ := r
    refine (Trip.write (Q := P) fun s hs => h1 _ _ hs).bind fun _ => ?_
    refine (Trip.write (Q := P) fun s hs => h2 _ _ hs).bind fun _ => ?_
    exact Trip.write (Q := P) fun s hs => h3 _ _ hs

/-- The two prior parameters of a parameter dictionary can be multiplied with arrays of the dimension of any process. -/
def Spec.PriorFits (C : Classes M A F B L K Vg X) (params : Json) : Prop :=
  ∀ prior, params.item "Prior" = .ok prior →
    (∀ v p, prior.item "mu0" = .ok v → ∃ r, C.times_ones p (.given v) = .ok r)
    ∧ (∀ v p, prior.item "tau0" = .ok v → ∃ r, C.times_eye p (.given v) = .ok r)

/-- A failed `setup()` on an object without `s0`, with prior parameters that fit, has not got as far as `s0`. -/
theorem setup_fails (C : Classes M A F B L K Vg X) (params : Json) (data : Option (Data A)) (hfit : Spec.PriorFits C params) :
    Trip (fun w : MData M A => w.s0 = none) (Sim.setupBody C params data) (fun _ _ => True) (fun w => w.s0 = none) := by
  unfold Sim.setupBody
  have hid : ∀ (Q : Prop) (s : MData M A), Q ∧ s.s0 = none → s.s0 = none := fun _ _ h => h.2
  iterate 6
    refine (Trip.lift fun s hs => hs).bind fun _ => ?_
    refine (Trip.write (Q := fun w => w.s0 = none) fun s hs => hs.2).bind fun _ => ?_
  refine (Trip.lift fun s hs => hs).bind fun mu => ?_
  by_cases hmu : (do (← params.item "Prior").item "mu0") = (Except.ok mu : Py Json)
  swap
  · intro s hs; exact absurd hs.1 hmu
  refine (Trip.write (Q := fun w => w.s0 = none ∧ w.mu0 = some (.given mu)) fun s hs => ⟨hs.2, rfl⟩).bind fun _ => ?_
  refine (Trip.lift fun s hs => hs.1).bind fun tau => ?_
  by_cases htau : (do (← params.item "Prior").item "tau0") = (Except.ok tau : Py Json)
  swap
  · intro s hs; exact absurd hs.1 htau
  refine (Trip.write (Q := fun w => (w.s0 = none ∧ w.mu0 = some (.given mu)) ∧ w.tau0 = some (.given tau))
    fun s hs => ⟨hs.2, rfl⟩).bind fun _ => ?_
  set P : MData M A → Prop := fun w => (w.s0 = none ∧ w.mu0 = some (.given mu)) ∧ w.tau0 = some (.given tau) with hP
  have hE : ∀ s, P s → s.s0 = none := fun s hs => hs.1.1
  refine (Trip.view hE).bind fun _ => ?_
  refine ((Trip.view hE).weaken (fun s hs => hs.2) (fun _ _ h => h) (fun _ h => h)).bind fun _ => ?_
  refine ((Trip.view hE).weaken (fun s hs => hs.2) (fun _ _ h => h) (fun _ h => h)).bind fun _ => ?_
  refine ((Trip.lift hE).weaken (fun s hs => hs.2) (fun _ _ h => h) (fun _ h => h)).bind fun _ => ?_
  refine ((Trip.lift hE).weaken (fun s hs => hs.2) (fun _ _ h => h) (fun _ h => h)).bind fun _ => ?_
  refine (Trip.write (Q := P) fun s hs => hs.2).bind fun _ => ?_
  refine (Trip.write (P := P) (Q := P) (by exact fun s hs => hs)).bind fun _ => ?_
  refine (Trip.view hE).bind fun _ => ?_
  refine ((Trip.view hE).weaken (fun s hs => hs.2) (fun _ _ h => h) (fun _ h => h)).bind fun _ => ?_
  refine ((Trip.view hE).weaken (fun s hs => hs.2) (fun _ _ h => h) (fun _ h => h)).bind fun _ => ?_
  refine ((Trip.onModel (Q := P) (fun s p hs => hs) (fun s hs _ => hE _ hs) hE).weaken (fun s hs => hs.2) (fun _ _ h => h)
    (fun _ h => h)).bind fun _ => ?_
  refine (Trip.obs C data (P := P) hE (fun s t h => h) (fun s t h => h) (fun s t h => h) (fun s t h => h)).bind fun _ => ?_
  unfold Sim.setupMoments
  refine (Trip.view hE).bind fun one => ?_
  refine ((Trip.onModel (P := P) (Q := fun w => P w ∧ w.model.isSome) (fun s p hs => ⟨hs, rfl⟩) (fun s hs _ => hE _ hs)
    (fun s hs => hE _ hs.1)).weaken (fun s hs => hs.2) (fun _ _ h => h) (fun _ h => h)).bind fun _ => ?_
  refine (Trip.write (Q := fun w => P w ∧ w.model.isSome) (by exact fun s hs => hs)).bind fun _ => ?_
  refine (Trip.view fun s hs => hE _ hs.1).bind fun s0 => ?_
  obtain ⟨prior, hpr, hmu'⟩ : ∃ prior, params.item "Prior" = .ok prior ∧ prior.item "mu0" = .ok mu := by
    rcases hq : params.item "Prior" with e | prior
    · rw [hq] at hmu; cases hmu
    · rw [hq] at hmu; exact ⟨prior, rfl, hmu⟩
  have htau' : prior.item "tau0" = .ok tau := by rw [hpr] at htau; exact htau
  refine (Trip.write (Q := fun w => w.model.isSome ∧ w.mu0 = some (.given mu) ∧ w.tau0 = some (.given tau))
    fun s hs => ⟨hs.2.2, hs.2.1.1.2, hs.2.1.2⟩).bind fun _ => ?_
  split
  · exact Trip.pure fun _ _ => trivial
  · intro s hs
    obtain ⟨hm, h1, h2⟩ := hs
    obtain ⟨p, hp⟩ := Option.isSome_iff_exists.1 hm
    obtain ⟨r1, hr1⟩ := (hfit prior hpr).1 mu p hmu'
    obtain ⟨r2, hr2⟩ := (hfit prior hpr).2 tau p htau'
    refine ⟨fun _ _ _ => trivial, fun e s' h => ?_⟩
    exfalso
    simp only [bind, Sim.view, Sim.write, hp, h1, h2, need, Except.bind, hr1, hr2] at h
    cases h

/-- `run()` without `s0` raises. -/
theorem run_without_s0 (C : Classes M A F B L K Vg X) (s : Sim M A) (h : s.m_data.s0 = none) : (s.run C).1 ≠ .ok () := by
  intro hok
  obtain ⟨p, x, fx, g, a, b, hr, _⟩ := run_ok_output C s hok
  obtain ⟨_, _, _, _, _, _, _, _, _, _, _, _, _, _, _, _, s0, _, _, _, _, _, _, _, _, _, _, _, _, _, _, _, _, _, _, _, hs, _⟩ :=
    runBody_ok.1 hr
  rw [h] at hs
  cases hs

/-- C76, first part, as far as it holds: in every history in which no `setup()` has succeeded and the prior parameters
given fit the process, `run()` raises. Missing: histories with a `setup()` that fails when it multiplies the prior
parameters, see `C76_violated`. -/
theorem C76_run_needs_setup_partial (C : Classes M A F B L K Vg X) (canOpen : String → Py Unit) (name : Option String)
    (files : Files) (h : List (Spec.Op A × Py Unit)) (s : Sim M A × Files) (hist : Spec.History C canOpen name files h s)
    (hno : ∀ o ∈ h, ∀ params data, o.1 = .setup params data → o.2 ≠ .ok () ∧ Spec.PriorFits C params) :
    ∃ e, (s.1.run C).1 = .error e := by
  have key : s.1.m_data.s0 = none := by
    induction hist with
    | new => rfl
    | @call h s hist op ih =>
      have ih := ih fun o ho => hno o (List.mem_cons_of_mem _ ho)
      cases op with
      | setup params data =>
        obtain ⟨h1, h2⟩ := hno _ List.mem_cons_self params data rfl
        obtain ⟨_, hT⟩ := setup_fails C params data h2 s.1.m_data ih
        simp only [Spec.exec, Sim.setup] at h1 ⊢
        rcases hb : Sim.setupBody C params data s.1.m_data with ⟨e | u, w⟩
        · exact hT _ _ hb
        · rw [hb] at h1; exact absurd rfl h1
      | run =>
        simp only [Spec.exec, Sim.run]
        repeat' split
        all_goals exact ih
      | save =>
        simp only [Spec.exec, Sim.save]
        repeat' split
        all_goals exact ih
  rcases hr : (s.1.run C).1 with e | u
  · exact ⟨e, rfl⟩
  · exact absurd hr (run_without_s0 C s.1 key)

/-- A parameter dictionary. -/
noncomputable def Spec.params (model tau0 : Json) : Json :=
  .obj [("Model", model), ("Drift", .obj [("theta", .num 1)]), ("Noise", .obj [("sys", .num 1), ("obs", .num 1)]),
    ("Time-window", .obj [("t0", .num 0), ("tf", .num 1), ("dt", .num (1 / 10))]), ("Ode-method", .str "Euler"),
    ("Random-Seed", .num 1), ("Observations", .obj [("density", .num 1), ("operator", .null)]),
    ("Prior", .obj [("mu0", .num 1), ("tau0", tau0)])]

/-- Parts that accept everything, for a multivariate process, except that `None` cannot be multiplied with a matrix. -/
def Spec.lenient : Classes Unit Unit Unit Unit Unit Unit Unit Unit where
  create _ _ _ _ := .ok ()
  single_dim _ := false
  make_trajectory _ _ _ _ := (.ok (), ())
  collect_obs _ _ _ _ := (.ok ((), (), ()), ())
  first_mean _ := (.ok (), ())
  first_var _ := ()
  times_ones _ _ := .ok (.arr ())
  times_eye _ v := match v with
    | .given .null => .error .typeError
    | _ => .ok (.arr ())
  fwd_ode _ _ _ := .ok ()
  bwd_ode _ _ _ := .ok ()
  likelihood _ _ _ _ _ := .ok ()
  prior _ _ _ := .ok ()
  var_gp _ _ _ _ _ _ _ _ _ := .ok ()
  initialization _ := .ok ()
  optimize _ _ := (.ok ((), 0), ())
  unpack_a _ _ := .ok ⟨[], []⟩
  unpack_b _ _ := .ok ⟨[], []⟩
  arg_out _ := []

/-- C76 fails: the front end does not remember whether `setup()` went through. A first `setup()` that raises at the very
end (the prior variance is `null`), a second one that raises early (unknown model name) but has stored its
prior parameters by then, and `run()` goes ahead, although no `setup()` has succeeded. -/
theorem C76_violated (canOpen : String → Py Unit) (files : Files) :
    ∃ h s, Spec.History Spec.lenient canOpen none files h s
      ∧ (∀ o ∈ h, ∀ params data, o.1 = .setup params data → o.2 ≠ .ok ())
      ∧ (s.1.run Spec.lenient).1 = .ok () := by
  refine ⟨_, _, (Spec.History.new.call (.setup (Spec.params (.str "L63") .null) none)).call
    (.setup (Spec.params (.str "L64") (.num 1)) none), ?_, ?_⟩
  · intro o ho params data _
    simp only [List.mem_cons, List.not_mem_nil, or_false] at ho
    rcases ho with rfl | rfl
    · show (Except.error PyErr.valueError : Py Unit) ≠ .ok ()
      simp
    · show (Except.error PyErr.typeError : Py Unit) ≠ .ok ()
      simp
  · rfl

/-- The hypotheses of the C76 theorems: a setup with a fitting prior may fail, and the blocks split. -/
example (canOpen : String → Py Unit) (files : Files) : Spec.Splits Spec.lenient
    ∧ ∃ h s, Spec.History Spec.lenient canOpen none files h s ∧ h ≠ []
      ∧ ∀ o ∈ h, ∀ params data, o.1 = .setup params data → o.2 ≠ .ok () ∧ Spec.PriorFits Spec.lenient params := by
  refine ⟨fun m p x fx g a _ _ => ⟨_, rfl⟩, _, _, Spec.History.new.call (.setup (Spec.params (.str "L64") (.num 1)) none),
    by simp, ?_⟩
  intro o ho params data h
  simp only [List.mem_cons, List.not_mem_nil, or_false] at ho
  subst ho
  obtain ⟨rfl, rfl⟩ := Spec.Op.setup.inj h
  constructor
  · show (Except.error PyErr.valueError : Py Unit) ≠ .ok ()
    simp
  · intro prior hp
    cases hp
    refine ⟨fun v p _ => ⟨_, rfl⟩, fun v p hv => ?_⟩
    cases hv
    exact ⟨_, rfl⟩

/-! ## C77 -/

/-- C77 fails: on a new object, a successful `setup(params, data)` with user data is always followed by a `run()` that
raises, because the noise of the observations is never stored. This holds for all data and parameters. -/
theorem C77_violated (C : Classes M A F B L K Vg X) (name : Option String) (params : Json) (data : Data A) :
    ∃ e, ((((Sim.init name : Sim M A).setup C params (some data)).2).run C).1 = .error e := by
  have key : Trip (fun w : MData M A => w.obs_noise = none) (Sim.setupBody C params (some data)) (fun _ w => w.obs_noise = none)
      (fun w => w.obs_noise = none) := by
    set P : MData M A → Prop := fun w => w.obs_noise = none with hP
    have hE : ∀ s, P s → P s := fun s h => h
    have lf : ∀ {α : Type} (p : Py α), Trip P (ScgM.lift p) (fun _ => P) P := fun p =>
      (Trip.lift hE).weaken (fun _ h => h) (fun _ _ h => h.2) (fun _ h => h)
    have vw : ∀ {α : Type} (g : MData M A → Py α), Trip P (Sim.view g) (fun _ => P) P := fun p =>
      (Trip.view hE).weaken (fun _ h => h) (fun _ _ h => h.2) (fun _ h => h)
    have wr : ∀ (g : MData M A → MData M A), (∀ s, P s → P (g s)) → Trip P (Sim.write g) (fun _ => P) P := fun g h => Trip.write h
    have om : ∀ {α : Type} (meth : M → Py α × M), Trip P (Sim.onModel meth) (fun _ => P) P := fun meth =>
      Trip.onModel (fun s p h => h) (fun s h _ => h) hE
    unfold Sim.setupBody
    iterate 8
      refine (lf _).bind fun _ => ?_
      refine (wr _ (by exact fun s h => h)).bind fun _ => ?_
    iterate 3 refine (vw _).bind fun _ => ?_
    iterate 2 refine (lf _).bind fun _ => ?_
    iterate 2 refine (wr _ (by exact fun s h => h)).bind fun _ => ?_
    iterate 3 refine (vw _).bind fun _ => ?_
    refine (om _).bind fun _ => ?_
    refine Trip.bind (Q := fun _ => P) ?_ fun _ => ?_
    · unfold Sim.setupObs
      refine (lf _).bind fun _ => ?_
      refine (wr _ (by exact fun s h => h)).bind fun _ => ?_
      refine (lf _).bind fun _ => ?_
      exact wr _ (by exact fun s h => h)
    · unfold Sim.setupMoments
      refine (vw _).bind fun _ => ?_
      refine (om _).bind fun _ => ?_
      refine (wr _ (by exact fun s h => h)).bind fun _ => ?_
      refine (vw _).bind fun _ => ?_
      refine (wr _ (by exact fun s h => h)).bind fun _ => ?_
      split
      · exact Trip.pure fun _ h => h
      · refine (vw _).bind fun _ => ?_
        refine (wr _ (by exact fun s h => h)).bind fun _ => ?_
        refine (vw _).bind fun _ => ?_
        exact wr _ (by exact fun s h => h)
  have hn : (((Sim.init name : Sim M A).setup C params (some data)).2).m_data.obs_noise = none := by
    obtain ⟨h1, h2⟩ := key (Sim.init name : Sim M A).m_data rfl
    simp only [Sim.setup]
    rcases hb : Sim.setupBody C params (some data) (Sim.init name : Sim M A).m_data with ⟨e | u, w⟩
    · exact h2 _ _ hb
    · exact h1 _ _ hb
  rcases hr : ((((Sim.init name : Sim M A).setup C params (some data)).2).run C).1 with e | u
  · exact ⟨e, rfl⟩
  · exfalso
    obtain ⟨p, x, fx, g, a, b, hr, _⟩ := run_ok_output C _ hr
    obtain ⟨_, _, _, _, _, _, _, _, _, _, _, _, _, _, _, _, _, _, _, _, _, _, _, _, _, _, _, h, _⟩ := runBody_ok.1 hr
    rw [hn] at h
    cases h

/-- C77 fails for the command line: a table with named columns, as `pandas.read_csv` returns it, makes `setup()` raise,
on every object. -/
theorem C77_table_violated (C : Classes M A F B L K Vg X) (s : Sim M A) (params : Json) (cols : Dict A) :
    ∃ e, (s.setup C params (some (.frame cols))).1 = .error e := by
  have any : ∀ {α : Type} (m : Sim.Step M A α), Trip (fun _ => True) m (fun _ _ => True) (fun _ => True) :=
    fun m s _ => ⟨fun _ _ _ => trivial, fun _ _ _ => trivial⟩
  have key : Trip (fun _ => True) (Sim.setupBody C params (some (.frame cols))) (fun _ _ => False) (fun _ => True) := by
    unfold Sim.setupBody
    iterate 27 refine (any _).bind fun _ => ?_
    refine Trip.bind (Q := fun _ _ => False) ?_ fun _ s hs => hs.elim
    unfold Sim.setupObs
    refine (Trip.lift fun _ _ => trivial).bind fun t s hs => ?_
    cases hs.1
  obtain ⟨h1, _⟩ := key s.m_data trivial
  simp only [Sim.setup]
  rcases hb : Sim.setupBody C params (some (.frame cols)) s.m_data with ⟨e | u, w⟩
  · exact ⟨e, rfl⟩
  · exact (h1 _ _ hb).elim

/-- C77, the part that holds: if `setup()` with user data succeeds and the following `run()` succeeds too, then the
likelihood and the variational object of that run were built from the user's times and values. Missing: `run()` gets
through only when an earlier `setup()` without data has left a noise level behind, which is then used for the
user's data, see `C77_violated`. -/
theorem C77_used_partial (C : Classes M A F B L K Vg X) (s : Sim M A) (params : Json) (t y : A) (rest : List A)
    (hs : (s.setup C params (some (.seq (t :: y :: rest)))).1 = .ok ())
    (hr : (((s.setup C params (some (.seq (t :: y :: rest)))).2).run C).1 = .ok ()) :
    ∃ r op one lik p m0 s0 f b k g x0 q g', s.m_data.obs_noise = some r ∧ C.likelihood y t r op one = .ok lik
      ∧ C.var_gp p m0 s0 f b lik k y t = .ok g ∧ C.initialization g = .ok x0 ∧ C.optimize g x0 = (.ok q, g') := by
  have key : ∀ n, Trip (fun w : MData M A => w.obs_noise = n) (Sim.setupBody C params (some (.seq (t :: y :: rest))))
      (fun _ w => (w.obs_noise = n ∧ w.obs_t = some t) ∧ w.obs_y = some y) (fun _ => True) := by
    intro n
    have lf : ∀ {α : Type} (P : MData M A → Prop) (p : Py α), Trip P (ScgM.lift p) (fun _ => P) (fun _ => True) := fun P p =>
      (Trip.lift fun _ _ => trivial).weaken (fun _ h => h) (fun _ _ h => h.2) (fun _ h => h)
    have vw : ∀ {α : Type} (P : MData M A → Prop) (g : MData M A → Py α), Trip P (Sim.view g) (fun _ => P) (fun _ => True) :=
      fun P p => (Trip.view fun _ _ => trivial).weaken (fun _ h => h) (fun _ _ h => h.2) (fun _ h => h)
    have wr : ∀ (P : MData M A → Prop) (g : MData M A → MData M A), (∀ s, P s → P (g s)) →
        Trip P (Sim.write g) (fun _ => P) (fun _ => True) := fun P g h => Trip.write h
    have om : ∀ {α : Type} (P : MData M A → Prop) (meth : M → Py α × M), (∀ s p, P s → P { s with model := some p }) →
        Trip P (Sim.onModel meth) (fun _ => P) (fun _ => True) := fun P meth h =>
      Trip.onModel h (fun _ _ _ => trivial) fun _ _ => trivial
    unfold Sim.setupBody
    iterate 8
      refine (lf _ _).bind fun _ => ?_
      refine (wr _ _ (by exact fun s h => h)).bind fun _ => ?_
    iterate 3 refine (vw _ _).bind fun _ => ?_
    iterate 2 refine (lf _ _).bind fun _ => ?_
    iterate 2 refine (wr _ _ (by exact fun s h => h)).bind fun _ => ?_
    iterate 3 refine (vw _ _).bind fun _ => ?_
    refine (om _ _ (by exact fun s p h => h)).bind fun _ => ?_
    refine Trip.bind (Q := fun _ w => (w.obs_noise = n ∧ w.obs_t = some t) ∧ w.obs_y = some y) ?_ fun _ => ?_
    · unfold Sim.setupObs
      refine (Trip.lift fun _ _ => trivial).bind fun t' => ?_
      refine (Trip.write (Q := fun w => w.obs_noise = n ∧ w.obs_t = some t) fun s hs => ?_).bind fun _ => ?_
      · obtain ⟨h1, h2⟩ := hs
        cases h1
        exact ⟨h2, rfl⟩
      refine (Trip.lift fun _ _ => trivial).bind fun y' => ?_
      refine Trip.write fun s hs => ?_
      obtain ⟨h1, h2⟩ := hs
      cases h1
      exact ⟨h2, rfl⟩
    · unfold Sim.setupMoments
      refine (vw _ _).bind fun _ => ?_
      refine (om _ _ (by exact fun s p h => h)).bind fun _ => ?_
      refine (wr _ _ (by exact fun s h => h)).bind fun _ => ?_
      refine (vw _ _).bind fun _ => ?_
      refine (wr _ _ (by exact fun s h => h)).bind fun _ => ?_
      split
      · exact Trip.pure fun _ h => h
      · refine (vw _ _).bind fun _ => ?_
        refine (wr _ _ (by exact fun s h => h)).bind fun _ => ?_
        refine (vw _ _).bind fun _ => ?_
        exact wr _ _ (by exact fun s h => h)
  obtain ⟨h1, _⟩ := key s.m_data.obs_noise s.m_data rfl
  obtain ⟨p, x, fx, g, a, b, hb, _⟩ := run_ok_output C _ hr
  simp only [Sim.setup] at hs hb
  rcases hq : Sim.setupBody C params (some (.seq (t :: y :: rest))) s.m_data with ⟨e | u, w⟩
  · rw [hq] at hs; cases hs
  · obtain ⟨⟨k1, k2⟩, k3⟩ := h1 _ _ hq
    rw [hq] at hb
    simp only at hb
    obtain ⟨tw, dt, ode, one, f, b, y', t', r, os, op, lik, mu0, tau0, k, m0, s0, g0, x0, _, _, _, _, _, _, hy, ht, hn, _, _, hl,
      _, _, _, _, _, _, hg, hx, ho⟩ := runBody_ok.1 hb
    rw [k3] at hy
    rw [k2] at ht
    rw [k1] at hn
    cases hy
    cases ht
    exact ⟨r, op, one, lik, p, m0, s0, f, b, k, g0, x0, (x, fx), g, hn, hl, hg, hx, ho⟩

/-- A simulation in the situation of `C77_used_partial`: a first `setup()` without data, then one with data. -/
example : ∃ s : Sim Unit Unit, (s.setup Spec.lenient (Spec.params (.str "L63") (.num 1)) (some (.seq [(), ()]))).1 = .ok ()
    ∧ (((s.setup Spec.lenient (Spec.params (.str "L63") (.num 1)) (some (.seq [(), ()]))).2).run Spec.lenient).1 = .ok () :=
  ⟨((Sim.init none).setup Spec.lenient (Spec.params (.str "L63") (.num 1)) none).2, rfl, rfl⟩

end VGPA
