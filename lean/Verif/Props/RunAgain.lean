import Verif.Props.Shapes
import Verif.Props.RunTotal

/-!
# C156: `run()` and `save()` can be repeated
-/

namespace VGPA

noncomputable section

variable {G : Type}

/-- The state `s'` is reached from `s` by calls of `run()` and `save()`, in any order and any number, whether they succeed or raise. -/
inductive Spec.Later (E : Env G) (canOpen : String → Py Unit) (s : Sim (AnyProc G) Arr × Files) : Sim (AnyProc G) Arr × Files → Prop
  | here : Spec.Later E canOpen s s
  | run {s'} (h : Spec.Later E canOpen s s') (g : G) : Spec.Later E canOpen s (Spec.exec (pyClasses (E.withEntropy g)) canOpen .run s').2
  | save {s'} (h : Spec.Later E canOpen s s') (g : G) : Spec.Later E canOpen s (Spec.exec (pyClasses (E.withEntropy g)) canOpen .save s').2

theorem later_history {E : Env G} {canOpen : String → Py Unit} {name : Option String} {files : Files} {h : List (Spec.Op Arr × Py Unit)}
    {s s' : Sim (AnyProc G) Arr × Files} (hist : Spec.PyHistory E canOpen name files h s) (hl : Spec.Later E canOpen s s') :
    ∃ h', Spec.PyHistory E canOpen name files h' s' := by
  induction hl with
  | here => exact ⟨h, hist⟩
  | run _ g ih => obtain ⟨h', ih⟩ := ih; exact ⟨_, ih.call .run g⟩
  | save _ g ih => obtain ⟨h', ih⟩ := ih; exact ⟨_, ih.call .save g⟩

theorem run_keeps_data {M A F B L K Vg X : Type} (C : Classes M A F B L K Vg X) (s : Sim M A) : (s.run C).2.m_data = s.m_data ∧ (s.run C).2.name = s.name := by
  unfold Sim.run
  rcases Sim.runBody C s.m_data with e | ⟨p, x, fx, v⟩
  · exact ⟨rfl, rfl⟩
  · simp only
    rcases C.unpack_a p x with e | a
    · exact ⟨rfl, rfl⟩
    · simp only
      rcases C.unpack_b p x with e | b <;> exact ⟨rfl, rfl⟩

theorem save_keeps_data {M A : Type} (canOpen : String → Py Unit) (s : Sim M A) (files : Files) :
    (s.save canOpen files).2.1.m_data = s.m_data ∧ (s.save canOpen files).2.1.name = s.name := by
  unfold Sim.save
  split
  · exact ⟨rfl, rfl⟩
  · simp only
    split <;> exact ⟨rfl, rfl⟩

theorem later_data {E : Env G} {canOpen : String → Py Unit} {s s' : Sim (AnyProc G) Arr × Files} (hl : Spec.Later E canOpen s s') :
    s'.1.m_data = s.1.m_data ∧ s'.1.name = s.1.name := by
  induction hl with
  | here => exact ⟨rfl, rfl⟩
  | run _ g ih => exact ⟨(run_keeps_data _ _).1.trans ih.1, (run_keeps_data _ _).2.trans ih.2⟩
  | save _ g ih => exact ⟨(save_keeps_data _ _ _).1.trans ih.1, (save_keeps_data _ _ _).2.trans ih.2⟩

theorem save_keys {M A : Type} (canOpen : String → Py Unit) (s : Sim M A) (files : Files) : (s.save canOpen files).2.1.output.map Prod.fst = s.output.map Prod.fst := by
  have keys : ∀ l done f, ((Sim.saveLoop l done f).2.1).map Prod.fst = done.map Prod.fst ++ l.map Prod.fst := by
    intro l
    induction l with
    | nil => intro done f; simp [Sim.saveLoop]
    | cons p l ih =>
      intro done f
      obtain ⟨k, v⟩ := p
      unfold Sim.saveLoop
      simp only
      split
      · simp
      · rw [ih]; simp
  unfold Sim.save
  split
  · rfl
  · simp only
    split
    · rfl
    · simpa using keys s.output [] []

theorem history_distinct {E : Env G} {canOpen : String → Py Unit} {name : Option String} {files : Files} {h : List (Spec.Op Arr × Py Unit)}
    {s : Sim (AnyProc G) Arr × Files} (hist : Spec.PyHistory E canOpen name files h s) : Spec.DistinctKeys s.1.output := by
  induction hist with
  | new => exact List.nodup_nil
  | @call h s hist op g ih =>
    generalize E.withEntropy g = E'
    cases op with
    | setup params data => exact ih
    | run =>
      show Spec.DistinctKeys (s.1.run (pyClasses E')).2.output
      rcases hr : (s.1.run (pyClasses E')).1 with e | u
      · rw [C76_failed_run_keeps_output_py E' s.1 e hr]; exact ih
      · obtain ⟨p, x, fx, g, a, b, -, -, -, hout⟩ := run_ok_output (pyClasses E') s.1 hr
        rw [hout]
        exact Dict.distinct_update (Dict.distinct_put (Dict.distinct_put (Dict.distinct_put ih _ _) _ _) _ _) _
    | save =>
      show ((s.1.save canOpen s.2).2.1.output.map Prod.fst).Nodup
      rw [save_keys]
      exact ih

/-- Two simulations that were set up alike: the same outcome of `run()`, and the same results. -/
theorem run_same {E : Env G} {s s' : Sim (AnyProc G) Arr} (hd : s'.m_data = s.m_data)
    (hk : ∀ k, s.output.lookup k ≠ none → k ∈ "at" :: "bt" :: "fx" :: Spec.momentNames) (hk' : ∀ k, s'.output.lookup k ≠ none → k ∈ "at" :: "bt" :: "fx" :: Spec.momentNames) :
    (s'.run (pyClasses E)).1 = (s.run (pyClasses E)).1
    ∧ ((s.run (pyClasses E)).1 = .ok () → ∀ k, (s'.run (pyClasses E)).2.output.lookup k = (s.run (pyClasses E)).2.output.lookup k) := by
  have h1 : (s'.run (pyClasses E)).1 = (s.run (pyClasses E)).1 := by
    unfold Sim.run
    rw [hd]
    rcases Sim.runBody (pyClasses E) s.m_data with e | ⟨p, x, fx, v⟩
    · rfl
    · simp only
      rcases (pyClasses E).unpack_a p x with e | a
      · rfl
      · simp only
        rcases (pyClasses E).unpack_b p x with e | b <;> rfl
  refine ⟨h1, fun hok k => ?_⟩
  obtain ⟨p, x, fx, v, a, b, e1, e2, e3, e4⟩ := run_ok_output (pyClasses E) s hok
  obtain ⟨p', x', fx', v', a', b', f1, f2, f3, f4⟩ := run_ok_output (pyClasses E) s' (h1.trans hok)
  rw [hd, e1] at f1
  injection f1 with f1
  simp only [Prod.mk.injEq] at f1
  obtain ⟨rfl, rfl, rfl, rfl⟩ := f1
  rw [e2] at f2
  rw [e3] at f3
  cases f2
  cases f3
  rw [e4, f4]
  obtain ⟨w, x0, hbu, ho⟩ := runBody_builds.1 e1
  obtain ⟨_, q1, _, q4⟩ := optimize_ok ho
  have hkeys : v.argOut.map Prod.fst = Spec.momentNames := by
    rcases q4 with rfl | ⟨_, y, Fy, hy, _⟩
    · exact argOut_fe (Prod.ext q1 rfl)
    · exact argOut_fe hy
  show ((((s'.output.put "at" (.array a)).put "bt" (.array b)).put "fx" (.scalar fx)).update v.argOut).lookup k
    = ((((s.output.put "at" (.array a)).put "bt" (.array b)).put "fx" (.scalar fx)).update v.argOut).lookup k
  rw [lookup_update _ _ (argOut_distinct v), lookup_update _ _ (argOut_distinct v)]
  rcases hg : v.argOut.lookup k with _ | z
  · have hm : k ∉ Spec.momentNames := by rw [← hkeys]; exact lookup_none_iff_keys.1 hg
    simp only [Option.none_or, lookup_put]
    by_cases k1 : k = "fx"
    · simp [k1]
    by_cases k2 : k = "bt"
    · simp [k2]
    by_cases k3 : k = "at"
    · simp [k3]
    have hno : k ∉ "at" :: "bt" :: "fx" :: Spec.momentNames := by simp [k1, k2, k3, hm]
    have n1 : s.output.lookup k = none := by by_contra h; exact hno (hk k h)
    have n2 : s'.output.lookup k = none := by by_contra h; exact hno (hk' k h)
    simp [k1, k2, k3, n1, n2]
  · rfl

/-- C156: after any history of calls on a simulation, and after any further calls of `run()` and `save()`, a call of `run()` has the same outcome as it would have had before those, and when it succeeds, every entry of the output is the same. -/
theorem C156_run_again (E : Env G) (canOpen : String → Py Unit) (name : Option String) (files : Files) (h : List (Spec.Op Arr × Py Unit))
    (s s' : Sim (AnyProc G) Arr × Files) (hist : Spec.PyHistory E canOpen name files h s) (hl : Spec.Later E canOpen s s') :
    (s'.1.run (pyClasses E)).1 = (s.1.run (pyClasses E)).1
    ∧ ((s.1.run (pyClasses E)).1 = .ok () → ∀ key, (s'.1.run (pyClasses E)).2.output.lookup key = (s.1.run (pyClasses E)).2.output.lookup key) := by
  obtain ⟨h', hist'⟩ := later_history hist hl
  exact run_same (later_data hl).1 (history_keys hist) (history_keys hist')

theorem run_ok_nonempty {E : Env G} {s : Sim (AnyProc G) Arr} (h : (s.run (pyClasses E)).1 = .ok ()) : (s.run (pyClasses E)).2.output ≠ [] := by
  obtain ⟨p, x, fx, v, a, b, e1, e2, e3, e4⟩ := run_ok_output (pyClasses E) s h
  intro hn
  have hl : (s.run (pyClasses E)).2.output.lookup "at" ≠ none := by
    rw [e4]
    show ((((s.output.put "at" (.array a)).put "bt" (.array b)).put "fx" (.scalar fx)).update v.argOut).lookup "at" ≠ none
    rw [lookup_update _ _ (argOut_distinct v)]
    rcases v.argOut.lookup "at" with _ | z <;> simp [lookup_put]
  rw [hn] at hl
  exact hl rfl

/-- C156, the file: if that run succeeds and the file can be opened, saving after it writes a file that loads, with the same entries as the file saved after the first run. -/
theorem C156_save_again (E : Env G) (canOpen : String → Py Unit) (name : Option String) (files : Files) (h : List (Spec.Op Arr × Py Unit))
    (s s' : Sim (AnyProc G) Arr × Files) (hist : Spec.PyHistory E canOpen name files h s) (hl : Spec.Later E canOpen s s')
    (hok : (s.1.run (pyClasses E)).1 = .ok ()) (ho : canOpen (Sim.fileName s.1.name) = .ok ()) :
    ∃ d d', load ((s.1.run (pyClasses E)).2.save canOpen s.2).2.2 (some (Sim.fileName s.1.name)) = .ok d
      ∧ load ((s'.1.run (pyClasses E)).2.save canOpen s'.2).2.2 (some (Sim.fileName s.1.name)) = .ok d'
      ∧ d ≠ [] ∧ ∀ key, d'.lookup key = d.lookup key := by
  obtain ⟨h', hist'⟩ := later_history hist hl
  obtain ⟨r1, r2⟩ := C156_run_again E canOpen name files h s s' hist hl
  have hname : (s.1.run (pyClasses E)).2.name = s.1.name := (run_keeps_data _ _).2
  have hname' : (s'.1.run (pyClasses E)).2.name = s.1.name := (run_keeps_data _ _).2.trans (later_data hl).2
  have d1 : Spec.DistinctKeys (s.1.run (pyClasses E)).2.output := by
    have := history_distinct (hist.call .run E.entropy)
    exact this
  have d2 : Spec.DistinctKeys (s'.1.run (pyClasses E)).2.output := by
    have := history_distinct (hist'.call .run E.entropy)
    exact this
  obtain ⟨t, fs, d, g1, g2, -, g4, -⟩ := C78_round_trip (s.1.run (pyClasses E)).2 canOpen s.2 (run_ok_nonempty hok) d1 (by rw [hname]; exact ho)
  obtain ⟨t', fs', d', g1', g2', -, g4', -⟩ := C78_round_trip (s'.1.run (pyClasses E)).2 canOpen s'.2 (run_ok_nonempty (r1.trans hok)) d2 (by rw [hname']; exact ho)
  rw [hname] at g2
  rw [hname'] at g2'
  refine ⟨d, d', by rw [g1]; exact g2, by rw [g1']; exact g2', ?_, fun key => ?_⟩
  · rintro rfl
    refine run_ok_nonempty hok ?_
    rcases ho' : (s.1.run (pyClasses E)).2.output with _ | ⟨⟨k, v⟩, l⟩
    · rfl
    · have := g4 k
      rw [ho'] at this
      simp [List.lookup] at this
  · have a1 := g4 key
    have a2 := g4' key
    rw [r2 hok key] at a2
    generalize (s.1.run (pyClasses E)).2.output.lookup key = o at a1 a2
    generalize d.lookup key = x at a1 ⊢
    generalize d'.lookup key = y at a2 ⊢
    rcases o with _ | v <;> rcases x with _ | x <;> rcases y with _ | y <;> first | rfl | exact absurd a1 id | exact absurd a2 id | skip
    · cases v with
      | scalar c =>
        obtain ⟨x1, x2⟩ := x
        obtain ⟨y1, y2⟩ := y
        obtain ⟨rfl, rfl⟩ := a1
        obtain ⟨rfl, rfl⟩ := a2
        rfl
      | array b =>
        have a1 : x = b := a1
        have a2 : y = b := a2
        rw [a1, a2]

-- A double well is set up, run, saved and run again: the runs succeed and have the same results.
example (E : Env G) (files : Files) :
    let s := (Spec.exec (pyClasses E) (fun _ => .ok ()) (.setup (Spec.exampleParams "DW") none) (Sim.init none, files)).2
    let s' := (Spec.exec (pyClasses E) (fun _ => .ok ()) .save (Spec.exec (pyClasses E) (fun _ => .ok ()) .run s).2).2
    (s'.1.run (pyClasses E)).1 = .ok () ∧ ∀ key, (s'.1.run (pyClasses E)).2.output.lookup key = (s.1.run (pyClasses E)).2.output.lookup key := by
  intro s s'
  have hist : Spec.PyHistory E (fun _ => .ok ()) none files _ s := Spec.PyHistory.new.call (.setup (Spec.exampleParams "DW") none) E.entropy
  have hl : Spec.Later E (fun _ => .ok ()) s s' := (Spec.Later.here.run E.entropy).save E.entropy
  have hok : (s.1.run (pyClasses E)).1 = .ok () := (C87_setup_and_run E _ _ (example_in "DW") 1000 (example_valid "DW" (.inl rfl)) (Sim.init none)).2
  obtain ⟨r1, r2⟩ := C156_run_again E _ none files _ s s' hist hl
  exact ⟨r1.trans hok, r2 hok⟩

end

end VGPA
