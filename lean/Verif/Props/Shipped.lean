import Verif.Props.RunTotal
import Verif.Props.Main
import Verif.Props.LorenzNoise

/-!
# C88: the command line program on valid parameter files, and on the three files that come with the code
-/

namespace VGPA

noncomputable section

variable {G : Type}

theorem item_lookup {kv : List (String × Json)} {k : String} {v : Json} (h : (Json.obj kv).item k = .ok v) :
    kv.lookup k = some v := by
  unfold Json.item at h
  simp only at h
  split at h
  · rename_i w hw; cases h; exact hw
  · cases h

/-- A history gives a history with the states of the operating system. -/
theorem pyHistory {E : Env G} {canOpen : String → Py Unit} {name : Option String} {files : Files}
    {h : List (Spec.Op Arr × Py Unit)} {s : Sim (AnyProc G) Arr × Files} (hist : Spec.History (pyClasses E) canOpen name files h s) :
    Spec.PyHistory E canOpen name files h s := by
  induction hist with
  | new => exact .new
  | call hist op ih => exact ih.call op E.entropy

/-- What a file made by the program contains: the eleven names with arrays of these shapes. -/
def Spec.fileShapes (n : ℕ) : List (String × List ℕ) :=
  [("at", [n]), ("bt", [n]), ("fx", [1]), ("m0", [1]), ("s0", [1]), ("mt", [n]), ("st", [n]), ("Efx", [n]), ("Edf", [n]), ("lamt", [n]),
    ("psit", [n])]

/-- A parameter file with all the required names, for which `setup` and `run` of a new simulation complete with the output shapes `sh` (nothing for a
number): the program ends with status 0 and the output file can be loaded and holds arrays of these shapes. -/
theorem command_line_ok (E : Env G) (O : Outside Arr) (order : List String) (ho : order.Perm requiredKeys) (pf name : String)
    (kv : List (String × Json)) (hr : O.readJson pf = .ok (.obj kv)) (hname : kv.lookup "Output_Name" = some (.str name))
    (hne : name ≠ "") (hreq : ∀ k ∈ Spec.required, kv.lookup k ≠ none) (files : Files)
    (e1 : ((Sim.init (some name) : Sim (AnyProc G) Arr).setup (pyClasses E) (.obj kv) none).1 = .ok ())
    (e2 : ((((Sim.init (some name) : Sim (AnyProc G) Arr).setup (pyClasses E) (.obj kv) none).2).run (pyClasses E)).1 = .ok ())
    (sh : List (String × Option (List ℕ)))
    (hshape : ∀ e ∈ sh, ∃ z, ((((Sim.init (some name) : Sim (AnyProc G) Arr).setup (pyClasses E) (.obj kv) none).2).run
      (pyClasses E)).2.output.lookup e.1 = some z ∧ Spec.HasShape e.2 z)
    (hopen : O.canOpen (Sim.fileName name) = .ok ()) :
    ∃ files' d, main (pyClasses E) O order (some pf) none files = (.returns, files')
      ∧ exitStatus (main (pyClasses E) O order (some pf) none files).1 = 0
      ∧ load files' (some (Sim.fileName name)) = .ok d
      ∧ ∀ e ∈ sh, ∃ a, d.lookup e.1 = some a ∧ a.shape = e.2.getD [1] := by
  have hval : validate O order pf = .params (.obj kv) := by
    rcases C80_validation O order ho pf kv hr with ⟨_, h⟩ | ⟨k, hk, hno, _⟩
    · exact h
    · exact absurd hno (hreq k hk)
  have hitem : (Json.obj kv).item "Output_Name" = .ok (.str name) := by
    simp only [Json.item, hname]
  let s0 : Sim (AnyProc G) Arr := Sim.init (some name)
  have hs0 : s0.name = name := by simp [s0, Sim.init, hne]
  change (s0.setup (pyClasses E) (.obj kv) none).1 = _ at e1
  change ((s0.setup (pyClasses E) (.obj kv) none).2.run (pyClasses E)).1 = _ at e2
  change ∀ e ∈ sh, ∃ z, ((s0.setup (pyClasses E) (.obj kv) none).2.run (pyClasses E)).2.output.lookup e.1 = some z ∧ _ at hshape
  have hist0 : Spec.History (pyClasses E) O.canOpen (some name) files [] (s0, files) := .new
  have hist1 := hist0.call (.setup (.obj kv) none)
  have hist2 := hist1.call .run
  rcases hsu : s0.setup (pyClasses E) (.obj kv) none with ⟨r1, s1⟩
  rw [hsu] at e1 e2 hshape
  rcases hru : s1.run (pyClasses E) with ⟨r2, s2⟩
  simp only at e1 e2 hshape
  rw [hru] at e2 hshape
  simp only at e2 hshape
  subst e1 e2
  have hn1 : s1.name = name := by
    have := congrArg (fun r => r.2.name) hsu
    rw [← hs0]; exact this.symm
  have hn2 : s2.name = name := by
    have h : (s1.run (pyClasses E)).2.name = s1.name := by
      unfold Sim.run
      repeat' split
      all_goals rfl
    rw [hru] at h
    rw [← hn1]; exact h
  have hst : (Spec.exec (pyClasses E) O.canOpen .run (Spec.exec (pyClasses E) O.canOpen (.setup (.obj kv) none) (s0, files)).2)
      = (.ok (), s2, files) := by
    simp only [Spec.exec, hsu, hru]
  rw [hst] at hist2
  obtain ⟨s3, files', d, hsv, hl, hd, hsame⟩ := C78_after_run (pyClasses E) O.canOpen (some name) files _ _ hist2
    ⟨_, List.mem_cons_self, rfl, rfl⟩ (by rw [hn2]; exact hopen)
  have hmain : main (pyClasses E) O order (some pf) none files = (.returns, files') := by
    unfold main mainTry
    simp only [hval, hitem, outputName]
    have : (Sim.init (some name) : Sim (AnyProc G) Arr) = s0 := rfl
    simp only [this, hsu, hru]
    simp only at hsv
    rw [hsv]
  refine ⟨files', d, hmain, by rw [hmain]; rfl, by rw [← hn2]; exact hl, ?_⟩
  have key : ∀ (k : String) (sh : Option (List ℕ)) (z : Val), s2.output.lookup k = some z → Spec.HasShape sh z →
      ∃ a, d.lookup k = some a ∧ a.shape = sh.getD [1] := by
    intro k sh z hz hzs
    have hk := hsame k
    simp only [hz] at hk
    rcases hdk : d.lookup k with _ | a
    · rw [hdk] at hk; exact hk.elim
    · rw [hdk] at hk
      refine ⟨a, rfl, ?_⟩
      cases z with
      | scalar x =>
        cases sh with
        | none => exact hk.1
        | some sh => exact hzs.elim
      | array b =>
        cases sh with
        | none => exact hzs.elim
        | some sh => simp only [Spec.Stored] at hk; rw [hk]; exact hzs.1
  exact fun p hp => (hshape p hp).elim fun z hz => key p.1 p.2 z hz.1 hz.2

/-- C88 for every valid one dimensional parameter file: when the output file can be opened, the program ends with status 0, and the
output file can be loaded and holds the eleven documented arrays. -/
theorem C88_command_line_1d (E : Env G) (O : Outside Arr) (order : List String) (ho : order.Perm requiredKeys) (pf name : String)
    (kv : List (String × Json)) (hr : O.readJson pf = .ok (.obj kv)) (hname : kv.lookup "Output_Name" = some (.str name))
    (hne : name ≠ "") (c : Spec.Config1) (hin : c.In (.obj kv)) (N : ℕ) (hv : c.Valid N)
    (hopen : O.canOpen (Sim.fileName name) = .ok ()) (files : Files) :
    ∃ files' d, main (pyClasses E) O order (some pf) none files = (.returns, files')
      ∧ exitStatus (main (pyClasses E) O order (some pf) none files).1 = 0
      ∧ load files' (some (Sim.fileName name)) = .ok d
      ∧ ∀ e ∈ Spec.fileShapes (N + 1), ∃ a, d.lookup e.1 = some a ∧ a.shape = e.2 := by
  have hreq : ∀ k ∈ Spec.required, kv.lookup k ≠ none := by
    intro k hk hno
    obtain ⟨h1, ⟨_, h2, _⟩, ⟨_, h3, _⟩, ⟨_, h4, _⟩, h5, h6, ⟨_, h7, _⟩, _, h8, _⟩ := hin
    simp only [Spec.required, List.mem_cons, List.not_mem_nil, or_false] at hk
    rcases hk with rfl | rfl | rfl | rfl | rfl | rfl | rfl | rfl | rfl <;>
      first
      | (rw [hname] at hno; cases hno)
      | (rw [item_lookup h1] at hno; cases hno)
      | (rw [item_lookup h2] at hno; cases hno)
      | (rw [item_lookup h3] at hno; cases hno)
      | (rw [item_lookup h4] at hno; cases hno)
      | (rw [item_lookup h5] at hno; cases hno)
      | (rw [item_lookup h6] at hno; cases hno)
      | (rw [item_lookup h7] at hno; cases hno)
      | (rw [item_lookup h8] at hno; cases hno)
  have hist0 : Spec.History (pyClasses E) O.canOpen (some name) files [] (Sim.init (some name), files) := .new
  obtain ⟨e1, e2⟩ := C87_setup_and_run E c (.obj kv) hin N hv (Sim.init (some name))
  have hshape := C87_output E O.canOpen (some name) files _ _ (pyHistory hist0) c (.obj kv) hin N hv
  obtain ⟨files', d, h1, h2, h3, h4⟩ := command_line_ok E O order ho pf name kv hr hname hne hreq files e1 e2 _ hshape hopen
  refine ⟨files', d, h1, h2, h3, fun e he => ?_⟩
  simp only [Spec.fileShapes, List.mem_cons, List.not_mem_nil, or_false] at he
  simp only [List.mem_cons, List.not_mem_nil, or_false] at h4
  rcases he with rfl | rfl | rfl | rfl | rfl | rfl | rfl | rfl | rfl | rfl | rfl
  · exact h4 ("at", some [N + 1]) (by simp)
  · exact h4 ("bt", some [N + 1]) (by simp)
  · exact h4 ("fx", none) (by simp)
  · exact h4 ("m0", none) (by simp)
  · exact h4 ("s0", none) (by simp)
  · exact h4 ("mt", some [N + 1]) (by simp)
  · exact h4 ("st", some [N + 1]) (by simp)
  · exact h4 ("Efx", some [N + 1]) (by simp)
  · exact h4 ("Edf", some [N + 1]) (by simp)
  · exact h4 ("lamt", some [N + 1]) (by simp)
  · exact h4 ("psit", some [N + 1]) (by simp)

/-- C88 for `/repo/sim_params_DW.json`: the program ends with status 0 and the file `Sim_DW.h5` has the results on 1001 points. -/
theorem C88_double_well_file (E : Env G) (O : Outside Arr) (order : List String) (ho : order.Perm requiredKeys) (pf : String)
    (hr : O.readJson pf = .ok (Spec.exampleParams "DW")) (hopen : O.canOpen "Sim_DW.h5" = .ok ()) (files : Files) :
    ∃ files' d, main (pyClasses E) O order (some pf) none files = (.returns, files')
      ∧ exitStatus (main (pyClasses E) O order (some pf) none files).1 = 0
      ∧ load files' (some "Sim_DW.h5") = .ok d
      ∧ ∀ e ∈ Spec.fileShapes 1001, ∃ a, d.lookup e.1 = some a ∧ a.shape = e.2 := by
  have hf : Sim.fileName "Sim_DW" = "Sim_DW.h5" := by decide
  have := C88_command_line_1d E O order ho pf "Sim_DW" _ hr rfl (by decide) _ (example_in "DW") 1000 (example_valid "DW" (by simp))
    (by rw [hf]; exact hopen) files
  rw [hf] at this
  exact this

/-- `/repo/sim_params_L3D.json` -/
def Spec.paramsL3D : Json :=
  .obj [("Info", .str "Input parameters file for the VGPA simulation"), ("Author", .str "Michail Vrettas, PhD"),
    ("Contact", .str "michail.vrettas@gmail.com"), ("Date", .str "2022-05-09"), ("Output_Name", .str "Sim_L3D"), ("Model", .str "L63"),
    ("Ode-method", .str "Heun"), ("Random-Seed", .num 31415926535),
    ("Time-window", .obj [("t0", .num 0), ("tf", .num 20), ("dt", .num 0.01)]), ("Noise", .obj [("sys", .num 10), ("obs", .num 2)]),
    ("Observations", .obj [("density", .num 5), ("operator", .null)]),
    ("Drift", .obj [("theta", .arr [.num 10, .num 28, .num 2.667])]),
    ("Prior", .obj [("tau0", .num 0.5), ("mu0", .num 1)])]

/-- `/repo/sim_params_L40D.json` -/
def Spec.paramsL40D : Json :=
  .obj [("Info", .str "Input parameters file for the VGPA simulation"), ("Author", .str "Michail Vrettas, PhD"),
    ("Contact", .str "michail.vrettas@gmail.com"), ("Date", .str "2022-05-09"), ("Output_Name", .str "Sim_L40D"), ("Model", .str "L96"),
    ("Ode-method", .str "RK2"), ("Random-Seed", .num 31415926535),
    ("Time-window", .obj [("t0", .num 0), ("tf", .num 4), ("dt", .num 0.01)]), ("Noise", .obj [("sys", .num 4), ("obs", .num 1)]),
    ("Observations", .obj [("density", .num 8), ("operator", .null)]), ("Drift", .obj [("theta", .num 8)]),
    ("Prior", .obj [("tau0", .num 0.5), ("mu0", .num 1)])]

theorem step_fail {M A α β : Type} {p : Py α} {e : PyErr} {k : α → Sim.Step M A β} {m : MData M A} (h : p = .error e) :
    ((ScgM.lift p : Sim.Step M A α) >>= k) m = (.error e, m) := by subst h; rfl

/-- A setup that fails when the process is constructed. -/
theorem setup_create_fails {E : Env G} {params jd jn jt jm js jo jp jmu jtau sys theta model : Json}
    (h1 : params.item "Drift" = .ok jd) (h2 : params.item "Noise" = .ok jn) (h3 : params.item "Time-window" = .ok jt)
    (h4 : params.item "Ode-method" = .ok jm) (h5 : params.item "Random-Seed" = .ok js) (h6 : params.item "Observations" = .ok jo)
    (h7 : params.item "Prior" = .ok jp) (h8 : jp.item "mu0" = .ok jmu) (h9 : jp.item "tau0" = .ok jtau)
    (h10 : jn.item "sys" = .ok sys) (h11 : jd.item "theta" = .ok theta) (h12 : params.item "Model" = .ok model)
    {e : PyErr} (hc : Sim.stochasticModel (pyClasses E) model sys theta js = .error e) (data : Option (Data Arr))
    (s : Sim (AnyProc G) Arr) : (s.setup (pyClasses E) params data).1 = .error e := by
  suffices h : ∃ m', Sim.setupBody (pyClasses E) params data s.m_data = (.error e, m') by
    obtain ⟨m', h⟩ := h
    unfold Sim.setup
    rw [h]
  unfold Sim.setupBody
  rw [step_lift h1, step_write, step_lift h2, step_write, step_lift h3, step_write, step_lift h4, step_write,
    step_lift h5, step_write, step_lift h6, step_write, step_lift (a := jmu) (by rw [h7]; exact h8), step_write,
    step_lift (a := jtau) (by rw [h7]; exact h9), step_write, step_view (a := sys) (by exact h10),
    step_view (a := theta) (by exact h11), step_view (a := js) (by rfl), step_lift h12]
  rw [step_fail hc]
  exact ⟨_, rfl⟩

/-- C88 fails for the two Lorenz files: `setup()` raises `ValueError`, because a number is not accepted as noise, and the program exits
with status 1 and writes nothing. -/
theorem C88_lorenz_files_violated (E : Env G) (s : Sim (AnyProc G) Arr) (O : Outside Arr) (order : List String)
    (ho : order.Perm requiredKeys) (pf : String) (files : Files) :
    (s.setup (pyClasses E) Spec.paramsL3D none).1 = .error .valueError
    ∧ (s.setup (pyClasses E) Spec.paramsL40D none).1 = .error .valueError
    ∧ (O.readJson pf = .ok Spec.paramsL3D ∨ O.readJson pf = .ok Spec.paramsL40D →
        main (pyClasses E) O order (some pf) none files = (.exits 1, files)) := by
  have hseed : Json.seed (.num 31415926535) = .ok (some 31415926535) := by
    have : ⌊(31415926535 : ℝ)⌋ = 31415926535 := by norm_num
    simp [Json.seed, Json.int, Json.real, bind, Except.bind, pure, Except.pure]
  have hok : Spec.SeedOk (some 31415926535) := fun s h => by simp at h; omega
  have c63 : Sim.stochasticModel (pyClasses E) (.str "L63") (.num 10) (.arr [.num 10, .num 28, .num 2.667]) (.num 31415926535)
      = .error .valueError := by
    unfold Sim.stochasticModel
    rw [show Sim.findSystem (.str "L63") = some .L63 by decide]
    simp only [pyClasses, AnyProc.create, Json.ndArr, Json.real, Json.vec, List.mapM_cons, List.mapM_nil, py_ok_bind, pure, Except.pure, hseed]
    rw [if_pos (by simp)]
    simp only [py_ok_bind, (C30_scalar_violated E.R E.entropy _ hok 10).1]
    rfl
  have c96 : Sim.stochasticModel (pyClasses E) (.str "L96") (.num 4) (.num 8) (.num 31415926535) = .error .valueError := by
    unfold Sim.stochasticModel
    rw [show Sim.findSystem (.str "L96") = some .L96 by decide]
    simp only [pyClasses, AnyProc.create, Json.ndArr, Json.real, py_ok_bind, pure, Except.pure, hseed]
    simp only [(C30_scalar_violated E.R E.entropy _ hok 4).2]
    rfl
  have s63 : ∀ s : Sim (AnyProc G) Arr, (s.setup (pyClasses E) Spec.paramsL3D none).1 = .error .valueError := fun s =>
    setup_create_fails rfl rfl rfl rfl rfl rfl rfl rfl rfl rfl rfl rfl c63 none s
  have s96 : ∀ s : Sim (AnyProc G) Arr, (s.setup (pyClasses E) Spec.paramsL40D none).1 = .error .valueError := fun s =>
    setup_create_fails rfl rfl rfl rfl rfl rfl rfl rfl rfl rfl rfl rfl c96 none s
  refine ⟨s63 s, s96 s, ?_⟩
  have all : ∀ kv nm, O.readJson pf = .ok (.obj kv) → (∀ k ∈ Spec.required, kv.lookup k ≠ none) → kv.lookup "Output_Name" = some nm →
      (∀ s : Sim (AnyProc G) Arr, (s.setup (pyClasses E) (.obj kv) none).1 = .error .valueError) →
      main (pyClasses E) O order (some pf) none files = (.exits 1, files) := by
    intro kv nm hr hk hn hs
    have hval : validate O order pf = .params (.obj kv) := by
      rcases C80_validation O order ho pf kv hr with ⟨_, h⟩ | ⟨k, hk', hno, _⟩
      · exact h
      · exact absurd hno (hk k hk')
    have hitem : (Json.obj kv).item "Output_Name" = .ok nm := by simp only [Json.item, hn]
    unfold main mainTry
    simp only [hval, hitem]
    rcases hsu : (Sim.init (outputName O nm) : Sim (AnyProc G) Arr).setup (pyClasses E) (.obj kv) none with ⟨r, s'⟩
    have := hs (Sim.init (outputName O nm))
    rw [hsu] at this
    simp only at this
    subst this
    rfl
  rintro (hr | hr)
  · exact all _ (.str "Sim_L3D") hr (by intro k hk; simp only [Spec.required, List.mem_cons, List.not_mem_nil, or_false] at hk; rcases hk with rfl | rfl | rfl | rfl | rfl | rfl | rfl | rfl | rfl <;> simp [List.lookup]) rfl s63
  · exact all _ (.str "Sim_L40D") hr (by intro k hk; simp only [Spec.required, List.mem_cons, List.not_mem_nil, or_false] at hk; rcases hk with rfl | rfl | rfl | rfl | rfl | rfl | rfl | rfl | rfl <;> simp [List.lookup]) rfl s96

/-- Non-vacuity: a program that finds the file of the double well, and one that finds a Lorenz file. -/
example (E : Env G) (files : Files) :=
  C88_double_well_file E ⟨fun _ => .ok (Spec.exampleParams "DW"), fun _ => .error .fileNotFoundError, fun _ => .ok (), fun _ => ""⟩ requiredKeys
    (List.Perm.refl _) "p.json" rfl rfl files

example (E : Env G) (files : Files) :=
  (C88_lorenz_files_violated E (Sim.init none) ⟨fun _ => .ok Spec.paramsL3D, fun _ => .error .fileNotFoundError, fun _ => .ok (), fun _ => ""⟩
    requiredKeys (List.Perm.refl _) "p.json" files).2.2 (.inl rfl)

end

end VGPA
