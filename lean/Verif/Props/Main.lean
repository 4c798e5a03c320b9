import Verif.Model.Main
import Verif.Props.SaveLoad

/-!
# C80 validation of the parameter file, C81 exit status of the program
-/

namespace VGPA

variable {M A F B L K Vg X : Type}

/-- The nine documented keys of a parameter file. -/
def Spec.required : List String :=
  ["Model", "Drift", "Noise", "Prior", "Observations", "Time-window", "Ode-method", "Random-Seed", "Output_Name"]

theorem checkKeys_obj (kv : List (String × Json)) (ks : List String) :
    (∃ k ∈ ks, kv.lookup k = none ∧ checkKeys (.obj kv) ks = .ok (some k))
    ∨ ((∀ k ∈ ks, ∃ v, kv.lookup k = some v) ∧ checkKeys (.obj kv) ks = .ok none) := by
  induction ks with
  | nil => right; simp [checkKeys]
  | cons k ks ih =>
    rcases h : kv.lookup k with _ | v
    · left
      refine ⟨k, List.mem_cons_self, h, ?_⟩
      simp [checkKeys, Json.contains, h, bind, Except.bind, pure, Except.pure]
    · have hc : checkKeys (.obj kv) (k :: ks) = checkKeys (.obj kv) ks := by
        simp [checkKeys, Json.contains, h, bind, Except.bind]
      rw [hc]
      rcases ih with ⟨k', hk', h1, h2⟩ | ⟨h1, h2⟩
      · exact .inl ⟨k', List.mem_cons_of_mem _ hk', h1, h2⟩
      · refine .inr ⟨fun k' hk' => ?_, h2⟩
        rcases List.mem_cons.1 hk' with rfl | hk'
        · exact ⟨v, h⟩
        · exact h1 _ hk'

theorem required_perm {order : List String} (ho : order.Perm requiredKeys) (k : String) : k ∈ order ↔ k ∈ Spec.required := by
  rw [ho.mem_iff]
  simp only [requiredKeys, Spec.required, List.mem_cons, List.not_mem_nil, or_false]
  tauto

/-- C80: for a file holding a dictionary, the parameters are returned exactly when all nine keys are present, whatever
else is in the dictionary; otherwise the error names one of the nine keys that is missing. The order in which
Python goes through the set of keys is arbitrary. -/
theorem C80_validation (O : Outside A) (order : List String) (ho : order.Perm requiredKeys) (file : String)
    (kv : List (String × Json)) (hr : O.readJson file = .ok (.obj kv)) :
    ((∀ k ∈ Spec.required, ∃ v, kv.lookup k = some v) ∧ validate O order file = .params (.obj kv))
    ∨ ∃ k ∈ Spec.required, kv.lookup k = none ∧ validate O order file = .missing k := by
  unfold validate
  simp only [hr]
  rcases checkKeys_obj kv order with ⟨k, hk, h1, h2⟩ | ⟨h1, h2⟩
  · exact .inr ⟨k, (required_perm ho k).1 hk, h1, by rw [h2]⟩
  · exact .inl ⟨fun k hk => h1 k ((required_perm ho k).2 hk), by rw [h2]⟩

/-- C80: what is returned is the content of the file, and nothing is returned when the file cannot be read or decoded. -/
theorem C80_content (O : Outside A) (order : List String) (file : String) (p : Json) (h : validate O order file = .params p) :
    O.readJson file = .ok p := by
  unfold validate at h
  rcases hr : O.readJson file with e | q
  · rw [hr] at h; cases h
  · rw [hr] at h
    simp only at h
    split at h <;> cases h
    rfl

/-- Both cases of C80 occur. -/
example : (∃ kv : List (String × Json), ∀ k ∈ Spec.required, ∃ v, kv.lookup k = some v)
    ∧ (∃ kv : List (String × Json), kv ≠ [] ∧ ∃ k ∈ Spec.required, kv.lookup k = none) := by
  refine ⟨⟨Spec.required.map fun k => (k, .null), ?_⟩, ⟨[("Model", .str "DW")], by simp, "Drift", by simp [Spec.required], by decide⟩⟩
  intro k hk
  simp only [Spec.required, List.mem_cons, List.not_mem_nil, or_false] at hk
  rcases hk with rfl | rfl | rfl | rfl | rfl | rfl | rfl | rfl | rfl <;> exact ⟨.null, rfl⟩

/-- The name that the entry `v` of a parameter file gives to the simulation: a string is the name, `null` stands for `Sim_00`; what counts as
false in Python gives no name, everything else is turned into a string. -/
inductive Spec.NameOf (str : Json → String) : Json → Option String → Prop
  | string (s : String) : Spec.NameOf str (.str s) (some s)
  | null : Spec.NameOf str .null (some "Sim_00")
  | noBool : Spec.NameOf str (.bool false) none
  | zero : Spec.NameOf str (.num 0) none
  | noList : Spec.NameOf str (.arr []) none
  | noDict : Spec.NameOf str (.obj []) none
  | other (v : Json) (h1 : ∀ s, v ≠ .str s) (h2 : v ∉ [.null, .bool false, .num 0, .arr [], .obj []]) : Spec.NameOf str v (some (str v))

theorem nameOf_iff (O : Outside A) (v : Json) (name : Option String) : Spec.NameOf O.str v name ↔ outputName O v = name := by
  constructor
  · rintro (s | _ | _ | _ | _ | _ | ⟨_, h1, h2⟩)
    · rfl
    · rfl
    · rfl
    · simp [outputName]
    · rfl
    · rfl
    · cases v with
      | null => simp at h2
      | bool b => cases b with
        | false => simp at h2
        | true => rfl
      | num x => simp only [List.mem_cons, reduceCtorEq, Json.num.injEq, false_or, List.not_mem_nil, or_false] at h2; simp [outputName, h2]
      | str s => exact absurd rfl (h1 s)
      | arr l => cases l with
        | nil => simp at h2
        | cons a l => rfl
      | obj l => cases l with
        | nil => simp at h2
        | cons a l => rfl
  · rintro rfl
    cases v with
    | null => exact .null
    | bool b => cases b with
      | false => exact .noBool
      | true => exact .other _ (by simp) (by simp)
    | num x =>
      by_cases hx : x = 0
      · subst hx; simp only [outputName, if_true]; exact .zero
      · simp only [outputName, hx, if_false]; exact .other _ (by simp) (by simp [hx])
    | str s => exact .string s
    | arr l => cases l with
      | nil => exact .noList
      | cons a l => exact .other _ (by simp) (by simp)
    | obj l => cases l with
      | nil => exact .noDict
      | cons a l => exact .other _ (by simp) (by simp)

/-- A complete session: the parameter file could be read and holds all keys, the data file (if any) could be read, and on
one simulation object, with the name in the file, `setup`, `run` and `save` went through in this order. `files'` are the files afterwards. -/
def Spec.Completed (C : Classes M A F B L K Vg X) (O : Outside A) (params_file data_file : Option String) (files files' : Files) :
    Prop :=
  ∃ pf p data v name s1 s2 s3, params_file = some pf ∧ O.readJson pf = .ok p ∧ (∀ k ∈ Spec.required, p.contains k = .ok true)
    ∧ p.item "Output_Name" = .ok v ∧ Spec.NameOf O.str v name
    ∧ ((data_file = none ∧ data = none) ∨ ∃ df d, data_file = some df ∧ O.readCsv df = .ok d ∧ data = some d)
    ∧ (Sim.init name : Sim M A).setup C p data = (.ok (), s1) ∧ s1.run C = (.ok (), s2) ∧ s2.save O.canOpen files = (.ok (), s3, files')

theorem checkKeys_none {p : Json} {ks : List String} : checkKeys p ks = .ok none ↔ ∀ k ∈ ks, p.contains k = .ok true := by
  induction ks with
  | nil => simp [checkKeys]
  | cons k ks ih =>
    simp only [checkKeys, List.mem_cons, forall_eq_or_imp, bind, Except.bind]
    rcases h : p.contains k with e | b
    · simp
    · cases b
      · simp [pure, Except.pure]
      · simpa using ih

theorem main_completed (C : Classes M A F B L K Vg X) (O : Outside A) (order : List String) (ho : order.Perm requiredKeys)
    (params_file data_file : Option String) (files files' : Files) (h : Spec.Completed C O params_file data_file files files') :
    main C O order params_file data_file files = (.returns, files') := by
  obtain ⟨pf, p, data, v, name, s1, s2, s3, rfl, hr, hkeys, hv, hname, hdata, hs1, hs2, hs3⟩ := h
  have hval : validate O order pf = .params p := by
    have : checkKeys p order = .ok none := checkKeys_none.2 fun k hk => hkeys k ((required_perm ho k).1 hk)
    simp only [validate, hr, this]
  have hn := (nameOf_iff O v name).1 hname
  unfold main
  simp only [hval]
  rcases hdata with ⟨rfl, rfl⟩ | ⟨df, d, rfl, h, rfl⟩
  · simp only [hv, mainTry, hn, hs1, hs2, hs3]
  · simp only [h, bind, Except.bind, pure, Except.pure, hv, mainTry, hn, hs1, hs2, hs3]

/-- `main` returns exactly when a session was completed. -/
theorem main_returns_iff (C : Classes M A F B L K Vg X) (O : Outside A) (order : List String) (ho : order.Perm requiredKeys)
    (params_file data_file : Option String) (files files' : Files) :
    main C O order params_file data_file files = (.returns, files') ↔ Spec.Completed C O params_file data_file files files' := by
  refine ⟨fun h => ?_, fun h => ?_⟩
  swap
  · exact main_completed C O order ho _ _ _ _ h
  unfold main at h
  rcases params_file with _ | pf
  · cases h
  · simp only at h
    rcases hv : validate O order pf with p | k | e
    · rw [hv] at h
      simp only at h
      have hr := C80_content O order pf p hv
      have hkeys : ∀ k ∈ Spec.required, p.contains k = .ok true := by
        have : checkKeys p order = .ok none := by
          unfold validate at hv
          rw [hr] at hv
          simp only at hv
          split at hv <;> first | assumption | cases hv
        intro k hk
        exact checkKeys_none.1 this k ((required_perm ho k).2 hk)
      split at h
      · cases h
      · rename_i data hdata
        split at h
        · cases h
        · rename_i name hname
          unfold mainTry at h
          dsimp only at h
          split at h
          · cases h
          · rename_i s1 hs1
            split at h
            · cases h
            · rename_i s2 hs2
              split at h
              · cases h
              · rename_i s3 f3 hs3
                cases h
                refine ⟨pf, p, data, name, outputName O name, s1, s2, s3, rfl, hr, hkeys, hname, (nameOf_iff O name _).2 rfl, ?_, hs1, hs2, hs3⟩
                split at hdata
                · cases hdata
                  exact .inl ⟨rfl, rfl⟩
                · rename_i df
                  right
                  rcases hc : O.readCsv df with e | d
                  · rw [hc] at hdata; cases hdata
                  · rw [hc] at hdata
                    cases hdata
                    exact ⟨df, d, rfl, hc, rfl⟩
    · rw [hv] at h; cases h
    · rw [hv] at h
      simp only at h
      split at h <;> cases h

/-- C81: the process ends with status 0 or 1; status 0 means that `main` returned, and then the parameter file was read
and complete and `setup`, `run` and `save` were carried out without an exception, in this order, on one
simulation. So a missing or undecodable parameter file, a missing key, and an exception in any of the steps all give
status 1. -/
theorem C81_status (C : Classes M A F B L K Vg X) (O : Outside A) (order : List String) (ho : order.Perm requiredKeys)
    (params_file data_file : Option String) (files files' : Files) (e : Ending)
    (h : main C O order params_file data_file files = (e, files')) :
    (exitStatus e = 0 ∧ e = .returns ∧ Spec.Completed C O params_file data_file files files') ∨ exitStatus e = 1 := by
  have h01 : e = .returns ∨ exitStatus e = 1 := by
    unfold main mainTry at h
    dsimp only at h
    repeat' split at h
    all_goals (obtain ⟨rfl, rfl⟩ := Prod.mk.inj h; first | exact .inl rfl | exact .inr rfl)
  rcases h01 with rfl | h1
  · exact .inl ⟨rfl, rfl, (main_returns_iff C O order ho _ _ _ _).1 h⟩
  · exact .inr h1

/-- C81, the converse too: the status is 0, with these files afterwards, exactly if a session was completed that leaves these files. -/
theorem C81_zero_iff (C : Classes M A F B L K Vg X) (O : Outside A) (order : List String) (ho : order.Perm requiredKeys)
    (params_file data_file : Option String) (files files' : Files) :
    (exitStatus (main C O order params_file data_file files).1 = 0 ∧ (main C O order params_file data_file files).2 = files')
      ↔ Spec.Completed C O params_file data_file files files' := by
  constructor
  · rintro ⟨h0, rfl⟩
    rcases C81_status C O order ho params_file data_file files _ (main C O order params_file data_file files).1 rfl with ⟨_, _, h⟩ | h
    · exact h
    · exact absurd (h0.symm.trans h) (by norm_num)
  · intro h
    rw [(main_returns_iff C O order ho _ _ _ _).2 h]
    exact ⟨rfl, rfl⟩

/-- C81: the reasons for which `main` itself calls `sys.exit(1)`: no parameter file given, a file that is no JSON, a
missing key, or an exception in one of the three steps. (A file that does not exist leaves `main` as
`FileNotFoundError`, `C81_missing_file`; the status of the process is 1 all the same.) -/
theorem C81_exits (C : Classes M A F B L K Vg X) (O : Outside A) (order : List String) (ho : order.Perm requiredKeys)
    (data_file : Option String) (files : Files) :
    ((main C O order none data_file files).1 = .exits 1)
    ∧ (∀ pf, O.readJson pf = .error .jsonDecodeError → (main C O order (some pf) data_file files).1 = .exits 1)
    ∧ (∀ pf kv k, O.readJson pf = .ok (.obj kv) → k ∈ Spec.required → kv.lookup k = none →
        (main C O order (some pf) data_file files).1 = .exits 1)
    ∧ (∀ pf kv, O.readJson pf = .ok (.obj kv) → data_file = none →
        (∀ name s1, (Sim.init name : Sim M A).setup C (.obj kv) none = (.ok (), s1) →
          ∀ s2, s1.run C = (.ok (), s2) → ∃ err, (s2.save O.canOpen files).1 = .error err) →
        (main C O order (some pf) data_file files).1 = .exits 1) := by
  refine ⟨rfl, ?_, ?_, ?_⟩
  · intro pf hr
    simp [main, validate, hr, isValueError]
  · intro pf kv k hr hk hn
    have hm : ∃ k', validate O order pf = .missing k' := by
      rcases C80_validation O order ho pf kv hr with ⟨h1, _⟩ | ⟨k', _, _, h2⟩
      · obtain ⟨v, hv⟩ := h1 k hk
        rw [hn] at hv; cases hv
      · exact ⟨k', h2⟩
    obtain ⟨k', hk'⟩ := hm
    simp [main, hk']
  · intro pf kv hr hd hfail
    subst hd
    rcases C80_validation O order ho pf kv hr with ⟨h1, h2⟩ | ⟨k', _, _, h2⟩
    · obtain ⟨v, hv⟩ := h1 "Output_Name" (by simp [Spec.required])
      have hi : (Json.obj kv).item "Output_Name" = .ok v := by simp [Json.item, hv]
      simp only [main, h2, hi, mainTry]
      split
      · rfl
      · rename_i s1 hs1
        split
        · rfl
        · rename_i s2 hs2
          obtain ⟨err, he⟩ := hfail _ s1 hs1 s2 hs2
          split
          · rfl
          · rename_i s3 f3 hs3
            rw [hs3] at he
            cases he
    · simp [main, h2]

/-- C81: a parameter file that does not exist. -/
theorem C81_missing_file (C : Classes M A F B L K Vg X) (O : Outside A) (order : List String) (pf : String)
    (data_file : Option String) (files : Files) (hr : O.readJson pf = .error .fileNotFoundError) :
    main C O order (some pf) data_file files = (.raises .fileNotFoundError, files)
      ∧ exitStatus (main C O order (some pf) data_file files).1 = 1 := by
  have : main C O order (some pf) data_file files = (.raises .fileNotFoundError, files) := by
    simp [main, validate, hr, isValueError]
  exact ⟨this, by rw [this]; rfl⟩

/-- C81: the program never ends with status 0 when a data file is given whose columns are named, as `pandas.read_csv`
with `names=["t", "Yt"]` makes them: the option `--data` always fails. -/
theorem C81_data_option_fails (C : Classes M A F B L K Vg X) (O : Outside A) (order : List String) (ho : order.Perm requiredKeys)
    (params_file : Option String) (df : String) (cols : Dict A) (files : Files) (hd : O.readCsv df = .ok (.frame cols)) :
    exitStatus (main C O order params_file (some df) files).1 = 1 := by
  rcases C81_status C O order ho params_file (some df) files _ _ rfl with ⟨_, _, h⟩ | h
  · exfalso
    obtain ⟨pf, p, data, _, name, s1, s2, s3, _, _, _, _, _, hdata, hs, _⟩ := h
    rcases hdata with ⟨h, _⟩ | ⟨df', d, h1, h2, rfl⟩
    · cases h
    · cases h1
      rw [hd] at h2
      cases h2
      obtain ⟨e, he⟩ := C77_table_violated C (Sim.init name : Sim M A) p cols
      rw [hs] at he
      cases he
  · exact h

/-- A session that completes. -/
example : ∃ (O : Outside Unit) (files' : Files), main Spec.lenient O requiredKeys (some "p.json") none (fun _ => none) = (.returns, files')
    ∧ files' "Sim.h5" ≠ none := by
  refine ⟨⟨fun _ => .ok (.obj [("Output_Name", .str "Sim"), ("Model", .str "L63"), ("Drift", .obj [("theta", .num 1)]),
    ("Noise", .obj [("sys", .num 1), ("obs", .num 1)]), ("Time-window", .obj [("t0", .num 0), ("tf", .num 1), ("dt", .num 1)]),
    ("Ode-method", .str "Euler"), ("Random-Seed", .num 1), ("Observations", .obj [("density", .num 1), ("operator", .null)]),
    ("Prior", .obj [("mu0", .num 1), ("tau0", .num 1)])]), fun _ => .error .osError, fun _ => .ok (), fun _ => ""⟩, _, rfl, ?_⟩
  show (Function.update _ (Sim.fileName (Sim.init (M := Unit) (A := Unit) (some "Sim")).name) _ : Files) "Sim.h5" ≠ none
  have : Sim.fileName (Sim.init (M := Unit) (A := Unit) (some "Sim")).name = "Sim.h5" := by decide
  rw [this, Function.update_self]
  simp

end VGPA
