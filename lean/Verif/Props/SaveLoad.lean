import Verif.Props.Simulation

/-!
# C78 save and load, C79 file names
-/

namespace VGPA

variable {M A F B L K Vg X : Type}

/-! ## C78 -/

/-- What a file holds for a value of the output dictionary: arrays as they are, a number as an array with one entry. -/
def Spec.Stored (v : Val) (a : NdArray) : Prop :=
  match v with
  | .scalar x => a.shape = [1] ∧ a.data = [x]
  | .array b => a = b

/-- Two dictionaries have the same keys, and at each key the second holds what a file holds for the first. -/
def Spec.SameContents (out : Dict Val) (d : Dict NdArray) : Prop :=
  ∀ key, match out.lookup key, d.lookup key with
    | none, none => True
    | some v, some a => Spec.Stored v a
    | _, _ => False

/-- The keys of a dictionary differ, as always in Python. -/
def Spec.DistinctKeys {α : Type} (d : Dict α) : Prop := (d.map Prod.fst).Nodup

theorem Dict.keys_put {α : Type} (d : Dict α) (k : String) (v : α) :
    (d.put k v).map Prod.fst = if k ∈ d.map Prod.fst then d.map Prod.fst else d.map Prod.fst ++ [k] := by
  induction d with
  | nil => simp [Dict.put]
  | cons p d ih =>
    obtain ⟨k', w⟩ := p
    unfold Dict.put
    by_cases h : k' = k
    · simp [h]
    · have h' : ¬ k = k' := fun h'' => h h''.symm
      simp only [h, if_false, List.map_cons, ih, List.mem_cons, h', false_or]
      split <;> simp

theorem Dict.distinct_put {α : Type} {d : Dict α} (h : Spec.DistinctKeys d) (k : String) (v : α) :
    Spec.DistinctKeys (d.put k v) := by
  unfold Spec.DistinctKeys at *
  rw [Dict.keys_put]
  split
  · exact h
  · rename_i hk
    rw [List.nodup_append]
    refine ⟨h, by simp, ?_⟩
    intro a ha b hb
    simp only [List.mem_cons, List.not_mem_nil, or_false] at hb
    rintro rfl
    exact hk (hb ▸ ha)

theorem Dict.distinct_update {α : Type} {d : Dict α} (h : Spec.DistinctKeys d) (e : Dict α) : Spec.DistinctKeys (d.update e) := by
  unfold Dict.update
  induction e generalizing d with
  | nil => exact h
  | cons p e ih => exact ih (Dict.distinct_put h _ _)

theorem lookup_none_iff_keys {α : Type} {d : Dict α} {k : String} : d.lookup k = none ↔ k ∉ d.map Prod.fst := by
  rw [List.lookup_eq_none_iff]
  simp only [List.mem_map, Prod.exists, exists_and_right, exists_eq_right, not_exists]
  constructor
  · intro h v hv
    have := h _ hv
    simp at this
  · intro h p hp
    simp only [ne_eq, bne_iff_ne]
    rintro rfl
    exact h _ hp

theorem put_fresh {α : Type} {d : Dict α} {k : String} {v : α} (h : k ∉ d.map Prod.fst) : d.put k v = d ++ [(k, v)] := by
  induction d with
  | nil => rfl
  | cons p d ih =>
    obtain ⟨k', w⟩ := p
    simp only [List.map_cons, List.mem_cons, not_or] at h
    unfold Dict.put
    rw [if_neg (fun h' => h.1 h'.symm), ih h.2]
    rfl

theorem saveLoop_eq (l done : Dict Val) (f : Dict NdArray) (h : (f.map Prod.fst ++ l.map Prod.fst).Nodup) :
    Sim.saveLoop l done f = (.ok (), done ++ l.map (fun kv => (kv.1, .array (Sim.toArray kv.2))),
      f ++ l.map fun kv => (kv.1, Sim.toArray kv.2)) := by
  induction l generalizing done f with
  | nil => simp [Sim.saveLoop]
  | cons p l ih =>
    obtain ⟨k, v⟩ := p
    have hk : k ∉ f.map Prod.fst := by
      rw [List.nodup_append] at h
      intro hm
      exact h.2.2 k hm k (by simp) rfl
    unfold Sim.saveLoop Sim.createDataset
    rw [lookup_none_iff_keys.2 hk]
    simp only [Option.isSome_none, Bool.false_eq_true, if_false]
    rw [ih]
    · simp
    · simpa using h

theorem load_eq {files : Files} {path : String} {d : Dict NdArray} (hf : files path = some d) (h : Spec.DistinctKeys d) :
    load files (some path) = .ok d := by
  unfold load
  simp only [hf, Except.ok.injEq]
  suffices ∀ (e acc : Dict NdArray), (acc.map Prod.fst ++ e.map Prod.fst).Nodup →
      e.foldl (fun acc kv => Dict.put acc kv.1 kv.2) acc = acc ++ e by
    simpa using this d [] (by simpa using (show (d.map Prod.fst).Nodup from h))
  intro e
  induction e with
  | nil => simp
  | cons p e ih =>
    intro acc hn
    simp only [List.foldl_cons]
    have hk : p.1 ∉ acc.map Prod.fst := by
      rw [List.nodup_append] at hn
      intro hm
      exact hn.2.2 p.1 hm p.1 (by simp) rfl
    rw [put_fresh hk, ih]
    · simp
    · simpa using hn

theorem lookup_stored (d : Dict Val) : Spec.SameContents d (d.map fun kv => (kv.1, Sim.toArray kv.2)) := by
  intro key
  induction d with
  | nil => simp
  | cons p d ih =>
    obtain ⟨k, v⟩ := p
    simp only [List.map_cons, List.lookup_cons]
    by_cases h : key == k
    · simp only [h]
      cases v with
      | scalar x => exact ⟨rfl, rfl⟩
      | array a => rfl
    · simp only [h]
      exact ih

theorem save_eq {s : Sim M A} (canOpen : String → Py Unit) (files : Files) (hne : s.output ≠ []) (hd : Spec.DistinctKeys s.output)
    (ho : canOpen (Sim.fileName s.name) = .ok ()) :
    s.save canOpen files = (.ok (), { s with output := s.output.map fun kv => (kv.1, .array (Sim.toArray kv.2)) },
      Function.update files (Sim.fileName s.name) (some (s.output.map fun kv => (kv.1, Sim.toArray kv.2)))) := by
  unfold Sim.save
  have : s.output.isEmpty = false := by simpa using hne
  simp only [this, Bool.false_eq_true, if_false, ho]
  rw [saveLoop_eq _ _ _ (by simpa using (show (s.output.map Prod.fst).Nodup from hd))]
  simp

/-- C78: if there is something to save and the file can be opened, `save()` succeeds, `load` of that file returns exactly
the keys of the output dictionary with equal contents (numbers as arrays with one entry), no other file changes, and
saving once more writes the same file. -/
theorem C78_round_trip (s : Sim M A) (canOpen : String → Py Unit) (files : Files) (hne : s.output ≠ [])
    (hd : Spec.DistinctKeys s.output) (ho : canOpen (Sim.fileName s.name) = .ok ()) :
    ∃ s' files' d, s.save canOpen files = (.ok (), s', files') ∧ load files' (some (Sim.fileName s.name)) = .ok d
      ∧ Spec.DistinctKeys d ∧ Spec.SameContents s.output d
      ∧ (∀ path, path ≠ Sim.fileName s.name → files' path = files path)
      ∧ ∃ s'', s'.save canOpen files' = (.ok (), s'', files') := by
  have hk : Spec.DistinctKeys (s.output.map fun kv => (kv.1, Sim.toArray kv.2)) := by
    unfold Spec.DistinctKeys at *
    simpa [List.map_map, Function.comp_def] using hd
  refine ⟨_, _, _, save_eq canOpen files hne hd ho, load_eq (Function.update_self ..) hk, hk, lookup_stored _, ?_, ?_⟩
  · intro path hp
    exact Function.update_of_ne hp ..
  · have h2 := save_eq (s := ⟨s.name, s.m_data, s.output.map fun kv => (kv.1, .array (Sim.toArray kv.2))⟩) canOpen
      (Function.update files (Sim.fileName s.name) (some (s.output.map fun kv => (kv.1, Sim.toArray kv.2)))) (by simpa using hne)
      (by
        unfold Spec.DistinctKeys at *
        simpa [List.map_map, Function.comp_def] using hd) ho
    have hmm : (s.output.map fun kv => (kv.1, Val.array (Sim.toArray kv.2))).map (fun kv => (kv.1, Sim.toArray kv.2))
        = s.output.map fun kv => (kv.1, Sim.toArray kv.2) := by
      rw [List.map_map]; rfl
    simp only [hmm, Function.update_idem] at h2
    exact ⟨_, h2⟩

/-- C78: `load` returns a dictionary only for a file that exists; without a name it raises `RuntimeError`, for a missing file
`FileNotFoundError`. -/
theorem C78_load_missing (files : Files) :
    load files none = .error .runtimeError
    ∧ (∀ path, files path = none → load files (some path) = .error .fileNotFoundError)
    ∧ ∀ name d, load files name = .ok d → ∃ path c, name = some path ∧ files path = some c := by
  refine ⟨rfl, fun path h => by simp only [load, h], fun name d h => ?_⟩
  cases name with
  | none => cases h
  | some path =>
    cases hf : files path with
    | none => simp only [load, hf] at h; cases h
    | some c => exact ⟨path, c, rfl, hf⟩

/-- C78, along histories: the output dictionary always has distinct keys, so that every `save()` after a successful
`run()` with a file that can be opened makes the round trip of `C78_round_trip`. -/
theorem C78_after_run (C : Classes M A F B L K Vg X) (canOpen : String → Py Unit) (name : Option String) (files : Files)
    (h : List (Spec.Op A × Py Unit)) (s : Sim M A × Files) (hist : Spec.History C canOpen name files h s)
    (hrun : ∃ o ∈ h, o.1 = .run ∧ o.2 = .ok ()) (ho : canOpen (Sim.fileName s.1.name) = .ok ()) :
    ∃ s' files' d, s.1.save canOpen s.2 = (.ok (), s', files') ∧ load files' (some (Sim.fileName s.1.name)) = .ok d
      ∧ Spec.DistinctKeys d ∧ Spec.SameContents s.1.output d := by
  have keys_save : ∀ l done f, ((Sim.saveLoop l done f).2.1).map Prod.fst = done.map Prod.fst ++ l.map Prod.fst := by
    intro l
    induction l with
    | nil => intro done f; simp [Sim.saveLoop]
    | cons p l ih =>
      intro done f
      obtain ⟨k, v⟩ := p
      unfold Sim.saveLoop
      simp only
      split
      · simp
      · rw [ih]; simp
  have hdist : Spec.DistinctKeys s.1.output := by
    clear hrun ho
    induction hist with
    | new => simp [Sim.init, Spec.DistinctKeys]
    | @call h s hist op ih =>
      cases op with
      | setup params data => exact ih
      | run =>
        simp only [Spec.exec, Sim.run]
        repeat' split
        · exact ih
        · exact ih
        · exact Dict.distinct_put ih _ _
        · exact Dict.distinct_update (Dict.distinct_put (Dict.distinct_put (Dict.distinct_put ih _ _) _ _) _ _) _
      | save =>
        simp only [Spec.exec, Sim.save]
        repeat' split
        · exact ih
        · exact ih
        · unfold Spec.DistinctKeys at *
          simp only
          rw [keys_save]
          simpa using ih
  have put_ne : ∀ (d : Dict Val) k v, d.put k v ≠ [] := by
    intro d k v hnil
    have := Dict.keys_put d k v
    rw [hnil] at this
    split at this
    · rename_i hk
      simp only [List.map_nil] at this
      rw [← this] at hk
      cases hk
    · simp at this
  have upd_ne : ∀ (e d : Dict Val), d ≠ [] → d.update e ≠ [] := by
    intro e
    induction e with
    | nil => intro d hd; exact hd
    | cons p e ih => intro d hd; exact ih _ (put_ne _ _ _)
  have hne : s.1.output ≠ [] := by
    clear ho hdist
    induction hist with
    | new => simp at hrun
    | @call h s hist op ih =>
      obtain ⟨o, ho, hr, hok⟩ := hrun
      rcases List.mem_cons.1 ho with rfl | ho'
      · simp only at hr hok
        subst hr
        obtain ⟨p, x, fx, g, a, b, _, _, _, hout⟩ := run_ok_output C s.1 hok
        simp only [Spec.exec, hout]
        exact upd_ne _ _ (put_ne _ _ _)
      · have ih := ih ⟨o, ho', hr, hok⟩
        cases op with
        | setup params data => exact ih
        | run =>
          simp only [Spec.exec, Sim.run]
          repeat' split
          · exact ih
          · exact ih
          · exact put_ne _ _ _
          · exact upd_ne _ _ (put_ne _ _ _)
        | save =>
          simp only [Spec.exec, Sim.save]
          repeat' split
          · exact ih
          · exact ih
          · simp only
            intro hnil
            have := keys_save s.1.output [] []
            rw [hnil] at this
            simp at this
            exact ih (by simpa using this)
  obtain ⟨s', files', d, h1, h2, h3, h4, _⟩ := C78_round_trip s.1 canOpen s.2 hne hdist ho
  exact ⟨s', files', d, h1, h2, h3, h4⟩

/-- A simulation with an array and a number in its output. -/
example : ∃ s : Sim Unit Unit, s.output ≠ [] ∧ Spec.DistinctKeys s.output ∧ s.output.length = 2 :=
  ⟨⟨"Sim 01", {}, [("at", .array ⟨[2], [1, 2]⟩), ("fx", .scalar 3)]⟩, by simp, by simp [Spec.DistinctKeys], rfl⟩

/-- The history of `C78_after_run`: one `setup()` and one `run()`. -/
example (canOpen : String → Py Unit) (files : Files) : ∃ h s, Spec.History Spec.lenient canOpen none files h s
    ∧ ∃ o ∈ h, o.1 = .run ∧ o.2 = .ok () :=
  ⟨_, _, (Spec.History.new.call (.setup (Spec.params (.str "L63") (.num 1)) none)).call .run, _, List.mem_cons_self, rfl, rfl⟩

/-! ## C79 -/

/-- White space in the sense of `str.strip()`: code points of tab to carriage return, the separators 28 to 31, space, next
line, no-break space and the Unicode spaces. -/
def Spec.White (c : Char) : Prop :=
  c.toNat ∈ [9, 10, 11, 12, 13, 28, 29, 30, 31, 32, 133, 160, 5760, 8192, 8193, 8194, 8195, 8196, 8197, 8198, 8199, 8200, 8201,
    8202, 8232, 8233, 8239, 8287, 12288]

/-- `t` is `s` without the white space around it. -/
def Spec.Stripped (s t : List Char) : Prop :=
  ∃ pre post, s = pre ++ t ++ post ∧ (∀ c ∈ pre, Spec.White c) ∧ (∀ c ∈ post, Spec.White c)
    ∧ (∀ c, t.head? = some c → ¬ Spec.White c) ∧ (∀ c, t.getLast? = some c → ¬ Spec.White c)

/-- The file name for a stripped name: blanks become underscores. -/
def Spec.FileNameOf (t : List Char) (file : String) : Prop :=
  ∃ u : List Char, u.length = t.length ∧ (∀ i : ℕ, u[i]? = (t[i]?).map fun c => if c = ' ' then '_' else c)
    ∧ file.toList = u ++ ['.', 'h', '5']

theorem isSpace_iff (c : Char) : Sim.isSpace c = true ↔ Spec.White c := by
  unfold Sim.isSpace Spec.White
  simp only [Bool.or_eq_true, Bool.and_eq_true, decide_eq_true_eq, beq_iff_eq, List.mem_cons, List.not_mem_nil, or_false]
  generalize c.toNat = n
  omega

theorem takeWhile_sat {p : Char → Bool} {l : List Char} {c : Char} (h : c ∈ l.takeWhile p) : p c = true := by
  have := List.all_takeWhile (p := p) (l := l)
  rw [List.all_eq_true] at this
  exact this c h

theorem strip_stripped (s : List Char) : Spec.Stripped s (Sim.strip s) := by
  have hd := List.takeWhile_append_dropWhile (p := Sim.isSpace) (l := s)
  set r := s.dropWhile Sim.isSpace with hr
  have he := List.takeWhile_append_dropWhile (p := Sim.isSpace) (l := r.reverse)
  have hs : Sim.strip s = (r.reverse.dropWhile Sim.isSpace).reverse := rfl
  have hrr : r = Sim.strip s ++ (r.reverse.takeWhile Sim.isSpace).reverse := by
    rw [hs, ← List.reverse_append, he, List.reverse_reverse]
  refine ⟨s.takeWhile Sim.isSpace, (r.reverse.takeWhile Sim.isSpace).reverse, ?_, ?_, ?_, ?_, ?_⟩
  · rw [List.append_assoc, ← hrr, hd]
  · intro c hc
    exact (isSpace_iff c).1 (takeWhile_sat hc)
  · intro c hc
    rw [List.mem_reverse] at hc
    exact (isSpace_iff c).1 (takeWhile_sat hc)
  · intro c hc hw
    have hrc : r.head? = some c := by
      rw [hrr]
      cases hst : Sim.strip s with
      | nil => rw [hst] at hc; cases hc
      | cons a l => rw [hst] at hc; simpa using hc
    have := List.head?_dropWhile_not Sim.isSpace s
    rw [← hr, hrc] at this
    simp only at this
    rw [(isSpace_iff c).2 hw] at this
    exact absurd this (by simp)
  · intro c hc hw
    rw [hs, List.getLast?_reverse] at hc
    have := List.head?_dropWhile_not Sim.isSpace r.reverse
    rw [hc] at this
    simp only at this
    rw [(isSpace_iff c).2 hw] at this
    exact absurd this (by simp)

/-- C79: the file of `save()` is the simulation name without the white space around it, with every blank replaced by an
underscore, followed by `.h5`. It contains no blank. -/
theorem C79_file_name (name : String) :
    ∃ t, Spec.Stripped name.toList t ∧ Spec.FileNameOf t (Sim.fileName name) ∧ ' ' ∉ (Sim.fileName name).toList := by
  refine ⟨Sim.strip name.toList, strip_stripped _, ⟨(Sim.strip name.toList).map fun c => if c = ' ' then '_' else c, by simp, ?_, ?_⟩,
    ?_⟩
  · intro i; simp
  · simp [Sim.fileName]
  · simp only [Sim.fileName, String.toList_append, String.toList_ofList, List.mem_append, List.mem_map, not_or]
    refine ⟨?_, by decide⟩
    rintro ⟨c, _, hc⟩
    split at hc
    · exact absurd hc (by decide)
    · rename_i h; exact h hc

/-- C79, along histories: whatever was called before, the only file that `save()` can change is the one named after the name given to the
constructor, or after `ID_None` if there was none or an empty one. -/
theorem C79_history (C : Classes M A F B L K Vg X) (canOpen : String → Py Unit) (name : Option String) (files : Files)
    (h : List (Spec.Op A × Py Unit)) (s : Sim M A × Files) (hist : Spec.History C canOpen name files h s) (path : String)
    (hp : path ≠ Sim.fileName (if name.getD "" = "" then "ID_None" else name.getD "")) :
    s.2 path = files path ∧ (s.1.save canOpen s.2).2.2 path = files path := by
  obtain ⟨nm, hnm⟩ : ∃ nm, (if name.getD "" = "" then "ID_None" else name.getD "") = nm := ⟨_, rfl⟩
  rw [hnm] at hp
  have key : s.1.name = nm ∧ s.2 path = files path := by
    induction hist with
    | new =>
      refine ⟨?_, rfl⟩
      rw [← hnm]
      cases name with
      | none => simp [Sim.init]
      | some n => simp only [Sim.init, Option.getD_some]
    | @call h s hist op ih =>
      cases op with
      | setup params data => exact ih
      | run =>
        simp only [Spec.exec, Sim.run]
        repeat' split
        all_goals exact ih
      | save =>
        simp only [Spec.exec, Sim.save]
        repeat' split
        · exact ih
        · exact ih
        · refine ⟨ih.1, ?_⟩
          exact (Function.update_of_ne (show path ≠ Sim.fileName s.1.name by rw [ih.1]; exact hp) ..).trans ih.2
  refine ⟨key.2, ?_⟩
  rw [← key.2]
  unfold Sim.save
  split
  · rfl
  · dsimp only
    split
    · rfl
    · exact Function.update_of_ne (by rw [key.1]; exact hp) ..

/-- A history and a path as in `C79_history`: a simulation without a name does not touch the file of one called `a`. -/
example : "a.h5" ≠ Sim.fileName (if (none : Option String).getD "" = "" then "ID_None" else (none : Option String).getD "") := by decide

/-- C79: a saved simulation is found under that name and nowhere else. -/
theorem C79_only_this_file (s : Sim M A) (canOpen : String → Py Unit) (files : Files) (path : String)
    (hp : path ≠ Sim.fileName s.name) : (s.save canOpen files).2.2 path = files path := by
  unfold Sim.save
  split
  · rfl
  · dsimp only
    split
    · rfl
    · exact Function.update_of_ne hp ..

/-- C79 fails in its last clause: the names `a b` and `a_b` are different and give the same file. -/
theorem C79_violated : Sim.fileName "a b" = Sim.fileName "a_b" ∧ "a b" ≠ "a_b" := by
  refine ⟨?_, by decide⟩
  decide

theorem strip_of_no_white {s : List Char} (h : ∀ c ∈ s, ¬ Spec.White c) : Sim.strip s = s := by
  have hn : ∀ c ∈ s, Sim.isSpace c = false := fun c hc => by
    cases hs : Sim.isSpace c
    · rfl
    · exact absurd ((isSpace_iff c).1 hs) (h c hc)
  have dw : ∀ l : List Char, (∀ c ∈ l, Sim.isSpace c = false) → l.dropWhile Sim.isSpace = l := by
    intro l hl
    cases l with
    | nil => rfl
    | cons a l => rw [List.dropWhile_cons, hl a List.mem_cons_self]; rfl
  unfold Sim.strip
  rw [dw s hn, dw _ (fun c hc => hn c (List.mem_reverse.1 hc)), List.reverse_reverse]

/-- C79, last clause, as far as it holds: different names without white space give different files. -/
theorem C79_different_files_partial (n1 n2 : String) (h1 : ∀ c ∈ n1.toList, ¬ Spec.White c)
    (h2 : ∀ c ∈ n2.toList, ¬ Spec.White c) (hne : n1 ≠ n2) : Sim.fileName n1 ≠ Sim.fileName n2 := by
  have key : ∀ n : String, (∀ c ∈ n.toList, ¬ Spec.White c) → (Sim.fileName n).toList = n.toList ++ ['.', 'h', '5'] := by
    intro n hn
    have hm : n.toList.map (fun c => if c = ' ' then '_' else c) = n.toList := by
      conv_rhs => rw [← List.map_id n.toList]
      refine List.map_congr_left fun c hc => ?_
      rw [if_neg]
      · rfl
      · rintro rfl
        exact hn _ hc (by simp [Spec.White])
    simp [Sim.fileName, strip_of_no_white hn, hm]
  intro h
  apply hne
  have := congrArg String.toList h
  rw [key n1 h1, key n2 h2] at this
  exact String.toList_inj.1 (List.append_cancel_right this)

/-- Two names as in `C79_different_files_partial`. -/
example : (∀ c ∈ "Sim_01".toList, ¬ Spec.White c) ∧ (∀ c ∈ "Sim_02".toList, ¬ Spec.White c) ∧ "Sim_01" ≠ "Sim_02" := by
  refine ⟨?_, ?_, by decide⟩ <;>
  · unfold Spec.White
    decide

end VGPA
