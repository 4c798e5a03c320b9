import Verif.Model.Disk
import Verif.Props.SaveLoad

/-!
# C122: interrupted saves
-/

namespace VGPA

noncomputable section

variable {M A : Type}

namespace Spec

/-- The disk has the state `d'` after the process was killed when it had the state `d`. Closed files are as they were. A file that was being written is not readable or
holds some of the first datasets that had been written. -/
def AfterCrash (d d' : Disk) : Prop :=
  ∀ path, match d path with
    | some (.writing c) => d' path = some .damaged ∨ ∃ n, d' path = some (.good (c.take n))
    | x => d' path = x

/-- The disk has the state `d'` at some time after the begin of `save()`: between two of its steps, after its end, or after the process was killed at such a time. -/
def During (F : Faults) (s : Sim M A) (disk d' : Disk) : Prop :=
  ∃ d ∈ disk :: (s.saveSteps F disk).2.2, d' = d ∨ AfterCrash d d'

/-- The disk that a list of files stands for. -/
def diskOf (files : Files) : Disk := fun path => (files path).map .good

/-- No exceptions but those of `canOpen`. -/
def onlyOpen (canOpen : String → Py Unit) (path : String) : Faults where
  open_ := match canOpen path with | .error e => some e | .ok () => none
  write := fun _ => none
  close := none

/-- No failures at all. -/
def noFaults : Faults := ⟨none, fun _ => none, none⟩

/-- `load` returns what a file holds for the output `out`. -/
def LoadsAs (disk : Disk) (path : String) (out : Dict Val) : Prop :=
  ∃ d, loadDisk disk (some path) = .ok d ∧ DistinctKeys d ∧ SameContents out d

/-- The state of the disk when `save()` has returned or raised. -/
def diskAfter (F : Faults) (s : Sim M A) (disk : Disk) : Disk := (s.saveSteps F disk).2.2.getLastD disk

end Spec

/-! ## Auxiliary -/

theorem writeLoop_eq (F : Faults) (hF : ∀ i, F.write i = none) (i : ℕ) (l done : Dict Val) (f : Dict NdArray) :
    (Sim.writeLoop F i l done f).1 = (Sim.saveLoop l done f).1 ∧ (Sim.writeLoop F i l done f).2.1 = (Sim.saveLoop l done f).2.1
      ∧ (Sim.writeLoop F i l done f).2.2.getLastD f = (Sim.saveLoop l done f).2.2 := by
  induction l generalizing i done f with
  | nil => simp [Sim.writeLoop, Sim.saveLoop]
  | cons p l ih =>
    obtain ⟨k, v⟩ := p
    unfold Sim.writeLoop Sim.saveLoop
    simp only [hF]
    cases h : Sim.createDataset f k (Sim.toArray v) with
    | error e => simp
    | ok f' =>
      obtain ⟨h1, h2, h3⟩ := ih (i + 1) (done ++ [(k, .array (Sim.toArray v))]) f'
      exact ⟨h1, h2, by rw [List.getLastD_cons]; exact h3⟩

/-- The contents of the file are always the first datasets. -/
theorem writeLoop_prefix (F : Faults) (i : ℕ) (l done : Dict Val) (f : Dict NdArray) :
    ∀ c ∈ (Sim.writeLoop F i l done f).2.2, ∃ n, c = f ++ (l.map fun kv => (kv.1, Sim.toArray kv.2)).take n := by
  induction l generalizing i done f with
  | nil => simp [Sim.writeLoop]
  | cons p l ih =>
    obtain ⟨k, v⟩ := p
    intro c hc
    unfold Sim.writeLoop at hc
    simp only at hc
    cases hw : F.write i with
    | some e => simp [hw] at hc
    | none =>
      simp only [hw] at hc
      cases h : Sim.createDataset f k (Sim.toArray v) with
      | error e => simp [h] at hc
      | ok f' =>
        have hf' : f' = f ++ [(k, Sim.toArray v)] := by
          unfold Sim.createDataset at h
          split at h
          · exact absurd h (by simp)
          · exact (Except.ok.inj h).symm
        simp only [h, List.mem_cons] at hc
        rcases hc with rfl | hc
        · exact ⟨1, by simp [hf']⟩
        · obtain ⟨n, hn⟩ := ih _ _ _ c hc
          exact ⟨n + 1, by simp [hn, hf']⟩

/-- The values in the output dictionary change at most from numbers to arrays with one entry. -/
theorem writeLoop_output (F : Faults) (i : ℕ) (l done : Dict Val) (f : Dict NdArray) :
    ((Sim.writeLoop F i l done f).2.1).map (fun kv => (kv.1, Sim.toArray kv.2))
      = (done ++ l).map fun kv => (kv.1, Sim.toArray kv.2) := by
  induction l generalizing i done f with
  | nil => simp [Sim.writeLoop]
  | cons p l ih =>
    obtain ⟨k, v⟩ := p
    unfold Sim.writeLoop
    simp only
    have he : Sim.toArray (.array (Sim.toArray v)) = Sim.toArray v := rfl
    cases hw : F.write i with
    | some e => simp [he]
    | none =>
      cases h : Sim.createDataset f k (Sim.toArray v) with
      | error e => simp [he]
      | ok f' =>
        simp only
        rw [ih]
        simp [he]

theorem getLastD_mem_cons {α : Type*} (l : List α) (a : α) : l.getLastD a ∈ a :: l := by
  induction l generalizing a with
  | nil => simp
  | cons b l ih =>
    rw [List.getLastD_cons]
    exact List.mem_cons_of_mem _ (ih b)

theorem steps_form (F : Faults) (s : Sim M A) (disk : Disk) :
    ∀ d ∈ (s.saveSteps F disk).2.2, ∃ x, d = Function.update disk (Sim.fileName s.name) (some x)
      ∧ ((∃ n, x = .writing ((s.output.map fun kv => (kv.1, Sim.toArray kv.2)).take n)) ∨ x = .damaged
        ∨ ∃ n, x = .good ((s.output.map fun kv => (kv.1, Sim.toArray kv.2)).take n)) := by
  intro d hd
  have hpre : ∀ c ∈ [] :: (Sim.writeLoop F 0 s.output [] []).2.2, ∃ n, c = (s.output.map fun kv => (kv.1, Sim.toArray kv.2)).take n := by
    intro c hc
    rcases List.mem_cons.1 hc with rfl | hc
    · exact ⟨0, rfl⟩
    · simpa using writeLoop_prefix F 0 s.output [] [] c hc
  have hw : ∀ d ∈ ([] :: (Sim.writeLoop F 0 s.output [] []).2.2).map
      (fun f => Function.update disk (Sim.fileName s.name) (some (OnDisk.writing f))), ∃ x, d = Function.update disk (Sim.fileName s.name) (some x)
      ∧ ((∃ n, x = OnDisk.writing ((s.output.map fun kv => (kv.1, Sim.toArray kv.2)).take n)) ∨ x = .damaged
        ∨ ∃ n, x = .good ((s.output.map fun kv => (kv.1, Sim.toArray kv.2)).take n)) := by
    intro d hd
    obtain ⟨c, hc, rfl⟩ := List.mem_map.1 hd
    obtain ⟨n, hn⟩ := hpre c hc
    exact ⟨_, rfl, .inl ⟨n, by rw [hn]⟩⟩
  unfold Sim.saveSteps at hd
  split at hd
  · simp at hd
  · dsimp only at hd
    split at hd
    · simp at hd
    · split at hd
      · rcases List.mem_append.1 hd with hd | hd
        · exact hw d hd
        · obtain ⟨n, hn⟩ := hpre _ (getLastD_mem_cons (Sim.writeLoop F 0 s.output [] []).2.2 [])
          exact ⟨_, List.mem_singleton.1 hd, .inr (.inr ⟨n, by rw [hn]⟩)⟩
      · rcases List.mem_append.1 hd with hd | hd
        · exact hw d hd
        · exact ⟨_, List.mem_singleton.1 hd, .inr (.inl rfl)⟩

/-! ## C122 -/

/-- The steps refine `save` of `Model/Simulation`: when only the opening can fail, the result and the object are the same, and so is the disk afterwards. -/
theorem C122_refines (s : Sim M A) (canOpen : String → Py Unit) (files : Files) :
    let F := Spec.onlyOpen canOpen (Sim.fileName s.name)
    (s.saveSteps F (Spec.diskOf files)).1 = (s.save canOpen files).1
      ∧ (s.saveSteps F (Spec.diskOf files)).2.1 = (s.save canOpen files).2.1
      ∧ Spec.diskAfter F s (Spec.diskOf files) = Spec.diskOf (s.save canOpen files).2.2 := by
  intro F
  have hw : ∀ i, F.write i = none := fun _ => rfl
  have hc : F.close = none := rfl
  unfold Spec.diskAfter Sim.saveSteps Sim.save
  by_cases he : s.output.isEmpty
  · simp [he]
  · simp only [he, Bool.false_eq_true, if_false]
    cases ho : canOpen (Sim.fileName s.name) with
    | error e =>
      have : F.open_ = some e := by simp only [F, Spec.onlyOpen, ho]
      simp [this]
    | ok u =>
      have : F.open_ = none := by simp only [F, Spec.onlyOpen, ho]
      obtain ⟨h1, h2, h3⟩ := writeLoop_eq F hw 0 s.output [] []
      simp only [this, hc]
      refine ⟨h1, by rw [h2], ?_⟩
      rw [h3]
      simp only [List.getLastD_eq_getLast?, List.getLast?_append, List.getLast?_singleton]
      funext path
      by_cases hp : path = Sim.fileName s.name
      · subst hp
        simp [Spec.diskOf]
      · simp [Spec.diskOf, Function.update_of_ne hp]

/-- C122: whatever fails and whenever the process is killed, `save()` has no influence on any file but its own. -/
theorem C122_other_files (F : Faults) (s : Sim M A) (files : Files) (d' : Disk) (h : Spec.During F s (Spec.diskOf files) d')
    (path : String) (hp : path ≠ Sim.fileName s.name) : d' path = Spec.diskOf files path := by
  obtain ⟨d, hd, h⟩ := h
  have hdp : d path = Spec.diskOf files path := by
    rcases List.mem_cons.1 hd with rfl | hd
    · rfl
    · obtain ⟨x, rfl, -⟩ := steps_form F s _ d hd
      exact Function.update_of_ne hp ..
  rcases h with rfl | h
  · exact hdp
  · have := h path
    rw [hdp] at this
    cases hf : files path with
    | none =>
      simp only [Spec.diskOf, hf, Option.map_none] at this ⊢
      exact this
    | some c =>
      simp only [Spec.diskOf, hf, Option.map_some] at this ⊢
      exact this

/-- C122, what holds for the file itself: at any time during a `save()`, and after it has been killed or has failed, the file is as it was before, is not readable, or holds the first `n` entries of the output. Missing: that it holds
everything or is as before, see `C122_violated`. -/
theorem C122_own_file_partial (F : Faults) (s : Sim M A) (files : Files) (d' : Disk) (h : Spec.During F s (Spec.diskOf files) d') :
    d' (Sim.fileName s.name) = Spec.diskOf files (Sim.fileName s.name)
      ∨ (∃ e, loadDisk d' (some (Sim.fileName s.name)) = .error e)
      ∨ ∃ n, d' (Sim.fileName s.name) = some (.good ((s.output.map fun kv => (kv.1, Sim.toArray kv.2)).take n)) := by
  obtain ⟨d, hd, h⟩ := h
  rcases List.mem_cons.1 hd with rfl | hd
  · left
    rcases h with rfl | h
    · rfl
    · have := h (Sim.fileName s.name)
      cases hf : files (Sim.fileName s.name) with
      | none =>
        simp only [Spec.diskOf, hf, Option.map_none] at this ⊢
        exact this
      | some c =>
        simp only [Spec.diskOf, hf, Option.map_some] at this ⊢
        exact this
  · right
    obtain ⟨x, rfl, hx⟩ := steps_form F s _ d hd
    rcases h with rfl | h
    · rcases hx with ⟨n, rfl⟩ | rfl | ⟨n, rfl⟩
      · left
        exact ⟨.osError, by simp [loadDisk]⟩
      · left
        exact ⟨.osError, by simp [loadDisk]⟩
      · right
        exact ⟨n, by simp⟩
    · have h' := h (Sim.fileName s.name)
      rw [Function.update_self] at h'
      rcases hx with ⟨n, rfl⟩ | rfl | ⟨n, rfl⟩
      · rcases h' with h' | ⟨k, h'⟩
        · left
          exact ⟨.osError, by simp [loadDisk, h']⟩
        · right
          exact ⟨min k n, by rw [h', List.take_take]⟩
      · left
        exact ⟨.osError, by simp [loadDisk, h']⟩
      · right
        exact ⟨n, h'⟩

/-- The loop without exceptions writes everything. -/
theorem writeLoop_ok (F : Faults) (i : ℕ) (l done : Dict Val) (f : Dict NdArray) (h : (Sim.writeLoop F i l done f).1 = .ok ()) :
    (Sim.writeLoop F i l done f).2.2.getLastD f = f ++ l.map fun kv => (kv.1, Sim.toArray kv.2) := by
  induction l generalizing i done f with
  | nil => simp [Sim.writeLoop]
  | cons p l ih =>
    obtain ⟨k, v⟩ := p
    unfold Sim.writeLoop at h ⊢
    simp only at h ⊢
    cases hw : F.write i with
    | some e => simp [hw] at h
    | none =>
      simp only [hw] at h ⊢
      cases hc : Sim.createDataset f k (Sim.toArray v) with
      | error e => simp [hc] at h
      | ok f' =>
        have hf' : f' = f ++ [(k, Sim.toArray v)] := by
          unfold Sim.createDataset at hc
          split at hc
          · exact absurd hc (by simp)
          · exact (Except.ok.inj hc).symm
        simp only [hc] at h ⊢
        rw [List.getLastD_cons, ih _ _ _ h, hf']
        simp

theorem diskAfter_own (F : Faults) (s : Sim M A) (disk : Disk) (hne : s.output ≠ []) (ho : F.open_ = none) :
    Spec.diskAfter F s disk = Function.update disk (Sim.fileName s.name)
      (some (match F.close with | none => .good ((Sim.writeLoop F 0 s.output [] []).2.2.getLastD []) | some _ => .damaged)) := by
  have he : s.output.isEmpty = false := by simpa using hne
  unfold Spec.diskAfter Sim.saveSteps
  simp only [he, Bool.false_eq_true, if_false, ho]
  cases F.close <;>
    simp only [List.getLastD_eq_getLast?, List.getLast?_append, List.getLast?_singleton, Option.or_some, Option.some_or, Option.getD_some]

theorem loadDisk_good {disk : Disk} {path : String} {d : Dict NdArray} (hf : disk path = some (.good d)) (h : Spec.DistinctKeys d) :
    loadDisk disk (some path) = .ok d := by
  have := load_eq (files := fun _ => some d) (path := path) rfl h
  unfold load at this
  unfold loadDisk
  simp only [hf]
  exact this

theorem distinct_stored {l : Dict Val} (h : Spec.DistinctKeys l) : Spec.DistinctKeys (l.map fun kv => (kv.1, Sim.toArray kv.2)) := by
  unfold Spec.DistinctKeys at *
  simpa [List.map_map, Function.comp_def] using h

/-- C122: when `save()` returns without an exception, everything is in the file, also when the disk is not perfect. -/
theorem C122_returned (F : Faults) (s : Sim M A) (disk : Disk) (hd : Spec.DistinctKeys s.output) (hne : s.output ≠ [])
    (h : (s.saveSteps F disk).1 = .ok ()) : Spec.LoadsAs (Spec.diskAfter F s disk) (Sim.fileName s.name) s.output := by
  have he : s.output.isEmpty = false := by simpa using hne
  have ho : F.open_ = none := by
    unfold Sim.saveSteps at h
    simp only [he, Bool.false_eq_true, if_false] at h
    cases ho : F.open_ with
    | none => rfl
    | some e => simp [ho] at h
  have hc : F.close = none ∧ (Sim.writeLoop F 0 s.output [] []).1 = .ok () := by
    unfold Sim.saveSteps at h
    simp only [he, Bool.false_eq_true, if_false, ho] at h
    cases hc : F.close with
    | none => simpa [hc] using h
    | some e => simp [hc] at h
  refine ⟨s.output.map fun kv => (kv.1, Sim.toArray kv.2), loadDisk_good ?_ (distinct_stored hd), distinct_stored hd, lookup_stored _⟩
  rw [diskAfter_own F s disk hne ho, Function.update_self, hc.1, writeLoop_ok F 0 _ _ _ hc.2]
  simp

theorem steps_output (F : Faults) (s : Sim M A) (disk : Disk) :
    ((s.saveSteps F disk).2.1.output).map (fun kv => (kv.1, Sim.toArray kv.2)) = s.output.map (fun kv => (kv.1, Sim.toArray kv.2))
      ∧ (s.saveSteps F disk).2.1.name = s.name := by
  unfold Sim.saveSteps
  split
  · simp
  · dsimp only
    split
    · simp
    · have := writeLoop_output F 0 s.output [] []
      split <;> exact ⟨by simpa using this, rfl⟩

theorem noFaults_ok (s : Sim M A) (disk : Disk) (hd : Spec.DistinctKeys s.output) : (s.saveSteps Spec.noFaults disk).1 = .ok () := by
  unfold Sim.saveSteps
  split
  · rfl
  · have h := (writeLoop_eq Spec.noFaults (fun _ => rfl) 0 s.output [] []).1
    rw [saveLoop_eq _ _ _ (by simpa using (show (s.output.map Prod.fst).Nodup from hd))] at h
    simpa [Spec.noFaults] using h

/-- C122: after an interruption the results can be saved again. Whatever failed in an earlier `save()` of the object, and whatever the disk holds by now, a `save()` that meets no failure
returns normally, and the file then holds the output that the object had before the first attempt. -/
theorem C122_again (F : Faults) (s : Sim M A) (disk disk' : Disk) (hd : Spec.DistinctKeys s.output) (hne : s.output ≠ []) :
    let s' := (s.saveSteps F disk).2.1
    (s'.saveSteps Spec.noFaults disk').1 = .ok ()
      ∧ Spec.LoadsAs (Spec.diskAfter Spec.noFaults s' disk') (Sim.fileName s.name) s.output := by
  intro s'
  obtain ⟨hout, hname⟩ := steps_output F s disk
  have hkeys : (s'.output.map Prod.fst) = s.output.map Prod.fst := by
    have := congrArg (List.map Prod.fst) hout
    simpa [List.map_map, Function.comp_def] using this
  have hd' : Spec.DistinctKeys s'.output := by
    unfold Spec.DistinctKeys at *
    rw [hkeys]
    exact hd
  have hne' : s'.output ≠ [] := by
    intro h0
    rw [h0] at hkeys
    exact hne (by simpa using hkeys.symm)
  have hok := noFaults_ok s' disk' hd'
  refine ⟨hok, s.output.map fun kv => (kv.1, Sim.toArray kv.2), loadDisk_good ?_ (distinct_stored hd), distinct_stored hd, lookup_stored _⟩
  have hw : (Sim.writeLoop Spec.noFaults 0 s'.output [] []).1 = .ok () := by
    have h := (writeLoop_eq Spec.noFaults (fun _ => rfl) 0 s'.output [] []).1
    rw [saveLoop_eq _ _ _ (by simpa using (show (s'.output.map Prod.fst).Nodup from hd'))] at h
    exact h
  rw [diskAfter_own Spec.noFaults s' disk' hne' rfl, show s'.name = s.name from hname, Function.update_self]
  have := writeLoop_ok Spec.noFaults 0 _ _ _ hw
  rw [show Spec.noFaults.close = none from rfl, this]
  simpa using hout

/-- A failure at the `n`-th dataset leaves the first `n`. -/
theorem writeLoop_fault (F : Faults) (e : PyErr) (n i : ℕ) (l done : Dict Val) (f : Dict NdArray) (hn : n < l.length)
    (h : (f.map Prod.fst ++ l.map Prod.fst).Nodup) (hF : ∀ j < n, F.write (i + j) = none) (he : F.write (i + n) = some e) :
    (Sim.writeLoop F i l done f).1 = .error e
      ∧ (Sim.writeLoop F i l done f).2.2.getLastD f = f ++ (l.map fun kv => (kv.1, Sim.toArray kv.2)).take n := by
  induction n generalizing i l done f with
  | zero =>
    obtain _ | ⟨⟨k, v⟩, l⟩ := l
    · simp at hn
    · unfold Sim.writeLoop
      simp only [Nat.add_zero] at he
      simp [he]
  | succ n ih =>
    obtain _ | ⟨⟨k, v⟩, l⟩ := l
    · simp at hn
    · have hk : k ∉ f.map Prod.fst := by
        rw [List.nodup_append] at h
        intro hm
        exact h.2.2 k hm k (by simp) rfl
      have h0 : F.write i = none := hF 0 (by omega)
      unfold Sim.writeLoop Sim.createDataset
      rw [lookup_none_iff_keys.2 hk]
      simp only [h0, Option.isSome_none, Bool.false_eq_true, if_false]
      obtain ⟨h1, h2⟩ := ih (i + 1) l (done ++ [(k, .array (Sim.toArray v))]) (f ++ [(k, Sim.toArray v)]) (by simpa using hn)
        (by simpa using h) (fun j hj => by have := hF (j + 1) (by omega); rwa [show i + 1 + j = i + (j + 1) by omega])
        (by rwa [show i + 1 + n = i + (n + 1) by omega])
      exact ⟨h1, by rw [List.getLastD_cons, h2]; simp⟩

/-- C122, the part that fails: `save()` does not replace the old results by the new ones in one step. For every simulation with results there is a time at which a kill leaves a file that cannot be read, whatever it held before;
and when the disk fails at the `n`-th of the results, `save()` raises, the old contents are gone and the file can be read without any sign that only the first `n` results are in it. -/
theorem C122_violated (s : Sim M A) (hne : s.output ≠ []) (hd : Spec.DistinctKeys s.output) (files : Files) :
    (∃ d', Spec.During Spec.noFaults s (Spec.diskOf files) d' ∧ loadDisk d' (some (Sim.fileName s.name)) = .error .osError)
      ∧ ∀ n < s.output.length, ∃ F, (s.saveSteps F (Spec.diskOf files)).1 = .error .osError
        ∧ ∃ d, loadDisk (Spec.diskAfter F s (Spec.diskOf files)) (some (Sim.fileName s.name)) = .ok d
          ∧ d.map Prod.fst = (s.output.map Prod.fst).take n := by
  have he : s.output.isEmpty = false := by simpa using hne
  constructor
  · refine ⟨Function.update (Spec.diskOf files) (Sim.fileName s.name) (some .damaged),
      ⟨Function.update (Spec.diskOf files) (Sim.fileName s.name) (some (.writing [])), ?_, .inr ?_⟩, by simp [loadDisk]⟩
    · refine List.mem_cons_of_mem _ ?_
      unfold Sim.saveSteps
      simp [he, Spec.noFaults]
    · intro path
      by_cases hp : path = Sim.fileName s.name
      · subst hp
        simp
      · rw [Function.update_of_ne hp, Function.update_of_ne hp]
        cases hf : files path <;> simp [Spec.diskOf, hf]
  · intro n hn
    let F : Faults := ⟨none, fun i => if i = n then some .osError else none, none⟩
    obtain ⟨h1, h2⟩ := writeLoop_fault F .osError n 0 s.output [] [] hn (by simpa using (show (s.output.map Prod.fst).Nodup from hd))
      (fun j hj => by simp only [F, Nat.zero_add]; exact if_neg (by omega)) (by simp [F])
    refine ⟨F, ?_, (s.output.map fun kv => (kv.1, Sim.toArray kv.2)).take n, loadDisk_good ?_ ?_, ?_⟩
    · unfold Sim.saveSteps
      simp only [he, Bool.false_eq_true, if_false]
      exact h1
    · rw [diskAfter_own F s _ hne rfl, Function.update_self, show F.close = none from rfl, h2]
      simp
    · unfold Spec.DistinctKeys
      rw [List.map_take]
      exact (show (List.map Prod.fst _).Nodup from distinct_stored hd).sublist (List.take_sublist _ _)
    · rw [List.map_take, List.map_map]
      rfl

/-- The objects that the theorems speak of exist: two results, a file with older ones, a disk that fails at the second dataset, and a disk that does not fail, for which `save()` returns. -/
example : ∃ (s : Sim Unit Unit) (files : Files) (F : Faults), s.output.length = 2 ∧ Spec.DistinctKeys s.output
    ∧ files (Sim.fileName s.name) = some [("old", ⟨[1], [5]⟩)] ∧ (s.saveSteps F (Spec.diskOf files)).1 = .error .osError
    ∧ (s.saveSteps Spec.noFaults (Spec.diskOf files)).1 = .ok () := by
  have hd : Spec.DistinctKeys [("at", Val.array ⟨[2], [1, 2]⟩), ("fx", .scalar 3)] := by simp [Spec.DistinctKeys]
  obtain ⟨F, hF, -⟩ := (C122_violated (⟨"Sim 01", {}, [("at", .array ⟨[2], [1, 2]⟩), ("fx", .scalar 3)]⟩ : Sim Unit Unit) (by simp) hd
    (fun _ => some [("old", ⟨[1], [5]⟩)])).2 1 (by simp)
  exact ⟨_, _, F, rfl, hd, rfl, hF, noFaults_ok _ _ hd⟩

end

end VGPA
