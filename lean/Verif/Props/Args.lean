import Verif.Model.Args
import Verif.Spec.Args
import Verif.Props.Main

/-!
# C126: the command line
-/

namespace VGPA

theorem optionActions_eq : optionActions = [(['-', 'h'], .help), (['-', '-', 'h', 'e', 'l', 'p'], .help),
    (['-', '-', 'p', 'a', 'r', 'a', 'm', 's'], .params), (['-', '-', 'd', 'a', 't', 'a'], .data)] := by
  simp [optionActions]

/-- The word `o` or `o=e`. -/
def wordOf (o : List Char) (e : Option (List Char)) : List Char :=
  match e with
  | none => o
  | some r => o ++ '=' :: r

theorem partitionEq_wordOf (o : List Char) (e : Option (List Char)) (ho : '=' ∉ o) : partitionEq (wordOf o e) = (o, e) := by
  have h : ∀ c ∈ o, decide (c ≠ '=') = true := fun c hc => by
    simp only [decide_eq_true_eq]; rintro rfl; exact ho hc
  rcases e with - | r
  · show (o.takeWhile _, match o.dropWhile _ with | [] => none | _ :: r => some r) = _
    have h0 := List.dropWhile_append_of_pos (l₂ := []) h
    simp only [List.append_nil, List.dropWhile_nil] at h0
    rw [h0]
    have := List.takeWhile_append_of_pos (l₂ := []) h
    simp only [List.append_nil, List.takeWhile_nil] at this
    rw [this]
  · show ((o ++ '=' :: r).takeWhile _, match (o ++ '=' :: r).dropWhile _ with | [] => none | _ :: r => some r) = _
    rw [List.takeWhile_append_of_pos h, List.dropWhile_append_of_pos h]
    simp

theorem wordOf_partitionEq (w : List Char) : w = wordOf (partitionEq w).1 (partitionEq w).2 ∧ '=' ∉ (partitionEq w).1 := by
  constructor
  · unfold partitionEq wordOf
    simp only
    conv_lhs => rw [← List.takeWhile_append_dropWhile (p := fun c => decide (c ≠ '=')) (l := w)]
    rcases hd : w.dropWhile (fun c => decide (c ≠ '=')) with - | ⟨c, r⟩
    · simp
    · have := List.head_dropWhile_not (fun c => decide (c ≠ '=')) (l := w) (by rw [hd]; simp)
      simp only [hd, List.head_cons, decide_eq_false_iff_not, not_not] at this
      subst this
      simp
  · intro h
    have : ∀ l : List Char, '=' ∉ l.takeWhile fun c => decide (c ≠ '=') := by
      intro l
      induction l with
      | nil => simp
      | cons c l ih =>
        by_cases hc : c = '='
        · subst hc; simp
        · simp only [List.takeWhile_cons, ne_eq, hc, not_false_eq_true, decide_true, if_true, List.mem_cons, not_or]
          exact ⟨fun h => hc h.symm, ih⟩
    exact this w h

theorem prefixes {L o : List Char} (h : o <+: L) : o ∈ L.inits := List.mem_inits _ _ |>.2 h

theorem parseOptional_params {o : List Char} (e : Option (List Char)) (h : o <+: "--params".toList) (hl : 3 ≤ o.length) :
    parseOptional (wordOf o e) = .opt ⟨.params, false, e.isSome, e⟩ := by
  have hm := prefixes h
  simp at hm
  rcases hm with rfl | rfl | rfl | rfl | rfl | rfl | rfl | rfl | rfl <;> first | (simp at hl; done) | skip
  all_goals
    unfold parseOptional optionTuples
    rw [partitionEq_wordOf _ _ (by decide), optionActions_eq]
    rcases e with - | r <;> rfl

theorem parseOptional_data {o : List Char} (e : Option (List Char)) (h : o <+: "--data".toList) (hl : 3 ≤ o.length) :
    parseOptional (wordOf o e) = .opt ⟨.data, false, e.isSome, e⟩ := by
  have hm := prefixes h
  simp at hm
  rcases hm with rfl | rfl | rfl | rfl | rfl | rfl | rfl <;> first | (simp at hl; done) | skip
  all_goals
    unfold parseOptional optionTuples
    rw [partitionEq_wordOf _ _ (by decide), optionActions_eq]
    rcases e with - | r <;> rfl

theorem parseOptional_help {o : List Char} (e : Option (List Char)) (h : o <+: "--help".toList) (hl : 3 ≤ o.length) :
    parseOptional (wordOf o e) = .opt ⟨.help, false, e.isSome, e⟩ := by
  have hm := prefixes h
  simp at hm
  rcases hm with rfl | rfl | rfl | rfl | rfl | rfl | rfl <;> first | (simp at hl; done) | skip
  all_goals
    unfold parseOptional optionTuples
    rw [partitionEq_wordOf _ _ (by decide), optionActions_eq]
    rcases e with - | r <;> rfl

theorem parseOptional_dashes (r : List Char) : parseOptional (wordOf ['-', '-'] (some r)) = .ambiguous := by
  unfold parseOptional optionTuples
  rw [partitionEq_wordOf _ _ (by decide), optionActions_eq]
  rfl

theorem parseOptional_h (t : List Char) : ∃ sep e, parseOptional ('-' :: 'h' :: t) = .opt ⟨.help, true, sep, e⟩ := by
  rcases t with - | ⟨c, t⟩
  · exact ⟨_, _, rfl⟩
  · by_cases hc : c = '='
    · subst hc
      refine ⟨true, some t, ?_⟩
      show parseOptional (wordOf ['-', 'h'] (some t)) = _
      unfold parseOptional optionTuples
      rw [partitionEq_wordOf _ _ (by decide), optionActions_eq]
      rfl
    · refine ⟨false, some (c :: t), ?_⟩
      unfold parseOptional optionTuples partitionEq
      rw [optionActions_eq]
      have h1 : List.takeWhile (fun x => decide (x ≠ '=')) ('-' :: 'h' :: c :: t) = '-' :: 'h' :: c :: List.takeWhile (fun x => decide (x ≠ '=')) t := by
        simp [hc]
      rw [h1]
      show (match (if (match List.dropWhile _ ('-' :: 'h' :: c :: t) with | [] => none | _ :: r => some r).isSome then (none : Option ArgAction) else none) with
        | some a => _ | none => _) = _
      rw [ite_self]
      rfl

theorem parseOptional_other {w : List Char} (hw : ∃ c t, w = '-' :: c :: t) (h1 : ¬ ∃ t, w = '-' :: 'h' :: t)
    (h2 : (partitionEq w).1 ≠ ['-', '-']) (h3 : ∀ L ∈ ["--params".toList, "--data".toList, "--help".toList], (partitionEq w).1 <+: L → ¬ 3 ≤ (partitionEq w).1.length) :
    parseOptional w = if negativeNumber w then .arg else if ' ' ∈ w then .arg else .unknown := by
  obtain ⟨c, t, rfl⟩ := hw
  have hh : c ≠ 'h' := by rintro rfl; exact h1 ⟨t, rfl⟩
  have hlook : ∀ v : List Char, (∀ L ∈ ["--params".toList, "--data".toList, "--help".toList], v ≠ L) → v ≠ ['-', 'h'] →
      optionActions.lookup v = none := by
    intro v hv hv'
    rw [List.lookup_eq_none_iff]
    rw [optionActions_eq]
    simp at hv ⊢
    tauto
  have hpart : ∀ L ∈ ["--params".toList, "--data".toList, "--help".toList], (partitionEq ('-' :: c :: t)).1 ≠ L := by
    intro L hL he
    refine h3 L hL (he ▸ List.prefix_rfl) ?_
    rw [he]
    simp at hL
    rcases hL with rfl | rfl | rfl <;> simp
  have hfst : ∀ x y, (partitionEq ('-' :: c :: t)).1 = x → y ∈ x → y ≠ '=' := by
    rintro _ y rfl hy rfl
    exact (wordOf_partitionEq _).2 hy
  have e1 : optionActions.lookup ('-' :: c :: t) = none := by
    refine hlook _ (fun L hL he => ?_) (by simp [hh])
    have : '=' ∉ L := by
      simp at hL
      rcases hL with rfl | rfl | rfl <;> decide
    have h4 := partitionEq_wordOf L none this
    refine hpart L hL ?_
    rw [he]
    exact congrArg Prod.fst h4
  have hcons : ∃ u, (partitionEq ('-' :: c :: t)).1 = '-' :: u ∧ (u = [] ∨ ∃ u', u = c :: u') := by
    unfold partitionEq
    by_cases hc : c = '='
    · exact ⟨[], by simp [hc], .inl rfl⟩
    · exact ⟨c :: t.takeWhile fun x => decide (x ≠ '='), by simp [hc], .inr ⟨_, rfl⟩⟩
  obtain ⟨u, hu, hu'⟩ := hcons
  have e2 : optionActions.lookup (partitionEq ('-' :: c :: t)).1 = none := by
    refine hlook _ hpart ?_
    rw [hu]
    rcases hu' with rfl | ⟨u', rfl⟩ <;> simp [hh]
  have e3 : optionTuples ('-' :: c :: t) = [] := by
    unfold optionTuples
    rw [optionActions_eq]
    by_cases hc : c = '-'
    · subst hc
      rw [if_pos (by rfl)]
      have hne : u ≠ [] := by
        rintro rfl
        unfold partitionEq at hu
        simp at hu
      obtain ⟨u', rfl⟩ := hu'.resolve_left hne
      have hlen : u' ≠ [] := by rintro rfl; exact h2 hu
      have h3' : ∀ L ∈ ["--params".toList, "--data".toList, "--help".toList], ¬ ('-' :: '-' :: u') <+: L := by
        intro L hL hp
        rw [hu] at h3
        refine h3 L hL hp ?_
        rcases u' with - | ⟨a, u'⟩
        · exact absurd rfl hlen
        · simp
      rw [List.map_eq_nil_iff, List.filter_eq_nil_iff, hu]
      intro x hx hp
      rw [List.isPrefixOf_iff_prefix] at hp
      simp only [List.mem_cons, List.not_mem_nil, or_false] at hx
      rcases hx with rfl | rfl | rfl | rfl
      · simp at hp
      · exact h3' _ (by simp) hp
      · exact h3' _ (by simp) hp
      · exact h3' _ (by simp) hp
    · rw [if_neg (by simpa using hc)]
      rw [List.filterMap_eq_nil_iff]
      intro x hx
      simp only [List.mem_cons, List.not_mem_nil, or_false] at hx
      rcases hx with rfl | rfl | rfl | rfl <;> simp [hc, Ne.symm hc, hh, Ne.symm hh, List.isPrefixOf]
  show (match optionActions.lookup ('-' :: c :: t) with | some a => _ | none => _) = _
  rw [e1, e2, ite_self, e3]
  rfl

theorem parseOptional_plain {w : List Char} (h : w = [] ∨ (∃ c t, w = c :: t ∧ c ≠ '-') ∨ w = ['-']) : parseOptional w = .arg := by
  rcases h with rfl | ⟨c, t, rfl, hc⟩ | rfl
  · rfl
  · show (if c ≠ '-' then WordKind.arg else _) = _
    rw [if_pos hc]
  · rfl

theorem List.all_takeWhile' {p : Char → Bool} {l : List Char} {c : Char} (h : c ∈ l.takeWhile p) : p c = true := by
  induction l with
  | nil => simp at h
  | cons a l ih =>
    rw [List.takeWhile_cons] at h
    split at h
    · rcases List.mem_cons.1 h with rfl | h
      · assumption
      · exact ih h
    · simp at h

theorem negativeNumber_iff (v : String) : negativeNumber v.toList = true ↔ Spec.NegativeNumber v := by
  unfold Spec.NegativeNumber
  generalize v.toList = w
  constructor
  · intro h
    unfold negativeNumber at h
    split at h
    · next t =>
      rw [Bool.or_eq_true] at h
      rcases h with h | h
      · simp only [ne_eq, Bool.and_eq_true, decide_eq_true_eq, List.all_eq_true] at h
        exact ⟨t, [], h.2, by simp, .inl ⟨h.1, rfl⟩⟩
      · split at h
        · next r hr =>
          simp only [ne_eq, Bool.and_eq_true, decide_eq_true_eq, List.all_eq_true] at h
          refine ⟨t.takeWhile Char.isDigit, r, fun c hc => List.all_takeWhile' hc, h.2, .inr ⟨h.1, ?_⟩⟩
          rw [← hr, List.takeWhile_append_dropWhile]
        · cases h
    · cases h
  · rintro ⟨a, b, ha, hb, ⟨h0, rfl⟩ | ⟨h0, rfl⟩⟩
    · simp only [negativeNumber, Bool.or_eq_true]
      left
      simp only [ne_eq, Bool.and_eq_true, decide_eq_true_eq, List.all_eq_true]
      exact ⟨h0, ha⟩
    · simp only [negativeNumber, Bool.or_eq_true]
      right
      rw [List.dropWhile_append_of_pos ha]
      have : Char.isDigit '.' = false := by decide
      simp only [List.dropWhile_cons, this]
      simp only [Bool.false_eq_true, if_false, ne_eq, Bool.and_eq_true, decide_eq_true_eq, List.all_eq_true]
      exact ⟨h0, hb⟩

theorem shortFor_iff (full w : String) : Spec.ShortFor full w ↔ w.toList <+: full.toList ∧ 3 ≤ w.toList.length := by
  unfold Spec.ShortFor
  rw [String.length_toList]
  constructor
  · rintro ⟨⟨t, rfl⟩, h⟩
    exact ⟨⟨t.toList, by rw [String.toList_append]⟩, h⟩
  · rintro ⟨⟨t, ht⟩, h⟩
    refine ⟨⟨String.ofList t, ?_⟩, h⟩
    rw [← String.toList_inj, String.toList_append, String.toList_ofList, ht]

theorem wordOf_none (w : String) : wordOf w.toList none = w.toList := rfl

theorem wordOf_some (w t : String) : wordOf w.toList (some t.toList) = (w ++ "=" ++ t).toList := by
  simp [wordOf, String.toList_append]

/-- `v` is the word `w`, or `w` with `=` and more. -/
def Writes (v w : String) : Prop := ∃ e : Option (List Char), v.toList = wordOf w.toList e

theorem writes_iff (v w : String) : Writes v w ↔ ∃ t, v = w ∨ v = w ++ "=" ++ t := by
  constructor
  · rintro ⟨- | r, h⟩
    · exact ⟨"", .inl (String.toList_inj.1 h)⟩
    · refine ⟨String.ofList r, .inr (String.toList_inj.1 ?_)⟩
      rw [h, ← wordOf_some, String.toList_ofList]
  · rintro ⟨t, rfl | rfl⟩
    · exact ⟨none, rfl⟩
    · exact ⟨some t.toList, (wordOf_some w t).symm⟩

theorem kinds (v : String) (hv : v ≠ "--") :
    (v = "" ∨ (∃ c t, v.toList = c :: t ∧ c ≠ '-') ∨ v = "-")
    ∨ (∃ t, v.toList = '-' :: 'h' :: t)
    ∨ (∃ w, Spec.ShortFor "--params" w ∧ Writes v w) ∨ (∃ w, Spec.ShortFor "--data" w ∧ Writes v w)
    ∨ (∃ w, Spec.ShortFor "--help" w ∧ Writes v w)
    ∨ (∃ r, v.toList = wordOf ['-', '-'] (some r))
    ∨ ((∃ c t, v.toList = '-' :: c :: t) ∧ parseOptional v.toList = if negativeNumber v.toList then .arg else if ' ' ∈ v.toList then .arg else .unknown) := by
  obtain ⟨hw, hne⟩ := wordOf_partitionEq v.toList
  rcases hl : v.toList with - | ⟨c, t⟩
  · exact .inl (.inl (String.toList_inj.1 hl))
  by_cases hc : c = '-'
  swap
  · exact .inl (.inr (.inl ⟨c, t, rfl, hc⟩))
  subst hc
  rcases t with - | ⟨c, t⟩
  · exact .inl (.inr (.inr (String.toList_inj.1 hl)))
  by_cases h1 : ∃ t', '-' :: c :: t = '-' :: 'h' :: t'
  · exact .inr (.inl h1)
  have hW : Writes v (String.ofList (partitionEq v.toList).1) := ⟨(partitionEq v.toList).2, by rw [String.toList_ofList]; exact hw⟩
  have hS : ∀ full : String, (partitionEq v.toList).1 <+: full.toList → 3 ≤ (partitionEq v.toList).1.length →
      Spec.ShortFor full (String.ofList (partitionEq v.toList).1) := fun full a b => by
    rw [shortFor_iff, String.toList_ofList]; exact ⟨a, b⟩
  rw [hl] at hw hne hS hW
  by_cases h2 : (partitionEq ('-' :: c :: t)).1 = ['-', '-']
  · refine .inr (.inr (.inr (.inr (.inr (.inl ?_)))))
    rw [h2] at hw
    rcases he : (partitionEq ('-' :: c :: t)).2 with - | r
    · rw [he] at hw
      exact absurd (String.toList_inj.1 (hl.trans (hw.trans (by simp [wordOf])))) hv
    · exact ⟨r, by rw [he] at hw; exact hw⟩
  by_cases h3 : ∀ L ∈ ["--params".toList, "--data".toList, "--help".toList],
      (partitionEq ('-' :: c :: t)).1 <+: L → ¬ 3 ≤ (partitionEq ('-' :: c :: t)).1.length
  · exact .inr (.inr (.inr (.inr (.inr (.inr ⟨⟨c, t, rfl⟩, parseOptional_other ⟨c, t, rfl⟩ h1 h2 h3⟩)))))
  · push Not at h3
    obtain ⟨L, hL, hp, hlen⟩ := h3
    simp only [List.mem_cons, List.not_mem_nil, or_false] at hL
    rcases hL with rfl | rfl | rfl
    · exact .inr (.inr (.inl ⟨_, hS _ hp hlen, hW⟩))
    · exact .inr (.inr (.inr (.inl ⟨_, hS _ hp hlen, hW⟩)))
    · exact .inr (.inr (.inr (.inr (.inl ⟨_, hS _ hp hlen, hW⟩))))

theorem kind_params {v w : String} (h : Spec.ShortFor "--params" w) (e : Option (List Char)) (hv : v.toList = wordOf w.toList e) :
    parseOptional v.toList = .opt ⟨.params, false, e.isSome, e⟩ := by
  rw [hv]
  exact parseOptional_params e ((shortFor_iff _ _).1 h).1 ((shortFor_iff _ _).1 h).2

theorem kind_data {v w : String} (h : Spec.ShortFor "--data" w) (e : Option (List Char)) (hv : v.toList = wordOf w.toList e) :
    parseOptional v.toList = .opt ⟨.data, false, e.isSome, e⟩ := by
  rw [hv]
  exact parseOptional_data e ((shortFor_iff _ _).1 h).1 ((shortFor_iff _ _).1 h).2

theorem kind_help {v w : String} (h : Spec.ShortFor "--help" w) (e : Option (List Char)) (hv : v.toList = wordOf w.toList e) :
    parseOptional v.toList = .opt ⟨.help, false, e.isSome, e⟩ := by
  rw [hv]
  exact parseOptional_help e ((shortFor_iff _ _).1 h).1 ((shortFor_iff _ _).1 h).2

theorem value_iff (v : String) : Spec.Value v ↔ v ≠ "--" ∧ parseOptional v.toList = .arg := by
  constructor
  · rintro (rfl | ⟨c, t, h, hc⟩ | rfl | ⟨⟨t, ht⟩, hn, hh, hw⟩)
    · exact ⟨by decide, rfl⟩
    · refine ⟨?_, parseOptional_plain (.inr (.inl ⟨c, t, h, hc⟩))⟩
      rintro rfl
      simp at h
      exact hc h.1.symm
    · exact ⟨by decide, rfl⟩
    · have hv := (hw v "" (.inl rfl)).1
      refine ⟨hv, ?_⟩
      rcases kinds v hv with (rfl | ⟨c, t, h, hc⟩ | rfl) | h | ⟨w, h1, h2⟩ | ⟨w, h1, h2⟩ | ⟨w, h1, h2⟩ | ⟨r, hr⟩ | ⟨_, h⟩
      · rfl
      · exact parseOptional_plain (.inr (.inl ⟨c, t, h, hc⟩))
      · rfl
      · exact absurd h hh
      · obtain ⟨t, ht⟩ := (writes_iff _ _).1 h2
        exact absurd h1 (hw w t ht).2.1
      · obtain ⟨t, ht⟩ := (writes_iff _ _).1 h2
        exact absurd h1 (hw w t ht).2.2.1
      · obtain ⟨t, ht⟩ := (writes_iff _ _).1 h2
        exact absurd h1 (hw w t ht).2.2.2
      · obtain ⟨t, ht⟩ := (writes_iff v "--").1 ⟨some r, by simpa using hr⟩
        exact absurd rfl (hw _ t ht).1
      · rw [h]
        rcases hn with hn | hn
        · rw [if_pos ((negativeNumber_iff v).2 hn)]
        · rw [if_pos hn, ite_self]
  · rintro ⟨hv, h2⟩
    have no : ∀ w, Writes v w → w ≠ "--" ∧ ¬ Spec.ShortFor "--params" w ∧ ¬ Spec.ShortFor "--data" w ∧ ¬ Spec.ShortFor "--help" w := by
      rintro w ⟨e, he⟩
      refine ⟨?_, fun h => ?_, fun h => ?_, fun h => ?_⟩
      · rintro rfl
        rcases e with - | r
        · exact hv (String.toList_inj.1 he)
        · have := parseOptional_dashes r
          rw [he] at h2
          have e' : "--".toList = ['-', '-'] := by simp
          rw [e', this] at h2
          cases h2
      · rw [kind_params h e he] at h2; cases h2
      · rw [kind_data h e he] at h2; cases h2
      · rw [kind_help h e he] at h2; cases h2
    rcases kinds v hv with (h | h | h) | ⟨t, h⟩ | ⟨w, h1, h3⟩ | ⟨w, h1, h3⟩ | ⟨w, h1, h3⟩ | ⟨r, hr⟩ | ⟨⟨c, t, ht⟩, h⟩
    · exact .inl h
    · exact .inr (.inl h)
    · exact .inr (.inr (.inl h))
    · obtain ⟨_, _, h'⟩ := parseOptional_h t
      rw [h, h'] at h2; cases h2
    · exact absurd h1 (no w h3).2.1
    · exact absurd h1 (no w h3).2.2.1
    · exact absurd h1 (no w h3).2.2.2
    · rw [hr, parseOptional_dashes] at h2; cases h2
    · refine .inr (.inr (.inr ⟨⟨_, ht⟩, ?_, ?_, fun w t hwt => no w ((writes_iff _ _).2 ⟨t, hwt⟩)⟩))
      · rw [h] at h2
        rw [← negativeNumber_iff]
        by_contra hc
        push Not at hc
        rw [if_neg hc.1, if_neg hc.2] at h2
        cases h2
      · rintro ⟨t', ht'⟩
        obtain ⟨_, _, h'⟩ := parseOptional_h t'
        rw [ht', h'] at h2; cases h2

/-- The action of an option. -/
def fileAction (o : Spec.FileOption) : ArgAction :=
  match o with
  | .params => .params
  | .data => .data

theorem kind_file {o : Spec.FileOption} {v w : String} (h : Spec.ShortFor o.name w) (e : Option (List Char)) (hv : v.toList = wordOf w.toList e) :
    parseOptional v.toList = .opt ⟨fileAction o, false, e.isSome, e⟩ := by
  cases o
  · exact kind_params h e hv
  · exact kind_data h e hv

/-- The value of the option `o` after a setting of `o'`. -/
def setFile (o o' : Spec.FileOption) (v : String) (p : Option String) : Option String := if o' = o then some v else p

theorem consume_true (ws : List (String × Option WordKind)) : ∀ p d p' d', consume ws true p d ≠ .args p' d' := by
  have : ∀ ex p d p' d', ex = true → consume ws ex p d ≠ .args p' d' := by
    intro ex p d p' d'
    fun_induction consume ws ex p d <;> intro he <;> simp_all
  exact fun p d p' d' => this true p d p' d' rfl

theorem consume_joined (o : Spec.FileOption) (w : String) (b c : Bool) (e : List Char) (ws ex p d) :
    consume ((w, some (.opt ⟨fileAction o, b, c, some e⟩)) :: ws) ex p d
      = consume ws ex (setFile .params o (String.ofList e) p) (setFile .data o (String.ofList e) d) := by
  cases o <;> simp [fileAction, consume, setFile]

theorem consume_separate (o : Spec.FileOption) (w v : String) (b c : Bool) (ws ex p d) :
    consume ((w, some (.opt ⟨fileAction o, b, c, none⟩)) :: (v, some .arg) :: ws) ex p d
      = consume ws ex (setFile .params o v p) (setFile .data o v d) := by
  cases o <;> simp [fileAction, consume, setFile]

theorem lastOf_cons (o o' : Spec.FileOption) (v : String) (s) (p : Option String) :
    (Spec.lastOf o ((o', v) :: s)).or p = (Spec.lastOf o s).or (setFile o o' v p) := by
  unfold Spec.lastOf setFile
  by_cases h : o' = o
  · rw [List.filter_cons_of_pos (by simpa using h), if_pos h, List.map_cons, List.getLast?_cons]
    cases (List.map (·.2) (List.filter (fun x => decide (x.1 = o)) s)).getLast? <;> simp
  · rw [List.filter_cons_of_neg (by simpa using h), if_neg h]

theorem classify_cons {w : String} (h : w ≠ "--") (ws : List String) : classify (w :: ws) = (w, some (parseOptional w.toList)) :: classify ws := by
  rw [classify, if_neg h]

theorem shortFor_ne {o : Spec.FileOption} {v w : String} (h : Spec.ShortFor o.name w) (hv : Writes v w) : v ≠ "--" := by
  rintro rfl
  obtain ⟨e, he⟩ := hv
  have := congrArg List.length he
  have hl := ((shortFor_iff _ _).1 h).2
  rcases e with - | r
  · simp [wordOf] at this; omega
  · simp [wordOf] at this; omega

theorem consume_settings {argv : List String} {s} (h : Spec.Settings argv s) : ∀ p d, consume (classify argv) false p d
    = .args ((Spec.lastOf .params s).or p) ((Spec.lastOf .data s).or d) := by
  induction h with
  | nil => intro p d; simp [classify, consume, Spec.lastOf]
  | separate o w v ws s hw hv hs ih =>
    intro p d
    obtain ⟨hv1, hv2⟩ := (value_iff v).1 hv
    rw [classify_cons (shortFor_ne hw ⟨none, rfl⟩), classify_cons hv1, hv2, kind_file hw none rfl, consume_separate, ih, lastOf_cons, lastOf_cons]
  | joined o w v ws s hw hs ih =>
    intro p d
    rw [classify_cons (shortFor_ne hw ⟨some v.toList, (wordOf_some w v).symm⟩), kind_file hw (some v.toList) (wordOf_some w v).symm, consume_joined, ih,
      lastOf_cons, lastOf_cons, String.ofList_toList]

theorem not_ambiguous {argv : List String} {s} (h : Spec.Settings argv s) :
    ((classify argv).any fun x => isAmbiguous x.2) = false := by
  induction h with
  | nil => rfl
  | separate o w v ws s hw hv hs ih =>
    obtain ⟨hv1, hv2⟩ := (value_iff v).1 hv
    rw [classify_cons (shortFor_ne hw ⟨none, rfl⟩), classify_cons hv1, hv2, kind_file hw none rfl, List.any_cons, List.any_cons, ih]
    rfl
  | joined o w v ws s hw hs ih =>
    rw [classify_cons (shortFor_ne hw ⟨some v.toList, (wordOf_some w v).symm⟩), kind_file hw (some v.toList) (wordOf_some w v).symm, List.any_cons, ih]
    rfl

theorem settings_of_consume (n : ℕ) : ∀ (argv : List String) (_ : argv.length ≤ n) (p d p' d' : Option String),
    consume (classify argv) false p d = .args p' d' →
    ∃ s, Spec.Settings argv s ∧ p' = (Spec.lastOf .params s).or p ∧ d' = (Spec.lastOf .data s).or d := by
  induction n with
  | zero =>
    intro argv hn p d p' d' h
    obtain rfl : argv = [] := List.eq_nil_of_length_eq_zero (by omega)
    simp only [classify, consume, Bool.false_eq_true, if_false, Parsed.args.injEq] at h
    exact ⟨[], .nil, by simp [Spec.lastOf, h.1], by simp [Spec.lastOf, h.2]⟩
  | succ n ih =>
    intro argv hn p d p' d' h
    rcases argv with - | ⟨w, ws⟩
    · exact ih [] (by simp) p d p' d' h
    by_cases hw : w = "--"
    · rw [hw, classify, if_pos rfl, consume] at h
      exact absurd h (consume_true _ _ _ _ _)
    rw [classify_cons hw] at h
    have file : ∀ (o : Spec.FileOption) (w' : String), Spec.ShortFor o.name w' → Writes w w' →
        ∃ s, Spec.Settings (w :: ws) s ∧ p' = (Spec.lastOf .params s).or p ∧ d' = (Spec.lastOf .data s).or d := by
      rintro o w' h1 ⟨e, he⟩
      rw [kind_file h1 e he] at h
      rcases e with - | r
      · obtain rfl : w = w' := String.toList_inj.1 he
        rcases ws with - | ⟨v, ws⟩
        · cases o <;> simp [classify, consume, fileAction] at h
        by_cases hv : v = "--"
        · rw [hv, classify, if_pos rfl] at h
          cases o <;> simp [consume, fileAction] at h
        rw [classify_cons hv] at h
        rcases hk : parseOptional v.toList with - | - | - | t
        · rw [hk, consume_separate] at h
          obtain ⟨s, hs, e1, e2⟩ := ih ws (by simp at hn; omega) _ _ _ _ h
          exact ⟨(o, v) :: s, .separate o w v ws s h1 ((value_iff v).2 ⟨hv, hk⟩) hs, by rw [lastOf_cons, e1], by rw [lastOf_cons, e2]⟩
        all_goals
          rw [hk] at h
          cases o <;> simp [consume, fileAction] at h
      · rw [consume_joined] at h
        obtain ⟨s, hs, e1, e2⟩ := ih ws (by simp at hn; omega) _ _ _ _ h
        obtain rfl : w = w' ++ "=" ++ String.ofList r := by
          apply String.toList_inj.1
          rw [he, ← wordOf_some, String.toList_ofList]
        exact ⟨(o, _) :: s, .joined o w' _ ws s h1 hs, by rw [lastOf_cons, e1], by rw [lastOf_cons, e2]⟩
    rcases kinds w hw with hp | ⟨t, ht⟩ | ⟨w', h1, h3⟩ | ⟨w', h1, h3⟩ | ⟨w', h1, e, he⟩ | ⟨r, hr⟩ | ⟨-, hk⟩
    · rw [parseOptional_plain (by rcases hp with rfl | hp | rfl <;> simp_all), consume] at h
      exact absurd h (consume_true _ _ _ _ _)
    · obtain ⟨sep, e, h'⟩ := parseOptional_h t
      rw [ht, h'] at h
      cases e <;> simp [consume] at h
    · exact file .params w' h1 h3
    · exact file .data w' h1 h3
    · rw [kind_help h1 e he] at h
      cases e <;> simp [consume] at h
    · rw [hr, parseOptional_dashes, consume] at h
      cases h
    · rw [hk] at h
      split_ifs at h <;> rw [consume] at h <;> exact absurd h (consume_true _ _ _ _ _)

theorem parseArgs_iff (argv : List String) (p d : Option String) : parseArgs argv = .args p d ↔
    ∃ s, Spec.Settings argv s ∧ p = Spec.lastOf .params s ∧ d = Spec.lastOf .data s := by
  constructor
  · intro h
    unfold parseArgs at h
    split_ifs at h
    obtain ⟨s, hs, e1, e2⟩ := settings_of_consume _ argv le_rfl _ _ _ _ h
    exact ⟨s, hs, by simpa using e1, by simpa using e2⟩
  · rintro ⟨s, hs, rfl, rfl⟩
    unfold parseArgs
    rw [not_ambiguous hs, if_neg (by simp), consume_settings hs]
    simp

theorem shortHelp_status (b : Bool) (w : List Char) : shortHelp b w = 0 ∨ shortHelp b w = 2 := by
  fun_induction shortHelp b w <;> simp_all

theorem consume_exits (ws : List (String × Option WordKind)) (ex : Bool) (p d : Option String) (n : ℕ) (h : consume ws ex p d = .exits n) :
    n = 2 ∨ n = 0 ∧ ∃ x ∈ ws, ∃ single sep e, x.2 = some (.opt ⟨.help, single, sep, e⟩) ∧ (single = true ∨ e = none) := by
  fun_induction consume ws ex p d
  case case1 => cases h; exact .inl rfl
  case case2 => cases h
  case case6 => cases h; exact .inl rfl
  case case7 =>
    cases h
    rename_i single sep e _
    cases single
    · exact .inl rfl
    · rcases shortHelp_status sep e with h | h
      · rw [if_pos rfl, h]
        exact .inr ⟨rfl, _, List.mem_cons_self, true, sep, some e, rfl, .inl rfl⟩
      · rw [if_pos rfl, h]; exact .inl rfl
  case case8 =>
    cases h
    exact .inr ⟨rfl, _, List.mem_cons_self, _, _, none, rfl, .inr rfl⟩
  case case13 => cases h; exact .inl rfl
  all_goals
    next ih =>
    rcases ih h with h | ⟨h, x, hx, r⟩
    · exact .inl h
    · exact .inr ⟨h, x, by simp [hx], r⟩

theorem mem_classify {argv : List String} {x} (h : x ∈ classify argv) {t : OptionTuple} (ht : x.2 = some (.opt t)) :
    x.1 ∈ argv ∧ x.1 ≠ "--" ∧ parseOptional x.1.toList = .opt t := by
  induction argv with
  | nil => simp [classify] at h
  | cons w ws ih =>
    by_cases hw : w = "--"
    · rw [hw, classify, if_pos rfl] at h
      rcases List.mem_cons.1 h with rfl | h
      · cases ht
      · obtain ⟨v, -, rfl⟩ := List.mem_map.1 h
        cases ht
    · rw [classify_cons hw] at h
      rcases List.mem_cons.1 h with rfl | h
      · exact ⟨List.mem_cons_self, hw, by simpa using ht⟩
      · obtain ⟨h1, h2⟩ := ih h
        exact ⟨List.mem_cons_of_mem _ h1, h2⟩

theorem helpWord_of_kind {w : String} (hw : w ≠ "--") {single sep : Bool} {e} (h : parseOptional w.toList = .opt ⟨.help, single, sep, e⟩)
    (hs : single = true ∨ e = none) : Spec.HelpWord w := by
  rcases kinds w hw with hp | ⟨t, ht⟩ | ⟨w', h1, e', h3⟩ | ⟨w', h1, e', h3⟩ | ⟨w', h1, e', he⟩ | ⟨r, hr⟩ | ⟨-, hk⟩
  · rw [parseOptional_plain (by rcases hp with rfl | hp | rfl <;> simp_all)] at h
    cases h
  · exact .inr ⟨t, ht⟩
  · rw [kind_params h1 e' h3] at h; cases h
  · rw [kind_data h1 e' h3] at h; cases h
  · rw [kind_help h1 e' he] at h
    cases h
    rcases hs with hs | rfl
    · cases hs
    · exact .inl ((String.toList_inj.1 he : w = w') ▸ h1)
  · rw [hr, parseOptional_dashes] at h; cases h
  · rw [hk] at h
    split_ifs at h

theorem parseArgs_exits {argv : List String} {n : ℕ} (h : parseArgs argv = .exits n) : n = 2 ∨ n = 0 ∧ ∃ w ∈ argv, Spec.HelpWord w := by
  unfold parseArgs at h
  split_ifs at h
  · cases h; exact .inl rfl
  · rcases consume_exits _ _ _ _ _ h with h | ⟨h, x, hx, single, sep, e, h1, h2⟩
    · exact .inl h
    · obtain ⟨m1, m2, m3⟩ := mem_classify hx h1
      exact .inr ⟨h, _, m1, helpWord_of_kind m2 m3 h2⟩

variable {M A F B L K Vg X : Type}

/-- C126: if the command line consists of settings of the two options, in any order, with names that may be cut short, and values that follow as the next word or
after `=`, then the program does what `main` does with the last value of each option. -/
theorem C126_settings (C : Classes M A F B L K Vg X) (O : Outside A) (order argv : List String) (files : Files)
    (s : List (Spec.FileOption × String)) (h0 : argv ≠ []) (hs : Spec.Settings argv s) :
    program C O order argv files = main C O order (Spec.lastOf .params s) (Spec.lastOf .data s) files := by
  unfold program
  rw [if_neg h0, (parseArgs_iff argv _ _).2 ⟨s, hs, rfl, rfl⟩]

/-- C126: on every other command line the program reads and writes no file and exits: with status 1 if there are no arguments, with
status 0 only if a word asks for help, and with status 2 otherwise. -/
theorem C126_nothing_else (C : Classes M A F B L K Vg X) (O : Outside A) (order argv : List String) (files : Files)
    (h : argv = [] ∨ ¬ ∃ s, Spec.Settings argv s) :
    ∃ n, program C O order argv files = (.exits n, files) ∧
      (argv = [] ∧ n = 1 ∨ argv ≠ [] ∧ (n = 2 ∨ n = 0 ∧ ∃ w ∈ argv, Spec.HelpWord w)) := by
  unfold program
  by_cases h0 : argv = []
  · exact ⟨1, by rw [if_pos h0], .inl ⟨h0, rfl⟩⟩
  · rw [if_neg h0]
    rcases hp : parseArgs argv with n | ⟨p, d⟩
    · exact ⟨n, rfl, .inr ⟨h0, parseArgs_exits hp⟩⟩
    · obtain ⟨s, hs, -⟩ := (parseArgs_iff argv p d).1 hp
      exact absurd ⟨s, hs⟩ (h.resolve_left h0)

/-- C126: unless help is asked for, the exit status is 0, with these files afterwards, exactly if the command line consists of settings and the session with
the last values was completed and leaves these files. -/
theorem C126_zero_iff (C : Classes M A F B L K Vg X) (O : Outside A) (order : List String) (ho : order.Perm requiredKeys) (argv : List String)
    (files files' : Files) (hh : ∀ w ∈ argv, ¬ Spec.HelpWord w) :
    (exitStatus (program C O order argv files).1 = 0 ∧ (program C O order argv files).2 = files')
      ↔ ∃ s, Spec.Settings argv s ∧ Spec.Completed C O (Spec.lastOf .params s) (Spec.lastOf .data s) files files' := by
  by_cases h : argv = [] ∨ ¬ ∃ s, Spec.Settings argv s
  · obtain ⟨n, hn, hc⟩ := C126_nothing_else C O order argv files h
    constructor
    · rintro ⟨h1, -⟩
      rw [hn] at h1
      have h1 : n = 0 := h1
      rcases hc with ⟨-, rfl⟩ | ⟨-, rfl | ⟨-, w, hw, hw'⟩⟩
      · cases h1
      · cases h1
      · exact absurd hw' (hh w hw)
    · rintro ⟨s, hs, hc'⟩
      rcases h with rfl | h
      · cases hs
        obtain ⟨pf, p, data, _, name, s1, s2, s3, h, _⟩ := hc'
        cases h
      · exact absurd ⟨s, hs⟩ h
  · push Not at h
    obtain ⟨h0, s, hs⟩ := h
    rw [C126_settings C O order argv files s h0 hs, C81_zero_iff C O order ho]
    constructor
    · intro h; exact ⟨s, hs, h⟩
    · rintro ⟨s', hs', h⟩
      have e1 := (parseArgs_iff argv _ _).2 ⟨s, hs, rfl, rfl⟩
      have e2 := (parseArgs_iff argv _ _).2 ⟨s', hs', rfl, rfl⟩
      rw [e1] at e2
      injection e2 with e2 e3
      rw [e2, e3]
      exact h

/-- C126: the command line of the manual, `--params FILE`, and the one with data: a file name that does not begin with a dash is passed on as it is. -/
theorem C126_manual (C : Classes M A F B L K Vg X) (O : Outside A) (order : List String) (files : Files) (f g : String)
    (hf : ¬ ∃ t, f.toList = '-' :: t) (hg : ¬ ∃ t, g.toList = '-' :: t) :
    program C O order ["--params", f] files = main C O order (some f) none files
    ∧ program C O order ["--params=" ++ f] files = main C O order (some f) none files
    ∧ program C O order ["--params", f, "--data", g] files = main C O order (some f) (some g) files
    ∧ program C O order ["--data", g, "--params", f] files = main C O order (some f) (some g) files := by
  have val : ∀ f : String, (¬ ∃ t, f.toList = '-' :: t) → Spec.Value f := by
    intro f hf
    rcases hl : f.toList with - | ⟨c, t⟩
    · exact .inl (String.toList_inj.1 hl)
    · exact .inr (.inl ⟨c, t, hl, fun hc => hf ⟨t, by rw [hl, hc]⟩⟩)
  have n1 : Spec.ShortFor Spec.FileOption.params.name "--params" := (shortFor_iff _ _).2 ⟨List.prefix_rfl, by decide⟩
  have n2 : Spec.ShortFor Spec.FileOption.data.name "--data" := (shortFor_iff _ _).2 ⟨List.prefix_rfl, by decide⟩
  refine ⟨?_, ?_, ?_, ?_⟩
  · exact C126_settings C O order _ files _ (by simp) (.separate .params _ _ _ _ n1 (val f hf) .nil)
  · exact C126_settings C O order _ files _ (by simp) (.joined .params _ _ _ _ n1 .nil)
  · exact C126_settings C O order _ files _ (by simp) (.separate .params _ _ _ _ n1 (val f hf) (.separate .data _ _ _ _ n2 (val g hg) .nil))
  · exact C126_settings C O order _ files _ (by simp) (.separate .data _ _ _ _ n2 (val g hg) (.separate .params _ _ _ _ n1 (val f hf) .nil))

theorem ambiguous_kind {w : String} (hw : w ≠ "--") (h : parseOptional w.toList = .ambiguous) : ∃ t, w = "--=" ++ t := by
  rcases kinds w hw with hp | ⟨t, ht⟩ | ⟨w', h1, e', h3⟩ | ⟨w', h1, e', h3⟩ | ⟨w', h1, e', he⟩ | ⟨r, hr⟩ | ⟨-, hk⟩
  · rw [parseOptional_plain (by rcases hp with rfl | hp | rfl <;> simp_all)] at h
    cases h
  · obtain ⟨_, _, h'⟩ := parseOptional_h t
    rw [ht, h'] at h; cases h
  · rw [kind_params h1 e' h3] at h; cases h
  · rw [kind_data h1 e' h3] at h; cases h
  · rw [kind_help h1 e' he] at h; cases h
  · refine ⟨String.ofList r, String.toList_inj.1 ?_⟩
    rw [hr, String.toList_append, String.toList_ofList]
    simp [wordOf]
  · rw [hk] at h
    split_ifs at h

/-- C126: if the first word is `-h` or `--help`, perhaps cut short, the help is shown and the status is 0, whatever follows (but for words that begin with `--=`). -/
theorem C126_help (C : Classes M A F B L K Vg X) (O : Outside A) (order : List String) (files : Files) (w : String) (ws : List String)
    (hw : w = "-h" ∨ Spec.ShortFor "--help" w) (hws : ∀ v ∈ ws, ¬ ∃ t, v = "--=" ++ t) :
    program C O order (w :: ws) files = (.exits 0, files) := by
  have hk : w ≠ "--" ∧ ∃ single, parseOptional w.toList = .opt ⟨.help, single, false, none⟩ := by
    rcases hw with rfl | hw
    · exact ⟨by decide, true, rfl⟩
    · refine ⟨?_, false, kind_help hw none rfl⟩
      rintro rfl
      have := ((shortFor_iff _ _).1 hw).2
      simp at this
  obtain ⟨h1, single, h2⟩ := hk
  have hamb : ∀ ws : List String, (∀ v ∈ ws, ¬ ∃ t, v = "--=" ++ t) → ((classify ws).any fun x => isAmbiguous x.2) = false := by
    intro ws
    induction ws with
    | nil => intro; rfl
    | cons v ws ih =>
      intro h
      by_cases hv : v = "--"
      · rw [hv, classify, if_pos rfl, List.any_cons, List.any_map]
        simp [isAmbiguous]
      · rw [classify_cons hv, List.any_cons, ih fun v hv => h v (List.mem_cons_of_mem _ hv), Bool.or_false]
        rcases hk : parseOptional v.toList with - | - | - | t <;> first | rfl | skip
        exact absurd (ambiguous_kind hv hk) (h v List.mem_cons_self)
  have : parseArgs (w :: ws) = .exits 0 := by
    unfold parseArgs
    rw [classify_cons h1, List.any_cons, hamb ws hws, h2, if_neg (by simp [isAmbiguous]), consume]
  unfold program
  rw [this, if_neg (by simp)]

-- Unknown options, missing values and stray words are no settings: all cases of C126 occur.
example : parseArgs ["--params"] = .exits 2 ∧ parseArgs ["--parameters", "f.json"] = .exits 2 ∧ parseArgs ["f.json"] = .exits 2
    ∧ parseArgs ["--par", "f.json", "--d=g.csv", "--params", "h.json"] = .args (some "h.json") (some "g.csv")
    ∧ parseArgs ["--help=x"] = .exits 2 ∧ parseArgs ["--params", "-1"] = .args (some "-1") none := by decide

end VGPA
