import Verif.Proofs.AppTexts
/-
tools/hudtest.cc: lines of commands.
-/

namespace Columbus.Apps
open Columbus Spec

theorem texts_ascii : pathText = ascii "path" ∧ commandText = ascii "command" ∧ aliasText = ascii "alias" ∧
    fuzzySelect = ascii "Fuzzy Select" ∧ magneticLasso = ascii "magnetic lasso" := by decide +kernel

theorem name_path : FieldName (ascii "path") := by rw [← texts_ascii.1]; unfold FieldName pathText IsBlank; simp
theorem name_command : FieldName (ascii "command") := by rw [← texts_ascii.2.1]; unfold FieldName commandText IsBlank; simp
theorem name_alias : FieldName (ascii "alias") := by rw [← texts_ascii.2.2.1]; unfold FieldName aliasText IsBlank; simp

theorem split_parts (l : Bytes) : splitShowableParts l = parts l := by
  unfold splitShowableParts find parts
  by_cases h : 0x3e ∈ l
  · have h1 : ∃ x ∈ l, (x == 0x3e) = true := ⟨0x3e, h, rfl⟩
    rw [if_pos h, List.findIdx?_eq_some_of_exists h1]
    simp only
    rw [List.takeWhile_eq_take_findIdx_not, List.dropWhile_eq_drop_findIdx_not]
    have : (fun a : Nat => !(a != 0x3e)) = fun a => a == 0x3e := by funext a; simp [bne]
    simp only [this, List.drop_drop]
  · have h1 : l.findIdx? (· == 0x3e) = none := by
      rw [List.findIdx?_eq_none_iff]
      intro x hx
      have : x ≠ 0x3e := by rintro rfl; exact h hx
      simpa using this
    rw [if_neg h, h1]

theorem contains_iff (s l : Bytes) : containsText s l = true ↔ s <:+: l := by
  induction l with
  | nil => simp [containsText]
  | cons b r ih => rw [containsText, Bool.or_eq_true, ih, List.isPrefixOf_iff_prefix, List.infix_cons_iff]

/-- The two parts, and how they lie in the line. -/
theorem parts_cases (l : Bytes) : (parts l).1 = l ∧ (parts l).2 = l ∨ l = (parts l).1 ++ 0x3e :: (parts l).2 := by
  unfold parts
  by_cases h : 0x3e ∈ l
  · right
    rw [if_pos h]
    have h1 : l.dropWhile (· != 0x3e) ≠ [] := by
      intro h2
      have h3 := List.takeWhile_append_dropWhile (p := (· != 0x3e)) (l := l)
      rw [h2, List.append_nil] at h3
      have h4 : ∀ (r : Bytes), ∀ b ∈ r.takeWhile (· != 0x3e), (b != 0x3e) = true := by
        intro r
        induction r with
        | nil => simp
        | cons x r ih =>
          intro b hb
          rw [List.takeWhile_cons] at hb
          split at hb
          · rcases List.mem_cons.1 hb with rfl | hb
            · assumption
            · exact ih b hb
          · simp at hb
      exact absurd (h4 l _ (h3.symm ▸ h)) (by simp)
    obtain ⟨x, r, hr⟩ := List.exists_cons_of_ne_nil h1
    have h2 := List.head_dropWhile_not (· != 0x3e) h1
    have h3 : x = 0x3e := by simpa [hr] using h2
    conv => lhs; rw [← List.takeWhile_append_dropWhile (p := (· != 0x3e)) (l := l)]
    simp only
    rw [hr, h3]; rfl
  · left
    rw [if_neg h]; exact ⟨rfl, rfl⟩

theorem parts_sub (l : Bytes) : (∀ b ∈ (parts l).1, b ∈ l) ∧ (∀ b ∈ (parts l).2, b ∈ l) ∧ (parts l).1.length ≤ l.length ∧
    (parts l).2.length ≤ l.length := by
  rcases parts_cases l with ⟨h1, h2⟩ | h
  · rw [h1, h2]; simp
  · refine ⟨fun b hb => ?_, fun b hb => ?_, ?_, ?_⟩
    · rw [h]; simp [hb]
    · rw [h]; simp [hb]
    · have := congrArg List.length h; simp at this; omega
    · have := congrArg List.length h; simp at this; omega

theorem parts_wf {l : Bytes} (hw : WellFormed l) : WellFormed (parts l).1 ∧ WellFormed (parts l).2 := by
  rcases parts_cases l with ⟨h1, h2⟩ | h
  · rw [h1, h2]; exact ⟨hw, hw⟩
  · obtain ⟨c, hc⟩ := hw
    obtain ⟨h1, c2, h2⟩ := utf8_append_ascii hc h (by simp)
    refine ⟨h1, ?_⟩
    generalize (parts l).2 = r at h2
    cases h2 with
    | one _ h => exact ⟨_, h⟩
    | two h _ _ _ _ => omega
    | three h _ _ _ => omega
    | four h _ _ _ _ _ => omega

theorem shownParts_length (l : Bytes) : (shownParts l).1.length ≤ l.length ∧ (shownParts l).2.length ≤ l.length := by
  obtain ⟨_, _, n1, n2⟩ := parts_sub (marked l)
  rw [marked_length] at n1 n2
  exact ⟨(beforeNul_sub _).2.1.trans n1, (beforeNul_sub _).2.1.trans n2⟩

/-- Without NUL and carriage return the parts are shown whole, and are text if the line is. -/
theorem shownParts_plain {l : Bytes} (h0 : 0 ∉ l) (hr : 0x0d ∉ l) : marked l = l ∧ shownParts l = parts l := by
  have hm : marked l = l := by
    unfold marked
    split
    · rename_i b r e
      exact absurd (List.mem_reverse.1 (by rw [e]; simp)) hr
    · rfl
  refine ⟨hm, ?_⟩
  obtain ⟨s1, s2, _⟩ := parts_sub l
  unfold shownParts
  rw [hm, ← cstr_eq, ← cstr_eq, cstr_noNul fun h => h0 (s1 0 h), cstr_noNul fun h => h0 (s2 0 h)]

theorem commandLine_plain {l : Bytes} (h2 : 2 ≤ l.length) (h0 : 0 ∉ l) (hr : 0x0d ∉ l) (hn : 0x0a ∉ l) (hw : WellFormed l)
    (hs : l.length ≤ 10000000) : CommandLine l := by
  obtain ⟨_, e⟩ := shownParts_plain h0 hr
  obtain ⟨w1, w2⟩ := parts_wf hw
  exact ⟨h2, hn, by rw [e]; exact w1, by rw [e]; exact w2, hs⟩

theorem commandTexts_ok {l : Bytes} (h : CommandLine l) : TextsOk (commandTexts l) := by
  obtain ⟨n1, n2⟩ := shownParts_length l
  have c1 : CString (shownParts l).1 := ⟨(beforeNul_sub _).2.2, n1.trans h.short⟩
  have c2 : CString (shownParts l).2 := ⟨(beforeNul_sub _).2.2, n2.trans h.short⟩
  have c3 : CString (ascii "magnetic lasso") ∧ WellFormed (ascii "magnetic lasso") := by
    rw [← texts_ascii.2.2.2.2]
    exact ⟨⟨by decide, by decide⟩, wellFormed_ascii (by decide)⟩
  have e1 : (ascii "path").length = 4 ∧ (ascii "command").length = 7 ∧ (ascii "alias").length = 5 := by decide
  constructor
  · intro t ht
    simp only [commandTexts, List.mem_append, List.mem_cons, List.not_mem_nil, or_false] at ht
    rcases ht with (rfl | rfl) | ht
    · exact name_path
    · exact name_command
    · split at ht
      · rw [List.mem_singleton] at ht; subst ht; exact name_alias
      · simp at ht
  · intro t ht
    simp only [commandTexts, List.mem_append, List.mem_cons, List.not_mem_nil, or_false] at ht
    rcases ht with (rfl | rfl) | ht
    · exact ⟨c1, h.path⟩
    · exact ⟨c2, h.command⟩
    · split at ht
      · rw [List.mem_singleton] at ht; subst ht; exact c3
      · simp at ht
  · unfold commandTexts
    split <;> simp [e1]

theorem commandTexts_length {l : Bytes} (h : CommandLine l) : 2 * textsLength (commandTexts l) ≤ 23 * (l.length + 1) := by
  have h2 := h.long
  obtain ⟨n1, n2⟩ := shownParts_length l
  have e1 : (ascii "path").length = 4 ∧ (ascii "command").length = 7 ∧ (ascii "alias").length = 5 ∧
    (ascii "magnetic lasso").length = 14 := by decide
  unfold commandTexts textsLength
  split <;> simp [e1] <;> omega

section
variable [Build] [Icu]

theorem no_words {s : Bytes} (h : WellFormed s) :
    (WordList.size (lineWords s) = 0) = ¬ (s.any fun b => ![0x20, 0x09, 0x0a, 0x0d].contains b) = true := by
  have e := lineWords_eq h
  obtain ⟨ts, hts⟩ := tokens_exists s
  rw [splitToWords_tokens hts, wordsOf_ok] at e
  have hblank : ∀ b, ([0x20, 0x09, 0x0a, 0x0d].contains b = true) ↔ IsBlank b := by
    intro b; unfold IsBlank; simp
  rw [eq_iff_iff]
  have hlen : WordList.size (lineWords s) = ts.length := e.length_eq.symm
  rw [hlen]
  simp only [List.any_eq_true, not_exists, not_and, Bool.not_eq_true', Bool.not_eq_false, hblank]
  cases hts with
  | done hp => simpa using hp
  | tok hp ht hn hr hrest =>
    rename_i p t r ts
    obtain ⟨x, t, rfl⟩ := List.exists_cons_of_ne_nil ht
    simp only [List.length_cons, Nat.add_eq_zero_iff, Nat.one_ne_zero, and_false, false_iff]
    intro h
    exact hn x (by simp) (h x (by simp))

/-- The entry of a line of commands. -/
def commandEntry (l : Bytes) : Entry (Bytes × Bytes) := textsEntry (commandTexts l) (parts (marked l))

/-- The entry; none for lines without command. -/
def commandEntry? (l : Bytes) : Option (Entry (Bytes × Bytes)) := if hasCommand l then some (commandEntry l) else none

theorem command_entries (ls : List Bytes) : ls.filterMap commandEntry? = (ls.filter hasCommand).map commandEntry := by
  induction ls with
  | nil => rfl
  | cons l ls ih =>
    by_cases h : hasCommand l = true
    · rw [List.filterMap_cons_some (b := commandEntry l) (by simp [commandEntry?, h]), ih]; simp [h]
    · rw [List.filterMap_cons_none (by simp [commandEntry?, h]), ih]; simp [h]

theorem readCommand_eq {l : Bytes} (h : l = [] ∨ CommandLine l) (id : Nat) :
    readCommand (fieldWord (ascii "path")) (fieldWord (ascii "command")) (fieldWord (ascii "alias")) id l =
      .ok ((commandEntry? l).map fun e => (documentOf id e.texts, e.row)) := by
  rcases h with rfl | h
  · rfl
  · have h2 := h.long
    have e1 := dosLine_text h2
    have w1 := h.path
    have w2 := h.command
    have c1 : cstr (parts (marked l)).1 = (shownParts l).1 := rfl
    have c2 : cstr (parts (marked l)).2 = (shownParts l).2 := rfl
    have e2 := lineWords_eq (s := magneticLasso) (wellFormed_ascii (by decide))
    rw [texts_ascii.2.2.2.2] at e2
    rw [readCommand, if_neg (by omega), e1]
    simp only [ok_bind, split_parts, c1, c2, lineWords_eq w1, lineWords_eq w2, no_words w2]
    rw [show ((shownParts l).2.any fun b => ![0x20, 0x09, 0x0a, 0x0d].contains b) = hasCommand l from rfl]
    by_cases hc : hasCommand l = true
    · rw [if_neg (by simpa using hc), commandEntry?, if_pos hc]
      by_cases hf : containsText fuzzySelect (parts (marked l)).2 = true
      · have hi := (contains_iff _ _).1 hf
        rw [texts_ascii.2.2.2.1] at hi
        rw [if_pos hf]
        simp only [Document.addTextUtf8, texts_ascii.2.2.2.2, e2, ok_bind, commandEntry, textsEntry, commandTexts, if_pos hi,
          Option.map_some, List.map_cons, List.map_nil, List.cons_append, List.nil_append, documentOf, List.foldl_cons, List.foldl_nil]
      · have hi : ¬ ascii "Fuzzy Select" <:+: (parts (marked l)).2 := by
          rw [← texts_ascii.2.2.2.1, ← contains_iff]; exact hf
        rw [if_neg hf]
        simp only [commandEntry, textsEntry, commandTexts, if_neg hi, Option.map_some, List.map_cons, List.map_nil, List.append_nil, documentOf, List.foldl_cons, List.foldl_nil]
    · rw [if_pos (by simpa using hc), commandEntry?, if_neg hc]; rfl

/-- A line of which a part is no text is refused. -/
theorem readCommand_bad {l : Bytes} (h2 : 2 ≤ l.length) (hw : ¬ (WellFormed (shownParts l).1 ∧ WellFormed (shownParts l).2)) (p c a : Word)
    (id : Nat) : readCommand p c a id l = .error .runtimeError := by
  have c1 : cstr (parts (marked l)).1 = (shownParts l).1 := rfl
  have c2 : cstr (parts (marked l)).2 = (shownParts l).2 := rfl
  rw [readCommand, if_neg (by omega), dosLine_text h2]
  simp only [ok_bind, split_parts, c1, c2]
  by_cases w1 : WellFormed (shownParts l).1
  · have w2 : ¬ WellFormed (shownParts l).2 := fun h => hw ⟨w1, h⟩
    obtain ⟨_, _, _, h⟩ := Props.C11_split (shownParts l).2
    rw [lineWords_eq w1, h w2]; rfl
  · obtain ⟨_, _, _, h⟩ := Props.C11_split (shownParts l).1
    rw [h w1]; rfl

end

section
variable [Build] [Icu] [Runtime] [Fp]

omit [Build] [Icu] [Runtime] [Fp] in
theorem sum_lines {items : List Bytes} (h : ∀ l ∈ items, CommandLine l) :
    2 * (items.map fun l => textsLength (commandTexts l)).sum ≤ 23 * (fileOf items).length := by
  induction items with
  | nil => simp [fileOf]
  | cons l ls ih =>
    have h1 := ih fun l hl => h l (by simp [hl])
    have h2 := commandTexts_length (h l (by simp))
    have hl : (fileOf (l :: ls)).length = l.length + 1 + (fileOf ls).length := by
      simp only [fileOf, List.flatMap_cons, List.length_append, List.length_singleton]
    rw [List.map_cons, List.sum_cons, hl]
    omega

omit [Build] [Icu] [Runtime] [Fp] in
theorem filter_length (p : Bytes → Bool) (ls : List Bytes) : (fileOf (ls.filter p)).length ≤ (fileOf ls).length := by
  induction ls with
  | nil => simp
  | cons l ls ih =>
    have hl : ∀ l ls, (fileOf (l :: ls)).length = l.length + 1 + (fileOf ls).length := by
      intro l ls; simp only [fileOf, List.flatMap_cons, List.length_append, List.length_singleton]
    rw [List.filter_cons]
    split
    · rw [hl, hl]; omega
    · rw [hl]; omega

omit [Build] [Icu] [Runtime] [Fp] in
theorem commands_good {ls : List Bytes} (hl : ∀ l ∈ ls, l = [] ∨ CommandLine l) : ∀ l ∈ ls.filter hasCommand, CommandLine l := by
  intro l hl'
  rw [List.mem_filter] at hl'
  refine (hl l hl'.1).resolve_left ?_
  rintro rfl
  simp [hasCommand, shownParts, beforeNul, marked, parts] at hl'

/-- Reading a file of commands. -/
theorem commands_read {os : Nat → Bool} {m : Matcher} (h : Ran os m [] []) {ls : List Bytes} {last : Bytes}
    (hl : ∀ l ∈ ls ++ [last], l = [] ∨ CommandLine l) :
    (readAll (readCommand (fieldWord (ascii "path")) (fieldWord (ascii "command")) (fieldWord (ascii "alias"))) (fileOf ls ++ last) m =
        .error .runtimeError ∧ StorageRefused os (23 * (fileOf (ls ++ [last])).length)) ∨
    ∃ m', readAll (readCommand (fieldWord (ascii "path")) (fieldWord (ascii "command")) (fieldWord (ascii "alias"))) (fileOf ls ++ last) m =
        .ok ⟨m', ((ls ++ [last]).filter hasCommand).map fun l => parts (marked l)⟩ ∧
      Ran os m' (corpusTexts (docsFrom 0 (((ls ++ [last]).filter hasCommand).map commandEntry))) [] ∧
      m'.e = m.e ∧ m'.weights = m.weights := by
  have hlines : Host.lines (fileOf ls ++ last) = ls ++ (if last = [] then [] else [last]) := by
    refine Props.C71_lines ls ?_ last ?_
    · intro l hl'
      rcases hl l (by simp [hl']) with rfl | h
      · simp
      · exact h.noNewline
    · rcases hl last (by simp) with h | h
      · rw [h]; simp
      · exact h.noNewline
  have hsub : ∀ l ∈ Host.lines (fileOf ls ++ last), l ∈ ls ++ [last] := by
    intro l hl'
    rw [hlines] at hl'
    split at hl'
    · simp at hl'; simp [hl']
    · exact hl'
  have hent : (Host.lines (fileOf ls ++ last)).filterMap commandEntry? = ((ls ++ [last]).filter hasCommand).map commandEntry := by
    rw [command_entries, hlines]
    congr 1
    split
    · rename_i h; subst h; simp [hasCommand, shownParts, beforeNul, marked, parts]
    · rfl
  have hgood := commands_good hl
  have hok : ∀ e ∈ ((ls ++ [last]).filter hasCommand).map commandEntry, EntryOk e := by
    intro e he
    obtain ⟨l, hl', rfl⟩ := List.mem_map.1 he
    exact textsEntry_ok (commandTexts_ok (hgood l hl')) _
  have hrows : (((ls ++ [last]).filter hasCommand).map commandEntry).map Entry.row = ((ls ++ [last]).filter hasCommand).map fun l => parts (marked l) := by
    rw [List.map_map]; rfl
  rcases readAll_spec hent.symm h (fun l hl' id => readCommand_eq (hl l (hsub l hl')) id) hok with ⟨e, hr⟩ | ⟨m', e, hran, he', hw⟩
  · left
    refine ⟨e, StorageRefused.mono hr ?_⟩
    have h1 := docs_letters (texts := commandTexts) (row := fun l => parts (marked l)) _ (fun l hl' => commandTexts_ok (hgood l hl')) 0
    have h2 := sum_lines hgood
    have h3 := filter_length hasCommand (ls ++ [last])
    have h4 : (fun l => textsEntry (commandTexts l) (parts (marked l))) = commandEntry := rfl
    rw [h4] at h1
    omega
  · right
    exact ⟨m', hrows ▸ e, hran, he', hw⟩

/-- Reading a file of commands stops at the first line that cannot be read. -/
theorem commands_stop {os : Nat → Bool} {m : Matcher} (h : Ran os m [] []) {ls : List Bytes} {last : Bytes}
    (hn : ∀ l ∈ ls ++ [last], 0x0a ∉ l) {pre post : List Bytes} {bad : Bytes} (hs : ls ++ [last] = pre ++ bad :: post)
    (hl : ∀ l ∈ pre, l = [] ∨ CommandLine l) (hb : bad ≠ []) {f : Fault}
    (hbad : ∀ id, readCommand (fieldWord (ascii "path")) (fieldWord (ascii "command")) (fieldWord (ascii "alias")) id bad = .error f) :
    (readAll (readCommand (fieldWord (ascii "path")) (fieldWord (ascii "command")) (fieldWord (ascii "alias"))) (fileOf ls ++ last) m =
        .error .runtimeError ∧ StorageRefused os (23 * (fileOf pre).length)) ∨
    readAll (readCommand (fieldWord (ascii "path")) (fieldWord (ascii "command")) (fieldWord (ascii "alias"))) (fileOf ls ++ last) m =
      .error f := by
  obtain ⟨post', hlines⟩ := lines_split hn hs hb
  have hgood := commands_good hl
  have hok : ∀ e ∈ pre.filterMap commandEntry?, EntryOk e := by
    intro e he
    rw [command_entries] at he
    obtain ⟨l, hl', rfl⟩ := List.mem_map.1 he
    exact textsEntry_ok (commandTexts_ok (hgood l hl')) _
  rcases readAll_stop hlines h (fun l hl' id => readCommand_eq (hl l hl') id) hok hbad with ⟨e, hr⟩ | e
  · left
    refine ⟨e, StorageRefused.mono hr ?_⟩
    rw [command_entries]
    have h1 := docs_letters (texts := commandTexts) (row := fun l => parts (marked l)) _ (fun l hl' => commandTexts_ok (hgood l hl')) 0
    have h2 := sum_lines hgood
    have h3 := filter_length hasCommand pre
    have h4 : (fun l => textsEntry (commandTexts l) (parts (marked l))) = commandEntry := rfl
    rw [h4] at h1
    omega
  · exact Or.inr e

end
end Columbus.Apps
