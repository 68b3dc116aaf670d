import Verif.Proofs.AppLines
import Verif.Proofs.Preset
import Verif.Props.Errors
import Verif.Props.Example
/-
C82: the graphical tools tools/queryapp.cc and tools/numberpad.cc.
-/

namespace Columbus.Props
open Columbus Columbus.Spec Columbus.Apps

section
variable [Build] [Icu] [Runtime] [Fp]

/-! ### C82 -/

omit [Runtime] [Fp] in
theorem name_field : ∃ f, Word.ofUtf8 nameText = .ok f ∧ (WordOk f ∧ f ≠ []) ∧ f.length ≤ 4 := by
  obtain ⟨f, h1, h2, h3⟩ := field_word (s := nameText) (by unfold nameText IsBlank; simp) (by simp [nameText]) (by simp [nameText])
  exact ⟨f, h1, h2, le_of_eq h3⟩

omit [Runtime] [Fp] in
/-- The price with the default settings is 100 for each edit. -/
theorem price_default : PriceWith ErrorValues.new = EditPrice := by
  funext x w v
  apply propext
  rw [PriceWith, new_is_default, configured_default, isEditCost_iff]
  obtain ⟨n, h1, h2⟩ := best_unit (q := x) (w := w)
  constructor
  · intro h; exact ⟨n, h2, h.trans h1⟩
  · rintro ⟨n', h3, rfl⟩
    have : n = n' := Nat.le_antisymm (h2.2 _ h3.1) (h3.2 _ h2.1)
    rw [h1, this]

omit [Icu] [Runtime] [Fp] in
theorem new_errors {os : Nat → Bool} {m : Matcher} (h : Matcher.new os = .ok m) : m.e = ErrorValues.new := by
  rw [Matcher.new] at h
  cases hs : WordStore.new os with
  | error f => rw [hs] at h; cases h
  | ok s => rw [hs] at h; cases h; rfl

omit [Runtime] [Fp] in
theorem new_or (os : Nat → Bool) (n : Nat) : (Matcher.new os = .error .runtimeError ∧ StorageRefused os n) ∨
    ∃ m, Matcher.new os = .ok m ∧ m.e = ErrorValues.new := by
  rcases MInv.new os with ⟨h1, h2⟩ | ⟨m, h, _⟩
  · exact Or.inl ⟨h2, Or.inl ⟨1024, h1⟩⟩
  · exact Or.inr ⟨m, h, new_errors h⟩

/-- C82, what holds of queryapp: if each line of the file is empty or has two characters at least and is text, the tool
starts, and shows for each query exactly those lines that have a word within two edits of a word of the query, or one edit
if that word of the query has one letter, upper and lower case not distinguished; or it ends with a failure because storage
is refused. Missing from the full claim: lines of one character, and of lines with a carriage return before the last
character only the part before it is used and shown. -/
theorem C82_queryapp_partial (os : Nat → Bool) (files : Bytes → Option Bytes) (name file : Bytes) (more : List Bytes)
    (ls : List Bytes) (last : Bytes) (hf : files file = some (fileOf ls ++ last))
    (hl : ∀ l ∈ ls ++ [last], l = [] ∨ ToolLine l) :
    (start (queryappBuild os) files (name :: file :: more) = .ok .failed ∧
      StorageRefused os (4 * (fileOf (ls ++ [last])).length)) ∨
    ∃ app, start (queryappBuild os) files (name :: file :: more) = .ok (.ready app) ∧
      Answers doSearch app ((ls ++ [last]).filter fun l => l ≠ []) textOf fun q l => Close EditPrice q (textOf l) := by
  obtain ⟨f, e1, hfok, hf4⟩ := name_field
  rcases new_or os (4 * (fileOf (ls ++ [last])).length) with ⟨e2, hr⟩ | ⟨m, e2, hd⟩
  · left
    refine ⟨?_, hr⟩
    simp only [start, hf, queryappBuild, e1, e2, ok_bind]; rfl
  · rcases lines_read (.new e2) (hd ▸ presetMade_new) hfok hf4 hl with ⟨e3, hr⟩ | ⟨app, e3, ha⟩
    · left
      refine ⟨?_, hr⟩
      simp only [start, hf, queryappBuild, e1, e2, e3, ok_bind]; rfl
    · right
      refine ⟨app, ?_, ?_⟩
      · simp only [start, hf, queryappBuild, e1, e2, e3, ok_bind]; rfl
      · rw [hd, price_default] at ha
        exact ha

/-- The costs of numberpad: the default ones, then `addNumberpadErrors` and `setSubstringMode`. -/
def padErrors : ErrorValues := afterOps [.addNumberpadErrors, .setSubstringMode]

omit [Runtime] [Fp] in
theorem pad_preset : PresetMade padErrors := presetMade_afterOps (by
  intro op hop
  rcases List.mem_cons.1 hop with rfl | hop
  · trivial
  · rw [List.mem_singleton] at hop; subst hop; trivial)

/-- C82, the same for numberpad, with prices for buttons and parts of words. -/
theorem C82_numberpad_partial (os : Nat → Bool) (files : Bytes → Option Bytes) (name file : Bytes) (more : List Bytes)
    (ls : List Bytes) (last : Bytes) (hf : files file = some (fileOf ls ++ last))
    (hl : ∀ l ∈ ls ++ [last], l = [] ∨ ToolLine l) :
    (start (numberpadBuild os) files (name :: file :: more) = .ok .failed ∧
      StorageRefused os (4 * (fileOf (ls ++ [last])).length)) ∨
    ∃ app, start (numberpadBuild os) files (name :: file :: more) = .ok (.ready app) ∧
      Answers doSearch app ((ls ++ [last]).filter fun l => l ≠ []) textOf fun q l => Close (PriceWith padErrors) q (textOf l) := by
  obtain ⟨f, e1, hfok, hf4⟩ := name_field
  obtain ⟨e, epad, _⟩ := C38_partial []
  have hpad : padErrors = e.setSubstringMode := by
    simp only [padErrors, afterOps, List.foldl_cons, List.foldl_nil, ErrOp.run] at epad ⊢
    rw [epad]; rfl
  have epad : ErrorValues.new.addNumberpadErrors = .ok e := epad
  rcases new_or os (4 * (fileOf (ls ++ [last])).length) with ⟨e2, hr⟩ | ⟨m, e2, hd⟩
  · left
    refine ⟨?_, hr⟩
    simp only [start, hf, numberpadBuild, e1, e2, ok_bind]; rfl
  · have hran : Ran os { m with e := e.setSubstringMode } [] [] := by
      have h1 := Ran.errors (.addNumberpadErrors) (Ran.new e2)
      have h2 := Ran.errors (.setSubstringMode) h1
      simp only [ErrOp.run, hd, epad, ofM] at h2
      exact h2
    rcases lines_read hran (hpad ▸ pad_preset) hfok hf4 hl with ⟨e3, hr⟩ | ⟨app, e3, ha⟩
    · left
      refine ⟨?_, hr⟩
      simp only [start, hf, numberpadBuild, e1, e2, hd, epad, e3, ok_bind]; rfl
    · right
      refine ⟨app, ?_, hpad ▸ ha⟩
      simp only [start, hf, numberpadBuild, e1, e2, hd, epad, e3, ok_bind]; rfl

omit [Runtime] [Fp] in
/-- C82. Dialling: a word costs nothing from the digits of the buttons that its letters are on. -/
theorem C82_dial (x w : Word) (h : List.Forall₂ OnButton x w) : PriceWith padErrors x w 0 := by
  obtain ⟨e, epad, hon, _⟩ := C38_partial []
  have hpad : padErrors = e.setSubstringMode := by
    simp only [padErrors, afterOps, List.foldl_cons, List.foldl_nil, ErrOp.run] at epad ⊢
    rw [epad]; rfl
  have hsub : ∀ d l, OnButton d l → (configured padErrors x.length).sub d l = 0 := by
    intro d l hdl
    have : padErrors.getSubstituteError d l = .ok 0 := by rw [hpad]; exact (hon d l hdl).1
    show (match padErrors.getSubstituteError d l with | .ok v => v | .error _ => 0) = 0
    rw [this]
  have hlen := h.length_eq
  have hscript : ∀ n ≤ x.length, Script (configured padErrors x.length) x w n n 0 := by
    intro n
    induction n with
    | zero => intro _; exact .start
    | succ n ih =>
      intro hn
      have h1 : x[n]? = some x[n] := List.getElem?_eq_getElem (by omega)
      have h2 : w[n]? = some (w[n]'(by omega)) := List.getElem?_eq_getElem (by omega)
      have h3 := Script.subst (ih (by omega)) h1 h2
      rwa [hsub x[n] (w[n]'(by omega)) (h.get (i := n) (by omega) (by omega)), add_zero] at h3
  refine ⟨?_, fun v' hv => script_nonneg (pad_preset.nonNeg _) hv⟩
  rw [← hlen]; exact hscript _ (le_refl _)

omit [Build] [Icu] [Runtime] [Fp] in
/-- C82. Calls without a file, or with one that cannot be opened. -/
theorem C82_arguments {α : Type} (build : Bytes → M α) (files : Bytes → Option Bytes) :
    (∀ argv, argv.length < 2 → start build files argv = .ok .usage) ∧
    ∀ name file more, files file = none → start build files (name :: file :: more) = .ok (.noFile file) := by
  constructor
  · intro argv h
    match argv with
    | [] => rfl
    | [_] => rfl
    | _ :: _ :: _ => simp only [List.length_cons] at h; omega
  · intro name file more h
    simp only [start, h]

/-- C82. After usable lines, a line that is no text ends the tool with a failure. -/
theorem C82_rejects (os : Nat → Bool) (files : Bytes → Option Bytes) (name file : Bytes) (more : List Bytes)
    (ls : List Bytes) (last : Bytes) (hf : files file = some (fileOf ls ++ last)) (hn : ∀ l ∈ ls ++ [last], 0x0a ∉ l)
    (pre post : List Bytes) (bad : Bytes) (hs : ls ++ [last] = pre ++ bad :: post) (hl : ∀ l ∈ pre, l = [] ∨ ToolLine l)
    (hb : 2 ≤ bad.length) (hw : ¬ WellFormed (textOf bad)) :
    start (queryappBuild os) files (name :: file :: more) = .ok .failed ∧
    start (numberpadBuild os) files (name :: file :: more) = .ok .failed := by
  obtain ⟨f, e1, hfok, hf4⟩ := name_field
  obtain ⟨e, epad, _⟩ := C38_partial []
  have epad : ErrorValues.new.addNumberpadErrors = .ok e := epad
  have hread : ∀ id, readLine f id bad = .error .runtimeError := by
    intro id
    have e1 := dosLine_text hb
    have e2 : cstr (marked bad) = textOf bad := rfl
    obtain ⟨ts, _, _, h2⟩ := C11_split (textOf bad)
    rw [readLine, if_neg (by omega), e1]
    simp only [ok_bind, Document.addTextUtf8, e2, h2 hw]
    rfl
  rcases new_or os 0 with ⟨e2, _⟩ | ⟨m, e2, hd⟩
  · simp only [start, hf, queryappBuild, numberpadBuild, e1, e2, ok_bind]; exact ⟨rfl, rfl⟩
  · have hran : Ran os { m with e := e.setSubstringMode } [] [] := by
      have h1 := Ran.errors (.addNumberpadErrors) (Ran.new e2)
      have h2 := Ran.errors (.setSubstringMode) h1
      simp only [ErrOp.run, hd, epad, ofM] at h2
      exact h2
    have hne : bad ≠ [] := by rintro rfl; simp at hb
    constructor
    · have : readAll (readLine f) (fileOf ls ++ last) m = .error .runtimeError := by
        rcases lines_stop (.new e2) hfok hf4 hn hs hl hne hread with ⟨h, _⟩ | h <;> exact h
      simp only [start, hf, queryappBuild, e1, e2, this, ok_bind]; rfl
    · have : readAll (readLine f) (fileOf ls ++ last) { m with e := e.setSubstringMode } = .error .runtimeError := by
        rcases lines_stop hran hfok hf4 hn hs hl hne hread with ⟨h, _⟩ | h <;> exact h
      simp only [start, hf, numberpadBuild, e1, e2, hd, epad, this, ok_bind]; rfl

/-- C82 is false of files that have a line of one character: after usable lines, the byte before the string is read. -/
theorem C82_short_false (os : Nat → Bool) (files : Bytes → Option Bytes) (name file : Bytes) (more : List Bytes)
    (ls : List Bytes) (last : Bytes) (hf : files file = some (fileOf ls ++ last)) (hn : ∀ l ∈ ls ++ [last], 0x0a ∉ l)
    (pre post : List Bytes) (b : Nat) (hs : ls ++ [last] = pre ++ [b] :: post) (hl : ∀ l ∈ pre, l = [] ∨ ToolLine l)
    (hr : ¬ StorageRefused os (4 * (fileOf pre).length)) :
    start (queryappBuild os) files (name :: file :: more) = .error .ub ∧
    start (numberpadBuild os) files (name :: file :: more) = .error .ub := by
  obtain ⟨f, e1, hfok, hf4⟩ := name_field
  obtain ⟨e, epad, _⟩ := C38_partial []
  have epad : ErrorValues.new.addNumberpadErrors = .ok e := epad
  have hread : ∀ id, readLine f id [b] = .error .ub := fun id => rfl
  rcases new_or os _ with ⟨e2, h⟩ | ⟨m, e2, hd⟩
  · exact absurd h hr
  · have hran : Ran os { m with e := e.setSubstringMode } [] [] := by
      have h1 := Ran.errors (.addNumberpadErrors) (Ran.new e2)
      have h2 := Ran.errors (.setSubstringMode) h1
      simp only [ErrOp.run, hd, epad, ofM] at h2
      exact h2
    constructor
    · rcases lines_stop (.new e2) hfok hf4 hn hs hl (by simp) hread with ⟨_, h⟩ | h
      · exact absurd h hr
      · simp only [start, hf, queryappBuild, e1, e2, h, ok_bind]; rfl
    · rcases lines_stop hran hfok hf4 hn hs hl (by simp) hread with ⟨_, h⟩ | h
      · exact absurd h hr
      · simp only [start, hf, numberpadBuild, e1, e2, hd, epad, h, ok_bind]; rfl

end

theorem distance_self (x : Word) : IsEditDistance x x 0 := ⟨edits_refl x, fun _ _ => Nat.zero_le _⟩

theorem distance_length {x w : Word} {n : Nat} (h : IsEditDistance x w n) : w.length ≤ x.length + n := by
  obtain ⟨h, _⟩ := h
  clear * - h
  induction h with
  | nil => simp
  | _ => simp only [List.length_append, List.length_cons, List.length_nil] at *; omega

theorem not_refused (n : Nat) (h : 36 + 32 * n < 2 ^ 31) : ¬ StorageRefused (fun _ => true) n := by
  rintro (⟨_, h'⟩ | h')
  · cases h'
  · omega

/-- "Ab cd". -/
def lineOne : Bytes := [0x41, 0x62, 0x20, 0x63, 0x64]
/-- "efghi". -/
def lineTwo : Bytes := [0x65, 0x66, 0x67, 0x68, 0x69]
/-- "abd", CR, "c". -/
def lineReturn : Bytes := [0x61, 0x62, 0x64, 0x0d, 0x63]

theorem words_example [B : Build] : let _ := Example.icu
    lineWords [0x61, 0x62] = [[0x61#16, 0x62#16]] ∧ lineWords lineOne = [[0x61#16, 0x62#16], [0x63#16, 0x64#16]] ∧
    lineWords lineTwo = [[0x65#16, 0x66#16, 0x67#16, 0x68#16, 0x69#16]] ∧ lineWords [0x63] = [[0x63#16]] ∧
    lineWords lineReturn = [[0x61#16, 0x62#16, 0x64#16], [0x63#16]] ∧
    lineWords [0x61, 0x62, 0x64] = [[0x61#16, 0x62#16, 0x64#16]] := by
  obtain ⟨b⟩ := B
  cases b <;> decide +kernel

/-- A line that is no text after its NUL can be used. -/
theorem C82_nul : ToolLine [0x61, 0x62, 0, 0xff] ∧ textOf [0x61, 0x62, 0, 0xff] = [0x61, 0x62] :=
  ⟨⟨by decide, by decide, wellFormed_ascii (by decide), by decide⟩, by decide⟩

/-- A file with three lines, the second one empty and the last one without newline: for the query "ab" the first line is
shown and the last one is not. -/
theorem C82_example [Build] [Runtime] [Fp] : let _ := Example.icu
    ∃ app v, start (queryappBuild fun _ => true) (fun _ => some (fileOf [lineOne, []] ++ lineTwo)) [[], []] = .ok (.ready app) ∧
      doSearch app [0x61, 0x62] = .ok (app, .rows [(lineOne, v)]) := by
  intro _
  have h1 : ToolLine lineOne := ⟨by decide, by decide, wellFormed_ascii (by decide), by decide⟩
  have h2 : ToolLine lineTwo := ⟨by decide, by decide, wellFormed_ascii (by decide), by decide⟩
  rcases C82_queryapp_partial (fun _ => true) (fun _ => some (fileOf [lineOne, []] ++ lineTwo)) [] [] [] [lineOne, []] lineTwo rfl
    (by intro l hl; simp at hl; rcases hl with rfl | rfl | rfl <;> simp [h1, h2]) with ⟨_, hr⟩ | ⟨app, e, ha⟩
  · exact absurd hr (not_refused _ (by decide))
  · have hq : WellFormed [0x61, 0x62] := wellFormed_ascii (by decide)
    obtain ⟨found, k, l, e1, _, _, hfr, hnd, _, hm⟩ := (ha [0x61, 0x62] ⟨by decide, by decide⟩).2 hq
    have hrows : (([lineOne, []] ++ [lineTwo]).filter fun l => l ≠ []) = [lineOne, lineTwo] := by decide
    rw [hrows] at hfr hm
    obtain ⟨hqw, hw1, hw2, _⟩ := words_example
    have hx : ∀ x, HasWord [0x61, 0x62] x ↔ x = [0x61#16, 0x62#16] := fun x => by rw [← lineWords_mem hq, hqw]; simp
    have i0 : 0 ∈ k.map (·.2) := by
      rw [hm 0]
      refine ⟨lineOne, rfl, [0x61#16, 0x62#16], [0x61#16, 0x62#16], 0, (hx _).2 rfl, ?_, ⟨0, ?_, rfl⟩, by decide⟩
      · rw [← lineWords_mem h1.wellFormed, show textOf lineOne = lineOne by decide, hw1]; simp
      · exact distance_self _
    have i1 : ∀ i ∈ k.map (·.2), i = 0 := by
      intro i hi
      obtain ⟨row, hrow, x, w, v, h3, h4, ⟨n, h5, rfl⟩, h6⟩ := (hm i).1 hi
      match i with
      | 0 => rfl
      | 1 =>
        exfalso
        obtain rfl : lineTwo = row := by simpa using hrow
        rw [hx] at h3
        rw [← lineWords_mem h2.wellFormed, show textOf lineTwo = lineTwo by decide, hw2, List.mem_singleton] at h4
        have h7 := distance_length h5
        rw [h3] at h6
        rw [h3, h4] at h7
        simp at h6 h7
        omega
      | i + 2 => simp at hrow
    match k, hnd, i0, i1, hfr with
    | [], _, i0, _, _ => simp at i0
    | [x], _, _, i1, hfr =>
      cases hfr with
      | cons h3 h4 =>
        cases h4
        rename_i row
        have : x.2 = 0 := i1 x.2 (by simp)
        rw [this] at h3
        refine ⟨app, row.2, e, ?_⟩
        obtain ⟨⟨it, hit, h5⟩, _⟩ := h3
        obtain rfl : lineOne = it := by simpa using hit
        have : row.1 = lineOne := h5.trans (by decide)
        rw [e1, ← this]
    | x :: y :: k, hnd, _, i1, _ =>
      exfalso
      have h3 : x.2 = 0 := i1 x.2 (by simp)
      have h4 : y.2 = 0 := i1 y.2 (by simp)
      simp [h3, h4] at hnd

/-- C82 is false of lines with a carriage return before the last character: in the line made of "abd", CR and "c" the word
"c" is not found, though it is in the text of the line. -/
theorem C82_return_false [Build] [Runtime] [Fp] : let _ := Example.icu
    Close EditPrice [0x63] lineReturn ∧
    ∃ app, start (queryappBuild fun _ => true) (fun _ => some (fileOf [lineReturn])) [[], []] = .ok (.ready app) ∧
      doSearch app [0x63] = .ok (app, .rows []) := by
  intro _
  have hq : WellFormed [0x63] := wellFormed_ascii (by decide)
  have hr : WellFormed lineReturn := wellFormed_ascii (by decide)
  have hab : WellFormed [0x61, 0x62, 0x64] := wellFormed_ascii (by decide)
  obtain ⟨_, _, _, hqw, hw1, hw2⟩ := words_example
  have hx : ∀ x, HasWord [0x63] x ↔ x = [0x63#16] := fun x => by rw [← lineWords_mem hq, hqw]; simp
  constructor
  · refine ⟨[0x63#16], [0x63#16], 0, (hx _).2 rfl, ?_, ⟨0, ?_, rfl⟩, by decide⟩
    · rw [← lineWords_mem hr, hw1]; simp
    · exact distance_self _
  · have h1 : ToolLine lineReturn := ⟨by decide, by decide, wellFormed_ascii (by decide), by decide⟩
    rcases C82_queryapp_partial (fun _ => true) (fun _ => some (fileOf [lineReturn])) [] [] [] [lineReturn] [] (by simp)
      (by intro l hl; simp at hl; rcases hl with rfl | rfl <;> simp [h1]) with ⟨_, hr⟩ | ⟨app, e, ha⟩
    · exact absurd hr (not_refused _ (by decide))
    · obtain ⟨found, k, l, e1, _, _, hfr, _, _, hm⟩ := (ha [0x63] ⟨by decide, by decide⟩).2 hq
      have hrows : (([lineReturn] ++ [[]]).filter fun l => l ≠ []) = [lineReturn] := by decide
      rw [hrows] at hm
      refine ⟨app, e, ?_⟩
      match k, hm, hfr with
      | [], _, hfr => cases hfr; exact e1
      | y :: k, hm, _ =>
        exfalso
        obtain ⟨row, hrow, x, w, v, h3, h4, ⟨n, h5, rfl⟩, h6⟩ := (hm y.2).1 (by simp)
        have : y.2 = 0 := by
          have := (List.getElem?_eq_some_iff.1 hrow).1
          simpa using this
        rw [this] at hrow
        obtain rfl : lineReturn = row := by simpa using hrow
        rw [hx] at h3
        rw [show textOf lineReturn = [0x61, 0x62, 0x64] by decide, ← lineWords_mem hab, hw2, List.mem_singleton] at h4
        have h7 := distance_length h5
        rw [h3] at h6
        rw [h3, h4] at h7
        simp at h6 h7
        omega

/-- C82 is false: the file that has an empty line with the line end of DOS after the line "Ab cd". -/
theorem C82_false [Build] [Icu] [Runtime] [Fp] :
    start (queryappBuild fun _ => true) (fun _ => some (fileOf [lineOne, [0x0d]])) [[], []] = .error .ub ∧
    start (numberpadBuild fun _ => true) (fun _ => some (fileOf [lineOne, [0x0d]])) [[], []] = .error .ub := by
  have h1 : ToolLine lineOne := ⟨by decide, by decide, wellFormed_ascii (by decide), by decide⟩
  exact C82_short_false (fun _ => true) _ [] [] [] [lineOne, [0x0d]] [] (by simp) (by decide) [lineOne] [[]] 0x0d rfl
    (by intro l hl; simp at hl; subst hl; exact Or.inr h1) (not_refused _ (by decide))

end Columbus.Props
