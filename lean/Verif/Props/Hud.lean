import Verif.Proofs.AppHud
import Verif.Props.Apps
import Verif.Props.DataFile
/-
C83: the graphical tool tools/hudtest.cc.
-/

namespace Columbus.Props
open Columbus Columbus.Spec Columbus.Apps ErrorValues

section
variable [Build] [Icu] [Runtime] [Fp]

/-! ### C83 -/

/-- The costs of hudtest: substring mode, then the standard errors from the data files. -/
def hudErrors (sys : Host) : ErrorValues := afterOps [.setSubstringMode, .addStandardErrors (dataOf sys)]

/-- What went wrong with the data files. -/
def hudTrouble (sys : Host) : Option Fault := (addStandardErrors (dataOf sys) ErrorValues.new.setSubstringMode).2

omit [Runtime] [Fp] in
theorem hud_preset (sys : Host) : PresetMade (hudErrors sys) := presetMade_afterOps (by
  intro op hop
  rcases List.mem_cons.1 hop with rfl | hop
  · trivial
  · rw [List.mem_singleton] at hop; subst hop; trivial)

omit [Runtime] [Fp] in
theorem substring_inv : ErrorValues.EInv ErrorValues.new.setSubstringMode [] := by
  obtain ⟨evs, h1, h2⟩ := run_inv .setSubstringMode new_inv
  have : evs = [] := by
    refine List.eq_nil_iff_forall_not_mem.2 fun ev hev => ?_
    exact absurd (h2 ev hev) (by simp [Makes])
  rw [this] at h1
  exact h1

omit [Runtime] [Fp] in
theorem hud_standard {sys : Host} (henv : sys.env ≠ some []) :
    (hudTrouble sys = none ∧ standard sys ErrorValues.new.setSubstringMode = .ok (hudErrors sys)) ∨
    ∃ f, hudTrouble sys = some f ∧ (f = .runtimeError ∨ f = .invalidArgument) ∧
      standard sys ErrorValues.new.setSubstringMode = .error f := by
  obtain ⟨_, hf⟩ := standard_same (dataOf sys) substring_inv
  unfold standard hudTrouble
  rw [C71_standard_partial sys henv]
  have he : hudErrors sys = (addStandardErrors (dataOf sys) ErrorValues.new.setSubstringMode).1 := rfl
  rw [he]
  generalize addStandardErrors (dataOf sys) ErrorValues.new.setSubstringMode = A at *
  obtain ⟨e, _ | f⟩ := A
  · exact Or.inl ⟨rfl, rfl⟩
  · exact Or.inr ⟨f, rfl, hf f rfl, rfl⟩

omit [Runtime] [Fp] in
theorem hud_fields : Word.ofUtf8 pathText = .ok (fieldWord (ascii "path")) ∧ Word.ofUtf8 commandText = .ok (fieldWord (ascii "command")) ∧
    Word.ofUtf8 aliasText = .ok (fieldWord (ascii "alias")) := by
  rw [texts_ascii.1, texts_ascii.2.1, texts_ascii.2.2.1]
  exact ⟨(fieldWord_eq name_path).1, (fieldWord_eq name_command).1, (fieldWord_eq name_alias).1⟩

omit [Icu] [Runtime] [Fp] in
theorem new_weights {os : Nat → Bool} {m : Matcher} (h : Matcher.new os = .ok m) : m.weights = [] := by
  rw [Matcher.new] at h
  cases hs : WordStore.new os with
  | error f => rw [hs] at h; cases h
  | ok s => rw [hs] at h; cases h; rfl

theorem hud_ran {os : Nat → Bool} {m : Matcher} (sys : Host) (h : Matcher.new os = .ok m) :
    Ran os { m with e := hudErrors sys } [] [] := by
  have h1 := Ran.errors (.setSubstringMode) (Ran.new h)
  have h2 := Ran.errors (.addStandardErrors (dataOf sys)) h1
  simp only [ErrOp.run, new_errors h] at h2
  exact h2

/-- C83, what holds: the file has a command in each line, a path, `>` and a name. If each line is empty or has two characters
at least and its parts are text, and the data files can be used, the tool starts, and shows for each query exactly the lines
with a command of which the path, the name or the additional name has a word within the limit of a word of the query; or it
ends with a failure because storage is refused. Paths count less, and so do the additional names. Missing from the full
claim: lines of one character, and an empty environment variable; and of each part of a line only what is before a NUL, or a
carriage return before the last character, is used and shown. -/
theorem C83_partial (sys : Host) (os : Nat → Bool) (files : Bytes → Option Bytes) (name file : Bytes) (more : List Bytes)
    (ls : List Bytes) (last : Bytes) (hf : files file = some (fileOf ls ++ last))
    (hl : ∀ l ∈ ls ++ [last], l = [] ∨ CommandLine l) (henv : sys.env ≠ some []) (hdata : hudTrouble sys = none) :
    (start (hudtestBuild sys os) files (name :: file :: more) = .ok .failed ∧
      StorageRefused os (23 * (fileOf (ls ++ [last])).length)) ∨
    ∃ app, start (hudtestBuild sys os) files (name :: file :: more) = .ok (.ready app) ∧
      Answers hudtestSearch app ((ls ++ [last]).filter hasCommand) shownParts (AnyClose (PriceWith (hudErrors sys)) commandTexts) ∧
      Indexes os app ((ls ++ [last]).filter hasCommand) commandTexts ∧
      Weighs app [(ascii "path", Fp.rnd (3 / 10)), (ascii "alias", Fp.rnd (8 / 10))] := by
  obtain ⟨f1, f2, f3⟩ := hud_fields
  rcases new_or os (23 * (fileOf (ls ++ [last])).length) with ⟨e2, hr⟩ | ⟨m, e2, hd⟩
  · left
    refine ⟨?_, hr⟩
    simp only [start, hf, hudtestBuild, f1, f2, f3, e2, ok_bind]; rfl
  · obtain ⟨_, e3⟩ | ⟨f, h, _⟩ := hud_standard henv
    · rcases commands_read (hud_ran sys e2) hl with ⟨e4, hr⟩ | ⟨m', e4, hran, he, hw⟩
      · left
        refine ⟨?_, hr⟩
        simp only [start, hf, hudtestBuild, f1, f2, f3, e2, hd, e3, e4, ok_bind]; rfl
      · right
        have hran' := Ran.weight (fieldWord (ascii "alias")) aliasWeight (Ran.weight (fieldWord (ascii "path")) pathWeight hran)
        have hgood := commands_good hl
        obtain ⟨ha, hx⟩ := texts_answer (text := fun r => (cstr r.1, cstr r.2)) (texts := commandTexts)
          (row := fun l => parts (marked l)) (shown := shownParts)
          (fun l hl' => commandTexts_ok (hgood l hl')) (fun l hl' => rfl) hran' (he ▸ hud_preset sys)
        refine ⟨_, ?_, ?_, hx, ?_⟩
        · simp only [start, hf, hudtestBuild, f1, f2, f3, e2, hd, e3, e4, ok_bind]; rfl
        · have he : m'.e = hudErrors sys := he
          rw [← he]
          exact ha
        · refine weighs_two name_path name_alias (by decide) ?_
          have hw : m'.weights = [] := hw.trans (new_weights (m := m) e2)
          simp only [hw]
          rfl
    · rw [hdata] at h; cases h

omit [Runtime] [Fp] in
/-- C83. The data files can be used if no letter is in two of their groups. -/
theorem C83_loads (sys : Host) (latin greek : List Bytes) (gs gs' : List Word)
    (hl : dataOf sys false = some latin) (hg : dataOf sys true = some greek)
    (hlw : List.Forall₂ (fun l g => Word.ofUtf8 (l.takeWhile (· != 0)) = .ok g) latin gs)
    (hgw : List.Forall₂ (fun l g => Word.ofUtf8 (l.takeWhile (· != 0)) = .ok g) greek gs')
    (hdis : (gs ++ gs').Pairwise fun g g' => ∀ l ∈ g, l ∉ g') : hudTrouble sys = none := by
  have hlw' : Lines (latin.map fun l => l.takeWhile (· != 0)) gs := by
    rw [Lines, List.forall₂_map_left_iff]; exact hlw
  have hgw' : Lines (greek.map fun l => l.takeWhile (· != 0)) gs' := by
    rw [Lines, List.forall₂_map_left_iff]; exact hgw
  rw [List.pairwise_append] at hdis
  obtain ⟨e1, ev1, p1, i1, s1, m1, c1, o1⟩ := accentLoop_ok hlw' substring_inv hdis.1 (fun _ _ _ _ => rfl) (fun _ _ => rfl)
  obtain ⟨e2, ev2, p2, i2, s2, m2, c2, o2⟩ := accentLoop_ok hgw' i1 hdis.2.1 (by
    intro g hg l hl
    rw [Bool.eq_false_iff, ne_eq, m1 l]
    rintro (h | ⟨g0, hg0, h⟩)
    · cases h
    · exact hdis.2.2 g0 hg0 g hg l h hl) s1
  obtain ⟨e3, ev3, p3, rfl, i3, _, t3⟩ := keyboard_inv i2
  rw [hudTrouble, addStandardErrors, addAccents, hl]
  simp only [p1]
  rw [addAccents, hg]
  simp only [p2, p3]

omit [Runtime] in
/-- C83. If the data files cannot be used, the tool ends with a failure. -/
theorem C83_data (sys : Host) (os : Nat → Bool) (files : Bytes → Option Bytes) (name file : Bytes) (more : List Bytes)
    (contents : Bytes) (hf : files file = some contents) (henv : sys.env ≠ some []) (hdata : hudTrouble sys ≠ none) :
    start (hudtestBuild sys os) files (name :: file :: more) = .ok .failed := by
  obtain ⟨f1, f2, f3⟩ := hud_fields
  rcases new_or os 0 with ⟨e2, _⟩ | ⟨m, e2, hd⟩
  · simp only [start, hf, hudtestBuild, f1, f2, f3, e2, ok_bind]; rfl
  · obtain ⟨h, _⟩ | ⟨f, _, h, e3⟩ := hud_standard henv
    · exact absurd h hdata
    · simp only [start, hf, hudtestBuild, f1, f2, f3, e2, hd, e3, ok_bind]
      rcases h with rfl | rfl <;> rfl

/-- C83. After usable lines, a line of which a part is no text ends the tool with a failure. -/
theorem C83_rejects (sys : Host) (os : Nat → Bool) (files : Bytes → Option Bytes) (name file : Bytes) (more : List Bytes)
    (ls : List Bytes) (last : Bytes) (hf : files file = some (fileOf ls ++ last)) (hn : ∀ l ∈ ls ++ [last], 0x0a ∉ l)
    (henv : sys.env ≠ some []) (pre post : List Bytes) (bad : Bytes) (hs : ls ++ [last] = pre ++ bad :: post)
    (hl : ∀ l ∈ pre, l = [] ∨ CommandLine l) (hb : 2 ≤ bad.length)
    (hw : ¬ (WellFormed (shownParts bad).1 ∧ WellFormed (shownParts bad).2)) :
    start (hudtestBuild sys os) files (name :: file :: more) = .ok .failed := by
  obtain ⟨f1, f2, f3⟩ := hud_fields
  rcases new_or os 0 with ⟨e2, _⟩ | ⟨m, e2, hd⟩
  · simp only [start, hf, hudtestBuild, f1, f2, f3, e2, ok_bind]; rfl
  · obtain ⟨_, e3⟩ | ⟨f, h, _⟩ := hud_standard henv
    · have : readAll (readCommand (fieldWord (ascii "path")) (fieldWord (ascii "command")) (fieldWord (ascii "alias")))
          (fileOf ls ++ last) { m with e := hudErrors sys } = .error .runtimeError := by
        rcases commands_stop (hud_ran sys e2) hn hs hl (by rintro rfl; simp at hb)
          (fun id => readCommand_bad hb hw _ _ _ id) with ⟨h, _⟩ | h <;> exact h
      simp only [start, hf, hudtestBuild, f1, f2, f3, e2, hd, e3, this, ok_bind]; rfl
    · exact C83_data sys os files name file more _ hf henv (by rw [h]; simp)

/-- C83 is false of files that have a line of one character: after usable lines, the byte before the string is read. -/
theorem C83_short_false (sys : Host) (os : Nat → Bool) (files : Bytes → Option Bytes) (name file : Bytes) (more : List Bytes)
    (ls : List Bytes) (last : Bytes) (hf : files file = some (fileOf ls ++ last)) (hn : ∀ l ∈ ls ++ [last], 0x0a ∉ l)
    (henv : sys.env ≠ some []) (hdata : hudTrouble sys = none) (pre post : List Bytes) (b : Nat)
    (hs : ls ++ [last] = pre ++ [b] :: post) (hl : ∀ l ∈ pre, l = [] ∨ CommandLine l)
    (hr : ¬ StorageRefused os (23 * (fileOf pre).length)) :
    start (hudtestBuild sys os) files (name :: file :: more) = .error .ub := by
  obtain ⟨f1, f2, f3⟩ := hud_fields
  rcases new_or os _ with ⟨e2, h⟩ | ⟨m, e2, hd⟩
  · exact absurd h hr
  · obtain ⟨_, e3⟩ | ⟨f, h, _⟩ := hud_standard henv
    · rcases commands_stop (hud_ran sys e2) hn hs hl (by simp) (f := .ub) (fun id => rfl) with ⟨_, h⟩ | h
      · exact absurd h hr
      · simp only [start, hf, hudtestBuild, f1, f2, f3, e2, hd, e3, h, ok_bind]; rfl
    · rw [hdata] at h; cases h

omit [Runtime] in
/-- C83 is false if the environment variable is empty: the byte before it is read. -/
theorem C83_env_false (sys : Host) (os : Nat → Bool) (files : Bytes → Option Bytes) (name file : Bytes) (more : List Bytes)
    (contents : Bytes) (hf : files file = some contents) (henv : sys.env = some []) (hr : ¬ StorageRefused os 0) :
    start (hudtestBuild sys os) files (name :: file :: more) = .error .ub := by
  obtain ⟨f1, f2, f3⟩ := hud_fields
  rcases new_or os 0 with ⟨e2, h⟩ | ⟨m, e2, hd⟩
  · exact absurd h hr
  · have e3 : standard sys ErrorValues.new.setSubstringMode = .error .ub := by
      simp only [standard, Host.addStandardErrors, Host.addAccents, C71_empty sys henv]
    simp only [start, hf, hudtestBuild, f1, f2, f3, e2, hd, e3, ok_bind]; rfl

end

theorem price_self {e : ErrorValues} (h : PresetMade e) (x : Word) : PriceWith e x x 0 := by
  rw [PriceWith, isEditCost_iff, best_self (h.nonNeg _)]
  intro a _
  show (match e.getSubstituteError a a with | .ok v => v | .error _ => 0) = 0
  rw [h.self a]

/-- "E>Fuzzy Select", "E>". -/
def lineFuzzy : Bytes := [0x45, 0x3e] ++ fuzzySelect
def lineNone : Bytes := [0x45, 0x3e]

/-- A system with empty data files. -/
def emptyData : Host := ⟨none, [], fun _ => some (some [])⟩

theorem emptyData_ok [Build] [Icu] : hudTrouble emptyData = none :=
  C83_loads emptyData [] [] [] [] rfl rfl .nil .nil .nil

theorem line_fuzzy : CommandLine lineFuzzy ∧ CommandLine lineNone ∧ hasCommand lineFuzzy = true ∧ hasCommand lineNone = false ∧
    parts (marked lineFuzzy) = ([0x45], fuzzySelect) ∧ shownParts lineFuzzy = ([0x45], fuzzySelect) :=
  ⟨commandLine_plain (by decide) (by decide) (by decide) (by decide) (wellFormed_ascii (by decide)) (by decide),
    commandLine_plain (by decide) (by decide) (by decide) (by decide) (wellFormed_ascii (by decide)) (by decide),
    by decide, by decide, by decide, by decide⟩

theorem hud_words [B : Build] : let _ := Example.icu
    lineWords [0x6c, 0x61, 0x73, 0x73, 0x6f] = [[0x6c#16, 0x61#16, 0x73#16, 0x73#16, 0x6f#16]] ∧
    [0x6c#16, 0x61#16, 0x73#16, 0x73#16, 0x6f#16] ∈ lineWords magneticLasso := by
  obtain ⟨b⟩ := B
  cases b <;> decide +kernel

/-- A line with a NUL in its path, and a carriage return before its last character: `p`, NUL, `q>c`, CR, `d`. -/
theorem C83_nul : CommandLine [0x70, 0, 0x71, 0x3e, 0x63, 0x0d, 0x64] ∧
    shownParts [0x70, 0, 0x71, 0x3e, 0x63, 0x0d, 0x64] = ([0x70], [0x63]) :=
  ⟨⟨by decide, by decide, wellFormed_ascii (by decide), wellFormed_ascii (by decide), by decide⟩, by decide⟩

/-- A file with two lines, the first without a command: for the query "lasso" the second one is shown, because of its
additional name. -/
theorem C83_example [Build] [Runtime] [Fp] : let _ := Example.icu
    ∃ app v, start (hudtestBuild emptyData fun _ => true) (fun _ => some (fileOf [lineNone, lineFuzzy])) [[], []] = .ok (.ready app) ∧
      hudtestSearch app [0x6c, 0x61, 0x73, 0x73, 0x6f] = .ok (app, .rows [(([0x45], fuzzySelect), v)]) := by
  intro _
  obtain ⟨h1, h2, h3, h4, h5, h7⟩ := line_fuzzy
  rcases C83_partial emptyData (fun _ => true) (fun _ => some (fileOf [lineNone, lineFuzzy])) [] [] [] [lineNone, lineFuzzy] [] (by simp)
    (by intro l hl; simp at hl; rcases hl with rfl | rfl | rfl <;> simp [h1, h2]) (by simp [emptyData]) emptyData_ok with
    ⟨_, hr⟩ | ⟨app, e, ha, _, _⟩
  · exact absurd hr (not_refused _ (by decide))
  · have hq : WellFormed [0x6c, 0x61, 0x73, 0x73, 0x6f] := wellFormed_ascii (by decide)
    obtain ⟨found, k, l, e1, _, _, hfr, hnd, _, hm⟩ := (ha [0x6c, 0x61, 0x73, 0x73, 0x6f] ⟨by decide, by decide⟩).2 hq
    have hrows : (([lineNone, lineFuzzy] ++ [[]]).filter hasCommand) = [lineFuzzy] := by decide
    rw [hrows] at hfr hm
    obtain ⟨hqw, hmw⟩ := hud_words
    have i0 : 0 ∈ k.map (·.2) := by
      rw [hm 0]
      refine ⟨lineFuzzy, rfl, (ascii "alias", ascii "magnetic lasso"), ?_, [0x6c#16, 0x61#16, 0x73#16, 0x73#16, 0x6f#16],
        [0x6c#16, 0x61#16, 0x73#16, 0x73#16, 0x6f#16], 0, ?_, ?_, ?_, by decide⟩
      · unfold commandTexts
        rw [h5, ← texts_ascii.2.2.2.1, if_pos (List.infix_refl _)]
        simp
      · rw [← lineWords_mem hq, hqw]; simp
      · rw [← texts_ascii.2.2.2.2, ← lineWords_mem (wellFormed_ascii (by decide))]; exact hmw
      · exact price_self (hud_preset emptyData) _
    have i1 : ∀ i ∈ k.map (·.2), i = 0 := by
      intro i hi
      obtain ⟨it, hit, _⟩ := (hm i).1 hi
      match i with
      | 0 => rfl
      | i + 1 => simp at hit
    match k, hnd, i0, i1, hfr with
    | [], _, i0, _, _ => simp at i0
    | [x], _, _, i1, hfr =>
      cases hfr with
      | cons h3 h4 =>
        cases h4
        rename_i row
        have : x.2 = 0 := i1 x.2 (by simp)
        rw [this] at h3
        refine ⟨app, row.2, e, ?_⟩
        obtain ⟨⟨it, hit, h6⟩, _⟩ := h3
        obtain rfl : lineFuzzy = it := by simpa using hit
        have : row.1 = ([0x45], fuzzySelect) := h6.trans h7
        rw [e1, ← this]
    | x :: y :: k, hnd, _, i1, _ =>
      exfalso
      have h3 : x.2 = 0 := i1 x.2 (by simp)
      have h4 : y.2 = 0 := i1 y.2 (by simp)
      simp [h3, h4] at hnd

theorem C83_false [Build] [Icu] [Runtime] [Fp] : ¬ ∀ (contents : Bytes), ∃ x,
    start (hudtestBuild emptyData fun _ => true) (fun _ => some contents) [[], []] = .ok x := by
  intro h
  obtain ⟨x, hx⟩ := h (fileOf [] ++ [0x61])
  rw [C83_short_false emptyData (fun _ => true) (fun _ => some (fileOf [] ++ [0x61])) [] [] [] [] [0x61] rfl (by decide) (by simp [emptyData])
    emptyData_ok [] [] 0x61 rfl (by simp) (not_refused _ (by decide))] at hx
  cases hx

end Columbus.Props
