import Verif.Spec.Scalability
import Verif.Proofs.Scalability
/-
C102: the measuring program test/LevScalabilityTest.cc.
-/

namespace Columbus.Props
open Columbus Columbus.Spec Columbus.Scalability ErrorValues
open Columbus.QueryIndex (thrown atoi atoi_iff words_of letters_of ofUtf8_length Loaded)

section
variable [Build] [Icu] [Runtime]

/-! ### C102 -/

/-- What goes wrong with the data files when the standard errors are added to new settings. -/
def standardTrouble (sys : Host) : Option Fault := (addStandardErrors (dataOf sys) ErrorValues.new).2

omit [Runtime] in
theorem standard_cases {sys : Host} (henv : sys.env ≠ some []) :
    (standardTrouble sys = none ∧ sys.addStandardErrors ErrorValues.new = (afterOps [.addStandardErrors (dataOf sys)], none)) ∨
    ∃ f e, standardTrouble sys = some f ∧ thrown f = true ∧ sys.addStandardErrors ErrorValues.new = (e, some f) := by
  obtain ⟨_, hf⟩ := standard_same (dataOf sys) new_inv
  rw [C71_standard_partial sys henv]
  unfold standardTrouble
  have he : afterOps [.addStandardErrors (dataOf sys)] = (addStandardErrors (dataOf sys) ErrorValues.new).1 := rfl
  rw [he]
  generalize addStandardErrors (dataOf sys) ErrorValues.new = A at *
  obtain ⟨e, _ | f⟩ := A
  · exact Or.inl ⟨rfl, rfl⟩
  · refine Or.inr ⟨f, e, rfl, ?_, rfl⟩
    rcases hf f rfl with rfl | rfl <;> rfl

omit [Runtime] in
theorem env_empty {sys : Host} (henv : sys.env = some []) : sys.addStandardErrors ErrorValues.new = (ErrorValues.new, some .ub) := by
  simp only [Host.addStandardErrors, Host.addAccents, C71_empty sys henv]

omit [Build] [Icu] [Runtime] in
theorem asked_range {more : List Bytes} {n : Nat} {T : Int} (h : Asked more n T) (hn : n < 2^31) : -2^31 ≤ T ∧ T < 2^31 := by
  rcases h with ⟨_, rfl⟩ | ⟨m, rest, _, hT⟩
  · omega
  · obtain ⟨_, _, _, _, _, _, _, _, _, h⟩ := hT
    exact h

omit [Build] [Icu] [Runtime] in
theorem asked_eq {more : List Bytes} {n : Nat} {T : Int} (h : Asked more n T) (hn : n < 2^31) :
    numberOfQueries more n = .ok T := by
  rcases h with ⟨rfl, rfl⟩ | ⟨m, rest, rfl, hT⟩
  · have : intOfSize n = n := by unfold intOfSize wrap32; omega
    rw [numberOfQueries, this]
  · exact (atoi_iff m T).2 hT

omit [Build] [Icu] [Runtime] in
theorem wordLine_readable {l : Bytes} (h : WordLine l ∧ l.length ≤ 1022) : Scalability.Readable l :=
  ⟨h.1.noNul, fun hm => h.1.noBlank _ hm (by unfold IsBlank; omega), h.2⟩

omit [Runtime] in
theorem words_facts {ls : List Bytes} {ws : List Word} (hl : ∀ l ∈ ls, WordLine l ∧ l.length ≤ 1022)
    (hf : List.Forall₂ (fun l w => Word.ofUtf8 l = .ok w) ls ws) : ∀ w ∈ ws, GoodWord w ∧ w.length ≤ 1022 := by
  induction hf with
  | nil => intro w hw; cases hw
  | @cons l w ls ws h hf ih =>
    intro v hv
    rcases List.mem_cons.1 hv with rfl | hv
    · obtain ⟨h1, h2⟩ := hl l (by simp)
      exact ⟨goodWord_ofUtf8 h1.noNul h1.nonempty h, (ofUtf8_length h).trans h2⟩
    · exact ih (fun l hl' => hl l (by simp [hl'])) v hv

omit [Runtime] in
/-- Lines that are words or empty. -/
theorem lines_words : ∀ ls : List Bytes, (∀ l ∈ ls, l = [] ∨ WordLine l ∧ l.length ≤ 1022) →
    ∃ ws, List.Forall₂ (fun l w => Word.ofUtf8 l = .ok w) ls ws := by
  intro ls
  induction ls with
  | nil => intro _; exact ⟨[], .nil⟩
  | cons l ls ih =>
    intro h
    obtain ⟨ws, hws⟩ := ih fun l hl => h l (by simp [hl])
    rcases h l (by simp) with rfl | ⟨h1, _⟩
    · exact ⟨[] :: ws, .cons rfl hws⟩
    · obtain ⟨w, hw⟩ := (C01_accepts l).2 ⟨h1.wellFormed, h1.noBlank⟩
      exact ⟨w :: ws, .cons hw hws⟩

omit [Build] [Icu] [Runtime] in
theorem lines_readable {ls : List Bytes} (h : ∀ l ∈ ls, l = [] ∨ WordLine l ∧ l.length ≤ 1022) :
    ∀ l ∈ ls, Scalability.Readable l := by
  intro l hl
  rcases h l hl with rfl | h
  · exact ⟨by simp, by simp, by simp⟩
  · exact wordLine_readable h

/-- The whole run on a file of words. -/
theorem lev_run (sys : Host) (osI osS : Nat → Bool) (files : Bytes → Option Bytes) (name file : Bytes) (more : List Bytes)
    (ls : List Bytes) (T : Int) (hf : files file = some (fileOf ls)) (hl : ∀ l ∈ ls, WordLine l ∧ l.length ≤ 1022)
    (hn : ls.length < 2^31) (hT : Asked more ls.length T) :
    (main sys osI osS files (name :: file :: more) = .ok ⟨[.read ls.length, .querying T], 154⟩ ∧
      Refused osI osS (fileOf ls).length) ∨
    main sys osI osS files (name :: file :: more) =
      if 0 ≤ T ∧ T ≤ ls.length then
        match (sys.addStandardErrors ErrorValues.new).2 with
        | none => .ok ⟨[.read ls.length, .querying T, .built, .simple, .heavy], 0⟩
        | some f => ending [.read ls.length, .querying T, .built, .simple] (some f)
      else .error .ub := by
  obtain ⟨ws, hws⟩ := words_of ls fun l hl' => (hl l hl').1
  have hlen := hws.length_eq
  have hle := letters_of hws
  obtain ⟨fuel, _, e1⟩ := readData_lines (fun l hl' => wordLine_readable (hl l hl')) hws []
  rw [List.append_nil] at e1
  have e1 : readData (fileOf ls) = .ok ws := by rw [e1, readLoop.eq_def]
  have hw := words_facts hl hws
  have hTr := asked_range hT hn
  have e2 : main sys osI osS files (name :: file :: more) =
      ending ([.read ls.length, .querying T] ++ (runTest sys osI osS ws T).1) (runTest sys osI osS ws T).2 := by
    simp only [Scalability.main, hf, e1]
    rw [hlen] at hT hn ⊢
    rw [asked_eq hT hn]
  rw [e2]
  rcases buildIndex_words osI osS ws [] (fun w h => (hw w h).1) with ⟨e3, hr⟩ | ⟨ind, s, names, h, e3⟩
  · left
    rw [List.append_nil] at e3
    refine ⟨?_, hr.imp (fun h => h.mono hle) (fun h => h.mono hle)⟩
    simp only [Scalability.runTest, e3]
    rfl
  · right
    rw [List.append_nil, insertLoop, ok_bind] at e3
    have hq : ∀ ops, PresetMade (afterOps ops) → runQueries T ws (afterOps ops) ind =
        if 0 ≤ T ∧ T ≤ ws.length then .ok () else .error .ub := fun ops hp =>
      runQueries_ok h (fun w hw' => (hw w hw').2) ops hp hTr (by omega)
    have q1 := hq [] presetMade_new
    have q2 := hq [.addStandardErrors (dataOf sys)] (presetMade_afterOps (by
      intro op hop
      rw [List.mem_singleton] at hop; subst hop; trivial))
    rw [show afterOps [] = ErrorValues.new from rfl] at q1
    simp only [Scalability.runTest, e3, q1]
    rw [hlen]
    by_cases ha : 0 ≤ T ∧ T ≤ ws.length
    · rw [if_pos ha] at q2
      rw [if_pos ha, if_pos ha]
      rcases hs : sys.addStandardErrors ErrorValues.new with ⟨e, _ | f⟩
      · have he : e = afterOps [.addStandardErrors (dataOf sys)] := by
          by_cases henv : sys.env = some []
          · rw [env_empty henv] at hs; cases hs
          · rcases standard_cases henv with ⟨_, h2⟩ | ⟨_, _, _, _, h2⟩
            · rw [h2] at hs; cases hs; rfl
            · rw [h2] at hs; cases hs
        simp only [he, q2]
        rfl
      · rfl
    · rw [if_neg ha, if_neg ha]
      rfl

/-- C102, what holds: a file of words, one in each line, at most 1022 bytes each, is read and searched for as many of its
words as asked for, twice, if it has that many; the program ends with code 0. If the data files cannot be used, it ends with
code 154 after the first round, and if storage is refused before it. Missing from the full claim: files with other lines,
more queries than words, a negative number, and an empty environment variable. -/
theorem C102_partial (sys : Host) (osI osS : Nat → Bool) (files : Bytes → Option Bytes) (name file : Bytes) (more : List Bytes)
    (ls : List Bytes) (T : Int) (hf : files file = some (fileOf ls)) (hl : ∀ l ∈ ls, WordLine l ∧ l.length ≤ 1022)
    (hn : ls.length < 2^31) (hT : Asked more ls.length T) (ha : Available T ls.length) (henv : sys.env ≠ some []) :
    (main sys osI osS files (name :: file :: more) = .ok ⟨[.read ls.length, .querying T], 154⟩ ∧
      Refused osI osS (fileOf ls).length) ∨
    (standardTrouble sys = none ∧
      main sys osI osS files (name :: file :: more) = .ok ⟨[.read ls.length, .querying T, .built, .simple, .heavy], 0⟩) ∨
    (standardTrouble sys ≠ none ∧
      main sys osI osS files (name :: file :: more) = .ok ⟨[.read ls.length, .querying T, .built, .simple], 154⟩) := by
  rcases lev_run sys osI osS files name file more ls T hf hl hn hT with h | h
  · exact Or.inl h
  · right
    unfold Available at ha
    rw [if_pos ha] at h
    rcases standard_cases henv with ⟨h1, h2⟩ | ⟨f, e, h1, h2, h3⟩
    · rw [h2] at h; exact Or.inl ⟨h1, h⟩
    · rw [h3] at h
      simp only [ending, h2] at h
      exact Or.inr ⟨by rw [h1]; simp, h⟩

omit [Runtime] in
/-- C102. The data files can be used if they can be read, have a word in each line and no letter twice in different lines. -/
theorem C102_data (sys : Host) (latin greek : List Bytes) (gs gs' : List Word)
    (hl : dataOf sys false = some latin) (hg : dataOf sys true = some greek)
    (hlw : List.Forall₂ (fun l g => Word.ofUtf8 (l.takeWhile (· != 0)) = .ok g) latin gs)
    (hgw : List.Forall₂ (fun l g => Word.ofUtf8 (l.takeWhile (· != 0)) = .ok g) greek gs')
    (hdis : (gs ++ gs').Pairwise fun g g' => ∀ l ∈ g, l ∉ g') : standardTrouble sys = none := by
  obtain ⟨e, h, _⟩ := C36_standard (dataOf sys) latin greek gs gs' hl hg hlw hgw hdis
  rw [standardTrouble, h]

/-- C102 is false: with a negative number, or more queries than words, the program reads beyond the words. -/
theorem C102_queries (sys : Host) (osI osS : Nat → Bool) (files : Bytes → Option Bytes) (name file m : Bytes) (more : List Bytes)
    (ls : List Bytes) (T : Int) (hf : files file = some (fileOf ls)) (hl : ∀ l ∈ ls, WordLine l ∧ l.length ≤ 1022)
    (hn : ls.length < 2^31) (hT : Limit m T) (ha : T < 0 ∨ ls.length < T) :
    (main sys osI osS files (name :: file :: m :: more) = .ok ⟨[.read ls.length, .querying T], 154⟩ ∧
      Refused osI osS (fileOf ls).length) ∨
    main sys osI osS files (name :: file :: m :: more) = .error .ub := by
  rcases lev_run sys osI osS files name file (m :: more) ls T hf hl hn (Or.inr ⟨m, more, rfl, hT⟩) with h | h
  · exact Or.inl h
  · right
    rwa [if_neg (by omega)] at h

/-- C102. An empty environment variable: undefined once the first round is over. -/
theorem C102_environment (sys : Host) (osI osS : Nat → Bool) (files : Bytes → Option Bytes) (name file : Bytes) (more : List Bytes)
    (ls : List Bytes) (T : Int) (hf : files file = some (fileOf ls)) (hl : ∀ l ∈ ls, WordLine l ∧ l.length ≤ 1022)
    (hn : ls.length < 2^31) (hT : Asked more ls.length T) (ha : Available T ls.length) (henv : sys.env = some []) :
    (main sys osI osS files (name :: file :: more) = .ok ⟨[.read ls.length, .querying T], 154⟩ ∧
      Refused osI osS (fileOf ls).length) ∨
    main sys osI osS files (name :: file :: more) = .error .ub := by
  rcases lev_run sys osI osS files name file more ls T hf hl hn hT with h | h
  · exact Or.inl h
  · right
    unfold Available at ha
    rw [if_pos ha, env_empty henv] at h
    exact h

/-- C102. Calls that end before anything is read: no arguments, and a file that cannot be opened, which counts as success. -/
theorem C102_arguments (sys : Host) (osI osS : Nat → Bool) (files : Bytes → Option Bytes) (name : Bytes) :
    main sys osI osS files [name] = .ok ⟨[.usage name], 1⟩ ∧
    ∀ file more, files file = none → main sys osI osS files (name :: file :: more) = .ok ⟨[.skipped], 0⟩ := by
  refine ⟨rfl, fun file more h => ?_⟩
  simp only [Scalability.main, h]

/-- C102. After lines that are words, a line that is no text or has a blank ends the program with code 154 before anything is
printed, whatever comes after it. -/
theorem C102_rejects (sys : Host) (osI osS : Nat → Bool) (files : Bytes → Option Bytes) (name file : Bytes) (more : List Bytes)
    (ls : List Bytes) (bad rest : Bytes) (hf : files file = some (fileOf ls ++ bad ++ 0x0a :: rest))
    (hl : ∀ l ∈ ls, l = [] ∨ WordLine l ∧ l.length ≤ 1022) (h0 : 0 ∉ bad) (hn : 0x0a ∉ bad) (hlen : bad.length ≤ 1022)
    (hb : ¬ WellFormed bad ∨ ∃ b ∈ bad, IsBlank b) :
    main sys osI osS files (name :: file :: more) = .ok ⟨[], 154⟩ := by
  obtain ⟨ws, hws⟩ := lines_words ls hl
  obtain ⟨fuel, hfuel, e1⟩ := readData_lines (lines_readable hl) hws (bad ++ 0x0a :: rest)
  obtain ⟨n, rfl⟩ : ∃ n, fuel = n + 1 := ⟨fuel - 1, by simp at hfuel; omega⟩
  rw [List.append_assoc] at hf
  obtain ⟨f, ef, ht⟩ : ∃ f, Word.ofUtf8 bad = .error f ∧ thrown f = true := by
    by_cases hw : WellFormed bad
    · exact ⟨_, (C01_rejects bad).2 hw (hb.resolve_left fun h => h hw), rfl⟩
    · exact ⟨_, (C01_rejects bad).1 hw, rfl⟩
  rw [readLoop_bad h0 hn hlen ef] at e1
  simp only [Scalability.main, hf, e1, ending, ht]
  rfl

/-- C102. An empty line: the program ends with code 154 when it comes to index it. -/
theorem C102_empty (sys : Host) (osI osS : Nat → Bool) (files : Bytes → Option Bytes) (name file : Bytes) (more : List Bytes)
    (ls : List Bytes) (T : Int) (hf : files file = some (fileOf ls)) (hl : ∀ l ∈ ls, l = [] ∨ WordLine l ∧ l.length ≤ 1022)
    (he : [] ∈ ls) (hn : ls.length < 2^31) (hT : Asked more ls.length T) :
    main sys osI osS files (name :: file :: more) = .ok ⟨[.read ls.length, .querying T], 154⟩ := by
  obtain ⟨pre, post, rfl, hpre⟩ := List.eq_append_cons_of_mem he
  have hl1 : ∀ l ∈ pre, WordLine l ∧ l.length ≤ 1022 := fun l h =>
    (hl l (by simp [h])).resolve_left (by rintro rfl; exact hpre h)
  obtain ⟨ws1, hws1⟩ := words_of pre fun l h => (hl1 l h).1
  obtain ⟨ws2, hws2⟩ := lines_words post fun l h => hl l (by simp [h])
  have hws : List.Forall₂ (fun l w => Word.ofUtf8 l = .ok w) (pre ++ [] :: post) (ws1 ++ [] :: ws2) :=
    List.rel_append hws1 (.cons rfl hws2)
  have hlen := hws.length_eq
  obtain ⟨fuel, _, e1⟩ := readData_lines (lines_readable hl) hws []
  rw [List.append_nil] at e1
  have e1 : readData (fileOf (pre ++ [] :: post)) = .ok (ws1 ++ [] :: ws2) := by rw [e1, readLoop.eq_def]
  have e2 : main sys osI osS files (name :: file :: more) =
      ending ([.read (pre ++ [] :: post).length, .querying T] ++ (runTest sys osI osS (ws1 ++ [] :: ws2) T).1)
        (runTest sys osI osS (ws1 ++ [] :: ws2) T).2 := by
    simp only [Scalability.main, hf, e1]
    rw [hlen] at hT hn ⊢
    rw [asked_eq hT hn]
  rw [e2]
  rcases buildIndex_words osI osS ws1 ([] :: ws2) (fun w h => (words_facts hl1 hws1 w h).1) with ⟨e3, _⟩ | ⟨ind, s, names, h, e3⟩
  · simp only [Scalability.runTest, e3]; rfl
  · rw [insertLoop, h.store.getID_empty] at e3
    simp only [Scalability.runTest, e3]; rfl

/-- C102. A last line without its newline: a debug build is aborted, a release build takes the line without its last byte. -/
theorem C102_unterminated (sys : Host) (osI osS : Nat → Bool) (files files' : Bytes → Option Bytes) (name file : Bytes)
    (more : List Bytes) (ls : List Bytes) (last : Bytes) (b : Nat)
    (hf : files file = some (fileOf ls ++ last ++ [b])) (hf' : files' file = some (fileOf (ls ++ [last])))
    (hl : ∀ l ∈ ls, l = [] ∨ WordLine l ∧ l.length ≤ 1022) (h0 : 0 ∉ last) (hn : 0x0a ∉ last) (hb : b ≠ 0 ∧ b ≠ 0x0a)
    (hlen : last.length ≤ 1022) :
    (Build.asserts = true → main sys osI osS files (name :: file :: more) = .error .assertion) ∧
    (Build.asserts = false → main sys osI osS files (name :: file :: more) = main sys osI osS files' (name :: file :: more)) := by
  obtain ⟨ws, hws⟩ := lines_words ls hl
  obtain ⟨fuel, hfuel, e1⟩ := readData_lines (lines_readable hl) hws (last ++ [b])
  obtain ⟨n, rfl⟩ : ∃ n, fuel = n + 1 := ⟨fuel - 1, by simp at hfuel; omega⟩
  obtain ⟨fuel', hfuel', e1'⟩ := readData_lines (lines_readable hl) hws (last ++ 0x0a :: [])
  obtain ⟨n', rfl⟩ : ∃ n, fuel' = n + 1 := ⟨fuel' - 1, by simp at hfuel'; omega⟩
  rw [List.append_assoc] at hf
  have ef : fileOf (ls ++ [last]) = fileOf ls ++ (last ++ 0x0a :: []) := by simp [fileOf]
  rw [ef] at hf'
  have g0 : 0 ∉ last ++ [b] := by
    rw [List.mem_append, List.mem_singleton]; rintro (h | h)
    · exact h0 h
    · exact hb.1 h.symm
  have gn : 0x0a ∉ last ++ [b] := by
    rw [List.mem_append, List.mem_singleton]; rintro (h | h)
    · exact hn h
    · exact hb.2 h.symm
  have hfg : QueryIndex.fgets 1023 (last ++ [b] ++ []) = (last ++ [b], []) := by
    rw [List.append_nil]; exact QueryIndex.fgets_last 1023 _ gn (by simp; omega)
  have e2 := readLoop_broken (fuel := n) hfg g0 gn (by simp) ws
  rw [List.append_nil, List.dropLast_concat] at e2
  rw [e2] at e1
  constructor
  · intro ha
    rw [if_pos ha] at e1
    simp only [Scalability.main, hf, e1]
    rfl
  · intro ha
    rw [if_neg (by rw [ha]; simp)] at e1
    have e3 : readData (fileOf ls ++ (last ++ [b])) = readData (fileOf ls ++ (last ++ 0x0a :: [])) := by
      rw [e1, e1']
      cases hw : Word.ofUtf8 last with
      | error f => rw [readLoop_bad h0 hn hlen hw]; rfl
      | ok w => rw [readLoop_line h0 hn hlen hw, ok_bind, readLoop.eq_def, readLoop.eq_def]
    simp only [Scalability.main, hf, hf', e3]

/-- C102. A line of 1023 bytes or more: a debug build is aborted, a release build loses the byte 1023 and takes what is before
it and what is after it for two lines. -/
theorem C102_long (sys : Host) (osI osS : Nat → Bool) (files files' : Bytes → Option Bytes) (name file : Bytes)
    (more : List Bytes) (ls : List Bytes) (long rest : Bytes) (b : Nat) (hf : files file = some (fileOf ls ++ (long ++ [b]) ++ rest))
    (hf' : files' file = some (fileOf (ls ++ [long]) ++ rest))
    (hl : ∀ l ∈ ls, l = [] ∨ WordLine l ∧ l.length ≤ 1022) (h0 : 0 ∉ long) (hn : 0x0a ∉ long) (hb : b ≠ 0 ∧ b ≠ 0x0a)
    (hlen : long.length = 1022) :
    (Build.asserts = true → main sys osI osS files (name :: file :: more) = .error .assertion) ∧
    (Build.asserts = false → main sys osI osS files (name :: file :: more) = main sys osI osS files' (name :: file :: more)) := by
  obtain ⟨ws, hws⟩ := lines_words ls hl
  rw [List.append_assoc] at hf
  have ef : fileOf (ls ++ [long]) ++ rest = fileOf ls ++ (long ++ 0x0a :: rest) := by simp [fileOf]
  rw [ef] at hf'
  have hll := fileOf_length ls
  have el : (fileOf ls ++ (long ++ [b] ++ rest)).length = (fileOf ls).length - ls.length + 1022 + rest.length + 1 + ls.length := by
    simp; omega
  have el' : (fileOf ls ++ (long ++ 0x0a :: rest)).length = (fileOf ls).length - ls.length + 1022 + rest.length + 1 + ls.length := by
    simp; omega
  have e1 : readData (fileOf ls ++ (long ++ [b] ++ rest)) =
      readLoop ((fileOf ls).length - ls.length + 1022 + rest.length + 1) (long ++ [b] ++ rest) ws := by
    rw [readData, el, readLoop_lines ls ws (lines_readable hl) hws]; rfl
  have e1' : readData (fileOf ls ++ (long ++ 0x0a :: rest)) =
      readLoop ((fileOf ls).length - ls.length + 1022 + rest.length + 1) (long ++ 0x0a :: rest) ws := by
    rw [readData, el', readLoop_lines ls ws (lines_readable hl) hws]; rfl
  have g0 : 0 ∉ long ++ [b] := by
    rw [List.mem_append, List.mem_singleton]; rintro (h | h)
    · exact h0 h
    · exact hb.1 h.symm
  have gn : 0x0a ∉ long ++ [b] := by
    rw [List.mem_append, List.mem_singleton]; rintro (h | h)
    · exact hn h
    · exact hb.2 h.symm
  have e2 := readLoop_broken (fuel := (fileOf ls).length - ls.length + 1022 + rest.length)
    (QueryIndex.fgets_full 1023 (long ++ [b]) rest gn (by simp [hlen])) g0 gn (by simp) ws
  rw [List.dropLast_concat] at e2
  rw [e2] at e1
  constructor
  · intro ha
    rw [if_pos ha] at e1
    simp only [Scalability.main, hf, e1]
    rfl
  · intro ha
    rw [if_neg (by rw [ha]; simp)] at e1
    have e3 : readData (fileOf ls ++ (long ++ [b] ++ rest)) = readData (fileOf ls ++ (long ++ 0x0a :: rest)) := by
      rw [e1, e1']
      cases hw : Word.ofUtf8 long with
      | error f => rw [readLoop_bad h0 hn (by omega) hw]; rfl
      | ok w => rw [readLoop_line h0 hn (by omega) hw, ok_bind]
    simp only [Scalability.main, hf, hf', e3]

/-! ### Cases -/

omit [Build] [Icu] [Runtime] in
theorem lev_line_a : WordLine [0x61] := ⟨by simp, ⟨[0x61], .one (by omega) .nil⟩, by simp [IsBlank], by simp⟩

omit [Build] [Icu] [Runtime] in
theorem lev_not_refused {n : Nat} (h : n ≤ 1000) : ¬ Refused (fun _ => true) (fun _ => true) n := by
  rintro ((⟨_, h⟩ | h) | (⟨_, h⟩ | h))
  · cases h
  · omega
  · cases h
  · omega

omit [Build] [Icu] [Runtime] in
theorem lev_limit_two : Limit [0x32] 2 := ⟨[], [], [0x32], [], rfl, by simp, by simp, Or.inl ⟨rfl, by decide, by simp, by simp, by simp⟩,
  by simp, by omega, by omega⟩

omit [Build] [Icu] [Runtime] in
theorem lev_limit_minus : Limit [0x2d, 0x31] (-1) := ⟨[], [0x2d], [0x31], [], rfl, by simp, by simp, Or.inr (Or.inr ⟨rfl, by decide⟩),
  by simp, by omega, by omega⟩

/-- C102 is false: a list with the one word "a" and two queries, or minus one. -/
theorem C102_false (sys : Host) :
    main sys (fun _ => true) (fun _ => true) (fun _ => some [0x61, 0x0a]) [[], [], [0x32]] = .error .ub ∧
    main sys (fun _ => true) (fun _ => true) (fun _ => some [0x61, 0x0a]) [[], [], [0x2d, 0x31]] = .error .ub := by
  constructor
  · refine (C102_queries sys _ _ _ [] [] [0x32] [] [[0x61]] 2 rfl (by simp [lev_line_a]) (by simp) lev_limit_two (by simp)).resolve_left ?_
    exact fun h => lev_not_refused (by simp [fileOf]) h.2
  · refine (C102_queries sys _ _ _ [] [] [0x2d, 0x31] [] [[0x61]] (-1) rfl (by simp [lev_line_a]) (by simp) lev_limit_minus (by simp)).resolve_left ?_
    exact fun h => lev_not_refused (by simp [fileOf]) h.2

/-- With the word "a" twice and the shipped data files the program ends well, and without them with code 154. -/
example : (let _ := Example.icu
      @main Example.debug _ _ installedHost (fun _ => true) (fun _ => true) (fun _ => some [0x61, 0x0a, 0x61, 0x0a]) [[], [], [0x32]] =
        .ok ⟨[.read 2, .querying 2, .built, .simple, .heavy], 0⟩) ∧
    main ⟨none, [], fun _ => none⟩ (fun _ => true) (fun _ => true) (fun _ => some [0x61, 0x0a, 0x61, 0x0a]) [[], []] =
      .ok ⟨[.read 2, .querying 2, .built, .simple], 154⟩ := by
  constructor
  · intro i
    let _ := Example.debug
    rcases C102_partial installedHost (fun _ => true) (fun _ => true) (fun _ => some [0x61, 0x0a, 0x61, 0x0a]) [] [] [[0x32]]
      [[0x61], [0x61]] 2 rfl (by simp [lev_line_a]) (by simp) (Or.inr ⟨_, _, rfl, lev_limit_two⟩) ⟨by simp, by simp⟩ (by simp [installedHost])
      with ⟨_, h⟩ | ⟨_, h⟩ | ⟨h, _⟩
    · exact absurd h (lev_not_refused (by simp [fileOf]))
    · exact h
    · exfalso
      apply h
      rw [standardTrouble, installed_data]
      decide +kernel
  · rcases C102_partial ⟨none, [], fun _ => none⟩ (fun _ => true) (fun _ => true) (fun _ => some [0x61, 0x0a, 0x61, 0x0a]) [] [] []
      [[0x61], [0x61]] 2 rfl (by simp [lev_line_a]) (by simp) (Or.inl ⟨rfl, rfl⟩) ⟨by simp, by simp⟩ (by simp)
      with ⟨_, h⟩ | ⟨h, _⟩ | ⟨_, h⟩
    · exact absurd h (lev_not_refused (by simp [fileOf]))
    · cases h
    · exact h

end
end Columbus.Props
