import Verif.Proofs.ToolRun
/-
C81: the command line tool tools/queryindex.cc.
-/

namespace Columbus.Props
open Columbus Columbus.Spec Columbus.QueryIndex

/-! ### C81 -/

/-- C81, what holds: with one word in each line, every line ended by a newline and of at most 1022 bytes, the tool prints
the words within the limit in lower case, each once, with 100 times their distance from the query and in this order, and
ends with code 0; or it prints a failure and ends with code 105, which happens only if storage is refused. A word whose
lower-case text is so much longer than the line that it has more than 1024 bytes ends the output with code 99; one of
exactly 1024 bytes is written past the end of a buffer. Missing from the full claim: longer lines, files that do not end
with a newline and these long texts. -/
theorem C81_prints_partial [Build] [Icu] [Runtime] (osI osS : Nat → Bool) (files : Bytes → Option Bytes)
    (name file q m : Bytes) (more : List Bytes) (ls : List Bytes) (T : Int) (hf : files file = some (fileOf ls))
    (hl : ∀ l ∈ ls, WordLine l ∧ l.length ≤ 1022) (hq : WellFormed q) (hqb : ∀ b ∈ q, ¬ IsBlank b) (hq0 : 0 ∉ q)
    (hqlen : q.length ≤ 20000000) (hT : Limit m T) :
    (main osI osS files (name :: file :: q :: m :: more) = .ok ⟨[.failed], 105⟩ ∧
      Refused osI osS (fileOf ls).length) ∨
    ∃ hits : List (Bytes × Int), hits.Pairwise (fun a b => a.2 ≤ b.2) ∧ (hits.map Prod.fst).Nodup ∧
      (∀ t v, (t, v) ∈ hits ↔ Listed ls q T t v) ∧
      ((∀ p ∈ hits, p.1.length < 1024) → main osI osS files (name :: file :: q :: m :: more) =
        .ok ⟨if hits = [] then [.noMatches] else shown hits, 0⟩) ∧
      ∀ pre p post, hits = pre ++ p :: post → (∀ x ∈ pre, x.1.length < 1024) →
        (p.1.length = 1024 → main osI osS files (name :: file :: q :: m :: more) = .error .ub) ∧
        (1024 < p.1.length → main osI osS files (name :: file :: q :: m :: more) = .ok ⟨shown pre, 99⟩) := by
  obtain ⟨wq, hwq⟩ := (C01_accepts q).2 ⟨hq, hqb⟩
  rcases main_lines osI osS files name file q m more ls [] T wq (by rw [List.append_nil]; exact hf) hl hwq hT with
    h | ⟨ws, names, ind, s, fuel, hws, h, _, hrun⟩
  · exact Or.inl h
  · right
    have hwl := ofUtf8_length hwq
    have hnul : ∀ l ∈ wq, l ≠ 0#16 := by
      obtain ⟨_, c, hc, rfl⟩ := (ofUtf8_ok_iff q wq).1 hwq
      exact nonzero_lettersOf hc hq0
    have hmem : ∀ w ∈ ws, ∃ l ∈ ls, Word.ofUtf8 l = .ok w := by
      intro w hw
      obtain ⟨i, hi, rfl⟩ := List.getElem_of_mem hw
      have := List.forall₂_iff_get.1 hws
      exact ⟨ls[i]'(by rw [this.1]; exact hi), List.getElem_mem _, this.2 i _ hi⟩
    have hmem' : ∀ l ∈ ls, ∀ w, Word.ofUtf8 l = .ok w → w ∈ ws := by
      intro l hl' w hw
      obtain ⟨i, hi, rfl⟩ := List.getElem_of_mem hl'
      have := List.forall₂_iff_get.1 hws
      have h2 := this.2 i hi (by rw [← this.1]; exact hi)
      simp only [List.get_eq_getElem] at h2
      rw [hw] at h2
      injection h2 with h2
      rw [h2]; exact List.getElem_mem _
    obtain ⟨hits, e, h1, h2, h3⟩ := queryAndPrint_eq h hnul (fun w hw => by
      obtain ⟨l, hl', hlw⟩ := hmem w hw
      have := ofUtf8_length hlw
      have := (hl l hl').2
      omega) (by omega) T
    have hload : loadLoop fuel [] ind s = .ok (ind, s) := by unfold loadLoop; rfl
    rw [hload, finish, e] at hrun
    refine ⟨hits, h1, h2, ?_, ?_, ?_⟩
    · intro t v
      rw [h3]
      constructor
      · rintro ⟨w, hw, ht, n, hd, hv, hT⟩
        obtain ⟨l, hl', hlw⟩ := hmem w hw
        have hlow := (lowerLetters_iff (hl l hl').1.noBlank w).2 hlw
        exact ⟨l, hl', (lowerText_iff hlow).2 ht, wq, w, n, (lowerLetters_iff hqb wq).2 hwq, hlow, hd, hv, hT⟩
      · rintro ⟨l, hl', ht, wq', w, n, hwq', hlow, hd, hv, hT⟩
        have e1 := (lowerLetters_iff hqb wq').1 hwq'
        rw [hwq] at e1
        injection e1 with e1
        subst e1
        exact ⟨w, hmem' l hl' w ((lowerLetters_iff (hl l hl').1.noBlank w).1 hlow), (lowerText_iff hlow).1 ht, n, hd, hv, hT⟩
    · intro hfit
      rw [hrun]
      by_cases hz : hits = []
      · rw [if_pos hz, if_pos hz]
      · rw [if_neg hz, if_neg hz, ending_fits hfit]
    · intro pre p post hsplit hpre
      have hz : hits ≠ [] := by rw [hsplit]; simp
      rw [if_neg hz, hsplit] at hrun
      constructor
      · intro hp
        rw [hrun, ending_stops hpre (by omega), if_pos hp]; rfl
      · intro hp
        rw [hrun, ending_stops hpre (by omega), if_neg (by omega)]; rfl

/-- C81. What the limit argument means: undefined if its value does not fit an `int`. -/
theorem C81_limit (s : Bytes) (T : Int) : (atoi s = .ok T ↔ Limit s T) ∧ ((∀ T, ¬ Limit s T) → atoi s = .error .ub) := by
  refine ⟨atoi_iff s T, fun h => ?_⟩
  rcases atoi_or s with ⟨T', e⟩ | e
  · exact absurd ((atoi_iff s T').1 e) (h T')
  · exact e

/-- C81. Calls that end before the dictionary is read, once the two empty dictionaries are made: too few arguments, blanks
in the query, a query that is no text, and a file that cannot be opened. -/
theorem C81_arguments [Build] [Icu] [Runtime] (osI osS : Nat → Bool) (files : Bytes → Option Bytes)
    (hI : osI 1024 = true) (hS : osS 1024 = true) :
    (∀ argv, argv.length < 4 → main osI osS files argv = .ok ⟨[.usage], 0⟩) ∧
    (∀ name file q m more, WellFormed q → (∃ b ∈ q, IsBlank b) →
      main osI osS files (name :: file :: q :: m :: more) = .ok ⟨[.queryBlank q], 1⟩) ∧
    (∀ name file q m more, ¬ WellFormed q → main osI osS files (name :: file :: q :: m :: more) = .ok ⟨[.failed], 105⟩) ∧
    (∀ name file q m more T, WellFormed q → (∀ b ∈ q, ¬ IsBlank b) → Limit m T → files file = none →
      main osI osS files (name :: file :: q :: m :: more) = .ok ⟨[.noFile file], 1⟩) := by
  rcases Loaded.new osI osS with ⟨_, h⟩ | ⟨ind, e1, ⟨_, h⟩ | ⟨s, e2, _⟩⟩
  · rw [hI] at h; cases h
  · rw [hS] at h; cases h
  · refine ⟨?_, ?_, ?_, ?_⟩
    · intro argv h
      rw [QueryIndex.main, runTest, e1, ok_bind, e2, ok_bind]
      match argv, h with
      | [], _ => rfl
      | [_], _ => rfl
      | [_, _], _ => rfl
      | [_, _, _], _ => rfl
      | _ :: _ :: _ :: _ :: _, h => simp only [List.length_cons] at h; omega
    · intro name file q m more hq hb
      rw [QueryIndex.main, runTest, e1, ok_bind, e2, ok_bind]
      simp only [(C01_rejects q).2 hq hb]
    · intro name file q m more hq
      rw [QueryIndex.main, runTest, e1, ok_bind, e2, ok_bind]
      simp only [(C01_rejects q).1 hq]
      rfl
    · intro name file q m more T hq hb hT hf
      obtain ⟨w, hw⟩ := (C01_accepts q).2 ⟨hq, hb⟩
      rw [QueryIndex.main, runTest, e1, ok_bind, e2, ok_bind]
      simp only [hw, (atoi_iff m T).2 hT, ok_bind, hf]

/-- C81. Lines that are no word, after good ones: the tool prints a failure and no match. It ends with code 1 if the line
has a blank, and with code 105 if it is empty or no text, or storage is refused. -/
theorem C81_rejects [Build] [Icu] [Runtime] (osI osS : Nat → Bool) (files : Bytes → Option Bytes)
    (name file q m : Bytes) (more : List Bytes) (ls : List Bytes) (bad rest : Bytes) (T : Int)
    (hf : files file = some (fileOf ls ++ bad ++ 0x0a :: rest)) (hl : ∀ l ∈ ls, WordLine l ∧ l.length ≤ 1022)
    (hq : WellFormed q) (hqb : ∀ b ∈ q, ¬ IsBlank b) (hT : Limit m T) (h0 : 0 ∉ bad) (hn : 0x0a ∉ bad)
    (hlen : bad.length ≤ 1022) :
    (main osI osS files (name :: file :: q :: m :: more) = .ok ⟨[.failed], 105⟩ ∧ Refused osI osS (fileOf ls).length) ∨
    ((bad = [] ∨ ¬ WellFormed bad) → main osI osS files (name :: file :: q :: m :: more) = .ok ⟨[.failed], 105⟩) ∧
    ((WellFormed bad ∧ ∃ b ∈ bad, IsBlank b) →
      main osI osS files (name :: file :: q :: m :: more) = .ok ⟨[.malformed], 1⟩) := by
  obtain ⟨wq, hwq⟩ := (C01_accepts q).2 ⟨hq, hqb⟩
  rw [List.append_assoc] at hf
  rcases main_lines osI osS files name file q m more ls _ T wq hf hl hwq hT with
    h | ⟨ws, names, ind, s, fuel, hws, h, hfuel, hrun⟩
  · exact Or.inl h
  · right
    rw [List.length_append, List.length_cons] at hfuel
    obtain ⟨fuel, rfl⟩ : ∃ n, fuel = n + 1 := ⟨fuel - 1, by omega⟩
    refine ⟨?_, ?_⟩
    · rintro (rfl | hbad)
      · rw [hrun, loadLoop_line (w := []) h0 hn hlen rfl, h.store.getID_empty]; rfl
      · rw [hrun, loadLoop_bad h0 hn hlen ((C01_rejects bad).1 hbad)]; rfl
    · rintro ⟨hbad, hb⟩
      rw [hrun, loadLoop_bad h0 hn hlen ((C01_rejects bad).2 hbad hb)]; rfl

/-- C81 is false of files with a long line: after good lines, a line with more than 1022 bytes stops a debug build. -/
theorem C81_long_false [Build] [Icu] [Runtime] (osI osS : Nat → Bool) (files : Bytes → Option Bytes)
    (name file q m : Bytes) (more : List Bytes) (ls : List Bytes) (long rest : Bytes) (T : Int)
    (hf : files file = some (fileOf ls ++ long ++ rest)) (hl : ∀ l ∈ ls, WordLine l ∧ l.length ≤ 1022)
    (hq : WellFormed q) (hqb : ∀ b ∈ q, ¬ IsBlank b) (hT : Limit m T) (h0 : 0 ∉ long) (hn : 0x0a ∉ long)
    (hlen : long.length = 1023) (ha : Build.asserts = true) :
    (main osI osS files (name :: file :: q :: m :: more) = .ok ⟨[.failed], 105⟩ ∧ Refused osI osS (fileOf ls).length) ∨
    main osI osS files (name :: file :: q :: m :: more) = .error .assertion := by
  obtain ⟨wq, hwq⟩ := (C01_accepts q).2 ⟨hq, hqb⟩
  rw [List.append_assoc] at hf
  rcases main_lines osI osS files name file q m more ls _ T wq hf hl hwq hT with
    h | ⟨ws, names, ind, s, fuel, hws, h, hfuel, hrun⟩
  · exact Or.inl h
  · right
    rw [List.length_append] at hfuel
    obtain ⟨fuel, rfl⟩ : ∃ n, fuel = n + 1 := ⟨fuel - 1, by omega⟩
    rw [hrun, loadLoop_broken (fgets_full 1023 long rest hn hlen) h0 hn (by intro h; rw [h] at hlen; simp at hlen),
      if_pos ha]
    rfl

/-- C81 is false of files that do not end with a newline: after good lines, such a line stops a debug build; a release
build drops its last byte, whatever is then left. -/
theorem C81_unterminated_false [Build] [Icu] [Runtime] (osI osS : Nat → Bool) (files files' : Bytes → Option Bytes)
    (name file q m : Bytes) (more : List Bytes) (ls : List Bytes) (last : Bytes) (b : Nat) (T : Int)
    (hf : files file = some (fileOf ls ++ last ++ [b])) (hf' : files' file = some (fileOf (ls ++ [last])))
    (hl : ∀ l ∈ ls, WordLine l ∧ l.length ≤ 1022)
    (hq : WellFormed q) (hqb : ∀ b ∈ q, ¬ IsBlank b) (hT : Limit m T) (h0 : 0 ∉ last) (hn : 0x0a ∉ last)
    (hb : b ≠ 0 ∧ b ≠ 0x0a) (hlen : last.length ≤ 1022) :
    (Build.asserts = true →
      (main osI osS files (name :: file :: q :: m :: more) = .ok ⟨[.failed], 105⟩ ∧ Refused osI osS (fileOf ls).length) ∨
      main osI osS files (name :: file :: q :: m :: more) = .error .assertion) ∧
    (Build.asserts = false → main osI osS files (name :: file :: q :: m :: more) =
      main osI osS files' (name :: file :: q :: m :: more)) := by
  obtain ⟨wq, hwq⟩ := (C01_accepts q).2 ⟨hq, hqb⟩
  rw [List.append_assoc] at hf
  have e0 : fileOf (ls ++ [last]) = fileOf ls ++ (last ++ [0x0a]) := by simp [fileOf]
  rw [e0] at hf'
  have g0 : 0 ∉ last ++ [b] := by
    rw [List.mem_append, List.mem_singleton]; rintro (h | h)
    · exact h0 h
    · exact hb.1 h.symm
  have gn : 0x0a ∉ last ++ [b] := by
    rw [List.mem_append, List.mem_singleton]; rintro (h | h)
    · exact hn h
    · exact hb.2 h.symm
  have hfg : fgets 1023 (last ++ [b]) = (last ++ [b], []) := fgets_last 1023 _ gn (by simp; omega)
  have hfg' : fgets 1023 (last ++ [b] ++ []) = (last ++ [b], []) := by rw [List.append_nil]; exact hfg
  constructor
  · intro ha
    rcases main_lines osI osS files name file q m more ls _ T wq hf hl hwq hT with
      h | ⟨ws, names, ind, s, fuel, hws, h, hfuel, hrun⟩
    · exact Or.inl h
    · right
      rw [List.length_append, List.length_singleton] at hfuel
      obtain ⟨fuel, rfl⟩ : ∃ n, fuel = n + 1 := ⟨fuel - 1, by omega⟩
      have := loadLoop_broken (fuel := fuel) (ind := ind) (s := s) hfg' g0 gn (by simp)
      rw [List.append_nil] at this
      rw [hrun, this, if_pos ha]
      rfl
  · intro ha
    apply main_congr hf hf' hwq hT
    intro ind s
    rw [loadData, loadData, loadLoop_chopped ha h0 hn hb hlen ls hl]
    simp

/-- A dictionary of one word that is searched for itself. -/
theorem C81_single [Build] [Icu] [Runtime] (files : Bytes → Option Bytes) (name file l m t : Bytes) (more : List Bytes)
    (hf : files file = some (l ++ [0x0a])) (hl : WordLine l) (hlen : l.length ≤ 1022) (hT : Limit m 0) (ht : LowerText l t) :
    main (fun _ => true) (fun _ => true) files (name :: file :: l :: m :: more) =
      if t.length < 1024 then .ok ⟨[.hit t 0], 0⟩ else if t.length = 1024 then .error .ub else .ok ⟨[], 99⟩ := by
  have hfl : (fileOf [l]).length ≤ 1023 := by simp [fileOf]; omega
  rcases C81_prints_partial (fun _ => true) (fun _ => true) files name file l m more [l] 0 (by rw [hf]; simp [fileOf])
    (by simp [hl, hlen]) hl.wellFormed hl.noBlank hl.noNul (by omega) hT with ⟨_, hr⟩ | ⟨hits, _, hnd, hmem, hok, hstop⟩
  · exfalso
    rcases hr with (⟨_, h⟩ | h) | (⟨_, h⟩ | h)
    · cases h
    · omega
    · cases h
    · omega
  · obtain ⟨w, hw⟩ := (C01_accepts l).2 ⟨hl.wellFormed, hl.noBlank⟩
    have hlow := (lowerLetters_iff hl.noBlank w).2 hw
    have hin : (t, 0) ∈ hits := by
      rw [hmem]
      exact ⟨l, by simp, ht, w, w, 0, hlow, hlow, (C26_metric w w).2.2.2 rfl, by simp, by omega⟩
    have hall : ∀ p ∈ hits, p = (t, 0) := by
      intro p hp
      obtain ⟨l', hl', ht', _, _, n, _, _, _, hv, hT'⟩ := (hmem p.1 p.2).1 hp
      rw [List.mem_singleton] at hl'
      subst hl'
      have e1 := ((lowerText_iff hlow).1 ht).same ((lowerText_iff hlow).1 ht')
      have e2 : p.2 = 0 := by omega
      rw [← e2, e1]
    have hhits : hits = [(t, 0)] := by
      cases hits with
      | nil => simp at hin
      | cons p r =>
        have hp := hall p (by simp)
        cases r with
        | nil => rw [hp]
        | cons p' r =>
          have hp' := hall p' (by simp)
          rw [hp, hp'] at hnd
          simp at hnd
    subst hhits
    by_cases h1 : t.length < 1024
    · rw [if_pos h1, hok (by simpa using h1)]; rfl
    · rw [if_neg h1]
      obtain ⟨h2, h3⟩ := hstop [] (t, 0) [] rfl (by simp)
      by_cases h4 : t.length = 1024
      · rw [if_pos h4]; exact h2 h4
      · rw [if_neg h4]; exact h3 (by show 1024 < t.length; omega)

/-- The limit "0". -/
theorem limit_zero : Limit [0x30] 0 := ⟨[], [], [0x30], [], rfl, by simp, by simp, Or.inl ⟨rfl, by decide, by simp, by simp, by simp⟩,
  by simp, by omega, by omega⟩

/-- C81 is false: with a file that consists of the two letters "ab", a release build finds the word "a", which is not in the
file, and a debug build is aborted. -/
theorem C81_false : let _ := Example.icu; let _ := Example.runtime
    @main Example.release _ _ (fun _ => true) (fun _ => true) (fun _ => some [0x61, 0x62]) [[], [], [0x61], [0x30]] =
      .ok ⟨[.hit [0x61] 0], 0⟩ ∧
    ¬ Listed [[0x61, 0x62]] [0x61] 0 [0x61] 0 ∧
    @main Example.debug _ _ (fun _ => true) (fun _ => true) (fun _ => some [0x61, 0x62]) [[], [], [0x61], [0x30]] =
      .error .assertion := by
  intro i r
  have hline : WordLine [0x61] := ⟨by simp, ⟨[0x61], .one (by omega) .nil⟩, by simp [IsBlank], by simp⟩
  have hw : WellFormed [0x61] := hline.wellFormed
  have hlow : LowerText [0x61] [0x61] := ⟨[0x61], .one (by omega) .nil, .one (by omega) .nil⟩
  refine ⟨?_, ?_, ?_⟩
  · let _ := Example.release
    rw [(C81_unterminated_false (fun _ => true) (fun _ => true) (fun _ => some [0x61, 0x62]) (fun _ => some [0x61, 0x0a])
      [] [] [0x61] [0x30] [] [] [0x61] 0x62 0 rfl rfl (by simp) hw hline.noBlank limit_zero (by simp) (by simp) (by omega)
      (by simp)).2 rfl]
    exact C81_single (fun _ => some [0x61, 0x0a]) [] [] [0x61] [0x30] [0x61] [] rfl hline (by simp) limit_zero hlow
  · rintro ⟨l, hl, ⟨c, h1, h2⟩, _⟩
    rw [List.mem_singleton] at hl
    subst hl
    have := Utf8.det h1 (.one (by omega) (.one (by omega) .nil))
    subst this
    have := Utf8.det h2 (.one (by omega) .nil)
    simp at this
  · let _ := Example.debug
    rcases (C81_unterminated_false (fun _ => true) (fun _ => true) (fun _ => some [0x61, 0x62]) (fun _ => some [0x61, 0x0a])
      [] [] [0x61] [0x30] [] [] [0x61] 0x62 0 rfl rfl (by simp) hw hline.noBlank limit_zero (by simp) (by simp) (by omega)
      (by simp)).1 rfl with ⟨_, hr⟩ | h
    · exfalso
      rcases hr with (⟨_, h⟩ | h) | (⟨_, h⟩ | h)
      · cases h
      · simp [fileOf] at h
      · cases h
      · simp [fileOf] at h
    · exact h

/-- A letter whose lower-case text is longer: U+023A has two bytes, its lower-case form U+2C65 has three. -/
def lowerBar (l : Letter) : Letter := if l.toNat = 0x023A then 0x2C65#16 else l

theorem lowerBar_toNat (l : Letter) : (lowerBar l).toNat = if l.toNat = 0x023A then 0x2C65 else l.toNat := by
  unfold lowerBar; split <;> rfl

@[reducible] def barIcu : Icu where
  lower := lowerBar
  lower_idem l := by
    apply BitVec.eq_of_toNat_eq
    rw [lowerBar_toNat (lowerBar l), lowerBar_toNat l]
    repeat' split
    all_goals omega
  lower_surrogate l h := by
    apply BitVec.eq_of_toNat_eq
    simp [isSurrogate, isHighSurrogate, isLowSurrogate] at h
    rw [lowerBar_toNat]; split <;> omega
  lower_not_surrogate l h := by
    simp [isSurrogate, isHighSurrogate, isLowSurrogate, lowerBar_toNat] at h ⊢
    split <;> omega
  lower_ascii l h := by
    apply BitVec.eq_of_toNat_eq
    rw [lowerBar_toNat] at h ⊢
    split at h <;> split <;> omega
  lower_control l h := by
    apply BitVec.eq_of_toNat_eq
    rw [lowerBar_toNat]; split <;> omega

/-- `n` letters U+023A and then "a", and the same in lower case. -/
def bars : Nat → Bytes
  | 0 => [0x61]
  | n + 1 => 0xC8 :: 0xBA :: bars n
def barsLower : Nat → Bytes
  | 0 => [0x61]
  | n + 1 => 0xE2 :: 0xB1 :: 0xA5 :: barsLower n

theorem bars_facts (n : Nat) : let _ := barIcu
    LowerText (bars n) (barsLower n) ∧ (bars n).length = 2 * n + 1 ∧ (barsLower n).length = 3 * n + 1 ∧
    ∀ b ∈ bars n, b = 0x61 ∨ b = 0xC8 ∨ b = 0xBA := by
  intro i
  induction n with
  | zero => exact ⟨⟨[0x61], .one (by omega) .nil, .one (by omega) .nil⟩, rfl, rfl, by simp [bars]⟩
  | succ n ih =>
    obtain ⟨⟨c, h1, h2⟩, h3, h4, h5⟩ := ih
    refine ⟨⟨0x23A :: c, ?_, ?_⟩, ?_, ?_, ?_⟩
    · exact .two (by omega) (by omega) (by omega) (by omega) h1
    · have : lowerCp 0x23A = 0x2C65 := rfl
      rw [List.map_cons, this]
      exact .three (by omega) (by omega) (by omega) h2
    · rw [bars, List.length_cons, List.length_cons, h3]; omega
    · rw [barsLower, List.length_cons, List.length_cons, List.length_cons, h4]; omega
    · intro b hb
      rw [bars, List.mem_cons, List.mem_cons] at hb
      rcases hb with rfl | rfl | hb
      · exact Or.inr (Or.inl rfl)
      · exact Or.inr (Or.inr rfl)
      · exact h5 b hb

/-- C81 is false of words that grow by lower-casing: with a dictionary of one line of 683 bytes, whose lower-case text has
1024 bytes, printing this word writes past the end of the buffer. -/
theorem C81_overrun_false [Build] [Runtime] : let _ := barIcu
    WordLine (bars 341) ∧ (bars 341).length = 683 ∧
    main (fun _ => true) (fun _ => true) (fun _ => some (bars 341 ++ [0x0a])) [[], [], bars 341, [0x30]] = .error .ub := by
  intro i
  obtain ⟨h1, h2, h3, h4⟩ := bars_facts 341
  have hline : WordLine (bars 341) := by
    refine ⟨by intro h; rw [h] at h2; simp at h2, ?_, ?_, ?_⟩
    · obtain ⟨c, h, _⟩ := h1; exact ⟨c, h⟩
    · intro b hb hbl
      have := h4 b hb
      unfold IsBlank at hbl
      omega
    · intro h0
      have := h4 0 h0
      omega
  refine ⟨hline, h2, ?_⟩
  rw [C81_single (fun _ => some (bars 341 ++ [0x0a])) [] [] (bars 341) [0x30] (barsLower 341) [] rfl hline (by omega)
    limit_zero h1, if_neg (by omega), if_pos (by omega)]

/-! ### Examples -/

/-- `C81_prints_partial` applies to the dictionary "ab", "Abc", "x" and the query "aB" with the limit 100, given as " +100x". -/
example : WordLine [0x61, 0x62] ∧ WordLine [0x41, 0x62, 0x63] ∧ WordLine [0x78] ∧ Limit [0x20, 0x2b, 0x31, 0x30, 0x30, 0x78] 100 ∧
    fileOf [[0x61, 0x62], [0x41, 0x62, 0x63], [0x78]] = [0x61, 0x62, 0x0a, 0x41, 0x62, 0x63, 0x0a, 0x78, 0x0a] :=
  ⟨⟨by simp, ⟨_, .one (by omega) (.one (by omega) .nil)⟩, by simp [IsBlank], by simp⟩,
    ⟨by simp, ⟨_, .one (by omega) (.one (by omega) (.one (by omega) .nil))⟩, by simp [IsBlank], by simp⟩,
    ⟨by simp, ⟨_, .one (by omega) .nil⟩, by simp [IsBlank], by simp⟩,
    ⟨[0x20], [0x2b], [0x31, 0x30, 0x30], [0x78], rfl, by simp, by simp, Or.inr (Or.inl ⟨rfl, by decide⟩), by simp,
      by omega, by omega⟩, rfl⟩

/-- "Abc" is listed for it, as "abc" with 100. -/
example : let _ := Example.icu
    Listed [[0x61, 0x62], [0x41, 0x62, 0x63], [0x78]] [0x61, 0x42] 100 [0x61, 0x62, 0x63] 100 := by
  intro i
  refine ⟨[0x41, 0x62, 0x63], by simp, ⟨_, .one (by omega) (.one (by omega) (.one (by omega) .nil)),
    .one (by omega) (.one (by omega) (.one (by omega) .nil))⟩, [0x61, 0x62], [0x61, 0x62, 0x63], 1,
    ⟨_, .one (by omega) (.one (by omega) .nil), .bmp (by decide) (.bmp (by decide) .nil)⟩,
    ⟨_, .one (by omega) (.one (by omega) (.one (by omega) .nil)), .bmp (by decide) (.bmp (by decide) (.bmp (by decide) .nil))⟩,
    ⟨?_, ?_⟩, by omega, by omega⟩
  · have h0 : Edits [0x61, 0x62] [0x61, 0x62] 0 := ((C26_metric _ _).2.2.2 rfl).1
    exact .insert 0x63 h0
  · intro m hm
    by_contra hc
    have : m = 0 := by omega
    subst this
    have := (C26_metric [0x61, 0x62] [0x61, 0x62, 0x63]).2.2.1 ⟨hm, fun _ _ => Nat.zero_le _⟩
    simp at this

/-- `C81_rejects` applies to the blank and to the empty line. -/
example : WellFormed [0x61, 0x20] ∧ (∃ b ∈ [0x61, 0x20], IsBlank b) ∧ WellFormed ([] : Bytes) ∧ ¬ WellFormed [0xff] :=
  ⟨⟨_, .one (by omega) (.one (by omega) .nil)⟩, ⟨0x20, by simp, by simp [IsBlank]⟩, ⟨_, .nil⟩, by
    rintro ⟨c, h⟩
    cases h
    omega⟩

/-- `C81_long_false` applies to a line of 1023 letters "a". -/
example : 0 ∉ List.replicate 1023 0x61 ∧ 0x0a ∉ List.replicate 1023 0x61 ∧ (List.replicate 1023 0x61).length = 1023 :=
  ⟨fun h => absurd (List.mem_replicate.1 h).2 (by omega), fun h => absurd (List.mem_replicate.1 h).2 (by omega),
    List.length_replicate⟩

end Columbus.Props
