import Verif.Proofs.CreatePerformance
import Verif.Props.Apps
/-
C103: the program test/CreatePerformanceTest.cc.
-/

namespace Columbus.Props
open Columbus Columbus.Spec Columbus.Apps Columbus.CreatePerformance
open Columbus.QueryIndex (thrown atoi atoi_iff)

section
variable [Build] [Icu] [Runtime] [Fp]

/-! ### C103 -/

/-- The number of lines asked for: the second argument, or the largest `int`. -/
def LinesAsked (more : List Bytes) (T : Int) : Prop := more = [] ∧ T = 2^31 - 1 ∨ ∃ n r, more = n :: r ∧ Limit n T

omit [Build] [Icu] [Runtime] [Fp] in
theorem asked_number {more : List Bytes} {T : Int} (h : LinesAsked more T) : numberOfLines more = .ok T := by
  rcases h with ⟨rfl, rfl⟩ | ⟨n, r, rfl, h⟩
  · rfl
  · exact (atoi_iff n T).2 h

theorem build_spec (os : Nat → Bool) (ls : List Bytes) (last : Bytes) (T : Int) (hn : ∀ l ∈ ls ++ [last], 0x0a ∉ l)
    (texts : List Bytes) (ht : texts = ((ls ++ [last]).filter fun l => l ≠ []).take (max 1 T.toNat))
    (hl : ∀ l ∈ texts, WellFormed (beforeNul l) ∧ l.length ≤ 10000000) :
    (buildMatcher os (fileOf ls ++ last) T = .error .runtimeError ∧ StorageRefused os (5 * (fileOf texts).length)) ∨
    ∃ m H, buildMatcher os (fileOf ls ++ last) T = .ok (m, texts.length) ∧ Ran os m H [] ∧
      ∀ d f w, H.Posting d f w ↔ ∃ i l, texts[i]? = some l ∧ d = i + 1 ∧ LowerLetters (ascii "name") f ∧ HasWord (beforeNul l) w := by
  have e1 := (fieldWord_eq fieldName_name).1
  have ht' : texts = (nonblank (Host.lines (fileOf ls ++ last))).take (room T 0) := by
    rw [lines_nonblank hn, ht]; rfl
  have hok : ∀ l ∈ texts, TextsOk (lineTexts l) := fun l h => lineTexts_ok (hl l h).1 (hl l h).2
  have hsize : CorpusRefused os (docsFrom 1 (texts.map entryOf)) → StorageRefused os (5 * (fileOf texts).length) := by
    intro h
    refine StorageRefused.mono h ?_
    have h1 := docs_letters (texts := lineTexts) (row := fun _ => ()) texts hok 1
    have h2 := texts_length texts (by rw [ht']; exact nonblank_ne _ _)
    have h3 : (texts.map fun it => textsEntry (lineTexts it) ()) = texts.map entryOf := rfl
    rw [h3] at h1
    omega
  rcases new_or os (5 * (fileOf texts).length) with ⟨e2, hr⟩ | ⟨m, e2, _⟩
  · left
    refine ⟨?_, hr⟩
    simp only [buildMatcher, e1, e2, ok_bind]; rfl
  · rcases buildLoop_spec (os := os) T (Host.lines (fileOf ls ++ last)) m [] [] 0 (.new e2) goodDocs_nil (ht' ▸ hl) with
      ⟨e3, hr⟩ | ⟨m1, D, c, e3, hD, h1, hc⟩
    · left
      rw [← ht'] at hr
      refine ⟨?_, hsize hr⟩
      simp only [buildMatcher, e1, e2, e3, ok_bind]; rfl
    · rw [← ht'] at hD e3
      rw [List.nil_append, List.nil_append, Nat.zero_add] at hD
      rcases indexed_spec h1 hc with ⟨e4, hr⟩ | ⟨m2, e4, h2, _⟩
      · left
        rw [hD] at hr
        refine ⟨?_, hsize hr⟩
        simp only [buildMatcher, e1, e2, e3, e4, ok_bind]; rfl
      · right
        refine ⟨m2, _, ?_, h2, ?_⟩
        · simp only [buildMatcher, e1, e2, e3, e4, ok_bind, Nat.zero_add]
        · intro d f w
          have hnd : ∀ e ∈ texts.map entryOf, (e.texts.map (·.1)).Nodup := by
            intro e he
            obtain ⟨l, _, rfl⟩ := List.mem_map.1 he
            simp [entryOf, textsEntry, lineTexts]
          have hname : ascii "name" = nameText := by decide
          rw [hD, posting_docs _ hnd 1 d f w, hname, fieldWord_iff fieldName_name]
          constructor
          · rintro ⟨i, e, ws, h1, h2, h3, h4⟩
            rw [List.getElem?_map, Option.map_eq_some_iff] at h1
            obtain ⟨l, hl', rfl⟩ := h1
            simp only [entryOf, textsEntry, lineTexts, List.map_cons, List.map_nil, List.mem_singleton, Prod.mk.injEq] at h3
            rw [h3.2] at h4
            exact ⟨i, l, hl', h2.trans (Nat.add_comm 1 i), h3.1, (lineWords_mem (hl l (List.mem_of_getElem? hl')).1 w).1 h4⟩
          · rintro ⟨i, l, hl', h2, h3, h4⟩
            refine ⟨i, entryOf l, lineWords (beforeNul l), by rw [List.getElem?_map, hl']; rfl, h2.trans (Nat.add_comm i 1), ?_,
              (lineWords_mem (hl l (List.mem_of_getElem? hl')).1 w).2 h4⟩
            simp [entryOf, textsEntry, lineTexts, h3]

/-- C103, what holds: with a positive number of lines, or without one, the program makes documents 1, 2, and so on of as many
lines that are not empty, or of all if there are fewer, and indexes their words under "name"; it prints how many they were
and ends with code 0. If storage is refused it ends with code 154. Lines after them need not be text. Missing from the full
claim: lines among them that are no text, and numbers that are not positive. -/
theorem C103_partial (os : Nat → Bool) (files : Bytes → Option Bytes) (name file : Bytes) (more : List Bytes)
    (ls : List Bytes) (last : Bytes) (T : Int) (hf : files file = some (fileOf ls ++ last)) (hn : ∀ l ∈ ls ++ [last], 0x0a ∉ l)
    (hT : LinesAsked more T) (hpos : 1 ≤ T) (texts : List Bytes)
    (ht : texts = ((ls ++ [last]).filter fun l => l ≠ []).take T.toNat)
    (hl : ∀ l ∈ texts, WellFormed (beforeNul l) ∧ l.length ≤ 10000000) :
    (CreatePerformance.main os files (name :: file :: more) = .ok ⟨[], 154⟩ ∧ StorageRefused os (5 * (fileOf texts).length)) ∨
    CreatePerformance.main os files (name :: file :: more) = .ok ⟨[.read texts.length], 0⟩ ∧
      ∃ m H, buildMatcher os (fileOf ls ++ last) T = .ok (m, texts.length) ∧ Ran os m H [] ∧
      ∀ d f w, H.Posting d f w ↔ ∃ i l, texts[i]? = some l ∧ d = i + 1 ∧ LowerLetters (ascii "name") f ∧ HasWord (beforeNul l) w := by
  have h1 : max 1 T.toNat = T.toNat := by omega
  rcases build_spec os ls last T hn texts (by rw [ht, h1]) hl with ⟨e, hr⟩ | ⟨m, H, e, h⟩
  · left
    refine ⟨?_, hr⟩
    simp only [CreatePerformance.main, asked_number hT, ok_bind, hf, e]; rfl
  · right
    refine ⟨?_, m, H, e, h⟩
    simp only [CreatePerformance.main, asked_number hT, ok_bind, hf, e]

/-- C103 is false: with a number that is not positive one line is indexed all the same, if there is one that is not empty. -/
theorem C103_least (os : Nat → Bool) (files : Bytes → Option Bytes) (name file n : Bytes) (more : List Bytes)
    (ls : List Bytes) (last : Bytes) (T : Int) (hf : files file = some (fileOf ls ++ last)) (hn : ∀ l ∈ ls ++ [last], 0x0a ∉ l)
    (hT : Limit n T) (hneg : T ≤ 0) (pre post : List Bytes) (l : Bytes) (hs : ls ++ [last] = pre ++ l :: post)
    (hpre : ∀ x ∈ pre, x = []) (hne : l ≠ []) (hw : WellFormed (beforeNul l)) (hlen : l.length ≤ 10000000)
    (hr : ¬ StorageRefused os (5 * (l.length + 1))) :
    CreatePerformance.main os files (name :: file :: n :: more) = .ok ⟨[.read 1], 0⟩ := by
  have hm : max 1 T.toNat = 1 := by omega
  have ht : ((ls ++ [last]).filter fun l => l ≠ []).take (max 1 T.toNat) = [l] := by
    have : pre.filter (fun l => decide (l ≠ [])) = [] := List.filter_eq_nil_iff.2 fun x hx => by simp [hpre x hx]
    rw [hm, hs, List.filter_append, this]
    simp [hne]
  rcases build_spec os ls last T hn [l] ht.symm (by intro x hx; rw [List.mem_singleton] at hx; subst hx; exact ⟨hw, hlen⟩) with
    ⟨_, h⟩ | ⟨m, H, e, _⟩
  · refine absurd (StorageRefused.mono h ?_) hr
    simp [fileOf]
  · simp only [CreatePerformance.main, asked_number (Or.inr ⟨n, more, rfl, hT⟩), ok_bind, hf, e]
    rfl

/-- C103. A line that is no text, among those to be read: the program ends with code 154 and prints no number. -/
theorem C103_rejects (os : Nat → Bool) (files : Bytes → Option Bytes) (name file : Bytes) (more : List Bytes)
    (ls : List Bytes) (last : Bytes) (T : Int) (hf : files file = some (fileOf ls ++ last)) (hn : ∀ l ∈ ls ++ [last], 0x0a ∉ l)
    (hT : LinesAsked more T) (texts : List Bytes) (ht : texts = ((ls ++ [last]).filter fun l => l ≠ []).take (max 1 T.toNat))
    (hs : ∀ l ∈ texts, l.length ≤ 10000000) (hbad : ∃ l ∈ texts, ¬ WellFormed (beforeNul l)) :
    CreatePerformance.main os files (name :: file :: more) = .ok ⟨[], 154⟩ := by
  have e1 := (fieldWord_eq fieldName_name).1
  have ht' : texts = (nonblank (Host.lines (fileOf ls ++ last))).take (room T 0) := by
    rw [lines_nonblank hn, ht]; rfl
  have e : buildMatcher os (fileOf ls ++ last) T = .error .runtimeError := by
    rcases new_or os 0 with ⟨e2, _⟩ | ⟨m, e2, _⟩
    · simp only [buildMatcher, e1, e2, ok_bind]; rfl
    · have e3 := buildLoop_bad (os := os) T (Host.lines (fileOf ls ++ last)) m [] [] 0 (.new e2) goodDocs_nil (ht' ▸ hs) (ht' ▸ hbad)
      simp only [buildMatcher, e1, e2, e3, ok_bind]; rfl
  simp only [CreatePerformance.main, asked_number hT, ok_bind, hf, e]; rfl

omit [Runtime] [Fp] in
/-- C103. Calls that end before anything is read; a number that no `int` can hold is undefined. -/
theorem C103_arguments (os : Nat → Bool) (files : Bytes → Option Bytes) (name : Bytes) :
    CreatePerformance.main os files [name] = .ok ⟨[.usage name], 1⟩ ∧
    (∀ file more T, LinesAsked more T → files file = none →
      CreatePerformance.main os files (name :: file :: more) = .ok ⟨[.noFile file], 1⟩) ∧
    ∀ file n more, (¬ ∃ T, Limit n T) → CreatePerformance.main os files (name :: file :: n :: more) = .error .ub := by
  refine ⟨rfl, fun file more T hT h => ?_, fun file n more h => ?_⟩
  · simp only [CreatePerformance.main, asked_number hT, ok_bind, h]
  · have e : numberOfLines (n :: more) = .error .ub := by
      rcases QueryIndex.atoi_or n with ⟨T, e⟩ | e
      · exact absurd ⟨T, (atoi_iff n T).1 e⟩ h
      · exact e
    simp only [CreatePerformance.main, e]; rfl

end

theorem perf_limit_zero : Limit [0x30] 0 := ⟨[], [], [0x30], [], rfl, by simp, by simp, Or.inl ⟨rfl, by decide, by simp, by simp, by simp⟩,
  by simp, by omega, by omega⟩

theorem perf_limit_one : Limit [0x31] 1 := ⟨[], [], [0x31], [], rfl, by simp, by simp, Or.inl ⟨rfl, by decide, by simp, by simp, by simp⟩,
  by simp, by omega, by omega⟩

/-- C103 is false: asked for none of the lines "Ab cd" and "efghi", the program reads one. -/
theorem C103_false [Build] [Icu] [Runtime] [Fp] :
    CreatePerformance.main (fun _ => true) (fun _ => some (fileOf [lineOne, lineTwo])) [[], [], [0x30]] = .ok ⟨[.read 1], 0⟩ :=
  C103_least (fun _ => true) _ [] [] [0x30] [] [lineOne, lineTwo] [] 0 (by simp) (by decide) perf_limit_zero (le_refl _) [] [lineTwo, []]
    lineOne rfl (by simp) (by decide) (wellFormed_ascii (by decide)) (by decide) (not_refused _ (by decide))

/-- Two lines without a number, and one asked for with a second line that is no text; then it is asked for too. -/
example [Build] [Icu] [Runtime] [Fp] :
    CreatePerformance.main (fun _ => true) (fun _ => some (fileOf [lineOne, []] ++ lineTwo)) [[], []] = .ok ⟨[.read 2], 0⟩ ∧
    CreatePerformance.main (fun _ => true) (fun _ => some (fileOf [lineOne] ++ [0xff])) [[], [], [0x31]] = .ok ⟨[.read 1], 0⟩ ∧
    CreatePerformance.main (fun _ => true) (fun _ => some (fileOf [lineOne] ++ [0xff])) [[], []] = .ok ⟨[], 154⟩ := by
  have h1 : WellFormed (beforeNul lineOne) := wellFormed_ascii (by decide)
  have h2 : WellFormed (beforeNul lineTwo) := wellFormed_ascii (by decide)
  have hmax : (2 ^ 31 - 1 : Int).toNat = 2147483646 + 1 := by decide
  have hmax' : max 1 (2 ^ 31 - 1 : Int).toNat = 2147483646 + 1 := by rw [hmax]; omega
  refine ⟨?_, ?_, ?_⟩
  · rcases C103_partial (fun _ => true) (fun _ => some (fileOf [lineOne, []] ++ lineTwo)) [] [] [] [lineOne, []] lineTwo (2 ^ 31 - 1) rfl
      (by decide) (Or.inl ⟨rfl, rfl⟩) (by decide) [lineOne, lineTwo] (by rw [hmax]; rfl)
      (by intro l hl; simp at hl; rcases hl with rfl | rfl; exacts [⟨h1, by decide⟩, ⟨h2, by decide⟩]) with ⟨_, hr⟩ | ⟨e, _⟩
    · exact absurd hr (not_refused _ (by decide))
    · exact e
  · rcases C103_partial (fun _ => true) (fun _ => some (fileOf [lineOne] ++ [0xff])) [] [] [[0x31]] [lineOne] [0xff] 1 rfl
      (by decide) (Or.inr ⟨_, _, rfl, perf_limit_one⟩) (by decide) [lineOne] rfl
      (by intro l hl; simp at hl; subst hl; exact ⟨h1, by decide⟩) with ⟨_, hr⟩ | ⟨e, _⟩
    · exact absurd hr (not_refused _ (by decide))
    · exact e
  · refine C103_rejects (fun _ => true) (fun _ => some (fileOf [lineOne] ++ [0xff])) [] [] [] [lineOne] [0xff] (2 ^ 31 - 1) rfl
      (by decide) (Or.inl ⟨rfl, rfl⟩) [lineOne, [0xff]] (by rw [hmax']; rfl) (by decide) ⟨[0xff], by simp, ?_⟩
    rintro ⟨c, hc⟩
    have hb : beforeNul [0xff] = [0xff] := by decide
    rw [hb] at hc
    cases hc
    all_goals omega

end Columbus.Props
