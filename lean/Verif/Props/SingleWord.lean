import Verif.Proofs.SingleWord
import Verif.Props.Tools
/-
C85: the graphical tool tools/singleword.cc.
-/

namespace Columbus.Props
open Columbus Columbus.Spec Columbus.SingleWord QueryIndex

/-! ### C85 -/

/-- The answers of singleword: it lists the words within the limit in lower case, each once, with 100 times their distance
from the query and in this order. Queries that are no word are reported, and an empty one changes nothing. A text of exactly
1024 bytes is written past the end of a buffer, and a longer one ends the callback with an exception. -/
def FindsWords [Build] [Icu] [Runtime] (app : SingleWord.Data) (ls : List Bytes) : Prop :=
  ∀ q T, 0 ∉ q →
    (q = [] → SingleWord.doSearch app q T = .ok .unchanged) ∧
    ((¬ WellFormed q ∨ ∃ b ∈ q, IsBlank b) → SingleWord.doSearch app q T = .ok .failed) ∧
    (q ≠ [] → WellFormed q → (∀ b ∈ q, ¬ IsBlank b) → q.length ≤ 20000000 →
      ∃ hits : List (Bytes × Int), hits.Pairwise (fun a b => a.2 ≤ b.2) ∧ (hits.map Prod.fst).Nodup ∧
        (∀ t v, (t, v) ∈ hits ↔ Listed ls q T t v) ∧
        ((∀ p ∈ hits, p.1.length < 1024) → SingleWord.doSearch app q T = .ok (.rows hits)) ∧
        ∀ pre p post, hits = pre ++ p :: post → (∀ x ∈ pre, x.1.length < 1024) →
          (p.1.length = 1024 → SingleWord.doSearch app q T = .error .ub) ∧
          (1024 < p.1.length → SingleWord.doSearch app q T = .error .runtimeError))

section
variable [Build] [Icu]

/-- Making the two empty dictionaries. -/
theorem single_new (osI osS : Nat → Bool) (files : Bytes → Option Bytes) (argv : List Bytes) :
    (SingleWord.start osI osS files argv = .error .runtimeError ∧ (osI 1024 = false ∨ osS 1024 = false)) ∨
    ∃ ind s, Loaded osI osS [] [] ind s ∧ SingleWord.start osI osS files argv = (match argv with
      | _ :: file :: _ =>
        match files file with
        | none => .ok (.noFile file)
        | some contents => Apps.caught (do
            let ws ← readData contents
            let (ind, s) ← insertLoop ws ind s
            .ok (.ready ⟨ind, s, ErrorValues.new⟩))
      | _ => .ok .usage) := by
  rcases Loaded.new osI osS with ⟨e, hr⟩ | ⟨ind, e1, ⟨e2, hr⟩ | ⟨s, e2, h0⟩⟩
  · left
    refine ⟨?_, Or.inl hr⟩
    rw [SingleWord.start, e]; rfl
  · left
    refine ⟨?_, Or.inr hr⟩
    rw [SingleWord.start, e1, ok_bind, e2]; rfl
  · right
    refine ⟨ind, s, h0, ?_⟩
    rw [SingleWord.start, e1, ok_bind, e2, ok_bind]
    rfl

omit [Build] [Icu] in
theorem lineOk_of {ls : List Bytes} (hl : ∀ l ∈ ls, WordLine l ∧ l.length ≤ 1022) : ∀ l ∈ ls, LineOk l :=
  fun l h => ⟨Or.inr (hl l h).1, (hl l h).2⟩

theorem mem_words {ls : List Bytes} {ws : List Word} (hws : List.Forall₂ (fun l w => Word.ofUtf8 l = .ok w) ls ws) (w : Word) :
    w ∈ ws ↔ ∃ l ∈ ls, Word.ofUtf8 l = .ok w := by
  induction hws with
  | nil => simp
  | @cons l w' ls ws h _ ih =>
    rw [List.mem_cons, ih]
    constructor
    · rintro (rfl | ⟨l', h1, h2⟩)
      · exact ⟨l, by simp, h⟩
      · exact ⟨l', by simp [h1], h2⟩
    · rintro ⟨l', h1, h2⟩
      rcases List.mem_cons.1 h1 with rfl | h1
      · left
        rw [h] at h2
        exact (Except.ok.inj h2).symm
      · exact Or.inr ⟨l', h1, h2⟩

theorem good_words {ls : List Bytes} {ws : List Word} (hl : ∀ l ∈ ls, WordLine l)
    (hws : List.Forall₂ (fun l w => Word.ofUtf8 l = .ok w) ls ws) : ∀ w ∈ ws, GoodWord w := by
  intro w hw
  obtain ⟨l, h1, h2⟩ := (mem_words hws w).1 hw
  exact goodWord_ofUtf8 (hl l h1).noNul (hl l h1).nonempty h2

variable [Runtime]

/-- C85, what holds: with one word in each line, every line ended by a newline and of at most 1022 bytes, the tool starts and
answers as described, except that texts of 1024 bytes and more cannot be listed; or storage is refused, which ends it with a
failure, or with an exception that is not caught if the two empty dictionaries cannot be made. Missing from the full claim:
longer lines, files that do not end with a newline, and these long texts. -/
theorem C85_partial (osI osS : Nat → Bool) (files : Bytes → Option Bytes) (name file : Bytes) (more : List Bytes) (ls : List Bytes)
    (hf : files file = some (fileOf ls)) (hl : ∀ l ∈ ls, WordLine l ∧ l.length ≤ 1022) :
    (SingleWord.start osI osS files (name :: file :: more) = .error .runtimeError ∧ (osI 1024 = false ∨ osS 1024 = false)) ∨
    (SingleWord.start osI osS files (name :: file :: more) = .ok .failed ∧ Refused osI osS (fileOf ls).length) ∨
    ∃ app, SingleWord.start osI osS files (name :: file :: more) = .ok (.ready app) ∧ FindsWords app ls := by
  rcases single_new osI osS files (name :: file :: more) with h | ⟨ind, s, h0, e⟩
  · exact Or.inl h
  · right
    obtain ⟨ws, fuel, hws, _, er⟩ := readData_lines ls [] (lineOk_of hl)
    have er : readData (fileOf ls) = .ok ws := by
      rw [List.append_nil] at er
      rw [er]
      have : readLoop fuel [] = .ok [] := by unfold readLoop; rfl
      rw [this, before, ok_bind, List.append_nil]
    simp only [hf, er, ok_bind] at e
    have hle := QueryIndex.letters_of hws
    rcases SingleWord.insertLoop_spec ws [] [] ind s [] h0 (good_words (fun l h => (hl l h).1) hws) with ⟨e3, hr⟩ | ⟨ind', s', names, e3, h⟩
    · left
      rw [List.append_nil] at e3
      rw [List.nil_append] at hr
      refine ⟨?_, hr.imp (fun h => h.mono hle) (fun h => h.mono hle)⟩
      rw [e, e3]; rfl
    · right
      rw [List.append_nil, insertLoop] at e3
      rw [List.nil_append] at h
      refine ⟨⟨ind', s', ErrorValues.new⟩, ?_, ?_⟩
      · rw [e, e3]; rfl
      · intro q T hq0
        refine ⟨?_, ?_, ?_⟩
        · rintro rfl
          rfl
        · intro hbad
          by_cases hq : WellFormed q
          · rcases hbad with h | hb
            · exact absurd hq h
            · rw [SingleWord.doSearch, (C01_rejects q).2 hq hb]; rfl
          · rw [SingleWord.doSearch, (C01_rejects q).1 hq]; rfl
        · intro hne hq hqb hqlen
          obtain ⟨wq, hwq⟩ := (C01_accepts q).2 ⟨hq, hqb⟩
          have hgq := goodWord_ofUtf8 hq0 hne hwq
          have hwl := QueryIndex.ofUtf8_length hwq
          obtain ⟨ms, hits, em, hfp, h1, h2, h3⟩ := QueryIndex.search_hits h (q := wq) hgq.noNul (fun w hw => by
            obtain ⟨l, hl', hlw⟩ := (mem_words hws w).1 hw
            have := QueryIndex.ofUtf8_length hlw
            have := (hl l hl').2
            omega) (by omega) T
          have hnz : ¬ wq.length = 0 := fun h => hgq.nonempty (List.length_eq_zero_iff.1 h)
          have es : SingleWord.doSearch ⟨ind', s', ErrorValues.new⟩ q T = (do
              let l ← rowLoop s' ms (List.range ms.size)
              .ok (.rows l)) := by
            rw [SingleWord.doSearch, hwq]
            dsimp only
            rw [if_neg hnz, em]
          rw [List.range_eq_range'] at es
          refine ⟨hits, h1, h2, ?_, ?_, ?_⟩
          · intro t v
            rw [h3]
            constructor
            · rintro ⟨w, hw, ht, n, hd, hv, hT⟩
              obtain ⟨l, hl', hlw⟩ := (mem_words hws w).1 hw
              have hlow := (lowerLetters_iff (hl l hl').1.noBlank w).2 hlw
              exact ⟨l, hl', (lowerText_iff hlow).2 ht, wq, w, n, (lowerLetters_iff hqb wq).2 hwq, hlow, hd, hv, hT⟩
            · rintro ⟨l, hl', ht, wq', w, n, hwq', hlow, hd, hv, hT⟩
              have e1 := (lowerLetters_iff hqb wq').1 hwq'
              rw [hwq] at e1
              injection e1 with e1
              subst e1
              exact ⟨w, (mem_words hws w).2 ⟨l, hl', (lowerLetters_iff (hl l hl').1.noBlank w).1 hlow⟩, (lowerText_iff hlow).1 ht, n, hd, hv, hT⟩
          · intro hfit
            have := rowLoop_fits (ms := ms) ms hits [] rfl hfp hfit
            rw [es]
            show (do let l ← rowLoop s' ms (List.range' 0 ms.length); _) = _
            rw [List.length_nil] at this
            rw [this]
            rfl
          · intro pre p post hsplit hpre
            have key : 1024 ≤ p.1.length → SingleWord.doSearch ⟨ind', s', ErrorValues.new⟩ q T =
                .error (if p.1.length = 1024 then .ub else .runtimeError) := by
              intro hp
              have := rowLoop_stops (ms := ms) ms pre post p [] rfl (hsplit ▸ hfp) hpre hp
              rw [es]
              show (do let l ← rowLoop s' ms (List.range' 0 ms.length); _) = _
              rw [List.length_nil] at this
              rw [this]
              rfl
            constructor
            · intro hp
              rw [key (by omega), if_pos hp]
            · intro hp
              rw [key (by omega), if_neg (by omega)]

omit [Runtime] in
/-- C85. Too few arguments, and a file that cannot be opened. -/
theorem C85_arguments (osI osS : Nat → Bool) (files : Bytes → Option Bytes) (hI : osI 1024 = true) (hS : osS 1024 = true) :
    (∀ argv, argv.length < 2 → SingleWord.start osI osS files argv = .ok .usage) ∧
    ∀ name file more, files file = none → SingleWord.start osI osS files (name :: file :: more) = .ok (.noFile file) := by
  have hnew : ∀ argv, ¬ (SingleWord.start osI osS files argv = .error .runtimeError ∧ (osI 1024 = false ∨ osS 1024 = false)) := by
    rintro argv ⟨_, h | h⟩
    · rw [hI] at h; cases h
    · rw [hS] at h; cases h
  constructor
  · intro argv h
    rcases single_new osI osS files argv with h' | ⟨ind, s, _, e⟩
    · exact absurd h' (hnew _)
    · rw [e]
      match argv, h with
      | [], _ => rfl
      | [_], _ => rfl
      | _ :: _ :: _, h => simp only [List.length_cons] at h; omega
  · intro name file more hf
    rcases single_new osI osS files (name :: file :: more) with h' | ⟨ind, s, _, e⟩
    · exact absurd h' (hnew _)
    · rw [e]
      simp only [hf]

omit [Runtime] in
/-- C85. A line with a blank or that is no text, after good ones, ends the tool with a failure. So does an empty line between
good ones. -/
theorem C85_rejects (osI osS : Nat → Bool) (files : Bytes → Option Bytes) (name file : Bytes) (more : List Bytes) (ls : List Bytes)
    (hl : ∀ l ∈ ls, WordLine l ∧ l.length ≤ 1022) (hI : osI 1024 = true) (hS : osS 1024 = true) :
    (∀ bad rest, files file = some (fileOf ls ++ bad ++ 0x0a :: rest) → 0 ∉ bad → 0x0a ∉ bad → bad.length ≤ 1022 →
      (¬ WellFormed bad ∨ ∃ b ∈ bad, IsBlank b) → SingleWord.start osI osS files (name :: file :: more) = .ok .failed) ∧
    ∀ ls', files file = some (fileOf (ls ++ [] :: ls')) → (∀ l ∈ ls', WordLine l ∧ l.length ≤ 1022) →
      SingleWord.start osI osS files (name :: file :: more) = .ok .failed := by
  rcases single_new osI osS files (name :: file :: more) with ⟨_, h⟩ | ⟨ind, s, h0, e⟩
  · rcases h with h | h
    · rw [hI] at h; cases h
    · rw [hS] at h; cases h
  · constructor
    · intro bad rest hf hb0 hbn hlen hbad
      rw [List.append_assoc] at hf
      obtain ⟨ws, fuel, hws, hfuel, er⟩ := readData_lines ls (bad ++ 0x0a :: rest) (lineOk_of hl)
      rw [List.length_append, List.length_cons] at hfuel
      obtain ⟨fuel, rfl⟩ : ∃ n, fuel = n + 1 := ⟨fuel - 1, by omega⟩
      by_cases hq : WellFormed bad
      · rcases hbad with h | hb
        · exact absurd hq h
        · rw [readLoop_bad hb0 hbn hlen ((C01_rejects bad).2 hq hb)] at er
          rw [e]
          simp only [hf, er]
          rfl
      · rw [readLoop_bad hb0 hbn hlen ((C01_rejects bad).1 hq)] at er
        rw [e]
        simp only [hf, er]
        rfl
    · intro ls' hf hl'
      have hok : ∀ l ∈ ls ++ [] :: ls', LineOk l := by
        intro l h
        rcases List.mem_append.1 h with h | h
        · exact lineOk_of hl l h
        · rcases List.mem_cons.1 h with rfl | h
          · exact ⟨Or.inl rfl, by simp⟩
          · exact lineOk_of hl' l h
      obtain ⟨ws, fuel, hws, _, er⟩ := readData_lines (ls ++ [] :: ls') [] hok
      have er : readData (fileOf (ls ++ [] :: ls')) = .ok ws := by
        rw [List.append_nil] at er
        rw [er]
        have : readLoop fuel [] = .ok [] := by unfold readLoop; rfl
        rw [this, before, ok_bind, List.append_nil]
      obtain ⟨ws1, ws2, h1, h2, rfl⟩ : ∃ ws1 ws2, List.Forall₂ (fun l w => Word.ofUtf8 l = .ok w) ls ws1 ∧
          List.Forall₂ (fun l w => Word.ofUtf8 l = .ok w) ([] :: ls') ws2 ∧ ws = ws1 ++ ws2 := by
        refine ⟨ws.take ls.length, ws.drop ls.length, ?_, ?_, by simp⟩
        · have := List.forall₂_take ls.length hws
          simpa using this
        · have := List.forall₂_drop ls.length hws
          simpa using this
      cases h2 with
      | @cons _ w _ ws2 hw _ =>
      have hw0 : w = [] := by
        have : Word.ofUtf8 [] = .ok [] := rfl
        rw [this] at hw
        exact (Except.ok.inj hw).symm
      subst hw0
      rw [e]
      simp only [hf, er, ok_bind]
      rcases SingleWord.insertLoop_spec ws1 [] [] ind s ([] :: ws2) h0 (good_words (fun l h => (hl l h).1) h1) with ⟨e3, _⟩ | ⟨ind', s', names, e3, h⟩
      · rw [e3]; rfl
      · rw [e3, insertLoop, h.store.getID_empty]; rfl

omit [Runtime] in
/-- C85 is false of files with a long line: after good lines, a line with more than 1022 bytes stops a debug build. -/
theorem C85_long_false (osI osS : Nat → Bool) (files : Bytes → Option Bytes) (name file : Bytes) (more : List Bytes) (ls : List Bytes)
    (long rest : Bytes) (hf : files file = some (fileOf ls ++ long ++ rest)) (hl : ∀ l ∈ ls, WordLine l ∧ l.length ≤ 1022)
    (hI : osI 1024 = true) (hS : osS 1024 = true) (h0 : 0 ∉ long) (hn : 0x0a ∉ long) (hlen : long.length = 1023)
    (ha : Build.asserts = true) : SingleWord.start osI osS files (name :: file :: more) = .error .assertion := by
  rcases single_new osI osS files (name :: file :: more) with ⟨_, h⟩ | ⟨ind, s, _, e⟩
  · rcases h with h | h
    · rw [hI] at h; cases h
    · rw [hS] at h; cases h
  · rw [List.append_assoc] at hf
    obtain ⟨ws, fuel, hws, hfuel, er⟩ := readData_lines ls (long ++ rest) (lineOk_of hl)
    rw [List.length_append] at hfuel
    obtain ⟨fuel, rfl⟩ : ∃ n, fuel = n + 1 := ⟨fuel - 1, by omega⟩
    rw [readLoop_broken (QueryIndex.fgets_full 1023 long rest hn hlen) h0 hn (by intro h; rw [h] at hlen; simp at hlen), if_pos ha] at er
    rw [e]
    simp only [hf, er]
    rfl

omit [Runtime] in
/-- C85 is false of files that do not end with a newline: after good lines, such a line stops a debug build; a release build
drops its last byte, whatever is then left. -/
theorem C85_unterminated_false (osI osS : Nat → Bool) (files files' : Bytes → Option Bytes) (name file : Bytes) (more : List Bytes)
    (ls : List Bytes) (last : Bytes) (b : Nat) (hf : files file = some (fileOf ls ++ last ++ [b]))
    (hf' : files' file = some (fileOf (ls ++ [last]))) (hl : ∀ l ∈ ls, WordLine l ∧ l.length ≤ 1022)
    (hI : osI 1024 = true) (hS : osS 1024 = true) (h0 : 0 ∉ last) (hn : 0x0a ∉ last) (hb : b ≠ 0 ∧ b ≠ 0x0a) (hlen : last.length ≤ 1022) :
    (Build.asserts = true → SingleWord.start osI osS files (name :: file :: more) = .error .assertion) ∧
    (Build.asserts = false → SingleWord.start osI osS files (name :: file :: more) =
      SingleWord.start osI osS files' (name :: file :: more)) := by
  have g0 : 0 ∉ last ++ [b] := by
    rw [List.mem_append, List.mem_singleton]; rintro (h | h)
    · exact h0 h
    · exact hb.1 h.symm
  have gn : 0x0a ∉ last ++ [b] := by
    rw [List.mem_append, List.mem_singleton]; rintro (h | h)
    · exact hn h
    · exact hb.2 h.symm
  have hfg : QueryIndex.fgets 1023 (last ++ [b] ++ []) = (last ++ [b], []) := by
    rw [List.append_nil]; exact QueryIndex.fgets_last 1023 _ gn (by simp; omega)
  rw [List.append_assoc] at hf
  have e0 : fileOf (ls ++ [last]) = fileOf ls ++ (last ++ [0x0a]) := by simp [fileOf]
  rw [e0] at hf'
  obtain ⟨ws, fuel, hws, hfuel, er⟩ := readData_lines ls (last ++ [b]) (lineOk_of hl)
  rw [List.length_append, List.length_singleton] at hfuel
  obtain ⟨fuel, rfl⟩ : ∃ n, fuel = n + 1 := ⟨fuel - 1, by omega⟩
  have eb := readLoop_broken (fuel := fuel) hfg g0 gn (by simp)
  rw [List.append_nil, List.dropLast_concat] at eb
  rw [eb] at er
  rcases single_new osI osS files (name :: file :: more) with ⟨_, h⟩ | ⟨ind, s, hl0, e⟩
  · rcases h with h | h
    · rw [hI] at h; cases h
    · rw [hS] at h; cases h
  constructor
  · intro ha
    rw [if_pos ha] at er
    rw [e]
    simp only [hf, er]
    rfl
  · intro ha
    rw [if_neg (by rw [ha]; simp)] at er
    have er' : readData (fileOf ls ++ (last ++ [0x0a])) = readData (fileOf ls ++ (last ++ [b])) := by
      obtain ⟨ws', fuel', hws', hfuel', er'⟩ := readData_lines ls (last ++ [0x0a]) (lineOk_of hl)
      rw [List.length_append, List.length_singleton] at hfuel'
      obtain ⟨fuel', rfl⟩ : ∃ n, fuel' = n + 1 := ⟨fuel' - 1, by omega⟩
      have hw : ws' = ws := by
        clear * - hws hws'
        induction hws generalizing ws' with
        | nil => cases hws'; rfl
        | cons h _ ih =>
          cases hws' with
          | cons h' hws' =>
            rw [h] at h'
            rw [Except.ok.inj h', ih _ hws']
      have hz : ∀ n, readLoop n [] = .ok [] := by intro n; unfold readLoop; rfl
      rw [er', er, hw]
      congr 1
      cases hlw : Word.ofUtf8 last with
      | error f => rw [readLoop_bad h0 hn hlen hlw]; rfl
      | ok w => rw [readLoop_line h0 hn hlen hlw, hz, ok_bind, hz]; rfl
    unfold SingleWord.start
    simp only [hf, hf', er']

end

/-- A dictionary of one word that is searched for itself. -/
theorem C85_single [Build] [Icu] [Runtime] (files : Bytes → Option Bytes) (name file l t : Bytes) (more : List Bytes)
    (hf : files file = some (l ++ [0x0a])) (hl : WordLine l) (hlen : l.length ≤ 1022) (ht : LowerText l t) :
    ∃ app, SingleWord.start (fun _ => true) (fun _ => true) files (name :: file :: more) = .ok (.ready app) ∧
      SingleWord.doSearch app l 0 =
        if t.length < 1024 then .ok (.rows [(t, 0)]) else if t.length = 1024 then .error .ub else .error .runtimeError := by
  have hfl : (fileOf [l]).length ≤ 1023 := by simp [fileOf]; omega
  rcases C85_partial (fun _ => true) (fun _ => true) files name file more [l] (by rw [hf]; simp [fileOf])
    (by simp [hl, hlen]) with ⟨_, h⟩ | ⟨_, hr⟩ | ⟨app, e, h⟩
  · simp at h
  · exfalso
    rcases hr with (⟨_, h⟩ | h) | (⟨_, h⟩ | h)
    · cases h
    · omega
    · cases h
    · omega
  · refine ⟨app, e, ?_⟩
    obtain ⟨hits, _, hnd, hmem, hok, hstop⟩ := (h l 0 hl.noNul).2.2 hl.nonempty hl.wellFormed hl.noBlank (by omega)
    obtain ⟨w, hw⟩ := (C01_accepts l).2 ⟨hl.wellFormed, hl.noBlank⟩
    have hlow := (lowerLetters_iff hl.noBlank w).2 hw
    have hin : (t, 0) ∈ hits := by
      rw [hmem]
      exact ⟨l, by simp, ht, w, w, 0, hlow, hlow, (C26_metric w w).2.2.2 rfl, by simp, by omega⟩
    have hall : ∀ p ∈ hits, p = (t, 0) := by
      intro p hp
      obtain ⟨l', hl', ht', _, _, n, _, _, _, hv, hT'⟩ := (hmem p.1 p.2).1 hp
      rw [List.mem_singleton] at hl'
      subst hl'
      have e1 := ((lowerText_iff hlow).1 ht).same ((lowerText_iff hlow).1 ht')
      have e2 : p.2 = 0 := by omega
      rw [← e2, e1]
    have hhits : hits = [(t, 0)] := by
      cases hits with
      | nil => simp at hin
      | cons p r =>
        have hp := hall p (by simp)
        cases r with
        | nil => rw [hp]
        | cons p' r =>
          have hp' := hall p' (by simp)
          rw [hp, hp'] at hnd
          simp at hnd
    subst hhits
    by_cases h1 : t.length < 1024
    · rw [if_pos h1, hok (by simpa using h1)]
    · rw [if_neg h1]
      obtain ⟨h2, h3⟩ := hstop [] (t, 0) [] rfl (by simp)
      by_cases h4 : t.length = 1024
      · rw [if_pos h4]; exact h2 h4
      · rw [if_neg h4]; exact h3 (by show 1024 < t.length; omega)

/-- C85 is false: with a file that consists of the two letters "ab", a release build finds the word "a", which is not in the
file, and a debug build is aborted. -/
theorem C85_false : let _ := Example.icu; let _ := Example.runtime
    (∃ app, @SingleWord.start Example.release _ (fun _ => true) (fun _ => true) (fun _ => some [0x61, 0x62]) [[], []] = .ok (.ready app) ∧
      @SingleWord.doSearch Example.release _ _ app [0x61] 0 = .ok (.rows [([0x61], 0)])) ∧
    ¬ Listed [[0x61, 0x62]] [0x61] 0 [0x61] 0 ∧
    @SingleWord.start Example.debug _ (fun _ => true) (fun _ => true) (fun _ => some [0x61, 0x62]) [[], []] = .error .assertion := by
  intro i r
  have hline : WordLine [0x61] := ⟨by simp, ⟨[0x61], .one (by omega) .nil⟩, by simp [IsBlank], by simp⟩
  have hlow : LowerText [0x61] [0x61] := ⟨[0x61], .one (by omega) .nil, .one (by omega) .nil⟩
  refine ⟨?_, C81_false.2.1, ?_⟩
  · let _ := Example.release
    rw [(C85_unterminated_false (fun _ => true) (fun _ => true) (fun _ => some [0x61, 0x62]) (fun _ => some [0x61, 0x0a])
      [] [] [] [] [0x61] 0x62 rfl rfl (by simp) rfl rfl (by simp) (by simp) (by omega) (by simp)).2 rfl]
    exact C85_single (fun _ => some [0x61, 0x0a]) [] [] [0x61] [0x61] [] rfl hline (by simp) hlow
  · let _ := Example.debug
    exact (C85_unterminated_false (fun _ => true) (fun _ => true) (fun _ => some [0x61, 0x62]) (fun _ => some [0x61, 0x0a])
      [] [] [] [] [0x61] 0x62 rfl rfl (by simp) rfl rfl (by simp) (by simp) (by omega) (by simp)).1 rfl

/-- C85 is false of words that grow by lower-casing: with a dictionary of one line of 683 bytes, whose lower-case text has
1024 bytes, searching for this word writes past the end of the buffer. With 685 bytes an exception leaves the callback. -/
theorem C85_overrun_false [Build] [Runtime] : let _ := barIcu
    (∃ app, SingleWord.start (fun _ => true) (fun _ => true) (fun _ => some (bars 341 ++ [0x0a])) [[], []] = .ok (.ready app) ∧
      SingleWord.doSearch app (bars 341) 0 = .error .ub) ∧
    ∃ app, SingleWord.start (fun _ => true) (fun _ => true) (fun _ => some (bars 342 ++ [0x0a])) [[], []] = .ok (.ready app) ∧
      SingleWord.doSearch app (bars 342) 0 = .error .runtimeError := by
  intro i
  have line : ∀ n, WordLine (bars n) := by
    intro n
    obtain ⟨h1, h2, _, h4⟩ := bars_facts n
    refine ⟨by intro h; rw [h] at h2; simp at h2, ?_, ?_, ?_⟩
    · obtain ⟨c, h, _⟩ := h1; exact ⟨c, h⟩
    · intro b hb hbl
      have := h4 b hb
      unfold IsBlank at hbl
      omega
    · intro h0
      have := h4 0 h0
      omega
  constructor
  · obtain ⟨h1, h2, h3, _⟩ := bars_facts 341
    obtain ⟨app, e, h⟩ := C85_single (fun _ => some (bars 341 ++ [0x0a])) [] [] (bars 341) (barsLower 341) [] rfl (line 341) (by omega) h1
    exact ⟨app, e, by rw [h, if_neg (by omega), if_pos (by omega)]⟩
  · obtain ⟨h1, h2, h3, _⟩ := bars_facts 342
    obtain ⟨app, e, h⟩ := C85_single (fun _ => some (bars 342 ++ [0x0a])) [] [] (bars 342) (barsLower 342) [] rfl (line 342) (by omega) h1
    exact ⟨app, e, by rw [h, if_neg (by omega), if_neg (by omega)]⟩

theorem example_words [B : Build] : let _ := Example.icu
    Word.ofUtf8 [0x61, 0x62] = .ok [0x61#16, 0x62#16] ∧ Word.ofUtf8 [0x63] = .ok [0x63#16] ∧ Word.ofUtf8 [0x62] = .ok [0x62#16] := by
  obtain ⟨b⟩ := B
  cases b <;> decide +kernel

/-- The file of the lines "ab" and "c": for the query "b" and one edit both words are shown. -/
theorem C85_example [Build] [Runtime] : let _ := Example.icu
    ∃ app hits, SingleWord.start (fun _ => true) (fun _ => true) (fun _ => some [0x61, 0x62, 0x0a, 0x63, 0x0a]) [[], []] = .ok (.ready app) ∧
      SingleWord.doSearch app [0x62] 100 = .ok (.rows hits) ∧ ([0x61, 0x62], 100) ∈ hits ∧ ([0x63], 100) ∈ hits := by
  intro _
  have h1 : WordLine [0x61, 0x62] := ⟨by simp, ⟨[0x61, 0x62], .one (by omega) (.one (by omega) .nil)⟩, by simp [IsBlank], by simp⟩
  have h2 : WordLine [0x63] := ⟨by simp, ⟨[0x63], .one (by omega) .nil⟩, by simp [IsBlank], by simp⟩
  rcases C85_partial (fun _ => true) (fun _ => true) (fun _ => some [0x61, 0x62, 0x0a, 0x63, 0x0a]) [] [] [] [[0x61, 0x62], [0x63]] rfl
    (by simp [h1, h2]) with ⟨_, h⟩ | ⟨_, hr⟩ | ⟨app, e, h⟩
  · simp at h
  · exfalso
    rcases hr with (⟨_, h⟩ | h) | (⟨_, h⟩ | h)
    · cases h
    · simp [fileOf] at h
    · cases h
    · simp [fileOf] at h
  · have hq : Utf8 [0x62] [0x62] := .one (by omega) .nil
    obtain ⟨hits, _, _, hm, hfit, _⟩ := (h [0x62] 100 (by simp)).2.2 (by simp) ⟨_, hq⟩ (by simp [IsBlank]) (by simp)
    have d1 : IsEditDistance [0x62#16] [0x61#16, 0x62#16] 1 :=
      ⟨.keep (q := []) (w := [0x61#16]) 0x62#16 (.insert (w := []) 0x61#16 .nil), fun m hm => by
        rcases Nat.eq_zero_or_pos m with rfl | h
        · exact absurd (edits_zero hm rfl) (by decide)
        · exact h⟩
    have d2 : IsEditDistance [0x62#16] [0x63#16] 1 :=
      ⟨.replace (q := []) (w := []) 0x62#16 0x63#16 .nil, fun m hm => by
        rcases Nat.eq_zero_or_pos m with rfl | h
        · exact absurd (edits_zero hm rfl) (by decide)
        · exact h⟩
    have l1 : LowerText [0x61, 0x62] [0x61, 0x62] := ⟨_, .one (by omega) (.one (by omega) .nil), .one (by decide) (.one (by decide) .nil)⟩
    have l2 : LowerText [0x63] [0x63] := ⟨_, .one (by omega) .nil, .one (by decide) .nil⟩
    have m1 : LowerLetters [0x61, 0x62] [0x61#16, 0x62#16] := (lowerLetters_iff h1.noBlank _).2 example_words.1
    have m2 : LowerLetters [0x63] [0x63#16] := (lowerLetters_iff h2.noBlank _).2 example_words.2.1
    have m3 : LowerLetters [0x62] [0x62#16] := (lowerLetters_iff (by simp [IsBlank]) _).2 example_words.2.2
    refine ⟨app, hits, e, hfit ?_, ?_, ?_⟩
    · intro p hp
      obtain ⟨l, hl, ht, _⟩ := (hm p.1 p.2).1 hp
      simp only [List.mem_cons, List.not_mem_nil, or_false] at hl
      rcases hl with rfl | rfl
      · rw [← ((lowerText_iff m1).1 l1).same ((lowerText_iff m1).1 ht)]; simp
      · rw [← ((lowerText_iff m2).1 l2).same ((lowerText_iff m2).1 ht)]; simp
    · exact (hm _ _).2 ⟨_, by simp, l1, _, _, 1, m3, m1, d1, by simp, by simp⟩
    · exact (hm _ _).2 ⟨_, by simp, l2, _, _, 1, m3, m2, d2, by simp, by simp⟩

end Columbus.Props
