import Verif.Proofs.Preset
import Verif.Proofs.Split
/-
The heap of a C program: what every object satisfies.
-/

namespace Columbus
open Spec ErrorValues CApi
variable [Build] [Icu] [Runtime] [Fp]

/-- A word as made by the C interface. -/
def WordOk (w : Word) : Prop := Usable w ∧ w.length ≤ 10000000

def DocOk (d : Document) : Prop := ∃ h, d = documentOf d.id h ∧ ∀ p ∈ h, WordOk p.1 ∧ ∀ w ∈ p.2, WordOk w

def ObjOk : Obj → Prop
  | .word w => WordOk w
  | .document d => DocOk d
  | .corpus c => ∀ d ∈ c, DocOk d
  | .matcher m => ∃ os H, Ran os m H [] ∧ PresetMade m.e ∧ ∀ w ∈ H.words, w.length ≤ 10000000
  | .results r => ∃ l, Filled r l

def HeapOk (h : Heap) : Prop := ∀ (n : Nat) (o : Obj), h.cells[n]? = some (some o) → ObjOk o

omit [Runtime] [Fp] in
theorem usable_ofUtf8 {s : Bytes} {w : Word} (h0 : 0 ∉ s) (h : Word.ofUtf8 s = .ok w) : Usable w := by
  obtain ⟨hb, c, hc, he⟩ := (ofUtf8_ok_iff s w).1 h
  by_cases hw : w = []
  · exact Or.inl hw
  · right
    refine ⟨hw, ⟨_, he ▸ lettersOf_lowerCp hc⟩, (ofUtf8_lettersOf h).choose_spec.2.1, ?_⟩
    rw [he]; exact nonzero_lettersOf hc h0

omit [Runtime] [Fp] in
theorem length_ofUtf8 {s : Bytes} {w : Word} (h : Word.ofUtf8 s = .ok w) : w.length ≤ s.length := by
  obtain ⟨hb, c, hc, he⟩ := (ofUtf8_ok_iff s w).1 h
  have := utf16_len_le hc
  rw [he, lettersOf, List.length_map]; exact this

omit [Runtime] [Fp] in
theorem wordOk_ofUtf8 {s : Bytes} {w : Word} (hs : CString s) (h : Word.ofUtf8 s = .ok w) : WordOk w :=
  ⟨usable_ofUtf8 hs.1 h, (length_ofUtf8 h).trans hs.2⟩

omit [Build] [Icu] [Runtime] [Fp] in
theorem tokens_sub {s ts} (h : Tokens s ts) : ∀ t ∈ ts, t.length ≤ s.length ∧ ∀ b ∈ t, b ∈ s := by
  induction h with
  | done _ => simp
  | tok _ _ _ _ _ ih =>
    intro t ht
    rcases List.mem_cons.1 ht with rfl | ht
    · refine ⟨by simp only [List.length_append]; omega, fun b hb => by simp [hb]⟩
    · obtain ⟨h1, h2⟩ := ih t ht
      refine ⟨by simp only [List.length_append]; omega, fun b hb => by simp [h2 b hb]⟩

omit [Runtime] [Fp] in
theorem wordOk_split {s : Bytes} {ws : List Word} (hs : CString s) (h : splitToWords s = .ok ws) : ∀ w ∈ ws, WordOk w := by
  obtain ⟨ts, hts⟩ := tokens_exists s
  rw [splitToWords_tokens hts, wordsOf_ok] at h
  have hsub := tokens_sub hts
  clear hts
  induction h with
  | nil => simp
  | cons hw _ ih =>
    rename_i t w ts ws _
    intro v hv
    rcases List.mem_cons.1 hv with rfl | hv
    · obtain ⟨h1, h2⟩ := hsub t (by simp)
      exact wordOk_ofUtf8 ⟨fun h => hs.1 (h2 0 h), h1.trans hs.2⟩ hw
    · exact ih (fun t ht => hsub t (by simp [ht])) v hv

omit [Runtime] [Fp] in
theorem split_fault {s : Bytes} {f : Fault} (h : splitToWords s = .error f) : f = .runtimeError := by
  obtain ⟨ts, hts⟩ := tokens_exists s
  by_cases hw : WellFormed s
  · have hw := (wellFormed_tokens hts).1 hw
    obtain ⟨ws, hws⟩ := wordsOf_good fun t ht => ⟨hw t ht, (tokens_mem hts t ht).2⟩
    rw [splitToWords_tokens hts, hws] at h; cases h
  · rw [wellFormed_tokens hts] at hw
    rw [splitToWords_tokens hts, wordsOf_bad (fun t ht => (tokens_mem hts t ht).2) hw] at h
    cases h; rfl

theorem HeapOk.alloc {h : Heap} (hh : HeapOk h) {o : Obj} (ho : ObjOk o) : HeapOk (h.alloc o).1 := by
  intro n o' hn
  simp only [Heap.alloc] at hn
  rw [List.getElem?_append] at hn
  split at hn
  · exact hh n o' hn
  · rw [List.getElem?_singleton] at hn
    split at hn
    · injection hn with hn; injection hn with hn; subst hn; exact ho
    · cases hn

theorem HeapOk.put {h : Heap} (hh : HeapOk h) {o : Obj} (ho : ObjOk o) (x : Handle) : HeapOk (h.put x o) := by
  cases x with
  | obj k =>
    intro n o' hn
    simp only [Heap.put] at hn
    rw [List.getElem?_set] at hn
    split at hn
    · split at hn
      · injection hn with hn; injection hn with hn; subst hn; exact ho
      · cases hn
    · exact hh n o' hn
  | _ => exact hh

theorem HeapOk.free {h h' : Heap} (hh : HeapOk h) {x : Handle} {kind : Obj → Bool} (e : h.free x kind = .ok h') : HeapOk h' := by
  cases x with
  | null => cases e; exact hh
  | obj k =>
    simp only [Heap.free] at e
    cases hg : h.get (.obj k) with
    | error f => rw [hg] at e; cases e
    | ok o =>
      rw [hg] at e
      simp only [ok_bind] at e
      split at e
      · cases e
        intro n o' hn
        rw [List.getElem?_set] at hn
        split at hn
        · split at hn <;> cases hn
        · exact hh n o' hn
      · cases e
  | errorsOf _ => cases e
  | weightsOf _ => cases e

omit [Build] [Icu] [Runtime] [Fp] in
theorem holds_get {h : Heap} {x : Handle} {o : Obj} (hx : Heap.Holds h x o) : h.get x = .ok o := by
  obtain ⟨n, rfl, hn⟩ := hx
  simp only [Heap.get, hn]

omit [Build] [Icu] [Runtime] [Fp] in
theorem holds_iff {h : Heap} {x : Handle} {o : Obj} : h.get x = .ok o ↔ Heap.Holds h x o := by
  refine ⟨?_, holds_get⟩
  intro e
  cases x with
  | obj n =>
    simp only [Heap.get] at e
    split at e
    · rename_i hn; cases e; exact ⟨n, rfl, hn⟩
    · cases e
  | _ => cases e

theorem HeapOk.of_holds {h : Heap} (hh : HeapOk h) {x : Handle} {o : Obj} (hx : Heap.Holds h x o) : ObjOk o := by
  obtain ⟨n, _, hn⟩ := hx; exact hh n o hn

omit [Build] [Icu] [Runtime] [Fp] in
theorem free_holds {h : Heap} {x : Handle} {o : Obj} {kind : Obj → Bool} (hx : Heap.Holds h x o) (hk : kind o = true) :
    ∃ h', h.free x kind = .ok h' := by
  have := holds_get hx
  obtain ⟨n, rfl, hn⟩ := hx
  simp only [Heap.free, this, ok_bind, hk, if_true]
  exact ⟨_, rfl⟩

omit [Build] [Icu] [Runtime] [Fp] in
/-- Texts of a corpus are short if the documents are. -/
theorem corpus_short {c : Corpus} (h : ∀ d ∈ c, DocOk d) : CorpusOk c ∧ ∀ w ∈ (corpusTexts c).words, w.length ≤ 10000000 := by
  constructor
  · intro d hd
    obtain ⟨hist, e, hw⟩ := h d hd
    exact ⟨hist, e, fun p hp => ⟨(hw p hp).1.1, fun w hw' => ((hw p hp).2 w hw').1⟩⟩
  · intro w hw
    rw [MatcherHistory.words, List.mem_flatMap] at hw
    obtain ⟨x, hx, hw⟩ := hw
    rw [corpusTexts, List.mem_flatMap] at hx
    obtain ⟨d, hd, hx⟩ := hx
    obtain ⟨t, ht, rfl⟩ := List.mem_map.1 hx
    obtain ⟨hist, e, hh⟩ := h d hd
    rw [e] at ht
    have hf := documentOf_find d.id hist t.1
    rw [(SMap.find_some_iff strict_wordLt (documentOf_sorted d.id hist) t.1 t.2).2 ht] at hf
    symm at hf
    rw [lastText, Option.map_eq_some_iff] at hf
    obtain ⟨p, hp, e2⟩ := hf
    have hp := List.mem_reverse.1 (List.mem_of_find?_eq_some hp)
    exact ((hh p hp).2 w (e2 ▸ hw)).2

omit [Build] [Icu] [Runtime] [Fp] in
theorem beforeEmpty_words {H : MatcherHistory} : ∀ w ∈ (beforeEmpty H).words, w ∈ H.words := by
  induction H with
  | nil => simp [beforeEmpty]
  | cons x r ih =>
    intro w hw
    rw [beforeEmpty] at hw
    rw [MatcherHistory.words, List.flatMap_cons, List.mem_append]
    split at hw
    · simp [MatcherHistory.words] at hw
    · split at hw
      · left
        simp only [MatcherHistory.words, List.flatMap_cons, List.flatMap_nil, List.append_nil] at hw
        exact (List.takeWhile_prefix _).subset hw
      · rw [MatcherHistory.words, List.flatMap_cons, List.mem_append] at hw
        exact hw.imp id (ih w)

omit [Build] [Icu] [Runtime] [Fp] in
theorem filled_copied (k : List Result) : Filled (copied .new k) k := by
  induction k using List.reverseRecOn with
  | nil => exact .new
  | append_singleton k x ih =>
    have := Filled.add x.2 x.1 ih
    convert this using 1
    simp [copied, MatchResults.addResult, MatchResults.new]

omit [Build] [Icu] [Runtime] [Fp] in
theorem holds_word {h : Heap} {x : Handle} {w : Word} (hx : Heap.Holds h x (.word w)) : h.word x = .ok w := by
  simp only [Heap.word, holds_get hx, ok_bind]

omit [Build] [Icu] [Runtime] [Fp] in
theorem holds_document {h : Heap} {x : Handle} {d : Document} (hx : Heap.Holds h x (.document d)) : h.document x = .ok d := by
  simp only [Heap.document, holds_get hx, ok_bind]

omit [Build] [Icu] [Runtime] [Fp] in
theorem holds_matcher {h : Heap} {x : Handle} {m : Matcher} (hx : Heap.Holds h x (.matcher m)) : h.matcher x = .ok m := by
  simp only [Heap.matcher, holds_get hx, ok_bind]

omit [Build] [Icu] [Runtime] [Fp] in
theorem holds_results {h : Heap} {x : Handle} {r : MatchResults} (hx : Heap.Holds h x (.results r)) : h.results x = .ok r := by
  simp only [Heap.results, holds_get hx, ok_bind]

omit [Build] [Icu] [Runtime] [Fp] in
theorem holds_corpus {h : Heap} {x : Handle} {c : Corpus} (hx : Heap.Holds h x (.corpus c)) : h.corpus x = .ok c := by
  simp only [Heap.corpus, holds_get hx, ok_bind]

theorem free_ok {h : Heap} (hh : HeapOk h) {x : Handle} {kind : Obj → Bool}
    (hx : x = .null ∨ ∃ o, Heap.Holds h x o ∧ kind o = true) :
    ∃ h', orElse (h.free x kind) h = .ok h' ∧ HeapOk h' := by
  rcases hx with rfl | ⟨o, ho, hk⟩
  · exact ⟨h, rfl, hh⟩
  · obtain ⟨h', e⟩ := free_holds ho hk
    exact ⟨h', by rw [e]; rfl, hh.free e⟩

omit [Runtime] [Fp] in
theorem ofUtf8_caught {s : Bytes} {f : Fault} (hw : Word.ofUtf8 s = .error f) : caught f = true := by
  by_cases hs : WellFormed s
  · obtain ⟨c, hc⟩ := hs
    rw [ofUtf8_of_utf8 hc] at hw
    split at hw
    · cases hw; rfl
    · cases hw
  · rw [ofUtf8_bad hs] at hw; cases hw; rfl

/-- Indexing and searching in a C program. -/
theorem index_ok {m : Matcher} {c : Corpus} (hm : ObjOk (.matcher m)) (hc : ObjOk (.corpus c)) (hr : (m.index c).2 ≠ some .runtimeError) :
    ObjOk (.matcher (m.index c).1) ∧ ((m.index c).2 = none ∨ (m.index c).2 = some .outOfRange) := by
  obtain ⟨os, H, hran, hp, hs⟩ := hm
  obtain ⟨hco, hcs⟩ := corpus_short hc
  obtain ⟨names, hi, hos, _⟩ := Columbus.Ran.inv hran
  rcases hi.index c m H names hco with ⟨_, e2, _⟩ | ⟨m1, names', e2, _, _, _, _, _, e3, _⟩
  · rw [e2] at hr; exact absurd rfl hr
  · have ho : (m.index c).2 = none ∨ (m.index c).2 = some .outOfRange := by
      rw [e2]; by_cases hne : NoEmpty (corpusTexts c) <;> simp [emptyFault, hne]
    refine ⟨⟨os, _, .index hran hco (o := (m.index c).2) rfl ?_, ?_, ?_⟩, ho⟩
    · intro f hf
      rcases ho with ho | ho
      · rw [ho] at hf; cases hf
      · rw [ho] at hf; cases hf; exact Or.inl rfl
    · rw [e2]; dsimp only; rw [e3]; exact hp
    · intro w hw
      rw [MatcherHistory.words, List.flatMap_append, List.mem_append] at hw
      rcases hw with hw | hw
      · exact hs w hw
      · exact hcs w (beforeEmpty_words w hw)

theorem match_ok {m : Matcher} {s : Bytes} (hm : ObjOk (.matcher m)) (hs : CString s) :
    (m.matchUtf8 s = (m, .error .runtimeError) ∧ ¬ WellFormed s) ∨ ∃ r, m.matchUtf8 s = (m, .ok r) ∧ ObjOk (.results r) := by
  obtain ⟨os, H, hran, hp, hsh⟩ := hm
  rw [Matcher.matchUtf8]
  cases hq : splitToWords s with
  | error f =>
    left
    have := split_fault hq
    subst this
    refine ⟨rfl, ?_⟩
    intro hw
    obtain ⟨ts, hts⟩ := tokens_exists s
    have hw := (wellFormed_tokens hts).1 hw
    obtain ⟨ws, hws⟩ := wordsOf_good fun t ht => ⟨hw t ht, (tokens_mem hts t ht).2⟩
    rw [splitToWords_tokens hts, hws] at hq; cases hq
  | ok q =>
    right
    have hu := wordOk_split hs hq
    have hsane : Sane m.e q H := hp.sane (fun x hx => usable_noNul (hu x hx).1) (L := 10000000) (fun x hx => (hu x hx).2) hsh (le_refl _)
    obtain ⟨names, hi, _⟩ := Columbus.Ran.inv hran
    obtain ⟨docs, _, e⟩ := hi.matchQuery_eq (p := SearchParameters.new) hsane
    rw [filtered_trivial _ rfl] at e
    exact ⟨_, e, _, filled_copied _⟩

omit [Build] [Icu] [Runtime] [Fp] in
theorem filled_get {r : MatchResults} {l : List Result} (h : Filled r l) (i : Nat) :
    (∃ r' d, r.getDocumentID i = .ok (r', d) ∧ Filled r' l) ∨ r.getDocumentID i = .error .outOfRange := by
  have h1 := (filled_inv h).getDocumentID i
  cases hx : (rank l)[i]? with
  | none => rw [hx] at h1; exact Or.inr h1
  | some x => rw [hx] at h1; exact Or.inl ⟨_, _, h1, .readID h h1⟩

/-- Every valid call returns, and keeps the heap in order. -/
theorem call_ok {h : Heap} (hh : HeapOk h) {c : CCall} (hv : c.Valid h) : ∃ h' r, c.run h = .ok (h', r) ∧ HeapOk h' := by
  cases c with
  | wordNew s =>
    simp only [CCall.run, CApi.wordNew]
    cases hw : Word.ofUtf8 s with
    | ok w => exact ⟨_, _, rfl, hh.alloc (wordOk_ofUtf8 hv hw)⟩
    | error f =>
      simp only [error_bind, orElse, ofUtf8_caught hw, if_true]
      exact ⟨_, _, rfl, hh⟩
  | wordDelete x =>
    obtain ⟨h', e, hh'⟩ := free_ok (kind := fun o => o matches .word _) hh (hv.imp id fun ⟨w, hw⟩ => ⟨_, hw, rfl⟩)
    exact ⟨h', _, by have e : CApi.wordDelete h x = .ok h' := e; simp only [CCall.run, e]; rfl, hh'⟩
  | wordLength x =>
    obtain ⟨w, hw⟩ := hv
    exact ⟨_, _, by simp only [CCall.run, CApi.wordLength, holds_word hw, ok_bind]; rfl, hh⟩
  | wordAsUtf8 x n =>
    obtain ⟨w, hw, hn⟩ := hv
    simp only [CCall.run, CApi.wordAsUtf8, holds_word hw, ok_bind]
    cases hu : Word.toUtf8 w n with
    | ok b => exact ⟨_, _, rfl, hh⟩
    | error f =>
      have hf : f = .runtimeError := by
        rw [Word.toUtf8, internalToUtf8] at hu
        cases hd : decodeUtf16 w with
        | none => rw [hd] at hu; cases hu; rfl
        | some cps =>
          rw [hd] at hu
          simp only at hu
          have hw16 := decodeUtf16_sound _ _ hd
          have := hn cps _ hw16 (utf8_encodes (Columbus.Utf16.scalar hw16))
          split at hu
          · cases hu; rfl
          · split at hu
            · cases hu
            · omega
      subst hf
      exact ⟨_, _, rfl, hh⟩
  | documentNew id => exact ⟨_, _, rfl, hh.alloc (o := .document (Document.new id)) ⟨[], rfl, by simp⟩⟩
  | documentDelete x =>
    obtain ⟨h', e, hh'⟩ := free_ok (kind := fun o => o matches .document _) hh (hv.imp id fun ⟨w, hw⟩ => ⟨_, hw, rfl⟩)
    exact ⟨h', _, by have e : CApi.documentDelete h x = .ok h' := e; simp only [CCall.run, e]; rfl, hh'⟩
  | documentGetId x =>
    obtain ⟨w, hw⟩ := hv
    exact ⟨_, _, by simp only [CCall.run, CApi.documentGetId, holds_document hw, ok_bind]; rfl, hh⟩
  | documentAddText x y s =>
    obtain ⟨⟨d, hd⟩, ⟨w, hw⟩, hs⟩ := hv
    simp only [CCall.run, CApi.documentAddText, holds_document hd, holds_word hw, ok_bind, Document.addTextUtf8]
    cases hq : splitToWords s with
    | error f => have := split_fault hq; subst this; exact ⟨_, _, rfl, hh⟩
    | ok q =>
      refine ⟨_, _, rfl, hh.put ?_ x⟩
      obtain ⟨hist, e, hok⟩ := hh.of_holds hd
      refine ⟨hist ++ [(w, q)], ?_, ?_⟩
      · show d.addText w q = _
        rw [documentOf_snoc]
        show _ = (documentOf d.id hist).addText w q
        rw [← e]
      · intro p hp
        rw [List.mem_append, List.mem_singleton] at hp
        rcases hp with hp | rfl
        · exact hok p hp
        · exact ⟨hh.of_holds hw, wordOk_split hs hq⟩
  | matcherNew os =>
    simp only [CCall.run, CApi.matcherNew]
    rcases MInv.new os with ⟨_, e⟩ | ⟨m, e, _, _⟩
    · rw [e]; exact ⟨_, _, rfl, hh⟩
    · rw [e]
      refine ⟨_, _, rfl, hh.alloc (o := .matcher m) ⟨os, [], .new e, ?_, by simp [MatcherHistory.words]⟩⟩
      rw [Matcher.new] at e
      obtain ⟨s, _, e⟩ := bind_eq_ok.1 e
      cases e
      exact presetMade_new
  | matcherDelete x =>
    obtain ⟨h', e, hh'⟩ := free_ok (kind := fun o => o matches .matcher _) hh (hv.imp id fun ⟨w, hw⟩ => ⟨_, hw, rfl⟩)
    exact ⟨h', _, by have e : CApi.matcherDelete h x = .ok h' := e; simp only [CCall.run, e]; rfl, hh'⟩
  | matcherIndex x y =>
    obtain ⟨m, c, hm, hc, hr⟩ := hv
    obtain ⟨h1, h2⟩ := index_ok (hh.of_holds hm) (hh.of_holds hc) hr
    simp only [CCall.run, CApi.matcherIndex, holds_matcher hm, holds_corpus hc, ok_bind]
    rcases hg : m.index c with ⟨m', o⟩
    rw [hg] at h1 h2
    dsimp only at h2
    rcases h2 with rfl | rfl
    · exact ⟨_, _, rfl, hh.put h1 x⟩
    · exact ⟨_, _, rfl, hh.put h1 x⟩
  | matcherMatch x s =>
    obtain ⟨⟨m, hm⟩, hs⟩ := hv
    simp only [CCall.run, CApi.matcherMatch, holds_matcher hm, ok_bind]
    rcases match_ok (hh.of_holds hm) hs with ⟨e, _⟩ | ⟨r, e, hr⟩
    · rw [e]; exact ⟨_, _, rfl, hh.put (hh.of_holds hm) x⟩
    · rw [e]; exact ⟨_, _, rfl, (hh.put (hh.of_holds hm) x).alloc hr⟩
  | matcherGetErrorValues x =>
    obtain ⟨m, hm⟩ := hv
    simp only [CCall.run, CApi.matcherGetErrorValues, holds_matcher hm, ok_bind]
    obtain ⟨n, rfl, _⟩ := hm
    exact ⟨_, _, rfl, hh⟩
  | matcherGetIndexWeights x =>
    obtain ⟨m, hm⟩ := hv
    simp only [CCall.run, CApi.matcherGetIndexWeights, holds_matcher hm, ok_bind]
    obtain ⟨n, rfl, _⟩ := hm
    exact ⟨_, _, rfl, hh⟩
  | matchResultsNew => exact ⟨_, _, rfl, hh.alloc (o := .results MatchResults.new) ⟨[], .new⟩⟩
  | matchResultsDelete x =>
    obtain ⟨h', e, hh'⟩ := free_ok (kind := fun o => o matches .results _) hh (hv.imp id fun ⟨w, hw⟩ => ⟨_, hw, rfl⟩)
    exact ⟨h', _, by have e : CApi.matchResultsDelete h x = .ok h' := e; simp only [CCall.run, e]; rfl, hh'⟩
  | matchResultsSize x =>
    obtain ⟨w, hw⟩ := hv
    exact ⟨_, _, by simp only [CCall.run, CApi.matchResultsSize, holds_results hw, ok_bind]; rfl, hh⟩
  | matchResultsGetId x i =>
    obtain ⟨r, hr⟩ := hv
    obtain ⟨l, hl⟩ := hh.of_holds hr
    simp only [CCall.run, CApi.matchResultsGetId, holds_results hr, ok_bind]
    rcases filled_get hl i with ⟨r', d, e, hf⟩ | e
    · rw [e]; exact ⟨_, _, rfl, hh.put (o := .results r') ⟨l, hf⟩ x⟩
    · rw [e]; exact ⟨_, _, rfl, hh⟩
  | matchResultsGetRelevancy x i =>
    obtain ⟨r, hr⟩ := hv
    obtain ⟨l, hl⟩ := hh.of_holds hr
    simp only [CCall.run, CApi.matchResultsGetRelevancy, holds_results hr, ok_bind]
    rcases filled_get hl i with ⟨r', d, e, hf⟩ | e
    · rw [e]; exact ⟨_, _, rfl, hh.put (o := .results r') ⟨l, hf⟩ x⟩
    · rw [e]; exact ⟨_, _, rfl, hh⟩
  | corpusNew => exact ⟨_, _, rfl, hh.alloc (o := .corpus []) (by intro d hd; cases hd)⟩
  | corpusDelete x =>
    obtain ⟨h', e, hh'⟩ := free_ok (kind := fun o => o matches .corpus _) hh (hv.imp id fun ⟨w, hw⟩ => ⟨_, hw, rfl⟩)
    exact ⟨h', _, by have e : CApi.corpusDelete h x = .ok h' := e; simp only [CCall.run, e]; rfl, hh'⟩
  | corpusAddDocument x y =>
    obtain ⟨⟨c, hc⟩, d, hd⟩ := hv
    simp only [CCall.run, CApi.corpusAddDocument, holds_corpus hc, holds_document hd, ok_bind]
    refine ⟨_, _, rfl, hh.put (o := .corpus (Corpus.addDocument c d)) ?_ x⟩
    intro d' hd'
    simp only [Corpus.addDocument, List.mem_append, List.mem_singleton] at hd'
    rcases hd' with hd' | rfl
    · exact hh.of_holds hc d' hd'
    · exact hh.of_holds hd
  | addStandardErrors data x =>
    obtain ⟨n, m, rfl, hm⟩ := hv
    simp only [CCall.run, CApi.addStandardErrors, Heap.errorsOwner, holds_matcher hm, ok_bind]
    obtain ⟨os, H, hran, hp, hs⟩ := hh.of_holds hm
    have hok : ObjOk (.matcher { m with e := (ErrorValues.addStandardErrors data m.e).1 }) :=
      ⟨os, H, .errors (.addStandardErrors data) hran, hp.run (op := .addStandardErrors data) trivial, hs⟩
    obtain ⟨hist, hi, _⟩ := hp.inv
    have hf := (standard_same data hi).2
    rcases hg : ErrorValues.addStandardErrors data m.e with ⟨e', o⟩
    rw [hg] at hok hf
    cases o with
    | none => exact ⟨_, _, rfl, hh.put hok _⟩
    | some f =>
      have hc : caught f = true := by rcases hf f rfl with rfl | rfl <;> rfl
      simp only [hc, if_true]
      exact ⟨_, _, rfl, hh.put hok _⟩
  | setSubstringMode x =>
    obtain ⟨n, m, rfl, hm⟩ := hv
    simp only [CCall.run, CApi.setSubstringMode, Heap.errorsOwner, holds_matcher hm, ok_bind]
    obtain ⟨os, H, hran, hp, hs⟩ := hh.of_holds hm
    exact ⟨_, _, rfl, hh.put (o := .matcher { m with e := m.e.setSubstringMode })
      ⟨os, H, .errors .setSubstringMode hran, hp.run (op := .setSubstringMode) trivial, hs⟩ _⟩
  | setWeight x y v =>
    obtain ⟨⟨n, m, rfl, hm⟩, w, hw⟩ := hv
    simp only [CCall.run, CApi.setWeight, Heap.weightsOwner, holds_matcher hm, holds_word hw, ok_bind]
    obtain ⟨os, H, hran, hp, hs⟩ := hh.of_holds hm
    exact ⟨_, _, rfl, hh.put (o := .matcher { m with weights := IndexWeights.setWeight m.weights w v })
      ⟨os, H, .weight w v hran, hp, hs⟩ _⟩
  | getWeight x y =>
    obtain ⟨⟨n, m, rfl, hm⟩, w, hw⟩ := hv
    exact ⟨_, _, by simp only [CCall.run, CApi.getWeight, Heap.weightsOwner, holds_matcher hm, holds_word hw, ok_bind]; rfl, hh⟩

theorem CRan.ok {h : Heap} (hr : CRan h) : HeapOk h := by
  induction hr with
  | start => intro n o hn; simp at hn
  | call _ hv e ih =>
    obtain ⟨h', r, e', hh⟩ := call_ok ih hv
    rw [e] at e'; cases e'; exact hh

omit [Build] [Icu] [Runtime] [Fp] in
theorem orElse_escape {α β : Type} {x : M α} {y : α} {k : α → β} {f : Fault} (h : (orElse x y).map k = .error f) : caught f = false := by
  cases x with
  | ok v => cases h
  | error g =>
    simp only [orElse] at h
    split at h
    · cases h
    · cases h; simp_all

omit [Build] [Icu] [Runtime] [Fp] in
theorem get_escape {h : Heap} {x : Handle} {f : Fault} (e : h.get x = .error f) : f = .ub := by
  cases x with
  | obj n => simp only [Heap.get] at e; split at e <;> cases e; rfl
  | _ => cases e; rfl

omit [Build] [Icu] [Runtime] [Fp] in
theorem matcher_escape {h : Heap} {x : Handle} {f : Fault} (e : h.matcher x = .error f) : f = .ub := by
  simp only [Heap.matcher] at e
  cases hg : h.get x with
  | error g => rw [hg] at e; cases e; exact get_escape hg
  | ok o => rw [hg] at e; cases o <;> cases e <;> rfl

omit [Build] [Icu] [Runtime] [Fp] in
theorem corpus_escape {h : Heap} {x : Handle} {f : Fault} (e : h.corpus x = .error f) : f = .ub := by
  simp only [Heap.corpus] at e
  cases hg : h.get x with
  | error g => rw [hg] at e; cases e; exact get_escape hg
  | ok o => rw [hg] at e; cases o <;> cases e <;> rfl

omit [Build] [Icu] [Runtime] [Fp] in
theorem deleted_of {h h' : Heap} {r : CRet} {x : Handle} {kind : Obj → Bool}
    (hr : (orElse (h.free x kind) h).map (fun y => (y, CRet.nothing)) = .ok (h', r))
    (hv : x = .null ∨ ∃ o, Heap.Holds h x o ∧ kind o = true) : r = .nothing ∧ Deleted h h' x := by
  rcases hv with rfl | ⟨o, ho, hk⟩
  · cases hr; exact ⟨rfl, Or.inl ⟨rfl, rfl⟩⟩
  · have hg := holds_get ho
    obtain ⟨n, rfl, hn⟩ := ho
    simp only [Heap.free, hg, ok_bind, hk, if_true, orElse] at hr
    cases hr
    exact ⟨rfl, Or.inr ⟨n, rfl, rfl⟩⟩

omit [Build] [Icu] [Runtime] [Fp] in
theorem changed_put {h : Heap} {x : Handle} {o o' : Obj} (hx : Heap.Holds h x o) : Changed h (h.put x o') x o' := by
  obtain ⟨n, rfl, hn⟩ := hx; exact ⟨n, rfl, rfl⟩

end Columbus
