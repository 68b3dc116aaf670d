import Verif.Proofs.HeapRun
import Verif.Proofs.MatcherLost
import Verif.Props.Matcher
import Verif.Props.Store
/-
C101: indexing when the heap refuses memory.
-/

namespace Columbus.Props
open Columbus Spec

/-! ### C101 -/

/-- C101. A call of `index` that is refused no memory does what `index` does, and with everything granted none is refused. -/
theorem C101_agrees [Build] (m m' : Matcher) (heap : Heap) (c : Corpus) :
    (∀ k, m.indexHeap heap 0 c = (m', .ok k) → m.index c = (m', none)) ∧
    (∀ f, m.indexHeap heap 0 c = (m', .error (.fault f)) → m.index c = (m', some f)) ∧
    ((∀ k, heap k = true) → ∀ p, m.indexHeap heap 0 c ≠ (m', .error (.refused p))) := by
  have h := indexHeap_agrees heap c 0 m
  refine ⟨?_, ?_, ?_⟩
  · intro k e; rw [e] at h; exact h
  · intro f e; rw [e] at h; exact h
  · intro hh p e
    exact indexHeap_granted heap hh c 0 m p (by rw [e])

section
variable [Build] [Icu]

theorem calls_standing {m m' : Matcher} {calls : List (Heap × Corpus)} {outs : List (Option Stop)} (h : Calls m calls m' outs)
    (hc : ∀ x ∈ calls, CorpusOk x.2) : ∀ {C D : MatcherHistory} {names : List Word}, Standing m C D names →
    ∃ D' C' names', Gathered calls outs D' C' ∧ Standing m' (C ++ C') (D ++ D') names' ∧ m'.e = m.e ∧ m'.weights = m.weights := by
  induction h with
  | nil m => intro C D names hs; exact ⟨[], [], names, .nil, by simpa using hs, rfl, rfl⟩
  | @ok m m1 m2 heap c k r os e _ ih =>
    intro C D names hs
    rcases Standing.index (heap := heap) c m C D names 0 hs (hc (heap, c) (by simp)) with ⟨x, n1, _, e1, h1, d1, d2⟩ | ⟨_, _, _, _, _, e1, _⟩ | ⟨_, _, e1, _⟩
    · rw [e] at e1; injection e1 with e1 _; subst e1
      obtain ⟨D', C', n2, hg, h2, a1, a2⟩ := ih (fun x hx => hc x (by simp [hx])) h1
      exact ⟨_, _, n2, .ok hg, by simpa using h2, a1.trans d1, a2.trans d2⟩
    · rw [e] at e1; injection e1 with _ e1; cases e1
    · rw [e] at e1; injection e1 with _ e1; cases e1
  | @stop m m1 m2 heap c s r os e hh _ ih =>
    intro C D names hs
    rcases Standing.index (heap := heap) c m C D names 0 hs (hc (heap, c) (by simp)) with ⟨_, _, _, e1, _⟩ | ⟨x, n1, _, D1, C1, e1, _, hu, h1, d1, d2⟩ | ⟨_, _, e1, hg⟩
    · rw [e] at e1; injection e1 with _ e1; cases e1
    · rw [e] at e1; injection e1 with e1 _; subst e1
      obtain ⟨D', C', n2, hg, h2, a1, a2⟩ := ih (fun x hx => hc x (by simp [hx])) h1
      exact ⟨_, _, n2, .stop hu hg, by simpa using h2, a1.trans d1, a2.trans d2⟩
    · rw [e] at e1; injection e1 with _ e1; injection e1 with e1; subst e1
      rcases hg with rfl | rfl | rfl
      · cases hh
      · exact absurd rfl hh.1
      · exact absurd rfl hh.2

omit [Build] [Icu] in
theorem gathered_words {calls : List (Heap × Corpus)} {outs : List (Option Stop)} {D C : MatcherHistory}
    (h : Gathered calls outs D C) : ∀ w ∈ C.words, w ∈ (callTexts calls).words := by
  induction h with
  | nil => intro w hw; cases hw
  | ok _ ih =>
    intro w hw
    simp only [callTexts, MatcherHistory.words, List.flatMap_append, List.flatMap_cons, List.mem_append] at hw ih ⊢
    exact hw.imp id (ih w)
  | stop hu _ ih =>
    intro w hw
    have h1 := hu.words w
    simp only [callTexts, MatcherHistory.words, List.flatMap_append, List.flatMap_cons, List.mem_append] at hw ih h1 ⊢
    exact hw.imp h1 (ih w)

end

section
variable [Build] [Icu] [Runtime] [Fp] {os : Nat → Bool} {m m' : Matcher} {H : MatcherHistory} {K : List Word}
  {calls : List (Heap × Corpus)} {outs : List (Option Stop)}

/-- C101. How a call of `index` ends, whatever the heap refuses, also after other such calls: it returns; or it stops
harmlessly; or a word has no identifier or no count; or the trie of a dictionary is refused its file. -/
theorem C101_outcomes (h : Ran os m H K) (hr : Calls m calls m' outs) (hc : ∀ x ∈ calls, CorpusOk x.2) (heap : Heap)
    (c : Corpus) (ho : CorpusOk c) :
    ∃ m'' r, m'.indexHeap heap 0 c = (m'', r) ∧ ((∃ k, r = .ok k) ∨ (∃ s, r = .error s ∧ Stop.Harmless s) ∨
      r = .error (.refused .identifier) ∨ r = .error (.refused .count) ∨ r = .error (.fault .runtimeError)) := by
  obtain ⟨names, hi, _⟩ := Ran.start h
  obtain ⟨D, C, n1, _, hs, _⟩ := calls_standing hr hc hi.standing
  rcases Standing.index (heap := heap) c m' _ _ _ 0 hs ho with ⟨x, _, k, e, _⟩ | ⟨x, _, s, _, _, e, hh, _⟩ | ⟨x, s, e, hg⟩
  · exact ⟨x, _, e, Or.inl ⟨k, rfl⟩⟩
  · exact ⟨x, _, e, Or.inr (Or.inl ⟨s, rfl, hh⟩)⟩
  · refine ⟨x, _, e, Or.inr (Or.inr ?_)⟩
    rcases hg with rfl | rfl | rfl
    · exact Or.inr (Or.inr rfl)
    · exact Or.inl rfl
    · exact Or.inr (Or.inl rfl)

/-- C101, for stops elsewhere than at an identifier or a count. After calls of `index` that return or stop harmlessly, a
search returns, and lists the documents that have a word near the query in the parts that were indexed: all of a corpus
whose call returned, of another corpus the texts before the stop and the words before it in the text of the stop. -/
theorem C101_partial (h : Ran os m H K) (hr : Calls m calls m' outs) (hc : ∀ x ∈ calls, CorpusOk x.2) :
    ∃ D C, Gathered calls outs D C ∧ m'.e = m.e ∧ m'.weights = m.weights ∧
      ∀ (q : WordList) (p : SearchParameters), Sane m.e q (H ++ callTexts calls) → Exact m.e q →
        Unfiltered p → ∃ r k, m'.matchQuery q p = (m', .ok r) ∧ Shows r k ∧
          ∀ d, d ∈ k.map (·.2) ↔ ∃ f w x v, (H ++ D).Posting d f w ∧ p.isNonsearchingField f = false ∧ x ∈ q ∧
            IsEditCost (configured m.e x.length) x w v ∧ v ≤ limit p x := by
  obtain ⟨names, hi, _⟩ := Ran.start h
  obtain ⟨D, C, n1, hg, hst, he', hw'⟩ := calls_standing hr hc hi.standing
  refine ⟨D, C, hg, he', hw', ?_⟩
  intro q p hs he hf
  have hs' : Sane m'.e q (H ++ C) := by
    rw [he']
    refine hs.sub fun w hw => ?_
    have := gathered_words hg w
    simp only [MatcherHistory.words, List.flatMap_append, List.mem_append] at hw this ⊢
    exact hw.imp id this
  rw [← he'] at he ⊢
  obtain ⟨docs, ha, e⟩ := hst.matchQuery (p := p) hs'
  have hsorted : SMap.Sorted ltNat docs := by obtain ⟨P, _, hD⟩ := ha; exact hD.sorted
  rw [filtered_trivial _ hf] at e
  refine ⟨_, _, e, shows_copied (listing_rank hsorted), fun d => ?_⟩
  rw [mem_listing_docs, hst.answer_mem hs'.nonNeg ha]
  constructor
  · rintro ⟨f, w, x, hp, hx, hq, hseen⟩
    rw [seen_iff hs'.nonNeg he hq] at hseen
    exact ⟨f, w, x, _, hp, hx, hq, isEditCost_iff.2 rfl, hseen⟩
  · rintro ⟨f, w, x, v, hp, hx, hq, hv, hl⟩
    rw [isEditCost_iff] at hv
    subst hv
    exact ⟨f, w, x, hp, hx, hq, (seen_iff hs'.nonNeg he hq _ _).2 hl⟩

omit [Build] [Runtime] [Fp] [Icu] in
theorem upto_posting {T D C : MatcherHistory} (h : Upto T D C) {d : DocumentID} {f w : Word} (hp : D.Posting d f w) : T.Posting d f w := by
  cases h with
  | between D b => obtain ⟨x, hx, a⟩ := hp; exact ⟨x, List.mem_append_left _ hx, a⟩
  | inside a x b ws rest C h1 _ =>
    obtain ⟨y, hy, e1, e2, e3⟩ := hp
    rcases List.mem_append.1 hy with hy | hy
    · exact ⟨y, List.mem_append_left _ hy, e1, e2, e3⟩
    · rw [List.mem_singleton] at hy
      subst hy
      exact ⟨x, by simp, e1, e2, by rw [h1]; exact List.mem_append_left _ e3⟩

/-- C101. A corpus whose indexing stopped harmlessly can be indexed again: a search then lists the same documents as if
the first call had not been made. -/
theorem C101_again (h : Ran os m H K) {heap heap' : Heap} {c : Corpus} {s : Stop} (ho : CorpusOk c)
    (hr : Calls m [(heap, c), (heap', c)] m' [some s, none]) (q : WordList) (p : SearchParameters)
    (hs : Sane m.e q (H ++ corpusTexts c)) (he : Exact m.e q) (hf : Unfiltered p) :
    ∃ r k, m'.matchQuery q p = (m', .ok r) ∧ Shows r k ∧
      ∀ d, d ∈ k.map (·.2) ↔ ∃ f w x v, (H ++ corpusTexts c).Posting d f w ∧ p.isNonsearchingField f = false ∧ x ∈ q ∧
        IsEditCost (configured m.e x.length) x w v ∧ v ≤ limit p x := by
  obtain ⟨D, C, hg, _, _, hall⟩ := C101_partial h hr (by simp [ho])
  obtain ⟨r, k, e, hk, hm⟩ := hall q p (hs.sub (by simp [callTexts, MatcherHistory.words])) he hf
  refine ⟨r, k, e, hk, fun d => (hm d).trans ?_⟩
  cases hg with
  | stop hu hg =>
    cases hg with
    | ok hg =>
      cases hg
      rename_i D1 _
      have : ∀ d f w, (H ++ (D1 ++ (corpusTexts c ++ []))).Posting d f w ↔ (H ++ corpusTexts c).Posting d f w := by
        intro d f w
        have hp := @upto_posting _ _ _ hu d f w
        constructor
        · rintro ⟨y, hy, a⟩
          simp only [List.append_nil, List.mem_append] at hy
          rcases hy with hy | hy | hy
          · exact ⟨y, List.mem_append_left _ hy, a⟩
          · obtain ⟨z, hz, b⟩ := hp ⟨y, hy, a⟩
            exact ⟨z, List.mem_append_right _ hz, b⟩
          · exact ⟨y, List.mem_append_right _ hy, a⟩
        · rintro ⟨y, hy, a⟩
          refine ⟨y, ?_, a⟩
          simp only [List.append_nil, List.mem_append] at hy ⊢
          rcases hy with hy | hy
          · exact Or.inl hy
          · exact Or.inr (Or.inr hy)
      simp only [this]

end

/-- C101, the identifier. If the vector of a store cannot grow for the new word `w`, the next new word `v` gets the same
identifier as `w`. -/
theorem C101_identifiers [Build] (os : Nat → Bool) (ws : List Word) (hw : ∀ w ∈ ws, Plain w) (s0 s s1 s2 : WordStore)
    (ids : List (Option WordID)) (h0 : WordStore.new os = .ok s0) (h : runIDs s0 ws = .ok (s, ids)) (w v : Word)
    (pw : Plain w) (pv : Plain v) (nv : v ∉ ws) (hne : v ≠ w) (heap : Heap) (k : Nat) (i : WordID)
    (e1 : s.getIDHeap heap k w = (s1, .error (.refused .identifier))) (e2 : s1.getID v = .ok (s2, i)) :
    s2.getID w = .ok (s2, i) := by
  obtain ⟨⟨g, hi⟩, _⟩ := runIDs_new hw h0 h
  rcases getIDHeap_cases heap k s w with ⟨f, _, e⟩ | ⟨_, _, _, _, e⟩ | ⟨s', id, ew, hlen, _, e⟩
  · rw [e1] at e; injection e with _ e; cases e
  · rw [e1] at e; injection e with _ e; cases e
  · rw [e1] at e; injection e with e _
    have hwne : w ≠ [] := by
      rintro rfl
      rw [SInv.getID_empty hi (nil_notMem_dictionary ws)] at ew; cases ew
    have hnew : w ∉ dictionary ws := by
      intro hm
      obtain ⟨j, hj⟩ := List.mem_iff_getElem?.1 hm
      rw [hi.getID_old pw.2 hj] at ew
      injection ew with ew; injection ew with ew _
      exact hlen (by rw [← ew])
    rcases hi.getID_new (pw.storable hwne) hnew with ⟨x, _⟩ | ⟨s'', g', x, hi', _⟩
    · rw [ew] at x; cases x
    rw [ew] at x; injection x with x; injection x with x xi; subst x
    have hhas : g'.Has w (dictionary ws).length := (hi'.has w _).2 (by simp)
    have hvnew : v ∉ dictionary ws ++ [w] := by
      simp only [List.mem_append, List.mem_singleton, not_or, mem_dictionary, not_and]
      exact ⟨fun h => absurd h nv, hne⟩
    have hnot : ∀ i, ¬ g'.Has v i := fun i hi => hvnew (List.mem_of_getElem? ((hi'.has v i).1 hi))
    have hvne : v ≠ [] := by
      rintro rfl
      obtain ⟨b, eb, hbb⟩ := hasWord_spec hi'.trie [] (by simp)
      have : b = false := by
        cases b with
        | false => rfl
        | true => obtain ⟨i, hi⟩ := hbb.1 rfl; exact absurd hi (hnot i)
      subst this
      rw [e, WordStore.getID] at e2
      simp only [eb] at e2
      cases e2
    obtain ⟨b, eb, hbb⟩ := hasWord_spec hi'.trie v pv.2
    have : b = false := by
      cases b with
      | false => rfl
      | true => obtain ⟨i, hi⟩ := hbb.1 rfl; exact absurd hi (hnot i)
    subst this
    have hl := hi.len_le
    have hb := hi.trie.bound
    have hmod : s.wordIndex.length % 2^32 = (dictionary ws).length := by rw [hi.len]; omega
    have hid : (dictionary ws).length < INVALID_WORDID := by
      show (dictionary ws).length < 4294967295
      omega
    rw [e, WordStore.getID] at e2
    simp only [eb, ok_bind, Bool.false_eq_true, if_false, hmod] at e2
    rcases insertWord_spec hi'.trie (pv.storable hvne) hid (fun i hi => absurd hi (hnot i)) with
      ⟨x, _⟩ | ⟨t', g2, j, x, h', hins, _⟩
    · rw [x] at e2; cases e2
    · rw [x] at e2
      simp only [ok_bind] at e2
      injection e2 with e2
      injection e2 with e2 e3
      have hi3 : i = (dictionary ws).length := by
        rw [← e3]
        simp only [List.length_append, List.length_singleton, Nat.add_sub_cancel]
        exact hmod
      have hhas2 : g2.Has w (dictionary ws).length := by
        obtain ⟨n, hn, hp, hwd, hv⟩ := hhas
        have hnj : n ≠ j := by
          rintro rfl
          have := hins.path n hn
          rw [hins.path_k, hp] at this
          exact hne this
        exact ⟨n, Nat.lt_of_lt_of_le hn hins.n_le, by rw [hins.path n hn, hp], by rw [hins.word n hn hnj, hwd], hv⟩
      obtain ⟨b, eb2, hbb2⟩ := hasWord_spec h' w pw.2
      have : b = true := hbb2.2 ⟨_, hhas2⟩
      subst this
      obtain ⟨a, f1, _, f2⟩ := findWord_has h' w pw.2 hhas2
      rw [← e2, hi3, WordStore.getID, eb2]
      simp only [ok_bind, if_true, f1, f2]

/-! The claim without the restriction is false. -/

/-- A heap that refuses the request number `n` only. -/
def refusing (n : Nat) : Heap := fun k => k != n

/-- A document with a title. -/
def titled (id : DocumentID) (w : Word) : Corpus := [documentOf id [(Example.title, [w])]]

section
variable [Build] [Icu] [Runtime] [Fp]

/-- Is this what happens with a new matcher: indexing stops at a count, the search that follows is undefined? -/
def overrun (os : Nat → Bool) (heap : Heap) (c : Corpus) (q : WordList) : Bool :=
  match Matcher.new os with
  | .error _ => false
  | .ok m => match m.indexHeap heap 0 c with
    | (m', .error (.refused .count)) => match m'.matchQuery q SearchParameters.new with
      | (_, .error .ub) => true
      | _ => false
    | _ => false

omit [Icu] in
theorem overrun_sound {os : Nat → Bool} {heap : Heap} {c : Corpus} {q : WordList} (h : overrun os heap c q = true) :
    ∃ m m' m'' : Matcher, Matcher.new os = .ok m ∧ m.indexHeap heap 0 c = (m', .error (.refused .count)) ∧
      m'.matchQuery q SearchParameters.new = (m'', .error .ub) := by
  unfold overrun at h
  split at h
  · cases h
  · rename_i m e
    split at h
    · rename_i m' e'
      split at h
      · rename_i m'' e''; exact ⟨m, m', m'', e, e', e''⟩
      · cases h
    · cases h

/-- Is this what happens with a new matcher: indexing stops at an identifier, another corpus is indexed, then document `d`
counts as having the word `w` in the field `f`? -/
def mixed (os : Nat → Bool) (heap : Heap) (c c' : Corpus) (f w : Word) (d : DocumentID) : Bool :=
  match Matcher.new os with
  | .error _ => false
  | .ok m => match m.indexHeap heap 0 c with
    | (m1, .error (.refused .identifier)) => match m1.index c' with
      | (m2, none) => match m2.store.getID f with
        | .ok (_, i) => match m2.store.getID w with
          | .ok (_, j) => m2.reverseIndex.documentHasTerm j i d
          | _ => false
        | _ => false
      | _ => false
    | _ => false

omit [Icu] [Runtime] [Fp] in
theorem mixed_sound {os : Nat → Bool} {heap : Heap} {c c' : Corpus} {f w : Word} {d : DocumentID}
    (h : mixed os heap c c' f w d = true) :
    ∃ (m m1 m2 : Matcher) (s s' : WordStore) (i j : WordID), Matcher.new os = .ok m ∧
      m.indexHeap heap 0 c = (m1, .error (.refused .identifier)) ∧ m1.index c' = (m2, none) ∧
      m2.store.getID f = .ok (s, i) ∧ m2.store.getID w = .ok (s', j) ∧ m2.reverseIndex.documentHasTerm j i d = true := by
  unfold mixed at h
  split at h
  · cases h
  · rename_i m e
    split at h
    · rename_i m1 e1
      split at h
      · rename_i m2 e2
        split at h
        · rename_i s i e3
          split at h
          · rename_i s' j e4
            exact ⟨m, m1, m2, s, s', i, j, e, e1, e2, e3, e4, h⟩
          · cases h
        · cases h
      · cases h
    · cases h

/-- Is this what happens with a new matcher: indexing stops because a document cannot be noted, then succeeds? -/
def retried (os : Nat → Bool) (heap heap' : Heap) (c : Corpus) : Bool :=
  match Matcher.new os with
  | .error _ => false
  | .ok m => match m.indexHeap heap 0 c with
    | (m1, .error (.refused .posting)) => match m1.indexHeap heap' 0 c with
      | (_, .ok _) => true
      | _ => false
    | _ => false

omit [Icu] [Runtime] [Fp] in
theorem retried_sound {os : Nat → Bool} {heap heap' : Heap} {c : Corpus} (h : retried os heap heap' c = true) :
    ∃ m m' : Matcher, Matcher.new os = .ok m ∧ m.e = ErrorValues.new ∧
      Calls m [(heap, c), (heap', c)] m' [some (.refused .posting), none] := by
  unfold retried at h
  split at h
  · cases h
  · rename_i m e
    split at h
    · rename_i m1 e1
      split at h
      · rename_i m2 k e2
        refine ⟨m, m2, e, ?_, .stop e1 ⟨by decide, by decide⟩ (.ok e2 (.nil _))⟩
        simp only [Matcher.new] at e
        cases hn : WordStore.new os with
        | error f => rw [hn] at e; cases e
        | ok s => rw [hn] at e; injection e with e; rw [← e]
      · cases h
    · cases h

end

section
attribute [local instance] Example.debug Example.icu Example.runtime Example.fp

/-- C101, the count. A new matcher is to index one document with the title "save" and is refused the memory of the count:
a search for "save" then reads past the end of its matrix. -/
theorem C101_false_count : ∃ m m' m'' : Matcher, Matcher.new Example.os = .ok m ∧
    m.indexHeap (refusing 7) 0 (titled 1 Example.save) = (m', .error (.refused .count)) ∧
    m'.matchQuery [Example.save] SearchParameters.new = (m'', .error .ub) :=
  overrun_sound (by decide +kernel)

/-- C101, the identifier. After a refused identifier of "save", document 2 with the title "body" and document 3 with the
title "save" are indexed; then document 2 is among the documents with "save" in the title, which are what a search lists
when it comes upon "save", and what a filter lets pass. -/
theorem C101_false_identifier : ∃ (m m1 m2 : Matcher) (s s' : WordStore) (i j : WordID), Matcher.new Example.os = .ok m ∧
    m.indexHeap (refusing 3) 0 (titled 1 Example.save) = (m1, .error (.refused .identifier)) ∧
    m1.index (titled 2 Example.body ++ titled 3 Example.save) = (m2, none) ∧ m2.store.getID Example.title = .ok (s, i) ∧
    m2.store.getID Example.save = .ok (s', j) ∧ m2.reverseIndex.documentHasTerm j i 2 = true :=
  mixed_sound (by decide +kernel)

/-- The first two words of a new store, the first refused. -/
def shared (os : Nat → Bool) (heap : Heap) (w v : Word) : Bool :=
  match WordStore.new os with
  | .error _ => false
  | .ok s0 => match s0.getIDHeap heap 0 w with
    | (s1, .error (.refused .identifier)) => match s1.getID v with
      | .ok _ => true
      | _ => false
    | _ => false

example : ∃ (s0 s1 s2 : WordStore) (i : WordID), WordStore.new Example.os = .ok s0 ∧ runIDs s0 [] = .ok (s0, []) ∧
    s0.getIDHeap (refusing 0) 0 Example.save = (s1, .error (.refused .identifier)) ∧ s1.getID Example.body = .ok (s2, i) ∧
    Plain Example.save ∧ Plain Example.body ∧ Example.body ≠ Example.save := by
  have h : ∀ {heap : Heap} {w v : Word}, shared Example.os heap w v = true → ∃ (s0 s1 s2 : WordStore) (i : WordID),
      WordStore.new Example.os = .ok s0 ∧ s0.getIDHeap heap 0 w = (s1, .error (.refused .identifier)) ∧ s1.getID v = .ok (s2, i) := by
    intro heap w v h
    unfold shared at h
    split at h
    · cases h
    · rename_i s0 e0
      split at h
      · rename_i s1 e1
        split at h
        · rename_i x e2; obtain ⟨s2, i⟩ := x; exact ⟨s0, s1, s2, i, e0, e1, e2⟩
        · cases h
      · cases h
  obtain ⟨s0, s1, s2, i, e0, e1, e2⟩ := h (heap := refusing 0) (w := Example.save) (v := Example.body) (by decide +kernel)
  exact ⟨s0, s1, s2, i, e0, rfl, e1, e2, ⟨⟨_, GoodWord.readable Example.good_save⟩, Example.good_save.noNul⟩,
    ⟨⟨_, GoodWord.readable Example.good_body⟩, Example.good_body.noNul⟩, by decide⟩

/-- The calls of the theorems above: a document with the title "save" is not noted (request 8), then indexed again. -/
example : ∃ m m' : Matcher, Ran Example.os m [] [] ∧ CorpusOk (titled 1 Example.save) ∧
    Calls m [(refusing 8, titled 1 Example.save), (refusing 100, titled 1 Example.save)] m' [some (.refused .posting), none] ∧
    Sane m.e [Example.save] ([] ++ corpusTexts (titled 1 Example.save)) ∧ Exact m.e [Example.save] ∧ Unfiltered SearchParameters.new := by
  obtain ⟨m, m', e, he, h⟩ := retried_sound (os := Example.os) (heap := refusing 8) (heap' := refusing 100)
    (c := titled 1 Example.save) (by decide +kernel)
  refine ⟨m, m', .new e, ?_, h, ?_, ?_, rfl⟩
  · intro d hd
    simp only [titled, List.mem_cons, List.not_mem_nil, or_false] at hd
    subst hd
    refine ⟨_, rfl, ?_⟩
    simp only [List.mem_cons, List.not_mem_nil, or_false, forall_eq]
    exact ⟨Or.inr Example.good_title, Or.inr Example.good_save⟩
  · rw [he]
    exact Example.sane_save.sub (by decide)
  · rw [he]; exact exact_default _

end
end Columbus.Props
