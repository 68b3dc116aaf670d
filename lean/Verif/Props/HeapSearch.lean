import Verif.Proofs.HeapSearch
import Verif.Props.Heap
import Verif.Props.Online
/-
C116: searching when the heap refuses memory.
-/

namespace Columbus.Props
open Columbus Spec ErrorValues

/-! ### C116 -/

/-- C116. A search that is refused no memory does what `match` does, and with everything granted none is refused. -/
theorem C116_agrees [Build] [Runtime] [Fp] (m m' : Matcher) (working : Bool) (heap : Heap) (q : WordList) (p : SearchParameters) :
    (∀ r k, Matcher.matchHeap working heap 0 m q p = (m', .ok (r, k)) → m.matchQuery q p = (m', .ok r)) ∧
    (∀ f, Matcher.matchHeap working heap 0 m q p = (m', .error (.fault f)) → m.matchQuery q p = (m', .error f)) ∧
    (working = true → (∀ k, heap k = true) → Matcher.matchHeap working heap 0 m q p ≠ (m', .error .work) ∧
      Matcher.matchHeap working heap 0 m q p ≠ (m', .error .identifier)) := by
  unfold Matcher.matchHeap Matcher.matchQuery
  by_cases hw : working = false
  · simp only [hw, if_true]
    refine ⟨fun r k e => ?_, fun f e => ?_, fun h => by simp at h⟩ <;> (injection e with _ e; cases e)
  rw [if_neg hw]
  by_cases hq : q.length = 0
  · simp only [hq, if_true]
    refine ⟨fun r k e => ?_, fun f e => ?_, fun _ _ => ⟨fun e => ?_, fun e => ?_⟩⟩
    · injection e with e e'; injection e' with e'; injection e' with e' _; rw [e, e']
    all_goals (injection e with _ e; cases e)
  simp only [hq, if_false]
  cases Matcher.matchLoop m q p MatchResults.new 0 Matcher.maxIterations with
  | error f =>
    refine ⟨fun r k e => ?_, fun f' e => ?_, fun _ _ => ⟨fun e => ?_, fun e => ?_⟩⟩
    · injection e with _ e; cases e
    · injection e with e e'; injection e' with e'; injection e' with e'; rw [e, e']
    all_goals (injection e with _ e; cases e)
  | ok all =>
    dsimp only
    rcases filterLoopHeap_either (heap := heap) m.reverseIndex p.filter (List.range all.size) 0 m.store all MatchResults.new with
      ⟨s, a, k, e1, e2⟩ | ⟨s, f, e1, e2⟩ | ⟨s, n, hn, e1 | e1⟩
    · rw [e1, e2]
      refine ⟨fun r k e => ?_, fun f' e => ?_, fun _ _ => ⟨fun e => ?_, fun e => ?_⟩⟩
      · injection e with e e'; injection e' with e'; injection e' with e' _; rw [e, e']
      all_goals (injection e with _ e; cases e)
    · rw [e1, e2]
      refine ⟨fun r k e => ?_, fun f' e => ?_, fun _ _ => ⟨fun e => ?_, fun e => ?_⟩⟩
      · injection e with _ e; cases e
      · injection e with e e'; injection e' with e'; injection e' with e'; rw [e, e']
      all_goals (injection e with _ e; cases e)
    · rw [e1]
      refine ⟨fun r k e => ?_, fun f' e => ?_, fun _ hh => by rw [hh n] at hn; cases hn⟩ <;>
        (injection e with _ e; cases e)
    · rw [e1]
      refine ⟨fun r k e => ?_, fun f' e => ?_, fun _ hh => by rw [hh n] at hn; cases hn⟩ <;>
        (injection e with _ e; cases e)

section
variable [Build] [Icu] [Runtime] [Fp] {os : Nat → Bool} {m : Matcher} {H : MatcherHistory} {K : List Word}

/-- C116, what holds: after a search that was refused memory, other than for the identifier of a word of the filter,
`match` has the same result as before the search for every query and filter, and so has `onlineMatch` for every field
that is known from the index or not mentioned by the filter. Missing: refused identifiers (C116_false); fields that the
filter mentions but no document (C52_false); refusals of the memory of a trie (C60). -/
theorem C116_partial (h : Ran os m H K) (working : Bool) (heap : Heap) (q : WordList) (p : SearchParameters)
    (hu : ∀ w ∈ filterWords p.filter, Usable w) (m' : Matcher) (r : Except SearchStop (MatchResults × Nat))
    (e : Matcher.matchHeap working heap 0 m q p = (m', r)) (h1 : r ≠ .error .identifier)
    (h2 : r ≠ .error (.fault .runtimeError)) :
    (∀ q' p', Sane m.e q' H → (∀ w ∈ filterWords p'.filter, Usable w) →
      ¬ StorageRefused os (lettersIn H.mentions + lettersIn K + lettersIn (filterWords p.filter) + 2 * lettersIn (filterWords p'.filter)) →
      (m'.matchQuery q' p').2 = (m.matchQuery q' p').2) ∧
    (∀ q' f, Sane m.e q' H → (∀ w ∈ q', Usable w) → Usable f →
      f ∉ filterWords p.filter ∨ f ∈ H.mentions → (m'.onlineMatch q' f).2 = (m.onlineMatch q' f).2) := by
  obtain ⟨names, hi, hos, hk⟩ := Columbus.Ran.inv h
  obtain ⟨s', names', rfl, hg⟩ := hi.matchHeap hu e h1 h2
  exact grown_answers hi hos (names_letters hi.store hk) hg

end

/-! Refused identifiers. -/

/-- A filter for a word in the title. -/
def titleIs (w : Word) : SearchParameters := { SearchParameters.new with filter := ⟨[[(Example.title, w)]]⟩ }

section
variable [Build] [Icu] [Runtime] [Fp]

/-- Is this what happens with a new matcher: a corpus is indexed, a search stops at an identifier, another corpus is
indexed, then a search lists the document `d`, but nothing in a matcher without the search that stopped? -/
def leaked (os : Nat → Bool) (heap : Heap) (c c' : Corpus) (q q' : WordList) (p : SearchParameters) (d : DocumentID) : Bool :=
  match Matcher.new os with
  | .error _ => false
  | .ok m => match m.index c with
    | (m1, none) => match Matcher.matchHeap true heap 0 m1 q p with
      | (m2, .error .identifier) => match m2.index c', m1.index c' with
        | (m3, none), (m4, none) => match (m3.matchQuery q' p).2, (m4.matchQuery q' p).2 with
          | .ok r, .ok r' => r.results.any (fun x => x.2 == d) && r'.results.isEmpty
          | _, _ => false
        | _, _ => false
      | _ => false
    | _ => false

omit [Icu] in
theorem leaked_sound {os : Nat → Bool} {heap : Heap} {c c' : Corpus} {q q' : WordList} {p : SearchParameters} {d : DocumentID}
    (h : leaked os heap c c' q q' p d = true) :
    ∃ (m m1 m2 m3 m4 : Matcher) (r r' : MatchResults), Matcher.new os = .ok m ∧ m.index c = (m1, none) ∧
      Matcher.matchHeap true heap 0 m1 q p = (m2, .error .identifier) ∧ m2.index c' = (m3, none) ∧ m1.index c' = (m4, none) ∧
      (m3.matchQuery q' p).2 = .ok r ∧ (m4.matchQuery q' p).2 = .ok r' ∧ (∃ x ∈ r.results, x.2 = d) ∧ r'.results = [] := by
  unfold leaked at h
  split at h
  · cases h
  · rename_i m e0
    split at h
    · rename_i m1 e1
      split at h
      · rename_i m2 e2
        split at h
        · rename_i m3 m4 e3 e4
          split at h
          · rename_i r r' e5 e6
            rw [Bool.and_eq_true, List.any_eq_true] at h
            obtain ⟨⟨x, hx, hd⟩, h'⟩ := h
            exact ⟨m, m1, m2, m3, m4, r, r', e0, e1, e2, e3, e4, e5, e6, ⟨x, hx, by simpa using hd⟩, by simpa using h'⟩
          · cases h
        · cases h
      · cases h
    · cases h

/-- Is this what happens with a new matcher: a corpus is indexed, then a search stops for want of memory of its own? -/
def stopped (os : Nat → Bool) (heap : Heap) (c : Corpus) (q : WordList) (p : SearchParameters) : Bool :=
  match Matcher.new os with
  | .error _ => false
  | .ok m => match m.index c with
    | (m1, none) => match Matcher.matchHeap true heap 0 m1 q p with
      | (_, .error .work) => true
      | _ => false
    | _ => false

omit [Icu] in
theorem stopped_sound {os : Nat → Bool} {heap : Heap} {c : Corpus} {q : WordList} {p : SearchParameters}
    (h : stopped os heap c q p = true) :
    ∃ m m1 m2 : Matcher, Matcher.new os = .ok m ∧ m.index c = (m1, none) ∧
      Matcher.matchHeap true heap 0 m1 q p = (m2, .error .work) := by
  unfold stopped at h
  split at h
  · cases h
  · rename_i m e0
    split at h
    · rename_i m1 e1
      split at h
      · rename_i m2 e2; exact ⟨m, m1, m2, e0, e1, e2⟩
      · cases h
    · cases h

end

section
attribute [local instance] Example.debug Example.icu Example.runtime Example.fp

/-- C116, the identifier. The title "save" is indexed; a search for documents whose title has a word not seen before is
refused the memory of its identifier; then document 2 with the title "body" is indexed. Now a search for "body" with the
filter of the search that was refused lists document 2, though no title has the word of the filter; without that search
it lists nothing. -/
theorem C116_false : ∃ (m m1 m2 m3 m4 : Matcher) (r r' : MatchResults), Matcher.new Example.os = .ok m ∧
    m.index (titled 1 Example.save) = (m1, none) ∧
    Matcher.matchHeap true (refusing 0) 0 m1 [Example.save] (titleIs Example.other) = (m2, .error .identifier) ∧
    m2.index (titled 2 Example.body) = (m3, none) ∧ m1.index (titled 2 Example.body) = (m4, none) ∧
    (m3.matchQuery [Example.body] (titleIs Example.other)).2 = .ok r ∧
    (m4.matchQuery [Example.body] (titleIs Example.other)).2 = .ok r' ∧ (∃ x ∈ r.results, x.2 = 2) ∧ r'.results = [] :=
  leaked_sound (by decide +kernel)

/-- The search of the theorems above: a result that passed the filter cannot be copied. -/
example : ∃ m m' : Matcher, Ran Example.os m (corpusTexts (titled 1 Example.save)) [] ∧
    Matcher.matchHeap true (refusing 0) 0 m [Example.save] (titleIs Example.save) = (m', .error .work) ∧
    (∀ w ∈ filterWords (titleIs Example.save).filter, Usable w) ∧
    Sane m.e [Example.save] (corpusTexts (titled 1 Example.save)) := by
  obtain ⟨m0, m, m', e0, e1, e2⟩ := stopped_sound (os := Example.os) (heap := refusing 0) (c := titled 1 Example.save)
    (q := [Example.save]) (p := titleIs Example.save) (by decide +kernel)
  have h0 : Ran Example.os m0 [] [] := .new e0
  have hc : CorpusOk (titled 1 Example.save) := by
    intro d hd
    simp only [titled, List.mem_cons, List.not_mem_nil, or_false] at hd
    subst hd
    refine ⟨_, rfl, ?_⟩
    simp only [List.mem_cons, List.not_mem_nil, or_false, forall_eq]
    exact ⟨Or.inr Example.good_title, Or.inr Example.good_save⟩
  have h1 : Ran Example.os m ([] ++ corpusTexts (titled 1 Example.save)) [] := h0.index hc e1 (by simp)
  refine ⟨m, m', h1, e2, ?_, ?_⟩
  · intro w hw
    have : w = Example.title ∨ w = Example.save := by simpa [filterWords, titleIs] using hw
    rcases this with rfl | rfl
    · exact Or.inr Example.good_title
    · exact Or.inr Example.good_save
  · have he : m.e = ErrorValues.new := by
      obtain ⟨names, hi, -⟩ := Columbus.Ran.inv h0
      have hn : m0.e = ErrorValues.new := by
        simp only [Matcher.new] at e0
        cases hn : WordStore.new Example.os with
        | error f => rw [hn] at e0; cases e0
        | ok s => rw [hn] at e0; injection e0 with e0; rw [← e0]
      rcases MInv.index _ m0 [] names hi hc with ⟨_, x, -⟩ | ⟨_, _, x, -, -, -, -, -, he, -⟩
      · rw [e1] at x; injection x with _ x; cases x
      · rw [e1] at x; injection x with x _; rw [x, he, hn]
    rw [he]
    exact Example.sane_save.sub (by decide)

end
end Columbus.Props
