import Verif.Proofs.Heap
import Verif.Proofs.MatcherAnswer
/-
Corpora and searches when memory may be refused.
-/

namespace Columbus
open Spec ErrorValues

/-! ### Parts of texts -/

theorem Spec.Upto.append (a : MatcherHistory) {T D C : MatcherHistory} (h : Upto T D C) : Upto (a ++ T) (a ++ D) (a ++ C) := by
  cases h with
  | between D b => rw [← List.append_assoc]; exact .between _ b
  | inside a' x b ws rest C h1 h2 =>
    rw [← List.append_assoc, ← List.append_assoc, ← List.append_assoc]
    exact .inside _ x b ws rest C h1 h2

theorem Spec.Upto.more (b : MatcherHistory) {T D C : MatcherHistory} (h : Upto T D C) : Upto (T ++ b) D C := by
  cases h with
  | between D b' => rw [List.append_assoc]; exact .between _ _
  | inside a' x b' ws rest C h1 h2 =>
    rw [List.append_assoc, List.cons_append]
    exact .inside _ x _ ws rest C h1 h2

theorem Spec.Upto.words {T D C : MatcherHistory} (h : Upto T D C) : ∀ w ∈ C.words, w ∈ T.words := by
  cases h with
  | between D b => exact words_sub _ _
  | inside a x b ws rest c h1 h2 =>
    intro w hw
    simp only [MatcherHistory.words, List.flatMap_append, List.flatMap_cons, List.flatMap_nil, List.append_nil, List.mem_append] at hw ⊢
    rcases hw with hw | hw
    · exact Or.inl hw
    · right; left
      rw [h1]
      rcases h2 with rfl | ⟨v, r, rfl, rfl⟩
      · exact List.mem_append_left _ hw
      · simp only [List.mem_append, List.mem_cons, List.not_mem_nil, or_false] at hw ⊢
        rcases hw with hw | hw
        · exact Or.inl hw
        · exact Or.inr (Or.inl hw)

/-- The stops after which nothing is said. -/
def Grave (s : Stop) : Prop := s = .fault .runtimeError ∨ s = .refused .identifier ∨ s = .refused .count

section
variable [Build] [Icu] {heap : Heap}

theorem Standing.indexWords {C D : MatcherHistory} {d : DocumentID} {f : Word} {n : Nat} (ws : WordList) :
    ∀ (m : Matcher) (names : List Word) (done : WordList) (k : Nat),
    Standing m (C ++ [⟨d, f, n, done⟩]) (D ++ [⟨d, f, n, done⟩]) names → (∀ w ∈ ws, Usable w) →
    (∃ m' names' k', m.indexWordsHeap heap k d (names.idxOf f) ws = (m', .ok k') ∧ names <+: names' ∧
      Standing m' (C ++ [⟨d, f, n, done ++ ws⟩]) (D ++ [⟨d, f, n, done ++ ws⟩]) names' ∧ m'.e = m.e ∧ m'.weights = m.weights) ∨
    (∃ m' names' s a rest c, m.indexWordsHeap heap k d (names.idxOf f) ws = (m', .error s) ∧ Stop.Harmless s ∧
      ws = a ++ rest ∧ (c = a ∨ ∃ w r, rest = w :: r ∧ c = a ++ [w]) ∧
      Standing m' (C ++ [⟨d, f, n, done ++ c⟩]) (D ++ [⟨d, f, n, done ++ a⟩]) names' ∧ m'.e = m.e ∧ m'.weights = m.weights) ∨
    (∃ m' s, m.indexWordsHeap heap k d (names.idxOf f) ws = (m', .error s) ∧ Grave s) := by
  induction ws with
  | nil =>
    intro m names done k h _
    left
    exact ⟨m, names, k, rfl, List.prefix_refl _, by simpa using h, rfl, rfl⟩
  | cons w ws ih =>
    intro m names done k h hu
    have hf : f ∈ names := h.known f (MatcherHistory.mem_mentions.2 ⟨⟨d, f, n, done⟩, by simp, Or.inl rfl⟩)
    rw [Matcher.indexWordsHeap]
    rcases h.indexWord (heap := heap) (hu w (by simp)) k with ⟨m1, n1, k1, e, hp, h1, c1, c2⟩ | ⟨m1, n1, s, c, e, hs, hc, h1, c1, c2⟩ | ⟨m1, s, e, hs⟩
    · simp only [e]
      rw [(idxOf_prefix hp hf).symm]
      rcases ih m1 n1 _ k1 h1 (fun v hv => hu v (by simp [hv])) with ⟨m2, n2, k2, e2, hp2, h2, d1, d2⟩ | ⟨m2, n2, s, a, rest, c, e2, hs, hw, hc, h2, d1, d2⟩ | ⟨m2, s, e2, hs⟩
      · left
        exact ⟨m2, n2, k2, e2, hp.trans hp2, by simpa using h2, d1.trans c1, d2.trans c2⟩
      · right; left
        refine ⟨m2, n2, s, w :: a, rest, w :: c, e2, hs, by rw [hw]; rfl, ?_, by simpa using h2, d1.trans c1, d2.trans c2⟩
        rcases hc with rfl | ⟨v, r, hr, rfl⟩
        · exact Or.inl rfl
        · exact Or.inr ⟨v, r, hr, rfl⟩
      · right; right
        exact ⟨m2, s, e2, hs⟩
    · right; left
      simp only [e]
      rcases hc with rfl | rfl
      · exact ⟨m1, n1, s, [], w :: ws, [], rfl, hs, rfl, Or.inl rfl, by simpa using h1, c1, c2⟩
      · exact ⟨m1, n1, s, [], w :: ws, [w], rfl, hs, rfl, Or.inr ⟨w, ws, rfl, rfl⟩, by simpa using h1, c1, c2⟩
    · right; right
      simp only [e]
      exact ⟨m1, s, rfl, hs⟩

theorem Standing.indexFields {d : Document} (ts : List (Word × WordList)) :
    ∀ (m : Matcher) (C D : MatcherHistory) (names : List Word) (k : Nat), Standing m C D names →
    (∀ t ∈ ts, d.getText t.1 = .ok t.2) → (∀ t ∈ ts, Usable t.1 ∧ ∀ w ∈ t.2, Usable w) →
    (∃ m' names' k', m.indexFieldsHeap heap k d (ts.map (·.1)) = (m', .ok k') ∧
      Standing m' (C ++ docTexts d.id ts) (D ++ docTexts d.id ts) names' ∧ m'.e = m.e ∧ m'.weights = m.weights) ∨
    (∃ m' names' s D' C', m.indexFieldsHeap heap k d (ts.map (·.1)) = (m', .error s) ∧ Stop.Harmless s ∧
      Upto (docTexts d.id ts) D' C' ∧ Standing m' (C ++ C') (D ++ D') names' ∧ m'.e = m.e ∧ m'.weights = m.weights) ∨
    (∃ m' s, m.indexFieldsHeap heap k d (ts.map (·.1)) = (m', .error s) ∧ Grave s) := by
  induction ts with
  | nil =>
    intro m C D names k h _ _
    left
    exact ⟨m, names, k, rfl, by simpa [docTexts] using h, rfl, rfl⟩
  | cons t ts ih =>
    intro m C D names k h ht hu
    obtain ⟨f, ws⟩ := t
    have u1 : Usable f := (hu (f, ws) (by simp)).1
    have u2 : ∀ w ∈ ws, Usable w := (hu (f, ws) (by simp)).2
    have hdt : docTexts d.id ((f, ws) :: ts) = ⟨d.id, f, ws.length, ws⟩ :: docTexts d.id ts := rfl
    have et : d.getText f = .ok ws := ht (f, ws) (by simp)
    have none : Upto (docTexts d.id ((f, ws) :: ts)) [] [] := by
      have := Upto.between [] (docTexts d.id ((f, ws) :: ts)); exact this
    rw [List.map_cons, Matcher.indexFieldsHeap]
    rcases getIDHeap_cases heap k m.store f with ⟨x, e1, e2⟩ | ⟨s, id, k', e1, e2⟩ | ⟨s, id, e1, _, _, e2⟩
    · rcases h.store.getID u1 with ⟨rfl, e⟩ | ⟨_, e, hr⟩ | ⟨hne, s', e, hs⟩
      · rw [e] at e1; injection e1 with e1; subst e1
        right; left
        exact ⟨m, names, .fault .outOfRange, [], [], by simp only [e2]; rfl, rfl, none, by simpa using h, rfl, rfl⟩
      · rw [e] at e1; injection e1 with e1; subst e1
        right; right
        exact ⟨_, .fault .runtimeError, by simp only [e2]; rfl, Or.inl rfl⟩
      · rw [e] at e1; cases e1
    · obtain ⟨e3, hs⟩ : id = (note names f).idxOf f ∧ Names s m.os (note names f) := by
        rcases h.store.getID u1 with ⟨rfl, e⟩ | ⟨_, e, hr⟩ | ⟨hne, s', e, hs⟩
        · rw [e] at e1; cases e1
        · rw [e] at e1; cases e1
        · rw [e] at e1; injection e1 with e1; injection e1 with e1 e3; subst e1; exact ⟨e3.symm, hs⟩
      subst e3
      have h1 := h.noted hs
      have hf : f ∈ note names f := mem_note.2 (Or.inr rfl)
      have h2 := h1.start hf d.id ws.length
      simp only [e2, et]
      split
      · right; left
        exact ⟨{ m with store := s }, note names f, .refused .size, [], [], rfl, ⟨by decide, by decide⟩, none, by simpa using h1, rfl, rfl⟩
      · generalize (if (SMap.find Matcher.ltDW m.originalSizes (d.id, (note names f).idxOf f)).isNone = true then k' + 1 else k') = k2
        rcases h2.indexWords (heap := heap) ws _ _ _ k2 u2 with ⟨m1, n1, k1, e, hp, h3, c1, c2⟩ | ⟨m1, n1, x, a, rest, c, e, hx, hw, hc, h3, c1, c2⟩ | ⟨m1, x, e, hx⟩
        · simp only [e]
          rcases ih m1 _ _ n1 k1 h3 (fun t h => ht t (by simp [h])) (fun t h => hu t (by simp [h])) with
            ⟨m2, n2, k3, e4, h4, d1, d2⟩ | ⟨m2, n2, x, D', C', e4, hx, hU, h4, d1, d2⟩ | ⟨m2, x, e4, hx⟩
          · left
            exact ⟨m2, n2, k3, e4, by rw [hdt]; simpa using h4, d1.trans c1, d2.trans c2⟩
          · right; left
            refine ⟨m2, n2, x, ⟨d.id, f, ws.length, ws⟩ :: D', ⟨d.id, f, ws.length, ws⟩ :: C', e4, hx, ?_, by simpa using h4, d1.trans c1, d2.trans c2⟩
            rw [hdt]
            exact Upto.append [⟨d.id, f, ws.length, ws⟩] hU
          · right; right
            exact ⟨m2, x, e4, hx⟩
        · right; left
          simp only [e]
          refine ⟨m1, n1, x, [⟨d.id, f, ws.length, a⟩], [⟨d.id, f, ws.length, c⟩], rfl, hx, ?_, by simpa using h3, c1, c2⟩
          rw [hdt]
          exact Upto.inside [] ⟨d.id, f, ws.length, ws⟩ (docTexts d.id ts) a rest c hw hc
        · right; right
          simp only [e]
          exact ⟨m1, x, rfl, hx⟩
    · right; right
      exact ⟨_, .refused .identifier, by simp only [e2]; rfl, Or.inr (Or.inl rfl)⟩

theorem Standing.index (c : Corpus) :
    ∀ (m : Matcher) (C D : MatcherHistory) (names : List Word) (k : Nat), Standing m C D names → CorpusOk c →
    (∃ m' names' k', m.indexHeap heap k c = (m', .ok k') ∧
      Standing m' (C ++ corpusTexts c) (D ++ corpusTexts c) names' ∧ m'.e = m.e ∧ m'.weights = m.weights) ∨
    (∃ m' names' s D' C', m.indexHeap heap k c = (m', .error s) ∧ Stop.Harmless s ∧
      Upto (corpusTexts c) D' C' ∧ Standing m' (C ++ C') (D ++ D') names' ∧ m'.e = m.e ∧ m'.weights = m.weights) ∨
    (∃ m' s, m.indexHeap heap k c = (m', .error s) ∧ Grave s) := by
  induction c with
  | nil =>
    intro m C D names k h _
    left
    exact ⟨m, names, k, rfl, by simpa [corpusTexts] using h, rfl, rfl⟩
  | cons d c ih =>
    intro m C D names k h hc
    obtain ⟨ht, hu⟩ := CorpusOk.texts hc (d := d) (by simp)
    rw [Matcher.indexHeap, Document.getFieldNames]
    split
    · right; left
      exact ⟨m, names, .refused .names, [], [], rfl, ⟨by decide, by decide⟩, Upto.between [] (corpusTexts (d :: c)), by simpa using h, rfl, rfl⟩
    · rcases h.indexFields (heap := heap) d.texts m C D names (k + 1) ht hu with ⟨m1, n1, k1, e, h1, c1, c2⟩ | ⟨m1, n1, x, D', C', e, hx, hU, h1, c1, c2⟩ | ⟨m1, x, e, hx⟩
      · simp only [e]
        rcases ih m1 _ _ n1 k1 h1 (fun x hx => hc x (by simp [hx])) with ⟨m2, n2, k2, e2, h2, d1, d2⟩ | ⟨m2, n2, x, D', C', e2, hx, hU, h2, d1, d2⟩ | ⟨m2, x, e2, hx⟩
        · left
          exact ⟨m2, n2, k2, e2, by rw [corpusTexts_cons]; simpa using h2, d1.trans c1, d2.trans c2⟩
        · right; left
          refine ⟨m2, n2, x, docTexts d.id d.texts ++ D', docTexts d.id d.texts ++ C', e2, hx, ?_, by simpa using h2, d1.trans c1, d2.trans c2⟩
          rw [corpusTexts_cons]
          exact hU.append _
        · right; right
          exact ⟨m2, x, e2, hx⟩
      · right; left
        simp only [e]
        exact ⟨m1, n1, x, D', C', rfl, hx, by rw [corpusTexts_cons]; exact hU.more _, h1, c1, c2⟩
      · right; right
        simp only [e]
        exact ⟨m1, x, rfl, hx⟩

end

/-! ### Searching -/

section
variable [Build] [Icu] [Runtime] [Fp] {m : Matcher} {C D : MatcherHistory} {names : List Word}

omit [Icu] [Fp] in
theorem indexLoop_frame (ri : ReverseIndex) (st : MatcherStatistics) (p : SearchParameters) (w : Word) (t : Int) (ks : List WordID) :
    ∀ best, Matcher.indexLoop { m with reverseIndex := ri, stats := st } p w t best ks = Matcher.indexLoop m p w t best ks := by
  induction ks with
  | nil => intro best; rfl
  | cons k ks ih => intro best; rw [Matcher.indexLoop, Matcher.indexLoop]; simp only [ih]

omit [Icu] [Fp] in
theorem matchIndexes_frame (ri : ReverseIndex) (st : MatcherStatistics) (p : SearchParameters) (x : Int) (ws : WordList) :
    ∀ best, Matcher.matchIndexes { m with reverseIndex := ri, stats := st } p x best ws = Matcher.matchIndexes m p x best ws := by
  induction ws with
  | nil => intro best; rfl
  | cons w ws ih => intro best; rw [Matcher.matchIndexes, Matcher.matchIndexes]; simp only [ih, indexLoop_frame]

theorem Standing.relevancyMatch (h : Standing m C D names) {p : SearchParameters} {query : WordList} (hs : Sane m.e query C) :
    ∃ docs, IsAnswer m C names p query docs ∧
      Matcher.relevancyMatch m query p 0 MatchResults.new = .ok (Matcher.addAll MatchResults.new docs) := by
  obtain ⟨ri, st, hb⟩ := h.base
  obtain ⟨best, e1, hbi⟩ := hb.matchIndexes (p := p) hs query [] _ BInv.empty (fun _ h => h)
  rw [matchIndexes_frame] at e1
  have hp := flat_pairs hbi
  have hR : ∀ i j v, (False ∨ ∃ q ∈ query, Hits m.e p C names q i j v) ↔ QueryHits m.e p C names query i j v := by
    intro i j v; simp [QueryHits]
  have hp' : IsPairs (QueryHits m.e p C names query) (flat best) := by
    refine ⟨hp.sorted, fun i j v => ?_⟩
    rw [hp.mem]; exact Least.congr (hR i j)
  have hv : ∀ x ∈ flat best, m.calculateRelevancy x.2.1 x.1 x.2.2 = .ok (valueOf m.weights C names x) := by
    rintro ⟨i, j, v⟩ hx
    obtain ⟨⟨q, hq, f, w, hf, hw, _, hm, _, rfl⟩, _⟩ := (hp'.mem i j v).1 hx
    have : m.calculateRelevancy j i _ = _ := hb.calculateRelevancy hf hw hm (v := Columbus.best (charged m.e q.length) q w)
      (best_nonneg (charged_nonneg (hs.nonNeg q hq)))
    simp only [this, valueOf]
    congr 2
    · rw [List.getD_eq_getElem?_getD, hf]; rfl
    · rw [List.getD_eq_getElem?_getD, hw]; rfl
  obtain ⟨docs, e2, hsd, hfd⟩ := gatherList_eq h.docs (flat best) hv [] List.Pairwise.nil
  refine ⟨docs, ⟨flat best, hp', hsd, hfd⟩, ?_⟩
  rw [Matcher.relevancyMatch, e1]
  simp only [ok_bind]
  rw [gatherMatched_eq, e2]
  rfl

theorem Standing.matchQuery (h : Standing m C D names) {p : SearchParameters} {q : WordList} (hs : Sane m.e q C) :
    ∃ docs, IsAnswer m C names p q docs ∧ m.matchQuery q p = filtered m p (listing docs) := by
  obtain ⟨docs, hd, e⟩ := h.relevancyMatch (p := p) hs
  refine ⟨docs, hd, ?_⟩
  by_cases hq : q = []
  · subst hq
    obtain ⟨P, hP, hD⟩ := hd
    have hPn : P = [] := by
      rw [List.eq_nil_iff_forall_not_mem]
      rintro ⟨i, j, v⟩ hx
      obtain ⟨⟨x, hx, _⟩, _⟩ := (hP.mem i j v).1 hx
      cases hx
    have hdn : docs = [] := by
      rw [List.eq_nil_iff_forall_not_mem]
      rintro ⟨d, r⟩ hx
      have := (SMap.find_some_iff strict_ltNat hD.sorted d r).2 hx
      rw [hD.find, hPn] at this
      cases this
    subst hdn
    rw [listing_nil, filtered_nil]; rfl
  · have hlen : q.length ≠ 0 := fun h0 => hq (List.length_eq_zero_iff.1 h0)
    have hres : (Matcher.addAll MatchResults.new docs).results = docs.map fun x => (x.2, x.1) := by
      rw [addAll_eq]; rfl
    have hri : RInv ⟨docs.map fun x => (x.2, x.1), false⟩ (docs.map fun x => (x.2, x.1)) :=
      ⟨fun _ => rfl, fun h => by cases h⟩
    have hix : (List.range (List.map (fun x : DocumentID × ℚ => (x.2, x.1)) docs).length).map
        (fun i => (rank (docs.map fun x => (x.2, x.1)))[i]?) = (listing docs).map some := by
      rw [← rank_length (docs.map fun x => (x.2, x.1))]
      exact range_map_some _
    rw [Matcher.matchQuery, if_neg hlen, matchLoop_eq e, hres]
    simp only [MatchResults.size]
    rw [filterLoop_eq (listing docs) _ _ _ _ hri hix, filtered]
    rcases keepLoop m.reverseIndex p.filter.termList m.store (listing docs) with ⟨s, _ | k⟩ <;> rfl

omit [Runtime] in
theorem Standing.answer_mem (h : Standing m C D names) {p : SearchParameters} {q : WordList} {docs : SMap DocumentID ℚ}
    (hn : ∀ x ∈ q, (configured m.e x.length).NonNeg) (ha : IsAnswer m C names p q docs) (d : DocumentID) :
    d ∈ docs.map (·.1) ↔ ∃ f w x, D.Posting d f w ∧ p.isNonsearchingField f = false ∧ x ∈ q ∧
      SeenBy (charged m.e x.length) x (limit p x) w := by
  obtain ⟨P, hP, hD⟩ := ha
  have h1 : d ∈ docs.map (·.1) ↔ ∃ x ∈ P, d ∈ docsOf m.reverseIndex x.1 x.2.1 := by
    rw [← not_iff_not, ← SMap.find_none_iff strict_ltNat, hD.find, accum_foldl]
    simp [List.filter_eq_nil_iff]
  rw [h1]
  constructor
  · rintro ⟨⟨i, j, v⟩, hx, hd⟩
    obtain ⟨⟨x, hxq, f, w, a, b, c, e, s, _⟩, _⟩ := (hP.mem i j v).1 hx
    obtain ⟨f', w', a', b', c'⟩ := (h.post i j d).1 hd
    rw [a] at a'; rw [b] at b'; injection a' with a'; injection b' with b'; subst a'; subst b'
    exact ⟨f, w, x, c', c, hxq, s⟩
  · rintro ⟨f, w, x, hp, hf, hx, hs⟩
    have hc := h.sub _ _ _ hp
    have a := getElem?_idxOf (h.known f hc.field)
    have b := getElem?_idxOf (h.known w hc.word)
    obtain ⟨v, hv⟩ := least_of_hit (p := p) (H := C) (names := names) (i := names.idxOf f) (j := names.idxOf w) hn
      ⟨x, hx, f, w, a, b, hf, MatcherHistory.mem_occurrences.2 ⟨d, hc⟩, hs, rfl⟩
    exact ⟨_, (hP.mem _ _ v).2 hv, (h.post _ _ d).2 ⟨f, w, a, b, hp⟩⟩

end
end Columbus
