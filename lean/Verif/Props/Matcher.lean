import Verif.Props.MatcherExample
/-
C44-C51, C53, C57-C59: searching with `match`.
-/

namespace Columbus.Props
open Columbus Spec ErrorValues

section
variable [Build] [Icu] [Runtime] [Fp] {os : Nat → Bool} {m : Matcher} {H : MatcherHistory} {K : List Word}

theorem Ran.start (h : Ran os m H K) : ∃ names, MInv m H names ∧ m.os = os ∧ lettersIn names ≤ lettersIn H.mentions + lettersIn K := by
  obtain ⟨names, hi, hos, hk⟩ := Columbus.Ran.inv h
  exact ⟨names, hi, hos, names_letters hi.store hk⟩

/-- The results read from an answer. -/
theorem answer_shows {names : List Word} (h : MInv m H names) {q : WordList} {p : SearchParameters} (hs : Sane m.e q H)
    (hu : ∀ w ∈ filterWords p.filter, Usable w) {m' : Matcher} {r : MatchResults} {k : List Result}
    (e : m.matchQuery q p = (m', .ok r)) (hk : Shows r k) :
    ∃ docs, IsAnswer m H names p q docs ∧ SMap.Sorted ltNat docs ∧
      k = (listing docs).filter fun x => decide (Satisfies H p.filter x.2) := by
  obtain ⟨docs, ha, e'⟩ := h.matchQuery_eq (p := p) hs
  have hsorted : SMap.Sorted ltNat docs := by obtain ⟨P, _, hD⟩ := ha; exact hD.sorted
  refine ⟨docs, ha, hsorted, ?_⟩
  rcases h.filtered_ends hu (listing docs) with ⟨_, e2, _⟩ | ⟨s', n', _, e2⟩
  · rw [e, e2] at e'; cases e'
  · rw [e, e2] at e'
    cases hkk : kept H p.filter (listing docs) with
    | none => rw [hkk] at e'; cases e'
    | some k' =>
      rw [hkk] at e'
      injection e' with _ e'
      injection e' with e'
      have h1 := kept_sound _ hkk
      subst e'
      rw [← h1]
      refine Columbus.Shows.unique hk (shows_copied ?_)
      rw [h1]
      exact (listing_rank hsorted).filter _

/-! ### C44 -/

/-- C44. With settings for which searches are complete, an unfiltered search lists a document exactly when some indexed
word of it, in a field not excluded, can be edited from some query word at a price within the limit of that word. -/
theorem C44_found (h : Ran os m H K) (q : WordList) (p : SearchParameters) (hs : Sane m.e q H) (he : Exact m.e q)
    (hf : Unfiltered p) :
    ∃ r k, m.matchQuery q p = (m, .ok r) ∧ Shows r k ∧
      ∀ d, d ∈ k.map (·.2) ↔ ∃ f w x v, H.Posting d f w ∧ p.isNonsearchingField f = false ∧ x ∈ q ∧
        IsEditCost (configured m.e x.length) x w v ∧ v ≤ limit p x := by
  obtain ⟨names, hi, _⟩ := Ran.start h
  obtain ⟨docs, ha, e⟩ := hi.matchQuery_eq (p := p) hs
  have hsorted : SMap.Sorted ltNat docs := by obtain ⟨P, _, hD⟩ := ha; exact hD.sorted
  rw [filtered_trivial _ hf] at e
  refine ⟨_, _, e, shows_copied (listing_rank hsorted), fun d => ?_⟩
  rw [mem_listing_docs, hi.answer_mem hs.nonNeg ha]
  constructor
  · rintro ⟨f, w, x, hp, hx, hq, hseen⟩
    rw [seen_iff hs.nonNeg he hq] at hseen
    exact ⟨f, w, x, _, hp, hx, hq, isEditCost_iff.2 rfl, hseen⟩
  · rintro ⟨f, w, x, v, hp, hx, hq, hv, hl⟩
    rw [isEditCost_iff] at hv
    subst hv
    exact ⟨f, w, x, hp, hx, hq, (seen_iff hs.nonNeg he hq _ _).2 hl⟩

/-- C44. With the default settings: a document is listed exactly when a word of it has edit distance at most 2 from a
query word, or at most 1 if the query word has one letter and limits are dynamic. -/
theorem C44_default (h : Ran os m H K) (hd : m.e = ErrorValues.new) (q : WordList) (p : SearchParameters)
    (hs : Sane m.e q H) (hf : Unfiltered p) :
    ∃ r k, m.matchQuery q p = (m, .ok r) ∧ Shows r k ∧
      ∀ d, d ∈ k.map (·.2) ↔ ∃ f w x n, H.Posting d f w ∧ p.isNonsearchingField f = false ∧ x ∈ q ∧
        IsEditDistance x w n ∧ n ≤ if p.isDynamic = true ∧ x.length < 2 then 1 else 2 := by
  obtain ⟨r, k, e, hk, hm⟩ := C44_found h q p hs (by rw [hd]; exact exact_default q) hf
  refine ⟨r, k, e, hk, fun d => (hm d).trans ?_⟩
  have hconf : ∀ n, configured m.e n = unitCosts := by intro n; rw [hd, new_is_default]; exact configured_default n
  have uniq : ∀ {x w : Word} {n k : Nat}, IsEditDistance x w n → IsEditDistance x w k → n = k :=
    fun a b => Nat.le_antisymm (a.2 _ b.1) (b.2 _ a.1)
  constructor
  · rintro ⟨f, w, x, v, hp, hx, hq, hv, hl⟩
    rw [hconf, isEditCost_iff] at hv
    obtain ⟨n, hn, hd⟩ := best_unit (q := x) (w := w)
    refine ⟨f, w, x, n, hp, hx, hq, hd, ?_⟩
    rw [hv, hn] at hl
    unfold limit at hl
    split at hl
    · rename_i hc; rw [if_pos hc]; omega
    · rename_i hc; rw [if_neg hc]; omega
  · rintro ⟨f, w, x, n, hp, hx, hq, hd, hl⟩
    obtain ⟨n', hn, hd'⟩ := best_unit (q := x) (w := w)
    have := uniq hd hd'
    subst this
    refine ⟨f, w, x, best unitCosts x w, hp, hx, hq, by rw [hconf, isEditCost_iff], ?_⟩
    rw [hn]
    unfold limit
    split at hl
    · rename_i hc; rw [if_pos hc]; omega
    · rename_i hc; rw [if_neg hc]; omega

/-- A search for "save" in the example. -/
example : ∃ m : Matcher, Ran Example.os m Example.texts [] ∧ m.e = ErrorValues.new ∧ Sane m.e [Example.save] Example.texts ∧
    Exact m.e [Example.save] ∧ Unfiltered SearchParameters.new := by
  obtain ⟨m, h, he, _⟩ := Example.ran
  exact ⟨m, h, he, by rw [he]; exact Example.sane_save, by rw [he]; exact exact_default _, rfl⟩

/-! ### C45 -/

/-- C45. A search with a filter, compared with the same search without: it throws the same exception, or keeps, with the
same relevancy and order, those results whose document satisfies all pairs of some term; it throws `out_of_range` if an
empty word of the filter is reached, and `runtime_error` only if memory is refused. -/
theorem C45_filter (h : Ran os m H K) (q : WordList) (p : SearchParameters) (hu : ∀ w ∈ filterWords p.filter, Usable w) :
    (∃ f, m.matchQuery q { p with filter := ResultFilter.new } = (m, .error f) ∧ m.matchQuery q p = (m, .error f)) ∨
    ∃ r0 k0, m.matchQuery q { p with filter := ResultFilter.new } = (m, .ok r0) ∧ Shows r0 k0 ∧
      ((∃ m', m.matchQuery q p = (m', .error .runtimeError) ∧
          StorageRefused os (lettersIn H.mentions + lettersIn K + 2 * lettersIn (filterWords p.filter))) ∨
       (∃ m', kept H p.filter k0 = none ∧ m.matchQuery q p = (m', .error .outOfRange)) ∨
       ∃ m' r, kept H p.filter k0 ≠ none ∧ m.matchQuery q p = (m', .ok r) ∧
          Shows r (k0.filter fun x => decide (Satisfies H p.filter x.2))) := by
  obtain ⟨names, hi, hos, hl⟩ := Ran.start h
  rcases matchQuery_filtered (m := m) (q := q) (p := p) with ⟨f, e1, e2⟩ | ⟨docs, hsorted, e2, hq0, hq1⟩
  · rcases matchQuery_filtered (m := m) (q := q) (p := { p with filter := ResultFilter.new }) with ⟨f', e1', e2'⟩ | ⟨docs, _, e2', hq0, hq1⟩
    · left
      rw [matchLoop_params (p := { p with filter := ResultFilter.new }) (p' := p) rfl rfl, e1] at e1'
      injection e1' with e1'
      subst e1'
      exact ⟨f, e2', e2⟩
    · by_cases hq : q = []
      · subst hq; cases e2
      · have := hq1 hq
        rw [matchLoop_params (p := { p with filter := ResultFilter.new }) (p' := p) rfl rfl, e1] at this
        cases this
  · right
    have e0 : m.matchQuery q { p with filter := ResultFilter.new } = (m, .ok (copied .new (listing docs))) := by
      rcases matchQuery_filtered (m := m) (q := q) (p := { p with filter := ResultFilter.new }) with ⟨f', e1', e2'⟩ | ⟨docs', _, e2', hq0', hq1'⟩
      · by_cases hq : q = []
        · subst hq; cases e2'
        · have := hq1 hq
          rw [matchLoop_params (p := p) (p' := { p with filter := ResultFilter.new }) rfl rfl, e1'] at this
          cases this
      · have hdd : docs' = docs := by
          by_cases hq : q = []
          · rw [hq0 hq, hq0' hq]
          · have h1 := hq1 hq
            have h2 := hq1' hq
            rw [matchLoop_params (p := { p with filter := ResultFilter.new }) (p' := p) rfl rfl, h1] at h2
            injection h2 with h2
            injection h2 with h2
            have hinj : Function.Injective fun x : DocumentID × ℚ => (x.2, x.1) := by
              rintro ⟨a, b⟩ ⟨c, d⟩ h; simp only [Prod.mk.injEq] at h; simp [h]
            exact (List.map_injective_iff.2 hinj h2).symm
        rw [hdd, filtered_trivial _ rfl] at e2'
        exact e2'
    refine ⟨_, _, e0, shows_copied (listing_rank hsorted), ?_⟩
    rw [e2]
    rcases hi.filtered_ends hu (listing docs) with ⟨m', e, hr⟩ | ⟨s', n', _, e⟩
    · left
      rw [hos] at hr
      exact ⟨m', e, hr.mono (by omega)⟩
    · right
      rw [e]
      cases hk : kept H p.filter (listing docs) with
      | none => left; exact ⟨_, rfl, rfl⟩
      | some k =>
        right
        refine ⟨_, _, by simp, rfl, ?_⟩
        rw [← kept_sound _ hk]
        apply shows_copied
        rw [kept_sound _ hk]
        exact (listing_rank hsorted).filter _

omit [Build] [Icu] [Runtime] [Fp] in
/-- C45. Without empty words in the filter nothing of the filter is thrown. -/
theorem C45_no_throw (p : SearchParameters) (h : [] ∉ filterWords p.filter) (k : List Result) : kept H p.filter k ≠ none := by
  rw [kept_eq h]; simp

/-- "Title has as", or "body has as and title has save": both documents satisfy it, a third would not. -/
example : let f : ResultFilter := ⟨[[(Example.title, Example.as)], [(Example.body, Example.as), (Example.title, Example.save)]]⟩
    (∀ w ∈ filterWords f, GoodWord w) ∧ Satisfies Example.texts f 1 ∧ Satisfies Example.texts f 2 ∧ ¬ Satisfies Example.texts f 3 := by
  refine ⟨?_, by decide, by decide, by decide⟩
  simp [filterWords, Example.good_title, Example.good_as, Example.good_body, Example.good_save]

/-! ### C46 -/

omit [Icu] in
/-- C46. Whatever the matcher and the parameters: results of `match` list each document once, by falling relevancy, equal
ones by rising identifier. -/
theorem C46_ranked (m m' : Matcher) (q : WordList) (p : SearchParameters) (r : MatchResults) (e : m.matchQuery q p = (m', .ok r)) :
    ∃ k, Shows r k ∧ (k.map (·.2)).Nodup ∧
      k.Pairwise (fun a b => b.1 < a.1 ∨ (a.1 = b.1 ∧ a.2 < b.2)) := by
  rcases matchQuery_filtered (m := m) (q := q) (p := p) with ⟨f, _, e2⟩ | ⟨docs, hsorted, e2, _⟩
  · rw [e] at e2; cases e2
  · rw [e, filtered] at e2
    rcases hg : keepLoop m.reverseIndex p.filter.termList m.store (listing docs) with ⟨s1, r1⟩
    rw [hg] at e2
    cases r1 with
    | error f => cases e2
    | ok k =>
      injection e2 with _ e2
      injection e2 with e2
      subst e2
      have hsub := keepLoop_sublist _ hg
      have hrank := (listing_rank hsorted).sublist hsub
      exact ⟨k, shows_copied hrank, (listing_nodup hsorted).sublist (hsub.map _), hrank⟩

/-! ### C47 -/

/-- C47. The relevancy of a listed document is the sum, in double arithmetic and in the order of field and word
identifiers, of 100/(100+error) * (1 - count/(maxCount+1)) * weight over the words of the document, in fields not
excluded, that are close to the query; the error is the least over the query words. -/
theorem C47_relevancy (h : Ran os m H K) (q : WordList) (p : SearchParameters) (hs : Sane m.e q H) (he : Exact m.e q)
    (hu : ∀ w ∈ filterWords p.filter, Usable w) (m' : Matcher) (r : MatchResults) (k : List Result)
    (e : m.matchQuery q p = (m', .ok r)) (hk : Shows r k) :
    ∃ ident : Word → WordID, (∀ w ∈ H.mentions, ∀ i, m.store.getWord i = .ok w ↔ i = ident w) ∧
      ∀ rel d, (rel, d) ∈ k → ∃ L : List (Word × Word × Int),
        (∀ f w v, (f, w, v) ∈ L ↔ H.Posting d f w ∧ p.isNonsearchingField f = false ∧ CloseTo m.e p q w v) ∧
        L.Pairwise (fun a b => ident a.1 < ident b.1 ∨ (ident a.1 = ident b.1 ∧ ident a.2.1 < ident b.2.1)) ∧
        L ≠ [] ∧ rel = sumUp (L.map fun x => contribution m.weights H x.1 x.2.1 x.2.2) := by
  obtain ⟨names, hi, _⟩ := Ran.start h
  obtain ⟨docs, ha, _, rfl⟩ := answer_shows hi hs hu e hk
  refine ⟨fun w => names.idxOf w, ?_, ?_⟩
  · intro w hw i
    rw [hi.store.getWord_iff]
    constructor
    · intro hi'; exact (hi.store.idx hi').symm
    · rintro rfl; exact getElem?_idxOf (hi.known w hw)
  · intro rel d hx
    obtain ⟨L, h1, h2, h3, h4⟩ := hi.answer_value ha (mem_listing.1 (List.mem_filter.1 hx).1)
    refine ⟨L, fun f w v => ?_, h2, h3, h4⟩
    rw [h1]
    exact and_congr_right fun hp => hi.least_iff hs.nonNeg he hp v

/-! ### C48 -/

omit [Runtime] in
/-- C48. For a given matcher the result of `match` is the same for every iteration order of hash tables, tie order of the
sort and evaluation order of arguments, if no memory is refused. -/
theorem C48_result (R0 R1 R2 : Runtime) (h : @Ran _ _ R0 _ os m H K) (q : WordList) (p : SearchParameters) (hs : Sane m.e q H)
    (hu : ∀ w ∈ filterWords p.filter, Usable w)
    (hr : ¬ StorageRefused os (lettersIn H.mentions + lettersIn K + 2 * lettersIn (filterWords p.filter))) :
    (@Matcher.matchQuery _ R1 _ m q p).2 = (@Matcher.matchQuery _ R2 _ m q p).2 := by
  obtain ⟨names, hi, hos, hl⟩ := @Ran.start _ _ R0 _ _ _ _ _ h
  obtain ⟨d1, a1, e1⟩ := @MInv.matchQuery_eq _ R1 _ _ m H names p q hi hs
  obtain ⟨d2, a2, e2⟩ := @MInv.matchQuery_eq _ R2 _ _ m H names p q hi hs
  have := a1.unique a2
  subst this
  rw [e1, e2]
  have hr' : ¬ StorageRefused m.os (lettersIn names + 2 * lettersIn (filterWords p.filter)) := by
    rw [hos]; exact fun h => hr (h.mono (by omega))
  rcases @MInv.filtered_ends _ _ m H names R1 hi p hu (listing d1) with ⟨_, _, x⟩ | ⟨_, _, _, f1⟩
  · exact absurd x hr'
  · rcases @MInv.filtered_ends _ _ m H names R2 hi p hu (listing d1) with ⟨_, _, x⟩ | ⟨_, _, _, f2⟩
    · exact absurd x hr'
    · rw [f1, f2]

omit [Runtime] in
/-- C48. For a fixed evaluation order of arguments the matcher after the call is the same too, memory or not. -/
theorem C48_state (R0 R1 R2 : Runtime) (h : @Ran _ _ R0 _ os m H K) (q : WordList) (p : SearchParameters) (hs : Sane m.e q H)
    (hv : R1.valueFirst = R2.valueFirst) : @Matcher.matchQuery _ R1 _ m q p = @Matcher.matchQuery _ R2 _ m q p := by
  obtain ⟨names, hi, hos, hl⟩ := @Ran.start _ _ R0 _ _ _ _ _ h
  obtain ⟨d1, a1, e1⟩ := @MInv.matchQuery_eq _ R1 _ _ m H names p q hi hs
  obtain ⟨d2, a2, e2⟩ := @MInv.matchQuery_eq _ R2 _ _ m H names p q hi hs
  have := a1.unique a2
  subst this
  rw [e1, e2, filtered_runtime R1 R2 hv]

/-! ### C49 -/

/-- C49. Queries with the same set of words have the same outcome. -/
theorem C49_word_set (h : Ran os m H K) (q q' : WordList) (p : SearchParameters) (hs : Sane m.e q H)
    (hq : ∀ w, w ∈ q ↔ w ∈ q') : m.matchQuery q p = m.matchQuery q' p := by
  obtain ⟨names, hi, _⟩ := Ran.start h
  have hs' : Sane m.e q' H := ⟨fun x hx => hs.noNul x ((hq x).2 hx), fun x hx => hs.nonNeg x ((hq x).2 hx),
    fun x hx => hs.moderate x ((hq x).2 hx), hs.assertion⟩
  obtain ⟨d1, a1, e1⟩ := hi.matchQuery_eq (p := p) hs
  obtain ⟨d2, a2, e2⟩ := hi.matchQuery_eq (p := p) hs'
  have := (a1.congr (p' := p) (q' := q') (by intro i j v; unfold QueryHits; simp only [hq])).unique a2
  rw [e1, e2, this]

example : ∀ w, w ∈ [Example.save, Example.as, Example.save] ↔ w ∈ [Example.as, Example.save] := by
  intro w; simp only [List.mem_cons, List.not_mem_nil, or_false]; tauto

/-! ### C50 -/

/-- C50. Without negative weights relevancies are not negative. -/
theorem C50_nonneg (h : Ran os m H K) (q : WordList) (p : SearchParameters) (hs : Sane m.e q H)
    (hu : ∀ w ∈ filterWords p.filter, Usable w) (hw : ∀ f, 0 ≤ IndexWeights.getWeight m.weights f) (m' : Matcher)
    (r : MatchResults) (k : List Result) (e : m.matchQuery q p = (m', .ok r)) (hk : Shows r k) : ∀ x ∈ k, 0 ≤ x.1 := by
  obtain ⟨names, hi, _⟩ := Ran.start h
  obtain ⟨docs, ha, _, rfl⟩ := answer_shows hi hs hu e hk
  rintro ⟨rel, d⟩ hx
  exact answer_nonneg hs.nonNeg hw ha (mem_listing.1 (List.mem_filter.1 hx).1)

omit [Build] [Icu] [Runtime] in
/-- C50. Each contribution is between 0 and the weight of the field, if that is a double. -/
theorem C50_contribution (W : IndexWeights) (H : MatcherHistory) (f w : Word) (v : Int) (hv : 0 ≤ v)
    (hw : 0 ≤ IndexWeights.getWeight W f) (hr : Fp.rnd (IndexWeights.getWeight W f) = IndexWeights.getWeight W f) :
    0 ≤ contribution W H f w v ∧ contribution W H f w v ≤ IndexWeights.getWeight W f :=
  ⟨contribution_nonneg hv hw, contribution_le hv hw hr⟩

/-- C50. Raising weights keeps the documents and does not lower relevancies. -/
theorem C50_monotone (h : Ran os m H K) (q : WordList) (p : SearchParameters) (hs : Sane m.e q H)
    (hu : ∀ w ∈ filterWords p.filter, Usable w) (W : IndexWeights)
    (hw : ∀ f, IndexWeights.getWeight m.weights f ≤ IndexWeights.getWeight W f) (m' m'' : Matcher)
    (r r' : MatchResults) (k k' : List Result) (e : m.matchQuery q p = (m', .ok r)) (hk : Shows r k)
    (e' : { m with weights := W }.matchQuery q p = (m'', .ok r')) (hk' : Shows r' k') :
    (∀ rel d, (rel, d) ∈ k → ∃ rel', (rel', d) ∈ k' ∧ rel ≤ rel') ∧ (∀ d, d ∈ k'.map (·.2) ↔ d ∈ k.map (·.2)) := by
  obtain ⟨names, hi, _⟩ := Ran.start h
  have hi' : MInv { m with weights := W } H names :=
    ⟨hi.store, hi.known, hi.ixs, hi.has, hi.keys, hi.post, hi.docs, hi.sizes, hi.e, hi.stats⟩
  obtain ⟨docs, ha, _, rfl⟩ := answer_shows hi hs hu e hk
  obtain ⟨docs', ha', _, rfl⟩ := answer_shows hi' hs hu e' hk'
  constructor
  · intro rel d hx
    obtain ⟨h1, h2⟩ := List.mem_filter.1 hx
    obtain ⟨rel', h3, h4⟩ := answer_mono hs.nonNeg hw ha ha' (mem_listing.1 h1)
    exact ⟨rel', List.mem_filter.2 ⟨mem_listing.2 h3, h2⟩, h4⟩
  · intro d
    have key : ∀ docs : SMap DocumentID ℚ, d ∈ ((listing docs).filter fun x => decide (Satisfies H p.filter x.2)).map (·.2) ↔
        d ∈ docs.map (·.1) ∧ Satisfies H p.filter d := by
      intro docs
      rw [← mem_listing_docs]
      simp only [List.mem_map, List.mem_filter, decide_eq_true_eq]
      constructor
      · rintro ⟨x, ⟨h1, h2⟩, rfl⟩; exact ⟨⟨x, h1, rfl⟩, h2⟩
      · rintro ⟨⟨x, h1, rfl⟩, h2⟩; exact ⟨x, ⟨h1, h2⟩, rfl⟩
    rw [key, key, hi.answer_mem hs.nonNeg ha, hi'.answer_mem hs.nonNeg ha']

/-- Raising the weight of one field raises no weight less. -/
example (m : Matcher) (f : Word) (v : ℚ) (hv : IndexWeights.getWeight m.weights f ≤ v) (g : Word) :
    IndexWeights.getWeight m.weights g ≤ IndexWeights.getWeight (IndexWeights.setWeight m.weights f v) g := by
  unfold IndexWeights.setWeight
  unfold IndexWeights.getWeight at hv ⊢
  rw [SMap.find_set strict_wordLt]
  by_cases hg : g = f
  · subst hg; rw [if_pos rfl]; exact hv
  · rw [if_neg (Ne.symm hg)]

/-! ### C51 -/

omit [Icu] [Runtime] [Fp] in
/-- C51. Indexing two corpora one after the other is indexing their concatenation. -/
theorem C51_append (m : Matcher) (c c' : Corpus) :
    m.index (c ++ c') = match m.index c with
      | (m', some f) => (m', some f)
      | (m', none) => m'.index c' := by
  induction c generalizing m with
  | nil => rfl
  | cons d c ih =>
    rw [List.cons_append, Matcher.index, Matcher.index]
    rcases Matcher.indexFields d m d.getFieldNames with ⟨m1, _ | f⟩
    · exact ih m1
    · rfl

/-- C51. A document found before indexing more is found afterwards, also with a filter. -/
theorem C51_stays (h : Ran os m H K) (c : Corpus) (hc : CorpusOk c) (m1 : Matcher) (o : Option Fault) (hi : m.index c = (m1, o))
    (ho : ∀ f, o = some f → Fault.Benign f) (q : WordList) (p : SearchParameters)
    (hs : Sane m.e q (H ++ beforeEmpty (corpusTexts c))) (hu : ∀ w ∈ filterWords p.filter, Usable w)
    (m2 m3 : Matcher) (r r' : MatchResults) (k k' : List Result) (e : m.matchQuery q p = (m2, .ok r)) (hk : Shows r k)
    (e' : m1.matchQuery q p = (m3, .ok r')) (hk' : Shows r' k') : ∀ d ∈ k.map (·.2), d ∈ k'.map (·.2) := by
  obtain ⟨names, hm, _⟩ := Ran.start h
  have hs0 : Sane m.e q H := by
    refine ⟨hs.noNul, hs.nonNeg, fun x hx => ?_, hs.assertion⟩
    obtain ⟨B, L, b1, b2, b3⟩ := hs.moderate x hx
    refine ⟨B, L, b1, fun y hy => b2 y ?_, b3⟩
    obtain ⟨w, hw, rfl⟩ := List.mem_map.1 hy
    exact List.mem_map.2 ⟨w, by simp only [MatcherHistory.words, List.flatMap_append, List.mem_append] at hw ⊢; exact Or.inl hw, rfl⟩
  rcases hm.index c m H names hc with ⟨_, e2, _⟩ | ⟨m1', names', e2, h2, _, _, _, _, e3, _⟩
  · rw [hi] at e2; injection e2 with _ e2
    rcases ho _ e2 with h | h <;> cases h
  · rw [hi] at e2; injection e2 with e2 _
    subst e2
    obtain ⟨docs, ha, _, rfl⟩ := answer_shows hm hs0 hu e hk
    obtain ⟨docs', ha', _, rfl⟩ := answer_shows h2 (by rw [e3]; exact hs) hu e' hk'
    intro d hd
    obtain ⟨x, hx, rfl⟩ := List.mem_map.1 hd
    obtain ⟨h4, h5⟩ := List.mem_filter.1 hx
    have h6 : x.2 ∈ docs.map (·.1) := List.mem_map.2 ⟨(x.2, x.1), mem_listing.1 h4, rfl⟩
    rw [hm.answer_mem hs0.nonNeg ha] at h6
    obtain ⟨f, w, y, hp, hf, hy, hseen⟩ := h6
    have h7 : x.2 ∈ docs'.map (·.1) := by
      rw [h2.answer_mem (by rw [e3]; exact hs.nonNeg) ha']
      exact ⟨f, w, y, (MatcherHistory.posting_append _).2 (Or.inl hp), hf, hy, by rw [e3]; exact hseen⟩
    rw [← mem_listing_docs] at h7
    obtain ⟨z, hz, hzx⟩ := List.mem_map.1 h7
    refine List.mem_map.2 ⟨z, List.mem_filter.2 ⟨hz, ?_⟩, hzx⟩
    rw [hzx, decide_eq_true_eq]
    obtain ⟨t, ht, hall⟩ := of_decide_eq_true h5
    exact ⟨t, ht, fun a ha => (MatcherHistory.posting_append _).2 (Or.inl (hall a ha))⟩

/-! ### C53 -/

/-- C53. A search returns normally, in both build types, if the costs are moderate and not negative, the filter has no
empty word and memory is not refused. -/
theorem C53_returns (h : Ran os m H K) (q : WordList) (p : SearchParameters) (hs : Sane m.e q H)
    (hu : ∀ w ∈ filterWords p.filter, GoodWord w)
    (hr : ¬ StorageRefused os (lettersIn H.mentions + lettersIn K + 2 * lettersIn (filterWords p.filter))) :
    ∃ m' r, m.matchQuery q p = (m', .ok r) := by
  obtain ⟨names, hi, hos, hl⟩ := Ran.start h
  obtain ⟨docs, _, e⟩ := hi.matchQuery_eq (p := p) hs
  rcases hi.filtered_ends (fun w hw => Or.inr (hu w hw)) (listing docs) with ⟨_, _, x⟩ | ⟨s', _, _, e2⟩
  · rw [hos] at x; exact absurd (x.mono (by omega)) hr
  · rw [e, e2, kept_eq (fun hx => (hu _ hx).nonempty rfl)]
    exact ⟨_, _, rfl⟩

/-- C53. Without a filter memory does not matter. -/
theorem C53_unfiltered (h : Ran os m H K) (q : WordList) (p : SearchParameters) (hs : Sane m.e q H) (hf : Unfiltered p) :
    ∃ r, m.matchQuery q p = (m, .ok r) := by
  obtain ⟨names, hi, hos, hl⟩ := Ran.start h
  obtain ⟨docs, _, e⟩ := hi.matchQuery_eq (p := p) hs
  rw [filtered_trivial _ hf] at e
  exact ⟨_, e⟩

/-- C53. Whatever the costs and the query, a failure is not due to the filter unless it contains an empty word or memory
is refused. -/
theorem C53_filter_only (h : Ran os m H K) (q : WordList) (p : SearchParameters) (hu : ∀ w ∈ filterWords p.filter, GoodWord w)
    (hr : ¬ StorageRefused os (lettersIn H.mentions + lettersIn K + 2 * lettersIn (filterWords p.filter))) (m' : Matcher) (f : Fault)
    (e : m.matchQuery q p = (m', .error f)) : m.matchQuery q { p with filter := ResultFilter.new } = (m, .error f) := by
  rcases C45_filter h q p (fun w hw => Or.inr (hu w hw)) with ⟨f', e1, e2⟩ | ⟨r0, k0, _, _, ⟨_, _, x⟩ | ⟨_, x, _⟩ | ⟨_, _, _, e2, _⟩⟩
  · rw [e] at e2; injection e2 with _ e2; injection e2 with e2; subst e2; exact e1
  · exact absurd x hr
  · exact absurd x (C45_no_throw p (fun hx => (hu _ hx).nonempty rfl) k0)
  · rw [e] at e2; cases e2

omit [Icu] [Runtime] in
/-- C53. Why costs must not be negative: a match with an error of -100 divides by zero, and its relevancy is not finite. -/
theorem C53_negative (m : Matcher) (word field : WordID) (ix : LevIndex) (h : HMap.find m.indexes field = some ix) :
    m.calculateRelevancy word field (-100) = .error .nonFinite := by
  have h0 : Fp.rnd (0 : ℚ) = 0 := by simpa using Fp.rnd_exact 0 0 (by decide) (by decide)
  have h1 : fadd 100 (ofInt (-100)) = 0 := by
    have : ofInt (-100) = (-100 : ℚ) := by simpa [ofInt] using Fp.rnd_exact (-100) 0 (by decide) (by decide)
    rw [this, fadd]
    norm_num [h0]
  rw [Matcher.calculateRelevancy, h]
  simp only [h1, fdiv, if_true, error_bind]

example : ∃ (m : Matcher) (field : WordID) (ix : LevIndex), Ran Example.os m Example.texts [] ∧ HMap.find m.indexes field = some ix := by
  obtain ⟨m, h, _⟩ := Example.ran
  obtain ⟨names, hi, _⟩ := Ran.start h
  have hk : Example.title ∈ names := hi.known _ (by decide)
  have hn := hi.has (names.idxOf Example.title) Example.title (List.getElem?_idxOf hk) (by decide)
  obtain ⟨ix, hx⟩ := Option.ne_none_iff_exists'.1 hn
  exact ⟨m, _, ix, h, hx⟩

/-! ### C57 -/

omit [Icu] in
/-- C57. A search for nothing finds nothing and changes nothing. -/
theorem C57_empty (m : Matcher) (p : SearchParameters) :
    ∃ r, m.matchQuery [] p = (m, .ok r) ∧ Shows r [] := by
  refine ⟨_, rfl, rfl, ?_, ?_⟩ <;> (intro i x hx; simp at hx)

/-! ### C58 -/

omit [Build] [Icu] [Runtime] [Fp] in
/-- C58. `addNonsearchingField` excludes that field and no other. -/
theorem C58_excludes (p : SearchParameters) (f g : Word) :
    (p.addNonsearchingField f).isNonsearchingField g = (decide (g = f) || p.isNonsearchingField g) := by
  unfold SearchParameters.isNonsearchingField SearchParameters.addNonsearchingField
  simp only
  rw [SMap.find_set strict_wordLt]
  by_cases hg : g = f
  · simp [hg]
  · simp [hg, Ne.symm hg]

/-- C58. Excluding a field: a document is listed exactly when it has a close word in another field that is searched and
satisfies the filter, which may name the excluded field. -/
theorem C58_documents (h : Ran os m H K) (q : WordList) (p : SearchParameters) (g : Word) (hs : Sane m.e q H) (he : Exact m.e q)
    (hu : ∀ w ∈ filterWords p.filter, Usable w) (m' : Matcher) (r : MatchResults) (k : List Result)
    (e : m.matchQuery q (p.addNonsearchingField g) = (m', .ok r)) (hk : Shows r k) (d : DocumentID) :
    d ∈ k.map (·.2) ↔ Satisfies H p.filter d ∧ ∃ f w x v, f ≠ g ∧ p.isNonsearchingField f = false ∧ H.Posting d f w ∧ x ∈ q ∧
      IsEditCost (configured m.e x.length) x w v ∧ v ≤ limit p x := by
  obtain ⟨names, hi, _⟩ := Ran.start h
  obtain ⟨docs, ha, _, rfl⟩ := answer_shows (p := p.addNonsearchingField g) hi hs hu e hk
  have hm := hi.answer_mem hs.nonNeg ha d
  have hlim : ∀ x, limit (p.addNonsearchingField g) x = limit p x := fun x => rfl
  have h1 : d ∈ ((listing docs).filter fun x => decide (Satisfies H p.filter x.2)).map (·.2) ↔
        d ∈ docs.map (·.1) ∧ Satisfies H p.filter d := by
    rw [← mem_listing_docs]
    simp only [List.mem_map, List.mem_filter, decide_eq_true_eq]
    constructor
    · rintro ⟨x, ⟨h1, h2⟩, rfl⟩; exact ⟨⟨x, h1, rfl⟩, h2⟩
    · rintro ⟨⟨x, h1, rfl⟩, h2⟩; exact ⟨x, ⟨h1, h2⟩, rfl⟩
  refine (h1.trans (and_comm.trans (and_congr_right fun _ => hm.trans ?_)))
  simp only [C58_excludes, Bool.or_eq_false_iff, decide_eq_false_iff_not, hlim]
  constructor
  · rintro ⟨f, w, x, hp, hx, hq, hseen⟩
    rw [seen_iff hs.nonNeg he hq] at hseen
    exact ⟨f, w, x, _, hx.1, hx.2, hp, hq, isEditCost_iff.2 rfl, hseen⟩
  · rintro ⟨f, w, x, v, hx1, hx2, hp, hq, hv, hl⟩
    rw [isEditCost_iff] at hv
    subst hv
    exact ⟨f, w, x, hp, ⟨hx1, hx2⟩, hq, (seen_iff hs.nonNeg he hq _ _).2 hl⟩

/-- C58. Its relevancy is the sum of the contributions of the other fields. -/
theorem C58_relevancy (h : Ran os m H K) (q : WordList) (p : SearchParameters) (g : Word) (hs : Sane m.e q H) (he : Exact m.e q)
    (hu : ∀ w ∈ filterWords p.filter, Usable w) (m' : Matcher) (r : MatchResults) (k : List Result)
    (e : m.matchQuery q (p.addNonsearchingField g) = (m', .ok r)) (hk : Shows r k) (rel : ℚ) (d : DocumentID) (hd : (rel, d) ∈ k) :
    ∃ L : List (Word × Word × Int),
      (∀ f w v, (f, w, v) ∈ L ↔ f ≠ g ∧ p.isNonsearchingField f = false ∧ H.Posting d f w ∧ CloseTo m.e p q w v) ∧
      L.Nodup ∧ rel = sumUp (L.map fun x => contribution m.weights H x.1 x.2.1 x.2.2) := by
  obtain ⟨ident, _, hL⟩ := C47_relevancy h q (p.addNonsearchingField g) hs he hu m' r k e hk
  obtain ⟨L, h1, h2, _, h4⟩ := hL rel d hd
  refine ⟨L, fun f w v => ?_, ?_, h4⟩
  · rw [h1, C58_excludes]
    simp only [Bool.or_eq_false_iff, decide_eq_false_iff_not]
    constructor
    · rintro ⟨a, ⟨b, c⟩, d⟩; exact ⟨b, c, a, ⟨d.near, d.least⟩⟩
    · rintro ⟨b, c, a, d⟩; exact ⟨a, ⟨b, c⟩, ⟨d.near, d.least⟩⟩
  · refine h2.imp ?_
    rintro a b h rfl
    rcases h with h | ⟨_, h⟩ <;> exact absurd h (lt_irrefl _)

/-! ### C59 -/

/-- C59. Dynamic limits find a subset of what fixed limits find. -/
theorem C59_subset (h : Ran os m H K) (q : WordList) (p : SearchParameters) (hs : Sane m.e q H)
    (hu : ∀ w ∈ filterWords p.filter, Usable w) (m' m'' : Matcher) (r r' : MatchResults) (k k' : List Result)
    (e : m.matchQuery q (p.setDynamic true) = (m', .ok r)) (hk : Shows r k)
    (e' : m.matchQuery q (p.setDynamic false) = (m'', .ok r')) (hk' : Shows r' k') : ∀ d ∈ k.map (·.2), d ∈ k'.map (·.2) := by
  obtain ⟨names, hm, _⟩ := Ran.start h
  obtain ⟨docs, ha, _, rfl⟩ := answer_shows (p := p.setDynamic true) hm hs hu e hk
  obtain ⟨docs', ha', _, rfl⟩ := answer_shows (p := p.setDynamic false) hm hs hu e' hk'
  intro d hd
  obtain ⟨x, hx, rfl⟩ := List.mem_map.1 hd
  obtain ⟨h4, h5⟩ := List.mem_filter.1 hx
  have h6 : x.2 ∈ docs.map (·.1) := List.mem_map.2 ⟨(x.2, x.1), mem_listing.1 h4, rfl⟩
  rw [hm.answer_mem hs.nonNeg ha] at h6
  obtain ⟨f, w, y, hp, hf, hy, hseen⟩ := h6
  have h7 : x.2 ∈ docs'.map (·.1) := by
    rw [hm.answer_mem hs.nonNeg ha']
    refine ⟨f, w, y, hp, hf, hy, hseen.mono ?_⟩
    simp only [limit, SearchParameters.isDynamic, SearchParameters.setDynamic]
    split <;> simp
  rw [← mem_listing_docs] at h7
  obtain ⟨z, hz, hzx⟩ := List.mem_map.1 h7
  refine List.mem_map.2 ⟨z, List.mem_filter.2 ⟨hz, ?_⟩, hzx⟩
  rw [hzx]; exact h5

/-- C59. For query words of at least two letters the outcomes are equal. -/
theorem C59_equal (h : Ran os m H K) (q : WordList) (p : SearchParameters) (hs : Sane m.e q H) (h2 : ∀ x ∈ q, 2 ≤ x.length) :
    m.matchQuery q (p.setDynamic true) = m.matchQuery q (p.setDynamic false) := by
  obtain ⟨names, hi, _⟩ := Ran.start h
  obtain ⟨d1, a1, e1⟩ := hi.matchQuery_eq (p := p.setDynamic true) hs
  obtain ⟨d2, a2, e2⟩ := hi.matchQuery_eq (p := p.setDynamic false) hs
  have hl : ∀ x ∈ q, limit (p.setDynamic true) x = limit (p.setDynamic false) x := by
    intro x hx
    have := h2 x hx
    simp only [limit, SearchParameters.isDynamic, SearchParameters.setDynamic]
    rw [if_neg (by omega)]; simp
  have := (a1.congr (p' := p.setDynamic false) (q' := q) (by
    intro i j v
    unfold QueryHits Hits
    constructor
    · rintro ⟨x, hx, hh⟩; rw [hl x hx] at hh; exact ⟨x, hx, hh⟩
    · rintro ⟨x, hx, hh⟩; rw [← hl x hx] at hh; exact ⟨x, hx, hh⟩)).unique a2
  rw [e1, e2, this]
  rfl

end
end Columbus.Props
