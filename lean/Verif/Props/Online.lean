import Verif.Props.Matcher
import Verif.Proofs.MatcherLost
/-
C52, C54-C56, C60: online matching, what searches change, interrupted indexing.
-/

namespace Columbus.Props
open Columbus Spec ErrorValues

section
variable [Build] [Icu] [Runtime] [Fp] {os : Nat → Bool} {m : Matcher} {H : MatcherHistory} {K : List Word}

/-- The example: what is known there. -/
theorem example_state : ∃ (m : Matcher) (names : List Word), Ran Example.os m Example.texts [] ∧ m.e = ErrorValues.new ∧
    m.weights = [] ∧ MInv m Example.texts names ∧ ∀ v ∈ names, v ∈ Example.texts.mentions := by
  obtain ⟨m, h, he, hw⟩ := Example.ran
  obtain ⟨names, hi, _, hk⟩ := Columbus.Ran.inv h
  exact ⟨m, names, h, he, hw, hi, fun v hv => (hk v hv).elim (fun h => h) (by simp)⟩

/-! ### C52 -/

/-- A search with a filter makes the field name of its first pair known, if some result is examined. -/
theorem search_learns {names : List Word} (h : MInv m H names) {q : WordList} (hs : Sane m.e q H) {p : SearchParameters}
    {f w : Word} (hp : p.filter.termList = [[(f, w)]]) (hf : GoodWord f) (hw : GoodWord w) {docs : SMap DocumentID ℚ}
    (ha : IsAnswer m H names p q docs) (hd : docs ≠ [])
    (hr : ¬ StorageRefused m.os (lettersIn names + 4 * (f.length + w.length))) :
    ∃ s' names' r, m.matchQuery q p = ({ m with store := s' }, .ok r) ∧ MInv { m with store := s' } H names' ∧ f ∈ names' := by
  have hws : filterWords p.filter = [f, w] := by simp [filterWords, hp]
  have hu : ∀ v ∈ filterWords p.filter, Usable v := by
    rw [hws]; simp only [List.mem_cons, List.not_mem_nil, or_false, forall_eq_or_imp, forall_eq]
    exact ⟨Or.inr hf, Or.inr hw⟩
  have hlw : lettersIn (filterWords p.filter) = f.length + w.length := by rw [hws]; simp [lettersIn]
  obtain ⟨docs', ha', e⟩ := h.matchQuery_eq (p := p) hs
  have := ha.unique ha'
  subst this
  rw [e, filtered]
  cases hl : listing docs with
  | nil =>
    exfalso
    apply hd
    rw [List.eq_nil_iff_forall_not_mem]
    rintro ⟨d, r⟩ hx
    have : (r, d) ∈ listing docs := mem_listing.2 hx
    rw [hl] at this; cases this
  | cons x xs =>
    have hg0 : Grown m H names (filterWords p.filter) m.store names := ⟨h, List.prefix_refl _, fun v hv => Or.inl hv⟩
    have hc := hg0.getIDs_cases (value := w) (field := f) (by rw [hws]; simp) (by rw [hws]; simp) (Or.inr hw) (Or.inr hf)
    rw [hp, keepLoop, orLoop, subLoop]
    rcases hg : Matcher.getIDs m.store w f with ⟨s1, r1⟩
    rw [hg] at hc; dsimp only at hc
    rcases hc with ⟨_, x⟩ | ⟨n1, h1, ⟨he, _⟩ | ⟨_, i, j, rfl, hj, hi⟩⟩
    · exact absurd (x.mono (by omega)) hr
    · rcases he with he | he
      · exact absurd he hf.nonempty
      · exact absurd he hw.nonempty
    · have hmem : f ∈ n1 := List.mem_of_getElem? hi
      have hl1 : lettersIn n1 ≤ lettersIn names + lettersIn (filterWords p.filter) := h1.letters
      have hcases : (∃ s1' r, keepLoop m.reverseIndex [[(f, w)]] s1 xs = (s1', .ok r) ∧ ∃ n2, MInv { m with store := s1' } H n2 ∧ f ∈ n2) := by
        have hk := keepLoop_ends (m := { m with store := s1 }) (H := H) (names := n1) (f := p.filter) hu xs
          (s := s1) (names' := n1) ⟨h1.inv, List.prefix_refl _, fun v hv => Or.inl hv⟩
        unfold Ends at hk
        dsimp only at hk
        rw [hp] at hk
        rcases hg3 : keepLoop m.reverseIndex [[(f, w)]] s1 xs with ⟨s3, r3⟩
        rw [hg3] at hk; dsimp only at hk
        rcases hk with ⟨_, x⟩ | ⟨n3, h3, rfl⟩
        · exact absurd (x.mono (by omega)) hr
        · rw [kept_eq (by rw [hws]; simp [Ne.symm hf.nonempty, Ne.symm hw.nonempty])]
          exact ⟨_, _, rfl, n3, h3.inv, h3.pre.subset hmem⟩
      obtain ⟨s3, r3, e3, n2, h2, hm2⟩ := hcases
      by_cases hterm : ReverseIndex.documentHasTerm m.reverseIndex j i x.2 = true
      · simp only [hterm, if_true, subLoop, e3]
        exact ⟨s3, n2, _, rfl, h2, hm2⟩
      · simp only [hterm, Bool.false_eq_true, if_false, orLoop, e3]
        exact ⟨s3, n2, _, rfl, h2, hm2⟩

/-- C52 is false: `onlineMatch` for an unknown field throws; after a search with a filter that names this field it does
not. -/
theorem C52_false : ¬ ∀ (os : Nat → Bool) (m : Matcher) (H : MatcherHistory) (K : List Word) (q : WordList) (p : SearchParameters)
    (m' : Matcher) (r : MatchResults) (q' : WordList) (f : Word), Ran os m H K → (∀ w ∈ filterWords p.filter, GoodWord w) →
    m.matchQuery q p = (m', .ok r) → (∀ w ∈ q', GoodWord w) → GoodWord f → (m'.onlineMatch q' f).2 = (m.onlineMatch q' f).2 := by
  intro hall
  obtain ⟨m, names, hr, he, _, hi, hk⟩ := example_state
  have hs : Sane m.e [Example.save] Example.texts := by rw [he]; exact Example.sane_save
  have hex : Exact m.e [Example.save] := by rw [he]; exact exact_default _
  let p : SearchParameters := ⟨true, ⟨[[(Example.other, Example.another)]]⟩, []⟩
  have hws : filterWords p.filter = [Example.other, Example.another] := rfl
  obtain ⟨docs, ha, _⟩ := hi.matchQuery_eq (p := p) hs
  have hne : docs ≠ [] := by
    rintro rfl
    have : (1 : DocumentID) ∈ ([] : SMap DocumentID ℚ).map (·.1) := by
      rw [hi.answer_mem hs.nonNeg ha]
      refine ⟨Example.title, Example.save, Example.save, by decide, rfl, by simp, ?_⟩
      rw [he]
      refine seen_self (he ▸ hs.nonNeg _ (by simp)) ?_ (by decide)
      intro a _
      rw [new_is_default]
      exact default_sub a a |>.trans (by simp)
    cases this
  have hos : m.os = Example.os := (Columbus.Ran.inv hr).choose_spec.2.1
  have hle : lettersIn names ≤ lettersIn Example.texts.mentions := lettersIn_le hi.store.nodup hk
  obtain ⟨s', names', r, e, hi', hm⟩ := search_learns hi hs (p := p) rfl Example.good_other Example.good_another ha hne (by
    rw [hos]; apply Example.granted
    have : lettersIn Example.texts.mentions < 100 := by decide
    have h1 : Example.other.length = 1 := rfl
    have h2 : Example.another.length = 1 := rfl
    omega)
  have := hall _ _ _ _ [Example.save] p _ r [Example.save] Example.other hr
    (by rw [hws]; simp [Example.good_other, Example.good_another]) e (by simp [Example.good_save]) Example.good_other
  have h1 : Example.other ∉ names := fun h => absurd (hk _ h) (by decide)
  rw [hi.online_unknown (Or.inr Example.good_other) h1] at this
  rcases hi'.online_known hm (q := [Example.save]) (fun w hw => by rw [List.mem_singleton] at hw; subst hw; exact Example.good_save.noNul) with ⟨x, e1, e2⟩ | ⟨_, _, _, _, e2, _⟩
  · obtain ⟨_, _, e3⟩ := hi'.matchQuery_eq (p := SearchParameters.new) (q := [Example.save]) hs
    rw [filtered_trivial _ rfl] at e3
    rw [Matcher.matchDefault, e3] at e1
    cases e1
  · rw [e2] at this
    cases this

/-- What a store grown by words of a filter changes: nothing in `match`, and nothing in `onlineMatch` for the fields known
before or not among these words. -/
theorem grown_answers {names names' ws : List Word} {s' : WordStore} (hi : MInv m H names) (hos : m.os = os)
    (hl : lettersIn names ≤ lettersIn H.mentions + lettersIn K) (hg : Grown m H names ws s' names') :
    (∀ q' p', Sane m.e q' H → (∀ w ∈ filterWords p'.filter, Usable w) →
      ¬ StorageRefused os (lettersIn H.mentions + lettersIn K + lettersIn ws + 2 * lettersIn (filterWords p'.filter)) →
      (({ m with store := s' } : Matcher).matchQuery q' p').2 = (m.matchQuery q' p').2) ∧
    (∀ q' f, Sane m.e q' H → (∀ w ∈ q', Usable w) → Usable f →
      f ∉ ws ∨ f ∈ H.mentions → (({ m with store := s' } : Matcher).onlineMatch q' f).2 = (m.onlineMatch q' f).2) := by
  have hgl := hg.letters
  refine ⟨?_, ?_⟩
  · intro q' p' hs hu' hr
    obtain ⟨d1, a1, e1⟩ := hi.matchQuery_eq (p := p') hs
    obtain ⟨d2, a2, e2⟩ := hg.inv.matchQuery_eq (p := p') (q := q') hs
    have := (hi.answer_grow hg a1).unique a2
    subst this
    rw [e1, e2]
    rcases hi.filtered_ends hu' (listing d1) with ⟨_, _, x⟩ | ⟨_, _, _, f1⟩
    · rw [hos] at x; exact absurd (x.mono (by omega)) hr
    · rcases hg.inv.filtered_ends hu' (listing d1) with ⟨_, _, x⟩ | ⟨_, _, _, f2⟩
      · have x' : StorageRefused os _ := hos ▸ x
        exact absurd (x'.mono (by omega)) hr
      · rw [f1, f2]
  · intro q' f hs hq hf hor
    have hiff : f ∈ names' ↔ f ∈ names := by
      refine ⟨fun hx => ?_, fun hx => hg.pre.subset hx⟩
      rcases hor with h1 | h1
      · exact (hg.sub f hx).elim (fun h => h) fun h => absurd h h1
      · exact hi.known f h1
    by_cases hm : f ∈ names
    · have hn : ∀ w ∈ q', ∀ l ∈ w, l ≠ 0#16 := fun w hw => usable_noNul (hq w hw)
      obtain ⟨d1, a1, e1⟩ := hi.matchQuery_eq (p := SearchParameters.new) hs
      obtain ⟨d2, a2, e2⟩ := hg.inv.matchQuery_eq (p := SearchParameters.new) (q := q') hs
      have := (hi.answer_grow hg a1).unique a2
      subst this
      rw [filtered_trivial _ rfl] at e1 e2
      rcases hi.online_known hm hn with ⟨x, x1, _⟩ | ⟨c1, acc1, s1, x1, y1, z1⟩
      · rw [Matcher.matchDefault, e1] at x1; cases x1
      rcases hg.inv.online_known (hiff.2 hm) hn with ⟨x, x2, _⟩ | ⟨c2, acc2, s2, x2, y2, z2⟩
      · rw [Matcher.matchDefault, e2] at x2; cases x2
      rw [y1, y2]
      have hc : listing c1 = listing c2 := by
        rw [Matcher.matchDefault, e1] at x1
        rw [Matcher.matchDefault, e2] at x2
        injection x1 with _ x1; injection x1 with x1
        injection x2 with _ x2; injection x2 with x2
        have x3 := congrArg MatchResults.results (x1.symm.trans x2)
        rwa [copied_results, copied_results] at x3
      rw [hc] at z1
      have : acc1 = acc2 := by
        apply SMap.eq_of_find z1.sorted z2.sorted
        intro d
        by_cases hd : d ∈ (listing c2).map (·.2)
        · obtain ⟨⟨rr, d'⟩, hx, rfl⟩ := List.mem_map.1 hd
          rw [z1.matched _ _ hx, z2.matched _ _ hx]
        · rw [z1.other _ hd, z2.other _ hd]
      rw [this]
    · rw [hi.online_unknown hf hm, hg.inv.online_unknown hf (fun hx => hm (hiff.1 hx))]

/-- C52, what holds: `onlineMatch` changes nothing; after `match`, with whatever result but a refusal of memory, `match`
has the same result as before for every query and filter, and so has `onlineMatch` for every field that is known from
the index or not mentioned by the filter. Missing: fields that the filter mentions but no document (C52_false); memory
refusals. -/
theorem C52_partial (h : Ran os m H K) :
    (∀ q f, (∀ w ∈ q, Usable w) → Usable f → (m.onlineMatch q f).1 = m) ∧
    ∀ q p m' r, (∀ w ∈ filterWords p.filter, Usable w) → m.matchQuery q p = (m', r) → r ≠ .error .runtimeError →
      (∀ q' p', Sane m.e q' H → (∀ w ∈ filterWords p'.filter, Usable w) →
        ¬ StorageRefused os (lettersIn H.mentions + lettersIn K + lettersIn (filterWords p.filter) + 2 * lettersIn (filterWords p'.filter)) →
        (m'.matchQuery q' p').2 = (m.matchQuery q' p').2) ∧
      (∀ q' f, Sane m.e q' H → (∀ w ∈ q', Usable w) → Usable f →
        f ∉ filterWords p.filter ∨ f ∈ H.mentions → (m'.onlineMatch q' f).2 = (m.onlineMatch q' f).2) := by
  obtain ⟨names, hi, hos, hk⟩ := Columbus.Ran.inv h
  have hl := names_letters hi.store hk
  refine ⟨?_, ?_⟩
  · intro q f hq hf
    by_cases hm : f ∈ names
    · rcases hi.online_known hm (q := q) (fun w hw => usable_noNul (hq w hw)) with ⟨x, _, e2⟩ | ⟨_, _, _, _, e2, _⟩ <;> rw [e2]
    · rw [hi.online_unknown hf hm]
  · intro q p m' r hu e hne
    obtain ⟨m2, r2, e2, ⟨rfl, _⟩ | ⟨s', names', rfl, hg⟩⟩ := hi.matchQuery_any q hu
    · rw [e] at e2; injection e2 with _ e2; exact absurd e2 hne
    rw [e] at e2; injection e2 with e2 _; subst e2
    exact grown_answers hi hos hl hg

/-! ### C54 -/

/-- C54 is false: "as" is a word of the example but not a field, and `onlineMatch` accepts it. -/
theorem C54_false : ¬ ∀ (os : Nat → Bool) (m : Matcher) (H : MatcherHistory) (K : List Word) (q : WordList) (f : Word),
    Ran os m H K → Sane m.e q H → (∀ w ∈ q, GoodWord w) → GoodWord f →
    ((m.onlineMatch q f).2 = .error .invalidArgument ↔ ∀ x ∈ H, x.field ≠ f) := by
  intro hall
  obtain ⟨m, names, hr, he, _, hi, hk⟩ := example_state
  have hs : Sane m.e [Example.save] Example.texts := by rw [he]; exact Example.sane_save
  have := (hall _ _ _ _ [Example.save] Example.as hr hs (by simp [Example.good_save]) Example.good_as).2 (by decide)
  rcases hi.online_known (f := Example.as) (hi.known _ (by decide)) (q := [Example.save]) (fun w hw => by rw [List.mem_singleton] at hw; subst hw; exact Example.good_save.noNul) with
    ⟨x, e1, e2⟩ | ⟨_, _, _, _, e2, _⟩
  · obtain ⟨_, _, e3⟩ := hi.matchQuery_eq (p := SearchParameters.new) (q := [Example.save]) hs
    rw [filtered_trivial _ rfl] at e3
    rw [Matcher.matchDefault, e3] at e1
    cases e1
  · rw [e2] at this
    cases this

/-- C54, what holds: a name that was neither indexed, as field or word, nor used in a filter is rejected and nothing
changes; the name of an indexed field is accepted. Missing: names of words or filters, which are accepted (C54_false,
C52_false). -/
theorem C54_partial (h : Ran os m H K) (q : WordList) (hq : ∀ w ∈ q, Usable w) (f : Word) (hf : Usable f) :
    (f ∉ H.mentions → f ∉ K → m.onlineMatch q f = (m, .error .invalidArgument)) ∧
    (Sane m.e q H → (∃ x ∈ H, x.field = f) → ∃ r, m.onlineMatch q f = (m, .ok r)) := by
  obtain ⟨names, hi, _, hk⟩ := Columbus.Ran.inv h
  refine ⟨?_, ?_⟩
  · intro h1 h2
    exact hi.online_unknown hf (fun hx => (hk f hx).elim h1 h2) q
  · rintro hs ⟨x, hx, rfl⟩
    rcases hi.online_known (hi.known _ (MatcherHistory.mentions_field hx)) (q := q) (fun w hw => usable_noNul (hq w hw)) with
      ⟨x, e1, e2⟩ | ⟨_, _, _, _, e2, _⟩
    · obtain ⟨_, _, e3⟩ := hi.matchQuery_eq (p := SearchParameters.new) (q := q) hs
      rw [filtered_trivial _ rfl] at e3
      rw [Matcher.matchDefault, e3] at e1
      cases e1
    · exact ⟨_, e2⟩

example : Example.other ∉ Example.texts.mentions ∧ ∃ x ∈ Example.texts, x.field = Example.title := by decide

/-! ### C55 and C56 -/

/-- The results of both kinds of search. -/
theorem online_shows {names : List Word} (h : MInv m H names) {f : Word} (hf : f ∈ names) {q : WordList} (hq : ∀ w ∈ q, Usable w)
    {m1 m2 : Matcher} {r r' : MatchResults} {k k' : List Result} (e : m.matchDefault q = (m1, .ok r)) (hk : Shows r k)
    (e' : m.onlineMatch q f = (m2, .ok r')) (hk' : Shows r' k') : ∃ acc, IsScores H q f k acc ∧ k' = listing acc := by
  rcases h.online_known hf (q := q) (fun w hw => usable_noNul (hq w hw)) with ⟨x, e1, _⟩ | ⟨docs, acc, hs, e1, e2, hsc⟩
  · rw [e] at e1; cases e1
  · rw [e] at e1; injection e1 with _ e1; injection e1 with e1; subst e1
    rw [e'] at e2; injection e2 with _ e2; injection e2 with e2; subst e2
    have h1 := Columbus.Shows.unique hk (shows_copied (listing_rank hs))
    subst h1
    exact ⟨acc, hsc, Columbus.Shows.unique hk' (shows_addAll acc)⟩

/-- C55, what holds: for a known field `onlineMatch` and `match` list the same documents, if no letter of the query costs
something when it is kept. Missing: settings with such costs (C55_false). -/
theorem C55_partial (h : Ran os m H K) (q : WordList) (hq : ∀ w ∈ q, Usable w) (hs : Sane m.e q H)
    (h0 : ∀ w ∈ q, ∀ a ∈ w, m.e.getSubstituteError a a = .ok 0) (f : Word) (hf : ∃ x ∈ H, x.field = f)
    (m1 m2 : Matcher) (r r' : MatchResults) (k k' : List Result) (e : m.matchDefault q = (m1, .ok r)) (hk : Shows r k)
    (e' : m.onlineMatch q f = (m2, .ok r')) (hk' : Shows r' k') : ∀ d, d ∈ k'.map (·.2) ↔ d ∈ k.map (·.2) := by
  obtain ⟨names, hi, _⟩ := Ran.start h
  obtain ⟨x, hx, rfl⟩ := hf
  obtain ⟨acc, hsc, rfl⟩ := online_shows hi (hi.known _ (MatcherHistory.mentions_field hx)) hq e hk e' hk'
  intro d
  rw [mem_listing_docs]
  have hfind : d ∈ acc.map (·.1) ↔ SMap.find ltNat acc d ≠ none := by
    rw [← not_iff_not, not_not, SMap.find_none_iff strict_ltNat]
  rw [hfind]
  by_cases hd : d ∈ k.map (·.2)
  · obtain ⟨⟨rr, d'⟩, hx, rfl⟩ := List.mem_map.1 hd
    rw [hsc.matched _ _ hx]
    simp only [ne_eq, reduceCtorEq, not_false_eq_true, true_iff]
    exact hd
  · rw [hsc.other d hd]
    have : exacts H q x.field d = 0 := by
      by_contra hne
      apply hd
      have h3 : 0 < exacts H q x.field d := Nat.pos_of_ne_zero hne
      rw [exacts, List.countP_pos_iff] at h3
      obtain ⟨w, hw, hp⟩ := h3
      have hp := of_decide_eq_true hp
      obtain ⟨docs, ha, _, hkk⟩ := answer_shows (p := SearchParameters.new) hi hs (by simp [filterWords, SearchParameters.new, ResultFilter.new, ResultFilter.addNewTerm]) e hk
      have hmem : d ∈ docs.map (·.1) := by
        rw [hi.answer_mem hs.nonNeg ha]
        exact ⟨_, w, w, hp, rfl, hw, seen_self (hs.nonNeg w hw) (h0 w hw) (limit_nonneg _ _)⟩
      rw [← mem_listing_docs] at hmem
      obtain ⟨z, hz, hzd⟩ := List.mem_map.1 hmem
      rw [hkk]
      refine List.mem_map.2 ⟨z, List.mem_filter.2 ⟨hz, ?_⟩, hzd⟩
      rw [decide_eq_true_eq]
      exact ⟨[], by simp [SearchParameters.new, ResultFilter.new, ResultFilter.addNewTerm], by simp⟩
    simp [this, hd]

/-- The hypothesis of C55 on costs holds with the default settings. -/
example (q : WordList) : ∀ w ∈ q, ∀ a ∈ w, ErrorValues.new.getSubstituteError a a = .ok 0 := by
  intro w _ a _
  rw [new_is_default]
  exact default_sub a a |>.trans (by simp)

omit [Runtime] [Fp] in
/-- The settings after `setError("x", "x", 1000)`. -/
theorem dear_self : configured (afterOps [.setError 0x78 0x78 1000]) 1 = { unitCosts with
    sub := fun a b => if a = 0x78#16 ∧ b = 0x78#16 then 1000 else unitCosts.sub a b } := by
  refine congrArg (EditCosts.mk 100 100 100 100 100 100) ?_
  funext a b
  obtain ⟨e, he, hi, _⟩ := new_inv.setError 0x78 0x78 1000
  have : afterOps [.setError 0x78 0x78 1000] = e := by
    show (ofM ErrorValues.new (ErrorValues.new.setError 0x78 0x78 1000)).1 = e
    rw [he]; rfl
  rw [this, hi.cost a b]
  show ErrorValues.cost _ a b = _
  simp only [ErrorValues.cost, tableCost, mapCost, singleCost, groupCost, samePair, unitCosts, groups]
  by_cases h : a = 0x78#16 ∧ b = 0x78#16
  · obtain ⟨rfl, rfl⟩ := h; rfl
  · simp [h]

/-- C55 is false: if keeping the letter x is given a cost then a search for "x" does not find the document with the word
"x", but `onlineMatch` lists it. -/
theorem C55_false : ¬ ∀ (os : Nat → Bool) (m : Matcher) (H : MatcherHistory) (K : List Word) (q : WordList) (f : Word)
    (m1 m2 : Matcher) (r r' : MatchResults) (k k' : List Result), Ran os m H K → (∀ w ∈ q, GoodWord w) → Sane m.e q H →
    (∃ x ∈ H, x.field = f) → m.matchDefault q = (m1, .ok r) → Shows r k → m.onlineMatch q f = (m2, .ok r') → Shows r' k' →
    ∀ d, d ∈ k'.map (·.2) ↔ d ∈ k.map (·.2) := by
  intro hall
  have hcok : CorpusOk [documentOf 1 [(Example.title, [Example.other])]] := by
    intro d hd
    rw [List.mem_singleton] at hd
    subst hd
    refine ⟨_, rfl, ?_⟩
    simp only [List.mem_cons, List.not_mem_nil, or_false, forall_eq]
    exact ⟨Or.inr Example.good_title, Or.inr Example.good_other⟩
  have hct : corpusTexts [documentOf 1 [(Example.title, [Example.other])]] = [⟨1, Example.title, 1, [Example.other]⟩] := by decide
  obtain ⟨m0, _, hr0, he0, _⟩ := Example.ran_corpus hcok (by rw [hct]; decide)
  rw [hct, show beforeEmpty [(⟨1, Example.title, 1, [Example.other]⟩ : Indexed)] = [⟨1, Example.title, 1, [Example.other]⟩] by decide] at hr0
  have hr := Ran.errors (.setError 0x78 0x78 1000) hr0
  generalize hm : ({ m0 with e := ((ErrOp.setError 0x78 0x78 1000).run m0.e).1 } : Matcher) = m at hr
  have he : m.e = afterOps [.setError 0x78 0x78 1000] := by subst hm; dsimp only; rw [he0]; rfl
  have hg : ∀ w ∈ [Example.other], GoodWord w := by simp [Example.good_other]
  have hu : ∀ w ∈ [Example.other], Usable w := fun w hw => Or.inr (hg w hw)
  have hnn : (configured m.e 1).NonNeg := by
    rw [he, dear_self]
    refine ⟨by decide, by decide, by decide, by decide, by decide, by decide, ?_⟩
    intro a b; simp only [unitCosts]; split <;> (try split) <;> decide
  have hs : Sane m.e [Example.other] [⟨1, Example.title, 1, [Example.other]⟩] := by
    refine ⟨?_, ?_, ?_, Or.inr (by rw [he]; rfl)⟩
    · simpa using Example.good_other.noNul
    · simp only [List.mem_singleton, forall_eq]; exact hnn
    · simp only [List.mem_singleton, forall_eq]
      refine ⟨1000, 1, ?_, by decide, by decide⟩
      show (configured m.e 1).Within 1000
      rw [he, dear_self]
      refine ⟨by decide, by decide, by decide, by decide, by decide, by decide, ?_⟩
      intro a b; simp only [unitCosts]; split <;> (try split) <;> decide
  have hfield : ∃ x ∈ [(⟨1, Example.title, 1, [Example.other]⟩ : Indexed)], x.field = Example.title := ⟨_, List.mem_singleton.2 rfl, rfl⟩
  obtain ⟨names, hi, _⟩ := Ran.start hr
  obtain ⟨r', e'⟩ := (C54_partial hr _ hu Example.title (Or.inr Example.good_title)).2 hs hfield
  obtain ⟨docs, ha, e⟩ := hi.matchQuery_eq (p := SearchParameters.new) hs
  have hsorted : SMap.Sorted ltNat docs := by obtain ⟨P, _, hD⟩ := ha; exact hD.sorted
  rw [filtered_trivial _ rfl] at e
  have hshow := shows_copied (listing_rank hsorted)
  rcases hi.online_known (hi.known Example.title (by decide)) (q := [Example.other]) (fun w hw => (hg w hw).noNul) with
    ⟨_, e1, e2⟩ | ⟨docs', acc, hs', e1, e2, hsc⟩
  · rw [e'] at e2; cases e2
  have e3 := e2
  rw [e'] at e2; injection e2 with _ e2; injection e2 with e2; subst e2
  have hnot : (1 : DocumentID) ∉ docs.map (·.1) := by
    rw [hi.answer_mem hs.nonNeg ha]
    rintro ⟨f, w, x, ⟨t, ht, _, _, hw⟩, _, hx, hseen, _⟩
    rw [List.mem_singleton] at hx ht
    subst hx; subst ht
    rw [List.mem_singleton] at hw
    subst hw
    rw [show charged m.e Example.other.length = configured m.e 1 from charged_eq (by rw [he]; rfl), he, dear_self] at hseen
    revert hseen
    simp only [best, Example.other, List.length_cons, List.length_nil, D, unitCosts, limit, List.getD_cons_zero]
    decide
  have hyes := hall _ _ _ _ _ _ _ _ _ _ _ _ hr hg hs hfield e hshow e' (shows_addAll acc) 1
  rw [mem_listing_docs, mem_listing_docs] at hyes
  apply hnot
  rw [← hyes]
  have e4 : m.matchDefault [Example.other] = (m, .ok (copied MatchResults.new (listing docs))) := e
  rw [e1] at e4; injection e4 with _ e4; injection e4 with e4
  have h4 : listing docs' = listing docs := Columbus.Shows.unique (e4 ▸ shows_copied (listing_rank hs')) hshow
  have hfind := hsc.other 1 (by rw [h4, mem_listing_docs]; exact hnot)
  rw [if_neg (by decide)] at hfind
  exact List.mem_map.2 ⟨_, (SMap.find_some_iff strict_ltNat hsc.sorted _ _).1 hfind, rfl⟩

/-- C56, what holds: a document found by `match` gets its relevancy there plus the part for exact words; others are
listed only for exact words and get this part alone (which happens only in the case excluded in C55). Missing: that the
bonus of 100 is given only if text and query have the same words (C56_false). -/
theorem C56_partial (h : Ran os m H K) (q : WordList) (hq : ∀ w ∈ q, Usable w) (f : Word) (hf : ∃ x ∈ H, x.field = f)
    (m1 m2 : Matcher) (r r' : MatchResults) (k k' : List Result) (e : m.matchDefault q = (m1, .ok r)) (hk : Shows r k)
    (e' : m.onlineMatch q f = (m2, .ok r')) (hk' : Shows r' k') :
    (∀ rel d, (rel, d) ∈ k → (fadd (exactPart H q f d) rel, d) ∈ k') ∧
    (∀ s d, (s, d) ∈ k' → (∃ rel, (rel, d) ∈ k ∧ s = fadd (exactPart H q f d) rel) ∨
      (d ∉ k.map (·.2) ∧ exacts H q f d ≠ 0 ∧ s = exactPart H q f d)) ∧
    (k'.map (·.2)).Nodup ∧ k'.Pairwise RankOrder := by
  obtain ⟨names, hi, _⟩ := Ran.start h
  obtain ⟨x, hx, rfl⟩ := hf
  obtain ⟨acc, hsc, rfl⟩ := online_shows hi (hi.known _ (MatcherHistory.mentions_field hx)) hq e hk e' hk'
  refine ⟨?_, ?_, listing_nodup hsc.sorted, listing_rank hsc.sorted⟩
  · intro rel d hd
    exact mem_listing.2 ((SMap.find_some_iff strict_ltNat hsc.sorted _ _).1 (hsc.matched d rel hd))
  · intro s d hd
    have hfd := (SMap.find_some_iff strict_ltNat hsc.sorted d s).2 (mem_listing.1 hd)
    by_cases hm : d ∈ k.map (·.2)
    · obtain ⟨⟨rr, d'⟩, hx, rfl⟩ := List.mem_map.1 hm
      rw [hsc.matched _ _ hx] at hfd
      injection hfd with hfd
      exact Or.inl ⟨rr, hx, hfd.symm⟩
    · rw [hsc.other d hm] at hfd
      split at hfd
      · cases hfd
      · rename_i hne
        injection hfd with hfd
        exact Or.inr ⟨hm, hne, hfd.symm⟩

omit [Build] [Icu] [Runtime] in
/-- C56. A document whose field text equals the query gets the bonus. -/
theorem C56_bonus (H H' : MatcherHistory) (q : WordList) (f : Word) (d : DocumentID) (hq : q ≠ [])
    (hl : ∀ x ∈ H', ¬ (x.doc = d ∧ x.field = f)) :
    exactPart (H ++ [(⟨d, f, q.length, q⟩ : Indexed)] ++ H') q f d = fadd (ofInt (2 * (q.length : Int))) 100 := by
  have hp : ∀ w ∈ q, (H ++ [(⟨d, f, q.length, q⟩ : Indexed)] ++ H').Posting d f w := by
    intro w hw
    exact ⟨⟨d, f, q.length, q⟩, by simp, rfl, rfl, hw⟩
  have hn : exacts (H ++ [(⟨d, f, q.length, q⟩ : Indexed)] ++ H') q f d = q.length := by
    rw [exacts, List.countP_eq_length]
    intro w hw; exact decide_eq_true (hp w hw)
  have hsz : (H ++ [(⟨d, f, q.length, q⟩ : Indexed)] ++ H').size d f = some q.length := by
    unfold MatcherHistory.size
    rw [List.reverse_append, List.find?_append]
    have : H'.reverse.find? (fun x => x.doc == d && x.field == f) = none := by
      rw [List.find?_eq_none]
      intro x hx hc
      simp only [Bool.and_eq_true, beq_iff_eq] at hc
      exact hl x (List.mem_reverse.1 hx) hc
    rw [this]
    simp
  have h0 : q.length ≠ 0 := fun h => hq (List.length_eq_zero_iff.1 h)
  rw [exactPart, hn, hsz, if_neg h0, if_pos ⟨rfl, rfl⟩]

omit [Build] [Icu] [Runtime] in
/-- C56. Unless every query word is in the field and the numbers of words agree there is no bonus: the part is twice the
number of exact words. -/
theorem C56_no_bonus (H : MatcherHistory) (q : WordList) (f : Word) (d : DocumentID)
    (h : (∃ w ∈ q, ¬ H.Posting d f w) ∨ H.size d f ≠ some q.length) :
    exactPart H q f d = ofInt (2 * (exacts H q f d : Int)) := by
  rw [exactPart]
  split
  · rename_i h0; rw [h0]
    have : ofInt (2 * ((0 : Nat) : Int)) = 0 := by
      simp only [Nat.cast_zero, mul_zero, ofInt]; exact_mod_cast rnd_zero
    rw [this]
  · rw [if_neg]
    rintro ⟨h1, h2⟩
    rcases h with ⟨w, hw, hp⟩ | h
    · rw [exacts, List.countP_eq_length] at h1
      exact hp (of_decide_eq_true (h1 w hw))
    · rw [h1] at h2; exact h h2

omit [Fp] in
/-- C56 is false: the query "save save" finds two exact words in the title "save as" of document 1, which has two words,
so the bonus is given although the title has a word that the query has not. -/
theorem C56_false : letI := Example.fp
    ¬ ∀ (os : Nat → Bool) (m : Matcher) (H : MatcherHistory) (K : List Word) (q : WordList) (f : Word) (m1 m2 : Matcher)
      (r r' : MatchResults) (k k' : List Result) (d : DocumentID) (rel s : ℚ) (t : Indexed), Ran os m H K → (∀ w ∈ q, GoodWord w) →
      (∃ x ∈ H, x.field = f) → m.matchDefault q = (m1, .ok r) → Shows r k → m.onlineMatch q f = (m2, .ok r') → Shows r' k' →
      (rel, d) ∈ k → (s, d) ∈ k' → (H.filter fun x => x.doc == d && x.field == f) = [t] → (∃ w ∈ t.words, w ∉ q) →
      s = 2 * exacts H q f d + rel := by
  let _ := Example.fp
  intro hall
  obtain ⟨m, names, hr, he, _, hi, hk⟩ := example_state
  have hg : ∀ w ∈ [Example.save, Example.save], GoodWord w := by simp [Example.good_save]
  have hu : ∀ w ∈ [Example.save, Example.save], Usable w := fun w hw => Or.inr (hg w hw)
  have hs : Sane m.e [Example.save, Example.save] Example.texts := by rw [he]; exact Example.sane hg (by decide)
  have hfield : ∃ x ∈ Example.texts, x.field = Example.title := by decide
  obtain ⟨r', e'⟩ := (C54_partial hr _ hu Example.title (Or.inr Example.good_title)).2 hs hfield
  obtain ⟨docs, ha, e⟩ := hi.matchQuery_eq (p := SearchParameters.new) hs
  have hsorted : SMap.Sorted ltNat docs := by obtain ⟨P, _, hD⟩ := ha; exact hD.sorted
  rw [filtered_trivial _ rfl] at e
  have hshow := shows_copied (listing_rank hsorted)
  rcases hi.online_known (hi.known Example.title (by decide)) (q := [Example.save, Example.save]) (fun w hw => (hg w hw).noNul) with
    ⟨_, e1, e2⟩ | ⟨_, acc, _, _, e2, _⟩
  · rw [e'] at e2; cases e2
  rw [e'] at e2; injection e2 with _ e2; injection e2 with e2; subst e2
  obtain ⟨h1, _⟩ := C56_partial hr _ hu Example.title hfield m m _ _ _ _ e hshow e' (shows_addAll acc)
  have hmem : (1 : DocumentID) ∈ docs.map (·.1) := by
    rw [hi.answer_mem hs.nonNeg ha]
    refine ⟨Example.title, Example.save, Example.save, by decide, rfl, by simp, ?_⟩
    rw [he]
    refine seen_self (he ▸ hs.nonNeg _ (by simp)) ?_ (by decide)
    intro a _
    rw [new_is_default]
    exact default_sub a a |>.trans (by simp)
  rw [← mem_listing_docs] at hmem
  obtain ⟨⟨rel, d⟩, hz, rfl⟩ := List.mem_map.1 hmem
  have := hall _ _ _ _ _ Example.title m m _ _ _ _ _ rel _ ⟨1, Example.title, 2, [Example.save, Example.as]⟩ hr hg hfield e hshow e'
    (shows_addAll acc) hz (h1 rel _ hz) (by decide) ⟨Example.as, by simp, by decide⟩
  have hx : exacts Example.texts [Example.save, Example.save] Example.title 1 = 2 := by decide
  have hsz : Example.texts.size 1 Example.title = some 2 := by decide
  rw [exactPart, hx, hsz, if_neg (by decide), if_pos ⟨rfl, rfl⟩] at this
  have h2 : fadd (fadd (ofInt (2 * ((2 : Nat) : Int))) 100) rel = 4 + 100 + rel := by
    show ((2 * ((2 : Nat) : Int) : Int) : ℚ) + 100 + rel = _
    norm_num
  rw [h2] at this
  norm_num at this

/-! ### C60 -/

/-- A matcher exists only if the first mapping of its store was granted. -/
theorem ran_os (h : Ran os m H K) : os 1024 = true := by
  induction h with
  | new e =>
    by_contra hn
    rw [Bool.not_eq_true] at hn
    simp only [Matcher.new, WordStore.new, Trie.new, hn, if_true, error_bind] at e
    cases e
  | index _ _ _ _ ih => exact ih
  | search _ _ _ _ ih => exact ih
  | online _ _ _ _ _ ih => exact ih
  | errors _ _ ih => exact ih
  | weight _ _ _ ih => exact ih

/-- C60, what holds: `index` stops with an exception at the first empty word or field name (if no memory is refused). All
texts before it, and the words before it in the interrupted text, are indexed; the matcher goes on as after a complete
call with these texts, so all theorems on executions apply. Missing: interruption by a refusal of memory, see
`C60_refused`. -/
theorem C60_partial (h : Ran os m H K) (c : Corpus) (hc : CorpusOk c) (m' : Matcher) (o : Option Fault)
    (hi : m.index c = (m', o)) :
    (o = some .runtimeError ∧
      StorageRefused os (lettersIn H.mentions + lettersIn K + lettersIn H.words + 2 * lettersIn (corpusTexts c).mentions)) ∨
    ((o = if NoEmpty (corpusTexts c) then none else some .outOfRange) ∧
      Ran os m' (H ++ beforeEmpty (corpusTexts c)) K ∧ m'.e = m.e ∧ m'.weights = m.weights) := by
  obtain ⟨names, hm, hos, hl⟩ := Ran.start h
  rcases hm.index c m H names hc with ⟨_, e2, _, hr⟩ | ⟨m1', names', e2, h2, _, _, _, _, e3, e4⟩
  · left
    rw [hi] at e2; injection e2 with _ e2
    rw [hos] at hr
    exact ⟨e2, hr.mono (by omega)⟩
  · right
    rw [hi] at e2; injection e2 with e5 e6
    subst e5
    refine ⟨?_, .index h hc hi ?_, e3, e4⟩
    · rw [e6]; by_cases hne : NoEmpty (corpusTexts c) <;> simp [emptyFault, hne]
    · intro f hf
      left
      rw [e6] at hf
      by_cases hne : NoEmpty (corpusTexts c)
      · simp [emptyFault, hne] at hf
      · simp [emptyFault, hne] at hf; exact hf.symm

/-- C60. After an interruption every word processed before it is found by an exact search. -/
theorem C60_searchable (h : Ran os m H K) (c : Corpus) (hc : CorpusOk c) (m' : Matcher) (hi : m.index c = (m', some .outOfRange))
    (d : DocumentID) (f w : Word) (hp : (beforeEmpty (corpusTexts c)).Posting d f w)
    (hs : Sane m.e [w] (H ++ beforeEmpty (corpusTexts c))) (h0 : ∀ a ∈ w, m.e.getSubstituteError a a = .ok 0) :
    ∃ r k, m'.matchDefault [w] = (m', .ok r) ∧ Shows r k ∧ d ∈ k.map (·.2) := by
  rcases C60_partial h c hc m' _ hi with ⟨x, _⟩ | ⟨_, h', he, _⟩
  · cases x
  obtain ⟨names, hi', _⟩ := Ran.start h'
  obtain ⟨docs, ha, e⟩ := hi'.matchQuery_eq (p := SearchParameters.new) (q := [w]) (by rw [he]; exact hs)
  have hsorted : SMap.Sorted ltNat docs := by obtain ⟨P, _, hD⟩ := ha; exact hD.sorted
  rw [filtered_trivial _ rfl] at e
  refine ⟨_, _, e, shows_copied (listing_rank hsorted), ?_⟩
  rw [mem_listing_docs, hi'.answer_mem (by rw [he]; exact hs.nonNeg) ha]
  refine ⟨f, w, w, (MatcherHistory.posting_append _).2 (Or.inr hp), rfl, by simp, ?_⟩
  rw [he]
  exact seen_self (hs.nonNeg w (by simp)) h0 (limit_nonneg _ _)

/-- C60, after a refusal of memory: a trie of the matcher is left without its mapping, and every search of a matcher that
has indexed something reads it, which is undefined behaviour. -/
theorem C60_refused (h : Ran os m H K) (hH : H.words ≠ []) (c : Corpus) (hc : CorpusOk c) (m' : Matcher)
    (hi : m.index c = (m', some .runtimeError)) (q : WordList) (hq : q ≠ []) (hs : Sane m.e q (H ++ corpusTexts c))
    (p : SearchParameters) (hp : ∀ f, p.isNonsearchingField f = false) : m'.matchQuery q p = (m', .error .ub) := by
  obtain ⟨names, hm, hos, hl⟩ := Ran.start h
  rcases hm.index c m H names hc with ⟨m1, e1, hlost, _⟩ | ⟨m1, names', e2, _⟩
  · rw [hi] at e1; injection e1 with e1; subst e1
    refine hlost.matchQuery (by rw [hos]; exact ran_os h) ?_ hq hs hp
    obtain ⟨w, hw⟩ := List.exists_mem_of_ne_nil _ hH
    exact hlost.indexes_ne (by rw [hos]; exact ran_os h) hw
  · rw [hi] at e2; injection e2 with _ e2
    unfold emptyFault at e2
    split at e2 <;> cases e2

end

/-- An operating system that grants no trie more than its first 1024 bytes, and a word that does not fit. -/
def tight : Nat → Bool := fun n => decide (n = 1024)
def longWord : Word := List.replicate 31 0x61#16
def firstCorpus : Corpus := [documentOf 1 [(Example.title, [Example.save])]]
def firstTexts : MatcherHistory := [⟨1, Example.title, 1, [Example.save]⟩]
def secondCorpus : Corpus := [documentOf 2 [(Example.title, [longWord])]]

theorem good_longWord : GoodWord longWord :=
  Example.good_ascii (by decide) (by intro l hl; rw [List.eq_of_mem_replicate hl]; decide)

/-- C60 is false: the second corpus is refused memory, and searching for the word "save" of the first one is undefined
behaviour. -/
theorem C60_false : letI := Example.debug; letI := Example.icu; letI := Example.runtime; letI := Example.fp
    ¬ ∀ (os : Nat → Bool) (m : Matcher) (H : MatcherHistory) (K : List Word) (c : Corpus) (m' : Matcher) (f : Fault) (q : WordList),
      Ran os m H K → CorpusOk c → m.index c = (m', some f) → (∀ w ∈ q, GoodWord w) → Sane m.e q (H ++ corpusTexts c) →
      ∃ r, m'.matchDefault q = (m', .ok r) := by
  let _ := Example.debug; let _ := Example.icu; let _ := Example.runtime; let _ := Example.fp
  intro hall
  have hfirst : (Matcher.new tight).map (fun m => (m.index firstCorpus).2) = .ok none := by decide +kernel
  have hsecond : (Matcher.new tight).map (fun m => ((m.index firstCorpus).1.index secondCorpus).2) = .ok (some .runtimeError) := by
    decide +kernel
  have hok1 : CorpusOk firstCorpus := by
    intro d hd
    rw [List.mem_singleton.1 hd]
    refine ⟨_, rfl, ?_⟩
    simp only [List.mem_cons, List.not_mem_nil, or_false, forall_eq]
    exact ⟨Or.inr Example.good_title, Or.inr Example.good_save⟩
  have hok2 : CorpusOk secondCorpus := by
    intro d hd
    rw [List.mem_singleton.1 hd]
    refine ⟨_, rfl, ?_⟩
    simp only [List.mem_cons, List.not_mem_nil, or_false, forall_eq]
    exact ⟨Or.inr Example.good_title, Or.inr good_longWord⟩
  cases hm : Matcher.new tight with
  | error f => rw [hm] at hfirst; cases hfirst
  | ok m0 =>
    rw [hm] at hfirst hsecond
    obtain ⟨m, o, e1⟩ : ∃ m o, m0.index firstCorpus = (m, o) := ⟨_, _, rfl⟩
    obtain ⟨m', o', e2⟩ : ∃ m' o', m.index secondCorpus = (m', o') := ⟨_, _, rfl⟩
    simp only [Except.map, e1, e2, Except.ok.injEq] at hfirst hsecond
    subst hfirst hsecond
    have hr : Ran tight m firstTexts [] := by
      have := Ran.index (.new hm) hok1 e1 (by simp)
      rwa [show ([] : MatcherHistory) ++ beforeEmpty (corpusTexts firstCorpus) = firstTexts from by decide] at this
    have he : m.e = ErrorValues.new := by
      rcases C60_partial (.new hm) firstCorpus hok1 m none e1 with ⟨x, _⟩ | ⟨_, _, x, _⟩
      · cases x
      · rw [x]
        simp only [Matcher.new] at hm
        cases hn : WordStore.new tight with
        | error f => rw [hn] at hm; cases hm
        | ok s => rw [hn] at hm; injection hm with hm; rw [← hm]
    have hg : ∀ w ∈ [Example.save], GoodWord w := by simp [Example.good_save]
    have hs : Sane m.e [Example.save] (firstTexts ++ corpusTexts secondCorpus) := by
      rw [he]
      exact sane_default (fun x hx => (hg x hx).noNul) (L := 100) (by decide) (by decide) (by omega)
    obtain ⟨r, e3⟩ := hall tight m firstTexts [] secondCorpus m' _ [Example.save] hr hok2 e2 hg hs
    have := C60_refused hr (by decide) secondCorpus hok2 m' e2 [Example.save] (by simp) hs SearchParameters.new (fun _ => rfl)
    rw [Matcher.matchDefault, this] at e3
    cases e3

/-- A corpus whose second text has an empty word: the first text and the words before it are indexed. -/
example : let c : Corpus := [documentOf 1 [(Example.title, [Example.save])], documentOf 2 [(Example.title, [Example.as, [], Example.save])],
      documentOf 3 [(Example.title, [Example.save])]]
    ¬ NoEmpty (corpusTexts c) ∧ (beforeEmpty (corpusTexts c)).Posting 1 Example.title Example.save ∧
    (beforeEmpty (corpusTexts c)).Posting 2 Example.title Example.as ∧ ¬ (beforeEmpty (corpusTexts c)).Posting 2 Example.title Example.save ∧
    ∀ f w, ¬ (beforeEmpty (corpusTexts c)).Posting 3 f w := by
  refine ⟨by decide, by decide, by decide, by decide, ?_⟩
  rintro f w ⟨x, hx, h, h2⟩
  clear h2
  revert h
  clear f w
  revert x
  decide

end Columbus.Props
