import Verif.Props.Matcher
/-
C117: filters put together.
-/

namespace Columbus.Props
open Columbus Spec

/-! ### C117 -/

/-- The same pairs, whatever their order and how often. -/
def SameTerm (t t' : List (Word × Word)) : Prop := ∀ p, p ∈ t ↔ p ∈ t'

/-- The terms of one filter each joined to the terms of another: both filters are to be satisfied. -/
def both (f g : ResultFilter) : ResultFilter := ⟨f.termList.flatMap fun t => g.termList.map fun t' => t ++ t'⟩

/-- The terms of two filters: one of the filters is to be satisfied. -/
def either (f g : ResultFilter) : ResultFilter := ⟨f.termList ++ g.termList⟩

theorem either_words {f g : ResultFilter} {w : Word} (h : w ∈ filterWords (either f g)) : w ∈ filterWords f ∨ w ∈ filterWords g := by
  simpa only [filterWords, either, List.flatten_append, List.flatMap_append, List.mem_append] using h

theorem both_words {f g : ResultFilter} {w : Word} (h : w ∈ filterWords (both f g)) : w ∈ filterWords f ∨ w ∈ filterWords g := by
  simp only [filterWords, both, List.mem_flatMap, List.mem_flatten, List.mem_map] at h ⊢
  obtain ⟨x, ⟨l, ⟨t, ht, t', ht', rfl⟩, hx⟩, hw⟩ := h
  rcases List.mem_append.1 hx with hx | hx
  · exact Or.inl ⟨x, ⟨t, ht, hx⟩, hw⟩
  · exact Or.inr ⟨x, ⟨t', ht', hx⟩, hw⟩

section
variable [Build] [Icu] [Runtime] [Fp] {os : Nat → Bool} {m : Matcher} {H : MatcherHistory} {K : List Word}

/-- The results with a filter among those without. -/
theorem filtered_shows (h : Ran os m H K) {q : WordList} {p : SearchParameters} (hu : ∀ w ∈ filterWords p.filter, Usable w)
    {m' : Matcher} {r : MatchResults} {k : List Result} (e : m.matchQuery q p = (m', .ok r)) (hk : Shows r k) :
    ∃ r0 k0, m.matchQuery q { p with filter := ResultFilter.new } = (m, .ok r0) ∧ Shows r0 k0 ∧
      k = k0.filter fun x => decide (Satisfies H p.filter x.2) := by
  rcases C45_filter h q p hu with ⟨f, _, e2⟩ | ⟨r0, k0, e1, h0, ⟨_, e2, _⟩ | ⟨_, _, e2⟩ | ⟨_, r', _, e2, h2⟩⟩
  · rw [e] at e2; injection e2 with _ e2; cases e2
  · rw [e] at e2; injection e2 with _ e2; cases e2
  · rw [e] at e2; injection e2 with _ e2; cases e2
  · rw [e] at e2; injection e2 with _ e2; injection e2 with e2; subst e2
    exact ⟨r0, k0, e1, h0, Columbus.Shows.unique hk h2⟩

/-- Searches that differ in the filter show parts of one list. -/
theorem filtered_all (h : Ran os m H K) (q : WordList) (p : SearchParameters) :
    ∃ k0 : List Result, ∀ (f : ResultFilter) (m' : Matcher) (r : MatchResults) (k : List Result),
      (∀ w ∈ filterWords f, Usable w) → m.matchQuery q { p with filter := f } = (m', .ok r) → Shows r k →
      k = k0.filter fun x => decide (Satisfies H f x.2) := by
  by_cases hx : ∃ r0 k0, m.matchQuery q { p with filter := ResultFilter.new } = (m, .ok r0) ∧ Shows r0 k0
  · obtain ⟨r0, k0, e0, h0⟩ := hx
    refine ⟨k0, fun f m' r k hf e hk => ?_⟩
    obtain ⟨r0', k0', x, y, z⟩ := filtered_shows h hf e hk
    have := e0.symm.trans x
    injection this with _ this; injection this with this; subst this
    rw [Columbus.Shows.unique h0 y]; exact z
  · refine ⟨[], fun f m' r k hf e hk => ?_⟩
    obtain ⟨r0', k0', x, y, _⟩ := filtered_shows h hf e hk
    exact absurd ⟨r0', k0', x, y⟩ hx

/-- C117. Terms in another order or repeated, and pairs in another order or repeated within them, give the same results. -/
theorem C117_order (h : Ran os m H K) (q : WordList) (p : SearchParameters) (f g : ResultFilter)
    (hf : ∀ w ∈ filterWords f, Usable w) (hg : ∀ w ∈ filterWords g, Usable w)
    (h1 : ∀ t ∈ f.termList, ∃ t' ∈ g.termList, SameTerm t t') (h2 : ∀ t ∈ g.termList, ∃ t' ∈ f.termList, SameTerm t t')
    (m1 m2 : Matcher) (r1 r2 : MatchResults) (k1 k2 : List Result) (e1 : m.matchQuery q { p with filter := f } = (m1, .ok r1))
    (s1 : Shows r1 k1) (e2 : m.matchQuery q { p with filter := g } = (m2, .ok r2)) (s2 : Shows r2 k2) : k1 = k2 := by
  obtain ⟨k0, hall⟩ := filtered_all h q p
  rw [hall f m1 r1 k1 hf e1 s1, hall g m2 r2 k2 hg e2 s2]
  have : ∀ d, Satisfies H f d ↔ Satisfies H g d := by
    intro d
    constructor
    · rintro ⟨t, ht, hd⟩
      obtain ⟨t', ht', hs⟩ := h1 t ht
      exact ⟨t', ht', fun x hx => hd x ((hs x).2 hx)⟩
    · rintro ⟨t, ht, hd⟩
      obtain ⟨t', ht', hs⟩ := h2 t ht
      exact ⟨t', ht', fun x hx => hd x ((hs x).2 hx)⟩
  simp only [this]

/-- C117. If each term of `g` has all pairs of a term of `f`, the results with `g` are among those with `f`, in the same
order and with the same relevancies. -/
theorem C117_narrow (h : Ran os m H K) (q : WordList) (p : SearchParameters) (f g : ResultFilter)
    (hf : ∀ w ∈ filterWords f, Usable w) (hg : ∀ w ∈ filterWords g, Usable w)
    (h1 : ∀ t' ∈ g.termList, ∃ t ∈ f.termList, ∀ x ∈ t, x ∈ t')
    (m1 m2 : Matcher) (r1 r2 : MatchResults) (k1 k2 : List Result) (e1 : m.matchQuery q { p with filter := f } = (m1, .ok r1))
    (s1 : Shows r1 k1) (e2 : m.matchQuery q { p with filter := g } = (m2, .ok r2)) (s2 : Shows r2 k2) : k2.Sublist k1 := by
  obtain ⟨k0, hall⟩ := filtered_all h q p
  rw [hall f m1 r1 k1 hf e1 s1, hall g m2 r2 k2 hg e2 s2]
  apply List.monotone_filter_right
  intro x hx
  simp only [decide_eq_true_eq] at hx ⊢
  obtain ⟨t', ht', hd⟩ := hx
  obtain ⟨t, ht, hs⟩ := h1 t' ht'
  exact ⟨t, ht, fun y hy => hd y (hs y hy)⟩

/-- C117. With the terms of both filters the results are those with the one and those with the other, each with the
relevancy it has there. -/
theorem C117_either (h : Ran os m H K) (q : WordList) (p : SearchParameters) (f g : ResultFilter)
    (hf : ∀ w ∈ filterWords f, Usable w) (hg : ∀ w ∈ filterWords g, Usable w)
    (m1 m2 m3 : Matcher) (r1 r2 r3 : MatchResults) (k1 k2 k3 : List Result)
    (e1 : m.matchQuery q { p with filter := f } = (m1, .ok r1)) (s1 : Shows r1 k1)
    (e2 : m.matchQuery q { p with filter := g } = (m2, .ok r2)) (s2 : Shows r2 k2)
    (e3 : m.matchQuery q { p with filter := either f g } = (m3, .ok r3)) (s3 : Shows r3 k3) :
    ∀ x, x ∈ k3 ↔ x ∈ k1 ∨ x ∈ k2 := by
  obtain ⟨k0, hall⟩ := filtered_all h q p
  rw [hall f m1 r1 k1 hf e1 s1, hall g m2 r2 k2 hg e2 s2]
  rw [hall _ m3 r3 k3 (fun w hw => (either_words hw).elim (hf w) (hg w)) e3 s3]
  intro x
  simp only [List.mem_filter, decide_eq_true_eq, ← and_or_left]
  refine and_congr_right fun _ => ?_
  simp only [Satisfies, either, List.mem_append]
  constructor
  · rintro ⟨t, ht | ht, hd⟩
    · exact Or.inl ⟨t, ht, hd⟩
    · exact Or.inr ⟨t, ht, hd⟩
  · rintro (⟨t, ht, hd⟩ | ⟨t, ht, hd⟩)
    · exact ⟨t, Or.inl ht, hd⟩
    · exact ⟨t, Or.inr ht, hd⟩

/-- C117. With each term of one filter joined to each of the other the results are those that are results with both. -/
theorem C117_both (h : Ran os m H K) (q : WordList) (p : SearchParameters) (f g : ResultFilter)
    (hf : ∀ w ∈ filterWords f, Usable w) (hg : ∀ w ∈ filterWords g, Usable w)
    (m1 m2 m3 : Matcher) (r1 r2 r3 : MatchResults) (k1 k2 k3 : List Result)
    (e1 : m.matchQuery q { p with filter := f } = (m1, .ok r1)) (s1 : Shows r1 k1)
    (e2 : m.matchQuery q { p with filter := g } = (m2, .ok r2)) (s2 : Shows r2 k2)
    (e3 : m.matchQuery q { p with filter := both f g } = (m3, .ok r3)) (s3 : Shows r3 k3) :
    ∀ x, x ∈ k3 ↔ x ∈ k1 ∧ x ∈ k2 := by
  obtain ⟨k0, hall⟩ := filtered_all h q p
  rw [hall f m1 r1 k1 hf e1 s1, hall g m2 r2 k2 hg e2 s2, hall _ m3 r3 k3 (fun w hw => (both_words hw).elim (hf w) (hg w)) e3 s3]
  intro x
  simp only [List.mem_filter, decide_eq_true_eq]
  rw [← and_and_left]
  refine and_congr_right fun _ => ?_
  simp only [Satisfies, both, List.mem_flatMap, List.mem_map]
  constructor
  · rintro ⟨_, ⟨t, ht, t', ht', rfl⟩, hd⟩
    exact ⟨⟨t, ht, fun y hy => hd y (List.mem_append_left _ hy)⟩, ⟨t', ht', fun y hy => hd y (List.mem_append_right _ hy)⟩⟩
  · rintro ⟨⟨t, ht, hd⟩, ⟨t', ht', hd'⟩⟩
    exact ⟨_, ⟨t, ht, t', ht', rfl⟩, fun y hy => (List.mem_append.1 hy).elim (hd y) (hd' y)⟩

/-- C117. A filter with an empty term, as a new filter is and stays if `addNewTerm` is called first, passes everything. -/
theorem C117_empty_term (h : Ran os m H K) (q : WordList) (p : SearchParameters) (f : ResultFilter)
    (hf : ∀ w ∈ filterWords f, Usable w) (h1 : [] ∈ f.termList) (m1 m2 : Matcher) (r1 r2 : MatchResults) (k1 k2 : List Result)
    (e1 : m.matchQuery q { p with filter := f } = (m1, .ok r1)) (s1 : Shows r1 k1)
    (e2 : m.matchQuery q { p with filter := ResultFilter.new } = (m2, .ok r2)) (s2 : Shows r2 k2) : k1 = k2 := by
  obtain ⟨k0, hall⟩ := filtered_all h q p
  rw [hall f m1 r1 k1 hf e1 s1, hall _ m2 r2 k2 (by simp [filterWords, ResultFilter.new, ResultFilter.addNewTerm]) e2 s2]
  congr 1
  funext x
  have h2 : Satisfies H ResultFilter.new x.2 := ⟨[], by simp [ResultFilter.new, ResultFilter.addNewTerm], by simp⟩
  have h3 : Satisfies H f x.2 := ⟨[], h1, by simp⟩
  simp [h2, h3]

/-- C117. With usable words, none of them empty, and memory for them, the filters put together return whenever the search
without filter does. -/
theorem C117_returns (h : Ran os m H K) (q : WordList) (p : SearchParameters) (f : ResultFilter)
    (hf : ∀ w ∈ filterWords f, GoodWord w)
    (hr : ¬ StorageRefused os (lettersIn H.mentions + lettersIn K + 2 * lettersIn (filterWords f))) (r0 : MatchResults)
    (e0 : m.matchQuery q { p with filter := ResultFilter.new } = (m, .ok r0)) :
    ∃ m' r, m.matchQuery q { p with filter := f } = (m', .ok r) := by
  have hn : [] ∉ filterWords f := fun hx => (hf _ hx).nonempty rfl
  rcases C45_filter h q { p with filter := f } (fun w hw => Or.inr (hf w hw)) with
    ⟨x, e1, _⟩ | ⟨_, k0, _, _, ⟨_, _, x⟩ | ⟨_, x, _⟩ | ⟨m', r, _, e2, _⟩⟩
  · have := e0.symm.trans e1
    injection this with _ this; cases this
  · exact absurd x hr
  · exact absurd x (C45_no_throw { p with filter := f } hn k0)
  · exact ⟨m', r, e2⟩

/-- Filters "title has as" and "body has as" on the example: document 1 satisfies the first, document 2 the second, none
both, and searches with each of them and with both put together return. -/
example : let f : ResultFilter := ⟨[[(Example.title, Example.as)]]⟩
    let g : ResultFilter := ⟨[[(Example.body, Example.as)]]⟩
    (∃ (m : Matcher) (r0 : MatchResults), Ran Example.os m Example.texts [] ∧
      m.matchQuery [Example.save] { SearchParameters.new with filter := ResultFilter.new } = (m, .ok r0) ∧
      ∀ x ∈ [f, g, either f g, both f g], (∀ w ∈ filterWords x, GoodWord w) ∧
        ¬ StorageRefused Example.os (lettersIn Example.texts.mentions + lettersIn [] + 2 * lettersIn (filterWords x))) ∧
    (∀ d ∈ [1, 2], (Satisfies Example.texts f d ↔ d = 1) ∧ (Satisfies Example.texts g d ↔ d = 2) ∧
      Satisfies Example.texts (either f g) d ∧ ¬ Satisfies Example.texts (both f g) d) := by
  intro f g
  refine ⟨?_, by decide⟩
  obtain ⟨m, h, he, _⟩ := Example.ran
  obtain ⟨names, hi, -⟩ := Columbus.Ran.inv h
  obtain ⟨d, -, e⟩ := hi.matchQuery_eq (p := SearchParameters.new) (q := [Example.save]) (by rw [he]; exact Example.sane_save)
  rw [filtered_trivial _ rfl] at e
  refine ⟨m, _, h, e, fun x hx => ⟨?_, Example.granted ?_⟩⟩
  · have : ∀ w ∈ filterWords x, w ∈ [Example.title, Example.body, Example.as] := by
      revert x; decide
    intro w hw
    have := this w hw
    simp only [List.mem_cons, List.not_mem_nil, or_false] at this
    rcases this with rfl | rfl | rfl
    · exact Example.good_title
    · exact Example.good_body
    · exact Example.good_as
  · revert x; decide

end
end Columbus.Props
