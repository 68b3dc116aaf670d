import Verif.Props.Apart
import Verif.Proofs.Unrelated
import Verif.Proofs.Triangle
/-
C115: texts that have nothing to do with a query.
-/

namespace Columbus.Props
open Columbus Spec

section
variable [Build] [Icu] [Runtime] [Fp] {os : Nat → Bool} {m : Matcher} {H : MatcherHistory} {K : List Word}

/-! ### C115 -/

/-- No word of the texts, in the fields that are searched, is within the limit of a word of the query. -/
def Unrelated (e : ErrorValues) (p : SearchParameters) (q : WordList) (T : MatcherHistory) : Prop :=
  ∀ x ∈ T, p.isNonsearchingField x.field = false → ∀ w ∈ x.words, ∀ y ∈ q, ∀ v, IsEditCost (configured e y.length) y w v → limit p y < v

/-- What C47 says of a document before and after a corpus is indexed, when the corpus does not change which of its words are close to
the query: the same words are added up in the same order. -/
theorem relevancy_after (h : Ran os m H K) (c : Corpus) (hc : CorpusOk c) (m1 : Matcher) (o : Option Fault)
    (hi : m.index c = (m1, o)) (ho : ∀ f, o = some f → Fault.Benign f) (q : WordList) (p : SearchParameters)
    (hs : Sane m.e q (H ++ beforeEmpty (corpusTexts c))) (he : Exact m.e q) (hu : ∀ w ∈ filterWords p.filter, Usable w)
    (m2 m3 : Matcher) (r r' : MatchResults) (k k' : List Result) (e : m.matchQuery q p = (m2, .ok r)) (hk : Shows r k)
    (e' : m1.matchQuery q p = (m3, .ok r')) (hk' : Shows r' k') (d : DocumentID) (rel rel' : ℚ) (hr : (rel, d) ∈ k) (hr' : (rel', d) ∈ k')
    (post : ∀ {f w y v}, p.isNonsearchingField f = false → y ∈ q → IsEditCost (configured m.e y.length) y w v → v ≤ limit p y →
      ((H ++ beforeEmpty (corpusTexts c)).Posting d f w ↔ H.Posting d f w)) :
    ∃ L : List (Word × Word × Int),
      (∀ f w v, (f, w, v) ∈ L ↔ H.Posting d f w ∧ p.isNonsearchingField f = false ∧ CloseTo m.e p q w v) ∧ L.Nodup ∧
      rel = sumUp (L.map fun x => contribution m.weights H x.1 x.2.1 x.2.2) ∧
      rel' = sumUp (L.map fun x => contribution m.weights (H ++ beforeEmpty (corpusTexts c)) x.1 x.2.1 x.2.2) := by
  generalize hTT : beforeEmpty (corpusTexts c) = T at *
  obtain ⟨names, hm, _⟩ := Ran.start h
  have h1 : Ran os m1 (H ++ T) K := by have := Ran.index h hc hi ho; rwa [hTT] at this
  have hs0 : Sane m.e q H := by
    refine ⟨hs.noNul, hs.nonNeg, fun x hx => ?_, hs.assertion⟩
    obtain ⟨B, L, b1, b2, b3⟩ := hs.moderate x hx
    refine ⟨B, L, b1, fun y hy => b2 y ?_, b3⟩
    obtain ⟨w, hw, rfl⟩ := List.mem_map.1 hy
    exact List.mem_map.2 ⟨w, by simp only [MatcherHistory.words, List.flatMap_append, List.mem_append] at hw ⊢; exact Or.inl hw, rfl⟩
  rcases hm.index c m H names hc with ⟨_, e2, _⟩ | ⟨m1', names', e2, h2, hpre, _, _, _, e3, e4⟩
  · rw [hi] at e2; injection e2 with _ e2
    rcases ho _ e2 with h | h <;> cases h
  rw [hi] at e2; injection e2 with e2 _
  subst e2
  have hs1 : Sane m1.e q (H ++ T) := by rw [e3]; exact hs
  have he1 : Exact m1.e q := by rw [e3]; exact he
  obtain ⟨ident, hid, hL⟩ := C47_relevancy h q p hs0 he hu m2 r k e hk
  obtain ⟨ident', hid', hL'⟩ := C47_relevancy h1 q p hs1 he1 hu m3 r' k' e' hk'
  have same : ∀ w ∈ H.mentions, ident w = ident' w := by
    intro w hw
    have g := (hid w hw (ident w)).2 rfl
    rw [hm.store.getWord_iff] at g
    refine (hid' w (by simp only [MatcherHistory.mentions, List.flatMap_append, List.mem_append] at hw ⊢; exact Or.inl hw) (ident w)).1 ?_
    rw [h2.store.getWord_iff]
    obtain ⟨t, rfl⟩ := hpre
    rw [List.getElem?_append_left (List.getElem?_eq_some_iff.1 g).1]
    exact g
  obtain ⟨L, a1, a2, _, rfl⟩ := hL rel d hr
  obtain ⟨L', b1, b2, _, rfl⟩ := hL' rel' d hr'
  have ment : ∀ {f w v}, (f, w, v) ∈ L → f ∈ H.mentions ∧ w ∈ H.mentions := by
    intro f w v hx
    obtain ⟨⟨x, hxT, _, rfl, hw⟩, _⟩ := (a1 f w v).1 hx
    exact ⟨List.mem_flatMap.2 ⟨x, hxT, List.mem_cons_self⟩, List.mem_flatMap.2 ⟨x, hxT, List.mem_cons_of_mem _ hw⟩⟩
  have mem : ∀ x, x ∈ L' ↔ x ∈ L := by
    rintro ⟨f, w, v⟩
    rw [a1, b1, e3]
    constructor
    · rintro ⟨x1, x2, x3⟩
      obtain ⟨y, hy, hcost, hl⟩ := x3.near
      exact ⟨(post x2 hy hcost hl).1 x1, x2, x3⟩
    · rintro ⟨x1, x2, x3⟩
      exact ⟨(MatcherHistory.posting_append _).2 (Or.inl x1), x2, x3⟩
  have nd : L.Nodup := a2.imp (by rintro a b (hab | ⟨_, hab⟩) rfl <;> exact Nat.lt_irrefl _ hab)
  have nd' : L'.Nodup := b2.imp (by rintro a b (hab | ⟨_, hab⟩) rfl <;> exact Nat.lt_irrefl _ hab)
  have heq : L' = L := by
    refine List.Perm.eq_of_pairwise (le := fun a b => ident a.1 < ident b.1 ∨ (ident a.1 = ident b.1 ∧ ident a.2.1 < ident b.2.1))
      ?_ ?_ a2 ((List.perm_ext_iff_of_nodup nd' nd).2 mem)
    · intro a b _ _ x y
      exfalso
      rcases x with x | ⟨x, x'⟩ <;> rcases y with y | ⟨y, y'⟩
      · exact Nat.lt_asymm x y
      · rw [y] at x; exact Nat.lt_irrefl _ x
      · rw [x] at y; exact Nat.lt_irrefl _ y
      · exact Nat.lt_asymm x' y'
    · refine b2.imp_of_mem ?_
      intro a b ha hb hab
      obtain ⟨f1, w1⟩ := ment ((mem a).1 ha)
      obtain ⟨f2, w2⟩ := ment ((mem b).1 hb)
      rw [same _ f1, same _ f2, same _ w1, same _ w2]
      exact hab
  exact ⟨L, a1, nd, rfl, by rw [heq, e4]⟩

/-- C115. Indexing texts that have nothing to do with a query loses no document, and, without negative weights, lowers no relevancy,
in double arithmetic; without a filter it adds no document either. -/
theorem C115_unrelated (h : Ran os m H K) (c : Corpus) (hc : CorpusOk c) (m1 : Matcher) (o : Option Fault)
    (hi : m.index c = (m1, o)) (ho : ∀ f, o = some f → Fault.Benign f) (q : WordList) (p : SearchParameters)
    (hT : Unrelated m.e p q (beforeEmpty (corpusTexts c)))
    (hs : Sane m.e q (H ++ beforeEmpty (corpusTexts c))) (he : Exact m.e q) (hu : ∀ w ∈ filterWords p.filter, Usable w)
    (hw : ∀ f, 0 ≤ IndexWeights.getWeight m.weights f)
    (m2 m3 : Matcher) (r r' : MatchResults) (k k' : List Result) (e : m.matchQuery q p = (m2, .ok r)) (hk : Shows r k)
    (e' : m1.matchQuery q p = (m3, .ok r')) (hk' : Shows r' k') :
    (∀ rel d, (rel, d) ∈ k → ∃ rel', (rel', d) ∈ k' ∧ rel ≤ rel') ∧
    (Unfiltered p → ∀ d, d ∈ k'.map (·.2) ↔ d ∈ k.map (·.2)) := by
  have stays := C51_stays h c hc m1 o hi ho q p hs hu m2 m3 r r' k k' e hk e' hk'
  have same := relevancy_after h c hc m1 o hi ho q p hs he hu m2 m3 r r' k k' e hk e' hk'
  generalize hTT : beforeEmpty (corpusTexts c) = T at *
  obtain ⟨names, hm, _⟩ := Ran.start h
  have h1 : Ran os m1 (H ++ T) K := by have := Ran.index h hc hi ho; rwa [hTT] at this
  have hs0 : Sane m.e q H := by
    refine ⟨hs.noNul, hs.nonNeg, fun x hx => ?_, hs.assertion⟩
    obtain ⟨B, L, b1, b2, b3⟩ := hs.moderate x hx
    refine ⟨B, L, b1, fun y hy => b2 y ?_, b3⟩
    obtain ⟨w, hw, rfl⟩ := List.mem_map.1 hy
    exact List.mem_map.2 ⟨w, by simp only [MatcherHistory.words, List.flatMap_append, List.mem_append] at hw ⊢; exact Or.inl hw, rfl⟩
  rcases hm.index c m H names hc with ⟨_, e2, _⟩ | ⟨m1', names', e2, h2, hpre, _, _, _, e3, e4⟩
  · rw [hi] at e2; injection e2 with _ e2
    rcases ho _ e2 with h | h <;> cases h
  rw [hi] at e2; injection e2 with e2 _
  subst e2
  have hs1 : Sane m1.e q (H ++ T) := by rw [e3]; exact hs
  have he1 : Exact m1.e q := by rw [e3]; exact he
  -- a close word is not in the new texts
  have far : ∀ {f w y v}, p.isNonsearchingField f = false → y ∈ q → IsEditCost (configured m.e y.length) y w v → v ≤ limit p y →
      w ∉ T.occurrences f := by
    intro f w y v hf hy hcost hl hin
    unfold MatcherHistory.occurrences at hin
    obtain ⟨x, hx, hwx⟩ := List.mem_flatMap.1 hin
    obtain ⟨hxT, hxf⟩ := List.mem_filter.1 hx
    rw [beq_iff_eq] at hxf
    have := hT x hxT (by rw [hxf]; exact hf) w hwx y hy v hcost
    omega
  have post : ∀ {d f w y v}, p.isNonsearchingField f = false → y ∈ q → IsEditCost (configured m.e y.length) y w v → v ≤ limit p y →
      ((H ++ T).Posting d f w ↔ H.Posting d f w) := by
    intro d f w y v hf hy hcost hl
    rw [MatcherHistory.posting_append]
    refine ⟨fun h => h.elim id ?_, Or.inl⟩
    rintro ⟨x, hx, _, rfl, hwx⟩
    have hin : w ∈ T.occurrences x.field := List.mem_flatMap.2 ⟨x, List.mem_filter.2 ⟨hx, by simp⟩, hwx⟩
    exact absurd hin (far hf hy hcost hl)
  constructor
  · intro rel d hr
    obtain ⟨⟨rel', d'⟩, hr', hd⟩ := List.mem_map.1 (stays d (List.mem_map.2 ⟨_, hr, rfl⟩))
    dsimp only at hd
    subst hd
    refine ⟨rel', hr', ?_⟩
    obtain ⟨L, a1, _, rfl, rfl⟩ := same d' rel rel' hr hr' (fun hf hy hcost hl => post hf hy hcost hl)
    refine sumUp_mono ?_
    rintro ⟨f, w, v⟩ hx
    obtain ⟨_, x2, x3⟩ := (a1 f w v).1 hx
    obtain ⟨y, hy, hcost, hl⟩ := x3.near
    refine contribution_grows (Columbus.CloseTo.bounds hs.nonNeg x3).1 (hw f) ?_ (MatcherHistory.maxCount_append H T f)
    unfold MatcherHistory.count
    rw [MatcherHistory.occurrences_append, List.count_append, List.count_eq_zero_of_not_mem (far x2 hy hcost hl), Nat.add_zero]
  · intro hf d
    obtain ⟨r0, k0, e0, hk0, hm0⟩ := C44_found h q p hs0 he hf
    obtain ⟨r1, k1, e1, hk1, hm1⟩ := C44_found h1 q p hs1 he1 hf
    rw [e] at e0; injection e0 with _ e0; injection e0 with e0; subst e0
    rw [e'] at e1; injection e1 with _ e1; injection e1 with e1; subst e1
    obtain rfl := Columbus.Shows.unique hk hk0
    obtain rfl := Columbus.Shows.unique hk' hk1
    rw [hm0, hm1, e3]
    constructor
    · rintro ⟨f, w, y, v, x1, x2, hy, hcost, hl⟩
      exact ⟨f, w, y, v, (post x2 hy hcost hl).1 x1, x2, hy, hcost, hl⟩
    · rintro ⟨f, w, y, v, x1, x2, x3⟩
      exact ⟨f, w, y, v, (MatcherHistory.posting_append _).2 (Or.inl x1), x2, x3⟩

end

section
variable [Build] [Icu] [Runtime] [Fp]

/-- A document with the title "x", which is not similar to `save`, indexed after those of the example. -/
example : ∃ (m m1 : Matcher) (c : Corpus), Ran Example.os m Example.texts [] ∧ CorpusOk c ∧ m.index c = (m1, none) ∧
    corpusTexts c = [⟨3, Example.title, 1, [Example.other]⟩] ∧ Unrelated m.e .new [Example.save] (beforeEmpty (corpusTexts c)) ∧
    Sane m.e [Example.save] (Example.texts ++ beforeEmpty (corpusTexts c)) ∧ Exact m.e [Example.save] ∧
    (∀ f, 0 ≤ IndexWeights.getWeight m.weights f) ∧ Unfiltered SearchParameters.new := by
  have go : GoodWord Example.other := Example.good_letter (l := 0x78#16) (by decide)
  have hT : corpusTexts [documentOf 3 [(Example.title, [Example.other])]] = [⟨3, Example.title, 1, [Example.other]⟩] := by decide
  have hne : NoEmpty [(⟨3, Example.title, 1, [Example.other]⟩ : Indexed)] := by
    intro x hx; rw [List.mem_singleton] at hx; subst hx; exact ⟨by simp [Example.title], by simp [Example.other]⟩
  have hc : CorpusOk [documentOf 3 [(Example.title, [Example.other])]] := by
    intro d hd
    rw [List.mem_singleton] at hd
    subst hd
    refine ⟨_, rfl, ?_⟩
    simp only [List.mem_cons, List.not_mem_nil, or_false, forall_eq]
    exact ⟨Or.inr Example.good_title, Or.inr go⟩
  obtain ⟨m, h, he, hw⟩ := Example.ran
  obtain ⟨names, hi, hos, hle⟩ := Ran.start h
  rcases hi.index _ m _ names hc with ⟨_, _, _, hr⟩ | ⟨m1, names', e2, _⟩
  · rw [hos] at hr
    refine absurd hr (Example.granted ?_)
    rw [hT]
    have : lettersIn Example.texts.mentions = 26 := by decide
    have : lettersIn Example.texts.words = 12 := by decide
    have : lettersIn (MatcherHistory.mentions [(⟨3, Example.title, 1, [Example.other]⟩ : Indexed)]) = 6 := by decide
    have : lettersIn (MatcherHistory.words [(⟨3, Example.title, 1, [Example.other]⟩ : Indexed)]) = 1 := by decide
    have : lettersIn [] = 0 := rfl
    omega
  have hno : emptyFault (!decide (NoEmpty (corpusTexts [documentOf 3 [(Example.title, [Example.other])]]))) = none := by
    rw [hT, decide_eq_true hne]; rfl
  rw [hno] at e2
  refine ⟨m, m1, _, h, hc, e2, hT, ?_, ?_, by rw [he]; exact exact_default _, by rw [hw]; intro f; simp [IndexWeights.getWeight, SMap.find], rfl⟩
  · rw [hT, beforeEmpty_self hne, he]
    intro x hx _ w hwx y hy v hv
    rw [List.mem_singleton] at hx hy
    subst hx hy
    rw [List.mem_singleton] at hwx
    subst hwx
    rw [new_is_default, configured_default, isEditCost_iff] at hv
    obtain ⟨n, hn, hd⟩ := best_unit (q := Example.save) (w := Example.other)
    have hl := edits_length hd.1
    have : limit SearchParameters.new Example.save = 200 := by decide
    rw [this, hv, hn]
    have : Example.save.length = 4 := rfl
    have : Example.other.length = 1 := rfl
    omega
  · rw [hT, beforeEmpty_self hne, he]
    exact sane_default (L := 100) (fun x hx => by rw [List.mem_singleton] at hx; subst hx; exact Example.good_save.noNul) (by decide) (by decide) (by norm_num)

end
end Columbus.Props
