import Verif.Props.Again
/-
C109: documents with nothing in common do not influence each other.
-/

namespace Columbus.Props
open Columbus Spec

section
variable [Build] [Icu] [Runtime] [Fp] {os : Nat → Bool} {m : Matcher} {H : MatcherHistory} {K : List Word}

/-! ### C109 -/

/-- The corpus has neither documents nor fields in common with what is indexed. -/
def Apart (H : MatcherHistory) (c : Corpus) : Prop := ∀ x ∈ corpusTexts c, ∀ y ∈ H, x.doc ≠ y.doc ∧ x.field ≠ y.field

omit [Build] [Icu] [Runtime] [Fp] in
theorem beforeEmpty_from {x : Indexed} : ∀ {T : MatcherHistory}, x ∈ beforeEmpty T → ∃ y ∈ T, y.doc = x.doc ∧ y.field = x.field := by
  intro T
  induction T with
  | nil => intro h; cases h
  | cons y T ih =>
    intro h
    unfold beforeEmpty at h
    split at h
    · cases h
    · split at h
      · rw [List.mem_singleton] at h
        subst h
        exact ⟨y, List.mem_cons_self, rfl, rfl⟩
      · rcases List.mem_cons.1 h with rfl | h
        · exact ⟨x, List.mem_cons_self, rfl, rfl⟩
        · obtain ⟨z, hz, h1⟩ := ih h
          exact ⟨z, List.mem_cons_of_mem _ hz, h1⟩

/-- C109. Indexing documents that have no field in common with the documents indexed before changes nothing in what a search lists
of these: the same documents in the same order with the same relevancies, in double arithmetic, with any parameters, weights and
filter. -/
theorem C109_apart (h : Ran os m H K) (c : Corpus) (hc : CorpusOk c) (ha : Apart H c) (m1 : Matcher) (o : Option Fault)
    (hi : m.index c = (m1, o)) (ho : ∀ f, o = some f → Fault.Benign f) (q : WordList) (p : SearchParameters)
    (hs : Sane m.e q (H ++ beforeEmpty (corpusTexts c))) (he : Exact m.e q) (hu : ∀ w ∈ filterWords p.filter, Usable w)
    (m2 m3 : Matcher) (r r' : MatchResults) (k k' : List Result) (e : m.matchQuery q p = (m2, .ok r)) (hk : Shows r k)
    (e' : m1.matchQuery q p = (m3, .ok r')) (hk' : Shows r' k') : k = k'.filter fun x => decide (x.2 ∈ H.map Indexed.doc) := by
  generalize hT : beforeEmpty (corpusTexts c) = T at *
  have hap : ∀ x ∈ T, ∀ y ∈ H, x.doc ≠ y.doc ∧ x.field ≠ y.field := by
    intro x hx y hy
    rw [← hT] at hx
    obtain ⟨z, hz, h1, h2⟩ := beforeEmpty_from hx
    rw [← h1, ← h2]
    exact ha z hz y hy
  obtain ⟨names, hm, _⟩ := Ran.start h
  have h1 : Ran os m1 (H ++ T) K := by have := Ran.index h hc hi ho; rwa [hT] at this
  have hs0 : Sane m.e q H := by
    refine ⟨hs.noNul, hs.nonNeg, fun x hx => ?_, hs.assertion⟩
    obtain ⟨B, L, b1, b2, b3⟩ := hs.moderate x hx
    refine ⟨B, L, b1, fun y hy => b2 y ?_, b3⟩
    obtain ⟨w, hw, rfl⟩ := List.mem_map.1 hy
    exact List.mem_map.2 ⟨w, by simp only [MatcherHistory.words, List.flatMap_append, List.mem_append] at hw ⊢; exact Or.inl hw, rfl⟩
  rcases hm.index c m H names hc with ⟨_, e2, _⟩ | ⟨m1', names', e2, h2, hpre, _, _, _, e3, e4⟩
  · rw [hi] at e2; injection e2 with _ e2
    rcases ho _ e2 with h | h <;> cases h
  rw [hi] at e2; injection e2 with e2 _
  subst e2
  have hs1 : Sane m1.e q (H ++ T) := by rw [e3]; exact hs
  -- the words of documents and fields known before
  have hp : ∀ d ∈ H.map Indexed.doc, ∀ f w, (H ++ T).Posting d f w ↔ H.Posting d f w := by
    intro d hd f w
    rw [MatcherHistory.posting_append]
    refine ⟨fun h => h.elim id ?_, Or.inl⟩
    rintro ⟨x, hx, rfl, _⟩
    obtain ⟨y, hy, h3⟩ := List.mem_map.1 hd
    exact absurd h3.symm (hap x hx y hy).1
  have hocc : ∀ f ∈ H.map Indexed.field, (H ++ T).occurrences f = H.occurrences f := by
    intro f hf
    obtain ⟨y, hy, rfl⟩ := List.mem_map.1 hf
    rw [MatcherHistory.occurrences_append]
    have : T.occurrences y.field = [] := by
      unfold MatcherHistory.occurrences
      rw [List.filter_eq_nil_iff.2, List.flatMap_nil]
      intro x hx
      simpa using (hap x hx y hy).2
    rw [this, List.append_nil]
  have hcon : ∀ f ∈ H.map Indexed.field, ∀ w v, contribution m.weights (H ++ T) f w v = contribution m.weights H f w v := by
    intro f hf w v
    unfold contribution MatcherHistory.maxCount MatcherHistory.count
    rw [hocc f hf]
  -- the documents listed
  have hlist : ∀ d ∈ H.map Indexed.doc, d ∈ k'.map (·.2) ↔ d ∈ k.map (·.2) := by
    obtain ⟨docs, ha1, _, rfl⟩ := answer_shows hm hs0 hu e hk
    rw [hT] at h2
    obtain ⟨docs', ha2, _, rfl⟩ := answer_shows h2 hs1 hu e' hk'
    intro d hd
    have key : ∀ (G : MatcherHistory) (docs : SMap DocumentID ℚ),
        d ∈ ((listing docs).filter fun x => decide (Satisfies G p.filter x.2)).map (·.2) ↔
        d ∈ docs.map (·.1) ∧ Satisfies G p.filter d := by
      intro G docs
      rw [← mem_listing_docs]
      simp only [List.mem_map, List.mem_filter, decide_eq_true_eq]
      constructor
      · rintro ⟨x, ⟨h1, h2⟩, rfl⟩; exact ⟨⟨x, h1, rfl⟩, h2⟩
      · rintro ⟨⟨x, h1, rfl⟩, h2⟩; exact ⟨x, ⟨h1, h2⟩, rfl⟩
    rw [key, key, hm.answer_mem hs0.nonNeg ha1, h2.answer_mem hs1.nonNeg ha2, e3]
    simp only [hp d hd, Satisfies]
  -- their relevancies
  obtain ⟨ident, hid, hL⟩ := C47_relevancy h q p hs0 he hu m2 r k e hk
  obtain ⟨ident', hid', hL'⟩ := C47_relevancy h1 q p hs1 (by rw [e3]; exact he) hu m3 r' k' e' hk'
  have same : ∀ w ∈ H.mentions, ident w = ident' w := by
    intro w hw
    have g := (hid w hw (ident w)).2 rfl
    rw [hm.store.getWord_iff] at g
    refine (hid' w (by simp only [MatcherHistory.mentions, List.flatMap_append, List.mem_append] at hw ⊢; exact Or.inl hw) (ident w)).1 ?_
    rw [h2.store.getWord_iff]
    obtain ⟨t, rfl⟩ := hpre
    rw [List.getElem?_append_left (List.getElem?_eq_some_iff.1 g).1]
    exact g
  have known : ∀ rel d, (rel, d) ∈ k → d ∈ H.map Indexed.doc := by
    intro rel d hx
    obtain ⟨L, a1, _, a3, _⟩ := hL rel d hx
    obtain ⟨⟨f, w, v⟩, hy⟩ := List.exists_mem_of_ne_nil _ a3
    obtain ⟨⟨x, hxH, rfl, _⟩, _⟩ := (a1 f w v).1 hy
    exact List.mem_map.2 ⟨x, hxH, rfl⟩
  have hrel : ∀ rel rel' d, d ∈ H.map Indexed.doc → (rel, d) ∈ k → (rel', d) ∈ k' → rel' = rel := by
    intro rel rel' d hd hr hr'
    obtain ⟨L, a1, a2, _, rfl⟩ := hL rel d hr
    obtain ⟨L', b1, b2, _, rfl⟩ := hL' rel' d hr'
    have ment : ∀ {f w v}, (f, w, v) ∈ L → f ∈ H.mentions ∧ w ∈ H.mentions ∧ f ∈ H.map Indexed.field := by
      intro f w v hx
      obtain ⟨⟨x, hxT, _, rfl, hw⟩, _⟩ := (a1 f w v).1 hx
      exact ⟨List.mem_flatMap.2 ⟨x, hxT, List.mem_cons_self⟩, List.mem_flatMap.2 ⟨x, hxT, List.mem_cons_of_mem _ hw⟩,
        List.mem_map.2 ⟨x, hxT, rfl⟩⟩
    have mem : ∀ x, x ∈ L' ↔ x ∈ L := by
      rintro ⟨f, w, v⟩
      rw [a1, b1, hp d hd, e3]
    have nd : L.Nodup := a2.imp (by rintro a b (hab | ⟨_, hab⟩) rfl <;> exact Nat.lt_irrefl _ hab)
    have nd' : L'.Nodup := b2.imp (by rintro a b (hab | ⟨_, hab⟩) rfl <;> exact Nat.lt_irrefl _ hab)
    have heq : L' = L := by
      refine List.Perm.eq_of_pairwise (le := fun a b => ident a.1 < ident b.1 ∨ (ident a.1 = ident b.1 ∧ ident a.2.1 < ident b.2.1))
        ?_ ?_ a2 ((List.perm_ext_iff_of_nodup nd' nd).2 mem)
      · intro a b _ _ x y
        exfalso
        rcases x with x | ⟨x, x'⟩ <;> rcases y with y | ⟨y, y'⟩
        · exact Nat.lt_asymm x y
        · rw [y] at x; exact Nat.lt_irrefl _ x
        · rw [x] at y; exact Nat.lt_irrefl _ y
        · exact Nat.lt_asymm x' y'
      · refine b2.imp_of_mem ?_
        intro a b ha hb hab
        obtain ⟨f1, w1, _⟩ := ment ((mem a).1 ha)
        obtain ⟨f2, w2, _⟩ := ment ((mem b).1 hb)
        rw [same _ f1, same _ f2, same _ w1, same _ w2]
        exact hab
    rw [heq, e4]
    congr 1
    refine List.map_congr_left ?_
    rintro ⟨f, w, v⟩ hx
    exact hcon f (ment hx).2.2 w v
  -- both lists are in rank order
  have rank : ∀ {m m' : Matcher} {r : MatchResults} {k : List Result}, m.matchQuery q p = (m', .ok r) → Shows r k → k.Pairwise RankOrder := by
    intro m m' r k e hk
    obtain ⟨k2, hk2, _, hr⟩ := C46_ranked m m' q p r e
    rwa [Columbus.Shows.unique hk hk2]
  have ord1 := rank e hk
  have ord2 := (rank e' hk').filter fun x => decide (x.2 ∈ H.map Indexed.doc)
  have irr : ∀ {k : List Result}, k.Pairwise RankOrder → k.Nodup := by
    intro k hk
    refine hk.imp ?_
    rintro a b (h | ⟨_, h⟩) rfl
    · exact lt_irrefl _ h
    · exact Nat.lt_irrefl _ h
  refine List.Perm.eq_of_pairwise (le := RankOrder) ?_ ord1 ord2 ((List.perm_ext_iff_of_nodup (irr ord1) (irr ord2)).2 ?_)
  · rintro a b _ _ (x | ⟨x, x'⟩) (y | ⟨y, y'⟩)
    · exact absurd (lt_trans x y) (lt_irrefl _)
    · rw [y] at x; exact absurd x (lt_irrefl _)
    · rw [x] at y; exact absurd y (lt_irrefl _)
    · exact absurd (Nat.lt_trans x' y') (Nat.lt_irrefl _)
  · rintro ⟨rel, d⟩
    rw [List.mem_filter, decide_eq_true_eq]
    constructor
    · intro hx
      have hd := known rel d hx
      obtain ⟨⟨rel', d'⟩, hy, hd'⟩ := List.mem_map.1 ((hlist d hd).2 (List.mem_map.2 ⟨_, hx, rfl⟩))
      simp only at hd'
      subst hd'
      rw [hrel rel rel' d' hd hx hy] at hy
      exact ⟨hy, hd⟩
    · rintro ⟨hy, hd⟩
      obtain ⟨⟨rel', d'⟩, hx, hd'⟩ := List.mem_map.1 ((hlist d hd).1 (List.mem_map.2 ⟨_, hy, rfl⟩))
      simp only at hd'
      subst hd'
      rw [← hrel rel' rel d' hd hx hy] at hx
      exact hx
end

section
variable [Build] [Icu] [Runtime] [Fp]

/-- Document 1 with the text "x" in the field "t", then document 2 with the text "x" in the field "x": a search for "x" lists
document 1 with the same relevancy before and after, and afterwards document 2 as well. -/
theorem C109_example : ∃ (c : Corpus) (m m1 : Matcher) (r r' : MatchResults) (k k' : List Result) (rel : ℚ),
    Ran Example.os m [⟨1, Example.fieldT, 1, [Example.wordX]⟩] [] ∧ CorpusOk c ∧ Apart [⟨1, Example.fieldT, 1, [Example.wordX]⟩] c ∧
      m.index c = (m1, none) ∧ m.matchDefault [Example.wordX] = (m, .ok r) ∧ Shows r k ∧
      m1.matchDefault [Example.wordX] = (m1, .ok r') ∧ Shows r' k' ∧ k = [(rel, 1)] ∧ (rel, 1) ∈ k' ∧ 2 ∈ k'.map (·.2) := by
  have hT : corpusTexts [documentOf 1 [(Example.fieldT, [Example.wordX])]] = [⟨1, Example.fieldT, 1, [Example.wordX]⟩] := by decide
  have hT2 : corpusTexts [documentOf 2 [(Example.wordX, [Example.wordX])]] = [⟨2, Example.wordX, 1, [Example.wordX]⟩] := by decide
  have hne : NoEmpty [(⟨1, Example.fieldT, 1, [Example.wordX]⟩ : Indexed)] := by
    intro x hx; rw [List.mem_singleton] at hx; subst hx; exact ⟨by simp [Example.fieldT], by simp [Example.wordX]⟩
  have hne2 : NoEmpty [(⟨2, Example.wordX, 1, [Example.wordX]⟩ : Indexed)] := by
    intro x hx; rw [List.mem_singleton] at hx; subst hx; exact ⟨by simp [Example.wordX], by simp [Example.wordX]⟩
  have hc : CorpusOk [documentOf 1 [(Example.fieldT, [Example.wordX])]] := by
    intro d hd
    rw [List.mem_singleton] at hd
    subst hd
    refine ⟨_, rfl, ?_⟩
    simp only [List.mem_cons, List.not_mem_nil, or_false, forall_eq]
    exact ⟨Or.inr Example.goodT, Or.inr Example.goodX⟩
  have hc2 : CorpusOk [documentOf 2 [(Example.wordX, [Example.wordX])]] := by
    intro d hd
    rw [List.mem_singleton] at hd
    subst hd
    refine ⟨_, rfl, ?_⟩
    simp only [List.mem_cons, List.not_mem_nil, or_false, forall_eq]
    exact ⟨Or.inr Example.goodX, Or.inr Example.goodX⟩
  have hap : Apart [⟨1, Example.fieldT, 1, [Example.wordX]⟩] [documentOf 2 [(Example.wordX, [Example.wordX])]] := by
    intro x hx y hy
    rw [hT2, List.mem_singleton] at hx
    rw [List.mem_singleton] at hy
    subst hx hy
    exact ⟨by decide, by decide⟩
  obtain ⟨m, _, h1, he1, hw1, _⟩ := Example.ran_corpus hc (by rw [hT]; decide)
  rw [hT, beforeEmpty_self hne] at h1
  obtain ⟨names, hi1, hos, hle⟩ := Ran.start h1
  rcases hi1.index _ m _ names hc2 with ⟨_, _, _, hr⟩ | ⟨m1, names', e2, h2, _, _, _, _, he2, hw2⟩
  · rw [hos] at hr
    refine absurd hr (Example.granted ?_)
    rw [hT2]
    have : lettersIn (MatcherHistory.mentions [(⟨1, Example.fieldT, 1, [Example.wordX]⟩ : Indexed)]) = 2 := by decide
    have : lettersIn (MatcherHistory.words [(⟨1, Example.fieldT, 1, [Example.wordX]⟩ : Indexed)]) = 1 := by decide
    have : lettersIn (MatcherHistory.mentions [(⟨2, Example.wordX, 1, [Example.wordX]⟩ : Indexed)]) = 2 := by decide
    have : lettersIn (MatcherHistory.words [(⟨2, Example.wordX, 1, [Example.wordX]⟩ : Indexed)]) = 1 := by decide
    have : lettersIn [] = 0 := rfl
    omega
  have hno : emptyFault (!decide (NoEmpty (corpusTexts [documentOf 2 [(Example.wordX, [Example.wordX])]]))) = none := by
    rw [hT2, decide_eq_true hne2]; rfl
  rw [hno] at e2
  have hr2 := Ran.index h1 hc2 e2 (by intro f hf; cases hf)
  rw [he1] at he2
  have sane : Sane m.e [Example.wordX] ([⟨1, Example.fieldT, 1, [Example.wordX]⟩] ++
      beforeEmpty (corpusTexts [documentOf 2 [(Example.wordX, [Example.wordX])]])) := by
    rw [he1, hT2, beforeEmpty_self hne2]
    exact sane_default (L := 1) (by simp [Example.wordX]) (by simp [Example.wordX]) (by decide) (by norm_num)
  have sane1 : Sane m.e [Example.wordX] [⟨1, Example.fieldT, 1, [Example.wordX]⟩] := by
    rw [he1]
    exact sane_default (L := 1) (by simp [Example.wordX]) (by simp [Example.wordX]) (by decide) (by norm_num)
  have self : IsEditDistance Example.wordX Example.wordX 0 := ⟨Edits.keep _ .nil, fun m _ => Nat.zero_le m⟩
  obtain ⟨r, k, e, hk, hm⟩ := C44_default h1 he1 [Example.wordX] .new sane1 rfl
  obtain ⟨r', k', e', hk', hm'⟩ := C44_default hr2 he2 [Example.wordX] .new (by rw [he2, ← he1]; exact sane) rfl
  have key := C109_apart h1 _ hc2 hap m1 none e2 (by intro f hf; cases hf) [Example.wordX] .new sane
    (by rw [he1]; exact exact_default _) (by intro w hw; cases hw) m m1 r r' k k' e hk e' hk'
  have in1 := (hm 1).2 ⟨_, _, Example.wordX, 0, ⟨_, List.mem_singleton.2 rfl, rfl, rfl, List.mem_singleton.2 rfl⟩, rfl,
    List.mem_singleton.2 rfl, self, Nat.zero_le _⟩
  have in2 := (hm' 2).2 ⟨_, _, Example.wordX, 0, ⟨⟨2, Example.wordX, 1, [Example.wordX]⟩, by
    rw [hT2, beforeEmpty_self hne2]; simp, rfl, rfl, List.mem_singleton.2 rfl⟩, rfl, List.mem_singleton.2 rfl, self, Nat.zero_le _⟩
  obtain ⟨⟨rel, d⟩, hx, hd⟩ := List.mem_map.1 in1
  simp only at hd
  subst hd
  have one : ∀ x ∈ k, x.2 = 1 := by
    intro x hx
    rw [key, List.mem_filter] at hx
    simpa using hx.2
  have single : k = [(rel, 1)] := by
    obtain ⟨k2, hk2, hnd, _⟩ := C46_ranked m m _ _ r e
    obtain rfl := Columbus.Shows.unique hk hk2
    match k, hx, one, hnd with
    | [x], hx, _, _ => rw [List.mem_singleton] at hx; rw [hx]
    | x :: y :: t, _, one, hnd =>
      have a1 := one x (by simp)
      have a2 := one y (by simp)
      simp [a1, a2] at hnd
  refine ⟨_, m, m1, r, r', k, k', rel, h1, hc2, hap, e2, e, hk, e', hk', single, ?_, in2⟩
  rw [key, List.mem_filter] at hx
  exact hx.1

end

end Columbus.Props
