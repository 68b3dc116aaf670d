import Verif.Proofs.Accuracy
import Verif.Proofs.MatcherMore
import Verif.Props.Matcher
/-
C73-C75: relevancies in IEEE double arithmetic, the order of indexing, and searching more.
-/

namespace Columbus.Props
open Columbus Spec

section
attribute [local instance] ieee

/-! ### C73 -/

/-- C73. The rounding used here yields doubles, and no double is nearer to the exact result. -/
theorem C73_nearest (x : ℚ) : IsDouble (Fp.rnd x) ∧ ∀ y, IsDouble y → |x - Fp.rnd x| ≤ |x - y| :=
  ⟨roundDouble_isDouble x, fun _ hy => roundDouble_nearest x hy⟩

/-- One third is not a double; it is rounded down. -/
example : (Fp.rnd (1/3) : ℚ) = 6004799503160661 / 2^54 := by
  have hl : lastBit (1/3) = -54 := by
    unfold lastBit
    have h1 : Int.log 2 |(1/3 : ℚ)| = -2 := by
      rw [abs_of_pos (by norm_num)]
      have a := log_lt_of (x := (1/3 : ℚ)) (e := -1) (by norm_num) (by norm_num)
      have b := lt_log (1/3 : ℚ)
      by_contra hne
      have : Int.log 2 (1/3 : ℚ) + 1 ≤ -2 := by omega
      have := lt_of_lt_of_le b (zpow_le_zpow_right₀ (by norm_num : (1 : ℚ) ≤ 2) this)
      norm_num at this
    rw [h1]; norm_num
  show roundDouble (1/3) = _
  unfold roundDouble
  rw [hl]
  have hf : ⌊(1/3 : ℚ) / 2^(-54 : ℤ)⌋ = 6004799503160661 := by rw [Int.floor_eq_iff]; norm_num
  have hr : roundEven ((1/3 : ℚ) / 2^(-54 : ℤ)) = 6004799503160661 := by
    unfold roundEven
    rw [hf, if_pos (by norm_num)]
  rw [hr]
  norm_num

variable [Build] [Icu] {os : Nat → Bool} {m : Matcher} {H : MatcherHistory} {K : List Word}

omit [Icu] in
/-- The terms of a relevancy, as far as they matter here. -/
theorem terms_ok {L : List (Word × Word × Int)} {d : DocumentID} {p : SearchParameters} {q : WordList}
    (hs : Sane m.e q H) {k : ℤ} (hw : ∀ x ∈ H, 0 ≤ IndexWeights.getWeight m.weights x.field ∧ IndexWeights.getWeight m.weights x.field ≤ 2^k)
    (hk : -1021 ≤ k)
    (hL : ∀ f w v, (f, w, v) ∈ L ↔ H.Posting d f w ∧ p.isNonsearchingField f = false ∧ CloseTo m.e p q w v) (hn : L.Nodup) :
    (∀ x ∈ L, (0 ≤ x.2.2 ∧ x.2.2 < 2^31) ∧
      0 ≤ IndexWeights.getWeight m.weights x.1 ∧ IndexWeights.getWeight m.weights x.1 ≤ 2^k) ∧
    (∀ y ∈ L.map fun x => contribution m.weights H x.1 x.2.1 x.2.2, 0 ≤ y ∧ y ≤ 2^k) ∧ L.length ≤ H.words.length := by
  have h1 : ∀ x ∈ L, (0 ≤ x.2.2 ∧ x.2.2 < 2^31) ∧
      0 ≤ IndexWeights.getWeight m.weights x.1 ∧ IndexWeights.getWeight m.weights x.1 ≤ 2^k := by
    rintro ⟨f, w, v⟩ hx
    obtain ⟨⟨t, ht, _, rfl, _⟩, _, hc⟩ := (hL f w v).1 hx
    have := Columbus.CloseTo.bounds hs.nonNeg hc
    exact ⟨⟨this.1, show v < 2^31 by omega⟩, hw t ht⟩
  refine ⟨h1, ?_, ?_⟩
  · intro y hy
    obtain ⟨x, hx, rfl⟩ := List.mem_map.1 hy
    obtain ⟨⟨a, _⟩, b, c⟩ := h1 x hx
    exact contribution_range a b c hk
  · have := MatcherHistory.pairs_le (H := H) (L := L.map fun x => (x.1, x.2.1)) ?_ ?_
    · simpa using this
    · refine (List.nodup_map_iff_inj_on hn).2 ?_
      rintro ⟨f, w, v⟩ hx ⟨f', w', v'⟩ hy e
      injection e with e1 e2
      simp only at e1 e2
      subst e1; subst e2
      rw [Columbus.CloseTo.unique ((hL _ _ _).1 hx).2.2 ((hL _ _ _).1 hy).2.2]
    · intro x hx
      obtain ⟨⟨f, w, v⟩, hy, rfl⟩ := List.mem_map.1 hx
      obtain ⟨⟨t, ht, _, e, hwt⟩, _⟩ := (hL f w v).1 hy
      exact ⟨t, ht, e, hwt⟩

/-- C73. With IEEE arithmetic, and weights between 0 and a power of two, the relevancy of a document with `n` matching words
is within `n*(n+6)*2^-54` of that power of the exact sum of 100/(100+error) * (1 - count/(maxCount+1)) * weight. On the way
every contribution is between 0 and the power, and every partial sum of `i` of them at most `i` times as large; so nothing
overflows. -/
theorem C73_accuracy [Runtime] (h : Ran os m H K) (q : WordList) (p : SearchParameters) (hs : Sane m.e q H) (he : Exact m.e q)
    (hu : ∀ w ∈ filterWords p.filter, Usable w) (hH : H.words.length < 2^53) (b : ℤ) (hb : -1021 ≤ b)
    (hw : ∀ x ∈ H, 0 ≤ IndexWeights.getWeight m.weights x.field ∧ IndexWeights.getWeight m.weights x.field ≤ 2^b) (m' : Matcher)
    (r : MatchResults) (k : List Result) (e : m.matchQuery q p = (m', .ok r)) (hk : Shows r k) :
    ∀ rel d, (rel, d) ∈ k → ∃ L : List (Word × Word × Int), L.Nodup ∧ L.length ≤ H.words.length ∧
      (∀ f w v, (f, w, v) ∈ L ↔ H.Posting d f w ∧ p.isNonsearchingField f = false ∧ CloseTo m.e p q w v) ∧
      |rel - (L.map fun x => exactContribution m.weights H x.1 x.2.1 x.2.2).sum| ≤ L.length * (L.length + 6) * 2^b * 2^(-54 : ℤ) ∧
      rel = sumUp (L.map fun x => contribution m.weights H x.1 x.2.1 x.2.2) ∧
      ∀ i ≤ L.length, 0 ≤ sumUp ((L.map fun x => contribution m.weights H x.1 x.2.1 x.2.2).take i) ∧
        sumUp ((L.map fun x => contribution m.weights H x.1 x.2.1 x.2.2).take i) ≤ i * 2^b := by
  obtain ⟨ident, _, hL⟩ := C47_relevancy h q p hs he hu m' r k e hk
  intro rel d hd
  obtain ⟨L, h1, h2, _, h4⟩ := hL rel d hd
  have hn : L.Nodup := by
    refine h2.imp ?_
    rintro a b h rfl
    rcases h with h | ⟨_, h⟩ <;> exact absurd h (lt_irrefl _)
  obtain ⟨t1, t2, t3⟩ := terms_ok hs hw hb h1 hn
  refine ⟨L, hn, t3, h1, ?_, h4, ?_⟩
  · obtain ⟨_, _, a⟩ := sumUp_range hb _ t2 (by rw [List.length_map]; omega)
    have hc : ∀ x ∈ L, |contribution m.weights H x.1 x.2.1 x.2.2 - exactContribution m.weights H x.1 x.2.1 x.2.2| ≤
        5 * 2^b * 2^(-54 : ℤ) := by
      intro x hx
      have hm : H.maxCount x.1 < 2^53 := lt_of_le_of_lt (MatcherHistory.maxCount_le H x.1) hH
      exact contribution_err (t1 x hx).1.1 (t1 x hx).1.2 hm (t1 x hx).2.1 (t1 x hx).2.2 hb
    have c := sum_err (fun x : Word × Word × Int => contribution m.weights H x.1 x.2.1 x.2.2)
      (fun x => exactContribution m.weights H x.1 x.2.1 x.2.2) _ L hc
    rw [List.length_map, ← h4] at a
    rw [abs_le] at *
    constructor <;> nlinarith [a.1, a.2, c.1, c.2]
  · intro i hi
    generalize hC : (L.map fun x => contribution m.weights H x.1 x.2.1 x.2.2) = C at t2 ⊢
    have hlen : C.length = L.length := by rw [← hC, List.length_map]
    have hC' : (C.take i).length = i := by rw [List.length_take, hlen, min_eq_left hi]
    obtain ⟨a, c, _⟩ := sumUp_range hb (C.take i) (fun y hy => t2 y (List.mem_of_mem_take hy)) (by rw [hC']; omega)
    rw [hC'] at c
    exact ⟨a, c⟩

/-- The default weight is 1. -/
example [Runtime] : ∃ m : Matcher, Ran Example.os m Example.texts [] ∧ Sane m.e [Example.save] Example.texts ∧
    Exact m.e [Example.save] ∧ Example.texts.words.length < 2^53 ∧
    ∀ x ∈ Example.texts, 0 ≤ IndexWeights.getWeight m.weights x.field ∧ IndexWeights.getWeight m.weights x.field ≤ 2^(0 : ℤ) := by
  obtain ⟨m, h, he, hw⟩ := Example.ran
  refine ⟨m, h, by rw [he]; exact Example.sane_save, by rw [he]; exact exact_default _, by decide, ?_⟩
  rw [hw]
  intro x _
  simp [IndexWeights.getWeight, SMap.find]

end

/-! ### C74 -/

section
variable [Build] [Icu] {os os' : Nat → Bool} {m1 m2 : Matcher} {H1 H2 : MatcherHistory} {K1 K2 : List Word}

/-- C74. Two matchers that indexed the same texts, in whatever order, in whatever portions and with whatever searches in
between, find the same documents. -/
theorem C74_documents [Fp] (R1 R2 : Runtime) (h1 : @Ran _ _ R1 _ os m1 H1 K1) (h2 : @Ran _ _ R2 _ os' m2 H2 K2)
    (hH : H1.Perm H2) (hE : m1.e = m2.e) (q : WordList) (p : SearchParameters) (hs : Sane m1.e q H1)
    (hu : ∀ w ∈ filterWords p.filter, Usable w) (m1' m2' : Matcher) (r1 r2 : MatchResults) (k1 k2 : List Result)
    (e1 : @Matcher.matchQuery _ R1 _ m1 q p = (m1', .ok r1)) (s1 : Shows r1 k1)
    (e2 : @Matcher.matchQuery _ R2 _ m2 q p = (m2', .ok r2)) (s2 : Shows r2 k2) :
    ∀ d, d ∈ k1.map (·.2) ↔ d ∈ k2.map (·.2) := by
  have hs' : Sane m2.e q H2 := hE ▸ Columbus.Sane.perm hs hH
  obtain ⟨_, i1, _⟩ := @Ran.start _ _ R1 _ _ _ _ _ h1
  obtain ⟨_, i2, _⟩ := @Ran.start _ _ R2 _ _ _ _ _ h2
  obtain ⟨d1, a1, _, rfl⟩ := @answer_shows _ _ R1 _ _ _ _ i1 q p hs hu _ _ _ e1 s1
  obtain ⟨d2, a2, _, rfl⟩ := @answer_shows _ _ R2 _ _ _ _ i2 q p hs' hu _ _ _ e2 s2
  intro d
  have key : ∀ (H : MatcherHistory) (D : SMap DocumentID ℚ),
      d ∈ ((listing D).filter fun x => decide (Satisfies H p.filter x.2)).map (·.2) ↔ d ∈ D.map (·.1) ∧ Satisfies H p.filter d := by
    intro H D
    rw [← mem_listing_docs]
    simp only [List.mem_map, List.mem_filter, decide_eq_true_eq]
    constructor
    · rintro ⟨x, ⟨a, b⟩, rfl⟩; exact ⟨⟨x, a, rfl⟩, b⟩
    · rintro ⟨⟨x, a, rfl⟩, b⟩; exact ⟨x, ⟨a, b⟩, rfl⟩
  rw [key, key, i1.answer_mem hs.nonNeg a1, i2.answer_mem hs'.nonNeg a2, Columbus.Satisfies.perm hH]
  simp only [MatcherHistory.perm_posting hH, hE]

attribute [local instance] ieee in
/-- C74. The relevancies of a document agree up to rounding, though word identifiers and with them the order of additions
differ. -/
theorem C74_relevancy (R1 R2 : Runtime) (h1 : @Ran _ _ R1 _ os m1 H1 K1) (h2 : @Ran _ _ R2 _ os' m2 H2 K2)
    (hH : H1.Perm H2) (hE : m1.e = m2.e) (hW : ∀ f, IndexWeights.getWeight m1.weights f = IndexWeights.getWeight m2.weights f)
    (q : WordList) (p : SearchParameters) (hs : Sane m1.e q H1) (he : Exact m1.e q)
    (hu : ∀ w ∈ filterWords p.filter, Usable w) (hl : H1.words.length < 2^53) (b : ℤ) (hb : -1021 ≤ b)
    (hw : ∀ x ∈ H1, 0 ≤ IndexWeights.getWeight m1.weights x.field ∧ IndexWeights.getWeight m1.weights x.field ≤ 2^b)
    (m1' m2' : Matcher) (r1 r2 : MatchResults) (k1 k2 : List Result)
    (e1 : @Matcher.matchQuery _ R1 _ m1 q p = (m1', .ok r1)) (s1 : Shows r1 k1)
    (e2 : @Matcher.matchQuery _ R2 _ m2 q p = (m2', .ok r2)) (s2 : Shows r2 k2) :
    ∀ d rel1 rel2, (rel1, d) ∈ k1 → (rel2, d) ∈ k2 → ∃ L : List (Word × Word × Int), L.Nodup ∧
      (∀ f w v, (f, w, v) ∈ L ↔ H1.Posting d f w ∧ p.isNonsearchingField f = false ∧ CloseTo m1.e p q w v) ∧
      |rel1 - rel2| ≤ 2 * (L.length * (L.length + 6) * 2^b * 2^(-54 : ℤ)) := by
  intro d rel1 rel2 d1 d2
  have hs' : Sane m2.e q H2 := hE ▸ Columbus.Sane.perm hs hH
  have he' : Exact m2.e q := hE ▸ he
  have hl' : H2.words.length < 2^53 := by rw [← (MatcherHistory.perm_words hH).length_eq]; exact hl
  obtain ⟨L1, n1, _, t1, a1, _⟩ := @C73_accuracy _ _ _ _ _ _ R1 h1 q p hs he hu hl b hb hw m1' r1 k1 e1 s1 rel1 d d1
  obtain ⟨L2, n2, _, t2, a2, _⟩ := @C73_accuracy _ _ _ _ _ _ R2 h2 q p hs' he' hu hl' b hb
    (fun x hx => by rw [← hW]; exact hw x (hH.mem_iff.2 hx)) m2' r2 k2 e2 s2 rel2 d d2
  refine ⟨L1, n1, t1, ?_⟩
  have hp : L1.Perm L2 := (List.perm_ext_iff_of_nodup n1 n2).2 fun ⟨f, w, v⟩ => by
    rw [t1, t2, MatcherHistory.perm_posting hH, hE]
  have hsum : (L1.map fun x => exactContribution m1.weights H1 x.1 x.2.1 x.2.2).sum =
      (L2.map fun x => exactContribution m2.weights H2 x.1 x.2.1 x.2.2).sum := by
    have : (fun x : Word × Word × Int => exactContribution m1.weights H1 x.1 x.2.1 x.2.2) =
        fun x => exactContribution m2.weights H2 x.1 x.2.1 x.2.2 := by
      funext x
      unfold exactContribution
      rw [MatcherHistory.perm_count hH, MatcherHistory.perm_maxCount hH, hW]
    rw [this]
    exact (hp.map _).sum_eq
  rw [hsum] at a1
  rw [← hp.length_eq] at a2
  rw [abs_le] at *
  constructor <;> linarith [a1.1, a1.2, a2.1, a2.2]

/-- The documents of the example indexed one after the other, the last one first. -/
example [Fp] [Runtime] : ∃ m1 m2 H2, Ran Example.os m1 Example.texts [] ∧ Ran Example.os m2 H2 [] ∧ H2 ≠ Example.texts ∧
    Example.texts.Perm H2 ∧ m1.e = m2.e ∧ m1.weights = m2.weights ∧ Sane m1.e [Example.save] Example.texts := by
  obtain ⟨m1, h1, e1, w1⟩ := Example.ran
  obtain ⟨m2, _, h2, e2, w2, _⟩ := Example.ran_corpus (c := Example.corpus.reverse)
    (fun d hd => Example.corpus_ok d (List.mem_reverse.1 hd)) (by decide)
  have hb : beforeEmpty (corpusTexts Example.corpus.reverse) =
      [⟨2, Example.body, 1, [Example.as]⟩, ⟨2, Example.title, 1, [Example.save]⟩, ⟨1, Example.title, 2, [Example.save, Example.as]⟩] := by
    decide
  rw [hb] at h2
  refine ⟨m1, m2, _, h1, h2, by decide, by decide, by rw [e1, e2], by rw [w1, w2], by rw [e1]; exact Example.sane_save⟩

end

/-! ### C75 -/

section
variable [Build] [Icu] [Runtime] [Fp] {os : Nat → Bool} {m : Matcher} {H : MatcherHistory} {K : List Word}

/-- C75. Without negative weights, a search with more query words, fewer excluded fields and no lower limits finds every
document again, with no lower relevancy. -/
theorem C75_more (h : Ran os m H K) (q q' : WordList) (p p' : SearchParameters) (hs : Sane m.e q H) (hs' : Sane m.e q' H)
    (hw : ∀ f, 0 ≤ IndexWeights.getWeight m.weights f) (hu : ∀ w ∈ filterWords p.filter, Usable w)
    (hq : ∀ x ∈ q, x ∈ q') (hx : ∀ f, p'.isNonsearchingField f = true → p.isNonsearchingField f = true)
    (hl : p'.isDynamic = true → p.isDynamic = true) (hf : p'.filter = p.filter)
    (m1 m2 : Matcher) (r r' : MatchResults) (k k' : List Result) (e : m.matchQuery q p = (m1, .ok r)) (hk : Shows r k)
    (e' : m.matchQuery q' p' = (m2, .ok r')) (hk' : Shows r' k') :
    ∀ rel d, (rel, d) ∈ k → ∃ rel', (rel', d) ∈ k' ∧ rel ≤ rel' := by
  obtain ⟨names, hi, _⟩ := Ran.start h
  obtain ⟨docs, ha, _, rfl⟩ := answer_shows hi hs hu e hk
  obtain ⟨docs', ha', _, rfl⟩ := answer_shows hi hs' (by rw [hf]; exact hu) e' hk'
  intro rel d hd
  obtain ⟨h1, h2⟩ := List.mem_filter.1 hd
  have hlim : ∀ x ∈ q, limit p x ≤ limit p' x := by
    intro x _
    unfold limit
    split
    · split <;> norm_num
    · rename_i hn
      rw [if_neg fun hp => hn ⟨hl hp.1, hp.2⟩]
  obtain ⟨rel', h3, h4⟩ := answer_more hs'.nonNeg hw (fun i j v => Columbus.QueryHits.more hq hx hlim) ha ha' (mem_listing.1 h1)
  exact ⟨rel', List.mem_filter.2 ⟨mem_listing.2 h3, by rw [hf]; exact h2⟩, h4⟩

/-- "save" and then "save as", the body excluded and then not. -/
example : ∃ m : Matcher, Ran Example.os m Example.texts [] ∧ Sane m.e [Example.save] Example.texts ∧
    Sane m.e [Example.save, Example.as] Example.texts ∧ (∀ f, 0 ≤ IndexWeights.getWeight m.weights f) ∧
    (SearchParameters.new.addNonsearchingField Example.body).isNonsearchingField Example.body = true ∧
    SearchParameters.new.isNonsearchingField Example.body = false := by
  obtain ⟨m, h, he, hw⟩ := Example.ran
  refine ⟨m, h, by rw [he]; exact Example.sane_save, ?_, ?_, by decide, by decide⟩
  · rw [he]; exact Example.sane (by simp [Example.good_save, Example.good_as]) (by decide)
  · rw [hw]; intro f; simp [IndexWeights.getWeight, SMap.find]

end
end Columbus.Props
