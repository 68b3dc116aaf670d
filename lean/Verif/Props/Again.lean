import Verif.Props.Better
/-
C107: indexing again what is indexed already.
-/

namespace Columbus.Props
open Columbus Spec

section
variable [Build] [Icu] [Runtime] [Fp] {os : Nat → Bool} {m : Matcher} {H : MatcherHistory} {K : List Word}

/-! ### C107 -/

/-- All words of the corpus are in the same fields of the same documents already. -/
def Already (H : MatcherHistory) (c : Corpus) : Prop := ∀ d f w, (corpusTexts c).Posting d f w → H.Posting d f w

omit [Build] [Icu] [Runtime] [Fp] in
theorem already_iff (c : Corpus) (ha : Already H c) (d : DocumentID) (f w : Word) :
    (H ++ beforeEmpty (corpusTexts c)).Posting d f w ↔ H.Posting d f w := by
  rw [MatcherHistory.posting_append]
  refine ⟨fun h => h.elim id fun h => ha d f w ?_, Or.inl⟩
  obtain ⟨x, hx, rfl, rfl, hw⟩ := h
  have key : ∀ T : MatcherHistory, x ∈ beforeEmpty T → ∃ y ∈ T, y.doc = x.doc ∧ y.field = x.field ∧ ∀ w ∈ x.words, w ∈ y.words := by
    intro T
    induction T with
    | nil => intro h; cases h
    | cons y T ih =>
      intro h
      unfold beforeEmpty at h
      split at h
      · cases h
      · split at h
        · rw [List.mem_singleton] at h
          subst h
          exact ⟨y, List.mem_cons_self, rfl, rfl, fun w hw => (List.takeWhile_sublist _).subset hw⟩
        · rcases List.mem_cons.1 h with rfl | h
          · exact ⟨x, List.mem_cons_self, rfl, rfl, fun w hw => hw⟩
          · obtain ⟨z, hz, h1⟩ := ih h
            exact ⟨z, List.mem_cons_of_mem _ hz, h1⟩
  obtain ⟨y, hy, h1, h2, h3⟩ := key _ hx
  exact ⟨y, hy, h1, h2, h3 w hw⟩

/-- C107, what holds of the documents: indexing again what is indexed already, or part of it, does not change which documents a
search lists, with any parameters and filter. Missing: that their relevancies stay the same (C107_false). -/
theorem C107_partial (h : Ran os m H K) (c : Corpus) (hc : CorpusOk c) (ha : Already H c) (m1 : Matcher) (o : Option Fault)
    (hi : m.index c = (m1, o)) (ho : ∀ f, o = some f → Fault.Benign f) (q : WordList) (p : SearchParameters)
    (hs : Sane m.e q (H ++ beforeEmpty (corpusTexts c))) (hu : ∀ w ∈ filterWords p.filter, Usable w)
    (m2 m3 : Matcher) (r r' : MatchResults) (k k' : List Result) (e : m.matchQuery q p = (m2, .ok r)) (hk : Shows r k)
    (e' : m1.matchQuery q p = (m3, .ok r')) (hk' : Shows r' k') : ∀ d, d ∈ k'.map (·.2) ↔ d ∈ k.map (·.2) := by
  obtain ⟨names, hm, _⟩ := Ran.start h
  have hs0 : Sane m.e q H := by
    refine ⟨hs.noNul, hs.nonNeg, fun x hx => ?_, hs.assertion⟩
    obtain ⟨B, L, b1, b2, b3⟩ := hs.moderate x hx
    refine ⟨B, L, b1, fun y hy => b2 y ?_, b3⟩
    obtain ⟨w, hw, rfl⟩ := List.mem_map.1 hy
    exact List.mem_map.2 ⟨w, by simp only [MatcherHistory.words, List.flatMap_append, List.mem_append] at hw ⊢; exact Or.inl hw, rfl⟩
  rcases hm.index c m H names hc with ⟨_, e2, _⟩ | ⟨m1', names', e2, h2, _, _, _, _, e3, _⟩
  · rw [hi] at e2; injection e2 with _ e2
    rcases ho _ e2 with h | h <;> cases h
  · rw [hi] at e2; injection e2 with e2 _
    subst e2
    obtain ⟨docs, ha1, _, rfl⟩ := answer_shows hm hs0 hu e hk
    obtain ⟨docs', ha2, _, rfl⟩ := answer_shows h2 (by rw [e3]; exact hs) hu e' hk'
    intro d
    have key : ∀ (G : MatcherHistory) (docs : SMap DocumentID ℚ),
        d ∈ ((listing docs).filter fun x => decide (Satisfies G p.filter x.2)).map (·.2) ↔
        d ∈ docs.map (·.1) ∧ Satisfies G p.filter d := by
      intro G docs
      rw [← mem_listing_docs]
      simp only [List.mem_map, List.mem_filter, decide_eq_true_eq]
      constructor
      · rintro ⟨x, ⟨h1, h2⟩, rfl⟩; exact ⟨⟨x, h1, rfl⟩, h2⟩
      · rintro ⟨⟨x, h1, rfl⟩, h2⟩; exact ⟨x, ⟨h1, h2⟩, rfl⟩
    rw [key, key, hm.answer_mem hs0.nonNeg ha1, h2.answer_mem (by rw [e3]; exact hs.nonNeg) ha2, e3]
    simp only [already_iff c ha, Satisfies]

omit [Build] [Icu] [Runtime] in
/-- Twice as many of everything count no more. -/
theorem contribution_twice (W : IndexWeights) (f w : Word) (v : Int) (hv : 0 ≤ v) (hw : 0 ≤ IndexWeights.getWeight W f)
    (hn : H.words.length ≤ 2 ^ 50) : contribution W (H ++ H) f w v ≤ contribution W H f w v := by
  have c2 : ∀ w, (H ++ H).count f w = 2 * H.count f w := by
    intro w
    simp only [MatcherHistory.count, MatcherHistory.occurrences_append, List.count_append]; omega
  have hM : (H ++ H).maxCount f = 2 * H.maxCount f := by
    apply Nat.le_antisymm
    · rcases MatcherHistory.max_attained (H ++ H) f with h | ⟨w, _, h⟩
      · rw [h]; exact Nat.zero_le _
      · rw [← h, c2]; have := MatcherHistory.count_le_max H f w; omega
    · rcases MatcherHistory.max_attained H f with h | ⟨w, _, h⟩
      · rw [h]; exact Nat.zero_le _
      · rw [← h, ← c2]; exact MatcherHistory.count_le_max _ f w
  have hm := MatcherHistory.maxCount_le H f
  have hc := MatcherHistory.count_le_max H f w
  have ex : ∀ n : Nat, n ≤ 2 ^ 53 → ofInt (n : Int) = n := by
    intro n hn
    rw [ofInt, rnd_int _ (by rw [abs_of_nonneg (by positivity)]; exact_mod_cast hn)]
    simp
  have ex1 : ∀ n : Nat, n < 2 ^ 53 → ofInt ((n : Int) + 1) = n + 1 := by
    intro n hn
    have := ex (n + 1) hn
    push_cast at this
    exact this
  rw [contribution_eq, contribution_eq]
  refine Fp.rnd_mono _ _ (mul_le_mul_of_nonneg_right ?_ hw)
  unfold factor
  have d1 : (100 : ℚ) ≤ fadd 100 (ofInt v) := denominator hv
  refine Fp.rnd_mono _ _ (mul_le_mul_of_nonneg_left ?_ (rnd_nonneg (by apply div_nonneg <;> linarith)))
  refine Fp.rnd_mono _ _ (sub_le_sub_left (Fp.rnd_mono _ _ ?_) _)
  rw [c2, hM, ex _ (by omega), ex _ (by omega), ex1 _ (by omega), ex1 _ (by omega)]
  push_cast
  have p1 : (0 : ℚ) < (H.maxCount f : ℚ) + 1 := by positivity
  have p2 : (0 : ℚ) < 2 * (H.maxCount f : ℚ) + 1 := by positivity
  have p3 : (0 : ℚ) ≤ (H.count f w : ℚ) := by positivity
  rw [div_le_div_iff₀ p1 p2]
  nlinarith

/-- C107, what holds of the relevancies: indexing all that is indexed already once more raises none of them, if no weight is
negative and there are at most 2^50 words. -/
theorem C107_lower_partial (c : Corpus) (h : Ran os m (beforeEmpty (corpusTexts c)) K) (hc : CorpusOk c) (m1 : Matcher)
    (o : Option Fault) (hi : m.index c = (m1, o)) (ho : ∀ f, o = some f → Fault.Benign f) (q : WordList) (p : SearchParameters)
    (hs : Sane m.e q (beforeEmpty (corpusTexts c))) (he : Exact m.e q) (hu : ∀ w ∈ filterWords p.filter, Usable w)
    (hw : ∀ f, 0 ≤ IndexWeights.getWeight m.weights f) (hn : (beforeEmpty (corpusTexts c)).words.length ≤ 2 ^ 50)
    (m2 m3 : Matcher) (r r' : MatchResults) (k k' : List Result) (e : m.matchQuery q p = (m2, .ok r)) (hk : Shows r k)
    (e' : m1.matchQuery q p = (m3, .ok r')) (hk' : Shows r' k') :
    ∀ rel rel' d, (rel, d) ∈ k → (rel', d) ∈ k' → rel' ≤ rel := by
  generalize hT : beforeEmpty (corpusTexts c) = T at *
  obtain ⟨names, hm, _⟩ := Ran.start h
  have h1 : Ran os m1 (T ++ T) K := by have := Ran.index h hc hi ho; rwa [hT] at this
  rcases hm.index c m T names hc with ⟨_, e2, _⟩ | ⟨m1', names', e2, h2, hpre, _, _, _, e3, e4⟩
  · rw [hi] at e2; injection e2 with _ e2
    rcases ho _ e2 with h | h <;> cases h
  rw [hi] at e2; injection e2 with e2 _
  subst e2
  have hs' : Sane m1.e q (T ++ T) := by
    rw [e3]
    refine ⟨hs.noNul, hs.nonNeg, fun x hx => ?_, hs.assertion⟩
    obtain ⟨B, L, b1, b2, b3⟩ := hs.moderate x hx
    refine ⟨B, L, b1, fun y hy => b2 y ?_, b3⟩
    obtain ⟨w, hw, rfl⟩ := List.mem_map.1 hy
    exact List.mem_map.2 ⟨w, by simpa [MatcherHistory.words] using hw, rfl⟩
  obtain ⟨ident, hid, hL⟩ := C47_relevancy h q p hs he hu m2 r k e hk
  obtain ⟨ident', hid', hL'⟩ := C47_relevancy h1 q p hs' (by rw [e3]; exact he) hu m3 r' k' e' hk'
  have same : ∀ w ∈ T.mentions, ident w = ident' w := by
    intro w hw
    have g := (hid w hw (ident w)).2 rfl
    rw [hm.store.getWord_iff] at g
    refine (hid' w (by simp only [MatcherHistory.mentions, List.flatMap_append, List.mem_append] at hw ⊢; exact Or.inl hw) (ident w)).1 ?_
    rw [h2.store.getWord_iff]
    obtain ⟨t, rfl⟩ := hpre
    rw [List.getElem?_append_left (List.getElem?_eq_some_iff.1 g).1]
    exact g
  intro rel rel' d hr hr'
  obtain ⟨L, a1, a2, _, rfl⟩ := hL rel d hr
  obtain ⟨L', b1, b2, _, rfl⟩ := hL' rel' d hr'
  have hp : ∀ d f w, (T ++ T).Posting d f w ↔ T.Posting d f w := by
    intro d f w; rw [MatcherHistory.posting_append]; exact or_self_iff
  have ment : ∀ {f w v}, (f, w, v) ∈ L → f ∈ T.mentions ∧ w ∈ T.mentions := by
    intro f w v hx
    obtain ⟨⟨x, hxT, _, rfl, hw⟩, _⟩ := (a1 f w v).1 hx
    exact ⟨List.mem_flatMap.2 ⟨x, hxT, List.mem_cons_self⟩, List.mem_flatMap.2 ⟨x, hxT, List.mem_cons_of_mem _ hw⟩⟩
  have mem : ∀ x, x ∈ L' ↔ x ∈ L := by
    rintro ⟨f, w, v⟩
    rw [a1, b1, hp, e3]
  have nd : L.Nodup := a2.imp (by rintro a b (hab | ⟨_, hab⟩) rfl <;> exact Nat.lt_irrefl _ hab)
  have nd' : L'.Nodup := b2.imp (by rintro a b (hab | ⟨_, hab⟩) rfl <;> exact Nat.lt_irrefl _ hab)
  have heq : L' = L := by
    refine List.Perm.eq_of_pairwise (le := fun a b => ident a.1 < ident b.1 ∨ (ident a.1 = ident b.1 ∧ ident a.2.1 < ident b.2.1))
      ?_ ?_ a2 ((List.perm_ext_iff_of_nodup nd' nd).2 mem)
    · intro a b _ _ x y
      exfalso
      rcases x with x | ⟨x, x'⟩ <;> rcases y with y | ⟨y, y'⟩
      · exact Nat.lt_asymm x y
      · rw [y] at x; exact Nat.lt_irrefl _ x
      · rw [x] at y; exact Nat.lt_irrefl _ y
      · exact Nat.lt_asymm x' y'
    · refine b2.imp_of_mem ?_
      intro a b ha hb hab
      obtain ⟨f1, w1⟩ := ment ((mem a).1 ha)
      obtain ⟨f2, w2⟩ := ment ((mem b).1 hb)
      rw [same _ f1, same _ f2, same _ w1, same _ w2]
      exact hab
  rw [heq, e4]
  refine sumUp_mono ?_
  rintro ⟨f, w, v⟩ hx
  obtain ⟨_, _, hcl⟩ := (a1 f w v).1 hx
  obtain ⟨x, hxq, hcost, _⟩ := hcl.near
  have hv : 0 ≤ v := by
    rw [isEditCost_iff] at hcost
    rw [hcost]; exact best_nonneg (hs.nonNeg x hxq)
  exact contribution_twice m.weights f w v hv (hw f) hn

end

section
variable [Build] [Icu] [Runtime] [Fp]

/-- C107 is false, whatever the rounding: the one document, with the title "x", has a relevancy of 1/2 in a search for "x", and of
at most 3/8 after it is indexed again. The hypotheses of C107_partial and C107_lower_partial hold here. -/
theorem C107_false : ∃ (c : Corpus) (m1 m2 : Matcher) (r r' : MatchResults) (k k' : List Result) (rel' : ℚ),
    CorpusOk c ∧ Ran Example.os m1 (corpusTexts c) [] ∧ m1.index c = (m2, none) ∧
      m1.matchDefault [Example.wordX] = (m1, .ok r) ∧ Shows r k ∧ m2.matchDefault [Example.wordX] = (m2, .ok r') ∧ Shows r' k' ∧
      (1/2, 1) ∈ k ∧ (rel', 1) ∈ k' ∧ rel' ≤ 3/8 := by
  have hT : corpusTexts [documentOf 1 [(Example.fieldT, [Example.wordX])]] = [⟨1, Example.fieldT, 1, [Example.wordX]⟩] := by decide
  have hne : NoEmpty [(⟨1, Example.fieldT, 1, [Example.wordX]⟩ : Indexed)] := by
    intro x hx; rw [List.mem_singleton] at hx; subst hx; exact ⟨by simp [Example.fieldT], by simp [Example.wordX]⟩
  have hc : CorpusOk [documentOf 1 [(Example.fieldT, [Example.wordX])]] := by
    intro d hd
    rw [List.mem_singleton] at hd
    subst hd
    refine ⟨_, rfl, ?_⟩
    simp only [List.mem_cons, List.not_mem_nil, or_false, forall_eq]
    exact ⟨Or.inr Example.goodT, Or.inr Example.goodX⟩
  obtain ⟨m1, _, h1, he1, hw1, _⟩ := Example.ran_corpus hc (by rw [hT]; decide)
  rw [hT, beforeEmpty_self hne] at h1
  obtain ⟨names, hi1, hos, hle⟩ := Ran.start h1
  rcases hi1.index _ m1 _ names hc with ⟨_, _, _, hr⟩ | ⟨m2, names', e2, h2, _, _, _, _, he2, hw2⟩
  · rw [hos] at hr
    refine absurd hr (Example.granted ?_)
    rw [hT]
    have : lettersIn (MatcherHistory.mentions [(⟨1, Example.fieldT, 1, [Example.wordX]⟩ : Indexed)]) = 2 := by decide
    have : lettersIn (MatcherHistory.words [(⟨1, Example.fieldT, 1, [Example.wordX]⟩ : Indexed)]) = 1 := by decide
    have : lettersIn [] = 0 := rfl
    omega
  have hno : emptyFault (!decide (NoEmpty (corpusTexts [documentOf 1 [(Example.fieldT, [Example.wordX])]]))) = none := by
    rw [hT, decide_eq_true hne]; rfl
  rw [hno] at e2
  have hr2 := Ran.index h1 hc e2 (by intro f hf; cases hf)
  rw [hT, beforeEmpty_self hne] at hr2
  rw [hw1] at hw2
  rw [he1] at he2
  have one : ∀ (m : Matcher) (H : MatcherHistory), Ran Example.os m H [] → m.e = ErrorValues.new → m.weights = [] →
      (∀ d f w, H.Posting d f w ↔ d = 1 ∧ f = Example.fieldT ∧ w = Example.wordX) →
      ∃ r k, m.matchDefault [Example.wordX] = (m, .ok r) ∧ Shows r k ∧ (contribution [] H Example.fieldT Example.wordX 0, 1) ∈ k := by
    intro m H h he hw hp
    have sane : Sane m.e [Example.wordX] H := by
      rw [he]
      refine sane_default (L := 1) (by simp [Example.wordX]) (by simp [Example.wordX]) ?_ (by norm_num)
      intro w hw
      obtain ⟨x, hx, hw⟩ := List.mem_flatMap.1 hw
      rw [((hp x.doc x.field w).1 ⟨x, hx, rfl, rfl, hw⟩).2.2]; simp [Example.wordX]
    have ex : Exact m.e [Example.wordX] := by rw [he]; exact exact_default _
    obtain ⟨r, k, e, hk, hm⟩ := C44_found h [Example.wordX] .new sane ex rfl
    obtain ⟨⟨x, hx, hy⟩, _⟩ := (close_letter .new 0x78#16 0x78#16 _).2 rfl
    rw [List.mem_singleton] at hx
    subst hx
    have hin := (hm 1).2 ⟨_, _, Example.wordX, _, (hp 1 _ _).2 ⟨rfl, rfl, rfl⟩, rfl, by simp, by rw [he]; exact hy⟩
    obtain ⟨⟨rel, _⟩, hx, rfl⟩ := List.mem_map.1 hin
    obtain ⟨ident, _, hL⟩ := C47_relevancy h _ _ sane ex (by intro w hw; cases hw) m r k e hk
    obtain ⟨L, a1, a2, _, rfl⟩ := hL rel _ hx
    have : L = [(Example.fieldT, Example.wordX, 0)] := by
      have nd : L.Nodup := a2.imp (by rintro a b (hab | ⟨_, hab⟩) rfl <;> exact Nat.lt_irrefl _ hab)
      refine List.perm_singleton.1 ((List.perm_ext_iff_of_nodup nd (by simp)).2 ?_)
      rintro ⟨f, w, t⟩
      rw [a1, he, List.mem_singleton, hp]
      constructor
      · rintro ⟨⟨_, rfl, rfl⟩, _, q3⟩
        rw [(close_letter .new 0x78#16 0x78#16 t).1 q3, if_pos rfl]
      · intro q
        injection q with q1 q2
        injection q2 with q2 q3
        subst q1; subst q2; subst q3
        exact ⟨⟨rfl, rfl, rfl⟩, rfl, (close_letter .new 0x78#16 0x78#16 _).2 (by rw [if_pos rfl])⟩
    rw [this, hw] at hx
    exact ⟨r, k, e, hk, hx⟩
  have p1 : ∀ d f w, MatcherHistory.Posting [(⟨1, Example.fieldT, 1, [Example.wordX]⟩ : Indexed)] d f w ↔
      d = 1 ∧ f = Example.fieldT ∧ w = Example.wordX := by
    intro d f w
    simp only [MatcherHistory.Posting, List.mem_singleton, exists_eq_left]
    constructor
    · rintro ⟨rfl, rfl, rfl⟩; exact ⟨rfl, rfl, rfl⟩
    · rintro ⟨rfl, rfl, rfl⟩; exact ⟨rfl, rfl, rfl⟩
  obtain ⟨r, k, e, hk, hx⟩ := one m1 _ h1 he1 hw1 p1
  obtain ⟨r', k', e', hk', hx'⟩ := one m2 _ hr2 he2 hw2 (by
    intro d f w; rw [MatcherHistory.posting_append, or_self_iff]; exact p1 d f w)
  refine ⟨_, m1, m2, r, r', k, k', _, hc, by rw [hT]; exact h1, e2, e, hk, e', hk', ?_, hx', ?_⟩
  · have c1 : contribution [] [(⟨1, Example.fieldT, 1, [Example.wordX]⟩ : Indexed)] Example.fieldT Example.wordX 0 = 1/2 := by
      have q1 : MatcherHistory.count [(⟨1, Example.fieldT, 1, [Example.wordX]⟩ : Indexed)] Example.fieldT Example.wordX = 1 := by decide
      have q2 : MatcherHistory.maxCount [(⟨1, Example.fieldT, 1, [Example.wordX]⟩ : Indexed)] Example.fieldT = 1 := by decide
      have r0 : Fp.rnd 0 = 0 := rnd_zero
      have r1 : Fp.rnd 1 = 1 := rnd_one
      have r2 : Fp.rnd 2 = 2 := by have := rnd_int 2 (by decide); simpa using this
      have r100 : Fp.rnd 100 = 100 := rnd_hundred
      have r12 : Fp.rnd (1/2) = 1/2 := by have := Fp.rnd_exact 1 1 (by norm_num) (by norm_num); norm_num at this ⊢; exact this
      rw [contribution, q1, q2, show IndexWeights.getWeight [] Example.fieldT = 1 from rfl]
      simp only [fmul, fsub, fadd, ofInt]
      norm_num [r0, r1, r2, r100, r12]
    rw [c1] at hx
    exact hx
  · have q1 : MatcherHistory.count ([(⟨1, Example.fieldT, 1, [Example.wordX]⟩ : Indexed)] ++ [⟨1, Example.fieldT, 1, [Example.wordX]⟩])
        Example.fieldT Example.wordX = 2 := by decide
    have q2 : MatcherHistory.maxCount ([(⟨1, Example.fieldT, 1, [Example.wordX]⟩ : Indexed)] ++ [⟨1, Example.fieldT, 1, [Example.wordX]⟩])
        Example.fieldT = 2 := by decide
    have r0 : Fp.rnd 0 = 0 := rnd_zero
    have r1 : Fp.rnd 1 = 1 := rnd_one
    have r2 : Fp.rnd 2 = 2 := by have := rnd_int 2 (by decide); simpa using this
    have r3 : Fp.rnd 3 = 3 := by have := rnd_int 3 (by decide); simpa using this
    have r100 : Fp.rnd 100 = 100 := rnd_hundred
    have r38 : Fp.rnd (3/8) = 3/8 := by have := Fp.rnd_exact 3 3 (by norm_num) (by norm_num); norm_num at this ⊢; exact this
    have r58 : Fp.rnd (5/8) = 5/8 := by have := Fp.rnd_exact 5 3 (by norm_num) (by norm_num); norm_num at this ⊢; exact this
    have r23 : 5/8 ≤ Fp.rnd (2/3) := by rw [← r58]; exact Fp.rnd_mono _ _ (by norm_num)
    have low : ∀ x : ℚ, x ≤ 3/8 → Fp.rnd x ≤ 3/8 := by intro x hx; have := Fp.rnd_mono _ _ hx; rwa [r38] at this
    rw [contribution, q1, q2, show IndexWeights.getWeight [] Example.fieldT = 1 from rfl]
    simp only [fmul, fsub, fadd, ofInt]
    norm_num [r0, r1, r2, r3, r100]
    refine low _ (low _ (low _ ?_))
    linarith

end

end Columbus.Props
