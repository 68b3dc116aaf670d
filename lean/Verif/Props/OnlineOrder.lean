import Verif.Props.First
import Verif.Props.Arithmetic
/-
C114: what order matters to `onlineMatch`.
-/

namespace Columbus.Props
open Columbus Spec

/-! ### C114 -/

/-- No field of a document was indexed with texts of different lengths. -/
def OneLength (H : MatcherHistory) : Prop := ∀ x ∈ H, ∀ y ∈ H, x.doc = y.doc → x.field = y.field → x.size = y.size

theorem OneLength.size {H : MatcherHistory} (h : OneLength H) (d : DocumentID) (f : Word) (n : Nat) :
    H.size d f = some n ↔ ∃ x ∈ H, x.doc = d ∧ x.field = f ∧ x.size = n := by
  unfold MatcherHistory.size
  rw [Option.map_eq_some_iff]
  constructor
  · rintro ⟨x, hx, rfl⟩
    have h1 := List.mem_of_find?_eq_some hx
    have h2 := List.find?_some hx
    simp only [Bool.and_eq_true, beq_iff_eq] at h2
    exact ⟨x, List.mem_reverse.1 h1, h2.1, h2.2, rfl⟩
  · rintro ⟨x, hx, rfl, rfl, rfl⟩
    cases hf : H.reverse.find? (fun y => y.doc == x.doc && y.field == x.field) with
    | none =>
      have := List.find?_eq_none.1 hf x (List.mem_reverse.2 hx)
      simp at this
    | some y =>
      have h1 := List.mem_of_find?_eq_some hf
      have h2 := List.find?_some hf
      simp only [Bool.and_eq_true, beq_iff_eq] at h2
      exact ⟨y, rfl, h y (List.mem_reverse.1 h1) x hx h2.1 h2.2⟩

section
variable [Build] [Icu] [Runtime] [Fp] {os : Nat → Bool} {m : Matcher} {H : MatcherHistory} {K : List Word}

omit [Build] [Icu] [Runtime] in
theorem exactPart_congr {H H' : MatcherHistory} {q q' : WordList} {f : Word} {d : DocumentID} (hn : exacts H q f d = exacts H' q' f d)
    (hl : q.length = q'.length) (hs : H.size d f = H'.size d f) : exactPart H q f d = exactPart H' q' f d := by
  unfold exactPart
  rw [hn, hl, hs]

/-- C114, query words: their order does not matter to `onlineMatch`, whatever its outcome. -/
theorem C114_query (h : Ran os m H K) (q q' : WordList) (hq : ∀ w ∈ q, Usable w) (hs : Sane m.e q H) (f : Word) (hf : Usable f)
    (hp : q.Perm q') : m.onlineMatch q f = m.onlineMatch q' f := by
  obtain ⟨names, hi, _⟩ := Ran.start h
  by_cases hk : f ∈ names
  · have hm : m.matchDefault q = m.matchDefault q' := C49_word_set h q q' .new hs fun w => hp.mem_iff
    have hx : ∀ d, exacts H q f d = exacts H q' f d := fun d => hp.countP_eq _
    rcases hi.online_known hk (q := q) (fun w hw => usable_noNul (hq w hw)) with ⟨x, e1, e2⟩ | ⟨docs, acc, s, e1, e2, sc⟩ <;>
    rcases hi.online_known hk (q := q') (fun w hw => usable_noNul (hq w (hp.mem_iff.2 hw))) with ⟨x', e1', e2'⟩ | ⟨docs', acc', s', e1', e2', sc'⟩
    · rw [e1, e1'] at hm
      injection hm with _ hm; injection hm with hm
      rw [e2, e2', hm]
    · rw [e1, e1'] at hm; cases hm
    · rw [e1, e1'] at hm; cases hm
    · rw [e1, e1'] at hm
      injection hm with _ hm; injection hm with hm
      have hl : listing docs = listing docs' :=
        Columbus.Shows.unique (hm ▸ shows_copied (listing_rank s)) (shows_copied (listing_rank s'))
      rw [e2, e2']
      have : acc = acc' := by
        refine SMap.eq_of_find sc.sorted sc'.sorted fun d => ?_
        have hpart := exactPart_congr (f := f) (hx d) hp.length_eq (rfl : H.size d f = H.size d f)
        by_cases hd : d ∈ (listing docs).map (·.2)
        · obtain ⟨⟨rel, _⟩, hr, rfl⟩ := List.mem_map.1 hd
          rw [sc.matched _ _ hr, sc'.matched _ _ (hl ▸ hr), hpart]
        · rw [sc.other d hd, sc'.other d (hl ▸ hd), hpart, hx]
      rw [this]
  · rw [hi.online_unknown hf hk, hi.online_unknown hf hk]

end

section
variable [Build] [Icu] {os os' : Nat → Bool} {m1 m2 : Matcher} {H1 H2 : MatcherHistory} {K1 K2 : List Word}

attribute [local instance] ieee in
/-- C114, indexing, what holds: two matchers that indexed the same texts, in whatever order, list the same documents in `onlineMatch`,
if no field of a document was indexed with texts of different lengths. Each gets the same part for exact words and a relevancy that
differs as in C74. Missing: texts of different lengths (C114_false). -/
theorem C114_partial (R1 R2 : Runtime) (h1 : @Ran _ _ R1 _ os m1 H1 K1) (h2 : @Ran _ _ R2 _ os' m2 H2 K2)
    (hH : H1.Perm H2) (hO : OneLength H1) (hE : m1.e = m2.e)
    (hW : ∀ f, IndexWeights.getWeight m1.weights f = IndexWeights.getWeight m2.weights f)
    (q : WordList) (hq : ∀ w ∈ q, Usable w) (hs : Sane m1.e q H1) (he : Exact m1.e q) (hl : H1.words.length < 2^53) (b : ℤ) (hb : -1021 ≤ b)
    (hw : ∀ x ∈ H1, 0 ≤ IndexWeights.getWeight m1.weights x.field ∧ IndexWeights.getWeight m1.weights x.field ≤ 2^b)
    (f : Word) (hf : ∃ x ∈ H1, x.field = f) :
    ∃ r1 k1 r2 k2, @Matcher.onlineMatch _ R1 _ m1 q f = (m1, .ok r1) ∧ Shows r1 k1 ∧
      @Matcher.onlineMatch _ R2 _ m2 q f = (m2, .ok r2) ∧ Shows r2 k2 ∧ (∀ d, d ∈ k1.map (·.2) ↔ d ∈ k2.map (·.2)) ∧
      ∀ d s1 s2, (s1, d) ∈ k1 → (s2, d) ∈ k2 → s1 = s2 ∨ ∃ (a rel1 rel2 : ℚ) (L : List (Word × Word × Int)),
        s1 = fadd a rel1 ∧ s2 = fadd a rel2 ∧ L.Nodup ∧
        (∀ f w v, (f, w, v) ∈ L ↔ H1.Posting d f w ∧ CloseTo m1.e .new q w v) ∧
        |rel1 - rel2| ≤ 2 * (L.length * (L.length + 6) * 2^b * 2^(-54 : ℤ)) := by
  obtain ⟨x, hx, rfl⟩ := hf
  have hs' : Sane m2.e q H2 := hE ▸ Columbus.Sane.perm hs hH
  have he' : Exact m2.e q := hE ▸ he
  have hu : ∀ w ∈ filterWords (SearchParameters.new).filter, Usable w := by intro w hw; cases hw
  obtain ⟨r, k, e, hk, _⟩ := @C44_found _ _ R1 _ _ _ _ _ h1 q .new hs he rfl
  obtain ⟨r', k', e', hk', _⟩ := @C44_found _ _ R2 _ _ _ _ _ h2 q .new hs' he' rfl
  have docs := C74_documents R1 R2 h1 h2 hH hE q .new hs hu _ _ r r' k k' e hk e' hk'
  have rels := C74_relevancy R1 R2 h1 h2 hH hE hW q .new hs he hu hl b hb hw _ _ r r' k k' e hk e' hk'
  obtain ⟨n1, i1, _⟩ := @Ran.start _ _ R1 _ _ _ _ _ h1
  obtain ⟨n2, i2, _⟩ := @Ran.start _ _ R2 _ _ _ _ _ h2
  have nul : ∀ w ∈ q, ∀ l ∈ w, l ≠ 0#16 := fun w hw => usable_noNul (hq w hw)
  rcases @MInv.online_known _ _ R1 _ _ _ _ i1 _ (i1.known _ (MatcherHistory.mentions_field hx)) q nul with
    ⟨_, e3, _⟩ | ⟨d1, acc1, t1, e3, o1, sc1⟩
  · have := e.symm.trans e3; cases this
  rcases @MInv.online_known _ _ R2 _ _ _ _ i2 _ (i2.known _ (MatcherHistory.mentions_field (hH.mem_iff.1 hx))) q nul with
    ⟨_, e4, _⟩ | ⟨d2, acc2, t2, e4, o2, sc2⟩
  · have := e'.symm.trans e4; cases this
  have l1 : listing d1 = k := by
    have e3 := e.symm.trans e3
    injection e3 with _ e3; injection e3 with e3
    exact Columbus.Shows.unique (shows_copied (listing_rank t1)) (e3 ▸ hk)
  have l2 : listing d2 = k' := by
    have e4 := e'.symm.trans e4
    injection e4 with _ e4; injection e4 with e4
    exact Columbus.Shows.unique (shows_copied (listing_rank t2)) (e4 ▸ hk')
  rw [l1] at sc1
  rw [l2] at sc2
  have hO2 : OneLength H2 := fun a ha b hb => hO a (hH.mem_iff.2 ha) b (hH.mem_iff.2 hb)
  have sizes : ∀ d f, H1.size d f = H2.size d f := by
    intro d f
    ext n
    rw [hO.size, hO2.size]
    simp only [hH.mem_iff]
  have ex : ∀ d, exacts H1 q x.field d = exacts H2 q x.field d := by
    intro d
    unfold exacts
    refine List.countP_congr fun w _ => ?_
    simp only [decide_eq_true_eq, MatcherHistory.perm_posting hH]
  have part : ∀ d, exactPart H1 q x.field d = exactPart H2 q x.field d := fun d => exactPart_congr (ex d) rfl (sizes _ _)
  have inl : ∀ {acc : SMap DocumentID ℚ}, SMap.Sorted ltNat acc → ∀ s d, (s, d) ∈ listing acc ↔ SMap.find ltNat acc d = some s :=
    fun ha s d => mem_listing.trans (SMap.find_some_iff strict_ltNat ha d s).symm
  have ind : ∀ {acc : SMap DocumentID ℚ}, SMap.Sorted ltNat acc → ∀ d, d ∈ (listing acc).map (·.2) ↔ ∃ s, SMap.find ltNat acc d = some s := by
    intro acc ha d
    constructor
    · intro hd
      obtain ⟨⟨s, _⟩, hy, rfl⟩ := List.mem_map.1 hd
      exact ⟨s, (inl ha s _).1 hy⟩
    · rintro ⟨s, hy⟩
      exact List.mem_map.2 ⟨(s, d), (inl ha s d).2 hy, rfl⟩
  refine ⟨_, _, _, _, o1, shows_addAll acc1, o2, shows_addAll acc2, fun d => ?_, fun d s1 s2 hd1 hd2 => ?_⟩
  · rw [ind sc1.sorted, ind sc2.sorted]
    by_cases hd : d ∈ k.map (·.2)
    · obtain ⟨⟨a, _⟩, ha, rfl⟩ := List.mem_map.1 hd
      obtain ⟨⟨b, _⟩, hb, heq⟩ := List.mem_map.1 ((docs _).1 hd)
      dsimp only at heq
      subst heq
      simp [sc1.matched _ _ ha, sc2.matched _ _ hb]
    · rw [sc1.other d hd, sc2.other d (fun h => hd ((docs d).2 h)), ex]
      split <;> simp
  · rw [inl sc1.sorted] at hd1
    rw [inl sc2.sorted] at hd2
    by_cases hd : d ∈ k.map (·.2)
    · obtain ⟨⟨a, _⟩, ha, rfl⟩ := List.mem_map.1 hd
      obtain ⟨⟨b, _⟩, hb, heq⟩ := List.mem_map.1 ((docs _).1 hd)
      dsimp only at heq
      subst heq
      rw [sc1.matched _ _ ha, Option.some.injEq] at hd1
      rw [sc2.matched _ _ hb, Option.some.injEq, ← part] at hd2
      obtain ⟨L, nL, tL, bL⟩ := rels _ _ _ ha hb
      exact Or.inr ⟨_, _, _, L, hd1.symm, hd2.symm, nL, fun f w v => (tL f w v).trans (and_congr_right fun _ => and_iff_right rfl), bL⟩
    · rw [sc1.other d hd] at hd1
      rw [sc2.other d (fun h => hd ((docs d).2 h)), ← ex, ← part] at hd2
      left
      split at hd1
      · cases hd1
      · rename_i hne
        rw [if_neg hne] at hd2
        injection hd1 with hd1
        injection hd2 with hd2
        rw [← hd1, ← hd2]

/-- The documents of the example indexed one after the other, the last one first, searched for `save` and `as`. -/
example [Fp] [Runtime] : ∃ m1 m2 H2, Ran Example.os m1 Example.texts [] ∧ Ran Example.os m2 H2 [] ∧ H2 ≠ Example.texts ∧
    Example.texts.Perm H2 ∧ OneLength Example.texts ∧ m1.e = m2.e ∧ m1.weights = m2.weights ∧
    Sane m1.e [Example.save, Example.as] Example.texts ∧ Exact m1.e [Example.save, Example.as] ∧
    [Example.save, Example.as].Perm [Example.as, Example.save] := by
  obtain ⟨m1, h1, e1, w1⟩ := Example.ran
  obtain ⟨m2, _, h2, e2, w2, _⟩ := Example.ran_corpus (c := Example.corpus.reverse)
    (fun d hd => Example.corpus_ok d (List.mem_reverse.1 hd)) (by decide)
  have hb : beforeEmpty (corpusTexts Example.corpus.reverse) =
      [⟨2, Example.body, 1, [Example.as]⟩, ⟨2, Example.title, 1, [Example.save]⟩, ⟨1, Example.title, 2, [Example.save, Example.as]⟩] := by
    decide
  rw [hb] at h2
  refine ⟨m1, m2, _, h1, h2, by decide, by decide, by unfold OneLength; decide, by rw [e1, e2], by rw [w1, w2], ?_, ?_, List.Perm.swap _ _ _⟩
  · rw [e1]; exact Example.sane (by simp [Example.good_save, Example.good_as]) (by decide)
  · rw [e1]; exact exact_default _

end

section
variable [Build] [Icu] [Runtime] [Fp]

/-- A document indexed twice, with the titles `a` and then `b`. -/
def retitled (a b : List Word) : Corpus := [documentOf 1 [(Example.fieldT, a)], documentOf 1 [(Example.fieldT, b)]]
def retitledTexts (a b : List Word) : MatcherHistory := [⟨1, Example.fieldT, a.length, a⟩, ⟨1, Example.fieldT, b.length, b⟩]

theorem retitled_ran (a b : List Word) (ha : ∀ w ∈ a, GoodWord w ∧ w.length = 1) (hb : ∀ w ∈ b, GoodWord w ∧ w.length = 1)
    (hs : lettersIn (retitledTexts a b).mentions < 20000000) :
    ∃ m, Ran Example.os m (retitledTexts a b) [] ∧ m.e = ErrorValues.new ∧ (∀ f, IndexWeights.getWeight m.weights f = 1) ∧
      Sane m.e [Example.wordX] (retitledTexts a b) ∧ Exact m.e [Example.wordX] := by
  have ht : corpusTexts (retitled a b) = retitledTexts a b := by
    simp [corpusTexts, retitled, retitledTexts, documentOf, Document.addText, Document.new, SMap.set]
  have hc : CorpusOk (retitled a b) := by
    intro d hd
    simp only [retitled, List.mem_cons, List.not_mem_nil, or_false] at hd
    rcases hd with rfl | rfl
    · refine ⟨_, rfl, ?_⟩
      simp only [List.mem_cons, List.not_mem_nil, or_false, forall_eq]
      exact ⟨Or.inr Example.goodT, fun w hw => Or.inr (ha w hw).1⟩
    · refine ⟨_, rfl, ?_⟩
      simp only [List.mem_cons, List.not_mem_nil, or_false, forall_eq]
      exact ⟨Or.inr Example.goodT, fun w hw => Or.inr (hb w hw).1⟩
  have hne : NoEmpty (retitledTexts a b) := by
    intro x hx
    simp only [retitledTexts, List.mem_cons, List.not_mem_nil, or_false] at hx
    rcases hx with rfl | rfl
    · exact ⟨by simp [Example.fieldT], fun h => by have := (ha _ h).2; cases this⟩
    · exact ⟨by simp [Example.fieldT], fun h => by have := (hb _ h).2; cases this⟩
  obtain ⟨m, _, h, h1, h2, _⟩ := Example.ran_corpus hc (by rw [ht]; exact hs)
  rw [ht, beforeEmpty_self hne] at h
  refine ⟨m, h, h1, by rw [h2]; intro f; rfl, ?_, by rw [h1]; exact exact_default _⟩
  rw [h1]
  refine sane_default (L := 1) (by simp [Example.wordX]) (by simp [Example.wordX]) ?_ (by norm_num)
  intro w hw
  simp only [MatcherHistory.words, retitledTexts, List.flatMap_cons, List.flatMap_nil, List.append_nil, List.mem_append] at hw
  rcases hw with hw | hw
  · exact (ha w hw).2.le
  · exact (hb w hw).2.le

/-- What such a matcher gives in a search for "x". -/
theorem retitled_search (a b : List Word) {m : Matcher} (h : Ran Example.os m (retitledTexts a b) [])
    (h1 : m.e = ErrorValues.new) (hw : ∀ f, IndexWeights.getWeight m.weights f = 1) (hs : Sane m.e [Example.wordX] (retitledTexts a b))
    (he : Exact m.e [Example.wordX]) (hp : ∀ f w, (retitledTexts a b).Posting 1 f w → (f, w) ∈ [(Example.fieldT, Example.wordX), (Example.fieldT, Example.wordY)])
    (hx : (retitledTexts a b).Posting 1 Example.fieldT Example.wordX) :
    ∃ r k rel, m.onlineMatch [Example.wordX] Example.fieldT = (m, .ok r) ∧ Shows r k ∧ 0 ≤ rel ∧ rel ≤ 2 ∧
      (fadd (exactPart (retitledTexts a b) [Example.wordX] Example.fieldT 1) rel, 1) ∈ k := by
  obtain ⟨r, k, e, hk, hm⟩ := C44_found h [Example.wordX] .new hs he rfl
  have hu : ∀ w ∈ [Example.wordX], Usable w := by intro w hw; rw [List.mem_singleton] at hw; subst hw; exact Or.inr Example.goodX
  have hfield : ∃ x ∈ retitledTexts a b, x.field = Example.fieldT := ⟨_, List.mem_cons_self, rfl⟩
  obtain ⟨r', e'⟩ := (C54_partial h [Example.wordX] hu Example.fieldT (Or.inr Example.goodT)).2 hs hfield
  obtain ⟨names, hi, _⟩ := Ran.start h
  obtain ⟨y, hy, hyf⟩ := hfield
  rcases hi.online_known (hyf ▸ hi.known _ (MatcherHistory.mentions_field hy)) (q := [Example.wordX]) (fun w hw => usable_noNul (hu w hw)) with
    ⟨_, _, e2⟩ | ⟨_, acc, _, _, e2, _⟩
  · rw [e'] at e2; cases e2
  rw [e'] at e2; injection e2 with _ e2; injection e2 with e2; subst e2
  have hk' := shows_addAll acc
  have c := (C56_partial h [Example.wordX] hu Example.fieldT ⟨y, hy, hyf⟩ m m r _ k _ e hk e' hk').1
  have c0 : IsEditCost (configured m.e Example.wordX.length) Example.wordX Example.wordX 0 := by
    obtain ⟨⟨x, hx, hc, _⟩, _⟩ := (close_letter .new 0x78#16 0x78#16 0).2 rfl
    rw [List.mem_singleton] at hx
    subst hx
    rw [h1]
    exact hc
  have hin := (hm 1).2 ⟨_, _, Example.wordX, 0, hx, rfl, by simp, c0, by unfold limit; split <;> norm_num⟩
  obtain ⟨⟨rel, _⟩, hr, heq⟩ := List.mem_map.1 hin
  dsimp only at heq
  subst heq
  refine ⟨_, _, rel, e', hk', ?_, ?_, c rel _ hr⟩
  · exact C50_nonneg h _ .new hs (by intro w hw; cases hw) (by intro f; rw [hw]; norm_num) m r k e hk _ hr
  · have := C105_relevancy h _ .new hs he (by intro w hw; cases hw) (by intro f; rw [hw]; norm_num) 1 2 ⟨_, by simp, hp⟩ (by norm_num) m r k e hk rel hr
    exact_mod_cast this

/-- C114 is false, whatever the rounding: with the titles "x" and "x y" for one document, `onlineMatch` for "x" gives the document over
100 only if "x" was indexed last. -/
theorem C114_false : ∃ (m1 m2 : Matcher) (H1 H2 : MatcherHistory) (r1 r2 : MatchResults) (k1 k2 : List Result) (s1 s2 : ℚ),
    Ran Example.os m1 H1 [] ∧ Ran Example.os m2 H2 [] ∧ H1.Perm H2 ∧ m1.e = m2.e ∧
      (∀ f, IndexWeights.getWeight m1.weights f = IndexWeights.getWeight m2.weights f) ∧
      m1.onlineMatch [Example.wordX] Example.fieldT = (m1, .ok r1) ∧ Shows r1 k1 ∧
      m2.onlineMatch [Example.wordX] Example.fieldT = (m2, .ok r2) ∧ Shows r2 k2 ∧ (s1, 1) ∈ k1 ∧ (s2, 1) ∈ k2 ∧ s1 ≤ 4 ∧ 102 ≤ s2 := by
  have gx : ∀ w ∈ [Example.wordX], GoodWord w ∧ w.length = 1 := by
    intro w hw; rw [List.mem_singleton] at hw; subst hw; exact ⟨Example.goodX, rfl⟩
  have gy : ∀ w ∈ [Example.wordX, Example.wordY], GoodWord w ∧ w.length = 1 := by
    intro w hw
    simp only [List.mem_cons, List.not_mem_nil, or_false] at hw
    rcases hw with rfl | rfl
    · exact ⟨Example.goodX, rfl⟩
    · exact ⟨Example.good_letter (l := 0x79#16) (by decide), rfl⟩
  obtain ⟨m1, h1, e1, w1, s1, x1⟩ := retitled_ran [Example.wordX] [Example.wordX, Example.wordY] gx gy (by decide)
  obtain ⟨m2, h2, e2, w2, s2, x2⟩ := retitled_ran [Example.wordX, Example.wordY] [Example.wordX] gy gx (by decide)
  have key : ∀ {a b : List Word}, (∀ w ∈ a ++ b, w = Example.wordX ∨ w = Example.wordY) → ∀ f w, (retitledTexts a b).Posting 1 f w →
      (f, w) ∈ [(Example.fieldT, Example.wordX), (Example.fieldT, Example.wordY)] := by
    rintro a b hab f w ⟨x, hx, _, rfl, hw⟩
    simp only [retitledTexts, List.mem_cons, List.not_mem_nil, or_false] at hx
    rcases hx with rfl | rfl
    · rcases hab w (List.mem_append_left _ hw) with rfl | rfl <;> simp
    · rcases hab w (List.mem_append_right _ hw) with rfl | rfl <;> simp
  obtain ⟨r1, k1, rel1, o1, sh1, _, u1, in1⟩ := retitled_search _ _ h1 e1 w1 s1 x1 (key (by simp)) (by decide)
  obtain ⟨r2, k2, rel2, o2, sh2, l2, _, in2⟩ := retitled_search _ _ h2 e2 w2 s2 x2 (key (by simp)) (by decide)
  have r2' : Fp.rnd 2 = 2 := by simpa using rnd_int 2 (by norm_num)
  have r4 : Fp.rnd 4 = 4 := by simpa using rnd_int 4 (by norm_num)
  have r102 : Fp.rnd 102 = 102 := by simpa using rnd_int 102 (by norm_num)
  have p1 : exactPart (retitledTexts [Example.wordX] [Example.wordX, Example.wordY]) [Example.wordX] Example.fieldT 1 = 2 := by
    have a : exacts (retitledTexts [Example.wordX] [Example.wordX, Example.wordY]) [Example.wordX] Example.fieldT 1 = 1 := by decide
    have b : (retitledTexts [Example.wordX] [Example.wordX, Example.wordY]).size 1 Example.fieldT = some 2 := by decide
    simp [exactPart, a, b, ofInt, r2']
  have p2 : exactPart (retitledTexts [Example.wordX, Example.wordY] [Example.wordX]) [Example.wordX] Example.fieldT 1 = 102 := by
    have a : exacts (retitledTexts [Example.wordX, Example.wordY] [Example.wordX]) [Example.wordX] Example.fieldT 1 = 1 := by decide
    have b : (retitledTexts [Example.wordX, Example.wordY] [Example.wordX]).size 1 Example.fieldT = some 1 := by decide
    simp only [exactPart, a, b]
    norm_num [ofInt, fadd, r2', r102]
  refine ⟨m1, m2, _, _, r1, r2, k1, k2, _, _, h1, h2, List.Perm.swap _ _ _, by rw [e1, e2], fun f => by rw [w1, w2], o1, sh1, o2, sh2, in1, in2, ?_, ?_⟩
  · rw [p1, fadd, ← r4]
    exact Fp.rnd_mono _ _ (by linarith)
  · rw [p2, fadd, ← r102]
    exact Fp.rnd_mono _ _ (by rw [r102]; linarith)

end
end Columbus.Props
