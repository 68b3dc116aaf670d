import Verif.Proofs.Program
import Verif.Proofs.Double
import Verif.Props.Online
/-
A program in which the order of word identifiers shows in the rounding of a relevancy.
-/

namespace Columbus.Example
open Columbus Spec ErrorValues Props

section
variable [Build] [Icu] [Fp] [Runtime] {m : Matcher} {H : MatcherHistory}

/-- What a search with one condition, about words that are not known, makes known. -/
theorem search_notes {names : List Word} (h : MInv m H names) {q : WordList} (hs : Sane m.e q H) {p : SearchParameters}
    {f w a b : Word} (hp : p.filter.termList = [[(f, w)]]) (hf : GoodWord f) (hw : GoodWord w)
    (ha : a = if Runtime.valueFirst then w else f) (hb : b = if Runtime.valueFirst then f else w)
    (hd : ∀ docs, IsAnswer m H names p q docs → docs ≠ [])
    (hr : ¬ StorageRefused m.os (lettersIn names + 4 * (f.length + w.length))) :
    ∃ s' r, m.matchQuery q p = ({ m with store := s' }, .ok r) ∧ MInv { m with store := s' } H (note (note names a) b) := by
  obtain ⟨docs, hans, e⟩ := h.matchQuery_eq (p := p) hs
  have ga : GoodWord a := by rw [ha]; split <;> assumption
  have gb : GoodWord b := by rw [hb]; split <;> assumption
  have hlen : a.length + b.length = f.length + w.length := by
    rw [ha, hb]; cases Runtime.valueFirst <;> simp; omega
  obtain ⟨s1, e1, h1⟩ : ∃ s1, m.store.getID a = .ok (s1, (note names a).idxOf a) ∧ MInv { m with store := s1 } H (note names a) := by
    rcases h.store.getID (Or.inr ga) with ⟨rfl, _⟩ | ⟨_, _, x⟩ | ⟨_, s1, e1, n1⟩
    · exact absurd rfl ga.nonempty
    · exact absurd (x.mono (by omega)) hr
    · exact ⟨s1, e1, h.noted n1⟩
  obtain ⟨s2, e2, h2⟩ : ∃ s2, s1.getID b = .ok (s2, (note (note names a) b).idxOf b) ∧
      MInv { m with store := s2 } H (note (note names a) b) := by
    have hl := lettersIn_note names a
    rcases h1.store.getID (Or.inr gb) with ⟨rfl, _⟩ | ⟨_, _, x⟩ | ⟨_, s2, e2, n2⟩
    · exact absurd rfl gb.nonempty
    · exact absurd (Spec.StorageRefused.mono x (by omega)) hr
    · exact ⟨s2, e2, h1.noted (s := s2) n2⟩
  have hids : ∃ ij, Matcher.getIDs m.store w f = (s2, .ok ij) := by
    unfold Matcher.getIDs
    rw [← ha, ← hb]
    simp only [e1, e2]
    exact ⟨_, rfl⟩
  obtain ⟨⟨i, j⟩, hids⟩ := hids
  have ma : a ∈ note (note names a) b := mem_note.2 (Or.inl (mem_note.2 (Or.inr rfl)))
  have mb : b ∈ note (note names a) b := mem_note.2 (Or.inr rfl)
  have mf : f ∈ note (note names a) b ∧ w ∈ note (note names a) b := by
    cases hv : (Runtime.valueFirst : Bool) <;> (simp only [hv, Bool.false_eq_true, if_false, if_true] at ha hb; subst ha; subst hb)
    · exact ⟨ma, mb⟩
    · exact ⟨mb, ma⟩
  cases hl : listing docs with
  | nil =>
    exfalso
    apply hd docs hans
    rw [List.eq_nil_iff_forall_not_mem]
    rintro ⟨d, r⟩ hx
    have : (r, d) ∈ listing docs := mem_listing.2 hx
    rw [hl] at this; cases this
  | cons x xs =>
    obtain ⟨k, hk⟩ := keepLoop_known h2.store (ri := m.reverseIndex) (ts := [[(f, w)]]) (by simpa using mf) xs
    have : ∃ k, keepLoop m.reverseIndex [[(f, w)]] m.store (x :: xs) = (s2, .ok k) := by
      have ho : ∃ b, orLoop m.reverseIndex x.2 m.store [[(f, w)]] = (s2, .ok b) := by
        rw [orLoop, subLoop, hids]
        dsimp only
        cases ReverseIndex.documentHasTerm m.reverseIndex i j x.2
        · exact ⟨false, rfl⟩
        · exact ⟨true, rfl⟩
      obtain ⟨b, ho⟩ := ho
      dsimp only at hk
      rw [keepLoop, ho]
      cases b <;> (dsimp only; rw [hk]; exact ⟨_, rfl⟩)
    obtain ⟨k, hk⟩ := this
    refine ⟨s2, copied .new k, ?_, h2⟩
    rw [e, filtered, hp, hl, hk]

end


/-- Documents for which the order of additions matters: the first has the text "z" in the field "u", the second the text
"x y y z" in the field "t". The filter of the search between asks for a field "x" with the word "y", or the other way
round. -/
def wordX : Word := [0x78#16]
def wordY : Word := [0x79#16]
def wordZ : Word := [0x7a#16]
def fieldU : Word := [0x75#16]
def fieldT : Word := [0x74#16]
def firstDoc : Corpus := [documentOf 1 [(fieldU, [wordZ])]]
def secondDoc : Corpus := [documentOf 2 [(fieldT, [wordX, wordY, wordY, wordZ])]]
def oneText : MatcherHistory := [⟨1, fieldU, 1, [wordZ]⟩]
def bothTexts : MatcherHistory := [⟨1, fieldU, 1, [wordZ]⟩, ⟨2, fieldT, 4, [wordX, wordY, wordY, wordZ]⟩]
def between (f w : Word) : SearchParameters := ⟨true, ⟨[[(f, w)]]⟩, []⟩
def threeWords : WordList := [wordX, wordY, wordZ]

theorem good_letter {l : Letter} (h : 33 ≤ l.toNat ∧ l.toNat < 127) : GoodWord [l] :=
  Example.good_ascii (by simp) (by simpa using h)

theorem goodX : GoodWord wordX := good_letter (by decide)
theorem goodY : GoodWord wordY := good_letter (by decide)
theorem goodZ : GoodWord wordZ := good_letter (by decide)
theorem goodU : GoodWord fieldU := good_letter (by decide)
theorem goodT : GoodWord fieldT := good_letter (by decide)

theorem firstDoc_ok : CorpusOk firstDoc := by
  intro d hd
  rw [firstDoc, List.mem_singleton] at hd
  subst hd
  refine ⟨_, rfl, ?_⟩
  simp only [List.mem_cons, List.not_mem_nil, or_false, forall_eq]
  exact ⟨Or.inr goodU, Or.inr goodZ⟩

theorem secondDoc_ok : CorpusOk secondDoc := by
  intro d hd
  rw [secondDoc, List.mem_singleton] at hd
  subst hd
  refine ⟨_, rfl, ?_⟩
  simp only [List.mem_cons, List.not_mem_nil, or_false, forall_eq, forall_eq_or_imp]
  exact ⟨Or.inr goodT, Or.inr goodX, Or.inr goodY, Or.inr goodY, Or.inr goodZ⟩

section
variable [Build] [Icu]

theorem sane_three {q : WordList} (hq : ∀ x ∈ q, x ∈ threeWords) {H : MatcherHistory}
    (hH : ∀ w ∈ H.words, w.length ≤ 1) : Sane ErrorValues.new q H := by
  have h1 : ∀ x ∈ threeWords, ∀ l ∈ x, l ≠ 0#16 := by
    intro x hx
    simp only [threeWords, List.mem_cons, List.not_mem_nil, or_false] at hx
    rcases hx with rfl | rfl | rfl
    · exact goodX.noNul
    · exact goodY.noNul
    · exact goodZ.noNul
  have h2 : ∀ x ∈ threeWords, x.length ≤ 1 := by decide
  refine sane_default (L := 1) (fun x hx => h1 x (hq x hx)) (fun x hx => h2 x (hq x hx)) hH ?_
  norm_num

/-- A word itself costs nothing. -/
theorem close_self {q : WordList} {w : Word} (hw : w ∈ q) (p : SearchParameters) : CloseTo ErrorValues.new p q w 0 := by
  rw [new_is_default]
  refine ⟨⟨w, hw, ?_, limit_nonneg _ _⟩, fun x _ v hv _ => ?_⟩
  · rw [isEditCost_iff, configured_default, best_self unit_nonneg (by intro a _; simp [unitCosts])]
  · rw [isEditCost_iff, configured_default] at hv
    rw [hv]; exact best_nonneg unit_nonneg

theorem close_value {q : WordList} {w : Word} (hw : w ∈ q) (p : SearchParameters) {v : Int} (h : CloseTo ErrorValues.new p q w v) :
    v = 0 := by
  obtain ⟨⟨x, hx, h1, h2⟩, h3⟩ := h
  obtain ⟨⟨y, hy, h4, h5⟩, h6⟩ := close_self hw p
  exact le_antisymm (h3 y hy 0 h4 h5) (h6 x hx v h1 h2)

/-- The relevancy of the second document if the words get their identifiers in the order z, a, b. -/
def finalValue [Fp] (a b : Word) : ℚ :=
  sumUp [contribution [] bothTexts fieldT wordZ 0, contribution [] bothTexts fieldT a 0, contribution [] bothTexts fieldT b 0]

theorem final_search [Fp] [Runtime] {m : Matcher} {names : List Word} (h : MInv m bothTexts names) (he : m.e = ErrorValues.new)
    (hw : m.weights = []) {a b : Word} (hab : (a = wordX ∧ b = wordY) ∨ (a = wordY ∧ b = wordX))
    (h1 : names.idxOf wordZ < names.idxOf a) (h2 : names.idxOf a < names.idxOf b) :
    ∃ r k, m.matchQuery threeWords SearchParameters.new = (m, .ok r) ∧ Shows r k ∧ (k.map (·.2)).Nodup ∧ (finalValue a b, 2) ∈ k := by
  have hs : Sane m.e threeWords bothTexts := by rw [he]; exact sane_three (fun _ h => h) (by decide)
  have hex : Exact m.e threeWords := by rw [he]; exact exact_default _
  obtain ⟨docs, ha, e⟩ := h.matchQuery_eq (p := SearchParameters.new) hs
  have hsorted : SMap.Sorted ltNat docs := by obtain ⟨P, _, hD⟩ := ha; exact hD.sorted
  rw [filtered_trivial _ rfl] at e
  refine ⟨_, _, e, shows_copied (listing_rank hsorted), listing_nodup hsorted, ?_⟩
  have hp : ∀ w ∈ threeWords, bothTexts.Posting 2 fieldT w := by decide
  have hmem : (2 : DocumentID) ∈ docs.map (·.1) := by
    rw [h.answer_mem hs.nonNeg ha]
    refine ⟨fieldT, wordZ, wordZ, hp _ (by decide), rfl, by decide, ?_⟩
    rw [he]
    refine seen_self (he ▸ hs.nonNeg wordZ (by decide)) ?_ (limit_nonneg _ _)
    intro a _
    rw [new_is_default]
    exact default_sub a a |>.trans (by simp)
  obtain ⟨⟨d, rel⟩, hx, rfl⟩ := List.mem_map.1 hmem
  rw [mem_listing]
  obtain ⟨L, l1, l2, l3, l4⟩ := h.answer_value ha hx
  have hL : L = [(fieldT, wordZ, 0), (fieldT, a, 0), (fieldT, b, 0)] := by
    have hmem : ∀ f w v, (f, w, v) ∈ L ↔ (f, w, v) ∈ [(fieldT, wordZ, (0 : Int)), (fieldT, a, 0), (fieldT, b, 0)] := by
      intro f w v
      rw [l1]
      have hpost : bothTexts.Posting 2 f w ↔ f = fieldT ∧ w ∈ threeWords := by
        constructor
        · rintro ⟨x, hx, hx1, rfl, hx3⟩
          simp only [bothTexts, List.mem_cons, List.not_mem_nil, or_false] at hx
          rcases hx with rfl | rfl
          · cases hx1
          · refine ⟨rfl, ?_⟩
            simp only [threeWords, List.mem_cons, List.not_mem_nil, or_false] at hx3 ⊢
            tauto
        · rintro ⟨rfl, hw⟩; exact hp w hw
      have hab' : w ∈ threeWords ↔ w = wordZ ∨ w = a ∨ w = b := by
        simp only [threeWords, List.mem_cons, List.not_mem_nil, or_false]
        rcases hab with ⟨rfl, rfl⟩ | ⟨rfl, rfl⟩ <;> tauto
      constructor
      · rintro ⟨q1, q2⟩
        rw [h.least_iff hs.nonNeg hex q1] at q2
        obtain ⟨rfl, hw'⟩ := hpost.1 q1
        rw [he] at q2
        have := close_value hw' _ q2.2
        subst this
        rcases hab'.1 hw' with rfl | rfl | rfl <;> simp
      · intro hm
        have : f = fieldT ∧ (w = wordZ ∨ w = a ∨ w = b) ∧ v = 0 := by
          simp only [List.mem_cons, Prod.mk.injEq, List.not_mem_nil, or_false] at hm
          tauto
        obtain ⟨rfl, hw', rfl⟩ := this
        have hq := hpost.2 ⟨rfl, hab'.2 hw'⟩
        refine ⟨hq, (h.least_iff hs.nonNeg hex hq _).2 ⟨rfl, ?_⟩⟩
        rw [he]; exact close_self (hab'.2 hw') _
    set B : Word × Word × Int → Word × Word × Int → Prop := fun a b =>
      Before (names.idxOf a.1, names.idxOf a.2.1, a.2.2) (names.idxOf b.1, names.idxOf b.2.1, b.2.2) with hB
    have hirr : ∀ x, ¬ B x x := by
      rintro x (hx | ⟨_, hx⟩) <;> exact Nat.lt_irrefl _ hx
    have l5 : [(fieldT, wordZ, (0 : Int)), (fieldT, a, 0), (fieldT, b, 0)].Pairwise B := by
      simp only [List.pairwise_cons, List.mem_cons, List.not_mem_nil, or_false, forall_eq_or_imp, forall_eq, List.Pairwise.nil,
        and_true, IsEmpty.forall_iff, implies_true, hB, Before]
      exact ⟨⟨Or.inr ⟨trivial, h1⟩, Or.inr ⟨trivial, Nat.lt_trans h1 h2⟩⟩, Or.inr ⟨trivial, h2⟩⟩
    have nd : ∀ {l : List (Word × Word × Int)}, l.Pairwise B → l.Nodup := fun {l} hl =>
      hl.imp (by rintro x y hxy rfl; exact hirr x hxy)
    have hperm : L.Perm [(fieldT, wordZ, (0 : Int)), (fieldT, a, 0), (fieldT, b, 0)] :=
      (List.perm_ext_iff_of_nodup (nd l2) (nd l5)).2 fun ⟨f, w, v⟩ => hmem f w v
    refine List.Perm.eq_of_pairwise (le := B) ?_ l2 l5 hperm
    intro x y _ _ hxy hyx
    exfalso
    rcases hxy with hxy | ⟨hxy, hxy'⟩ <;> rcases hyx with hyx | ⟨hyx, hyx'⟩
    · exact Nat.lt_asymm hxy hyx
    · exact absurd hxy (by rw [hyx]; exact Nat.lt_irrefl _)
    · exact absurd hyx (by rw [hxy]; exact Nat.lt_irrefl _)
    · exact Nat.lt_asymm hxy' hyx'
  rw [l4, hL, hw] at hx
  exact hx

/-- The state after the first document. -/
theorem first_state : ∃ m0 m1 names, Matcher.new os = .ok m0 ∧ m0.e = ErrorValues.new ∧ m0.index firstDoc = (m1, none) ∧
    (∀ [Runtime] [Fp], Ran os m1 oneText []) ∧ MInv m1 oneText names ∧ wordZ ∈ names ∧ wordX ∉ names ∧ wordY ∉ names ∧
    lettersIn names ≤ 2 ∧ m1.os = os ∧ m1.e = ErrorValues.new ∧ m1.weights = [] := by
  rcases MInv.new os with ⟨h, _⟩ | ⟨m0, e0, h0, hos⟩
  · cases h
  have hm0 : m0.e = ErrorValues.new ∧ m0.weights = [] := by
    simp only [Matcher.new] at e0
    cases hn : WordStore.new os with
    | error f => rw [hn] at e0; cases e0
    | ok s => rw [hn] at e0; injection e0 with e0; rw [← e0]; exact ⟨rfl, rfl⟩
  have ht : corpusTexts firstDoc = oneText := by decide
  have hne : NoEmpty oneText := by decide
  rcases h0.index firstDoc m0 [] [] firstDoc_ok with ⟨_, _, _, hr⟩ | ⟨m1, names, e1, h1, _, hk, hl, g1, g2, g3⟩
  · rw [hos, ht] at hr
    exact absurd hr (granted (by decide))
  · rw [ht] at h1 hk hl e1
    rw [beforeEmpty_self hne] at h1 hk
    have e2 : m0.index firstDoc = (m1, none) := by rw [e1]; simp [emptyFault, hne]
    have hsub : ∀ v ∈ names, v ∈ oneText.mentions := fun v hv => (hk v hv).resolve_left (by simp)
    refine ⟨m0, m1, names, e0, hm0.1, e2, ?_, h1, h1.known _ (by decide), fun h => absurd (hsub _ h) (by decide),
      fun h => absurd (hsub _ h) (by decide), ?_, g1.trans hos, g2.trans hm0.1, g3.trans hm0.2⟩
    · intro R F
      have := @Ran.index _ _ R F _ _ _ _ _ _ _ (.new e0) firstDoc_ok e2 (by intro f h; cases h)
      rwa [ht, beforeEmpty_self hne] at this
    · have : lettersIn oneText.mentions = 2 := by decide
      rw [lettersIn_nil] at hl
      omega

/-- The search between makes its words known in the order a, b. -/
theorem between_search [Runtime] [Fp] {m : Matcher} {names : List Word} (h : MInv m oneText names) (hos : m.os = os)
    (he : m.e = ErrorValues.new) (hw : m.weights = []) (hl : lettersIn names ≤ 2) {f w a b : Word}
    (hf : GoodWord f) (hv : GoodWord w) (lf : f.length = 1) (lw : w.length = 1)
    (ha : a = if Runtime.valueFirst then w else f) (hb : b = if Runtime.valueFirst then f else w) :
    ∃ m' r, m.matchQuery [wordZ] (between f w) = (m', .ok r) ∧ MInv m' oneText (note (note names a) b) ∧
      m'.os = os ∧ m'.e = ErrorValues.new ∧ m'.weights = [] := by
  have hs : Sane m.e [wordZ] oneText := by
    rw [he]; exact sane_three (by decide) (by decide)
  obtain ⟨s', r, e, hi⟩ := search_notes h hs (p := between f w) rfl hf hv ha hb (fun docs hd h0 => by
    subst h0
    have : (1 : DocumentID) ∈ ([] : SMap DocumentID ℚ).map (·.1) := by
      rw [h.answer_mem hs.nonNeg hd]
      refine ⟨fieldU, wordZ, wordZ, by decide, rfl, by simp, ?_⟩
      rw [he]
      refine seen_self (he ▸ hs.nonNeg _ (by simp)) ?_ (limit_nonneg _ _)
      intro a _
      rw [new_is_default]
      exact default_sub a a |>.trans (by simp)
    cases this) (by rw [hos]; exact granted (by omega))
  exact ⟨_, r, e, hi, hos, he, hw⟩

/-- The second document. -/
theorem second_state {m : Matcher} {names : List Word} (h : MInv m oneText names) (hos : m.os = os)
    (he : m.e = ErrorValues.new) (hw : m.weights = []) (hl : lettersIn names ≤ 4) :
    ∃ m' names', m.index secondDoc = (m', none) ∧ MInv m' bothTexts names' ∧ names <+: names' ∧
      m'.e = ErrorValues.new ∧ m'.weights = [] := by
  have ht : corpusTexts secondDoc = [⟨2, fieldT, 4, [wordX, wordY, wordY, wordZ]⟩] := by decide
  have hne : NoEmpty (corpusTexts secondDoc) := by rw [ht]; decide
  rcases h.index secondDoc m oneText names secondDoc_ok with ⟨_, _, _, hr⟩ | ⟨m1, names', e1, h1, hp, _, _, g1, g2, g3⟩
  · rw [hos, ht] at hr
    have h2 : lettersIn oneText.words = 1 := by decide
    have h3 : lettersIn (MatcherHistory.mentions [⟨2, fieldT, 4, [wordX, wordY, wordY, wordZ]⟩]) = 5 := by decide
    exact absurd hr (granted (by omega))
  · rw [beforeEmpty_self hne, ht] at h1
    exact ⟨m1, names', by rw [e1]; simp [emptyFault, hne], h1, hp, g2.trans he, g3.trans hw⟩

omit [Build] [Icu] in
/-- The order of the identifiers after the search between. -/
theorem note_order {names names' : List Word} {a b : Word} (hz : wordZ ∈ names) (ha : a ∉ names) (hb : b ∉ names) (hab : a ≠ b)
    (hp : note (note names a) b <+: names') :
    names'.idxOf wordZ < names'.idxOf a ∧ names'.idxOf a < names'.idxOf b := by
  have h1 : note (note names a) b = names ++ [a, b] := by
    have h2 : note names a = names ++ [a] := by rw [note, if_neg ha]
    rw [h2, note, if_neg (by simp [hb, Ne.symm hab])]
    simp
  rw [h1] at hp
  obtain ⟨t, rfl⟩ := hp
  have hza : wordZ ≠ a := fun h => ha (h ▸ hz)
  rw [List.append_assoc, List.idxOf_append_of_mem hz, List.idxOf_append_of_notMem ha, List.idxOf_append_of_notMem hb]
  have hlt := List.idxOf_lt_length_iff.2 hz
  simp only [List.cons_append, List.nil_append, List.idxOf_cons_self, List.idxOf_cons_ne _ hab]
  omega

omit [Build] [Icu] in
theorem values_differ : @finalValue ieee wordX wordY ≠ @finalValue ieee wordY wordX := by
  decide +kernel

end
end Columbus.Example
