import Verif.Props.OnlineMore
import Verif.Proofs.Twins
import Verif.Proofs.Better
/-
C122, C123: documents with the same texts, fields of weight 0.
-/

namespace Columbus.Props
open Columbus Spec ErrorValues

section
variable [Build] [Icu] [Runtime] [Fp] {os : Nat → Bool} {m : Matcher} {H : MatcherHistory} {K : List Word}

/-! ### C122 -/

omit [Build] [Icu] [Runtime] [Fp] in
/-- Where two results with the same relevancy stand. -/
theorem ranked_twins {k : List Result} (hr : k.Pairwise RankOrder) {i j : Nat} {rel : ℚ} {d d' : DocumentID} (hi : k[i]? = some (rel, d))
    (hj : k[j]? = some (rel, d')) (hd : d < d') :
    i < j ∧ ∀ (l : Nat) (x : Result), i < l → l < j → k[l]? = some x → x.1 = rel ∧ d < x.2 ∧ x.2 < d' := by
  rw [List.pairwise_iff_getElem] at hr
  obtain ⟨hi1, hi2⟩ := List.getElem?_eq_some_iff.1 hi
  obtain ⟨hj1, hj2⟩ := List.getElem?_eq_some_iff.1 hj
  constructor
  · rcases Nat.lt_trichotomy i j with hij | rfl | hij
    · exact hij
    · rw [hi] at hj; injection hj with hj; injection hj with _ hj; exact absurd hd (by rw [hj]; exact Nat.lt_irrefl _)
    · have := hr j i hj1 hi1 hij
      rw [hi2, hj2] at this
      rcases this with h | ⟨_, h⟩
      · exact absurd h (lt_irrefl _)
      · exact absurd h (Nat.lt_asymm hd)
  · intro l x h1 h2 hx
    obtain ⟨hl1, hl2⟩ := List.getElem?_eq_some_iff.1 hx
    have a := hr i l hi1 hl1 h1
    have b := hr l j hl1 hj1 h2
    rw [hi2, hl2] at a
    rw [hl2, hj2] at b
    rcases a with a | ⟨a, a'⟩ <;> rcases b with b | ⟨b, b'⟩
    · exact absurd (lt_trans a b) (lt_irrefl _)
    · rw [b] at a; exact absurd a (lt_irrefl _)
    · rw [← a] at b; exact absurd b (lt_irrefl _)
    · exact ⟨b, a', b'⟩

/-- C122. Two documents with the same words in the same fields are found by the same searches, with the same relevancy. The one with
the lower identifier is listed first; what is listed between them has that relevancy too, and an identifier between theirs. -/
theorem C122_twins (h : Ran os m H K) (q : WordList) (p : SearchParameters) (hs : Sane m.e q H) (hu : ∀ w ∈ filterWords p.filter, Usable w)
    (m' : Matcher) (r : MatchResults) (k : List Result) (e : m.matchQuery q p = (m', .ok r)) (hk : Shows r k) (d d' : DocumentID)
    (ht : ∀ f w, H.Posting d f w ↔ H.Posting d' f w) :
    (∀ rel, (rel, d) ∈ k ↔ (rel, d') ∈ k) ∧
    (d < d' → ∀ (i j : Nat) (rel rel' : ℚ), k[i]? = some (rel, d) → k[j]? = some (rel', d') → i < j ∧
      ∀ (l : Nat) (x : Result), i < l → l < j → k[l]? = some x → x.1 = rel ∧ d < x.2 ∧ x.2 < d') := by
  obtain ⟨k', hk', hnd, hord⟩ := C46_ranked m m' q p r e
  obtain rfl := Columbus.Shows.unique hk hk'
  obtain ⟨names, hi, _⟩ := Ran.start h
  obtain ⟨docs, ha, hsd, hkk⟩ := answer_shows hi hs hu e hk
  have key : ∀ rel, (rel, d) ∈ k ↔ (rel, d') ∈ k := by
    intro rel
    rw [hkk, List.mem_filter, List.mem_filter, mem_listing, mem_listing, hi.answer_twins ha ht rel]
    have hsat : Satisfies H p.filter d ↔ Satisfies H p.filter d' := by simp only [Satisfies, ht]
    simp only [decide_eq_true_eq, hsat]
  refine ⟨key, fun hd i j rel rel' h1 h2 => ?_⟩
  have h3 := (key rel).1 (List.mem_of_getElem? h1)
  have h4 := List.mem_of_getElem? h2
  have : rel = rel' := by
    rw [hkk] at h3 h4
    have a := mem_listing.1 (List.mem_filter.1 h3).1
    have b := mem_listing.1 (List.mem_filter.1 h4).1
    rw [← SMap.find_some_iff strict_ltNat hsd] at a b
    rw [a] at b
    injection b
  subst this
  exact ranked_twins hord h1 h2 hd

/-- C122. The same for the scores of `onlineMatch`, if the texts of the field have the same number of words. -/
theorem C122_online (h : Ran os m H K) (q : WordList) (hq : ∀ w ∈ q, Usable w) (hs : Sane m.e q H) (f : Word) (hf : ∃ x ∈ H, x.field = f)
    (m' : Matcher) (r : MatchResults) (k : List Result) (e : m.onlineMatch q f = (m', .ok r)) (hk : Shows r k) (d d' : DocumentID)
    (ht : ∀ f w, H.Posting d f w ↔ H.Posting d' f w) (hz : H.size d f = H.size d' f) :
    ∀ s, (s, d) ∈ k ↔ (s, d') ∈ k := by
  obtain ⟨names, hi, _⟩ := Ran.start h
  obtain ⟨x, hx, rfl⟩ := hf
  obtain ⟨docs, acc, ha, hsc, rfl⟩ := online_answer hi (hi.known _ (MatcherHistory.mentions_field hx)) hq hs e hk
  have hexacts : exacts H q x.field d = exacts H q x.field d' := by
    unfold exacts
    simp only [ht]
  have hpart : exactPart H q x.field d = exactPart H q x.field d' := by
    unfold exactPart
    rw [hexacts, hz]
  have hsd : SMap.Sorted ltNat docs := by obtain ⟨P, _, hD⟩ := ha; exact hD.sorted
  have hm : d ∈ (listing docs).map (·.2) ↔ d' ∈ (listing docs).map (·.2) := by
    constructor
    · intro h1
      obtain ⟨⟨rel, d1⟩, h2, rfl⟩ := List.mem_map.1 h1
      exact List.mem_map.2 ⟨(rel, d'), mem_listing.2 ((hi.answer_twins ha ht rel).1 (mem_listing.1 h2)), rfl⟩
    · intro h1
      obtain ⟨⟨rel, d1⟩, h2, rfl⟩ := List.mem_map.1 h1
      exact List.mem_map.2 ⟨(rel, d), mem_listing.2 ((hi.answer_twins ha ht rel).2 (mem_listing.1 h2)), rfl⟩
  have hfind : SMap.find ltNat acc d = SMap.find ltNat acc d' := by
    by_cases hd : d ∈ (listing docs).map (·.2)
    · obtain ⟨⟨rel, d1⟩, h2, rfl⟩ := List.mem_map.1 hd
      rw [hsc.matched _ _ h2, hsc.matched d' rel (mem_listing.2 ((hi.answer_twins ha ht rel).1 (mem_listing.1 h2))), hpart]
    · rw [hsc.other d hd, hsc.other d' (fun h1 => hd (hm.2 h1)), hpart, hexacts]
  intro s
  rw [mem_listing, mem_listing, ← SMap.find_some_iff strict_ltNat hsc.sorted, ← SMap.find_some_iff strict_ltNat hsc.sorted, hfind]

/-- Two documents with the title "save". -/
example : ∃ (m : Matcher) (r : MatchResults) (k : List Result) (H : MatcherHistory), Ran Example.os m H [] ∧ Sane m.e [Example.save] H ∧
    m.matchQuery [Example.save] .new = (m, .ok r) ∧ Shows r k ∧ 1 ∈ k.map (·.2) ∧ (∃ x ∈ H, x.field = Example.title) ∧
    (∀ f w, H.Posting 1 f w ↔ H.Posting 2 f w) ∧ H.size 1 Example.title = H.size 2 Example.title := by
  obtain ⟨_, m, _, _, _, _, h, _, he, _⟩ := two_titles [Example.save] (by simp [Example.good_save]) (by decide) (by decide)
  have hs : Sane m.e [Example.save] ([⟨1, Example.title, 1, [Example.save]⟩] ++ [⟨2, Example.title, 1, [Example.save]⟩]) := by
    rw [he]
    exact sane_default (L := 100) (fun x hx => by rw [List.mem_singleton] at hx; subst hx; exact Example.good_save.noNul) (by decide) (by decide) (by norm_num)
  obtain ⟨r, k, e, hk, hm⟩ := C44_found h [Example.save] .new hs (by rw [he]; exact exact_default _) rfl
  refine ⟨m, r, k, _, h, hs, e, hk, ?_, ⟨_, List.mem_cons_self, rfl⟩, ?_, by decide⟩
  · obtain ⟨x, hx, hcost, hl⟩ := ((close_self (q := [Example.save]) (List.mem_singleton.2 rfl) (by decide)).2 rfl).near
    exact (hm 1).2 ⟨Example.title, Example.save, x, 0, ⟨_, List.mem_cons_self, rfl, rfl, List.mem_singleton.2 rfl⟩, rfl,
      hx, by rw [he]; exact hcost, hl⟩
  · intro f w
    simp only [MatcherHistory.Posting, List.cons_append, List.nil_append, List.mem_cons, List.not_mem_nil, or_false, exists_eq_or_imp, exists_eq_left]
    simp

/-! ### C123 -/

/-- C123. If a field has weight 0, excluding it from a search removes only documents with relevancy 0;
the others stay in their order, with the same relevancy in double arithmetic. -/
theorem C123_zero (h : Ran os m H K) (q : WordList) (p : SearchParameters) (g : Word) (h0 : IndexWeights.getWeight m.weights g = 0)
    (hs : Sane m.e q H) (hu : ∀ w ∈ filterWords p.filter, Usable w) (m1 m2 : Matcher) (r r' : MatchResults) (k k' : List Result)
    (e : m.matchQuery q p = (m1, .ok r)) (hk : Shows r k)
    (e' : m.matchQuery q (p.addNonsearchingField g) = (m2, .ok r')) (hk' : Shows r' k') :
    k'.Sublist k ∧ ∀ rel d, (rel, d) ∈ k → (rel, d) ∈ k' ∨ (rel = 0 ∧ d ∉ k'.map (·.2)) := by
  obtain ⟨k1, hk1, _, hord⟩ := C46_ranked m m1 q p r e
  obtain rfl := Columbus.Shows.unique hk hk1
  obtain ⟨k2, hk2, _, hord'⟩ := C46_ranked m m2 q _ r' e'
  obtain rfl := Columbus.Shows.unique hk' hk2
  obtain ⟨names, hi, _⟩ := Ran.start h
  obtain ⟨docs, ha, _, hkk⟩ := answer_shows hi hs hu e hk
  obtain ⟨docs', ha', _, hkk'⟩ := answer_shows (p := p.addNonsearchingField g) hi hs hu e' hk'
  have key := answer_zero h0 (C58_excludes p g) (fun x => rfl) ha ha'
  constructor
  · refine sublist_of_sorted ?_ ?_ hord' hord ?_
    · rintro x (hx | ⟨_, hx⟩)
      · exact lt_irrefl _ hx
      · exact Nat.lt_irrefl _ hx
    · intro x y hxy hyx
      rcases hxy with a | ⟨a, a'⟩ <;> rcases hyx with b | ⟨b, b'⟩
      · exact lt_irrefl _ (lt_trans a b)
      · rw [b] at a; exact lt_irrefl _ a
      · rw [a] at b; exact lt_irrefl _ b
      · exact Nat.lt_asymm a' b'
    · rintro ⟨rel, d⟩ hx
      rw [hkk', List.mem_filter] at hx
      rw [hkk, List.mem_filter]
      exact ⟨mem_listing.2 ((key d).1 rel (mem_listing.1 hx.1)), hx.2⟩
  · intro rel d hx
    rw [hkk, List.mem_filter] at hx
    rcases (key d).2 rel (mem_listing.1 hx.1) with h1 | ⟨h1, h2⟩
    · left
      rw [hkk', List.mem_filter]
      exact ⟨mem_listing.2 h1, hx.2⟩
    · refine Or.inr ⟨h1, fun h3 => h2 ?_⟩
      obtain ⟨x, h4, rfl⟩ := List.mem_map.1 h3
      rw [hkk', List.mem_filter] at h4
      exact mem_listing_docs.1 (List.mem_map.2 ⟨x, h4.1, rfl⟩)

/-- The documents of the example, the title with weight 0. -/
example : ∃ (m : Matcher) (r r' : MatchResults) (k k' : List Result), Ran Example.os m Example.texts [] ∧
    IndexWeights.getWeight m.weights Example.title = 0 ∧ Sane m.e [Example.save] Example.texts ∧
    m.matchQuery [Example.save] .new = (m, .ok r) ∧ Shows r k ∧
    m.matchQuery [Example.save] (SearchParameters.new.addNonsearchingField Example.title) = (m, .ok r') ∧ Shows r' k' ∧
    1 ∈ k.map (·.2) := by
  obtain ⟨m, h, he, hw⟩ := Example.ran
  have h' := Ran.weight Example.title 0 h
  have hs : Sane m.e [Example.save] Example.texts := by rw [he]; exact Example.sane_save
  obtain ⟨r, k, e, hk, hm⟩ := C44_found h' [Example.save] .new hs (by show Exact m.e _; rw [he]; exact exact_default _) rfl
  obtain ⟨r', k', e', hk', _⟩ := C44_found h' [Example.save] (SearchParameters.new.addNonsearchingField Example.title) hs
    (by show Exact m.e _; rw [he]; exact exact_default _) rfl
  refine ⟨_, r, r', k, k', h', by show IndexWeights.getWeight (IndexWeights.setWeight m.weights _ _) _ = 0; rw [hw]; decide, hs, e, hk, e', hk', ?_⟩
  obtain ⟨x, hx, hcost, hl⟩ := ((close_self (q := [Example.save]) (List.mem_singleton.2 rfl) (by decide)).2 rfl).near
  exact (hm 1).2 ⟨Example.title, Example.save, x, 0, ⟨_, List.mem_cons_self, rfl, rfl, List.mem_cons_self⟩, rfl, hx, by show IsEditCost (configured m.e _) _ _ _; rw [he]; exact hcost, hl⟩

end
end Columbus.Props
