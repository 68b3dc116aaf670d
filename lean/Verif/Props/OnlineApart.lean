import Verif.Props.Favour
import Verif.Props.Apart
/-
C125: `onlineMatch` and documents with other fields.
-/

namespace Columbus.Props
open Columbus Spec ErrorValues

section
variable [Build] [Icu] [Runtime] [Fp] {os : Nat → Bool} {m : Matcher} {H : MatcherHistory} {K : List Word}

/-! ### C125 -/

omit [Build] [Icu] [Runtime] in
/-- Scores of some of the documents. -/
theorem scores_restricted {H' : MatcherHistory} {q : WordList} {f : Word} {k k' : List Result} {acc acc' : SMap DocumentID ℚ}
    (D : DocumentID → Prop) [DecidablePred D] (h : IsScores H q f k acc) (h' : IsScores H' q f k' acc')
    (hk : k = k'.filter fun x => decide (D x.2)) (hx : ∀ d, D d → exacts H q f d = exacts H' q f d)
    (hp : ∀ d, D d → exactPart H q f d = exactPart H' q f d) (h0 : ∀ d, ¬ D d → exacts H q f d = 0) :
    listing acc = (listing acc').filter fun x => decide (D x.2) := by
  have hfind : ∀ d, D d → SMap.find ltNat acc d = SMap.find ltNat acc' d := by
    intro d hd
    by_cases hm : d ∈ k'.map (·.2)
    · obtain ⟨⟨rel, d'⟩, h2, rfl⟩ := List.mem_map.1 hm
      have h3 : (rel, d') ∈ k := by rw [hk, List.mem_filter]; exact ⟨h2, decide_eq_true hd⟩
      rw [h.matched _ _ h3, h'.matched _ _ h2, hp d' hd]
    · have h3 : d ∉ k.map (·.2) := by
        intro h4
        obtain ⟨x, h5, rfl⟩ := List.mem_map.1 h4
        rw [hk, List.mem_filter] at h5
        exact hm (List.mem_map.2 ⟨x, h5.1, rfl⟩)
      rw [h.other d h3, h'.other d hm, hp d hd, hx d hd]
  have hnone : ∀ d, ¬ D d → SMap.find ltNat acc d = none := by
    intro d hd
    rw [h.other d, if_pos (h0 d hd)]
    intro h4
    obtain ⟨x, h5, rfl⟩ := List.mem_map.1 h4
    rw [hk, List.mem_filter] at h5
    exact hd (of_decide_eq_true h5.2)
  apply eq_of_sorted (r := RankOrder) ?_ ?_ (listing_rank h.sorted) ((listing_rank h'.sorted).filter _)
  · rintro ⟨s, d⟩
    rw [List.mem_filter, mem_listing, mem_listing, ← SMap.find_some_iff strict_ltNat h.sorted, ← SMap.find_some_iff strict_ltNat h'.sorted]
    dsimp only
    by_cases hd : D d
    · rw [hfind d hd]; simp [hd]
    · rw [hnone d hd]; simp [hd]
  · rintro x (hx | ⟨_, hx⟩)
    · exact lt_irrefl _ hx
    · exact Nat.lt_irrefl _ hx
  · intro x y hxy hyx
    rcases hxy with a | ⟨a, a'⟩ <;> rcases hyx with b | ⟨b, b'⟩
    · exact lt_irrefl _ (lt_trans a b)
    · rw [b] at a; exact lt_irrefl _ a
    · rw [a] at b; exact lt_irrefl _ b
    · exact Nat.lt_asymm a' b'

/-- C125. Indexing documents that have no field in common with the documents indexed before changes nothing in what `onlineMatch` lists of
these for one of their fields: the same documents in the same order with the same scores, in double arithmetic. -/
theorem C125_apart (h : Ran os m H K) (c : Corpus) (hc : CorpusOk c) (ha : Apart H c) (m1 : Matcher) (o : Option Fault)
    (hi : m.index c = (m1, o)) (ho : ∀ f, o = some f → Fault.Benign f) (q : WordList) (hq : ∀ w ∈ q, Usable w)
    (hs : Sane m.e q (H ++ beforeEmpty (corpusTexts c))) (he : Exact m.e q) (f : Word) (hf : ∃ x ∈ H, x.field = f)
    (m2 m3 : Matcher) (r r' : MatchResults) (k k' : List Result) (e : m.onlineMatch q f = (m2, .ok r)) (hk : Shows r k)
    (e' : m1.onlineMatch q f = (m3, .ok r')) (hk' : Shows r' k') : k = k'.filter fun x => decide (x.2 ∈ H.map Indexed.doc) := by
  have hap : ∀ x ∈ beforeEmpty (corpusTexts c), ∀ y ∈ H, x.doc ≠ y.doc ∧ x.field ≠ y.field := by
    intro x hx y hy
    obtain ⟨z, hz, h1, h2⟩ := beforeEmpty_from hx
    rw [← h1, ← h2]
    exact ha z hz y hy
  have h1 := Ran.index h hc hi ho
  have h109 := C109_apart h c hc ha m1 o hi ho q .new hs he (fun w hw => by cases hw)
  generalize beforeEmpty (corpusTexts c) = T at *
  obtain ⟨names, hm, _⟩ := Ran.start h
  obtain ⟨names1, hm1, _⟩ := Ran.start h1
  have hs0 : Sane m.e q H := by
    refine ⟨hs.noNul, hs.nonNeg, fun x hx => ?_, hs.assertion⟩
    obtain ⟨B, L, b1, b2, b3⟩ := hs.moderate x hx
    refine ⟨B, L, b1, fun y hy => b2 y ?_, b3⟩
    obtain ⟨w, hw, rfl⟩ := List.mem_map.1 hy
    exact List.mem_map.2 ⟨w, by simp only [MatcherHistory.words, List.flatMap_append, List.mem_append] at hw ⊢; exact Or.inl hw, rfl⟩
  have he1 : m1.e = m.e := Columbus.index_e hm hc hi ho
  obtain ⟨x, hx, rfl⟩ := hf
  obtain ⟨docs, a1, e1⟩ := hm.matchQuery_eq (p := SearchParameters.new) hs0
  obtain ⟨docs', a2, e2⟩ := hm1.matchQuery_eq (p := SearchParameters.new) (q := q) (by rw [he1]; exact hs)
  rw [filtered_trivial _ rfl] at e1 e2
  have s1 := shows_copied (listing_rank (docs := docs) (by obtain ⟨P, _, hD⟩ := a1; exact hD.sorted))
  have s2 := shows_copied (listing_rank (docs := docs') (by obtain ⟨P, _, hD⟩ := a2; exact hD.sorted))
  obtain ⟨acc, hsc, rfl⟩ := online_shows hm (hm.known _ (MatcherHistory.mentions_field hx)) hq e1 s1 e hk
  obtain ⟨acc', hsc', rfl⟩ := online_shows hm1 (hm1.known _ (MatcherHistory.mentions_field (List.mem_append_left _ hx))) hq e2 s2 e' hk'
  have hp : ∀ d w, (H ++ T).Posting d x.field w ↔ H.Posting d x.field w := by
    intro d w
    rw [MatcherHistory.posting_append]
    refine ⟨fun h => h.elim id ?_, Or.inl⟩
    rintro ⟨y, hy, _, h3, _⟩
    exact absurd h3 (hap y hy x hx).2
  have hex : ∀ d, exacts H q x.field d = exacts (H ++ T) q x.field d := by
    intro d
    unfold exacts
    simp only [hp]
  have hsz : ∀ d, H.size d x.field = (H ++ T).size d x.field := by
    intro d
    unfold MatcherHistory.size
    rw [List.reverse_append, List.find?_append]
    have : T.reverse.find? (fun y => y.doc == d && y.field == x.field) = none := by
      rw [List.find?_eq_none]
      intro y hy hc
      simp only [Bool.and_eq_true, beq_iff_eq] at hc
      exact (hap y (List.mem_reverse.1 hy) x hx).2 hc.2
    rw [this, Option.none_or]
  refine scores_restricted (fun d => d ∈ H.map Indexed.doc) hsc hsc' (h109 m m1 _ _ _ _ e1 s1 e2 s2) (fun d _ => hex d) ?_ ?_
  · intro d _
    unfold exactPart
    rw [hex, hsz]
  · intro d hd
    unfold exacts
    rw [List.countP_eq_zero]
    intro w _ hw
    obtain ⟨y, hy, h3, _⟩ := of_decide_eq_true hw
    exact hd (List.mem_map.2 ⟨y, hy, h3⟩)

/-- The documents of C109: document 1 with the text "x" in the field "t", then document 2 with the text "x" in the field "x". -/
example : ∃ (c : Corpus) (m m1 : Matcher) (r r' : MatchResults) (k k' : List Result),
    Ran Example.os m [⟨1, Example.fieldT, 1, [Example.wordX]⟩] [] ∧ CorpusOk c ∧ Apart [⟨1, Example.fieldT, 1, [Example.wordX]⟩] c ∧
      m.index c = (m1, none) ∧ m.onlineMatch [Example.wordX] Example.fieldT = (m, .ok r) ∧ Shows r k ∧
      m1.onlineMatch [Example.wordX] Example.fieldT = (m1, .ok r') ∧ Shows r' k' ∧ 1 ∈ k.map (·.2) ∧ 2 ∈ k'.map (·.2) := by
  obtain ⟨c, m, m1, r, r', k, k', rel, h, hc, ha, hi, e, hk, e', hk', rfl, _, h2⟩ := C109_example
  have h1 := Ran.index h hc hi (by intro f hf; cases hf)
  obtain ⟨names, hm, _⟩ := Ran.start h
  obtain ⟨names1, hm1, _⟩ := Ran.start h1
  have hu : ∀ w ∈ [Example.wordX], Usable w := by intro w hw; rw [List.mem_singleton] at hw; subst hw; exact Or.inr Example.goodX
  have online : ∀ {m : Matcher} {H : MatcherHistory} {names : List Word} {r : MatchResults} {k : List Result} {d : DocumentID},
      MInv m H names → Example.fieldT ∈ names → m.matchDefault [Example.wordX] = (m, .ok r) → Shows r k → d ∈ k.map (·.2) →
      ∃ r' k', m.onlineMatch [Example.wordX] Example.fieldT = (m, .ok r') ∧ Shows r' k' ∧ d ∈ k'.map (·.2) := by
    intro m H names r k d hi hf e hk hd
    rcases hi.online_known hf (q := [Example.wordX]) (fun w hw => usable_noNul (hu w hw)) with ⟨_, e1, _⟩ | ⟨docs, acc, hs, e1, e2, hsc⟩
    · rw [e] at e1; cases e1
    · refine ⟨_, _, e2, shows_addAll acc, ?_⟩
      rw [e] at e1; injection e1 with _ e1; injection e1 with e1; subst e1
      obtain rfl := Columbus.Shows.unique hk (shows_copied (listing_rank hs))
      obtain ⟨⟨rel, d'⟩, h3, rfl⟩ := List.mem_map.1 hd
      exact List.mem_map.2 ⟨(_, d'), mem_listing.2 ((SMap.find_some_iff strict_ltNat hsc.sorted _ _).1 (hsc.matched d' rel h3)), rfl⟩
  obtain ⟨q1, l1, b1, b2, b3⟩ := online hm (hm.known _ (MatcherHistory.mentions_field (x := ⟨1, Example.fieldT, 1, [Example.wordX]⟩) (List.mem_singleton.2 rfl)))
    e hk (d := 1) (by simp)
  obtain ⟨q2, l2, c1, c2, c3⟩ := online hm1 (hm1.known _ (MatcherHistory.mentions_field (x := ⟨1, Example.fieldT, 1, [Example.wordX]⟩)
    (List.mem_append_left _ (List.mem_singleton.2 rfl)))) e' hk' h2
  exact ⟨c, m, m1, q1, q2, l1, l2, h, hc, ha, hi, b1, b2, c1, c2, b3, c3⟩

end
end Columbus.Props
