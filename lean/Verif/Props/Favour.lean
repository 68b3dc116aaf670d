import Verif.Props.Twins
/-
C124: raising a weight.
-/

namespace Columbus.Props
open Columbus Spec ErrorValues

section
variable [Build] [Icu] [Runtime] [Fp] {os : Nat → Bool} {m : Matcher} {H : MatcherHistory} {K : List Word}

/-! ### C124 -/

/-- C124. If weights are raised, but not those of the fields in which a document has a word within the limit, then that document keeps its
relevancy, and a document that was listed before it still is. -/
theorem C124_favour (h : Ran os m H K) (q : WordList) (p : SearchParameters) (hs : Sane m.e q H) (he : Exact m.e q)
    (hu : ∀ w ∈ filterWords p.filter, Usable w) (W : IndexWeights)
    (hw : ∀ f, IndexWeights.getWeight m.weights f ≤ IndexWeights.getWeight W f) (m1 m2 : Matcher) (r r' : MatchResults) (k k' : List Result)
    (e : m.matchQuery q p = (m1, .ok r)) (hk : Shows r k) (e' : { m with weights := W }.matchQuery q p = (m2, .ok r')) (hk' : Shows r' k')
    (d : DocumentID) (hd : ∀ f w x v, H.Posting d f w → p.isNonsearchingField f = false → x ∈ q →
      IsEditCost (configured m.e x.length) x w v → v ≤ limit p x → IndexWeights.getWeight W f = IndexWeights.getWeight m.weights f) :
    (∀ rel, (rel, d) ∈ k ↔ (rel, d) ∈ k') ∧
    ∀ (i j i' j' : Nat) (a b a' b' : ℚ) (c : DocumentID), k[i]? = some (a, c) → k[j]? = some (b, d) → k'[i']? = some (a', c) →
      k'[j']? = some (b', d) → i < j → i' < j' := by
  obtain ⟨l, hl, hnd, hord⟩ := C46_ranked m m1 q p r e
  obtain rfl := Columbus.Shows.unique hk hl
  obtain ⟨l', hl', hnd', hord'⟩ := C46_ranked _ m2 q p r' e'
  obtain rfl := Columbus.Shows.unique hk' hl'
  obtain ⟨names, hi, _⟩ := Ran.start h
  have hi' : MInv { m with weights := W } H names :=
    ⟨hi.store, hi.known, hi.ixs, hi.has, hi.keys, hi.post, hi.docs, hi.sizes, hi.e, hi.stats⟩
  obtain ⟨docs, ha, hsd, hkk⟩ := answer_shows hi hs hu e hk
  obtain ⟨docs', ha', hsd', hkk'⟩ := answer_shows hi' hs hu e' hk'
  have key : ∀ rel, (rel, d) ∈ k ↔ (rel, d) ∈ k' := by
    intro rel
    rw [hkk, hkk', List.mem_filter, List.mem_filter, mem_listing, mem_listing]
    refine and_congr_left fun _ => hi.answer_weights ?_ ha ha' rel
    intro f w x hp hf hx hseen
    rw [seen_iff hs.nonNeg he hx] at hseen
    exact (hd f w x _ hp hf hx best_isEditCost hseen).symm
  refine ⟨key, fun i j i' j' a b a' b' c h1 h2 h3 h4 hij => ?_⟩
  have same : ∀ {x y : ℚ} {z : DocumentID}, (x, z) ∈ k' → (y, z) ∈ k' → x = y := by
    intro x y z hx hy
    rw [hkk', List.mem_filter, mem_listing, ← SMap.find_some_iff strict_ltNat hsd'] at hx hy
    have := hx.1.symm.trans hy.1
    injection this
  have hb : b = b' := same ((key b).1 (List.mem_of_getElem? h2)) (List.mem_of_getElem? h4)
  obtain ⟨a2, h5, h6⟩ := (C50_monotone h q p hs hu W hw m1 m2 r r' k k' e hk e' hk').1 a c (List.mem_of_getElem? h1)
  have ha2 : a2 = a' := same h5 (List.mem_of_getElem? h3)
  subst hb ha2
  rw [List.pairwise_iff_getElem] at hord hord'
  obtain ⟨i1, i2⟩ := List.getElem?_eq_some_iff.1 h1
  obtain ⟨j1, j2⟩ := List.getElem?_eq_some_iff.1 h2
  obtain ⟨i1', i2'⟩ := List.getElem?_eq_some_iff.1 h3
  obtain ⟨j1', j2'⟩ := List.getElem?_eq_some_iff.1 h4
  have o := hord i j i1 j1 hij
  rw [i2, j2] at o
  rcases Nat.lt_trichotomy i' j' with hlt | rfl | hgt
  · exact hlt
  · rw [h3] at h4
    injection h4 with h4
    injection h4 with h7 h8
    subst h8
    have hab : b = a := by
      have x1 := (key a).1 (List.mem_of_getElem? h1)
      exact same ((key b).1 (List.mem_of_getElem? h2)) x1
    rcases o with o | ⟨_, o⟩
    · exact absurd o (by rw [hab]; exact lt_irrefl _)
    · exact absurd o (Nat.lt_irrefl _)
  · have o' := hord' j' i' j1' i1' hgt
    rw [i2', j2'] at o'
    dsimp only at o o'
    rcases o with o | ⟨o, o1⟩ <;> rcases o' with o' | ⟨o', o1'⟩
    · exact absurd (lt_of_lt_of_le o h6) (not_lt.2 o'.le)
    · rw [o'] at o; exact absurd o (not_lt.2 h6)
    · rw [← o] at o'; exact absurd o' (not_lt.2 h6)
    · exact absurd o1 (Nat.lt_asymm o1')

omit [Build] [Icu] [Runtime] [Fp] in
/-- Raising the weight of one field. -/
theorem weight_raised (W : IndexWeights) (g : Word) (v : ℚ) (hv : IndexWeights.getWeight W g ≤ v) :
    (∀ f, IndexWeights.getWeight W f ≤ IndexWeights.getWeight (IndexWeights.setWeight W g v) f) ∧
    ∀ f, f ≠ g → IndexWeights.getWeight (IndexWeights.setWeight W g v) f = IndexWeights.getWeight W f := by
  have key : ∀ f, IndexWeights.getWeight (IndexWeights.setWeight W g v) f = if g = f then v else IndexWeights.getWeight W f := by
    intro f
    unfold IndexWeights.setWeight IndexWeights.getWeight
    rw [SMap.find_set strict_wordLt]
    by_cases hg : g = f
    · subst hg; rw [if_pos rfl, if_pos rfl]
    · rw [if_neg hg, if_neg hg]
  constructor
  · intro f
    rw [key]
    by_cases hg : g = f
    · subst hg; rw [if_pos rfl]; exact hv
    · rw [if_neg hg]
  · intro f hf
    rw [key, if_neg (Ne.symm hf)]

/-- C124. Raising the weight of one field: a document with no word within the limit in that field does not overtake another one. -/
theorem C124_field (h : Ran os m H K) (q : WordList) (p : SearchParameters) (hs : Sane m.e q H) (he : Exact m.e q)
    (hu : ∀ w ∈ filterWords p.filter, Usable w) (g : Word) (v : ℚ) (hv : IndexWeights.getWeight m.weights g ≤ v)
    (m1 m2 : Matcher) (r r' : MatchResults) (k k' : List Result) (e : m.matchQuery q p = (m1, .ok r)) (hk : Shows r k)
    (e' : { m with weights := IndexWeights.setWeight m.weights g v }.matchQuery q p = (m2, .ok r')) (hk' : Shows r' k')
    (d : DocumentID) (hd : ∀ w x u, H.Posting d g w → x ∈ q → IsEditCost (configured m.e x.length) x w u → limit p x < u) :
    ∀ (i j i' j' : Nat) (a b a' b' : ℚ) (c : DocumentID), k[i]? = some (a, c) → k[j]? = some (b, d) → k'[i']? = some (a', c) →
      k'[j']? = some (b', d) → i < j → i' < j' := by
  obtain ⟨w1, w2⟩ := weight_raised m.weights g v hv
  refine (C124_favour h q p hs he hu _ w1 m1 m2 r r' k k' e hk e' hk' d ?_).2
  intro f w x u hp _ hx hc hl
  apply w2
  rintro rfl
  exact absurd hl (not_le.2 (hd w x u hp hx hc))

/-- Document 1 has the title "save", document 2 the body "save"; the weight of the title is raised to 3. -/
example : ∃ (m : Matcher) (r r' : MatchResults) (k k' : List Result) (H : MatcherHistory), Ran Example.os m H [] ∧
    Sane m.e [Example.save] H ∧ Exact m.e [Example.save] ∧ IndexWeights.getWeight m.weights Example.title ≤ 3 ∧
    m.matchQuery [Example.save] .new = (m, .ok r) ∧ Shows r k ∧
    { m with weights := IndexWeights.setWeight m.weights Example.title 3 }.matchQuery [Example.save] .new =
      ({ m with weights := IndexWeights.setWeight m.weights Example.title 3 }, .ok r') ∧ Shows r' k' ∧
    1 ∈ k.map (·.2) ∧ 2 ∈ k.map (·.2) ∧ ∀ w, ¬ H.Posting 2 Example.title w := by
  have hc : CorpusOk [documentOf 1 [(Example.title, [Example.save])], documentOf 2 [(Example.body, [Example.save])]] := by
    intro x hx
    simp only [List.mem_cons, List.not_mem_nil, or_false] at hx
    rcases hx with rfl | rfl
    · refine ⟨_, rfl, ?_⟩
      simp only [List.mem_cons, List.not_mem_nil, or_false, forall_eq]
      exact ⟨Or.inr Example.good_title, Or.inr Example.good_save⟩
    · refine ⟨_, rfl, ?_⟩
      simp only [List.mem_cons, List.not_mem_nil, or_false, forall_eq]
      exact ⟨Or.inr Example.good_body, Or.inr Example.good_save⟩
  have hT : corpusTexts [documentOf 1 [(Example.title, [Example.save])], documentOf 2 [(Example.body, [Example.save])]] =
      [⟨1, Example.title, 1, [Example.save]⟩, ⟨2, Example.body, 1, [Example.save]⟩] := by decide
  obtain ⟨m, _, h, he, hw, _⟩ := Example.ran_corpus hc (by rw [hT]; decide)
  rw [hT, beforeEmpty_self (by decide)] at h
  have h' := Ran.weight Example.title 3 h
  have hs : Sane m.e [Example.save] [⟨1, Example.title, 1, [Example.save]⟩, ⟨2, Example.body, 1, [Example.save]⟩] := by
    rw [he]
    exact sane_default (L := 100) (fun x hx => by rw [List.mem_singleton] at hx; subst hx; exact Example.good_save.noNul) (by decide) (by decide) (by norm_num)
  have hex : Exact m.e [Example.save] := by rw [he]; exact exact_default _
  obtain ⟨r, k, e, hk, hm⟩ := C44_found h [Example.save] .new hs hex rfl
  obtain ⟨r', k', e', hk', _⟩ := C44_found h' [Example.save] .new hs hex rfl
  obtain ⟨x, hx, hcost, hl⟩ := ((close_self (q := [Example.save]) (List.mem_singleton.2 rfl) (by decide)).2 rfl).near
  refine ⟨m, r, r', k, k', _, h, hs, hex, by rw [hw]; decide, e, hk, e', hk', ?_, ?_, ?_⟩
  · exact (hm 1).2 ⟨Example.title, Example.save, x, 0, ⟨_, List.mem_cons_self, rfl, rfl, List.mem_singleton.2 rfl⟩, rfl, hx, by rw [he]; exact hcost, hl⟩
  · exact (hm 2).2 ⟨Example.body, Example.save, x, 0, ⟨_, List.mem_cons_of_mem _ List.mem_cons_self, rfl, rfl, List.mem_singleton.2 rfl⟩, rfl, hx,
      by rw [he]; exact hcost, hl⟩
  · rintro w ⟨y, hy, hyd, hyf, _⟩
    simp only [List.mem_cons, List.not_mem_nil, or_false] at hy
    rcases hy with rfl | rfl
    · cases hyd
    · revert hyf; decide

end
end Columbus.Props
