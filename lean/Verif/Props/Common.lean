import Verif.Props.Unrelated
import Verif.Props.Heap
import Verif.Proofs.Common
import Mathlib.Data.List.Permutation
/-
C119: a word that becomes more common.
-/

namespace Columbus.Props
open Columbus Spec

section
variable [Build] [Icu] [Runtime] [Fp] {os : Nat → Bool} {m : Matcher} {H : MatcherHistory} {K : List Word}

/-! ### C119 -/

/-- C119, the part that holds. Further documents made of one word do not raise the relevancy of a document that was found only for that
word, without negative weights and while no word of a field has been counted 2^53 times. -/
theorem C119_partial (h : Ran os m H K) (c : Corpus) (hc : CorpusOk c) (m1 : Matcher) (o : Option Fault)
    (hi : m.index c = (m1, o)) (ho : ∀ f, o = some f → Fault.Benign f) (q : WordList) (p : SearchParameters) (w : Word)
    (hT : ∀ x ∈ beforeEmpty (corpusTexts c), ∀ u ∈ x.words, u = w)
    (hs : Sane m.e q (H ++ beforeEmpty (corpusTexts c))) (he : Exact m.e q) (hu : ∀ w ∈ filterWords p.filter, Usable w)
    (hw : ∀ f, 0 ≤ IndexWeights.getWeight m.weights f)
    (hb : ∀ f, (H ++ beforeEmpty (corpusTexts c)).maxCount f < 2^53)
    (m2 m3 : Matcher) (r r' : MatchResults) (k k' : List Result) (e : m.matchQuery q p = (m2, .ok r)) (hk : Shows r k)
    (e' : m1.matchQuery q p = (m3, .ok r')) (hk' : Shows r' k') (rel : ℚ) (d : DocumentID) (hr : (rel, d) ∈ k)
    (hd : ∀ x ∈ beforeEmpty (corpusTexts c), x.doc ≠ d)
    (honly : ∀ f u v, H.Posting d f u → p.isNonsearchingField f = false → CloseTo m.e p q u v → u = w) :
    ∃ rel', (rel', d) ∈ k' ∧ rel' ≤ rel := by
  have stays := C51_stays h c hc m1 o hi ho q p hs hu m2 m3 r r' k k' e hk e' hk'
  obtain ⟨⟨rel', d'⟩, hr', hd'⟩ := List.mem_map.1 (stays d (List.mem_map.2 ⟨_, hr, rfl⟩))
  dsimp only at hd'
  subst hd'
  obtain ⟨L, a1, _, rfl, rfl⟩ := relevancy_after h c hc m1 o hi ho q p hs he hu m2 m3 r r' k k' e hk e' hk' d' rel rel' hr hr' (by
    intro f u y v _ _ _ _
    rw [MatcherHistory.posting_append]
    refine ⟨fun h => h.elim id ?_, Or.inl⟩
    rintro ⟨x, hx, hxd, _⟩
    exact absurd hxd (hd x hx))
  refine ⟨_, hr', sumUp_mono ?_⟩
  rintro ⟨f, u, v⟩ hx
  obtain ⟨x1, x2, x3⟩ := (a1 f u v).1 hx
  obtain rfl := honly f u v x1 x2 x3
  have hm := MatcherHistory.maxCount_append H (beforeEmpty (corpusTexts c)) f
  exact contribution_falls (Columbus.CloseTo.bounds hs.nonNeg x3).1 (hw f) (lt_of_le_of_lt hm (hb f)) (hb f) (MatcherHistory.share hT f)

end

section
variable [Build] [Icu] [Runtime] [Fp]

omit [Build] [Icu] [Runtime] [Fp] in
theorem texts_title (d : DocumentID) (t : List Word) :
    corpusTexts [documentOf d [(Example.title, t)]] = [⟨d, Example.title, t.length, t⟩] := by
  simp [corpusTexts, documentOf, Document.addText, Document.new, SMap.set]

/-- A document with a title, and after it one with the title "save". -/
theorem two_titles (t : List Word) (hg : ∀ w ∈ t, GoodWord w)
    (hl : lettersIn (MatcherHistory.mentions [⟨1, Example.title, t.length, t⟩]) < 10000000)
    (hl' : lettersIn (MatcherHistory.words [⟨1, Example.title, t.length, t⟩]) < 10000000) :
    ∃ m m1, Ran Example.os m [⟨1, Example.title, t.length, t⟩] [] ∧ CorpusOk (titled 2 Example.save) ∧
      m.index (titled 2 Example.save) = (m1, none) ∧
      beforeEmpty (corpusTexts (titled 2 Example.save)) = [⟨2, Example.title, 1, [Example.save]⟩] ∧
      Ran Example.os m1 ([⟨1, Example.title, t.length, t⟩] ++ [⟨2, Example.title, 1, [Example.save]⟩]) [] ∧
      m.e = .new ∧ m1.e = .new ∧ m.weights = [] := by
  have hne : ∀ d t, (∀ w ∈ t, GoodWord w) → NoEmpty [(⟨d, Example.title, t.length, t⟩ : Indexed)] := by
    intro d t hg x hx; rw [List.mem_singleton] at hx; subst hx
    exact ⟨by simp [Example.title], fun h0 => (hg _ h0).1 rfl⟩
  have hc : ∀ d t, (∀ w ∈ t, GoodWord w) → CorpusOk [documentOf d [(Example.title, t)]] := by
    intro d t hg x hx
    rw [List.mem_singleton] at hx
    subst hx
    refine ⟨_, rfl, ?_⟩
    simp only [List.mem_cons, List.not_mem_nil, or_false, forall_eq]
    exact ⟨Or.inr Example.good_title, fun w hw => Or.inr (hg w hw)⟩
  have hsv : ∀ w ∈ [Example.save], GoodWord w := fun w hw => by rw [List.mem_singleton] at hw; subst hw; exact Example.good_save
  obtain ⟨m, _, h, he, hw, _⟩ := Example.ran_corpus (hc 1 t hg) (by rw [texts_title]; omega)
  rw [texts_title, beforeEmpty_self (hne 1 t hg)] at h
  obtain ⟨names, hi, hos, hle⟩ := Ran.start h
  have hb : beforeEmpty (corpusTexts (titled 2 Example.save)) = [⟨2, Example.title, 1, [Example.save]⟩] := by
    unfold titled; rw [texts_title, beforeEmpty_self (hne 2 _ hsv)]; rfl
  rcases hi.index _ m _ names (hc 2 _ hsv) with ⟨_, _, _, hr⟩ | ⟨m1, names', e2, _, _, _, _, _, e3, _⟩
  · rw [hos] at hr
    refine absurd hr (Example.granted ?_)
    rw [texts_title]
    have : lettersIn (MatcherHistory.mentions [(⟨2, Example.title, [Example.save].length, [Example.save]⟩ : Indexed)]) = 9 := rfl
    have : lettersIn (MatcherHistory.words [(⟨2, Example.title, [Example.save].length, [Example.save]⟩ : Indexed)]) = 4 := rfl
    have : lettersIn [] = 0 := rfl
    omega
  have hno : emptyFault (!decide (NoEmpty (corpusTexts [documentOf 2 [(Example.title, [Example.save])]]))) = none := by
    rw [texts_title, decide_eq_true (hne 2 _ hsv)]; rfl
  rw [hno] at e2
  have h1 := Ran.index h (hc 2 _ hsv) e2 (by intro f hf; cases hf)
  exact ⟨m, m1, h, hc 2 _ hsv, e2, hb, hb ▸ h1, he, by rw [e3, he], hw⟩

omit [Runtime] [Fp] in
/-- Words of the example are looked up with the default costs: one that is in the query is close to it, with error 0. -/
theorem close_self {q : WordList} {w : Word} {v : Int} (hw : w ∈ q) (hl : 0 ≤ limit .new w) : CloseTo .new .new q w v ↔ v = 0 := by
  have h0 : IsEditCost (configured .new w.length) w w 0 := by
    rw [isEditCost_iff, new_is_default, configured_default]
    exact (best_self unit_nonneg (by simp [unitCosts])).symm
  have hc : CloseTo .new .new q w 0 := ⟨⟨w, hw, h0, hl⟩, fun x _ v hv _ => by
    refine script_nonneg ?_ hv.1
    rw [new_is_default, configured_default]; exact unit_nonneg⟩
  exact ⟨fun h => Columbus.CloseTo.unique h hc, fun h => h ▸ hc⟩

/-- A second document with the title "save". -/
example : ∃ (m m1 : Matcher) (r r' : MatchResults) (k k' : List Result) (rel : ℚ),
    Ran Example.os m [⟨1, Example.title, 1, [Example.save]⟩] [] ∧ CorpusOk (titled 2 Example.save) ∧
    m.index (titled 2 Example.save) = (m1, none) ∧
    (∀ x ∈ beforeEmpty (corpusTexts (titled 2 Example.save)), (∀ u ∈ x.words, u = Example.save) ∧ x.doc ≠ 1) ∧
    Sane m.e [Example.save] ([⟨1, Example.title, 1, [Example.save]⟩] ++ beforeEmpty (corpusTexts (titled 2 Example.save))) ∧
    Exact m.e [Example.save] ∧ (∀ f, 0 ≤ IndexWeights.getWeight m.weights f) ∧
    (∀ f, MatcherHistory.maxCount ([⟨1, Example.title, 1, [Example.save]⟩] ++ beforeEmpty (corpusTexts (titled 2 Example.save))) f < 2^53) ∧
    m.matchQuery [Example.save] .new = (m, .ok r) ∧ Shows r k ∧ m1.matchQuery [Example.save] .new = (m1, .ok r') ∧ Shows r' k' ∧
    (rel, 1) ∈ k ∧ (∀ f u, MatcherHistory.Posting [⟨1, Example.title, 1, [Example.save]⟩] 1 f u → u = Example.save) := by
  obtain ⟨m, m1, h, hc, hi, hb, h1, he, he1, hw⟩ := two_titles [Example.save] (by simp [Example.good_save]) (by decide) (by decide)
  rw [hb]
  have hs : Sane ErrorValues.new [Example.save] ([⟨1, Example.title, 1, [Example.save]⟩] ++ [⟨2, Example.title, 1, [Example.save]⟩]) :=
    sane_default (L := 100) (fun x hx => by rw [List.mem_singleton] at hx; subst hx; exact Example.good_save.noNul) (by decide) (by decide) (by norm_num)
  have hs0 : Sane ErrorValues.new [Example.save] [⟨1, Example.title, 1, [Example.save]⟩] :=
    sane_default (L := 100) (fun x hx => by rw [List.mem_singleton] at hx; subst hx; exact Example.good_save.noNul) (by decide) (by decide) (by norm_num)
  obtain ⟨r, k, e, hk, hm⟩ := C44_found h [Example.save] .new (by rw [he]; exact hs0) (by rw [he]; exact exact_default _) rfl
  obtain ⟨r', k', e', hk', _⟩ := C44_found h1 [Example.save] .new (by rw [he1]; exact hs) (by rw [he1]; exact exact_default _) rfl
  have hin : 1 ∈ k.map (·.2) := by
    obtain ⟨x, hx, hcost, hl⟩ := ((close_self (q := [Example.save]) (List.mem_singleton.2 rfl) (by decide)).2 rfl).near
    exact (hm 1).2 ⟨Example.title, Example.save, x, 0, ⟨_, List.mem_singleton.2 rfl, rfl, rfl, List.mem_singleton.2 rfl⟩, rfl,
      hx, by rw [he]; exact hcost, hl⟩
  obtain ⟨⟨rel, d⟩, hrel, hd⟩ := List.mem_map.1 hin
  dsimp only at hd
  subst hd
  refine ⟨m, m1, r, r', k, k', rel, h, hc, hi, ?_, by rw [he]; exact hs, by rw [he]; exact exact_default _,
    by rw [hw]; intro f; simp [IndexWeights.getWeight, SMap.find], ?_, e, hk, e', hk', hrel, ?_⟩
  · intro x hx
    rw [List.mem_singleton] at hx
    subst hx
    exact ⟨fun u hu => List.mem_singleton.1 hu, by decide⟩
  · intro f
    rcases MatcherHistory.max_attained ([⟨1, Example.title, 1, [Example.save]⟩] ++ [⟨2, Example.title, 1, [Example.save]⟩]) f with h | ⟨w, _, h⟩
    · rw [h]; norm_num
    · rw [← h]
      refine lt_of_le_of_lt (List.count_le_length) ?_
      unfold MatcherHistory.occurrences
      by_cases hf : Example.title = f <;> simp [hf]
  · rintro f u ⟨x, hx, _, _, hu⟩
    rw [List.mem_singleton] at hx
    subst hx
    exact List.mem_singleton.1 hu

end

/-! ### The claim itself is false -/

section
attribute [local instance] ieee
variable [Build] [Icu] [Runtime]

/-- The title "save save body body". -/
def twice : MatcherHistory := [⟨1, Example.title, 4, [Example.save, Example.save, Example.body, Example.body]⟩]

/-- C119, the counterexample, in IEEE arithmetic: document 1 has the title "save save body body"; once document 2 has the title "save", the
word "save" is more common than it was, and the relevancy of document 1 for "save body" is higher than it was, because "body" is now less
common than "save". -/
theorem C119_false : ∃ (m m1 : Matcher) (r r' : MatchResults) (k k' : List Result) (rel rel' : ℚ),
    Ran Example.os m twice [] ∧ m.e = .new ∧ m.weights = [] ∧ m.index (titled 2 Example.save) = (m1, none) ∧
    m.matchQuery [Example.save, Example.body] .new = (m, .ok r) ∧ Shows r k ∧
    m1.matchQuery [Example.save, Example.body] .new = (m1, .ok r') ∧ Shows r' k' ∧
    (rel, 1) ∈ k ∧ (rel', 1) ∈ k' ∧ rel < rel' := by
  obtain ⟨m, m1, h, hc, hi, hb, h1, he, he1, hw⟩ := two_titles [Example.save, Example.save, Example.body, Example.body]
    (by simp [Example.good_save, Example.good_body]) (by decide) (by decide)
  change Ran Example.os m twice [] at h
  change Ran Example.os m1 (twice ++ _) [] at h1
  have hs : Sane ErrorValues.new [Example.save, Example.body] (twice ++ [⟨2, Example.title, 1, [Example.save]⟩]) :=
    sane_default (L := 100) (by simp only [List.mem_cons, List.not_mem_nil, or_false, forall_eq_or_imp, forall_eq]
                                exact ⟨Example.good_save.noNul, Example.good_body.noNul⟩) (by decide) (by decide) (by norm_num)
  have hs0 : Sane ErrorValues.new [Example.save, Example.body] twice :=
    sane_default (L := 100) (by simp only [List.mem_cons, List.not_mem_nil, or_false, forall_eq_or_imp, forall_eq]
                                exact ⟨Example.good_save.noNul, Example.good_body.noNul⟩) (by decide) (by decide) (by norm_num)
  obtain ⟨r, k, e, hk, hm⟩ := C44_found h [Example.save, Example.body] .new (by rw [he]; exact hs0) (by rw [he]; exact exact_default _) rfl
  obtain ⟨r', k', e', hk', hm'⟩ := C44_found h1 [Example.save, Example.body] .new (by rw [he1]; exact hs) (by rw [he1]; exact exact_default _) rfl
  obtain ⟨x, hx, hcost, hl⟩ := ((close_self (q := [Example.save, Example.body]) (w := Example.save) (by simp) (by decide)).2 rfl).near
  have p1 : MatcherHistory.Posting twice 1 Example.title Example.save := ⟨_, List.mem_singleton.2 rfl, rfl, rfl, by simp⟩
  have p2 : MatcherHistory.Posting twice 1 Example.title Example.body := ⟨_, List.mem_singleton.2 rfl, rfl, rfl, by simp⟩
  have hin : 1 ∈ k.map (·.2) :=
    (hm 1).2 ⟨Example.title, Example.save, x, 0, p1, rfl, hx, by rw [he]; exact hcost, hl⟩
  have hin' : 1 ∈ k'.map (·.2) :=
    (hm' 1).2 ⟨Example.title, Example.save, x, 0, (MatcherHistory.posting_append _).2 (Or.inl p1), rfl, hx, by rw [he1]; exact hcost, hl⟩
  obtain ⟨⟨rel, d⟩, hrel, hd⟩ := List.mem_map.1 hin
  obtain ⟨⟨rel', d'⟩, hrel', hd'⟩ := List.mem_map.1 hin'
  dsimp only at hd hd'
  subst hd hd'
  refine ⟨m, m1, r, r', k, k', rel, rel', h, he, hw, hi, e, hk, e', hk', hrel, hrel', ?_⟩
  obtain ⟨L, a1, nd, rfl, rfl⟩ := relevancy_after h _ hc m1 none hi (by intro f hf; cases hf) [Example.save, Example.body] .new
    (by rw [he, hb]; exact hs) (by rw [he]; exact exact_default _) (fun w hw => by cases hw) m m1 r r' k k' e hk e' hk' 1 rel rel' hrel hrel' (by
      intro f u y v _ _ _ _
      rw [hb, MatcherHistory.posting_append]
      refine ⟨fun h => h.elim id ?_, Or.inl⟩
      rintro ⟨x, hx, hxd, _⟩
      rw [List.mem_singleton] at hx
      subst hx
      cases hxd)
  have hp : L.Perm [(Example.title, Example.save, 0), (Example.title, Example.body, 0)] := by
    refine (List.perm_ext_iff_of_nodup nd (by decide)).2 ?_
    rintro ⟨f, w, v⟩
    rw [a1, he]
    simp only [List.mem_cons, List.not_mem_nil, or_false, Prod.mk.injEq]
    constructor
    · rintro ⟨⟨x, hx, _, rfl, hwx⟩, _, hcl⟩
      rw [twice, List.mem_singleton] at hx
      subst hx
      simp only [List.mem_cons, List.not_mem_nil, or_false] at hwx
      rcases hwx with rfl | rfl | rfl | rfl
      · exact Or.inl ⟨rfl, rfl, (close_self (by simp) (by decide)).1 hcl⟩
      · exact Or.inl ⟨rfl, rfl, (close_self (by simp) (by decide)).1 hcl⟩
      · exact Or.inr ⟨rfl, rfl, (close_self (by simp) (by decide)).1 hcl⟩
      · exact Or.inr ⟨rfl, rfl, (close_self (by simp) (by decide)).1 hcl⟩
    · rintro (⟨rfl, rfl, rfl⟩ | ⟨rfl, rfl, rfl⟩)
      · exact ⟨p1, rfl, (close_self (by simp) (by decide)).2 rfl⟩
      · exact ⟨p2, rfl, (close_self (by simp) (by decide)).2 rfl⟩
  rw [hw, hb]
  rcases List.perm_pair.1 hp with rfl | rfl
  · decide +kernel
  · decide +kernel

end
end Columbus.Props
