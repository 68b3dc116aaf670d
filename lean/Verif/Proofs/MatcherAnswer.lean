import Verif.Proofs.MatcherOnline
import Mathlib.Data.Int.LeastGreatest
/-
What an answer contains, in terms of the history.
-/

namespace Columbus
open Spec ErrorValues

/-! ### Reading results -/

theorem shows_of_inv {r : MatchResults} {l : List Result} (h : RInv r l) : Shows r (rank l) := by
  refine ⟨by rw [MatchResults.size, h.length, rank_length], ?_, ?_⟩
  · intro i x hx; exact ⟨_, by rw [h.getDocumentID, hx]⟩
  · intro i x hx; exact ⟨_, by rw [h.getRelevancy, hx]⟩

theorem Shows.unique {r : MatchResults} {k k' : List Result} (h : Shows r k) (h' : Shows r k') : k = k' := by
  have hl : k.length = k'.length := by rw [← h.size, h'.size]
  apply List.ext_getElem hl
  intro i h1 h2
  obtain ⟨_, a⟩ := h.document i _ (List.getElem?_eq_getElem h1)
  obtain ⟨_, b⟩ := h'.document i _ (List.getElem?_eq_getElem h2)
  obtain ⟨_, c⟩ := h.relevancy i _ (List.getElem?_eq_getElem h1)
  obtain ⟨_, d⟩ := h'.relevancy i _ (List.getElem?_eq_getElem h2)
  rw [a] at b; rw [c] at d
  injection b with b; injection d with d
  injection b with _ b; injection d with _ d
  exact Prod.ext d b

theorem shows_copied {k : List Result} (h : k.Pairwise RankOrder) : Shows (copied .new k) k := by
  obtain ⟨h1, h2⟩ := copied_inv h
  have := shows_of_inv h1
  rwa [h2] at this

theorem shows_addAll (docs : SMap DocumentID ℚ) : Shows (Matcher.addAll .new docs) (listing docs) := by
  apply shows_of_inv
  cases docs with
  | nil => exact ⟨fun _ => rfl, fun _ => List.Pairwise.nil⟩
  | cons p docs =>
    have hs : ∀ (docs : SMap DocumentID ℚ) (r : MatchResults), r.sorted = false → (Matcher.addAll r docs).sorted = false := by
      intro docs
      induction docs with
      | nil => intro r h; exact h
      | cons p docs ih => intro r _; rw [Matcher.addAll]; exact ih _ rfl
    have h1 : (Matcher.addAll .new (p :: docs)).sorted = false := by rw [Matcher.addAll]; exact hs docs _ rfl
    refine ⟨fun v => ?_, fun h => by rw [h1] at h; cases h⟩
    rw [addAll_eq]; rfl

theorem copied_results (k : List Result) : (copied .new k).results = k := by simp [copied, MatchResults.new]

/-! ### Membership -/

section
variable {e : ErrorValues} {p : SearchParameters} {H : MatcherHistory} {names : List Word} {q : WordList}

theorem accum_foldl [Fp] {α : Type} (val : α → ℚ) (l : List α) : ∀ o : Option ℚ,
    (l.foldl (fun o p => accum o (val p)) o = none ↔ o = none ∧ l = []) := by
  induction l with
  | nil => intro o; simp
  | cons x l ih =>
    intro o
    rw [List.foldl_cons, ih]
    cases o <;> simp [accum]

theorem accum_sum [Fp] {α : Type} (val : α → ℚ) (l : List α) : ∀ y : ℚ,
    l.foldl (fun o p => accum o (val p)) (some y) = some ((l.map val).foldl fadd y) := by
  induction l with
  | nil => intro y; rfl
  | cons x l ih => intro y; simp only [List.foldl_cons, List.map_cons, accum]; exact ih _

theorem accum_sumUp [Fp] {α : Type} (val : α → ℚ) (l : List α) (h : l ≠ []) :
    l.foldl (fun o p => accum o (val p)) none = some (sumUp (l.map val)) := by
  cases l with
  | nil => exact absurd rfl h
  | cons x l => rw [List.foldl_cons, List.map_cons, sumUp]; exact accum_sum val l _

theorem least_of_hit (hn : ∀ x ∈ q, (configured e x.length).NonNeg) {i j : WordID} {v : Int} (h : QueryHits e p H names q i j v) :
    ∃ v', Least (QueryHits e p H names q i j) v' := by
  have hb : ∃ b : Int, ∀ z, QueryHits e p H names q i j z → b ≤ z := by
    refine ⟨0, ?_⟩
    rintro z ⟨x, hx, f, w, _, _, _, _, _, rfl⟩
    exact best_nonneg (charged_nonneg (hn x hx))
  obtain ⟨lb, h1, h2⟩ := Int.exists_least_of_bdd hb ⟨v, h⟩
  exact ⟨lb, h1, h2⟩

end

section
variable [Build] [Icu] [Fp] {m : Matcher} {H : MatcherHistory} {names : List Word} {p : SearchParameters} {q : WordList}
  {docs : SMap DocumentID ℚ}

theorem MInv.answer_mem (h : MInv m H names) (hn : ∀ x ∈ q, (configured m.e x.length).NonNeg)
    (ha : IsAnswer m H names p q docs) (d : DocumentID) :
    d ∈ docs.map (·.1) ↔ ∃ f w x, H.Posting d f w ∧ p.isNonsearchingField f = false ∧ x ∈ q ∧
      SeenBy (charged m.e x.length) x (limit p x) w := by
  obtain ⟨P, hP, hD⟩ := ha
  have h1 : d ∈ docs.map (·.1) ↔ ∃ x ∈ P, d ∈ docsOf m.reverseIndex x.1 x.2.1 := by
    rw [← not_iff_not, ← SMap.find_none_iff strict_ltNat, hD.find, accum_foldl]
    simp [List.filter_eq_nil_iff]
  rw [h1]
  constructor
  · rintro ⟨⟨i, j, v⟩, hx, hd⟩
    obtain ⟨⟨x, hxq, f, w, a, b, c, e, s, _⟩, _⟩ := (hP.mem i j v).1 hx
    obtain ⟨f', w', a', b', c'⟩ := (h.post i j d).1 hd
    rw [a] at a'; rw [b] at b'; injection a' with a'; injection b' with b'; subst a'; subst b'
    exact ⟨f, w, x, c', c, hxq, s⟩
  · rintro ⟨f, w, x, hp, hf, hx, hs⟩
    have a := getElem?_idxOf (h.known f hp.field)
    have b := getElem?_idxOf (h.known w hp.word)
    obtain ⟨v, hv⟩ := least_of_hit (p := p) (H := H) (names := names) (i := names.idxOf f) (j := names.idxOf w) hn
      ⟨x, hx, f, w, a, b, hf, MatcherHistory.mem_occurrences.2 ⟨d, hp⟩, hs, rfl⟩
    exact ⟨_, (hP.mem _ _ v).2 hv, (h.post _ _ d).2 ⟨f, w, a, b, hp⟩⟩

/-- The words of a document that count, and its relevancy. -/
theorem MInv.answer_value (h : MInv m H names) (ha : IsAnswer m H names p q docs) {d : DocumentID} {r : ℚ}
    (hd : (d, r) ∈ docs) :
    ∃ L : List (Word × Word × Int),
      (∀ f w v, (f, w, v) ∈ L ↔ H.Posting d f w ∧ Least (QueryHits m.e p H names q (names.idxOf f) (names.idxOf w)) v) ∧
      L.Pairwise (fun a b => Before (names.idxOf a.1, names.idxOf a.2.1, a.2.2) (names.idxOf b.1, names.idxOf b.2.1, b.2.2)) ∧
      L ≠ [] ∧ r = sumUp (L.map fun x => contribution m.weights H x.1 x.2.1 x.2.2) := by
  obtain ⟨P, hP, hD⟩ := ha
  have hfind := (SMap.find_some_iff strict_ltNat hD.sorted d r).2 hd
  rw [hD.find] at hfind
  set Q := P.filter fun p => decide (d ∈ docsOf m.reverseIndex p.1 p.2.1) with hQ
  have hne : Q ≠ [] := by intro h0; rw [h0] at hfind; cases hfind
  rw [accum_sumUp _ _ hne] at hfind
  injection hfind with hfind
  have hmem : ∀ x ∈ Q, ∃ f w, names[x.1]? = some f ∧ names[x.2.1]? = some w ∧ H.Posting d f w ∧
      Least (QueryHits m.e p H names q x.1 x.2.1) x.2.2 := by
    rintro ⟨i, j, v⟩ hx
    obtain ⟨h1, h2⟩ := List.mem_filter.1 hx
    obtain ⟨f, w, a, b, c⟩ := (h.post i j d).1 (of_decide_eq_true h2)
    exact ⟨f, w, a, b, c, (hP.mem i j v).1 h1⟩
  have hback : ∀ x ∈ Q, names.idxOf (names.getD x.1 []) = x.1 ∧ names.idxOf (names.getD x.2.1 []) = x.2.1 := by
    intro x hx
    obtain ⟨f, w, a, b, _⟩ := hmem x hx
    rw [List.getD_eq_getElem?_getD, List.getD_eq_getElem?_getD, a, b]
    exact ⟨h.store.idx a, h.store.idx b⟩
  refine ⟨Q.map fun x => (names.getD x.1 [], names.getD x.2.1 [], x.2.2), ?_, ?_, by simpa using hne, ?_⟩
  · intro f w v
    constructor
    · intro hx
      obtain ⟨⟨i, j, v'⟩, hxQ, he⟩ := List.mem_map.1 hx
      obtain ⟨f', w', a, b, c, d'⟩ := hmem _ hxQ
      dsimp only at he a b d'
      rw [List.getD_eq_getElem?_getD, List.getD_eq_getElem?_getD, a, b] at he
      simp only [Option.getD_some, Prod.mk.injEq] at he
      obtain ⟨rfl, rfl, rfl⟩ := he
      rw [h.store.idx a, h.store.idx b]
      exact ⟨c, d'⟩
    · rintro ⟨hp, hl⟩
      have a := getElem?_idxOf (h.known f hp.field)
      have b := getElem?_idxOf (h.known w hp.word)
      refine List.mem_map.2 ⟨(names.idxOf f, names.idxOf w, v), ?_, ?_⟩
      · refine List.mem_filter.2 ⟨(hP.mem _ _ _).2 hl, ?_⟩
        rw [decide_eq_true_eq]
        exact (h.post _ _ d).2 ⟨f, w, a, b, hp⟩
      · rw [List.getD_eq_getElem?_getD, List.getD_eq_getElem?_getD, a, b]; rfl
  · rw [List.pairwise_map]
    have hs : Q.Pairwise Before := hP.sorted.filter _
    refine hs.imp_of_mem ?_
    intro x y hx hy hxy
    obtain ⟨a, b⟩ := hback x hx
    obtain ⟨a', b'⟩ := hback y hy
    dsimp only
    rw [a, b, a', b']
    exact hxy
  · rw [← hfind, List.map_map]
    rfl

omit [Build] [Icu] [Fp] in
theorem seen_iff {e : ErrorValues} (hn : ∀ x ∈ q, (configured e x.length).NonNeg) (he : Exact e q) {x : Word} (hx : x ∈ q)
    (T : Int) (w : Word) : SeenBy (charged e x.length) x T w ↔ best (configured e x.length) x w ≤ T := by
  rw [charged_eq he.same]
  constructor
  · exact fun h => h.1
  · intro h
    exact ⟨h, fun r _ hr _ => rowOk_of_best (hn x hx) (he.dear x hx) h hr⟩

omit [Fp] in
/-- The least error of identifiers is that of the words. -/
theorem MInv.least_iff (h : MInv m H names) (hn : ∀ x ∈ q, (configured m.e x.length).NonNeg) (he : Exact m.e q) {d : DocumentID}
    {f w : Word} (hp : H.Posting d f w) (v : Int) :
    Least (QueryHits m.e p H names q (names.idxOf f) (names.idxOf w)) v ↔ p.isNonsearchingField f = false ∧ CloseTo m.e p q w v := by
  have a := getElem?_idxOf (h.known f hp.field)
  have b := getElem?_idxOf (h.known w hp.word)
  have key : ∀ v, QueryHits m.e p H names q (names.idxOf f) (names.idxOf w) v ↔ p.isNonsearchingField f = false ∧
      ∃ x ∈ q, IsEditCost (configured m.e x.length) x w v ∧ v ≤ limit p x := by
    intro v
    constructor
    · rintro ⟨x, hx, f', w', a', b', c, _, s, rfl⟩
      rw [a] at a'; rw [b] at b'; injection a' with a'; injection b' with b'; subst a'; subst b'
      refine ⟨c, x, hx, ?_, ?_⟩
      · rw [isEditCost_iff, charged_eq he.same]
      · exact s.1
    · rintro ⟨c, x, hx, h1, h2⟩
      rw [isEditCost_iff] at h1
      subst h1
      refine ⟨x, hx, f, w, a, b, c, MatcherHistory.mem_occurrences.2 ⟨d, hp⟩, (seen_iff hn he hx _ _).2 h2, ?_⟩
      rw [charged_eq he.same]
  unfold Least
  simp only [key]
  constructor
  · rintro ⟨⟨c, hx⟩, h2⟩
    exact ⟨c, hx, fun x hx v' a b => h2 v' ⟨c, x, hx, a, b⟩⟩
  · rintro ⟨c, h1, h2⟩
    exact ⟨⟨c, h1⟩, fun v' ⟨_, x, hx, a, b⟩ => h2 x hx v' a b⟩

/-! ### Growing the store does not change answers -/

omit [Build] [Icu] in
theorem IsDocs.congr {ri : ReverseIndex} {val val' : WordID × WordID × Int → ℚ} {P : List (WordID × WordID × Int)}
    (h : IsDocs ri val P docs) (hv : ∀ x ∈ P, val x = val' x) : IsDocs ri val' P docs := by
  refine ⟨h.sorted, fun d => ?_⟩
  rw [h.find]
  apply List.foldl_ext
  intro o x hx
  rw [hv x (List.mem_filter.1 hx).1]

theorem MInv.answer_grow (h : MInv m H names) {ws : List Word} {s : WordStore} {names' : List Word}
    (hg : Grown m H names ws s names') (ha : IsAnswer m H names p q docs) :
    IsAnswer { m with store := s } H names' p q docs := by
  obtain ⟨P, hP, hD⟩ := ha
  have back : ∀ {i : Nat} {v : Word}, v ∈ H.mentions → (names'[i]? = some v ↔ names[i]? = some v) := by
    intro i v hv
    refine ⟨fun hi => ?_, getElem?_prefix hg.pre⟩
    have h1 := getElem?_prefix hg.pre (getElem?_idxOf (h.known v hv))
    have h2 := hg.inv.store.idx hi
    have h3 := hg.inv.store.idx h1
    rw [← h2, h3]; exact getElem?_idxOf (h.known v hv)
  have hQ : ∀ i j v, QueryHits m.e p H names q i j v ↔ QueryHits m.e p H names' q i j v := by
    intro i j v
    constructor
    · rintro ⟨x, hx, f, w, a, b, c⟩
      exact ⟨x, hx, f, w, getElem?_prefix hg.pre a, getElem?_prefix hg.pre b, c⟩
    · rintro ⟨x, hx, f, w, a, b, c, d, r⟩
      obtain ⟨d', hd⟩ := MatcherHistory.mem_occurrences.1 d
      exact ⟨x, hx, f, w, (back hd.field).1 a, (back hd.word).1 b, c, d, r⟩
  refine ⟨P, ⟨hP.sorted, fun i j v => ?_⟩, ?_⟩
  · rw [hP.mem]; exact Least.congr (hQ i j)
  · apply IsDocs.congr hD
    rintro ⟨i, j, v⟩ hx
    obtain ⟨⟨x, hx, f, w, a, b, _⟩, _⟩ := (hP.mem i j v).1 hx
    have a' := getElem?_prefix hg.pre a
    have b' := getElem?_prefix hg.pre b
    simp only [valueOf, List.getD_eq_getElem?_getD, a, b, a', b']

end

/-! ### The result as a function of the answer -/

section
variable [Build] [Runtime]

/-- The filtered listing as the result of `match`. -/
def filtered (m : Matcher) (p : SearchParameters) (l : List Result) : Matcher × M MatchResults :=
  match keepLoop m.reverseIndex p.filter.termList m.store l with
  | (s, .error f) => ({ m with store := s }, .error f)
  | (s, .ok k) => ({ m with store := s }, .ok (copied .new k))

theorem filtered_nil (m : Matcher) (p : SearchParameters) : filtered m p [] = (m, .ok .new) := rfl

theorem filtered_trivial (m : Matcher) {p : SearchParameters} (hf : p.filter.termList = [[]]) (l : List Result) :
    filtered m p l = (m, .ok (copied .new l)) := by
  rw [filtered, hf, keepLoop_trivial]

variable [Icu] [Fp] {m : Matcher} {H : MatcherHistory} {names : List Word} {p : SearchParameters} {q : WordList}

omit [Build] [Runtime] [Icu] [Fp] in
theorem listing_nil : listing [] = [] := List.length_eq_zero_iff.1 (rank_length [])

omit [Icu] in
theorem matchQuery_filtered : ((∃ f, Matcher.matchLoop m q p MatchResults.new 0 Matcher.maxIterations = .error f ∧ m.matchQuery q p = (m, .error f)) ∨
    ∃ docs : SMap DocumentID ℚ, SMap.Sorted ltNat docs ∧ m.matchQuery q p = filtered m p (listing docs) ∧
      (q = [] → docs = []) ∧
      (q ≠ [] → Matcher.matchLoop m q p MatchResults.new 0 Matcher.maxIterations = .ok ⟨docs.map fun x => (x.2, x.1), false⟩)) := by
  by_cases hq : q = []
  · right
    refine ⟨[], List.Pairwise.nil, ?_, fun _ => rfl, fun h => absurd hq h⟩
    subst hq
    rw [listing_nil, filtered_nil]; rfl
  · cases hl : Matcher.matchLoop m q p MatchResults.new 0 Matcher.maxIterations with
    | error f =>
      left
      have hlen : q.length ≠ 0 := fun h0 => hq (List.length_eq_zero_iff.1 h0)
      exact ⟨f, rfl, by rw [Matcher.matchQuery, if_neg hlen, hl]⟩
    | ok all =>
      right
      obtain ⟨docs, hs, rfl⟩ := matchLoop_shape hl
      refine ⟨docs, hs, ?_, fun h => absurd h hq, fun _ => rfl⟩
      have hlen : q.length ≠ 0 := fun h0 => hq (List.length_eq_zero_iff.1 h0)
      have hri : RInv ⟨docs.map fun x => (x.2, x.1), false⟩ (docs.map fun x => (x.2, x.1)) :=
        ⟨fun _ => rfl, fun h => by cases h⟩
      have hix : (List.range (List.map (fun x : DocumentID × ℚ => (x.2, x.1)) docs).length).map
          (fun i => (rank (docs.map fun x => (x.2, x.1)))[i]?) = (listing docs).map some := by
        rw [← rank_length (docs.map fun x => (x.2, x.1))]
        exact range_map_some _
      rw [Matcher.matchQuery, if_neg hlen, hl]
      simp only [MatchResults.size]
      rw [filterLoop_eq (listing docs) _ _ _ _ hri hix, filtered]
      rcases keepLoop m.reverseIndex p.filter.termList m.store (listing docs) with ⟨s, _ | k⟩ <;> rfl

theorem MInv.matchQuery_eq (h : MInv m H names) (hs : Sane m.e q H) :
    ∃ docs, IsAnswer m H names p q docs ∧ m.matchQuery q p = filtered m p (listing docs) := by
  obtain ⟨docs, hd, e⟩ := h.relevancyMatch (p := p) hs
  refine ⟨docs, hd, ?_⟩
  by_cases hq : q = []
  · subst hq
    obtain ⟨P, hP, hD⟩ := hd
    have hPn : P = [] := by
      rw [List.eq_nil_iff_forall_not_mem]
      rintro ⟨i, j, v⟩ hx
      obtain ⟨⟨x, hx, _⟩, _⟩ := (hP.mem i j v).1 hx
      cases hx
    have hdn : docs = [] := by
      rw [List.eq_nil_iff_forall_not_mem]
      rintro ⟨d, r⟩ hx
      have := (SMap.find_some_iff strict_ltNat hD.sorted d r).2 hx
      rw [hD.find, hPn] at this
      cases this
    subst hdn
    rw [listing_nil, filtered_nil]; rfl
  · have hlen : q.length ≠ 0 := fun h0 => hq (List.length_eq_zero_iff.1 h0)
    have hres : (Matcher.addAll MatchResults.new docs).results = docs.map fun x => (x.2, x.1) := by
      rw [addAll_eq]; rfl
    have hri : RInv ⟨docs.map fun x => (x.2, x.1), false⟩ (docs.map fun x => (x.2, x.1)) :=
      ⟨fun _ => rfl, fun h => by cases h⟩
    have hix : (List.range (List.map (fun x : DocumentID × ℚ => (x.2, x.1)) docs).length).map
        (fun i => (rank (docs.map fun x => (x.2, x.1)))[i]?) = (listing docs).map some := by
      rw [← rank_length (docs.map fun x => (x.2, x.1))]
      exact range_map_some _
    rw [Matcher.matchQuery, if_neg hlen, matchLoop_eq e, hres]
    simp only [MatchResults.size]
    rw [filterLoop_eq (listing docs) _ _ _ _ hri hix, filtered]
    rcases keepLoop m.reverseIndex p.filter.termList m.store (listing docs) with ⟨s, _ | k⟩ <;> rfl

end
end Columbus
