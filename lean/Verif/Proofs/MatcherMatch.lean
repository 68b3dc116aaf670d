import Verif.Proofs.MatcherSearch
/-
Relevancies, filtering and the result of a search.
-/

namespace Columbus
open Spec ErrorValues

/-! ### Rounded arithmetic -/

section
variable [Fp]

theorem rnd_int (n : ℤ) (h : |n| ≤ 2^53) : Fp.rnd (n : ℚ) = n := by
  have := Fp.rnd_exact n 0 h (by omega)
  simpa using this

theorem rnd_zero : Fp.rnd 0 = 0 := by have := rnd_int 0 (by decide); simpa using this
theorem rnd_one : Fp.rnd 1 = 1 := by have := rnd_int 1 (by decide); simpa using this
theorem rnd_hundred : Fp.rnd 100 = 100 := by have := rnd_int 100 (by decide); simpa using this

theorem rnd_nonneg {x : ℚ} (h : 0 ≤ x) : 0 ≤ Fp.rnd x := by
  have := Fp.rnd_mono 0 x h; rwa [rnd_zero] at this

theorem rnd_le_one {x : ℚ} (h : x ≤ 1) : Fp.rnd x ≤ 1 := by
  have := Fp.rnd_mono x 1 h; rwa [rnd_one] at this

theorem one_le_rnd {x : ℚ} (h : 1 ≤ x) : 1 ≤ Fp.rnd x := by
  have := Fp.rnd_mono 1 x h; rwa [rnd_one] at this

theorem hundred_le_rnd {x : ℚ} (h : 100 ≤ x) : 100 ≤ Fp.rnd x := by
  have := Fp.rnd_mono 100 x h; rwa [rnd_hundred] at this

theorem ofInt_nonneg {n : Int} (h : 0 ≤ n) : 0 ≤ ofInt n := rnd_nonneg (by exact_mod_cast h)

theorem ofInt_one_le {n : Int} (h : 1 ≤ n) : 1 ≤ ofInt n := one_le_rnd (by exact_mod_cast h)

theorem denominator {v : Int} (h : 0 ≤ v) : 100 ≤ fadd 100 (ofInt v) := by
  apply hundred_le_rnd
  have := ofInt_nonneg h
  linarith

end

/-! ### Counts -/

theorem foldl_max (l : List Nat) : ∀ a, a ≤ l.foldl max a ∧ (∀ x ∈ l, x ≤ l.foldl max a) ∧
    (l.foldl max a = a ∨ l.foldl max a ∈ l) := by
  induction l with
  | nil => intro a; simp
  | cons b l ih =>
    intro a
    obtain ⟨h1, h2, h3⟩ := ih (max a b)
    simp only [List.foldl_cons]
    refine ⟨by omega, ?_, ?_⟩
    · intro x hx
      rcases List.mem_cons.1 hx with rfl | hx
      · omega
      · exact h2 x hx
    · rcases h3 with h3 | h3
      · rw [h3]
        rcases Nat.le_total a b with h | h
        · right; rw [Nat.max_eq_right h]; simp
        · left; exact Nat.max_eq_left h
      · right; exact List.mem_cons_of_mem _ h3

theorem MatcherHistory.count_le_max (H : MatcherHistory) (f w : Word) : H.count f w ≤ H.maxCount f := by
  by_cases hw : w ∈ H.occurrences f
  · exact (foldl_max _ 0).2.1 _ (List.mem_map.2 ⟨w, hw, rfl⟩)
  · rw [MatcherHistory.count, List.count_eq_zero.2 hw]; exact Nat.zero_le _

theorem MatcherHistory.max_attained (H : MatcherHistory) (f : Word) :
    H.maxCount f = 0 ∨ ∃ w ∈ H.occurrences f, H.count f w = H.maxCount f := by
  rcases (foldl_max ((H.occurrences f).map (H.count f)) 0).2.2 with h | h
  · exact Or.inl h
  · obtain ⟨w, h1, h2⟩ := List.mem_map.1 h
    exact Or.inr ⟨w, h1, h2⟩

section
variable [Build] [Icu] {m : Matcher} {H : MatcherHistory} {names : List Word}

theorem MInv.wordCount (h : MInv m H names) {i j : WordID} {ix : LevIndex} (hix : HMap.find m.indexes i = some ix)
    {f w : Word} (hf : names[i]? = some f) (hw : names[j]? = some w) : ix.wordCount j = H.count f w := by
  obtain ⟨f', h1, h2, g, hi, _, _⟩ := h.ixs i ix hix
  rw [hf] at h1; injection h1 with h1; subst h1
  rw [wordCount_eq hi, MatcherHistory.count]
  by_cases hm : w ∈ H.occurrences f
  · have hh : IndexHistory.Has (fieldHistory names H f) w j :=
      ⟨(h.store.good w (List.mem_of_getElem? hw)).nonempty, List.mem_map.2 ⟨w, hm, by rw [h.store.idx hw]⟩⟩
    rw [count_eq hi.ok hh, fieldHistory, List.countP_map, List.count]
    apply List.countP_congr
    intro x _; simp
  · rw [List.count_eq_zero.2 hm, IndexHistory.count, List.countP_eq_zero]
    intro p hp hc
    obtain ⟨v, hv, rfl⟩ := List.mem_map.1 hp
    simp only [Bool.and_eq_true, beq_iff_eq] at hc
    obtain ⟨d, hd⟩ := MatcherHistory.mem_occurrences.1 hv
    have := getElem?_idxOf (h.known v hd.word)
    rw [hc.2, hw] at this
    injection this with this
    subst this
    exact hm hv

theorem MInv.maxCount (h : MInv m H names) {i : WordID} {ix : LevIndex} (hix : HMap.find m.indexes i = some ix)
    {f : Word} (hf : names[i]? = some f) : ix.getMaxCount = H.maxCount f := by
  have hc := fun {j w} => h.wordCount hix hf (j := j) (w := w)
  obtain ⟨f', h1, h2, g, hi, _, _⟩ := h.ixs i ix hix
  rw [hf] at h1; injection h1 with h1; subst h1
  rw [LevIndex.getMaxCount]
  have hname : ∀ w ∈ H.occurrences f, names[names.idxOf w]? = some w := by
    intro w hw
    obtain ⟨d, hd⟩ := MatcherHistory.mem_occurrences.1 hw
    exact getElem?_idxOf (h.known w hd.word)
  apply Nat.le_antisymm
  · rcases hi.max_eq with e | ⟨j, e⟩
    · rw [e]; exact Nat.zero_le _
    · by_cases h0 : ix.maxCount = 0
      · rw [h0]; exact Nat.zero_le _
      · have : 0 < IndexHistory.count (fieldHistory names H f) j := by omega
        rw [IndexHistory.count, List.countP_pos_iff] at this
        obtain ⟨p, hp, hc'⟩ := this
        obtain ⟨w, hw, rfl⟩ := List.mem_map.1 hp
        simp only [Bool.and_eq_true, beq_iff_eq] at hc'
        rw [← e, ← wordCount_eq hi, ← hc'.2, hc (hname w hw)]
        exact MatcherHistory.count_le_max H f w
  · rcases MatcherHistory.max_attained H f with e | ⟨w, hw, e⟩
    · rw [e]; exact Nat.zero_le _
    · rw [← e, ← hc (hname w hw), wordCount_eq hi]; exact hi.max_le _

theorem MInv.calculateRelevancy [Fp] (h : MInv m H names) {i j : WordID} {f w : Word} (hf : names[i]? = some f)
    (hw : names[j]? = some w) (hm : w ∈ H.occurrences f) {v : Int} (hv : 0 ≤ v) :
    m.calculateRelevancy j i v = .ok (contribution m.weights H f w v) := by
  obtain ⟨ix, hix⟩ := Option.ne_none_iff_exists'.1 (h.has i f hf (List.ne_nil_of_mem hm))
  have e1 := h.wordCount hix hf hw
  have e2 := h.maxCount hix hf
  have hpos : 0 < H.count f w := List.count_pos_iff.2 hm
  have hle := MatcherHistory.count_le_max H f w
  have d1 : fadd 100 (ofInt v) ≠ 0 := by have := denominator hv; intro hz; rw [hz] at this; norm_num at this
  have d2 : ofInt ((H.maxCount f : Int) + 1) ≠ 0 := by
    have := ofInt_one_le (n := (H.maxCount f : Int) + 1) (by omega)
    intro hz; rw [hz] at this; norm_num at this
  rw [Matcher.calculateRelevancy, hix]
  simp only [e1, e2, fdiv, if_neg d1, if_neg d2, ok_bind, h.store.getWord hf]
  have c1 : cassert (decide (0 < H.count f w)) = .ok () := by simp [cassert, hpos]
  have c2 : cassert (decide (0 < H.maxCount f)) = .ok () := by simp [cassert, Nat.lt_of_lt_of_le hpos hle]
  simp only [c1, c2, ok_bind]
  rfl

end

/-! ### Results without filter -/

theorem addAll_eq (docs : SMap DocumentID ℚ) : ∀ r : MatchResults,
    (Matcher.addAll r docs).results = r.results ++ docs.map fun x => (x.2, x.1) := by
  induction docs with
  | nil => intro r; simp [Matcher.addAll]
  | cons p docs ih =>
    intro r
    obtain ⟨d, v⟩ := p
    rw [Matcher.addAll, ih]
    simp [MatchResults.addResult]

/-- The relation whose least errors the search computes. -/
def QueryHits (e : ErrorValues) (p : SearchParameters) (H : MatcherHistory) (names : List Word) (query : WordList)
    (i j : WordID) (v : Int) : Prop := ∃ q ∈ query, Hits e p H names q i j v

/-- The contribution of matched identifiers. -/
def valueOf [Fp] (weights : IndexWeights) (H : MatcherHistory) (names : List Word) (x : WordID × WordID × Int) : ℚ :=
  contribution weights H (names.getD x.1 []) (names.getD x.2.1 []) x.2.2

/-- The documents of a search and their relevancies. -/
def IsAnswer [Fp] (m : Matcher) (H : MatcherHistory) (names : List Word) (p : SearchParameters) (query : WordList)
    (docs : SMap DocumentID ℚ) : Prop :=
  ∃ P, IsPairs (QueryHits m.e p H names query) P ∧ IsDocs m.reverseIndex (valueOf m.weights H names) P docs

theorem IsAnswer.unique [Fp] {m : Matcher} {H : MatcherHistory} {names : List Word} {p : SearchParameters} {query : WordList}
    {docs docs' : SMap DocumentID ℚ} (h : IsAnswer m H names p query docs) (h' : IsAnswer m H names p query docs') :
    docs = docs' := by
  obtain ⟨P, h1, h2⟩ := h
  obtain ⟨P', h1', h2'⟩ := h'
  have := h1.unique h1' (fun _ _ _ => Iff.rfl)
  subst this
  exact h2.unique h2'

theorem charged_nonneg {e : ErrorValues} {n : Nat} (h : (configured e n).NonNeg) : (charged e n).NonNeg := by
  obtain ⟨a1, a2, a3, a4, a5, a6, a7⟩ := h
  exact ⟨a5, a2, a3, a4, a5, a6, a7⟩

theorem best_nonneg {c : EditCosts} {q w : Word} (h : c.NonNeg) : 0 ≤ best c q w :=
  script_nonneg h (best_isEditCost (c := c) (q := q) (w := w)).1

section
variable [Build] [Icu] [Runtime] [Fp] {m : Matcher} {H : MatcherHistory} {names : List Word}

theorem MInv.relevancyMatch (h : MInv m H names) {p : SearchParameters} {query : WordList} (hs : Sane m.e query H) :
    ∃ docs, IsAnswer m H names p query docs ∧
      Matcher.relevancyMatch m query p 0 MatchResults.new = .ok (Matcher.addAll MatchResults.new docs) := by
  obtain ⟨best, e1, hb⟩ := h.matchIndexes (p := p) hs query [] _ BInv.empty (fun _ h => h)
  have hp := flat_pairs hb
  have hR : ∀ i j v, (False ∨ ∃ q ∈ query, Hits m.e p H names q i j v) ↔ QueryHits m.e p H names query i j v := by
    intro i j v; simp [QueryHits]
  have hp' : IsPairs (QueryHits m.e p H names query) (flat best) := by
    refine ⟨hp.sorted, fun i j v => ?_⟩
    rw [hp.mem]; exact Least.congr (hR i j)
  have hv : ∀ x ∈ flat best, m.calculateRelevancy x.2.1 x.1 x.2.2 = .ok (valueOf m.weights H names x) := by
    rintro ⟨i, j, v⟩ hx
    obtain ⟨⟨q, hq, f, w, hf, hw, _, hm, _, rfl⟩, _⟩ := (hp'.mem i j v).1 hx
    have := h.calculateRelevancy hf hw hm (v := Columbus.best (charged m.e q.length) q w)
      (best_nonneg (charged_nonneg (hs.nonNeg q hq)))
    simp only [this, valueOf]
    congr 2
    · rw [List.getD_eq_getElem?_getD, hf]; rfl
    · rw [List.getD_eq_getElem?_getD, hw]; rfl
  obtain ⟨docs, e2, hsd, hfd⟩ := gatherList_eq h.docs (flat best) hv [] List.Pairwise.nil
  refine ⟨docs, ⟨flat best, hp', hsd, hfd⟩, ?_⟩
  rw [Matcher.relevancyMatch, e1]
  simp only [ok_bind]
  rw [gatherMatched_eq, e2]
  rfl

omit [Icu] in
theorem matchLoop_eq {p : SearchParameters} {query : WordList} {r : MatchResults}
    (h : Matcher.relevancyMatch m query p 0 MatchResults.new = .ok r) :
    Matcher.matchLoop m query p MatchResults.new 0 Matcher.maxIterations = .ok ⟨r.results, false⟩ := by
  rw [Matcher.maxIterations, Matcher.matchLoop]
  rw [show ((0 : Nat) : Int) * Matcher.increment = 0 by simp, h]
  simp only [ok_bind]
  rw [if_pos (Or.inr (by rfl : 0 + 1 = Matcher.maxIterations))]
  simp [MatchResults.addResults, MatchResults.new]

end

/-! ### Filtering -/

theorem range_map_some {α : Type} (l : List α) : (List.range l.length).map (fun i => l[i]?) = l.map some := by
  apply List.ext_getElem (by simp)
  intro i h1 h2
  simp at h1
  simp [h1]

section
variable [Build] [Runtime]

/-- `subtermLoop` on the pairs themselves. -/
def subLoop (ri : ReverseIndex) (id : DocumentID) (s : WordStore) : List (Word × Word) → WordStore × M Bool
  | [] => (s, .ok true)
  | p :: r =>
    match Matcher.getIDs s p.2 p.1 with
    | (s, .error f) => (s, .error f)
    | (s, .ok (v, n)) => if ReverseIndex.documentHasTerm ri v n id then subLoop ri id s r else (s, .ok false)

/-- `termLoop` on the terms themselves. -/
def orLoop (ri : ReverseIndex) (id : DocumentID) (s : WordStore) : List (List (Word × Word)) → WordStore × M Bool
  | [] => (s, .ok false)
  | t :: ts =>
    match subLoop ri id s t with
    | (s, .error f) => (s, .error f)
    | (s, .ok true) => (s, .ok true)
    | (s, .ok false) => orLoop ri id s ts

/-- `filterLoop` on the results themselves: those kept. -/
def keepLoop (ri : ReverseIndex) (ts : List (List (Word × Word))) (s : WordStore) : List Result → WordStore × M (List Result)
  | [] => (s, .ok [])
  | x :: xs =>
    match orLoop ri x.2 s ts with
    | (s, .error f) => (s, .error f)
    | (s, .ok false) => keepLoop ri ts s xs
    | (s, .ok true) =>
      match keepLoop ri ts s xs with
      | (s, .error f) => (s, .error f)
      | (s, .ok k) => (s, .ok (x :: k))

theorem subtermLoop_eq {ri : ReverseIndex} {filter : ResultFilter} {term : Nat} {id : DocumentID} {t : List (Word × Word)}
    (ht : filter.termList[term]? = some t) (ps : List (Word × Word)) : ∀ (s : WordStore) (is : List Nat),
    is.map (fun i => t[i]?) = ps.map some →
    Matcher.subtermLoop ri filter term id s is = subLoop ri id s ps := by
  induction ps with
  | nil => intro s is h; rw [List.map_nil, List.map_eq_nil_iff] at h; subst h; rfl
  | cons p ps ih =>
    intro s is h
    cases is with
    | nil => simp at h
    | cons i is =>
      simp only [List.map_cons, List.cons.injEq] at h
      have e1 : filter.getField term i = .ok p.1 := by
        simp [ResultFilter.getField, ResultFilter.getPair, ht, h.1]
      have e2 : filter.getWord term i = .ok p.2 := by
        simp [ResultFilter.getWord, ResultFilter.getPair, ht, h.1]
      rw [Matcher.subtermLoop, e1]
      simp only [e2, subLoop]
      rcases Matcher.getIDs s p.2 p.1 with ⟨s', _ | ⟨v, n⟩⟩
      · rfl
      · simp only [ih s' is h.2]

theorem subtermsMatch_eq {ri : ReverseIndex} {filter : ResultFilter} {term : Nat} {id : DocumentID} {t : List (Word × Word)}
    (ht : filter.termList[term]? = some t) (s : WordStore) :
    Matcher.subtermsMatch ri filter term id s = subLoop ri id s t := by
  have e : filter.numSubTerms term = .ok t.length := by simp [ResultFilter.numSubTerms, ht]
  rw [Matcher.subtermsMatch, e]
  exact subtermLoop_eq ht t s _ (range_map_some t)

theorem termLoop_eq {ri : ReverseIndex} {filter : ResultFilter} {id : DocumentID} (ts : List (List (Word × Word))) :
    ∀ (s : WordStore) (is : List Nat), is.map (fun i => filter.termList[i]?) = ts.map some →
    Matcher.termLoop ri filter id s is = orLoop ri id s ts := by
  induction ts with
  | nil => intro s is h; rw [List.map_nil, List.map_eq_nil_iff] at h; subst h; rfl
  | cons t ts ih =>
    intro s is h
    cases is with
    | nil => simp at h
    | cons i is =>
      simp only [List.map_cons, List.cons.injEq] at h
      rw [Matcher.termLoop, subtermsMatch_eq h.1, orLoop]
      rcases subLoop ri id s t with ⟨s', _ | _ | _⟩
      · rfl
      · simp only [ih s' is h.2]
      · rfl

/-- The results object after copying. -/
def copied (matched : MatchResults) (k : List Result) : MatchResults := ⟨matched.results ++ k, matched.sorted && k.isEmpty⟩

theorem filterLoop_eq {ri : ReverseIndex} {filter : ResultFilter} {l : List Result} (xs : List Result) :
    ∀ (s : WordStore) (all matched : MatchResults) (is : List Nat), RInv all l →
    is.map (fun i => (rank l)[i]?) = xs.map some →
    Matcher.filterLoop ri filter s all matched is = match keepLoop ri filter.termList s xs with
      | (s, .error f) => (s, .error f)
      | (s, .ok k) => (s, .ok (copied matched k)) := by
  induction xs with
  | nil =>
    intro s all matched is _ h
    rw [List.map_nil, List.map_eq_nil_iff] at h; subst h
    simp [Matcher.filterLoop, keepLoop, copied]
  | cons x xs ih =>
    intro s all matched is hr h
    cases is with
    | nil => simp at h
    | cons i is =>
      simp only [List.map_cons, List.cons.injEq] at h
      have e1 : all.getDocumentID i = .ok (⟨rank l, true⟩, x.2) := by rw [hr.getDocumentID, h.1]
      rw [Matcher.filterLoop, e1]
      simp only [ResultFilter.numTerms]
      rw [termLoop_eq filter.termList s _ (range_map_some _), keepLoop]
      rcases orLoop ri x.2 s filter.termList with ⟨s', _ | _ | _⟩
      · rfl
      · simp only
        exact ih s' _ matched is (rank_inv l) h.2
      · have e2 : matched.copyResult ⟨rank l, true⟩ i = .ok ⟨matched.results ++ [x], false⟩ := by
          simp [MatchResults.copyResult, h.1]
        simp only [e2]
        rw [ih s' _ _ is (rank_inv l) h.2]
        rcases keepLoop ri filter.termList s' xs with ⟨s'', _ | k⟩
        · rfl
        · simp [copied]

/-- Whatever happens: the kept results are a sublist. -/
theorem keepLoop_sublist {ri : ReverseIndex} {ts : List (List (Word × Word))} (xs : List Result) :
    ∀ {s s' : WordStore} {k : List Result}, keepLoop ri ts s xs = (s', .ok k) → k.Sublist xs := by
  induction xs with
  | nil => intro s s' k h; simp only [keepLoop, Prod.mk.injEq, Except.ok.injEq] at h; rw [← h.2]
  | cons x xs ih =>
    intro s s' k h
    rw [keepLoop] at h
    rcases ho : orLoop ri x.2 s ts with ⟨s1, _ | _ | _⟩ <;> rw [ho] at h
    · simp at h
    · exact (ih h).cons x
    · simp only at h
      rcases hk : keepLoop ri ts s1 xs with ⟨s2, _ | k'⟩
      · rw [hk] at h; simp at h
      · rw [hk] at h
        simp only [Prod.mk.injEq, Except.ok.injEq] at h
        rw [← h.2]; exact (ih hk).cons_cons x

end

theorem lettersIn_le {a b : List Word} (hn : a.Nodup) (h : ∀ w ∈ a, w ∈ b) : lettersIn a ≤ lettersIn b := by
  obtain ⟨c, hc, hs⟩ := List.subperm_of_subset hn h
  have h1 : lettersIn c = lettersIn a := by unfold lettersIn; exact (hc.map _).sum_eq
  rw [← h1]
  unfold lettersIn
  exact (hs.map _).sum_le_sum (by simp)

section
variable [Build] [Icu] {m : Matcher} {H : MatcherHistory} {names : List Word}

/-- The store after asking for the identifiers of some of the words `ws`. -/
structure Grown (m : Matcher) (H : MatcherHistory) (names : List Word) (ws : List Word) (s : WordStore) (names' : List Word) :
    Prop where
  inv : MInv { m with store := s } H names'
  pre : names <+: names'
  sub : ∀ v ∈ names', v ∈ names ∨ v ∈ ws

theorem Grown.letters {ws : List Word} {s : WordStore} {names' : List Word} (h : Grown m H names ws s names') :
    lettersIn names' ≤ lettersIn names + lettersIn ws := by
  rw [← lettersIn_append]
  exact lettersIn_le h.inv.store.nodup fun w hw => List.mem_append.2 (h.sub w hw)

/-- How asking for the identifiers of some of the words `ws` ends. -/
def Outcome {α : Type} (m : Matcher) (H : MatcherHistory) (names : List Word) (ws : List Word) (out : WordStore × M α)
    (good : α → List Word → Prop) : Prop :=
  (out.2 = .error .runtimeError ∧ StorageRefused m.os (lettersIn names + 2 * lettersIn ws)) ∨
  ∃ names', Grown m H names ws out.1 names' ∧
    ((∃ a, out.2 = .ok a ∧ good a names') ∨ (out.2 = .error .outOfRange ∧ [] ∈ ws))

omit [Build] [Icu] in
theorem lettersIn_mem {ws : List Word} {w : Word} (h : w ∈ ws) : w.length ≤ lettersIn ws := by
  unfold lettersIn
  exact List.single_le_sum (by simp) _ (List.mem_map.2 ⟨w, h, rfl⟩)

theorem Grown.getID {ws : List Word} {s : WordStore} {names' : List Word} (h : Grown m H names ws s names') {w : Word}
    (hw : w ∈ ws) (hu : Usable w) :
    (s.getID w = .error .runtimeError ∧ StorageRefused m.os (lettersIn names + 2 * lettersIn ws)) ∨
    (s.getID w = .error .outOfRange ∧ [] ∈ ws) ∨
    ∃ s' names'', s.getID w = .ok (s', names''.idxOf w) ∧ Grown m H names ws s' names'' ∧ names' <+: names'' ∧ w ∈ names'' := by
  have h0 : Names s m.os names' := h.inv.store
  rcases h0.getID hu with ⟨rfl, e⟩ | ⟨_, e, hr⟩ | ⟨_, s', e, hs⟩
  · exact Or.inr (Or.inl ⟨e, hw⟩)
  · left
    refine ⟨e, hr.mono ?_⟩
    have := h.letters
    have := lettersIn_mem hw
    omega
  · right; right
    refine ⟨s', note names' w, e, ⟨?_, h.pre.trans (note_prefix _ _), ?_⟩, note_prefix _ _, mem_note.2 (Or.inr rfl)⟩
    · exact h.inv.noted (s := s') hs
    · intro v hv
      rcases mem_note.1 hv with hv | rfl
      · exact h.sub v hv
      · exact Or.inr hw

variable [Runtime]

theorem Grown.getIDs {ws : List Word} {s : WordStore} {names' : List Word} (h : Grown m H names ws s names') {value field : Word}
    (hv : value ∈ ws) (hf : field ∈ ws) (uv : Usable value) (uf : Usable field) :
    Outcome m H names ws (Matcher.getIDs s value field) (fun r names'' =>
      names''[r.1]? = some value ∧ names''[r.2]? = some field) := by
  unfold Matcher.getIDs
  cases hb : Runtime.valueFirst
  · simp only [Bool.false_eq_true, if_false]
    rcases h.getID hf uf with ⟨e, hr⟩ | ⟨e, he⟩ | ⟨s1, n1, e, h1, hp, hm⟩
    · left; exact ⟨by simp only [e], hr⟩
    · right; simp only [e]; exact ⟨names', h, Or.inr ⟨trivial, he⟩⟩
    · simp only [e]
      rcases h1.getID hv uv with ⟨e2, hr⟩ | ⟨e2, he⟩ | ⟨s2, n2, e2, h2, hp2, hm2⟩
      · left; exact ⟨by simp only [e2], hr⟩
      · right; simp only [e2]; exact ⟨n1, h1, Or.inr ⟨trivial, he⟩⟩
      · right; simp only [e2]
        exact ⟨n2, h2, Or.inl ⟨_, rfl, getElem?_idxOf hm2, getElem?_prefix hp2 (getElem?_idxOf hm)⟩⟩
  · simp only [if_true]
    rcases h.getID hv uv with ⟨e, hr⟩ | ⟨e, he⟩ | ⟨s1, n1, e, h1, hp, hm⟩
    · left; exact ⟨by simp only [e], hr⟩
    · right; simp only [e]; exact ⟨names', h, Or.inr ⟨trivial, he⟩⟩
    · simp only [e]
      rcases h1.getID hf uf with ⟨e2, hr⟩ | ⟨e2, he⟩ | ⟨s2, n2, e2, h2, hp2, hm2⟩
      · left; exact ⟨by simp only [e2], hr⟩
      · right; simp only [e2]; exact ⟨n1, h1, Or.inr ⟨trivial, he⟩⟩
      · right; simp only [e2]
        exact ⟨n2, h2, Or.inl ⟨_, rfl, getElem?_prefix hp2 (getElem?_idxOf hm), getElem?_idxOf hm2⟩⟩

omit [Runtime] in
theorem MInv.documentHasTerm (h : MInv m H names) {i j : WordID} {f w : Word} (hf : names[i]? = some f) (hw : names[j]? = some w)
    (d : DocumentID) : ReverseIndex.documentHasTerm m.reverseIndex j i d = decide (H.Posting d f w) := by
  have h1 : ReverseIndex.documentHasTerm m.reverseIndex j i d = decide (d ∈ docsOf m.reverseIndex i j) := by
    unfold ReverseIndex.documentHasTerm docsOf
    cases HMap.find m.reverseIndex (i, j) <;> simp
  rw [h1, decide_eq_decide, h.post]
  constructor
  · rintro ⟨f', w', a, b, c⟩
    rw [hf] at a; rw [hw] at b
    injection a with a; injection b with b
    subst a; subst b; exact c
  · intro c; exact ⟨f, w, hf, hw, c⟩

theorem subLoop_spec {ws : List Word} (hu : ∀ w ∈ ws, Usable w) {id : DocumentID} (ps : List (Word × Word)) :
    ∀ {s : WordStore} {names' : List Word}, Grown m H names ws s names' → (∀ p ∈ ps, p.1 ∈ ws ∧ p.2 ∈ ws) →
    Outcome m H names ws (subLoop m.reverseIndex id s ps) (fun b _ => b = decide (∀ p ∈ ps, H.Posting id p.1 p.2)) := by
  induction ps with
  | nil => intro s names' h _; right; exact ⟨names', h, Or.inl ⟨true, rfl, by simp⟩⟩
  | cons p ps ih =>
    intro s names' h hp
    obtain ⟨p1, p2⟩ := hp p (by simp)
    rw [subLoop]
    rcases h.getIDs p2 p1 (hu _ p2) (hu _ p1) with ⟨e, hr⟩ | ⟨names'', h', ⟨⟨v, n⟩, e, hv, hn⟩ | ⟨e, he⟩⟩
    · left
      rcases hg : Matcher.getIDs s p.2 p.1 with ⟨s1, r⟩
      rw [hg] at e; dsimp only at e; subst e
      exact ⟨rfl, hr⟩
    · rcases hg : Matcher.getIDs s p.2 p.1 with ⟨s1, r⟩
      rw [hg] at e h'; dsimp only at e h'; subst e
      simp only
      have := h'.inv.documentHasTerm hn hv id
      dsimp only at this
      rw [this]
      by_cases hc : H.Posting id p.1 p.2
      · simp only [hc, decide_true, if_true]
        rcases ih h' (fun q hq => hp q (by simp [hq])) with ho | ⟨n3, h3, ⟨b, e3, hb⟩ | he⟩
        · exact Or.inl ho
        · exact Or.inr ⟨n3, h3, Or.inl ⟨b, e3, by rw [hb]; simp [hc]⟩⟩
        · exact Or.inr ⟨n3, h3, Or.inr he⟩
      · simp only [hc, decide_false, Bool.false_eq_true, if_false]
        refine Or.inr ⟨names'', h', Or.inl ⟨false, rfl, ?_⟩⟩
        show false = decide _
        symm; rw [decide_eq_false_iff_not]
        intro hall; exact hc (hall p (by simp))
    · right
      rcases hg : Matcher.getIDs s p.2 p.1 with ⟨s1, r⟩
      rw [hg] at e h'; dsimp only at e h'; subst e
      exact ⟨names'', h', Or.inr ⟨rfl, he⟩⟩

theorem orLoop_spec {ws : List Word} (hu : ∀ w ∈ ws, Usable w) {id : DocumentID} (ts : List (List (Word × Word))) :
    ∀ {s : WordStore} {names' : List Word}, Grown m H names ws s names' → (∀ t ∈ ts, ∀ p ∈ t, p.1 ∈ ws ∧ p.2 ∈ ws) →
    Outcome m H names ws (orLoop m.reverseIndex id s ts)
      (fun b _ => b = decide (∃ t ∈ ts, ∀ p ∈ t, H.Posting id p.1 p.2)) := by
  induction ts with
  | nil => intro s names' h _; right; exact ⟨names', h, Or.inl ⟨false, rfl, by simp⟩⟩
  | cons t ts ih =>
    intro s names' h hp
    rw [orLoop]
    rcases subLoop_spec hu (id := id) t h (hp t (by simp)) with ⟨e, hr⟩ | ⟨n1, h1, ⟨b, e, hb⟩ | ⟨e, he⟩⟩
    · left
      rcases hg : subLoop m.reverseIndex id s t with ⟨s1, r⟩
      rw [hg] at e; dsimp only at e; subst e
      exact ⟨rfl, hr⟩
    · rcases hg : subLoop m.reverseIndex id s t with ⟨s1, r⟩
      rw [hg] at e h1; dsimp only at e h1; subst e
      cases b with
      | true =>
        refine Or.inr ⟨n1, h1, Or.inl ⟨true, rfl, ?_⟩⟩
        show true = decide _
        symm; rw [decide_eq_true_eq]
        exact ⟨t, by simp, of_decide_eq_true hb.symm⟩
      | false =>
        have hno := of_decide_eq_false hb.symm
        rcases ih h1 (fun q hq => hp q (by simp [hq])) with ho | ⟨n3, h3, ⟨b, e3, hb3⟩ | he⟩
        · exact Or.inl ho
        · refine Or.inr ⟨n3, h3, Or.inl ⟨b, e3, ?_⟩⟩
          show b = decide _
          rw [hb3, decide_eq_decide]
          simp only [List.mem_cons, exists_eq_or_imp]
          exact ⟨Or.inr, fun h => h.elim (fun h => absurd h hno) fun h => h⟩
        · exact Or.inr ⟨n3, h3, Or.inr he⟩
    · right
      rcases hg : subLoop m.reverseIndex id s t with ⟨s1, r⟩
      rw [hg] at e h1; dsimp only at e h1; subst e
      exact ⟨n1, h1, Or.inr ⟨rfl, he⟩⟩

omit [Build] [Icu] [Runtime] in
theorem mem_filterWords {f : ResultFilter} {t : List (Word × Word)} (ht : t ∈ f.termList) {p : Word × Word} (hp : p ∈ t) :
    p.1 ∈ filterWords f ∧ p.2 ∈ filterWords f := by
  have : p ∈ f.termList.flatten := List.mem_flatten.2 ⟨t, ht, hp⟩
  constructor <;> exact List.mem_flatMap.2 ⟨p, this, by simp⟩

theorem keepLoop_spec {f : ResultFilter} (hu : ∀ w ∈ filterWords f, Usable w) (xs : List Result) :
    ∀ {s : WordStore} {names' : List Word}, Grown m H names (filterWords f) s names' →
    Outcome m H names (filterWords f) (keepLoop m.reverseIndex f.termList s xs)
      (fun k _ => k = xs.filter fun x => decide (Satisfies H f x.2)) := by
  induction xs with
  | nil => intro s names' h; right; exact ⟨names', h, Or.inl ⟨[], rfl, rfl⟩⟩
  | cons x xs ih =>
    intro s names' h
    rw [keepLoop]
    rcases orLoop_spec hu (id := x.2) f.termList h (fun t ht p hp => mem_filterWords ht hp) with
      ⟨e, hr⟩ | ⟨n1, h1, ⟨b, e, hb⟩ | ⟨e, he⟩⟩
    · left
      rcases hg : orLoop m.reverseIndex x.2 s f.termList with ⟨s1, r⟩
      rw [hg] at e; dsimp only at e; subst e
      exact ⟨rfl, hr⟩
    · rcases hg : orLoop m.reverseIndex x.2 s f.termList with ⟨s1, r⟩
      rw [hg] at e h1; dsimp only at e h1; subst e
      have hb' : b = decide (Satisfies H f x.2) := hb
      cases b with
      | false =>
        rcases ih h1 with ho | ⟨n3, h3, ⟨k, e3, hk⟩ | he⟩
        · exact Or.inl ho
        · refine Or.inr ⟨n3, h3, Or.inl ⟨k, e3, ?_⟩⟩
          rw [hk, List.filter_cons, ← hb']; simp
        · exact Or.inr ⟨n3, h3, Or.inr he⟩
      | true =>
        dsimp only
        rcases ih h1 with ⟨e3, hr⟩ | ⟨n3, h3, ⟨k, e3, hk⟩ | ⟨e3, he⟩⟩
        · left
          rcases hg3 : keepLoop m.reverseIndex f.termList s1 xs with ⟨s3, r3⟩
          rw [hg3] at e3; dsimp only at e3; subst e3; dsimp only
          exact ⟨rfl, hr⟩
        · right
          rcases hg3 : keepLoop m.reverseIndex f.termList s1 xs with ⟨s3, r3⟩
          rw [hg3] at e3 h3; dsimp only at e3 h3; subst e3; dsimp only
          refine ⟨n3, h3, Or.inl ⟨x :: k, rfl, ?_⟩⟩
          rw [hk, List.filter_cons, ← hb']; simp
        · right
          rcases hg3 : keepLoop m.reverseIndex f.termList s1 xs with ⟨s3, r3⟩
          rw [hg3] at e3 h3; dsimp only at e3 h3; subst e3; dsimp only
          exact ⟨n3, h3, Or.inr ⟨rfl, he⟩⟩
    · right
      rcases hg : orLoop m.reverseIndex x.2 s f.termList with ⟨s1, r⟩
      rw [hg] at e h1; dsimp only at e h1; subst e
      exact ⟨n1, h1, Or.inr ⟨rfl, he⟩⟩

/-- The results of documents with relevancies, without filter. -/
def listing (docs : SMap DocumentID ℚ) : List Result := rank (docs.map fun x => (x.2, x.1))

/-- The outcome of a search. -/
theorem MInv.matchQuery [Fp] (h : MInv m H names) {p : SearchParameters} {query : WordList} (hs : Sane m.e query H)
    (hq : query ≠ []) (hu : ∀ w ∈ filterWords p.filter, Usable w) :
    ∃ docs, IsAnswer m H names p query docs ∧
      ((∃ m', m.matchQuery query p = (m', .error .runtimeError) ∧
        StorageRefused m.os (lettersIn names + 2 * lettersIn (filterWords p.filter))) ∨
      ∃ s' names' r, m.matchQuery query p = ({ m with store := s' }, r) ∧
        Grown m H names (filterWords p.filter) s' names' ∧
        (r = .ok (copied .new ((listing docs).filter fun x => decide (Satisfies H p.filter x.2))) ∨
          (r = .error .outOfRange ∧ [] ∈ filterWords p.filter))) := by
  obtain ⟨docs, hd, e⟩ := h.relevancyMatch (p := p) hs
  refine ⟨docs, hd, ?_⟩
  have hlen : query.length ≠ 0 := fun h0 => hq (List.length_eq_zero_iff.1 h0)
  have hres : (Matcher.addAll MatchResults.new docs).results = docs.map fun x => (x.2, x.1) := by
    rw [addAll_eq]; rfl
  have hri : RInv ⟨docs.map fun x => (x.2, x.1), false⟩ (docs.map fun x => (x.2, x.1)) :=
    ⟨fun _ => rfl, fun h => by cases h⟩
  rw [Matcher.matchQuery, if_neg hlen, matchLoop_eq e, hres]
  simp only [MatchResults.size]
  have hix : (List.range (List.map (fun x : DocumentID × ℚ => (x.2, x.1)) docs).length).map
      (fun i => (rank (docs.map fun x => (x.2, x.1)))[i]?) = (listing docs).map some := by
    rw [← rank_length (docs.map fun x => (x.2, x.1))]
    exact range_map_some _
  rw [filterLoop_eq (listing docs) _ _ _ _ hri hix]
  rcases keepLoop_spec hu (listing docs) ⟨h, List.prefix_refl _, fun v hv => Or.inl hv⟩ with
    ⟨e1, hr⟩ | ⟨n1, h1, ⟨k, e1, hk⟩ | ⟨e1, he⟩⟩
  · left
    rcases hg : keepLoop m.reverseIndex p.filter.termList m.store (listing docs) with ⟨s1, r⟩
    rw [hg] at e1; dsimp only at e1; subst e1
    exact ⟨_, rfl, hr⟩
  · right
    rcases hg : keepLoop m.reverseIndex p.filter.termList m.store (listing docs) with ⟨s1, r⟩
    rw [hg] at e1 h1; dsimp only at e1 h1; subst e1
    exact ⟨s1, n1, _, rfl, h1, Or.inl (by rw [hk])⟩
  · right
    rcases hg : keepLoop m.reverseIndex p.filter.termList m.store (listing docs) with ⟨s1, r⟩
    rw [hg] at e1 h1; dsimp only at e1 h1; subst e1
    exact ⟨s1, n1, _, rfl, h1, Or.inr ⟨rfl, he⟩⟩

end
end Columbus
