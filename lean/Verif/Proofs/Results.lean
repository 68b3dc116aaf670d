import Verif.Spec.Results
import Verif.Proofs.Containers
import Mathlib.Data.List.Induction
/-
Lemmas about ranked results and ordered maps.
-/

namespace Columbus
open Spec

/-! ### Ranking -/

theorem Spec.IsRanking.perm {a l : List Result} (h : IsRanking a l) : l.Perm a := by
  rw [List.perm_iff_count]
  intro x
  have := congrArg (List.count x) (h.2 x.1)
  rwa [List.count_filter (by simp), List.count_filter (by simp)] at this

theorem IsRanking.unique {a l k : List Result} (h : IsRanking a l) (h' : IsRanking a k) : l = k := by
  have main : ∀ (l k : List Result), l.Pairwise (fun a b => b.1 ≤ a.1) → k.Pairwise (fun a b => b.1 ≤ a.1) →
      (∀ v, l.filter (fun x => x.1 == v) = k.filter (fun x => x.1 == v)) → l = k := by
    intro l
    induction l with
    | nil =>
      intro k _ _ hf
      cases k with
      | nil => rfl
      | cons y k => have := hf y.1; simp at this
    | cons x l ih =>
      intro k hl hk hf
      cases k with
      | nil => have := hf x.1; simp at this
      | cons y k =>
        have hxy : x.1 = y.1 := by
          apply le_antisymm
          · have hm : x ∈ y :: k := by
              have h1 : x ∈ (x :: l).filter (fun z => z.1 == x.1) := by simp
              rw [hf] at h1
              exact (List.mem_filter.1 h1).1
            rcases List.mem_cons.1 hm with e | hm
            · rw [e]
            · exact (List.pairwise_cons.1 hk).1 x hm
          · have hm : y ∈ x :: l := by
              have h1 : y ∈ (y :: k).filter (fun z => z.1 == y.1) := by simp
              rw [← hf] at h1
              exact (List.mem_filter.1 h1).1
            rcases List.mem_cons.1 hm with e | hm
            · rw [e]
            · exact (List.pairwise_cons.1 hl).1 y hm
        have h1 := hf x.1
        rw [List.filter_cons_of_pos (by simp), List.filter_cons_of_pos (by simp [hxy])] at h1
        have hxy' : x = y := by injection h1
        subst hxy'
        congr 1
        apply ih k (List.pairwise_cons.1 hl).2 (List.pairwise_cons.1 hk).2
        intro v
        have h2 := hf v
        by_cases e : x.1 = v
        · rw [List.filter_cons_of_pos (by simp [e]), List.filter_cons_of_pos (by simp [e])] at h2
          injection h2
        · rw [List.filter_cons_of_neg (by simp [e]), List.filter_cons_of_neg (by simp [e])] at h2
          exact h2
  exact main l k h.1 h'.1 (fun v => (h.2 v).trans (h'.2 v).symm)

/-- The sorting of `sortIfRequired`. -/
def rank (l : List Result) : List Result := (l.reverse.mergeSort (fun a b => decide (a.1 ≤ b.1))).reverse

theorem rank_isRanking (l : List Result) : IsRanking l (rank l) := by
  have htr : ∀ a b c : Result, decide (a.1 ≤ b.1) = true → decide (b.1 ≤ c.1) = true → decide (a.1 ≤ c.1) = true := by
    intro a b c; simp only [decide_eq_true_eq]; exact le_trans
  have hto : ∀ a b : Result, (decide (a.1 ≤ b.1) || decide (b.1 ≤ a.1)) = true := by
    intro a b; simp only [Bool.or_eq_true, decide_eq_true_eq]; exact le_total _ _
  refine ⟨?_, ?_⟩
  · unfold rank
    rw [List.pairwise_reverse]
    have := List.pairwise_mergeSort htr hto l.reverse
    exact this.imp (by intro a b h; simpa using h)
  · intro v
    unfold rank
    rw [List.filter_reverse]
    have hp : (l.reverse.filter (fun x => x.1 == v)).Pairwise (fun a b => decide (a.1 ≤ b.1) = true) := by
      rw [List.pairwise_iff_forall_sublist]
      intro a b hs
      have ha := hs.subset (List.mem_cons_self)
      have hb := hs.subset (List.mem_cons_of_mem _ List.mem_cons_self)
      simp only [List.mem_filter, beq_iff_eq] at ha hb
      simp [ha.2, hb.2]
    have h1 := List.sublist_mergeSort htr hto hp List.filter_sublist
    have h2 := h1.filter (fun x => x.1 == v)
    rw [List.filter_filter] at h2
    simp only [Bool.and_self] at h2
    have h3 := h2.eq_of_length (((List.mergeSort_perm l.reverse _).filter _).length_eq).symm
    rw [← h3, List.filter_reverse, List.reverse_reverse]

theorem rank_of_sorted {l : List Result} (h : l.Pairwise (fun a b => b.1 ≤ a.1)) : rank l = l :=
  IsRanking.unique (rank_isRanking l) ⟨h, fun _ => rfl⟩

/-- The object `r` stands for the added results `l`. -/
structure RInv (r : MatchResults) (l : List Result) : Prop where
  same : ∀ v, r.results.filter (fun x => x.1 == v) = l.filter (fun x => x.1 == v)
  sorted : r.sorted = true → r.results.Pairwise (fun a b => b.1 ≤ a.1)

theorem rank_congr {a l : List Result} (h : ∀ v, a.filter (fun x => x.1 == v) = l.filter (fun x => x.1 == v)) :
    rank a = rank l :=
  IsRanking.unique (a := l) ⟨(rank_isRanking a).1, fun v => ((rank_isRanking a).2 v).trans (h v)⟩ (rank_isRanking l)

theorem RInv.sort {r : MatchResults} {l : List Result} (h : RInv r l) : r.sortIfRequired = ⟨rank l, true⟩ := by
  unfold MatchResults.sortIfRequired
  cases hs : r.sorted
  · simp only [Bool.false_eq_true, if_false]
    rw [← rank_congr h.same]
    rfl
  · simp only [if_true]
    have := rank_of_sorted (h.sorted hs)
    rw [← rank_congr h.same, this, ← hs]

theorem RInv.length {r : MatchResults} {l : List Result} (h : RInv r l) : r.results.length = l.length := by
  have h1 := rank_congr h.same
  have h2 := (rank_isRanking r.results).perm.length_eq
  have h3 := (rank_isRanking l).perm.length_eq
  rw [h1] at h2
  omega

theorem rank_inv (l : List Result) : RInv ⟨rank l, true⟩ l := ⟨(rank_isRanking l).2, fun _ => (rank_isRanking l).1⟩

theorem rank_length (l : List Result) : (rank l).length = l.length := (rank_isRanking l).perm.length_eq

theorem RInv.getDocumentID {r : MatchResults} {l : List Result} (h : RInv r l) (i : Nat) :
    r.getDocumentID i = match (rank l)[i]? with
      | none => .error .outOfRange
      | some x => .ok (⟨rank l, true⟩, x.2) := by
  unfold MatchResults.getDocumentID
  rw [h.length]
  by_cases hi : l.length ≤ i
  · rw [if_pos hi, List.getElem?_eq_none (by rw [rank_length]; exact hi)]
  · rw [if_neg hi]
    simp only [h.sort]
    have : i < (rank l).length := by rw [rank_length]; omega
    rw [List.getElem?_eq_getElem this]

theorem RInv.getRelevancy {r : MatchResults} {l : List Result} (h : RInv r l) (i : Nat) :
    r.getRelevancy i = match (rank l)[i]? with
      | none => .error .outOfRange
      | some x => .ok (⟨rank l, true⟩, x.1) := by
  unfold MatchResults.getRelevancy
  rw [h.length]
  by_cases hi : l.length ≤ i
  · rw [if_pos hi, List.getElem?_eq_none (by rw [rank_length]; exact hi)]
  · rw [if_neg hi]
    simp only [h.sort]
    have : i < (rank l).length := by rw [rank_length]; omega
    rw [List.getElem?_eq_getElem this]

theorem filled_inv {r : MatchResults} {l : List Result} (h : Filled r l) : RInv r l := by
  induction h with
  | new => exact ⟨fun _ => rfl, fun _ => List.Pairwise.nil⟩
  | add id rel _ ih =>
    exact ⟨fun v => by simp [MatchResults.addResult, List.filter_append, ih.same v], fun h => by cases h⟩
  | addAll _ _ ih1 ih2 =>
    exact ⟨fun v => by simp [MatchResults.addResults, List.filter_append, ih1.same v, ih2.same v], fun h => by cases h⟩
  | copy _ _ hx hc ih1 _ =>
    rw [MatchResults.copyResult, hx] at hc
    cases hc
    exact ⟨fun v => by simp [List.filter_append, ih1.same v], fun h => by cases h⟩
  | readID _ he ih =>
    rw [ih.getDocumentID] at he
    split at he <;> cases he
    exact rank_inv _
  | readRelevancy _ he ih =>
    rw [ih.getRelevancy] at he
    split at he <;> cases he
    exact rank_inv _

/-! ### Ordered maps -/

theorem strict_wordLt : Strict Word.lt := fun _ _ => Word.not_lt_both

/-- A transitive comparator. -/
def TransLt {K : Type} (lt : K → K → Bool) : Prop := ∀ a b c, lt a b = true → lt b c = true → lt a c = true

theorem trans_wordLt : TransLt Word.lt := fun _ _ _ => Word.lt_trans

theorem trans_ltNat : TransLt ltNat := by
  intro a b c; simp only [ltNat, decide_eq_true_eq]; omega

namespace SMap
variable {K V : Type} {lt : K → K → Bool}

/-- Keys in strictly ascending order. -/
def Sorted (lt : K → K → Bool) (m : SMap K V) : Prop := (m.map (·.1)).Pairwise (fun a b => lt a b = true)

theorem mem_keys_set (hs : Strict lt) (m : SMap K V) (k : K) (v : V) (x : K) :
    x ∈ (set lt m k v).map (·.1) ↔ x = k ∨ x ∈ m.map (·.1) := by
  induction m with
  | nil => simp [set]
  | cons p r ih =>
    obtain ⟨k', v'⟩ := p
    rw [set]
    split
    · simp only [List.map_cons, List.mem_cons, ih]; grind
    · split
      · simp only [List.map_cons, List.mem_cons]
      · rename_i h1 h2
        have : k' = k := (hs k' k).1 ⟨by simpa using h1, by simpa using h2⟩
        subst this
        simp only [List.map_cons, List.mem_cons]; grind

theorem sorted_set (hs : Strict lt) (ht : TransLt lt) {m : SMap K V} (h : Sorted lt m) (k : K) (v : V) :
    Sorted lt (set lt m k v) := by
  induction m with
  | nil => simp [set, Sorted]
  | cons p r ih =>
    obtain ⟨k', v'⟩ := p
    unfold Sorted at h ih
    rw [List.map_cons, List.pairwise_cons] at h
    rw [set]
    split
    · rename_i h1
      unfold Sorted
      rw [List.map_cons, List.pairwise_cons]
      refine ⟨?_, ih h.2⟩
      intro x hx
      rcases (mem_keys_set hs r k v x).1 hx with e | hx
      · rw [e]; exact h1
      · exact h.1 x hx
    · split
      · rename_i h1 h2
        unfold Sorted
        rw [List.map_cons, List.pairwise_cons, List.map_cons, List.pairwise_cons]
        refine ⟨?_, h⟩
        intro x hx
        rcases List.mem_cons.1 hx with e | hx
        · rw [e]; exact h2
        · exact ht _ _ _ h2 (h.1 x hx)
      · unfold Sorted
        rw [List.map_cons, List.pairwise_cons]
        exact h

theorem find_some_iff (hs : Strict lt) [DecidableEq K] {m : SMap K V} (h : Sorted lt m) (k : K) (v : V) :
    find lt m k = some v ↔ (k, v) ∈ m := by
  refine ⟨mem_find hs, ?_⟩
  induction m with
  | nil => simp
  | cons p r ih =>
    obtain ⟨k', v'⟩ := p
    unfold Sorted at h ih
    rw [List.map_cons, List.pairwise_cons] at h
    intro hm
    rw [find_cons hs]
    rcases List.mem_cons.1 hm with e | hm
    · cases e; rw [if_pos rfl]
    · have : k' ≠ k := by
        rintro rfl
        have := h.1 k' (List.mem_map.2 ⟨_, hm, rfl⟩)
        rw [hs.irrefl] at this; cases this
      rw [if_neg this]; exact ih h.2 hm

theorem find_none_iff (hs : Strict lt) [DecidableEq K] (m : SMap K V) (k : K) :
    find lt m k = none ↔ k ∉ m.map (·.1) := by
  induction m with
  | nil => simp [find]
  | cons p r ih =>
    obtain ⟨k', v'⟩ := p
    rw [find_cons hs]
    simp only [List.map_cons, List.mem_cons, not_or]
    split
    · rename_i e; subst e; simp
    · rename_i e; rw [ih]; exact ⟨fun h => ⟨fun e' => e e'.symm, h⟩, fun h => h.2⟩

theorem sorted_nodup (hs : Strict lt) {m : SMap K V} (h : Sorted lt m) : (m.map (·.1)).Nodup := by
  unfold Sorted at h
  exact h.imp (by intro a b hab e; subst e; rw [hs.irrefl] at hab; cases hab)

end SMap

/-! ### Documents -/

theorem documentOf_snoc (id : DocumentID) (h : List (Word × WordList)) (p : Word × WordList) :
    documentOf id (h ++ [p]) = (documentOf id h).addText p.1 p.2 := by
  unfold documentOf; rw [List.foldl_append]; rfl

theorem documentOf_id (id : DocumentID) (h : List (Word × WordList)) : (documentOf id h).id = id := by
  induction h using List.reverseRecOn with
  | nil => rfl
  | append_singleton h p ih => rw [documentOf_snoc]; exact ih

theorem documentOf_sorted (id : DocumentID) (h : List (Word × WordList)) : SMap.Sorted Word.lt (documentOf id h).texts := by
  induction h using List.reverseRecOn with
  | nil => exact List.Pairwise.nil
  | append_singleton h p ih => rw [documentOf_snoc]; exact SMap.sorted_set strict_wordLt trans_wordLt ih _ _

theorem find_snoc {V : Type} (h : List (Word × V)) (p : Word × V) (f : Word) :
    (((h ++ [p]).reverse.find? fun q => q.1 == f).map (·.2)) =
      if p.1 = f then some p.2 else (h.reverse.find? fun q => q.1 == f).map (·.2) := by
  rw [List.reverse_append, List.reverse_singleton, List.singleton_append, List.find?_cons]
  by_cases e : p.1 = f
  · simp [e]
  · have : (p.1 == f) = false := by simpa using e
    simp [e, this]

theorem documentOf_find (id : DocumentID) (h : List (Word × WordList)) (f : Word) :
    SMap.find Word.lt (documentOf id h).texts f = lastText h f := by
  induction h using List.reverseRecOn with
  | nil => rfl
  | append_singleton h p ih =>
    rw [documentOf_snoc]
    show SMap.find Word.lt (SMap.set Word.lt _ _ _) f = _
    rw [SMap.find_set strict_wordLt, ih]
    exact (find_snoc h p f).symm

theorem weightsOf_find (h : List (Word × ℚ)) (f : Word) : SMap.find Word.lt (weightsOf h) f = lastWeight h f := by
  induction h using List.reverseRecOn with
  | nil => rfl
  | append_singleton h p ih =>
    rw [weightsOf, List.foldl_append]
    show SMap.find Word.lt (SMap.set Word.lt _ _ _) f = _
    rw [SMap.find_set strict_wordLt, lastWeight, find_snoc]
    congr 1

theorem countLoop_eq (w : Word) (n : Nat) (l : WordList) : Document.countLoop w n l = n + l.count w := by
  induction l generalizing n with
  | nil => rfl
  | cons x l ih =>
    rw [Document.countLoop, ih, List.count_cons]
    by_cases e : x = w
    · have : Word.beq x w = true := (Word.beq_iff _ _).2 e
      rw [this, if_pos rfl, e]; simp; omega
    · have : Word.beq x w = false := by
        rw [← Bool.not_eq_true, Word.beq_iff]; exact e
      simp [this, e]

theorem totalLoop_eq (d : Document) (w : Word) (n : Nat) (m : SMap Word WordList) :
    Document.totalLoop d w n m = n + ((m.map (·.1)).map (d.wordCount w)).sum := by
  induction m generalizing n with
  | nil => rfl
  | cons p m ih =>
    obtain ⟨f, t⟩ := p
    rw [Document.totalLoop, ih, List.map_cons, List.map_cons, List.sum_cons]
    dsimp only
    omega

/-! ### Filters -/

theorem termsOf_ne (ops : List FilterOp) : termsOf ops ≠ [] := by
  cases ops with
  | nil => simp [termsOf]
  | cons o r =>
    cases o with
    | newTerm => simp [termsOf]
    | subTerm a b => rw [termsOf]; split <;> simp

/-- Terms of a sequence of calls that start in the middle of the term `t`. -/
theorem runFilter_eq (ops : List FilterOp) (pre : List (List (Word × Word))) (t : List (Word × Word)) :
    runFilter ⟨pre ++ [t]⟩ ops = .ok ⟨pre ++ (match termsOf ops with | [] => [t] | x :: xs => (t ++ x) :: xs)⟩ := by
  induction ops generalizing pre t with
  | nil => simp [runFilter, termsOf]
  | cons o r ih =>
    cases o with
    | newTerm =>
      rw [runFilter]
      show runFilter ⟨(pre ++ [t]) ++ [[]]⟩ r = _
      rw [ih (pre ++ [t]) []]
      simp only [termsOf, List.append_nil, List.nil_append, List.append_assoc]
      cases h : termsOf r with
      | nil => exact absurd h (termsOf_ne r)
      | cons x xs => rfl
    | subTerm a b =>
      have hs : ResultFilter.addNewSubTerm ⟨pre ++ [t]⟩ a b = .ok ⟨pre ++ [t ++ [(a, b)]]⟩ := by
        simp [ResultFilter.addNewSubTerm]
      rw [runFilter, hs]
      show runFilter ⟨pre ++ [t ++ [(a, b)]]⟩ r = _
      rw [ih pre (t ++ [(a, b)]), termsOf]
      cases h : termsOf r with
      | nil => exact absurd h (termsOf_ne r)
      | cons x xs => simp

theorem runFilter_new (ops : List FilterOp) : runFilter .new ops = .ok ⟨termsOf ops⟩ := by
  have := runFilter_eq ops [] []
  rw [show ResultFilter.new = ⟨[] ++ [[]]⟩ from rfl, this]
  cases h : termsOf ops with
  | nil => exact absurd h (termsOf_ne ops)
  | cons x xs => rfl

/-- The dynamic flag after a call. -/
def dynamicAfter (d : Bool) : ParamOp → Bool
  | .setDynamic b => b
  | _ => d

theorem runParams_eq (ops : List ParamOp) : ∀ (p : SearchParameters), p.filter.termList ≠ [] →
    ∃ p', runParams p ops = .ok p' ∧ runFilter p.filter (filterOps ops) = .ok p'.filter ∧
      (∀ w, p'.isNonsearchingField w = true ↔ p.isNonsearchingField w = true ∨ ParamOp.addNonsearching w ∈ ops) ∧
      p'.dynamic = ops.foldl dynamicAfter p.dynamic := by
  induction ops with
  | nil => intro p _; exact ⟨p, rfl, rfl, by simp, rfl⟩
  | cons o r ih =>
    intro p hne
    cases o with
    | setDynamic b =>
      obtain ⟨p', h1, h2, h3, h4⟩ := ih (p.setDynamic b) hne
      refine ⟨p', h1, h2, ?_, h4⟩
      intro w; rw [h3]; simp [SearchParameters.setDynamic, SearchParameters.isNonsearchingField]
    | addNonsearching w0 =>
      obtain ⟨p', h1, h2, h3, h4⟩ := ih (p.addNonsearchingField w0) hne
      refine ⟨p', h1, h2, ?_, h4⟩
      intro w; rw [h3]
      simp only [SearchParameters.addNonsearchingField, SearchParameters.isNonsearchingField,
        SMap.find_set strict_wordLt, List.mem_cons, ParamOp.addNonsearching.injEq]
      by_cases e : w0 = w
      · simp [e]
      · have : ¬ w = w0 := fun h => e h.symm
        simp [e, this]
    | filter o =>
      cases o with
      | newTerm =>
        obtain ⟨p', h1, h2, h3, h4⟩ := ih { p with filter := p.filter.addNewTerm } (by simp [ResultFilter.addNewTerm])
        refine ⟨p', h1, h2, ?_, h4⟩
        intro w; rw [h3]; simp [SearchParameters.isNonsearchingField]
      | subTerm a b =>
        obtain ⟨f, hf, hfn⟩ : ∃ f, p.filter.addNewSubTerm a b = .ok f ∧ f.termList ≠ [] := by
          unfold ResultFilter.addNewSubTerm
          cases h : p.filter.termList.getLast? with
          | none => exact absurd (List.getLast?_eq_none_iff.1 h) hne
          | some t => exact ⟨_, rfl, by simp⟩
        obtain ⟨p', h1, h2, h3, h4⟩ := ih { p with filter := f } hfn
        refine ⟨p', ?_, ?_, ?_, h4⟩
        · rw [runParams, hf]; exact h1
        · show runFilter p.filter (.subTerm a b :: filterOps r) = _
          rw [runFilter, hf]; exact h2
        · intro w; rw [h3]; simp [SearchParameters.isNonsearchingField]

end Columbus
