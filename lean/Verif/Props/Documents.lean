import Verif.Proofs.Results
import Verif.Proofs.Split
import Verif.Props.Example
/-
C39-C43: results, documents, filters, parameters and weights.
-/

namespace Columbus.Props
open Columbus Spec

/-! ### C39 -/

/-- C39. After any interleaving of adding, copying and reading, the object shows one ranking of what was added: positions
below the size give identifier and relevancy of the same entry and leave the answers unchanged, the others throw. -/
theorem C39_ranked (r : MatchResults) (added : List Result) (h : Filled r added) :
    ∃ l, IsRanking added l ∧ l.Perm added ∧ r.size = added.length ∧
      ∀ i, (∀ x, l[i]? = some x → ∃ r', r.getDocumentID i = .ok (r', x.2) ∧ r.getRelevancy i = .ok (r', x.1) ∧ Filled r' added) ∧
        (added.length ≤ i → r.getDocumentID i = .error .outOfRange ∧ r.getRelevancy i = .error .outOfRange) := by
  have hi := filled_inv h
  refine ⟨rank added, rank_isRanking added, (rank_isRanking added).perm, hi.length, ?_⟩
  intro i
  constructor
  · intro x hx
    have h1 := hi.getDocumentID i
    have h2 := hi.getRelevancy i
    rw [hx] at h1 h2
    exact ⟨_, h1, h2, .readID h h1⟩
  · intro hl
    have h1 := hi.getDocumentID i
    have h2 := hi.getRelevancy i
    rw [List.getElem?_eq_none (by rw [rank_length]; exact hl)] at h1 h2
    exact ⟨h1, h2⟩

/-- C39. There is only one ranking, so the answers do not depend on when reads happened. -/
theorem C39_deterministic (r r' : MatchResults) (added : List Result) (h : Filled r added) (h' : Filled r' added) (i : Nat) :
    (r.getDocumentID i).map (·.2) = (r'.getDocumentID i).map (·.2) ∧
    (r.getRelevancy i).map (·.2) = (r'.getRelevancy i).map (·.2) := by
  rw [(filled_inv h).getDocumentID, (filled_inv h').getDocumentID, (filled_inv h).getRelevancy, (filled_inv h').getRelevancy]
  exact ⟨rfl, rfl⟩

/-- C39. The order asked for is the one order with these two properties. -/
theorem C39_unique (added l k : List Result) (h : IsRanking added l) (h' : IsRanking added k) : l = k := IsRanking.unique h h'

/-- Adding, reading, adding again: 5 is before 7 because it was added first. -/
example : Filled (((MatchResults.new.addResult 5 1).sortIfRequired.addResult 6 2).addResult 7 1) [(1, 5), (2, 6), (1, 7)] ∧
    IsRanking [(1, 5), (2, 6), (1, 7)] [(2, 6), (1, 5), (1, 7)] := by
  refine ⟨?_, ?_⟩
  · refine .add 7 1 (l := [(1, 5), (2, 6)]) (.add 6 2 (l := [(1, 5)]) (.readID (i := 0) (d := 5) (.add 5 1 .new) ?_))
    simp [MatchResults.getDocumentID, MatchResults.addResult, MatchResults.new, MatchResults.sortIfRequired]
  · refine ⟨by simp; decide +kernel, ?_⟩
    intro v
    by_cases h1 : (1 : ℚ) = v
    · subst h1; simp
    · by_cases h2 : (2 : ℚ) = v
      · subst h2; simp
      · simp [h1, h2]

/-! ### C40 -/

/-- C40 is false: two results are added and not read yet; the first by rank is document 2, but `copyResult(…, 0)` copies
document 1. -/
theorem C40_false :
    let other := (MatchResults.new.addResult 1 1).addResult 2 3
    (other.getDocumentID 0).map (·.2) = .ok 2 ∧
    (MatchResults.new.copyResult other 0).map (·.results) = .ok [(1, 1)] := by
  intro other
  refine ⟨?_, rfl⟩
  have h : Filled other [(1, 1), (3, 2)] := .add 2 3 (l := [(1, 1)]) (.add 1 1 .new)
  have hr : IsRanking [(1, 1), (3, 2)] ([(3, 2), (1, 1)] : List Result) := by
    refine ⟨by simp; decide +kernel, ?_⟩
    intro v
    by_cases h1 : (1 : ℚ) = v
    · subst h1; simp
    · by_cases h2 : (3 : ℚ) = v
      · subst h2; simp
      · simp [h1, h2]
  rw [(filled_inv h).getDocumentID, IsRanking.unique (rank_isRanking _) hr]
  rfl

/-- C40, what holds: the copied entry is the ranked one if the source was read after the last addition to it; in any case it
is one of the entries of the source, and positions outside throw. Missing: sources not read since they were filled. -/
theorem C40_partial (r other : MatchResults) (l k : List Result) (h : Filled r l) (ho : Filled other k) (i : Nat) :
    (i < k.length → ∃ r' x, r.copyResult other i = .ok r' ∧ x ∈ k ∧ Filled r' (l ++ [x])) ∧
    (k.length ≤ i → r.copyResult other i = .error .outOfRange) ∧
    (∀ j other' d, other.getDocumentID j = .ok (other', d) → ∀ v e, (∃ o, other'.getDocumentID i = .ok (o, e)) →
      (∃ o, other'.getRelevancy i = .ok (o, v)) → ∃ r', r.copyResult other' i = .ok r' ∧ Filled r' (l ++ [(v, e)])) := by
  have hi := filled_inv ho
  refine ⟨?_, ?_, ?_⟩
  · intro hlt
    have hlt' : i < other.results.length := by rw [hi.length]; exact hlt
    have hx : other.results[i]? = some other.results[i] := List.getElem?_eq_getElem hlt'
    have hc : r.copyResult other i = .ok ⟨r.results ++ [other.results[i]], false⟩ := by
      rw [MatchResults.copyResult, hx]
    refine ⟨_, other.results[i], hc, ?_, .copy h ho hx hc⟩
    have h1 : other.results[i] ∈ other.results.filter (fun y => y.1 == other.results[i].1) := by
      simp
    rw [hi.same] at h1
    exact (List.mem_filter.1 h1).1
  · intro hle
    rw [MatchResults.copyResult, List.getElem?_eq_none (by rw [hi.length]; exact hle)]
  · rintro j other' d hj v e ⟨o1, h1⟩ ⟨o2, h2⟩
    have ho' : Filled other' k := .readID ho hj
    have hi' := filled_inv ho'
    have ho'' : other' = ⟨rank k, true⟩ := by
      have := hi.getDocumentID j
      rw [hj] at this
      split at this <;> cases this
      rfl
    rw [hi'.getDocumentID] at h1
    rw [hi'.getRelevancy] at h2
    cases hx : (rank k)[i]? with
    | none => rw [hx] at h1; cases h1
    | some x =>
      rw [hx] at h1 h2
      cases h1; cases h2
      have hx' : other'.results[i]? = some x := by rw [ho'']; exact hx
      have hc : r.copyResult other' i = .ok ⟨r.results ++ [x], false⟩ := by
        rw [MatchResults.copyResult, hx']
      exact ⟨_, hc, .copy h ho' hx' hc⟩

/-! ### C41 -/

/-- C41. A document returns the words last added for a field, and `invalid_argument` for other fields. -/
theorem C41_text (id : DocumentID) (h : List (Word × WordList)) (f : Word) :
    (∀ pre ws post, h = pre ++ (f, ws) :: post → (∀ p ∈ post, p.1 ≠ f) → (documentOf id h).getText f = .ok ws) ∧
    ((∀ p ∈ h, p.1 ≠ f) → (documentOf id h).getText f = .error .invalidArgument) ∧
    (documentOf id h).id = id := by
  refine ⟨?_, ?_, documentOf_id id h⟩
  · rintro pre ws post rfl hp
    rw [Document.getText, documentOf_find, lastText]
    rw [List.reverse_append, List.reverse_cons, List.append_assoc, List.find?_append]
    have : (post.reverse.find? fun p => p.1 == f) = none := by
      rw [List.find?_eq_none]; intro p hpp; simpa using hp p (List.mem_reverse.1 hpp)
    rw [this]; simp
  · intro hp
    rw [Document.getText, documentOf_find, lastText]
    have : (h.reverse.find? fun p => p.1 == f) = none := by
      rw [List.find?_eq_none]; intro p hpp; simpa using hp p (List.mem_reverse.1 hpp)
    rw [this]; rfl

/-- C41. The field names are the fields added, each once, in ascending order. -/
theorem C41_fields (id : DocumentID) (h : List (Word × WordList)) :
    (documentOf id h).getFieldNames.Pairwise (fun a b => Word.lt a b = true) ∧
    (documentOf id h).getFieldNames.Nodup ∧
    (∀ f, f ∈ (documentOf id h).getFieldNames ↔ ∃ ws, (f, ws) ∈ h) ∧
    (documentOf id h).fieldCount = (documentOf id h).getFieldNames.length := by
  have hs := documentOf_sorted id h
  refine ⟨hs, SMap.sorted_nodup strict_wordLt hs, ?_, by simp [Document.fieldCount, Document.getFieldNames]⟩
  intro f
  have h1 := SMap.find_none_iff strict_wordLt (documentOf id h).texts f
  rw [documentOf_find, lastText, Option.map_eq_none_iff, List.find?_eq_none] at h1
  have h2 : f ∈ (documentOf id h).getFieldNames ↔ ¬ ∀ p ∈ h.reverse, ¬ (p.1 == f) = true := by
    rw [h1, Document.getFieldNames, not_not]
  rw [h2]
  constructor
  · intro hn
    by_contra hc
    exact hn (fun p hp he => hc ⟨p.2, by
      have : p.1 = f := by simpa using he
      rw [← this]; exact List.mem_reverse.1 hp⟩)
  · rintro ⟨ws, hw⟩ hn
    exact hn (f, ws) (List.mem_reverse.2 hw) (by simp)

/-- C41. Word counts: occurrences in the current text of a field, and their sum over all fields. -/
theorem C41_counts (id : DocumentID) (h : List (Word × WordList)) (w : Word) :
    (∀ f ws, (documentOf id h).getText f = .ok ws → (documentOf id h).wordCount w f = ws.count w) ∧
    (∀ f, (∀ ws, (documentOf id h).getText f ≠ .ok ws) → (documentOf id h).wordCount w f = 0) ∧
    (documentOf id h).totalWordCount w =
      ((documentOf id h).getFieldNames.map fun f => (documentOf id h).wordCount w f).sum := by
  refine ⟨?_, ?_, ?_⟩
  · intro f ws he
    rw [Document.getText] at he
    rw [Document.wordCount]
    split at he
    · cases he
    · rename_i t ht; cases he; simp [countLoop_eq]
  · intro f hn
    rw [Document.wordCount]
    cases ht : SMap.find Word.lt (documentOf id h).texts f with
    | none => rfl
    | some t => exact absurd (by rw [Document.getText, ht]) (hn t)
  · rw [Document.totalWordCount, totalLoop_eq, Nat.zero_add]; rfl

/-- C41. Text given as UTF-8 is split (C11); a failed split leaves the document alone. -/
theorem C41_utf8 [Build] [Icu] (id : DocumentID) (h : List (Word × WordList)) (f : Word) (text : Bytes) :
    (∀ ws, splitToWords text = .ok ws → (documentOf id h).addTextUtf8 f text = .ok (documentOf id (h ++ [(f, ws)]))) ∧
    (∀ x, splitToWords text = .error x → (documentOf id h).addTextUtf8 f text = .error x) := by
  constructor
  · intro ws hw; rw [Document.addTextUtf8, hw, documentOf_snoc]; rfl
  · intro x hx; rw [Document.addTextUtf8, hx]; rfl

/-- C41. A corpus lists its documents in order and throws outside. -/
theorem C41_corpus (docs : List Document) (i : Nat) :
    (∀ d, docs[i]? = some d → Corpus.getDocument (docs.foldl Corpus.addDocument []) i = .ok d) ∧
    (docs.length ≤ i → Corpus.getDocument (docs.foldl Corpus.addDocument []) i = .error .outOfRange) := by
  have : ∀ (l : List Document) (c : Corpus), l.foldl Corpus.addDocument c = c ++ l := by
    intro l
    induction l with
    | nil => simp
    | cons d l ih => intro c; rw [List.foldl_cons, ih]; simp [Corpus.addDocument]
  rw [this, List.nil_append]
  constructor
  · intro d hd; rw [Corpus.getDocument, hd]
  · intro hl; rw [Corpus.getDocument, List.getElem?_eq_none hl]

/-- A field is overwritten and another one added. -/
example : (documentOf 7 [([0x62], [[0x78]]), ([0x61], [[0x79], [0x79]]), ([0x62], [[0x79]])]).getText [0x62] = .ok [[0x79]] ∧
    (documentOf 7 [([0x62], [[0x78]]), ([0x61], [[0x79], [0x79]]), ([0x62], [[0x79]])]).getFieldNames = [[0x61], [0x62]] ∧
    (documentOf 7 [([0x62], [[0x78]]), ([0x61], [[0x79], [0x79]]), ([0x62], [[0x79]])]).totalWordCount [0x79] = 3 := by
  decide +kernel

/-! ### C42 -/

/-- C42. No sequence of calls is undefined, and the accessors return exactly the described terms. -/
theorem C42_filter (ops : List FilterOp) :
    ∃ f, runFilter .new ops = .ok f ∧ f.numTerms = (termsOf ops).length ∧
      ∀ i, (∀ t, (termsOf ops)[i]? = some t → f.numSubTerms i = .ok t.length ∧
          ∀ j, (∀ p, t[j]? = some p → f.getField i j = .ok p.1 ∧ f.getWord i j = .ok p.2) ∧
            (t.length ≤ j → f.getField i j = .error .outOfRange ∧ f.getWord i j = .error .outOfRange)) ∧
        ((termsOf ops).length ≤ i → f.numSubTerms i = .error .outOfRange ∧
          ∀ j, f.getField i j = .error .outOfRange ∧ f.getWord i j = .error .outOfRange) := by
  refine ⟨_, runFilter_new ops, rfl, ?_⟩
  intro i
  constructor
  · intro t ht
    refine ⟨by simp [ResultFilter.numSubTerms, ht], ?_⟩
    intro j
    constructor
    · intro p hp
      simp only [ResultFilter.getField, ResultFilter.getWord, ResultFilter.getPair, ht, hp]
      exact ⟨rfl, rfl⟩
    · intro hl
      simp only [ResultFilter.getField, ResultFilter.getWord, ResultFilter.getPair, ht, List.getElem?_eq_none hl]
      exact ⟨rfl, rfl⟩
  · intro hl
    have h0 := List.getElem?_eq_none hl
    refine ⟨by simp [ResultFilter.numSubTerms, h0], ?_⟩
    intro j
    simp only [ResultFilter.getField, ResultFilter.getWord, ResultFilter.getPair, h0]
    exact ⟨rfl, rfl⟩

/-- C42. What the terms of a sequence of calls are: a call appends to the last term or starts a new one. -/
theorem C42_terms (ops : List FilterOp) (a b : Word) :
    termsOf [] = [[]] ∧ termsOf (ops ++ [.newTerm]) = termsOf ops ++ [[]] ∧
    ∃ pre last, termsOf ops = pre ++ [last] ∧ termsOf (ops ++ [.subTerm a b]) = pre ++ [last ++ [(a, b)]] := by
  refine ⟨rfl, ?_, ?_⟩
  · induction ops with
    | nil => rfl
    | cons o r ih =>
      cases o with
      | newTerm => simp only [List.cons_append, termsOf, ih]
      | subTerm x y =>
        simp only [List.cons_append, termsOf, ih]
        cases h : termsOf r with
        | nil => exact absurd h (termsOf_ne r)
        | cons t ts => rfl
  · induction ops with
    | nil => exact ⟨[], [], rfl, rfl⟩
    | cons o r ih =>
      obtain ⟨pre, last, h1, h2⟩ := ih
      cases o with
      | newTerm => exact ⟨[] :: pre, last, by simp [termsOf, h1], by simp [termsOf, h2]⟩
      | subTerm x y =>
        cases pre with
        | nil =>
          exact ⟨[], (x, y) :: last, by simp [termsOf, h1], by simp [termsOf, h2]⟩
        | cons t ts =>
          exact ⟨((x, y) :: t) :: ts, last, by simp [termsOf, h1], by simp [termsOf, h2]⟩

example : termsOf [.subTerm [0x61] [0x62], .newTerm, .subTerm [0x63] [0x64], .subTerm [0x65] [0x66]] =
    [[([0x61], [0x62])], [([0x63], [0x64]), ([0x65], [0x66])]] := rfl

/-! ### C43 -/

/-- C43. No sequence of calls on search parameters fails. A field is excluded exactly if it was added, the dynamic flag is
the one last set (on at first), and the filter holds what its own calls describe. -/
theorem C43_parameters (ops : List ParamOp) :
    ∃ p, runParams .new ops = .ok p ∧ (∀ w, p.isNonsearchingField w = true ↔ ParamOp.addNonsearching w ∈ ops) ∧
      ((∀ b, ParamOp.setDynamic b ∉ ops) → p.isDynamic = true) ∧
      (∀ pre b post, ops = pre ++ .setDynamic b :: post → (∀ c, ParamOp.setDynamic c ∉ post) → p.isDynamic = b) ∧
      p.filter = ⟨termsOf (filterOps ops)⟩ := by
  obtain ⟨p, h1, h2, h3, h4⟩ := runParams_eq ops .new (by simp [SearchParameters.new, ResultFilter.new, ResultFilter.addNewTerm])
  have hkeep : ∀ (l : List ParamOp) (d : Bool), (∀ c, ParamOp.setDynamic c ∉ l) →
      l.foldl dynamicAfter d = d := by
    intro l
    induction l with
    | nil => intros; rfl
    | cons o l ih =>
      intro d hl
      have hl' : ∀ c, ParamOp.setDynamic c ∉ l := fun c hc => hl c (List.mem_cons_of_mem _ hc)
      cases o with
      | setDynamic b => exact absurd (List.mem_cons_self) (hl b)
      | addNonsearching w => exact ih d hl'
      | filter o => exact ih d hl'
  refine ⟨p, h1, ?_, ?_, ?_, ?_⟩
  · intro w; rw [h3]; simp [SearchParameters.new, SearchParameters.isNonsearchingField, SMap.find]
  · intro hn
    show p.dynamic = true
    rw [h4, hkeep ops _ hn]; rfl
  · rintro pre b post rfl hn
    show p.dynamic = b
    rw [h4, List.foldl_append, List.foldl_cons, hkeep post _ hn]; rfl
  · have := runFilter_new (filterOps ops)
    rw [show SearchParameters.new.filter = ResultFilter.new from rfl, this] at h2
    injection h2 with h2
    exact h2.symm

/-- C43. Weights: the last one set, 1.0 if none was. -/
theorem C43_weights (h : List (Word × ℚ)) (f : Word) :
    (∀ pre v post, h = pre ++ (f, v) :: post → (∀ p ∈ post, p.1 ≠ f) → IndexWeights.getWeight (weightsOf h) f = v) ∧
    ((∀ p ∈ h, p.1 ≠ f) → IndexWeights.getWeight (weightsOf h) f = 1) := by
  constructor
  · rintro pre v post rfl hp
    rw [IndexWeights.getWeight, weightsOf_find, lastWeight]
    rw [List.reverse_append, List.reverse_cons, List.append_assoc, List.find?_append]
    have : (post.reverse.find? fun p => p.1 == f) = none := by
      rw [List.find?_eq_none]; intro p hpp; simpa using hp p (List.mem_reverse.1 hpp)
    rw [this]; simp
  · intro hp
    rw [IndexWeights.getWeight, weightsOf_find, lastWeight]
    have : (h.reverse.find? fun p => p.1 == f) = none := by
      rw [List.find?_eq_none]; intro p hpp; simpa using hp p (List.mem_reverse.1 hpp)
    rw [this]; rfl

/-- C43. The dynamic error limit. -/
theorem C43_dynamicError (p : SearchParameters) (w : Word) :
    (w.length < 2 → p.getDynamicError w = 100) ∧ (2 ≤ w.length → p.getDynamicError w = 200) := by
  unfold SearchParameters.getDynamicError
  constructor
  · intro h; rw [if_pos h]
  · intro h; rw [if_neg (by omega)]; rfl

example : IndexWeights.getWeight (weightsOf [([0x61], 2), ([0x62], 3), ([0x61], 1/2)]) [0x61] = 1/2 :=
  (C43_weights _ _).1 [([0x61], 2), ([0x62], 3)] (1/2) [] rfl (by simp)

end Columbus.Props
