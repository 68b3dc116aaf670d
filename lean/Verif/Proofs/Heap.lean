import Verif.Spec.Heap
import Verif.Proofs.MatcherLost
/-
Indexing when memory may be refused.
-/

namespace Columbus
open Spec ErrorValues

/-! ### Agreement with the model that takes the heap for granted -/

/-- What `index` gives where no memory is refused. -/
def Agrees (r : Matcher × Except Stop Nat) (r' : Matcher × Option Fault) : Prop :=
  match r.2 with
  | .ok _ => r' = (r.1, none)
  | .error (.fault f) => r' = (r.1, some f)
  | .error (.refused _) => True

section
variable [Build] (heap : Heap)

theorem getIDHeap_cases (k : Nat) (s : WordStore) (w : Word) :
    (∃ f, s.getID w = .error f ∧ s.getIDHeap heap k w = (s.after f, .error (.fault f))) ∨
    (∃ s' id k', s.getID w = .ok (s', id) ∧ s.getIDHeap heap k w = (s', .ok (id, k'))) ∨
    (∃ s' id, s.getID w = .ok (s', id) ∧ s'.wordIndex.length ≠ s.wordIndex.length ∧ heap k = false ∧
      s.getIDHeap heap k w = ({ s' with wordIndex := s.wordIndex }, .error (.refused .identifier))) := by
  unfold WordStore.getIDHeap
  cases h : s.getID w with
  | error f => exact Or.inl ⟨f, rfl, rfl⟩
  | ok p =>
    obtain ⟨s', id⟩ := p
    right
    by_cases h1 : s'.wordIndex.length = s.wordIndex.length
    · exact Or.inl ⟨s', id, k, rfl, by simp only [h1, if_true]⟩
    · cases h2 : heap k with
      | true => exact Or.inl ⟨s', id, k + 1, rfl, by simp only [h1, if_false, if_true]⟩
      | false => exact Or.inr ⟨s', id, rfl, h1, rfl, by simp [h1]⟩

theorem insertWordHeap_cases (k : Nat) (ix : LevIndex) (w : Word) (id : WordID) :
    (∃ f, ix.insertWord w id = .error f ∧ ix.insertWordHeap heap k w id = (ix.after f, .error (.fault f))) ∨
    (∃ ix' k', ix.insertWord w id = .ok ix' ∧ ix.insertWordHeap heap k w id = (ix', .ok k')) ∨
    (∃ ix', ix.insertWord w id = .ok ix' ∧ w ≠ [] ∧ HMap.find ix.wordCounts id = none ∧ heap k = false ∧
      ix.insertWordHeap heap k w id = ({ ix with trie := ix'.trie }, .error (.refused .count))) := by
  unfold LevIndex.insertWordHeap
  cases h : ix.insertWord w id with
  | error f => exact Or.inl ⟨f, rfl, rfl⟩
  | ok ix' =>
    right
    by_cases h1 : w.length = 0
    · exact Or.inl ⟨ix', k, rfl, by simp only [h1, if_true]⟩
    · have hne : w ≠ [] := fun h => h1 (by rw [h]; rfl)
      cases h2 : HMap.find ix.wordCounts id with
      | some c => exact Or.inl ⟨ix', k, rfl, by simp only [h1, if_false]⟩
      | none =>
        cases h3 : heap k with
        | true => exact Or.inl ⟨ix', k + 1, rfl, by simp only [h1, if_false, if_true]⟩
        | false => exact Or.inr ⟨ix', rfl, hne, rfl, rfl, by simp [h1]⟩

theorem addToIndexHeap_agrees (k : Nat) (m : Matcher) (w : Word) (id i : WordID) :
    Agrees (m.addToIndexHeap heap k w id i) (m.addToIndex w id i) := by
  unfold Matcher.addToIndexHeap Matcher.addToIndex
  cases h : HMap.find m.indexes i with
  | some ix =>
    rcases insertWordHeap_cases heap k ix w id with ⟨f, e1, e2⟩ | ⟨ix', k', e1, e2⟩ | ⟨ix', e1, _, _, _, e2⟩ <;>
      simp only [e1, e2, Agrees]
  | none =>
    simp only
    by_cases h1 : heap k = false
    · rw [if_pos h1]; trivial
    · rw [if_neg h1]
      cases hn : LevIndex.new m.os with
      | error f => simp only [Agrees]
      | ok ix =>
        simp only
        by_cases h2 : heap (k + 1) = false
        · rw [if_pos h2]; trivial
        · rw [if_neg h2]
          rcases insertWordHeap_cases heap (k + 2) ix w id with ⟨f, e1, e2⟩ | ⟨ix', k', e1, e2⟩ | ⟨ix', e1, _, _, _, e2⟩ <;>
            simp only [e1, e2, Agrees]

omit [Build] in
theorem wordProcessedHeap_cases (k : Nat) (st : MatcherStatistics) (w : WordID) :
    (∃ k', MatcherStatistics.wordProcessedHeap heap k st w = (MatcherStatistics.wordProcessed st w, .ok k')) ∨
    (heap k = false ∧ MatcherStatistics.wordProcessedHeap heap k st w = (st, .error (.refused .statistics))) := by
  unfold MatcherStatistics.wordProcessedHeap
  cases h : HMap.find st w with
  | some c => exact Or.inl ⟨k, rfl⟩
  | none =>
    cases h2 : heap k with
    | true => exact Or.inl ⟨k + 1, by simp only [if_true]⟩
    | false => exact Or.inr ⟨rfl, by simp⟩

omit [Build] in
theorem addHeap_cases (k : Nat) (ri : ReverseIndex) (w i : WordID) (d : DocumentID) :
    (∃ k', ReverseIndex.addHeap heap k ri w i d = (ReverseIndex.add ri w i d, .ok k')) ∨
    (∃ k', heap k' = false ∧ ReverseIndex.addHeap heap k ri w i d = (ri, .error (.refused .posting))) ∨
    (∃ k', heap k' = false ∧ HMap.find ri (i, w) = none ∧
      ReverseIndex.addHeap heap k ri w i d = (HMap.set ri (i, w) [], .error (.refused .posting))) := by
  unfold ReverseIndex.addHeap
  cases h : HMap.find ri (i, w) with
  | none =>
    simp only
    by_cases h1 : heap k = false ∨ heap (k + 1) = false
    · right; left
      rw [if_pos h1]
      rcases h1 with h1 | h1
      · exact ⟨_, h1, rfl⟩
      · exact ⟨_, h1, rfl⟩
    · rw [if_neg h1]
      by_cases h2 : heap (k + 2) = false
      · right; right; rw [if_pos h2]; exact ⟨_, h2, trivial, rfl⟩
      · left; rw [if_neg h2]; exact ⟨_, rfl⟩
  | some s =>
    simp only
    by_cases h1 : d ∈ s
    · left; rw [if_pos h1]; exact ⟨_, rfl⟩
    · rw [if_neg h1]
      cases h2 : heap k with
      | true => left; exact ⟨k + 1, by simp only [if_true]⟩
      | false => right; left; exact ⟨_, h2, by simp⟩

/-- One round of the loop over words in the model that takes the heap for granted. -/
def indexWord (d : DocumentID) (i : WordID) (m : Matcher) (w : Word) : Matcher × Option Fault := Matcher.indexWords d i m [w]

theorem indexWords_cons (d : DocumentID) (i : WordID) (m : Matcher) (w : Word) (ws : WordList) :
    Matcher.indexWords d i m (w :: ws) = match indexWord d i m w with
      | (m, some f) => (m, some f)
      | (m, none) => Matcher.indexWords d i m ws := by
  unfold indexWord
  rw [Matcher.indexWords, Matcher.indexWords]
  cases m.store.getID w with
  | error f => rfl
  | ok p =>
    obtain ⟨s, id⟩ := p
    simp only
    split <;> rename_i e <;> simp only [Matcher.indexWords]

theorem indexWordHeap_agrees (k : Nat) (d : DocumentID) (i : WordID) (m : Matcher) (w : Word) :
    Agrees (m.indexWordHeap heap k d i w) (indexWord d i m w) := by
  unfold Matcher.indexWordHeap indexWord
  rw [Matcher.indexWords]
  rcases getIDHeap_cases heap k m.store w with ⟨f, e1, e2⟩ | ⟨s, id, k', e1, e2⟩ | ⟨s, id, e1, _, _, e2⟩
  · simp only [e1, e2, Agrees]
  · simp only [e1, e2]
    rcases wordProcessedHeap_cases heap k' m.stats id with ⟨k2, e3⟩ | ⟨_, e3⟩
    · simp only [e3]
      have ha := addToIndexHeap_agrees heap k2 { m with store := s, stats := MatcherStatistics.wordProcessed m.stats id } w id i
      generalize Matcher.addToIndexHeap heap k2 { m with store := s, stats := MatcherStatistics.wordProcessed m.stats id } w id i = r at ha
      obtain ⟨m', r⟩ := r
      rcases r with (p | f) | k3
      · trivial
      · simp only [Agrees] at ha; simp only [ha, Agrees]
      · simp only [Agrees] at ha
        simp only [ha, Matcher.indexWords]
        rcases addHeap_cases heap k3 m'.reverseIndex id i d with ⟨k4, e4⟩ | ⟨k4, _, e4⟩ | ⟨k4, _, _, e4⟩ <;> simp only [e4, Agrees]
    · simp only [e3, Agrees]
  · simp only [e2, Agrees]

theorem indexWordsHeap_agrees (d : DocumentID) (i : WordID) (ws : WordList) : ∀ (k : Nat) (m : Matcher),
    Agrees (m.indexWordsHeap heap k d i ws) (Matcher.indexWords d i m ws) := by
  induction ws with
  | nil => intro k m; rfl
  | cons w ws ih =>
    intro k m
    rw [Matcher.indexWordsHeap, indexWords_cons]
    have ha := indexWordHeap_agrees heap k d i m w
    generalize m.indexWordHeap heap k d i w = r at ha
    obtain ⟨m', r⟩ := r
    rcases r with (p | f) | k3
    · trivial
    · simp only [Agrees] at ha; simp only [ha, Agrees]
    · simp only [Agrees] at ha; simp only [ha]; exact ih k3 m'

theorem indexFieldsHeap_agrees (d : Document) (fs : WordList) : ∀ (k : Nat) (m : Matcher),
    Agrees (m.indexFieldsHeap heap k d fs) (Matcher.indexFields d m fs) := by
  induction fs with
  | nil => intro k m; rfl
  | cons f fs ih =>
    intro k m
    rw [Matcher.indexFieldsHeap, Matcher.indexFields]
    rcases getIDHeap_cases heap k m.store f with ⟨x, e1, e2⟩ | ⟨s, id, k', e1, e2⟩ | ⟨s, id, e1, _, _, e2⟩
    · simp only [e1, e2, Agrees]
    · simp only [e1, e2]
      cases d.getText f with
      | error x => simp only [Agrees]
      | ok text =>
        simp only
        split
        · trivial
        · generalize (if (SMap.find Matcher.ltDW m.originalSizes (d.id, id)).isNone = true then k' + 1 else k') = k2
          have ha := indexWordsHeap_agrees heap d.id id text k2
            { m with store := s, originalSizes := SMap.set Matcher.ltDW m.originalSizes (d.id, id) text.length }
          generalize Matcher.indexWordsHeap heap k2 d.id id
            { m with store := s, originalSizes := SMap.set Matcher.ltDW m.originalSizes (d.id, id) text.length } text = r at ha
          obtain ⟨m', r⟩ := r
          rcases r with (p | x) | k3
          · trivial
          · simp only [Agrees] at ha; simp only [ha, Agrees]
          · simp only [Agrees] at ha; simp only [ha]; exact ih k3 m'
    · simp only [e2, Agrees]

theorem indexHeap_agrees (c : Corpus) : ∀ (k : Nat) (m : Matcher), Agrees (m.indexHeap heap k c) (m.index c) := by
  induction c with
  | nil => intro k m; rfl
  | cons d c ih =>
    intro k m
    rw [Matcher.indexHeap, Matcher.index]
    split
    · trivial
    · have ha := indexFieldsHeap_agrees heap d d.getFieldNames (k + 1) m
      generalize m.indexFieldsHeap heap (k + 1) d d.getFieldNames = r at ha
      obtain ⟨m', r⟩ := r
      rcases r with (p | x) | k3
      · trivial
      · simp only [Agrees] at ha; simp only [ha, Agrees]
      · simp only [Agrees] at ha; simp only [ha]; exact ih k3 m'

end

/-! ### A refusal needs a refused request -/

/-- The call was not refused memory. -/
def NotRefused {α : Type} (r : Matcher × Except Stop α) : Prop := ∀ p, r.2 ≠ .error (.refused p)

section
variable [Build] (heap : Heap) (hh : ∀ k, heap k = true)
include hh

theorem indexWordHeap_granted (k : Nat) (d : DocumentID) (i : WordID) (m : Matcher) (w : Word) :
    NotRefused (m.indexWordHeap heap k d i w) := by
  unfold Matcher.indexWordHeap
  rcases getIDHeap_cases heap k m.store w with ⟨f, e1, e2⟩ | ⟨s, id, k', e1, e2⟩ | ⟨s, id, e1, _, h0, e2⟩
  · simp [e2, NotRefused]
  · simp only [e2]
    rcases wordProcessedHeap_cases heap k' m.stats id with ⟨k2, e3⟩ | ⟨h0, e3⟩
    · simp only [e3]
      have ha : NotRefused (Matcher.addToIndexHeap heap k2 { m with store := s, stats := MatcherStatistics.wordProcessed m.stats id } w id i) := by
        unfold Matcher.addToIndexHeap
        simp only
        cases HMap.find m.indexes i with
        | some ix =>
          rcases insertWordHeap_cases heap k2 ix w id with ⟨f, e1, e2⟩ | ⟨ix', k', e1, e2⟩ | ⟨ix', e1, _, _, h0, e2⟩
          · simp [e2, NotRefused]
          · simp [e2, NotRefused]
          · rw [hh] at h0; cases h0
        | none =>
          simp only [hh, Bool.true_eq_false, if_false]
          cases LevIndex.new m.os with
          | error f => simp [NotRefused]
          | ok ix =>
            simp only
            rcases insertWordHeap_cases heap (k2 + 2) ix w id with ⟨f, e1, e2⟩ | ⟨ix', k', e1, e2⟩ | ⟨ix', e1, _, _, h0, e2⟩
            · simp [e2, NotRefused]
            · simp [e2, NotRefused]
            · rw [hh] at h0; cases h0
      generalize Matcher.addToIndexHeap heap k2 { m with store := s, stats := MatcherStatistics.wordProcessed m.stats id } w id i = r at ha
      obtain ⟨m', r⟩ := r
      rcases r with (p | f) | k3
      · exact absurd rfl (ha p)
      · simp [NotRefused]
      · simp only
        rcases addHeap_cases heap k3 m'.reverseIndex id i d with ⟨k4, e4⟩ | ⟨k4, h0, e4⟩ | ⟨k4, h0, _, e4⟩
        · simp [e4, NotRefused]
        · rw [hh] at h0; cases h0
        · rw [hh] at h0; cases h0
    · rw [hh] at h0; cases h0
  · rw [hh] at h0; cases h0

theorem indexWordsHeap_granted (d : DocumentID) (i : WordID) (ws : WordList) : ∀ (k : Nat) (m : Matcher),
    NotRefused (m.indexWordsHeap heap k d i ws) := by
  induction ws with
  | nil => intro k m; simp [Matcher.indexWordsHeap, NotRefused]
  | cons w ws ih =>
    intro k m
    rw [Matcher.indexWordsHeap]
    have ha := indexWordHeap_granted heap hh k d i m w
    generalize m.indexWordHeap heap k d i w = r at ha
    obtain ⟨m', r⟩ := r
    rcases r with (p | f) | k3
    · exact absurd rfl (ha p)
    · simp [NotRefused]
    · exact ih k3 m'

theorem indexFieldsHeap_granted (d : Document) (fs : WordList) : ∀ (k : Nat) (m : Matcher),
    NotRefused (m.indexFieldsHeap heap k d fs) := by
  induction fs with
  | nil => intro k m; simp [Matcher.indexFieldsHeap, NotRefused]
  | cons f fs ih =>
    intro k m
    rw [Matcher.indexFieldsHeap]
    rcases getIDHeap_cases heap k m.store f with ⟨x, e1, e2⟩ | ⟨s, id, k', e1, e2⟩ | ⟨s, id, e1, _, h0, e2⟩
    · simp [e2, NotRefused]
    · simp only [e2, hh, Bool.true_eq_false, and_false, if_false]
      cases d.getText f with
      | error x => simp [NotRefused]
      | ok text =>
        simp only
        generalize (if (SMap.find Matcher.ltDW m.originalSizes (d.id, id)).isNone = true then k' + 1 else k') = k2
        have ha := indexWordsHeap_granted heap hh d.id id text k2
          { m with store := s, originalSizes := SMap.set Matcher.ltDW m.originalSizes (d.id, id) text.length }
        generalize Matcher.indexWordsHeap heap k2 d.id id
          { m with store := s, originalSizes := SMap.set Matcher.ltDW m.originalSizes (d.id, id) text.length } text = r at ha
        obtain ⟨m', r⟩ := r
        rcases r with (p | x) | k3
        · exact absurd rfl (ha p)
        · simp [NotRefused]
        · exact ih k3 m'
    · rw [hh] at h0; cases h0

theorem indexHeap_granted (c : Corpus) : ∀ (k : Nat) (m : Matcher), NotRefused (m.indexHeap heap k c) := by
  induction c with
  | nil => intro k m; simp [Matcher.indexHeap, NotRefused]
  | cons d c ih =>
    intro k m
    rw [Matcher.indexHeap]
    simp only [hh, Bool.true_eq_false, if_false]
    have ha := indexFieldsHeap_granted heap hh d d.getFieldNames (k + 1) m
    generalize m.indexFieldsHeap heap (k + 1) d d.getFieldNames = r at ha
    obtain ⟨m', r⟩ := r
    rcases r with (p | x) | k3
    · exact absurd rfl (ha p)
    · simp [NotRefused]
    · exact ih k3 m'

end

/-! ### Matchers that were refused memory -/

/-- Postings noted. -/
def Posted (ri : ReverseIndex) (P : MatcherHistory) (names : List Word) : Prop :=
  ∀ i j d, d ∈ docsOf ri i j ↔ ∃ f w, names[i]? = some f ∧ names[j]? = some w ∧ P.Posting d f w

/-- The matcher has counted `C` and noted the documents of `D`; the statistics may say anything. -/
structure Standing [Build] [Icu] (m : Matcher) (C D : MatcherHistory) (names : List Word) : Prop where
  base : ∃ ri st, MInv { m with reverseIndex := ri, stats := st } C names
  post : Posted m.reverseIndex D names
  docs : ∀ i j, (docsOf m.reverseIndex i j).Nodup
  sub : ∀ d f w, D.Posting d f w → C.Posting d f w

section
variable [Build] [Icu] {m : Matcher} {C D : MatcherHistory} {names : List Word}

theorem MInv.standing (h : MInv m C names) : Standing m C C names :=
  ⟨⟨m.reverseIndex, m.stats, h⟩, h.post, h.docs, fun _ _ _ h => h⟩

namespace Standing

theorem store (h : Standing m C D names) : Names m.store m.os names := by
  obtain ⟨_, _, hb⟩ := h.base; exact hb.store

theorem known (h : Standing m C D names) : ∀ w ∈ C.mentions, w ∈ names := by
  obtain ⟨_, _, hb⟩ := h.base; exact hb.known

theorem stats (h : Standing m C D names) (st : MatcherStatistics) : Standing { m with stats := st } C D names :=
  ⟨h.base, h.post, h.docs, h.sub⟩

theorem noted (h : Standing m C D names) {w : Word} {s : WordStore} (hs : Names s m.os (note names w)) :
    Standing { m with store := s } C D (note names w) := by
  have hk := h.known
  have hp := note_prefix names w
  have old : ∀ {i : Nat} {v : Word}, (note names w)[i]? = some v → v ∈ names → names[i]? = some v := by
    intro i v hi hv
    have h1 := getElem?_prefix hp (getElem?_idxOf hv)
    have h2 := hs.idx hi
    have h3 := hs.idx h1
    rw [← h2, h3]; exact getElem?_idxOf hv
  obtain ⟨ri, st, hb⟩ := h.base
  refine ⟨⟨ri, st, hb.noted hs⟩, ?_, h.docs, h.sub⟩
  intro i j d
  refine (h.post i j d).trans ⟨?_, ?_⟩
  · rintro ⟨f, v, h1, h2, h3⟩; exact ⟨f, v, getElem?_prefix hp h1, getElem?_prefix hp h2, h3⟩
  · rintro ⟨f, v, h1, h2, h3⟩
    exact ⟨f, v, old h1 (hk _ (h.sub _ _ _ h3).field), old h2 (hk _ (h.sub _ _ _ h3).word), h3⟩

theorem start (h : Standing m C D names) {f : Word} (hf : f ∈ names) (d : DocumentID) (n : Nat) :
    Standing { m with originalSizes := SMap.set Matcher.ltDW m.originalSizes (d, names.idxOf f) n }
      (C ++ [⟨d, f, n, []⟩]) (D ++ [⟨d, f, n, []⟩]) names := by
  have hpo : ∀ (H : MatcherHistory) d' f' w, MatcherHistory.Posting (H ++ [⟨d, f, n, []⟩]) d' f' w ↔ H.Posting d' f' w := by
    intro H d' f' w
    rw [MatcherHistory.posting_append, MatcherHistory.posting_single]; simp
  obtain ⟨ri, st, hb⟩ := h.base
  refine ⟨⟨ri, st, hb.start hf d n⟩, ?_, h.docs, ?_⟩
  · intro i j d'
    simp only [hpo]
    exact h.post i j d'
  · intro d' f' w; rw [hpo, hpo]; exact h.sub d' f' w

end Standing

omit [Build] [Icu] in
theorem posting_snoc (H : MatcherHistory) (d : DocumentID) (f : Word) (n : Nat) (done : WordList) (w : Word) (d' : DocumentID)
    (f' v : Word) : MatcherHistory.Posting (H ++ [⟨d, f, n, done ++ [w]⟩]) d' f' v ↔
      MatcherHistory.Posting (H ++ [⟨d, f, n, done⟩]) d' f' v ∨ (d = d' ∧ f = f' ∧ v = w) := by
  rw [MatcherHistory.posting_append, MatcherHistory.posting_append, MatcherHistory.posting_single,
    MatcherHistory.posting_single]
  simp only [List.mem_append, List.mem_singleton]
  constructor
  · rintro (a | ⟨a, b, c | c⟩)
    · exact Or.inl (Or.inl a)
    · exact Or.inl (Or.inr ⟨a, b, c⟩)
    · exact Or.inr ⟨a, b, c⟩
  · rintro ((a | ⟨a, b, c⟩) | ⟨a, b, c⟩)
    · exact Or.inl a
    · exact Or.inr ⟨a, b, Or.inl c⟩
    · exact Or.inr ⟨a, b, Or.inr c⟩

omit [Build] [Icu] in
theorem Posted.add {s : WordStore} {os : Nat → Bool} {ri : ReverseIndex} {H : MatcherHistory} {d : DocumentID} {f : Word} {n : Nat}
    {done : WordList} {w : Word} (hn : Names s os names) (h : Posted ri (H ++ [⟨d, f, n, done⟩]) names) (hf : f ∈ names)
    (hw : w ∈ names) :
    Posted (ReverseIndex.add ri (names.idxOf w) (names.idxOf f) d) (H ++ [⟨d, f, n, done ++ [w]⟩]) names := by
  intro i j d'
  rw [docsOf_add]
  simp only [posting_snoc]
  split
  · rename_i hij
    obtain ⟨rfl, rfl⟩ := hij
    rw [mem_hsetInsert, h]
    constructor
    · rintro (⟨f', v, a, b, c⟩ | rfl)
      · exact ⟨f', v, a, b, Or.inl c⟩
      · exact ⟨f, w, getElem?_idxOf hf, getElem?_idxOf hw, Or.inr ⟨rfl, rfl, rfl⟩⟩
    · rintro ⟨f', v, a, b, c | ⟨rfl, _, _⟩⟩
      · exact Or.inl ⟨f', v, a, b, c⟩
      · exact Or.inr rfl
  · rename_i hij
    rw [h]
    constructor
    · rintro ⟨f', v, a, b, c⟩; exact ⟨f', v, a, b, Or.inl c⟩
    · rintro ⟨f', v, a, b, c | ⟨_, rfl, rfl⟩⟩
      · exact ⟨f', v, a, b, c⟩
      · exact absurd ⟨hn.idx a, hn.idx b⟩ hij

omit [Build] [Icu] in
theorem docsOf_emptied {ri : ReverseIndex} {i w : WordID} (h : HMap.find ri (i, w) = none) (i' w' : WordID) :
    docsOf (HMap.set ri (i, w) []) i' w' = docsOf ri i' w' := by
  unfold docsOf
  rw [HMap.find_set]
  split
  · rename_i e; rw [← e, h]; rfl
  · rfl

/-- How one more word ends. -/
theorem Standing.indexWord {heap : Heap} {d : DocumentID} {f : Word} {n : Nat} {done : WordList}
    (h : Standing m (C ++ [⟨d, f, n, done⟩]) (D ++ [⟨d, f, n, done⟩]) names) {w : Word} (hu : Usable w) (k : Nat) :
    (∃ m' names' k', m.indexWordHeap heap k d (names.idxOf f) w = (m', .ok k') ∧ names <+: names' ∧
      Standing m' (C ++ [⟨d, f, n, done ++ [w]⟩]) (D ++ [⟨d, f, n, done ++ [w]⟩]) names' ∧ m'.e = m.e ∧ m'.weights = m.weights) ∨
    (∃ m' names' s c, m.indexWordHeap heap k d (names.idxOf f) w = (m', .error s) ∧ Stop.Harmless s ∧ (c = done ∨ c = done ++ [w]) ∧
      Standing m' (C ++ [⟨d, f, n, c⟩]) (D ++ [⟨d, f, n, done⟩]) names' ∧ m'.e = m.e ∧ m'.weights = m.weights) ∨
    (∃ m' s, m.indexWordHeap heap k d (names.idxOf f) w = (m', .error s) ∧
      (s = .fault .runtimeError ∨ s = .refused .identifier ∨ s = .refused .count)) := by
  have hf : f ∈ names := h.known f (MatcherHistory.mem_mentions.2 ⟨⟨d, f, n, done⟩, by simp, Or.inl rfl⟩)
  unfold Matcher.indexWordHeap
  rcases getIDHeap_cases heap k m.store w with ⟨x, e1, e2⟩ | ⟨s, id, k', e1, e2⟩ | ⟨s, id, e1, _, _, e2⟩
  · rcases h.store.getID hu with ⟨rfl, e⟩ | ⟨_, e, hr⟩ | ⟨hne, s', e, hs⟩
    · rw [e] at e1; injection e1 with e1; subst e1
      right; left
      refine ⟨m, names, .fault .outOfRange, done, by simp only [e2]; rfl, rfl, Or.inl rfl, h, rfl, rfl⟩
    · rw [e] at e1; injection e1 with e1; subst e1
      right; right
      exact ⟨_, .fault .runtimeError, by simp only [e2]; rfl, Or.inl rfl⟩
    · rw [e] at e1; cases e1
  · obtain ⟨e3, hs⟩ : id = (note names w).idxOf w ∧ Names s m.os (note names w) := by
      rcases h.store.getID hu with ⟨rfl, e⟩ | ⟨_, e, hr⟩ | ⟨hne, s', e, hs⟩
      · rw [e] at e1; cases e1
      · rw [e] at e1; cases e1
      · rw [e] at e1; injection e1 with e1; injection e1 with e1 e3; subst e1; exact ⟨e3.symm, hs⟩
    subst e3
    have h1 := h.noted hs
    have hidx : names.idxOf f = (note names w).idxOf f := (idxOf_prefix (note_prefix _ _) hf).symm
    have hf' : f ∈ note names w := mem_note.2 (Or.inl hf)
    have hw : w ∈ note names w := mem_note.2 (Or.inr rfl)
    rw [hidx]
    simp only [e2]
    rcases wordProcessedHeap_cases heap k' m.stats ((note names w).idxOf w) with ⟨k2, e3⟩ | ⟨_, e3⟩
    · simp only [e3]
      generalize hst : MatcherStatistics.wordProcessed m.stats ((note names w).idxOf w) = st
      obtain ⟨ri, st0, hb⟩ := h1.base
      have key : (∃ m', Matcher.addToIndex { m with store := s, stats := st } w ((note names w).idxOf w) ((note names w).idxOf f) =
            (m', some .runtimeError)) ∨
          ∃ ixs' ix', Matcher.addToIndex { m with store := s, stats := st } w ((note names w).idxOf w) ((note names w).idxOf f) =
            ({ m with store := s, indexes := ixs', stats := st }, none) ∧
          (ixs'.map (·.1)).Nodup ∧ (∀ k, HMap.find ixs' k = if (note names w).idxOf f = k then some ix' else HMap.find m.indexes k) ∧
          IxInv m.os (note names w) (C ++ [⟨d, f, n, done ++ [w]⟩]) f ix' := by
        have frame : Matcher.addToIndex { m with store := s, stats := st } w ((note names w).idxOf w) ((note names w).idxOf f) =
            (let r := Matcher.addToIndex { m with store := s, reverseIndex := ri, stats := st } w ((note names w).idxOf w) ((note names w).idxOf f)
             ({ r.1 with reverseIndex := m.reverseIndex }, r.2)) := by
          unfold Matcher.addToIndex
          simp only
          cases HMap.find m.indexes ((note names w).idxOf f) with
          | some ix =>
            simp only
            cases ix.insertWord w ((note names w).idxOf w) <;> rfl
          | none =>
            simp only
            cases LevIndex.new m.os with
            | error x => rfl
            | ok ix =>
              simp only
              cases ix.insertWord w ((note names w).idxOf w) <;> rfl
        rcases hb.addToIndex hw st with ⟨m', e, _, _⟩ | ⟨ixs', ix', e, hk, hfind, hix⟩
        · left; exact ⟨_, by rw [frame]; simp only [e]; rfl⟩
        · right; exact ⟨ixs', ix', by rw [frame]; simp only [e], hk, hfind, hix⟩
      have ha := addToIndexHeap_agrees heap k2 { m with store := s, stats := st } w ((note names w).idxOf w) ((note names w).idxOf f)
      generalize hr : Matcher.addToIndexHeap heap k2 { m with store := s, stats := st } w ((note names w).idxOf w) ((note names w).idxOf f) = r at ha
      obtain ⟨m', r⟩ := r
      rcases r with (p | x) | k3
      · -- refused
        by_cases hpc : p = .count
        · right; right
          exact ⟨m', _, rfl, Or.inr (Or.inr (by rw [hpc]))⟩
        · right; left
          have : m' = { m with store := s, stats := st } ∧ p ≠ .identifier := by
            unfold Matcher.addToIndexHeap at hr
            simp only at hr
            cases hx : HMap.find m.indexes ((note names w).idxOf f) with
            | some ix =>
              rw [hx] at hr
              rcases insertWordHeap_cases heap k2 ix w ((note names w).idxOf w) with ⟨x, _, e5⟩ | ⟨ix', k', _, e5⟩ | ⟨ix', _, _, _, _, e5⟩
              · simp [e5] at hr
              · simp [e5] at hr
              · simp [e5] at hr; exact absurd hr.2.symm hpc
            | none =>
              rw [hx] at hr
              simp only at hr
              by_cases hh : heap k2 = false
              · rw [if_pos hh] at hr
                injection hr with a b; injection b with b; injection b with b
                exact ⟨a.symm, by rw [← b]; decide⟩
              · rw [if_neg hh] at hr
                cases hl : LevIndex.new m.os with
                | error x => rw [hl] at hr; simp at hr
                | ok ix =>
                  rw [hl] at hr
                  simp only at hr
                  by_cases hh2 : heap (k2 + 1) = false
                  · rw [if_pos hh2] at hr
                    injection hr with a b; injection b with b; injection b with b
                    exact ⟨a.symm, by rw [← b]; decide⟩
                  · rw [if_neg hh2] at hr
                    rcases insertWordHeap_cases heap (k2 + 2) ix w ((note names w).idxOf w) with ⟨x, _, e5⟩ | ⟨ix', k', _, e5⟩ | ⟨ix', _, _, _, _, e5⟩
                    · simp [e5] at hr
                    · simp [e5] at hr
                    · simp [e5] at hr; exact absurd hr.2.symm hpc
          obtain ⟨rfl, hpi⟩ := this
          exact ⟨{ m with store := s, stats := st }, note names w, .refused p, done, rfl, ⟨hpi, hpc⟩, Or.inl rfl, h1.stats st, rfl, rfl⟩
      · -- fault
        simp only [Agrees] at ha
        rcases key with ⟨m2, e4⟩ | ⟨ixs', ix', e4, _⟩
        · rw [e4] at ha; injection ha with _ ha; injection ha with ha
          right; right
          exact ⟨m', _, rfl, Or.inl (by rw [ha])⟩
        · rw [e4] at ha; injection ha with _ ha; cases ha
      · -- ok
        simp only [Agrees] at ha
        rcases key with ⟨m2, e4⟩ | ⟨ixs', ix', e4, hk, hfind, hix⟩
        · rw [e4] at ha; injection ha with _ ha; cases ha
        rw [e4] at ha; injection ha with ha _; subst ha
        have hbw := hb.word hw hk hfind hix
        simp only
        rcases addHeap_cases heap k3 m.reverseIndex ((note names w).idxOf w) ((note names w).idxOf f) d with
          ⟨k4, e5⟩ | ⟨k4, _, e5⟩ | ⟨k4, _, e6, e5⟩
        · left
          refine ⟨{ m with store := s, indexes := ixs', stats := st, reverseIndex := ReverseIndex.add m.reverseIndex ((note names w).idxOf w) ((note names w).idxOf f) d },
            note names w, k4, by simp only [e5], note_prefix _ _, ⟨⟨_, _, hbw⟩, ?_, ?_, ?_⟩, rfl, rfl⟩
          · exact Posted.add h1.store h1.post hf' hw
          · intro i j
            show (docsOf (ReverseIndex.add m.reverseIndex _ _ d) i j).Nodup
            rw [docsOf_add]
            split
            · exact nodup_hsetInsert (h1.docs _ _) d
            · exact h1.docs i j
          · intro d' f' v
            rw [posting_snoc, posting_snoc]
            rintro (a | a)
            · exact Or.inl (h1.sub _ _ _ a)
            · exact Or.inr a
        · right; left
          refine ⟨{ m with store := s, indexes := ixs', stats := st }, note names w, .refused .posting, done ++ [w], by simp only [e5], ⟨by decide, by decide⟩, Or.inr rfl,
            ⟨⟨_, _, hbw⟩, h1.post, h1.docs, ?_⟩, rfl, rfl⟩
          intro d' f' v a
          rw [posting_snoc]; exact Or.inl (h1.sub _ _ _ a)
        · right; left
          refine ⟨{ m with store := s, indexes := ixs', stats := st, reverseIndex := HMap.set m.reverseIndex ((note names w).idxOf f, (note names w).idxOf w) [] },
            note names w, .refused .posting, done ++ [w], by simp only [e5], ⟨by decide, by decide⟩, Or.inr rfl,
            ⟨⟨_, _, hbw⟩, ?_, ?_, ?_⟩, rfl, rfl⟩
          · intro i j d'
            show d' ∈ docsOf (HMap.set m.reverseIndex _ []) i j ↔ _
            rw [docsOf_emptied e6]; exact h1.post i j d'
          · intro i j
            show (docsOf (HMap.set m.reverseIndex _ []) i j).Nodup
            rw [docsOf_emptied e6]; exact h1.docs i j
          · intro d' f' v a
            rw [posting_snoc]; exact Or.inl (h1.sub _ _ _ a)
    · right; left
      refine ⟨{ m with store := s }, note names w, .refused .statistics, done, by simp only [e3], ⟨by decide, by decide⟩, Or.inl rfl, h1, rfl, rfl⟩
  · right; right
    exact ⟨_, .refused .identifier, by simp only [e2]; rfl, Or.inr (Or.inl rfl)⟩

end
end Columbus
