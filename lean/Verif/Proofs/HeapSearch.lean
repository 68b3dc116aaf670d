import Verif.Model.HeapSearch
import Verif.Proofs.Heap
import Verif.Proofs.MatcherFilter
/-
Searching when memory may be refused: the loops of `Verif.Model.HeapSearch` end as those of the model without refusals,
or at a refused request; and what they leave in the store.
-/

namespace Columbus
open Spec
variable [Build] [Runtime] {heap : Heap}

/-- The end `out` of a loop is that of the loop without refusals, `out'`, or a refusal. -/
def Either {α : Type} (heap : Heap) (out : WordStore × Except SearchStop (α × Nat)) (out' : WordStore × M α) : Prop :=
  (∃ s a k, out = (s, .ok (a, k)) ∧ out' = (s, .ok a)) ∨
  (∃ s f, out = (s, .error (.fault f)) ∧ out' = (s, .error f)) ∨
  (∃ s n, heap n = false ∧ (out = (s, .error .work) ∨ out = (s, .error .identifier)))

theorem getIDsHeap_either (k : Nat) (s : WordStore) (v f : Word) :
    Either heap (Matcher.getIDsHeap heap k s v f) (Matcher.getIDs s v f) := by
  unfold Matcher.getIDsHeap Matcher.getIDs
  dsimp only
  generalize (if Runtime.valueFirst then v else f) = first
  generalize (if Runtime.valueFirst then f else v) = second
  rcases getIDHeap_cases (heap := heap) k s first with ⟨f1, e1, e2⟩ | ⟨s1, a, k1, e1, e2⟩ | ⟨s1, a, e1, -, hk, e2⟩
  · rw [e1, e2]; exact Or.inr (Or.inl ⟨_, _, rfl, rfl⟩)
  · rw [e1, e2]
    dsimp only
    rcases getIDHeap_cases (heap := heap) k1 s1 second with ⟨f1, e3, e4⟩ | ⟨s2, b, k2, e3, e4⟩ | ⟨s2, b, e3, -, hk, e4⟩
    · rw [e3, e4]; exact Or.inr (Or.inl ⟨_, _, rfl, rfl⟩)
    · rw [e3, e4]; exact Or.inl ⟨_, _, _, rfl, rfl⟩
    · rw [e4]; exact Or.inr (Or.inr ⟨_, _, hk, Or.inr rfl⟩)
  · rw [e2]; exact Or.inr (Or.inr ⟨_, _, hk, Or.inr rfl⟩)

theorem subtermLoopHeap_either (ri : ReverseIndex) (filter : ResultFilter) (term : Nat) (id : DocumentID) (l : List Nat) :
    ∀ (k : Nat) (s : WordStore), Either heap (Matcher.subtermLoopHeap heap ri filter term id k s l)
      (Matcher.subtermLoop ri filter term id s l) := by
  induction l with
  | nil => intro k s; exact Or.inl ⟨_, _, _, rfl, rfl⟩
  | cons st r ih =>
    intro k s
    unfold Matcher.subtermLoopHeap Matcher.subtermLoop
    cases filter.getField term st with
    | error f => exact Or.inr (Or.inl ⟨_, _, rfl, rfl⟩)
    | ok n =>
      dsimp only
      cases filter.getWord term st with
      | error f => exact Or.inr (Or.inl ⟨_, _, rfl, rfl⟩)
      | ok v =>
        dsimp only
        rcases getIDsHeap_either (heap := heap) k s v n with ⟨s1, a, k1, e1, e2⟩ | ⟨s1, f, e1, e2⟩ | ⟨s1, n', hn, e1 | e1⟩
        · rw [e1, e2]
          dsimp only
          split
          · exact ih _ _
          · exact Or.inl ⟨_, _, _, rfl, rfl⟩
        · rw [e1, e2]; exact Or.inr (Or.inl ⟨_, _, rfl, rfl⟩)
        · rw [e1]; exact Or.inr (Or.inr ⟨_, _, hn, Or.inl rfl⟩)
        · rw [e1]; exact Or.inr (Or.inr ⟨_, _, hn, Or.inr rfl⟩)

theorem subtermsMatchHeap_either (ri : ReverseIndex) (filter : ResultFilter) (term : Nat) (id : DocumentID) (k : Nat)
    (s : WordStore) : Either heap (Matcher.subtermsMatchHeap heap ri filter term id k s)
      (Matcher.subtermsMatch ri filter term id s) := by
  unfold Matcher.subtermsMatchHeap Matcher.subtermsMatch
  cases filter.numSubTerms term with
  | error f => exact Or.inr (Or.inl ⟨_, _, rfl, rfl⟩)
  | ok n => exact subtermLoopHeap_either ri filter term id _ k s

theorem termLoopHeap_either (ri : ReverseIndex) (filter : ResultFilter) (id : DocumentID) (l : List Nat) :
    ∀ (k : Nat) (s : WordStore), Either heap (Matcher.termLoopHeap heap ri filter id k s l)
      (Matcher.termLoop ri filter id s l) := by
  induction l with
  | nil => intro k s; exact Or.inl ⟨_, _, _, rfl, rfl⟩
  | cons t ts ih =>
    intro k s
    unfold Matcher.termLoopHeap Matcher.termLoop
    rcases subtermsMatchHeap_either (heap := heap) ri filter t id k s with
      ⟨s1, a, k1, e1, e2⟩ | ⟨s1, f, e1, e2⟩ | ⟨s1, n', hn, e1 | e1⟩
    · rw [e1, e2]
      cases a with
      | true => exact Or.inl ⟨_, _, _, rfl, rfl⟩
      | false => exact ih _ _
    · rw [e1, e2]; exact Or.inr (Or.inl ⟨_, _, rfl, rfl⟩)
    · rw [e1]; exact Or.inr (Or.inr ⟨_, _, hn, Or.inl rfl⟩)
    · rw [e1]; exact Or.inr (Or.inr ⟨_, _, hn, Or.inr rfl⟩)

theorem filterLoopHeap_either (ri : ReverseIndex) (filter : ResultFilter) (l : List Nat) :
    ∀ (k : Nat) (s : WordStore) (all matched : MatchResults),
      Either heap (Matcher.filterLoopHeap heap ri filter k s all matched l) (Matcher.filterLoop ri filter s all matched l) := by
  induction l with
  | nil => intro k s all matched; exact Or.inl ⟨_, _, _, rfl, rfl⟩
  | cons i is ih =>
    intro k s all matched
    unfold Matcher.filterLoopHeap Matcher.filterLoop
    cases all.getDocumentID i with
    | error f => exact Or.inr (Or.inl ⟨_, _, rfl, rfl⟩)
    | ok x =>
      obtain ⟨all1, id⟩ := x
      dsimp only
      rcases termLoopHeap_either (heap := heap) ri filter id (List.range filter.numTerms) k s with
        ⟨s1, a, k1, e1, e2⟩ | ⟨s1, f, e1, e2⟩ | ⟨s1, n', hn, e1 | e1⟩
      · rw [e1, e2]
        cases a with
        | false => exact ih _ _ _ _
        | true =>
          dsimp only
          cases matched.copyResult all1 i with
          | error f => exact Or.inr (Or.inl ⟨_, _, rfl, rfl⟩)
          | ok m1 =>
            dsimp only
            by_cases hk : heap k1 = true
            · rw [if_pos hk]; exact ih _ _ _ _
            · rw [if_neg hk]
              exact Or.inr (Or.inr ⟨_, k1, by simpa using hk, Or.inl rfl⟩)
      · rw [e1, e2]; exact Or.inr (Or.inl ⟨_, _, rfl, rfl⟩)
      · rw [e1]; exact Or.inr (Or.inr ⟨_, _, hn, Or.inl rfl⟩)
      · rw [e1]; exact Or.inr (Or.inr ⟨_, _, hn, Or.inr rfl⟩)

/-! What is left in the store. -/
section
variable [Icu] {m : Matcher} {H : MatcherHistory} {names : List Word}

/-- The store after a loop, unless an identifier was refused or the memory of a trie. -/
def Kept {α : Type} (m : Matcher) (H : MatcherHistory) (names ws : List Word)
    (out : WordStore × Except SearchStop α) : Prop :=
  out.2 = .error .identifier ∨ out.2 = .error (.fault .runtimeError) ∨ ∃ names', Grown m H names ws out.1 names'

omit [Runtime] in
theorem Grown.getIDHeap {ws : List Word} {s : WordStore} {names' : List Word} (h : Grown m H names ws s names') {w : Word}
    (hw : w ∈ ws) (hu : Usable w) (k : Nat) :
    (∃ s' e, s.getIDHeap heap k w = (s', .error e) ∧ Kept (α := Nat) m H names ws (s', .error e.inSearch)) ∨
    ∃ s' a k' names'', s.getIDHeap heap k w = (s', .ok (a, k')) ∧ Grown m H names ws s' names'' := by
  rcases getIDHeap_cases (heap := heap) k s w with ⟨f, e1, e2⟩ | ⟨s1, a, k1, e1, e2⟩ | ⟨s1, a, e1, -, hk, e2⟩
  · left
    refine ⟨_, _, e2, ?_⟩
    rcases h.getID_cases hw hu with ⟨-, e3, -⟩ | ⟨-, e3⟩ | ⟨-, s', n, e3, -⟩
    · rw [e1] at e3; injection e3 with e3; subst e3; exact Or.inr (Or.inl rfl)
    · rw [e1] at e3; injection e3 with e3; subst e3; exact Or.inr (Or.inr ⟨names', h⟩)
    · rw [e1] at e3; cases e3
  · right
    rcases h.getID_cases hw hu with ⟨-, e3, -⟩ | ⟨-, e3⟩ | ⟨-, s', n, e3, hg, -⟩
    · rw [e1] at e3; cases e3
    · rw [e1] at e3; cases e3
    · rw [e1] at e3; injection e3 with e3; injection e3 with e3 _; subst e3
      exact ⟨_, _, _, n, e2, hg⟩
  · exact Or.inl ⟨_, _, e2, Or.inl rfl⟩

omit [Runtime] in
theorem Kept.cast {α β : Type} {ws : List Word} {s : WordStore} {e : SearchStop}
    (h : Kept (α := α) m H names ws (s, .error e)) : Kept (α := β) m H names ws (s, .error e) := by
  rcases h with h | h | h
  · injection h with h; subst h; exact Or.inl rfl
  · injection h with h; subst h; exact Or.inr (Or.inl rfl)
  · exact Or.inr (Or.inr h)

/-- A loop that goes on keeps the store; one that stops leaves what `Kept` says. -/
def Goes {α : Type} (m : Matcher) (H : MatcherHistory) (names ws : List Word)
    (out : WordStore × Except SearchStop α) : Prop :=
  (∃ s e, out = (s, .error e) ∧ Kept (α := α) m H names ws (s, .error e)) ∨
  ∃ s a names', out = (s, .ok a) ∧ Grown m H names ws s names'

omit [Runtime] in
theorem Goes.kept {α : Type} {ws : List Word} {out : WordStore × Except SearchStop α} (h : Goes m H names ws out) :
    Kept m H names ws out := by
  rcases h with ⟨s, e, rfl, h⟩ | ⟨s, a, n, rfl, h⟩
  · exact h
  · exact Or.inr (Or.inr ⟨n, h⟩)

theorem Grown.getIDsHeap {ws : List Word} {s : WordStore} {names' : List Word} (h : Grown m H names ws s names') {v f : Word}
    (hv : v ∈ ws) (hf : f ∈ ws) (hu : ∀ w ∈ ws, Usable w) (k : Nat) :
    Goes m H names ws (Matcher.getIDsHeap heap k s v f) := by
  unfold Matcher.getIDsHeap
  dsimp only
  have h1 : (if Runtime.valueFirst then v else f) ∈ ws := by split <;> assumption
  have h2 : (if Runtime.valueFirst then f else v) ∈ ws := by split <;> assumption
  generalize (if Runtime.valueFirst then v else f) = first at h1
  generalize (if Runtime.valueFirst then f else v) = second at h2
  rcases h.getIDHeap (heap := heap) h1 (hu _ h1) k with ⟨s1, e, e1, hk⟩ | ⟨s1, a, k1, n1, e1, g1⟩
  · rw [e1]; exact Or.inl ⟨_, _, rfl, hk.cast⟩
  · rw [e1]
    dsimp only
    rcases g1.getIDHeap (heap := heap) h2 (hu _ h2) k1 with ⟨s2, e, e2, hk⟩ | ⟨s2, b, k2, n2, e2, g2⟩
    · rw [e2]; exact Or.inl ⟨_, _, rfl, hk.cast⟩
    · rw [e2]; exact Or.inr ⟨_, _, _, rfl, g2⟩

omit [Build] [Runtime] [Icu] in
theorem getPair_mem {f : ResultFilter} {t st : Nat} {p : Word × Word} (h : f.getPair t st = .ok p) :
    p.1 ∈ filterWords f ∧ p.2 ∈ filterWords f := by
  unfold ResultFilter.getPair at h
  split at h
  · cases h
  · rename_i x hx
    split at h
    · cases h
    · rename_i y hy
      injection h with h; subst h
      exact mem_filterWords (List.mem_of_getElem? hx) (List.mem_of_getElem? hy)

omit [Build] [Runtime] [Icu] in
theorem getField_mem {f : ResultFilter} {t st : Nat} {w : Word} (h : f.getField t st = .ok w) : w ∈ filterWords f := by
  unfold ResultFilter.getField at h
  cases hp : f.getPair t st with
  | error x => rw [hp] at h; cases h
  | ok p => rw [hp] at h; injection h with h; subst h; exact (getPair_mem hp).1

omit [Build] [Runtime] [Icu] in
theorem getWord_mem {f : ResultFilter} {t st : Nat} {w : Word} (h : f.getWord t st = .ok w) : w ∈ filterWords f := by
  unfold ResultFilter.getWord at h
  cases hp : f.getPair t st with
  | error x => rw [hp] at h; cases h
  | ok p => rw [hp] at h; injection h with h; subst h; exact (getPair_mem hp).2

variable {f : ResultFilter}

omit [Runtime] in
theorem Grown.stops {α : Type} {ws : List Word} {s : WordStore} {names' : List Word} (h : Grown m H names ws s names')
    (e : SearchStop) : Goes (α := α) m H names ws (s, .error e) :=
  Or.inl ⟨_, _, rfl, Or.inr (Or.inr ⟨names', h⟩)⟩

theorem Grown.subtermLoopHeap (hu : ∀ w ∈ filterWords f, Usable w) (ri : ReverseIndex) (t : Nat) (id : DocumentID)
    (l : List Nat) : ∀ {s : WordStore} {names' : List Word} (k : Nat), Grown m H names (filterWords f) s names' →
      Goes m H names (filterWords f) (Matcher.subtermLoopHeap heap ri f t id k s l) := by
  induction l with
  | nil => intro s n k h; exact Or.inr ⟨_, _, _, rfl, h⟩
  | cons st r ih =>
    intro s n k h
    unfold Matcher.subtermLoopHeap
    cases hf : f.getField t st with
    | error x => exact h.stops _
    | ok a =>
      dsimp only
      cases hw : f.getWord t st with
      | error x => exact h.stops _
      | ok b =>
        dsimp only
        rcases h.getIDsHeap (heap := heap) (getWord_mem hw) (getField_mem hf) hu k with ⟨s1, e, e1, hk⟩ | ⟨s1, x, n1, e1, g1⟩
        · rw [e1]; exact Or.inl ⟨_, _, rfl, hk.cast⟩
        · rw [e1]
          dsimp only
          split
          · exact ih _ g1
          · exact Or.inr ⟨_, _, _, rfl, g1⟩

theorem Grown.termLoopHeap (hu : ∀ w ∈ filterWords f, Usable w) (ri : ReverseIndex) (id : DocumentID)
    (l : List Nat) : ∀ {s : WordStore} {names' : List Word} (k : Nat), Grown m H names (filterWords f) s names' →
      Goes m H names (filterWords f) (Matcher.termLoopHeap heap ri f id k s l) := by
  induction l with
  | nil => intro s n k h; exact Or.inr ⟨_, _, _, rfl, h⟩
  | cons t ts ih =>
    intro s n k h
    unfold Matcher.termLoopHeap
    have h1 : Goes m H names (filterWords f) (Matcher.subtermsMatchHeap heap ri f t id k s) := by
      unfold Matcher.subtermsMatchHeap
      cases f.numSubTerms t with
      | error x => exact h.stops _
      | ok c => exact h.subtermLoopHeap hu ri t id _ k
    rcases h1 with ⟨s1, e, e1, hk⟩ | ⟨s1, ⟨a, k1⟩, n1, e1, g1⟩
    · rw [e1]; exact Or.inl ⟨_, _, rfl, hk.cast⟩
    · rw [e1]
      cases a with
      | true => exact Or.inr ⟨_, _, _, rfl, g1⟩
      | false => exact ih _ g1

theorem Grown.filterLoopHeap (hu : ∀ w ∈ filterWords f, Usable w) (ri : ReverseIndex)
    (l : List Nat) : ∀ {s : WordStore} {names' : List Word} (k : Nat) (all matched : MatchResults),
      Grown m H names (filterWords f) s names' →
      Goes m H names (filterWords f) (Matcher.filterLoopHeap heap ri f k s all matched l) := by
  induction l with
  | nil => intro s n k all matched h; exact Or.inr ⟨_, _, _, rfl, h⟩
  | cons i is ih =>
    intro s n k all matched h
    unfold Matcher.filterLoopHeap
    cases all.getDocumentID i with
    | error x => exact h.stops _
    | ok x =>
      obtain ⟨all1, id⟩ := x
      dsimp only
      rcases h.termLoopHeap (heap := heap) hu ri id (List.range f.numTerms) k with ⟨s1, e, e1, hk⟩ | ⟨s1, ⟨a, k1⟩, n1, e1, g1⟩
      · rw [e1]; exact Or.inl ⟨_, _, rfl, hk.cast⟩
      · rw [e1]
        cases a with
        | false => exact ih _ _ _ g1
        | true =>
          dsimp only
          cases matched.copyResult all1 i with
          | error x => exact g1.stops _
          | ok m1 =>
            dsimp only
            split
            · exact ih _ _ _ g1
            · exact g1.stops _

/-- The matcher after a search. -/
theorem MInv.matchHeap [Fp] (h : MInv m H names) {working : Bool} {k : Nat} {q : WordList} {p : SearchParameters}
    (hu : ∀ w ∈ filterWords p.filter, Usable w) {m' : Matcher} {r : Except SearchStop (MatchResults × Nat)}
    (e : Matcher.matchHeap working heap k m q p = (m', r)) (h1 : r ≠ .error .identifier)
    (h2 : r ≠ .error (.fault .runtimeError)) :
    ∃ s' names', m' = { m with store := s' } ∧ Grown m H names (filterWords p.filter) s' names' := by
  have h0 : Grown m H names (filterWords p.filter) m.store names := ⟨h, List.prefix_refl _, fun v hv => Or.inl hv⟩
  unfold Matcher.matchHeap at e
  split at e
  · injection e with e _; subst e; exact ⟨_, _, rfl, h0⟩
  split at e
  · injection e with e _; subst e; exact ⟨_, _, rfl, h0⟩
  split at e
  · injection e with e _; subst e; exact ⟨_, _, rfl, h0⟩
  · rename_i all _
    injection e with e e'
    rcases (h0.filterLoopHeap (heap := heap) hu m.reverseIndex (List.range all.size) k all .new).kept with x | x | ⟨n, x⟩
    · rw [e'] at x; exact absurd x h1
    · rw [e'] at x; exact absurd x h2
    · exact ⟨_, n, e.symm, x⟩

end
end Columbus
