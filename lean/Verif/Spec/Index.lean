import Verif.Model.Levenshtein
import Verif.Spec.Edit
/-
Specification of the word index: histories of insertions.
-/

namespace Columbus.Spec
open Columbus

/-- The insertions made so far: words with their identifiers. -/
abbrev IndexHistory := List (Word × WordID)

/-- What the interface asks of its caller. Words have no NUL letters and do not start with the second half of a
surrogate pair (true of every constructed `Word`). Identifiers are valid and belong to one word each, and each word has
one. -/
structure IndexHistory.Ok (h : IndexHistory) : Prop where
  noNul : ∀ p ∈ h, ∀ l ∈ p.1, l ≠ 0#16
  start : ∀ p ∈ h, ∀ l, p.1.head? = some l → isLowSurrogate l = false
  valid : ∀ p ∈ h, p.2 < INVALID_WORDID
  consistent : ∀ p ∈ h, ∀ r ∈ h, p.1 ≠ [] → r.1 ≠ [] → (p.1 = r.1 ↔ p.2 = r.2)

/-- Carry out the insertions. -/
def insertAll [Build] (ix : LevIndex) : IndexHistory → M LevIndex
  | [] => .ok ix
  | p :: r => do
    let ix ← ix.insertWord p.1 p.2
    insertAll ix r

/-- The index after a history of insertions. -/
def built [Build] (os : Nat → Bool) (h : IndexHistory) : M LevIndex := do
  let ix ← LevIndex.new os
  insertAll ix h

/-- How often an identifier was inserted with a non-empty word. -/
def IndexHistory.count (h : IndexHistory) (i : WordID) : Nat := h.countP fun p => !p.1.isEmpty && p.2 == i

/-- The word was inserted (the empty word never is). -/
def IndexHistory.Has (h : IndexHistory) (w : Word) (i : WordID) : Prop := w ≠ [] ∧ (w, i) ∈ h

/-- The prices configured by the settings, for a query of `n` letters. -/
def configured (e : ErrorValues) (n : Nat) : EditCosts where
  lead := e.getInsertionError
  ins := e.getInsertionError
  startIns := e.getStartInsertionError n
  endDel := e.getEndDeletionError
  del := e.getDeletionError
  trans := e.getTransposeError
  sub a b := match e.getSubstituteError a b with
    | .ok v => v
    | .error _ => 0

/-- Price sums along the inserted words and the query fit an `int`. -/
def Moderate (c : EditCosts) (q : Word) (h : IndexHistory) : Prop :=
  ∃ (B : Int) (L : Nat), c.Within B ∧ (∀ p ∈ h, p.1.length ≤ L) ∧
    ((L + q.length + 4 : Nat) : Int) * B + 10000 < 2147483648

end Columbus.Spec
