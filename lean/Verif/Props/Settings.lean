import Mathlib.Data.List.Induction
import Verif.Proofs.Settings
import Verif.Spec.Index
import Verif.Props.Example
/-
C80: the costs set are the costs used.
-/

namespace Columbus.Props
open Columbus Spec ErrorValues

/-- What a call sets the insertion cost to, if it does. -/
def setsInsertion : ErrOp → Option Int
  | .setInsertionError v => some v
  | _ => none

/-- What a call sets the deletion cost to, if it does. -/
def setsDeletion : ErrOp → Option Int
  | .setDeletionError v => some v
  | _ => none

/-- What a call sets the cost of letters missing at the end of the query to, if it does. -/
def setsEndDeletion : ErrOp → Option Int
  | .setEndDeletionError v => some v
  | .setSubstringMode => some 15
  | _ => none

/-- What a call sets the cost of letters missing at the start of the query to, if it does. -/
def setsStartInsertion : ErrOp → Option Int
  | .setStartInsertionError v => some v
  | .setSubstringMode => some 15
  | _ => none

/-- What a call sets the cost of a swap to, if it does. -/
def setsTranspose : ErrOp → Option Int
  | .setTransposeError v => some v
  | _ => none

/-- What a call sets the length to from which a query has the cheaper start, if it does. -/
def setsLimit : ErrOp → Option Nat
  | .setSubstringStartLimit n => some n
  | .setSubstringMode => some 3
  | _ => none

/-- The value set last, or else the one of a new object. -/
def lastOf {α : Type} (sets : ErrOp → Option α) (ops : List ErrOp) (start : α) : α := (ops.filterMap sets).getLastD start

theorem lastOf_snoc {α : Type} (sets : ErrOp → Option α) (ops : List ErrOp) (op : ErrOp) (start : α) :
    lastOf sets (ops ++ [op]) start = (sets op).getD (lastOf sets ops start) := by
  unfold lastOf
  rw [List.filterMap_append]
  cases h : sets op with
  | none => simp [h]
  | some v => simp [h]

/-- All settings at once. -/
theorem scal_afterOps [Build] [Icu] (ops : List ErrOp) : (afterOps ops).scal =
    (lastOf setsInsertion ops 100, lastOf setsDeletion ops 100, lastOf setsEndDeletion ops 100,
      lastOf setsStartInsertion ops 100, lastOf setsTranspose ops 100, lastOf setsLimit ops 0) := by
  induction ops using List.reverseRecOn with
  | nil => rfl
  | append_singleton ops op ih =>
    have e : afterOps (ops ++ [op]) = (op.run (afterOps ops)).1 := by simp [afterOps]
    rw [e]
    simp only [lastOf_snoc]
    have ih' := ih
    simp only [scal, Prod.mk.injEq] at ih'
    obtain ⟨i1, i2, i3, i4, i5, i6⟩ := ih'
    cases op with
    | setError a b v => exact scal_ofM _ ih _ (has_setError ih _ _ _)
    | setGroupError g v => exact scal_setGroupError _ ih _ _
    | clearErrors => exact ih
    | addAccents d greek => exact scal_addAccents d _ ih greek
    | addKeyboardErrors => 
      have h := scal_ofM _ ih _ (has_addKeyboardErrors _ ih)
      rw [ErrOp.run]
      exact h
    | addNumberpadErrors => 
      have h := scal_ofM _ ih _ (has_addNumberpadErrors _ ih)
      rw [ErrOp.run]
      exact h
    | addStandardErrors d => exact scal_addStandardErrors d _ ih
    | setSubstringMode =>
      simp only [ErrOp.run, setSubstringMode, scal, setsInsertion, setsDeletion, setsEndDeletion, setsStartInsertion,
        setsTranspose, setsLimit, Option.getD, Prod.mk.injEq]
      exact ⟨i1, i2, rfl, rfl, i5, rfl⟩
    | setInsertionError v =>
      simp only [ErrOp.run, setInsertionError, scal, setsInsertion, setsDeletion, setsEndDeletion, setsStartInsertion,
        setsTranspose, setsLimit, Option.getD, Prod.mk.injEq]
      exact ⟨trivial, i2, i3, i4, i5, i6⟩
    | setDeletionError v =>
      simp only [ErrOp.run, setDeletionError, scal, setsInsertion, setsDeletion, setsEndDeletion, setsStartInsertion,
        setsTranspose, setsLimit, Option.getD, Prod.mk.injEq]
      exact ⟨i1, trivial, i3, i4, i5, i6⟩
    | setEndDeletionError v =>
      simp only [ErrOp.run, setEndDeletionError, scal, setsInsertion, setsDeletion, setsEndDeletion, setsStartInsertion,
        setsTranspose, setsLimit, Option.getD, Prod.mk.injEq]
      exact ⟨i1, i2, trivial, i4, i5, i6⟩
    | setStartInsertionError v =>
      simp only [ErrOp.run, setStartInsertionError, scal, setsInsertion, setsDeletion, setsEndDeletion, setsStartInsertion,
        setsTranspose, setsLimit, Option.getD, Prod.mk.injEq]
      exact ⟨i1, i2, i3, trivial, i5, i6⟩
    | setTransposeError v =>
      simp only [ErrOp.run, setTransposeError, scal, setsInsertion, setsDeletion, setsEndDeletion, setsStartInsertion,
        setsTranspose, setsLimit, Option.getD, Prod.mk.injEq]
      exact ⟨i1, i2, i3, i4, trivial, i6⟩
    | setSubstringStartLimit n =>
      simp only [ErrOp.run, setSubstringStartLimit, scal, setsInsertion, setsDeletion, setsEndDeletion, setsStartInsertion,
        setsTranspose, setsLimit, Option.getD, Prod.mk.injEq]
      exact ⟨i1, i2, i3, i4, i5, trivial⟩

/-- C80. After any history of calls, with exceptions caught, each cost is the one set last, or 100. Substring mode sets
the costs at the two ends of the query to 15, and makes the start cheaper for queries of at least 3 letters. The other
calls, `clearErrors` among them, do not touch these costs. -/
theorem C80_settings [Build] [Icu] (ops : List ErrOp) (n : Nat) :
    (afterOps ops).getInsertionError = lastOf setsInsertion ops 100 ∧
    (afterOps ops).getDeletionError = lastOf setsDeletion ops 100 ∧
    (afterOps ops).getEndDeletionError = lastOf setsEndDeletion ops 100 ∧
    (afterOps ops).getTransposeError = lastOf setsTranspose ops 100 ∧
    (afterOps ops).getStartInsertionError n =
      if n < lastOf setsLimit ops 0 then lastOf setsInsertion ops 100 else lastOf setsStartInsertion ops 100 := by
  have h := scal_afterOps ops
  simp only [scal, Prod.mk.injEq] at h
  obtain ⟨h1, h2, h3, h4, h5, h6⟩ := h
  refine ⟨h1, h2, h3, h5, ?_⟩
  rw [getStartInsertionError, h1, h4, h6]
  by_cases hn : n < lastOf setsLimit ops 0
  · rw [if_pos hn, if_neg (by omega)]
  · rw [if_neg hn, if_pos (by omega)]

/-- A new object: every edit costs 100. -/
theorem C80_new [Build] [Icu] (n : Nat) : (afterOps []).getInsertionError = 100 ∧ (afterOps []).getDeletionError = 100 ∧
    (afterOps []).getEndDeletionError = 100 ∧ (afterOps []).getTransposeError = 100 ∧
    (afterOps []).getStartInsertionError n = 100 := by
  obtain ⟨h1, h2, h3, h4, h5⟩ := C80_settings [] n
  exact ⟨h1, h2, h3, h4, by rw [h5]; rfl⟩

/-- Costs set, overwritten, and kept by other calls. -/
example : let _ := Example.debug; let _ := Example.icu
    let ops : List ErrOp := [.setInsertionError 7, .setSubstringMode, .setTransposeError 8, .setEndDeletionError 9,
      .setInsertionError 10, .setError 0x61#16 0x62#16 1, .clearErrors]
    ((afterOps ops).getInsertionError, (afterOps ops).getDeletionError, (afterOps ops).getEndDeletionError,
      (afterOps ops).getTransposeError, (afterOps ops).getStartInsertionError 2, (afterOps ops).getStartInsertionError 3) =
    (10, 100, 9, 8, 10, 15) := by rfl

end Columbus.Props
