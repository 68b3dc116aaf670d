import Mathlib.Tactic.Linarith
import Mathlib.Tactic.Ring
import Verif.Model.Levenshtein
import Verif.Proofs.Basic
/-
C79: the table of partial costs as a class of its own.
-/

namespace Columbus.Props
open Columbus

/-- `set` on each (row, column, value) in turn; a call that throws `out_of_range` is caught and changes nothing. Whether
each call returned. -/
def setAll (em : ErrorMatrix) : List (Nat × Nat × Int) → ErrorMatrix × List Bool
  | [] => (em, [])
  | (r, c, e) :: ops => match em.set r c e with
    | .ok em' => ((setAll em' ops).1, true :: (setAll em' ops).2)
    | .error _ => ((setAll em ops).1, false :: (setAll em ops).2)

/-- The value set last at a position, if any. -/
def lastSet (r c : Nat) : List (Nat × Nat × Int) → Option Int
  | [] => none
  | (r', c', e) :: ops => match lastSet r c ops with
    | some v => some v
    | none => if r' = r ∧ c' = c then some e else none

theorem setAll_spec (em : ErrorMatrix) (ops : List (Nat × Nat × Int)) :
    (setAll em ops).1.rows = em.rows ∧ (setAll em ops).1.columns = em.columns ∧
    (setAll em ops).2 = ops.map (fun o => decide (o.1 ≤ em.rows ∧ o.2.1 ≤ em.columns)) ∧
    ∀ r c, r ≤ em.rows → c ≤ em.columns →
      (setAll em ops).1.m r c = (match lastSet r c ops with | some v => some v | none => em.m r c) := by
  induction ops generalizing em with
  | nil => simp [setAll, lastSet]
  | cons o ops ih =>
    obtain ⟨r0, c0, e⟩ := o
    by_cases hin : r0 ≤ em.rows ∧ c0 ≤ em.columns
    · have hs : em.set r0 c0 e =
          .ok { em with m := fun r' c' => if r' = r0 ∧ c' = c0 then some e else em.m r' c' } := by
        rw [ErrorMatrix.set, if_neg (by omega), if_neg (by omega)]
      obtain ⟨i1, i2, i3, i4⟩ := ih { em with m := fun r' c' => if r' = r0 ∧ c' = c0 then some e else em.m r' c' }
      simp only [setAll, hs]
      refine ⟨i1, i2, ?_, ?_⟩
      · rw [i3, List.map_cons, decide_eq_true hin]
      · intro r c hr hc
        rw [i4 r c hr hc, lastSet]
        cases lastSet r c ops with
        | some v => rfl
        | none =>
          by_cases hp : r = r0 ∧ c = c0
          · obtain ⟨rfl, rfl⟩ := hp; simp
          · have hp' : ¬ (r0 = r ∧ c0 = c) := fun h => hp ⟨h.1.symm, h.2.symm⟩
            simp [hp, hp']
    · have hs : em.set r0 c0 e = .error .outOfRange := by
        rw [ErrorMatrix.set]
        by_cases h1 : em.rows < r0
        · rw [if_pos h1]
        · rw [if_neg h1, if_pos (by omega)]
      obtain ⟨i1, i2, i3, i4⟩ := ih em
      simp only [setAll, hs]
      refine ⟨i1, i2, ?_, ?_⟩
      · rw [i3, List.map_cons, decide_eq_false hin]
      · intro r c hr hc
        rw [i4 r c hr hc, lastSet]
        cases lastSet r c ops with
        | some v => rfl
        | none =>
          have hp' : ¬ (r0 = r ∧ c0 = c) := by rintro ⟨rfl, rfl⟩; exact hin ⟨hr, hc⟩
          simp [hp']

theorem leftColumn_ok (d : Int) (rows : Nat) (h : ∀ i : Nat, i ≤ rows → -2^31 ≤ i * d ∧ i * d < 2^31) :
    ErrorMatrix.leftColumn 0 d rows = .ok (rows * d) := by
  induction rows with
  | zero => simp [ErrorMatrix.leftColumn]
  | succ n ih =>
    rw [ErrorMatrix.leftColumn, ih (fun i hi => h i (by omega)), ok_bind]
    have hh := h (n + 1) (Nat.le_refl _)
    have e : ((n + 1 : Nat) : Int) * d = n * d + d := by push_cast; ring
    rw [e] at hh ⊢
    rw [chk, if_pos hh]

/-- A new table. -/
def fresh (rows columns : Nat) (ins del : Int) : ErrorMatrix where
  rows := rows
  columns := columns
  m := fun r c => if r = 0 then some (wrap32 (c * ins)) else if c = 0 then some (0 + r * del) else none

/-- C79. A table of `rows + 1` times `columns + 1` cells, whose border values fit an `int`, is created with multiples of
the insertion cost in row 0 and of the deletion cost in column 0. After any sequence of `set` calls, each of which returns
exactly if the position is in the table and otherwise throws `out_of_range`, a cell has the value set last, or else its
border value; the others must not be read. -/
theorem C79_cells (rows columns : Nat) (ins del : Int)
    (hi : ∀ i : Nat, i ≤ columns → -2^31 ≤ i * ins ∧ i * ins < 2^31)
    (hd : ∀ i : Nat, i ≤ rows → -2^31 ≤ i * del ∧ i * del < 2^31) :
    ∃ em, ErrorMatrix.new rows columns ins del = .ok em ∧ ∀ ops : List (Nat × Nat × Int),
      (setAll em ops).2 = ops.map (fun o => decide (o.1 ≤ rows ∧ o.2.1 ≤ columns)) ∧
      (∀ r c e, ¬ (r ≤ rows ∧ c ≤ columns) → (setAll em ops).1.set r c e = .error .outOfRange) ∧
      ∀ r c, r ≤ rows → c ≤ columns →
        (∀ v, lastSet r c ops = some v → (setAll em ops).1.get r c = .ok v) ∧
        (lastSet r c ops = none → r = 0 → (setAll em ops).1.get r c = .ok (c * ins)) ∧
        (lastSet r c ops = none → c = 0 → (setAll em ops).1.get r c = .ok (r * del)) ∧
        (lastSet r c ops = none → 0 < r → 0 < c → (setAll em ops).1.get r c = .error .ub) := by
  have hw0 : wrap32 (((0 : Nat) : Int) * ins) = 0 := by simp [wrap32]
  have hw : ∀ c : Nat, c ≤ columns → wrap32 ((c : Int) * ins) = c * ins := by
    intro c hc
    have := hi c hc
    rw [wrap32, Int.emod_eq_of_lt (by linarith) (by linarith)]
    ring
  refine ⟨fresh rows columns ins del, by rw [ErrorMatrix.new, hw0, leftColumn_ok del rows hd]; rfl, ?_⟩
  intro ops
  obtain ⟨h1, h2, h3, h4⟩ := setAll_spec (fresh rows columns ins del) ops
  refine ⟨h3, ?_, ?_⟩
  · intro r c e ho
    have h1' : (setAll (fresh rows columns ins del) ops).1.rows = rows := h1
    have h2' : (setAll (fresh rows columns ins del) ops).1.columns = columns := h2
    unfold ErrorMatrix.set
    rw [h1', h2']
    by_cases hr : rows < r
    · rw [if_pos hr]
    · rw [if_neg hr, if_pos (by omega)]
  · intro r c hr hc
    have hm := h4 r c hr hc
    have hg : ∀ x, (setAll (fresh rows columns ins del) ops).1.m r c = x →
        (setAll (fresh rows columns ins del) ops).1.get r c = (match x with | some v => .ok v | none => .error .ub) := by
      rintro x rfl
      rw [ErrorMatrix.get, h1, h2, if_pos ⟨hr, hc⟩]
      rfl
    rw [hg _ hm]
    refine ⟨?_, ?_, ?_, ?_⟩
    · intro v hv; rw [hv]
    · intro hv h0; subst h0; rw [hv]; simp [fresh, hw c hc]
    · intro hv h0; subst h0; rw [hv]
      by_cases hr0 : r = 0
      · subst hr0; simp [fresh, wrap32]
      · simp [fresh, hr0]
    · intro hv hr0 hc0; rw [hv]
      simp [fresh, Nat.ne_of_gt hr0, Nat.ne_of_gt hc0]

/-- C79. `totalError` of a row is the cell in the last column but one; without columns it is read out of bounds. -/
theorem C79_total (em : ErrorMatrix) (r : Nat) :
    (∀ c v, em.columns = c + 1 → em.get r c = .ok v → em.totalError r = .ok v) ∧
    (em.columns = 0 → em.totalError r = .error .ub) := by
  constructor
  · intro c v hc hv
    rw [ErrorMatrix.totalError, idxSub, if_pos (by omega), ok_bind, hc]
    exact hv
  · intro hc
    rw [ErrorMatrix.totalError, idxSub, if_neg (by omega)]; rfl

theorem minLoop_spec (em : ErrorMatrix) (r : Nat) (row : Nat → Int) (is : List Nat)
    (h : ∀ i ∈ is, em.get r i = .ok (row i)) (x : Int) :
    ∃ v, em.minLoop r x is = .ok v ∧ v ≤ x ∧ (∀ i ∈ is, v ≤ row i) ∧ (v = x ∨ ∃ i ∈ is, v = row i) := by
  induction is generalizing x with
  | nil => exact ⟨x, rfl, Int.le_refl _, by simp, Or.inl rfl⟩
  | cons i is ih =>
    obtain ⟨v, e, hx, hv, hor⟩ := ih (fun j hj => h j (by simp [hj])) (if row i < x then row i else x)
    refine ⟨v, by rw [ErrorMatrix.minLoop, h i (by simp), ok_bind, e], ?_, ?_, ?_⟩
    · split at hx <;> omega
    · intro j hj
      rcases List.mem_cons.1 hj with rfl | hj
      · split at hx <;> omega
      · exact hv j hj
    · rcases hor with rfl | ⟨j, hj, rfl⟩
      · split
        · right; exact ⟨i, by simp, rfl⟩
        · left; rfl
      · right; exact ⟨j, by simp [hj], rfl⟩

/-- C79. `minError` of a row is its least value before the last column, if these cells have values. -/
theorem C79_min (em : ErrorMatrix) (r : Nat) (hc : 0 < em.columns) (row : Nat → Int)
    (h : ∀ c, c < em.columns → em.get r c = .ok (row c)) :
    ∃ v, em.minError r = .ok v ∧ (∀ c, c < em.columns → v ≤ row c) ∧ ∃ c, c < em.columns ∧ v = row c := by
  obtain ⟨v, e, hx, hv, hor⟩ := minLoop_spec em r row (List.range' 1 (em.columns - 1)) (by
    intro i hi
    rw [List.mem_range'_1] at hi
    exact h i (by omega)) (row 0)
  refine ⟨v, by rw [ErrorMatrix.minError, h 0 hc, ok_bind, e], ?_, ?_⟩
  · intro c hcc
    by_cases h0 : c = 0
    · subst h0; exact hx
    · exact hv c (by rw [List.mem_range'_1]; omega)
  · rcases hor with rfl | ⟨j, hj, rfl⟩
    · exact ⟨0, hc, rfl⟩
    · rw [List.mem_range'_1] at hj
      exact ⟨j, by omega, rfl⟩

/-- A table of 3 times 4 cells with costs 100 and 30, cells set and one call out of range. -/
example : ((ErrorMatrix.new 2 3 100 30).map fun em =>
      let r := setAll em [(1, 1, 5), (3, 0, 1), (2, 3, 8), (1, 1, 6), (1, 2, 40)]
      (r.2, r.1.get 1 1, r.1.get 0 3, r.1.get 2 0, r.1.minError 1, r.1.totalError 1)) =
    .ok ([true, false, true, true, true], .ok 6, .ok 300, .ok 60, .ok 6, .ok 40) := by rfl

end Columbus.Props
