import Verif.Proofs.EditFacts
import Verif.Proofs.FindWords
import Verif.Proofs.ErrorOps
/-
Searches of a word index in terms of the configured prices.
-/

namespace Columbus
open Spec ErrorValues

/-- The prices that a search really uses: letters of the query before the first letter of the word are charged as
deletions. -/
def charged (e : ErrorValues) (n : Nat) : EditCosts := { configured e n with lead := e.getDeletionError }

theorem charged_priced [Build] [Icu] (ops : List ErrOp) (n : Nat) : Priced (afterOps ops) (charged (afterOps ops) n) n := by
  refine ⟨rfl, rfl, rfl, rfl, rfl, rfl, ?_⟩
  intro a b
  obtain ⟨h, hi, _⟩ := afterOps_inv ops
  show _ = Except.ok (match (afterOps ops).getSubstituteError a b with | .ok v => v | .error _ => 0)
  rw [hi.cost a b]

theorem charged_eq {e : ErrorValues} {n : Nat} (h : e.getInsertionError = e.getDeletionError) : charged e n = configured e n := by
  unfold charged configured
  rw [h]

theorem moderate_fits {e : ErrorValues} {n : Nat} {q : Word} {h : IndexHistory} {ix : LevIndex} {g : Ghost}
    (hi : LInv ix g h) (hm : Moderate (configured e n) q h) :
    ∃ B, Fits (charged e n) q ix.longestWordLength B := by
  obtain ⟨B, L, ⟨w1, w2, w3, w4, w5, w6, w7⟩, hL, hs⟩ := hm
  refine ⟨B, ⟨w5, w2, w3, w4, w5, w6, w7⟩, ?_⟩
  have hle : ix.longestWordLength ≤ L := by
    rcases hi.long_eq with e | ⟨p, hp, e⟩
    · omega
    · rw [← e]; exact hL p hp
  have h0 : 0 ≤ B := by omega
  have := Int.mul_le_mul_of_nonneg_right
    (show ((ix.longestWordLength + q.length + 4 : Nat) : Int) ≤ ((L + q.length + 4 : Nat) : Int) by omega) h0
  omega

/-- All that the searches below use. -/
theorem search [Build] [Icu] [Runtime] {os : Nat → Bool} {h : IndexHistory} {ix : LevIndex} (ho : IndexHistory.Ok h)
    (hb : built os h = .ok ix) (ops : List ErrOp) {q : Word} (hq : ∀ l ∈ q, l ≠ 0#16)
    (hm : Moderate (configured (afterOps ops) q.length) q h)
    (ha : Build.asserts = false ∨ q = [] ∨ (afterOps ops).getInsertionError = (afterOps ops).getDeletionError)
    (T : Int) (ms0 : IndexMatches) :
    ∃ added, ix.findWords q (afterOps ops) T ms0 = .ok (IndexMatches.sort (ms0 ++ added)) ∧
      (added.map MatchData.matchedWord).Nodup ∧
      ∀ m, m ∈ added ↔ Added h (charged (afterOps ops) q.length) q T m := by
  obtain ⟨g, hi⟩ := built_inv ho hb
  obtain ⟨B, hf⟩ := moderate_fits hi hm
  refine findWords_added hi (charged_priced ops _) hf hq ?_ T ms0
  rcases ha with ha | ha | ha
  · exact Or.inl ha
  · exact Or.inr (Or.inl ha)
  · exact Or.inr (Or.inr ha.symm)

theorem count_eq {h : IndexHistory} (ho : IndexHistory.Ok h) {w : Word} {i : WordID} (hh : IndexHistory.Has h w i) :
    IndexHistory.count h i = h.countP fun p => decide (p.1 = w) := by
  unfold IndexHistory.count
  apply List.countP_congr
  intro p hp
  simp only [Bool.and_eq_true, Bool.not_eq_true', List.isEmpty_eq_false_iff, beq_iff_eq, decide_eq_true_eq]
  constructor
  · rintro ⟨h1, h2⟩; exact (ho.consistent p hp (w, i) hh.2 h1 hh.1).2 h2
  · intro h1
    have hne : p.1 ≠ [] := by rw [h1]; exact hh.1
    exact ⟨hne, (ho.consistent p hp (w, i) hh.2 hne hh.1).1 h1⟩

theorem wordCount_eq {ix : LevIndex} {g : Ghost} {h : IndexHistory} (hi : LInv ix g h) (i : WordID) :
    ix.wordCount i = IndexHistory.count h i := by
  rw [LevIndex.wordCount, hi.counts i]
  split
  · rename_i h0; rw [h0]; rfl
  · rfl

/-! ### Default and substring settings -/

theorem default_sub [Build] [Icu] (a b : Letter) :
    (afterOps []).getSubstituteError a b = .ok (if a = b then 0 else 100) := by
  rw [show afterOps [] = ErrorValues.new from rfl, new_inv.cost a b]
  congr 1
  unfold ErrorValues.cost
  split
  · rfl
  · simp only [mapCost, singleCost, groupCost]
    rfl

theorem configured_default [Build] [Icu] (n : Nat) : configured (afterOps []) n = unitCosts := by
  refine congrArg (EditCosts.mk 100 100 100 100 100 100) ?_
  funext a b
  rw [default_sub]

/-- The prices of default settings in substring mode, for queries of `n` letters. -/
def substringCosts (n : Nat) : EditCosts :=
  ⟨100, 100, if 3 ≤ n then 15 else 100, 15, 100, 100, fun a b => if a = b then 0 else 100⟩

theorem configured_substring [Build] [Icu] (n : Nat) :
    configured (afterOps [.setSubstringMode]) n = substringCosts n := by
  refine congrArg (EditCosts.mk 100 100 (if 3 ≤ n then 15 else 100) 15 100 100) ?_
  funext a b
  rw [show (afterOps [.setSubstringMode]).getSubstituteError a b = (afterOps []).getSubstituteError a b from rfl, default_sub]

theorem unit_within : unitCosts.Within 100 := by
  refine ⟨by decide, by decide, by decide, by decide, by decide, by decide, ?_⟩
  intro a b; simp only [unitCosts]; split <;> decide

theorem unit_nonneg : unitCosts.NonNeg := by
  refine ⟨by decide, by decide, by decide, by decide, by decide, by decide, ?_⟩
  intro a b; simp only [unitCosts]; split <;> decide

theorem substring_within (n : Nat) : (substringCosts n).Within 100 := by
  refine ⟨?_, ?_, ?_, ?_, ?_, ?_, ?_⟩ <;> (try intro a b) <;> simp only [substringCosts] <;> (try split) <;> decide

theorem substring_nonneg (n : Nat) : (substringCosts n).NonNeg := by
  refine ⟨?_, ?_, ?_, ?_, ?_, ?_, ?_⟩ <;> (try intro a b) <;> simp only [substringCosts] <;> (try split) <;> decide

theorem substring_swaps (n : Nat) : (substringCosts n).SwapsAreDear := by
  left; simp only [substringCosts]; split <;> decide

end Columbus
