import Verif.Proofs.Collected
import Verif.Spec.Index
import Verif.Props.Example
/-
C69, C70: the containers of words and of matches.
-/

namespace Columbus.Props
open Columbus Spec

/-! ### C69 -/

/-- C69. A list to which words were added has these words at the positions 0, 1, ... and nothing else; reading elsewhere
throws `out_of_range`. -/
theorem C69_words (ws : List Word) :
    (ws.foldl WordList.addWord WordList.new).size = ws.length ∧
    ∀ i, (ws.foldl WordList.addWord WordList.new).at i =
      if h : i < ws.length then .ok (ws[i]) else .error .outOfRange := by
  have key : ∀ (l : WordList), ws.foldl WordList.addWord l = l ++ ws := by
    induction ws with
    | nil => intro l; simp
    | cons w ws ih => intro l; rw [List.foldl_cons, ih]; simp [WordList.addWord]
  rw [key]
  refine ⟨by simp [WordList.new, WordList.size], fun i => ?_⟩
  show (match (WordList.new ++ ws)[i]? with | none => _ | some w => _) = _
  rw [show WordList.new ++ ws = ws from rfl]
  by_cases h : i < ws.length
  · rw [List.getElem?_eq_getElem h, dif_pos h]
  · rw [List.getElem?_eq_none (by omega), dif_neg h]

/-- C69. Lists are equal exactly when they have the same words at the same positions. -/
theorem C69_equal (a b : List Word) :
    (WordList.beq (a.foldl WordList.addWord WordList.new) (b.foldl WordList.addWord WordList.new) = true ↔ a = b) ∧
    (WordList.bne (a.foldl WordList.addWord WordList.new) (b.foldl WordList.addWord WordList.new) = true ↔ a ≠ b) := by
  have key : ∀ (ws : List Word) (l : WordList), ws.foldl WordList.addWord l = l ++ ws := by
    intro ws
    induction ws with
    | nil => intro l; simp
    | cons w ws ih => intro l; rw [List.foldl_cons, ih]; simp [WordList.addWord]
  have h : WordList.beq (a.foldl WordList.addWord WordList.new) (b.foldl WordList.addWord WordList.new) = true ↔ a = b := by
    rw [WordList.beq_iff, key, key]
    simp [WordList.new]
  refine ⟨h, ?_⟩
  rw [WordList.bne, Bool.not_eq_true', ne_eq, ← h, Bool.not_eq_true]

example : (WordList.new.addWord [0x61#16] |>.addWord [0x62#16]).at 1 = .ok [0x62#16] ∧
    (WordList.new.addWord [0x61#16] |>.addWord [0x62#16]).at 2 = .error .outOfRange := by decide

/-! ### C70 -/

/-- C70. The matches of a container: all that the searches since the last `clear` found, in order of error, at the
positions 0, 1, ...; reading a match or its error elsewhere throws `out_of_range`. -/
theorem C70_read [Build] [Runtime] (ms : IndexMatches) (L : List (Word × MatchData)) (h : Collected ms L) :
    ∃ k : List (Word × MatchData), k.Perm L ∧ k.Pairwise (fun a b => a.2.error ≤ b.2.error) ∧ ms.size = k.length ∧
      ∀ i, ms.getMatch i = (if h : i < k.length then .ok k[i].2.matchedWord else .error .outOfRange) ∧
        ms.getMatchError i = (if h : i < k.length then .ok k[i].2.error else .error .outOfRange) := by
  obtain ⟨h1, h2⟩ := Columbus.Collected.order h
  obtain ⟨k, hk, rfl⟩ : ∃ k : List (Word × MatchData), k.Perm L ∧ k.map (·.2) = ms :=
    perm_map_lift (·.2) h1 L rfl
  rw [List.pairwise_map] at h2
  refine ⟨k, hk, h2, by simp [IndexMatches.size], fun i => ?_⟩
  unfold IndexMatches.getMatch IndexMatches.getMatchError
  by_cases hi : i < k.length
  · simp [hi]
  · simp [hi]

/-- C70. A search fails, or succeeds, whatever the container holds. -/
theorem C70_same [Build] [Runtime] (ix : LevIndex) (q : Word) (e : ErrorValues) (T : Int) (ms : IndexMatches) (f : Fault) :
    ix.findWords q e T ms = .error f ↔ ix.findWords q e T IndexMatches.new = .error f := by
  rcases findWords_frame ix q e T with ⟨f', hf⟩ | ⟨added, ha⟩
  · rw [hf, hf]
  · rw [ha, ha]
    constructor <;> intro h <;> cases h

/-- C70. The query that led to a match cannot be read: `getQuery` gives the empty word for every match. -/
theorem C70_query_partial (ms : IndexMatches) (i : Nat) :
    ms.getQuery i = if i < ms.size then .ok [] else .error .outOfRange := by
  unfold IndexMatches.getQuery IndexMatches.size
  by_cases hi : i < ms.length
  · rw [List.getElem?_eq_getElem hi, if_pos hi]
  · rw [List.getElem?_eq_none (by omega), if_neg hi]

/-- The example: "ba" is searched for "ab". -/
theorem example_collected : letI := Example.debug; letI := Example.icu; letI := Example.runtime
    ∃ ms, Collected ms [([0x61, 0x62], ⟨0, 100⟩)] := by
  let _ := Example.debug; let _ := Example.icu; let _ := Example.runtime
  have h : (built (fun _ => true) [([0x62, 0x61], 0)] >>= fun ix => ix.findWords [0x61, 0x62] ErrorValues.new 100 []) =
      .ok [⟨0, 100⟩] := by decide +kernel
  cases hb : built (fun _ => true) [([0x62, 0x61], 0)] with
  | error f => rw [hb] at h; cases h
  | ok ix =>
    rw [hb, ok_bind] at h
    exact ⟨_, .find ix [0x61, 0x62] ErrorValues.new 100 .new h h⟩

/-- C70 is false of `getQuery`. -/
theorem C70_false : letI := Example.debug; letI := Example.runtime
    ¬ ∀ (ms : IndexMatches) (L : List (Word × MatchData)) (i : Nat), Collected ms L → i < ms.size →
      ∃ x ∈ L, ms.getQuery i = .ok x.1 ∧ ms.getMatch i = .ok x.2.matchedWord := by
  let _ := Example.debug; let _ := Example.icu; let _ := Example.runtime
  intro hall
  obtain ⟨ms, h⟩ := example_collected
  obtain ⟨k, hk, _, hs, _⟩ := C70_read ms _ h
  have hs : ms.size = 1 := by rw [hs, hk.length_eq]; rfl
  obtain ⟨x, hx, hq, _⟩ := hall ms _ 0 h (by omega)
  rw [C70_query_partial, if_pos (by omega)] at hq
  rw [List.mem_singleton.1 hx] at hq
  exact absurd hq (by decide)

end Columbus.Props
