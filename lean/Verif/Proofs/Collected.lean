import Verif.Spec.Collected
import Verif.Model.Documents
import Verif.Proofs.Word
/-
Previous contents of a match container do not influence a search.
-/

namespace Columbus
open Spec

/-- The result with some matches already there. -/
def prepend (ms : IndexMatches) (r : M (ErrorMatrix × IndexMatches)) : M (ErrorMatrix × IndexMatches) := do
  let (em, a) ← r
  .ok (em, ms ++ a)

theorem search_frame (t : Trie) (q : Word) (e : ErrorValues) (T : Int) (fuel : Nat) :
    (∀ node l pl d em ms, LevIndex.searchRecursive t q e T fuel node l pl d em ms =
      prepend ms (LevIndex.searchRecursive t q e T fuel node l pl d em [])) ∧
    (∀ sib l d em ms, LevIndex.searchSiblings t q e T fuel sib l d em ms =
      prepend ms (LevIndex.searchSiblings t q e T fuel sib l d em [])) := by
  induction fuel with
  | zero =>
    constructor
    · intros; rw [LevIndex.searchRecursive, LevIndex.searchRecursive]; rfl
    · intros; rw [LevIndex.searchSiblings, LevIndex.searchSiblings]; rfl
  | succ fuel ih =>
    obtain ⟨ih1, ih2⟩ := ih
    constructor
    · intro node l pl d em ms
      rw [LevIndex.searchRecursive, LevIndex.searchRecursive]
      cases LevIndex.fillRow q e l pl d em (List.range' 1 q.length) with
      | error f => rfl
      | ok em =>
        simp only [ok_bind]
        cases em.totalError d with
        | error f => rfl
        | ok total =>
          simp only [ok_bind]
          cases t.getWordID node with
          | error f => rfl
          | ok w =>
            simp only [ok_bind]
            cases em.minError d with
            | error f => rfl
            | ok mn =>
              simp only [ok_bind]
              by_cases hm : mn ≤ T
              · simp only [if_pos hm]
                cases t.getSiblingList node with
                | error f => rfl
                | ok sib =>
                  simp only [ok_bind]
                  by_cases hw : total ≤ T ∧ w ≠ INVALID_WORDID
                  · simp only [if_pos hw]
                    rw [ih2 sib l (d + 1) em (IndexMatches.addMatch ms w total),
                      ih2 sib l (d + 1) em (IndexMatches.addMatch [] w total)]
                    cases LevIndex.searchSiblings t q e T fuel sib l (d + 1) em [] with
                    | error f => rfl
                    | ok r => simp [prepend, IndexMatches.addMatch]
                  · simp only [if_neg hw]
                    exact ih2 sib l (d + 1) em ms
              · simp only [if_neg hm, prepend, ok_bind]
                split <;> simp [IndexMatches.addMatch]
    · intro sib l d em ms
      rw [LevIndex.searchSiblings, LevIndex.searchSiblings]
      by_cases hs : sib = 0
      · simp [hs, prepend, ok_bind]
      · simp only [if_neg hs]
        cases t.getLetter sib with
        | error f => rfl
        | ok x =>
          simp only [ok_bind]
          cases t.getChild sib with
          | error f => rfl
          | ok node =>
            simp only [ok_bind]
            rw [ih1 node x l d em ms]
            cases LevIndex.searchRecursive t q e T fuel node x l d em [] with
            | error f => rfl
            | ok r =>
              obtain ⟨em', a⟩ := r
              simp only [prepend, ok_bind]
              cases t.getNextSibling sib with
              | error f => rfl
              | ok sib' =>
                simp only [ok_bind]
                rw [ih2 sib' l d em' (ms ++ a), ih2 sib' l d em' a]
                cases LevIndex.searchSiblings t q e T fuel sib' l d em' [] with
                | error f => rfl
                | ok r => simp only [prepend, ok_bind, List.append_assoc]

/-- A search with previous contents fails exactly as one without, and otherwise adds the same matches. -/
theorem findWords_frame [Build] [Runtime] (ix : LevIndex) (q : Word) (e : ErrorValues) (T : Int) :
    (∃ f, ∀ ms, ix.findWords q e T ms = .error f) ∨
    ∃ added, ∀ ms, ix.findWords q e T ms = .ok (IndexMatches.sort (ms ++ added)) := by
  have key : ∀ em, (∃ f, ∀ ms, (do
      let sibling ← ix.trie.getSiblingList ix.trie.getRoot
      let (_, ms) ← LevIndex.searchSiblings ix.trie q e T ix.trie.mapped sibling 0#16 1 em ms
      .ok (IndexMatches.sort ms) : M IndexMatches) = .error f) ∨
      ∃ added, ∀ ms, (do
      let sibling ← ix.trie.getSiblingList ix.trie.getRoot
      let (_, ms) ← LevIndex.searchSiblings ix.trie q e T ix.trie.mapped sibling 0#16 1 em ms
      .ok (IndexMatches.sort ms) : M IndexMatches) = .ok (IndexMatches.sort (ms ++ added)) := by
    intro em
    cases ix.trie.getSiblingList ix.trie.getRoot with
    | error f => exact Or.inl ⟨f, fun _ => rfl⟩
    | ok sib =>
      simp only [ok_bind]
      cases h : LevIndex.searchSiblings ix.trie q e T ix.trie.mapped sib 0#16 1 em [] with
      | error f =>
        left
        refine ⟨f, fun ms => ?_⟩
        rw [(search_frame ix.trie q e T ix.trie.mapped).2 sib 0#16 1 em ms, h]
        rfl
      | ok r =>
        right
        refine ⟨r.2, fun ms => ?_⟩
        rw [(search_frame ix.trie q e T ix.trie.mapped).2 sib 0#16 1 em ms, h]
        rfl
  unfold LevIndex.findWords
  cases ErrorMatrix.new (ix.longestWordLength + 1) (q.length + 1) e.getDeletionError (e.getStartInsertionError q.length) with
  | error f => exact Or.inl ⟨f, fun _ => rfl⟩
  | ok em =>
    simp only [ok_bind]
    cases em.get 0 0 with
    | error f => exact Or.inl ⟨f, fun _ => rfl⟩
    | ok e00 =>
      simp only [ok_bind]
      cases cassert (decide (e00 = 0)) with
      | error f => exact Or.inl ⟨f, fun _ => rfl⟩
      | ok u =>
        simp only [ok_bind]
        by_cases hq : 0 < q.length
        · simp only [if_pos hq]
          cases em.get 0 1 with
          | error f => exact Or.inl ⟨f, fun _ => rfl⟩
          | ok e01 =>
            simp only [ok_bind]
            cases cassert (decide (e01 = e.getInsertionError)) with
            | error f => exact Or.inl ⟨f, fun _ => rfl⟩
            | ok u => simp only [ok_bind]; exact key em
        · simp only [if_neg hq]; exact key em

/-- The container holds what was collected, in order of error. -/
theorem Collected.order [Build] [Runtime] {ms : IndexMatches} {L : List (Word × MatchData)} (h : Collected ms L) :
    ms.Perm (L.map (·.2)) ∧ ms.Pairwise (fun a b => a.error ≤ b.error) := by
  induction h with
  | new => exact ⟨List.Perm.refl _, List.Pairwise.nil⟩
  | clear _ _ => exact ⟨List.Perm.refl _, List.Pairwise.nil⟩
  | @find ms L ix q e T ms' alone _ h1 h2 ih =>
    rcases findWords_frame ix q e T with ⟨f, hf⟩ | ⟨added, ha⟩
    · rw [hf] at h1; cases h1
    · rw [ha] at h1 h2
      injection h1 with h1; injection h2 with h2
      subst h1 h2
      refine ⟨?_, Runtime.sortMatches_sorted _⟩
      refine (Runtime.sortMatches_perm _).trans ?_
      rw [List.map_append, List.map_map]
      refine List.Perm.append ih.1 ?_
      have : ((fun x : Word × MatchData => x.2) ∘ fun d : MatchData => (q, d)) = id := rfl
      rw [this, List.map_id]
      exact (Runtime.sortMatches_perm added).symm

/-- A rearrangement of an image is the image of a rearrangement. -/
theorem perm_map_lift {α β : Type} (f : α → β) {m n : List β} (h : m.Perm n) :
    ∀ L : List α, L.map f = n → ∃ k : List α, k.Perm L ∧ k.map f = m := by
  induction h with
  | nil => intro L hL; exact ⟨L, List.Perm.refl _, hL⟩
  | cons x _ ih =>
    intro L hL
    cases L with
    | nil => cases hL
    | cons y L =>
      simp only [List.map_cons, List.cons.injEq] at hL
      obtain ⟨k, h1, h2⟩ := ih L hL.2
      exact ⟨y :: k, h1.cons y, by rw [List.map_cons, hL.1, h2]⟩
  | swap x y l =>
    intro L hL
    match L, hL with
    | a :: b :: L, hL =>
      simp only [List.map_cons, List.cons.injEq] at hL
      exact ⟨b :: a :: L, List.Perm.swap _ _ _, by simp [hL.1, hL.2.1, hL.2.2]⟩
  | trans _ _ ih1 ih2 =>
    intro L hL
    obtain ⟨k, h1, h2⟩ := ih2 L hL
    obtain ⟨k', h3, h4⟩ := ih1 k h2
    exact ⟨k', h3.trans h1, h4⟩

theorem WordList.beq_iff : ∀ (a b : WordList), WordList.beq a b = true ↔ a = b
  | [], [] => by simp [WordList.beq]
  | [], _ :: _ => by simp [WordList.beq]
  | _ :: _, [] => by simp [WordList.beq]
  | x :: a, y :: b => by
    have ih := WordList.beq_iff a b
    simp only [WordList.beq, List.length_cons, List.zip_cons_cons, List.all_cons, Bool.and_eq_true, decide_eq_true_eq,
      Word.beq_iff, List.cons.injEq] at ih ⊢
    rw [← ih]
    constructor
    · rintro ⟨h1, h2, h3⟩; exact ⟨h2, by omega, h3⟩
    · rintro ⟨h2, h1, h3⟩; exact ⟨by omega, h2, h3⟩

end Columbus
