import Verif.Proofs.MatcherMore
/-
Searches with cheaper mistakes, for C120.
-/

namespace Columbus
open Spec

/-- Edits that cost no more turn the query into the word at no higher price. -/
theorem script_cheaper {c c' : EditCosts} (h : NoDearer c' c) {q w : List Letter} {d i : Nat} {v : Int} (hs : Script c q w d i v) :
    ∃ v' ≤ v, Script c' q w d i v' := by
  induction hs with
  | start => exact ⟨0, le_refl _, .start⟩
  | @extra d i v _ hi ih =>
    obtain ⟨v', h1, h2⟩ := ih
    refine ⟨_, ?_, h2.extra hi⟩
    have := h.lead; have := h.ins
    split <;> omega
  | @missing d i v _ hd ih =>
    obtain ⟨v', h1, h2⟩ := ih
    refine ⟨_, ?_, h2.missing hd⟩
    have := h.startIns; have := h.endDel; have := h.del
    split
    · omega
    · split <;> omega
  | @subst d i v a b _ ha hb ih =>
    obtain ⟨v', h1, h2⟩ := ih
    refine ⟨_, ?_, h2.subst ha hb⟩
    have := h.sub a b
    omega
  | @swap d i v a b _ ha hb ha' hb' ih =>
    obtain ⟨v', h1, h2⟩ := ih
    refine ⟨_, ?_, h2.swap ha hb ha' hb'⟩
    have := h.trans
    omega

theorem D_cheaper {c c' : EditCosts} (h : NoDearer c' c) {q w : List Letter} {d i : Nat} (hd : d ≤ w.length) (hi : i ≤ q.length) :
    D c' q w d i ≤ D c q w d i := by
  obtain ⟨v', h1, h2⟩ := script_cheaper h (D_script (c := c) (q := q) (w := w) d i hd hi)
  exact le_trans (D_le h2) h1

theorem charged_cheaper {e e' : ErrorValues} {n : Nat} (h : NoDearer (configured e' n) (configured e n)) :
    NoDearer (charged e' n) (charged e n) :=
  ⟨h.del, h.ins, h.startIns, h.endDel, h.del, h.trans, h.sub⟩

/-- What a search sees, one with cheaper mistakes sees. -/
theorem SeenBy.cheaper {c c' : EditCosts} (h : NoDearer c' c) {q w : Word} {T : Int} (hs : SeenBy c q T w) : SeenBy c' q T w := by
  refine ⟨le_trans (D_cheaper h (Nat.le_refl _) (Nat.le_refl _)) hs.1, fun r h1 h2 h3 => ?_⟩
  obtain ⟨i, hi, hv⟩ := hs.2 r h1 h2 h3
  exact ⟨i, hi, le_trans (D_cheaper h (Nat.le_refl _) hi) hv⟩

theorem QueryHits.cheaper {e e' : ErrorValues} {H : MatcherHistory} {names : List Word} {p : SearchParameters} {q : WordList}
    (hc : ∀ x ∈ q, NoDearer (configured e' x.length) (configured e x.length)) {i j : WordID} {v : Int}
    (h : QueryHits e p H names q i j v) : ∃ v' ≤ v, QueryHits e' p H names q i j v' := by
  obtain ⟨x, hxq, f, w, a, b, c, d, s, rfl⟩ := h
  have hc' := charged_cheaper (hc x hxq)
  exact ⟨_, D_cheaper hc' (Nat.le_refl _) (Nat.le_refl _), x, hxq, f, w, a, b, c, d, s.cheaper hc', rfl⟩

end Columbus
