import Verif.Proofs.ErrorOps
/-
Costs after particular histories.
-/

namespace Columbus
namespace ErrorValues
open Spec

theorem cost_single_hit {a b x y : Letter} (h : List Ev) (v : Int) (hp : samePair a b x y = true) (hne : a ≠ b) :
    cost (.single x y v :: h) a b = v := by
  simp only [cost, tableCost, mapCost, singleCost, hp, if_true, if_neg hne]
  split <;> rfl

/-- Some event names the pair and every one that does gives it the value `v`. -/
theorem cost_singles {evs : List Ev} {a b : Letter} (h : List Ev) {v : Int} (hne : a ≠ b)
    (hex : ∃ ev ∈ evs, ev.Touches a b) (hall : ∀ ev ∈ evs, ev.Touches a b → ∃ x y, ev = .single x y v) :
    cost (evs ++ h) a b = v := by
  induction evs with
  | nil => obtain ⟨_, h, _⟩ := hex; simp at h
  | cons ev evs ih =>
    by_cases ht : ev.Touches a b
    · obtain ⟨x, y, rfl⟩ := hall ev (by simp) ht
      exact cost_single_hit _ v ht hne
    · rw [List.cons_append, cost_untouched _ ht]
      refine ih ?_ (fun e he => hall e (by simp [he]))
      obtain ⟨e, he, hte⟩ := hex
      rcases List.mem_cons.1 he with rfl | he
      · exact absurd hte ht
      · exact ⟨e, he, hte⟩

theorem accepted_iff {h : List Ev} {g : List Letter} : accepted h g = true ↔ ∀ l ∈ g, inGroups (groups h) l = false := by
  simp [accepted]

theorem takeWhile_accepted {h : List Ev} {g : List Letter} (ha : accepted h g = true) :
    (g.takeWhile fun l => !inGroups (groups h) l) = g := by
  apply takeWhile_all
  intro l hl
  rw [accepted_iff.1 ha l hl]; rfl

theorem groupCost_hit {h : List Ev} {g : List Letter} {a b : Letter} (v : Int) (ha : accepted h g = true) (h1 : a ∈ g)
    (h2 : b ∈ g) : groupCost (.group g v :: h) a b = some v := by
  rw [groupCost, groups, List.find?_append, takeWhile_accepted ha]
  have : (groups h).find? (fun p => decide (a ∈ p.1) && decide (b ∈ p.1)) = none := by
    rw [List.find?_eq_none]
    intro p hp hc
    simp only [Bool.and_eq_true, decide_eq_true_eq] at hc
    have := inGroups_iff.2 ⟨p, hp, hc.1⟩
    rw [accepted_iff.1 ha a h1] at this; cases this
  rw [this]
  simp [h1, h2]

theorem cost_group_hit {h : List Ev} {g : List Letter} {a b : Letter} (v : Int) (ha : accepted h g = true) (h1 : a ∈ g)
    (h2 : b ∈ g) (hne : a ≠ b) (hs : (a.toNat < 512 ∧ b.toNat < 512) ∨ singleCost h a b = none) :
    cost (.group g v :: h) a b = v := by
  rw [cost]
  split
  · rw [tableCost, if_pos ⟨ha, h1, h2, hne⟩]
  · rename_i hl
    rw [mapCost, if_neg hne]
    rcases hs with hs | hs
    · exact absurd hs hl
    · simp only [singleCost, hs, groupCost_hit v ha h1 h2, Option.getD_some]

theorem inGroups_group (h : List Ev) (g : List Letter) (v : Int) (l : Letter) (ha : accepted h g = true) :
    inGroups (groups (.group g v :: h)) l = (inGroups (groups h) l || decide (l ∈ g)) := by
  rw [groups, inGroups_append, takeWhile_accepted ha]
  simp [inGroups]

/-! ### Accent files -/

/-- The lines are words whose groups are `gs`. -/
abbrev Lines [Build] [Icu] (ls : List Bytes) (gs : List Word) : Prop := List.Forall₂ (fun l g => Word.ofUtf8 l = .ok g) ls gs

theorem accentLoop_ok [Build] [Icu] {ls : List Bytes} {gs : List Word} (hl : Lines ls gs) :
    ∀ {e : ErrorValues} {h : List Ev}, EInv e h → gs.Pairwise (fun g g' => ∀ l ∈ g, l ∉ g') →
    (∀ g ∈ gs, ∀ l ∈ g, inGroups (groups h) l = false) → (∀ a b, singleCost h a b = none) →
    ∃ e' evs, accentLoop e ls = (e', none) ∧ EInv e' (evs ++ h) ∧ (∀ a b, singleCost (evs ++ h) a b = none) ∧
      (∀ l, inGroups (groups (evs ++ h)) l = true ↔ (inGroups (groups h) l = true ∨ ∃ g ∈ gs, l ∈ g)) ∧
      (∀ g ∈ gs, ∀ a ∈ g, ∀ b ∈ g, a ≠ b → cost (evs ++ h) a b = 30) ∧
      (∀ a b, (¬ ∃ g ∈ gs, a ∈ g ∧ b ∈ g) → cost (evs ++ h) a b = cost h a b) := by
  induction hl with
  | nil => intro e h hi _ _ hs; exact ⟨e, [], rfl, hi, hs, by simp, by simp, by simp⟩
  | @cons l g ls gs hw _ ih =>
    intro e h hi hp hd hs
    rw [List.pairwise_cons] at hp
    rw [accentLoop, hw]
    simp only
    split
    · rename_i hz
      have : g = [] := List.eq_nil_of_length_eq_zero hz
      subst this
      obtain ⟨e', evs, h1, h2, h3, h4, h5, h6⟩ := ih hi hp.2 (fun g hg => hd g (by simp [hg])) hs
      refine ⟨e', evs, h1, h2, h3, ?_, ?_, ?_⟩
      · intro l; rw [h4 l]; simp
      · intro g hg
        rcases List.mem_cons.1 hg with rfl | hg
        · intro a ha; cases ha
        · exact h5 g hg
      · intro a b hab
        apply h6 a b
        rintro ⟨g, hg, r⟩; exact hab ⟨g, by simp [hg], r⟩
    · have ha : accepted h g = true := accepted_iff.2 (hd g (by simp))
      obtain ⟨e1, k1, hi1, _⟩ := hi.setGroupError g DEFAULT_GROUP_ERROR
      rw [k1, ha]
      simp only [if_true]
      have hs1 : ∀ a b, singleCost (.group g DEFAULT_GROUP_ERROR :: h) a b = none := fun a b => hs a b
      obtain ⟨e', evs, h1, h2, h3, h4, h5, h6⟩ := ih hi1 hp.2 (by
        intro g' hg' l hl
        rw [inGroups_group h g _ l ha, hd g' (by simp [hg']) l hl]
        simp only [Bool.false_or, decide_eq_false_iff_not]
        intro hlg
        exact hp.1 g' hg' l hlg hl) hs1
      refine ⟨e', evs ++ [.group g 30], h1, ?_, ?_, ?_, ?_, ?_⟩
      · rw [List.append_assoc]; exact h2
      · intro a b; rw [List.append_assoc]; exact h3 a b
      · intro l
        rw [List.append_assoc, List.singleton_append, show (30 : Int) = DEFAULT_GROUP_ERROR from rfl, h4 l,
          inGroups_group h g _ l ha]
        simp [or_assoc]
      · intro g' hg' a ha' b hb' hne
        rw [List.append_assoc, List.singleton_append, show (Ev.group g 30) = Ev.group g DEFAULT_GROUP_ERROR from rfl]
        rcases List.mem_cons.1 hg' with rfl | hg'
        · rw [h6 a b]
          · exact cost_group_hit _ ha ha' hb' hne (Or.inr (hs a b))
          · rintro ⟨g2, hg2, k, _⟩
            exact hp.1 g2 hg2 a ha' k
        · exact h5 g' hg' a ha' b hb' hne
      · intro a b hab
        rw [List.append_assoc, List.singleton_append, show (Ev.group g 30) = Ev.group g DEFAULT_GROUP_ERROR from rfl, h6 a b]
        · apply cost_untouched
          rintro ⟨k1, k2⟩
          exact hab ⟨g, by simp, k1, k2⟩
        · rintro ⟨g2, hg2, r⟩; exact hab ⟨g2, by simp [hg2], r⟩

theorem accentLoop_again [Build] [Icu] {ls : List Bytes} {gs : List Word} (hl : Lines ls gs) :
    ∀ {e : ErrorValues} {h : List Ev}, EInv e h → (∀ g ∈ gs, ∀ l ∈ g, inGroups (groups h) l = true) →
    ((∃ g ∈ gs, g ≠ []) → (accentLoop e ls).2 = some .runtimeError) ∧
    ((∀ g ∈ gs, g = []) → accentLoop e ls = (e, none)) := by
  induction hl with
  | nil => intro e h hi _; exact ⟨by simp, fun _ => rfl⟩
  | @cons l g ls gs hw _ ih =>
    intro e h hi hin
    rw [accentLoop, hw]
    simp only
    split
    · rename_i hz
      have : g = [] := List.eq_nil_of_length_eq_zero hz
      subst this
      obtain ⟨h1, h2⟩ := ih hi (fun g hg => hin g (by simp [hg]))
      refine ⟨?_, ?_⟩
      · rintro ⟨g, hg, hne⟩
        rcases List.mem_cons.1 hg with rfl | hg
        · exact absurd rfl hne
        · exact h1 ⟨g, hg, hne⟩
      · intro hz; exact h2 fun g hg => hz g (by simp [hg])
    · rename_i hz
      constructor
      · intro _
        obtain ⟨e1, k1, _, _⟩ := hi.setGroupError g DEFAULT_GROUP_ERROR
        have ha : accepted h g = false := by
          rw [Bool.eq_false_iff]; intro ha
          cases g with
          | nil => exact hz rfl
          | cons c g =>
            have := accepted_iff.1 ha c (by simp)
            rw [hin (c :: g) (by simp) c (by simp)] at this; cases this
        rw [k1, ha]; rfl
      · intro hz'
        exact absurd (by rw [hz' g (by simp)]; rfl) hz

/-! ### Transparent histories -/

/-- No event makes the lookup table and the maps disagree. -/
def Clean : List Ev → Prop
  | [] => True
  | .single x y v :: h => (x = y → v = 0) ∧ Clean h
  | .clear :: h => Clean h
  | .group g _ :: h => accepted h g = true ∧ (∀ a ∈ g, ∀ b ∈ g, a ≠ b → singleCost h a b = none) ∧ Clean h

theorem Clean.table {h : List Ev} (hc : Clean h) (a b : Letter) : tableCost h a b = mapCost h a b := by
  induction h with
  | nil => simp only [tableCost, mapCost, singleCost, groupCost, groups]; rfl
  | cons ev h ih =>
    cases ev with
    | single x y v =>
      have := ih hc.2
      by_cases hp : samePair a b x y = true
      · rw [tableCost, if_pos hp, mapCost]
        split
        · rename_i hab
          subst hab
          apply hc.1
          rcases samePair_iff.1 hp with ⟨h1, h2⟩ | ⟨h1, h2⟩
          · exact h1.symm.trans h2
          · exact h2.symm.trans h1
        · simp only [singleCost, hp, if_true]
      · simp only [mapCost, groupCost] at this
        simp only [tableCost, mapCost, singleCost, groupCost, groups, hp, this]; simp
    | clear => simp only [tableCost, mapCost, singleCost, groupCost, groups]; rfl
    | group g v =>
      obtain ⟨h1, h2, h3⟩ := hc
      have := ih h3
      by_cases hp : a ∈ g ∧ b ∈ g ∧ a ≠ b
      · rw [tableCost, if_pos ⟨h1, hp⟩, mapCost, if_neg hp.2.2]
        simp only [singleCost, h2 a hp.1 b hp.2.1 hp.2.2, groupCost_hit v h1 hp.1 hp.2.1, Option.getD_some]
      · rw [tableCost, if_neg (fun hx => hp hx.2), this, mapCost, mapCost]
        split
        · rfl
        · rename_i hne
          rw [groupCost_group h g v a b (fun hx => hp ⟨hx.1, hx.2, hne⟩)]
          simp only [singleCost]

end ErrorValues
end Columbus
