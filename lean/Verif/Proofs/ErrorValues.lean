import Verif.Proofs.Containers
import Verif.Model.ErrorValues
/-
The substitution costs after a history of calls, in closed form.
-/

namespace Columbus
namespace ErrorValues

/-- Basic changes of the substitution costs. -/
inductive Ev where
  | single (a b : Letter) (v : Int)
  | group (g : List Letter) (v : Int)
  | clear

/-- `l` is in one of the groups. -/
def inGroups (gs : List (List Letter × Int)) (l : Letter) : Bool := gs.any fun p => decide (l ∈ p.1)

/-- The groups in force after a history (latest event first): a group gets the letters before the first one that
already was in a group. -/
def groups : List Ev → List (List Letter × Int)
  | [] => []
  | .single _ _ _ :: h => groups h
  | .clear :: _ => []
  | .group g v :: h => groups h ++ [(g.takeWhile fun l => !inGroups (groups h) l, v)]

/-- A group is accepted when no letter is in an earlier group. -/
def accepted (h : List Ev) (g : List Letter) : Bool := g.all fun l => !inGroups (groups h) l

/-- The unordered pairs are the same. -/
def samePair (a b x y : Letter) : Bool := (decide (a = x) && decide (b = y)) || (decide (a = y) && decide (b = x))

/-- Cost of a pair of letters both in the lookup table. -/
def tableCost : List Ev → Letter → Letter → Int
  | [], a, b => if a = b then 0 else 100
  | .single x y v :: h, a, b => if samePair a b x y then v else tableCost h a b
  | .clear :: _, a, b => if a = b then 0 else 100
  | .group g v :: h, a, b => if accepted h g ∧ a ∈ g ∧ b ∈ g ∧ a ≠ b then v else tableCost h a b

/-- The individually set cost of a pair. -/
def singleCost : List Ev → Letter → Letter → Option Int
  | [], _, _ => none
  | .single x y v :: h, a, b => if samePair a b x y then some v else singleCost h a b
  | .clear :: _, _, _ => none
  | .group _ _ :: h, a, b => singleCost h a b

/-- The cost of a pair in a common group. -/
def groupCost (h : List Ev) (a b : Letter) : Option Int :=
  ((groups h).find? fun p => decide (a ∈ p.1) && decide (b ∈ p.1)).map (·.2)

/-- Cost of a pair outside the lookup table. -/
def mapCost (h : List Ev) (a b : Letter) : Int :=
  if a = b then 0
  else match singleCost h a b with
    | some v => v
    | none => (groupCost h a b).getD 100

/-- The cost of a pair after a history. -/
def cost (h : List Ev) (a b : Letter) : Int :=
  if a.toNat < 512 ∧ b.toNat < 512 then tableCost h a b else mapCost h a b

theorem samePair_comm (a b x y : Letter) : samePair b a x y = samePair a b x y := by
  simp only [samePair]
  rw [Bool.or_comm, Bool.and_comm, Bool.and_comm (decide (b = x))]

theorem samePair_iff {a b x y : Letter} : samePair a b x y = true ↔ (a = x ∧ b = y) ∨ (a = y ∧ b = x) := by
  simp [samePair]

theorem tableCost_comm (h : List Ev) (a b : Letter) : tableCost h b a = tableCost h a b := by
  induction h with
  | nil => simp only [tableCost, eq_comm]
  | cons e h ih =>
    cases e with
    | single x y v => simp only [tableCost, samePair_comm, ih]
    | clear => simp only [tableCost, eq_comm]
    | group g v =>
      simp only [tableCost, ih]
      congr 1
      apply propext
      constructor <;> (rintro ⟨h1, h2, h3, h4⟩; exact ⟨h1, h3, h2, Ne.symm h4⟩)

theorem singleCost_comm (h : List Ev) (a b : Letter) : singleCost h b a = singleCost h a b := by
  induction h with
  | nil => rfl
  | cons e h ih => cases e <;> simp only [singleCost, samePair_comm, ih]

theorem groupCost_comm (h : List Ev) (a b : Letter) : groupCost h b a = groupCost h a b := by
  simp only [groupCost, Bool.and_comm]

theorem mapCost_comm (h : List Ev) (a b : Letter) : mapCost h b a = mapCost h a b := by
  simp only [mapCost, singleCost_comm h a b, groupCost_comm h a b, eq_comm]

theorem cost_comm (h : List Ev) (a b : Letter) : cost h b a = cost h a b := by
  simp only [cost, tableCost_comm h a b, mapCost_comm h a b, and_comm]

/-- The object after a history. `err` is the value of `substituteError`. -/
structure EInv (e : ErrorValues) (h : List Ev) : Prop where
  sub : e.substituteError = 100
  lut : ∀ a b : Letter, a.toNat < 512 → b.toNat < 512 → e.lut (lutOffset a.toNat b.toNat) = tableCost h a b
  single : ∀ a b : Letter, a.toNat ≤ b.toNat → SMap.find ltLL e.singleErrors (a, b) = singleCost h a b
  errors : e.groupErrors = (groups h).map (·.2)
  map : ∀ (l : Letter) (k : Nat), SMap.find ltLetter e.groupMap l = some k ↔ ∃ p, (groups h)[k]? = some p ∧ l ∈ p.1

theorem lutOffset_eq {a b : Nat} (hb : b < 512) : lutOffset a b = a * 512 + b := by
  rw [lutOffset, show LUT_BITS = 9 from rfl, Nat.shiftLeft_eq]
  have := Nat.two_pow_add_eq_or_of_lt (i := 9) (b := b) (by omega) a
  rw [Nat.mul_comm a, ← this]

theorem strict_ltLL : Strict ltLL := strict_ltPair strict_ltLetter strict_ltLetter

theorem ordered_le (a b : Letter) : (ordered a b).1.toNat ≤ (ordered a b).2.toNat := by
  rw [ordered]; split <;> simp only <;> omega

theorem ordered_pair (a b : Letter) : (ordered a b = (a, b)) ∨ (ordered a b = (b, a)) := by
  rw [ordered]; split <;> simp

theorem samePair_ordered {x y a b : Letter} (h : a.toNat ≤ b.toNat) :
    (ordered x y = (a, b)) ↔ samePair a b x y = true := by
  rw [samePair_iff, ordered]
  split
  · rename_i hlt
    rw [Prod.mk.injEq]
    constructor
    · rintro ⟨rfl, rfl⟩; exact Or.inr ⟨rfl, rfl⟩
    · rintro (⟨rfl, rfl⟩ | ⟨rfl, rfl⟩)
      · omega
      · exact ⟨rfl, rfl⟩
  · rename_i hlt
    rw [Prod.mk.injEq]
    constructor
    · rintro ⟨rfl, rfl⟩; exact Or.inl ⟨rfl, rfl⟩
    · rintro (⟨rfl, rfl⟩ | ⟨rfl, rfl⟩)
      · exact ⟨rfl, rfl⟩
      · have : a = b := BitVec.eq_of_toNat_eq (by omega)
        subst this; exact ⟨rfl, rfl⟩

/-- The table after `addToLUT`. -/
theorem addToLUT_spec (e : ErrorValues) (x y : Letter) (v : Int) :
    ∃ lut, e.addToLUT x y v = .ok { e with lut := lut } ∧
      ∀ a b : Letter, a.toNat < 512 → b.toNat < 512 →
        lut (lutOffset a.toNat b.toNat) = if samePair a b x y then v else e.lut (lutOffset a.toNat b.toNat) := by
  rw [addToLUT]
  simp only [show LUT_LETTERS = 512 from rfl]
  split
  · rename_i hxy
    have hs : LUT_SIZE = 262144 := rfl
    have b1 : lutOffset x.toNat y.toNat < LUT_SIZE := by rw [lutOffset_eq hxy.2, hs]; omega
    have b2 : lutOffset y.toNat x.toNat < LUT_SIZE := by rw [lutOffset_eq hxy.1, hs]; omega
    simp only [lutStore, b1, b2, if_true, ok_bind]
    refine ⟨_, rfl, ?_⟩
    intro a b ha hb
    simp only [lutOffset_eq hb, lutOffset_eq hxy.2, lutOffset_eq hxy.1]
    have k : ∀ p q r s : Letter, q.toNat < 512 → s.toNat < 512 →
        (p.toNat * 512 + q.toNat = r.toNat * 512 + s.toNat ↔ p = r ∧ q = s) := by
      intro p q r s h1 h2
      rw [BitVec.toNat_eq, BitVec.toNat_eq]
      constructor <;> intro <;> omega
    simp only [k _ _ _ _ hb hxy.1, k _ _ _ _ hb hxy.2, samePair]
    by_cases h1 : a = y ∧ b = x <;> by_cases h2 : a = x ∧ b = y <;> simp [h1, h2]
  · rename_i hxy
    refine ⟨e.lut, rfl, ?_⟩
    intro a b ha hb
    have : samePair a b x y = false := by
      rw [Bool.eq_false_iff]; intro h
      rcases samePair_iff.1 h with ⟨rfl, rfl⟩ | ⟨rfl, rfl⟩
      · exact hxy ⟨ha, hb⟩
      · exact hxy ⟨hb, ha⟩
    rw [this]; rfl

theorem new_inv : EInv new [] := by
  refine ⟨rfl, ?_, fun _ _ _ => rfl, rfl, ?_⟩
  · intro a b ha hb
    show (if lutOffset a.toNat b.toNat / 512 = lutOffset a.toNat b.toNat % 512 then (0:Int) else 100) = _
    rw [lutOffset_eq hb, tableCost]
    have : (a.toNat * 512 + b.toNat) / 512 = a.toNat := by omega
    have : (a.toNat * 512 + b.toNat) % 512 = b.toNat := by omega
    simp only [*, BitVec.toNat_eq]
  · intro l k
    simp only [new, clearLUT, groups, SMap.find_nil]
    simp

theorem EInv.clear {e : ErrorValues} {h : List Ev} (hi : EInv e h) : EInv e.clearErrors (.clear :: h) := by
  refine ⟨hi.sub, ?_, fun _ _ _ => rfl, rfl, ?_⟩
  · intro a b ha hb
    show (if lutOffset a.toNat b.toNat / 512 = lutOffset a.toNat b.toNat % 512 then (0:Int) else e.substituteError) = _
    rw [hi.sub, lutOffset_eq hb, tableCost]
    have : (a.toNat * 512 + b.toNat) / 512 = a.toNat := by omega
    have : (a.toNat * 512 + b.toNat) % 512 = b.toNat := by omega
    simp only [*, BitVec.toNat_eq]
  · intro l k
    simp only [clearErrors, clearLUT, groups, SMap.find_nil]
    simp

theorem EInv.setError {e : ErrorValues} {h : List Ev} (hi : EInv e h) (x y : Letter) (v : Int) :
    ∃ e', e.setError x y v = .ok e' ∧ EInv e' (.single x y v :: h) ∧ e'.insertionError = e.insertionError ∧
      e'.deletionError = e.deletionError ∧ e'.endDeletionError = e.endDeletionError ∧
      e'.startInsertionError = e.startInsertionError ∧ e'.transposeError = e.transposeError ∧
      e'.substringStartLimit = e.substringStartLimit := by
  rw [ErrorValues.setError]
  obtain ⟨lut, he, hl⟩ := addToLUT_spec { e with singleErrors := SMap.set ltLL e.singleErrors (ordered x y) v }
    (ordered x y).1 (ordered x y).2 v
  refine ⟨_, he, ⟨hi.sub, ?_, ?_, hi.errors, hi.map⟩, rfl, rfl, rfl, rfl, rfl, rfl⟩
  · intro a b ha hb
    simp only
    rw [hl a b ha hb, tableCost, hi.lut a b ha hb]
    congr 2
    rcases ordered_pair x y with h | h <;> rw [h]
    simp only [samePair]; rw [Bool.or_comm]
  · intro a b hab
    simp only
    rw [SMap.find_set strict_ltLL, singleCost, hi.single a b hab]
    simp only [samePair_ordered hab]

theorem inGroups_iff {gs : List (List Letter × Int)} {l : Letter} : inGroups gs l = true ↔ ∃ p ∈ gs, l ∈ p.1 := by
  simp [inGroups]

theorem inGroups_append (gs hs : List (List Letter × Int)) (l : Letter) :
    inGroups (gs ++ hs) l = (inGroups gs l || inGroups hs l) := by simp [inGroups]

theorem mem_takeWhile_pos {α : Type} {p : α → Bool} {l : List α} {a : α} (h : a ∈ l.takeWhile p) : p a = true := by
  induction l with
  | nil => cases h
  | cons b l ih =>
    rw [List.takeWhile_cons] at h
    split at h
    · rename_i hb
      rcases List.mem_cons.1 h with rfl | h
      · exact hb
      · exact ih h
    · cases h

/-- The groups are disjoint. -/
theorem groups_disjoint (h : List Ev) : (groups h).Pairwise fun p q => ∀ l ∈ p.1, l ∉ q.1 := by
  induction h with
  | nil => exact .nil
  | cons e h ih =>
    cases e with
    | single x y v => exact ih
    | clear => exact .nil
    | group g v =>
      rw [groups, List.pairwise_append]
      refine ⟨ih, List.pairwise_singleton _ _, ?_⟩
      intro p hp q hq l hl hlq
      rw [List.mem_singleton] at hq; subst hq
      have h1 := mem_takeWhile_pos hlq
      have h2 := inGroups_iff.2 ⟨p, hp, hl⟩
      rw [h2] at h1; cases h1

theorem groups_unique {h : List Ev} {i j : Nat} {p q : List Letter × Int} {l : Letter} (hi : (groups h)[i]? = some p)
    (hj : (groups h)[j]? = some q) (hp : l ∈ p.1) (hq : l ∈ q.1) : i = j := by
  obtain ⟨hi1, rfl⟩ := List.getElem?_eq_some_iff.1 hi
  obtain ⟨hj1, rfl⟩ := List.getElem?_eq_some_iff.1 hj
  have hd := List.pairwise_iff_getElem.1 (groups_disjoint h)
  rcases Nat.lt_trichotomy i j with hlt | heq | hgt
  · exact absurd hq (hd i j hi1 hj1 hlt l hp)
  · exact heq
  · exact absurd hp (hd j i hj1 hi1 hgt l hq)

/-- `groupLoop` on a state whose new group holds `done`. -/
theorem groupLoop_spec (gs : List (List Letter × Int)) : ∀ (g done : List Letter) (e : ErrorValues),
    (∀ l k, SMap.find ltLetter e.groupMap l = some k ↔ (∃ p, gs[k]? = some p ∧ l ∈ p.1) ∨ (k = gs.length ∧ l ∈ done)) →
    (∀ l ∈ done, inGroups gs l = false) →
    ∃ m, groupLoop gs.length e g = ({ e with groupMap := m }, !(g.all fun l => !inGroups gs l)) ∧
      ∀ l k, SMap.find ltLetter m l = some k ↔
        (∃ p, gs[k]? = some p ∧ l ∈ p.1) ∨ (k = gs.length ∧ l ∈ done ++ g.takeWhile fun l => !inGroups gs l) := by
  intro g
  induction g with
  | nil =>
    intro done e h _
    exact ⟨e.groupMap, rfl, by simpa using h⟩
  | cons c g ih =>
    intro done e h hd
    rw [groupLoop]
    rcases hg : inGroups gs c
    · rw [List.takeWhile_cons_of_pos (by rw [hg]; rfl), List.all_cons, hg]
      simp only [Bool.not_false, Bool.true_and]
      have hd' : ∀ l ∈ done ++ [c], inGroups gs l = false := by
        intro l hl
        rcases List.mem_append.1 hl with hl | hl
        · exact hd l hl
        · rw [List.mem_singleton.1 hl]; exact hg
      have hnp : ∀ k : Nat, ¬ ∃ p, gs[k]? = some p ∧ c ∈ p.1 := by
        rintro k ⟨p, h1, h2⟩
        rw [inGroups_iff.2 ⟨p, List.mem_of_getElem? h1, h2⟩] at hg; cases hg
      have ea : ∀ l, l ∈ done ++ c :: List.takeWhile (fun l => !inGroups gs l) g ↔
          l ∈ done ++ [c] ++ List.takeWhile (fun l => !inGroups gs l) g := by intro l; simp
      simp only [ea]
      cases hf : SMap.find ltLetter e.groupMap c with
      | none =>
        obtain ⟨m, e1, h1⟩ := ih (done ++ [c]) { e with groupMap := SMap.set ltLetter e.groupMap c gs.length } (by
          intro l k
          simp only
          rw [SMap.find_set strict_ltLetter]
          by_cases hc : c = l
          · subst hc
            simp only [if_true, Option.some.injEq]
            constructor
            · intro h; right; exact ⟨h.symm, by simp⟩
            · rintro (h | h)
              · exact absurd h (hnp k)
              · exact h.1.symm
          · rw [if_neg hc, h l k]
            simp [Ne.symm hc]) hd'
        exact ⟨m, e1, h1⟩
      | some k =>
        have hk : k = gs.length := by
          rcases (h c k).1 hf with h | h
          · exact absurd h (hnp k)
          · exact h.1
        subst hk
        simp only [ne_eq, not_true_eq_false, if_false]
        apply ih (done ++ [c]) e _ hd'
        intro l k
        rw [h l k]
        have hc : c ∈ done := by
          rcases (h c _).1 hf with h | h
          · exact absurd h (hnp _)
          · exact h.2
        constructor
        · rintro (h | ⟨h1, h2⟩)
          · exact Or.inl h
          · exact Or.inr ⟨h1, by simp [h2]⟩
        · rintro (h | ⟨h1, h2⟩)
          · exact Or.inl h
          · right
            refine ⟨h1, ?_⟩
            rcases List.mem_append.1 h2 with h2 | h2
            · exact h2
            · rw [List.mem_singleton.1 h2]; exact hc
    · rw [List.takeWhile_cons_of_neg (by rw [hg]; simp), List.all_cons, hg]
      obtain ⟨p, hp, hl⟩ := inGroups_iff.1 hg
      obtain ⟨k, hk⟩ := List.mem_iff_getElem?.1 hp
      have hf := (h c k).2 (Or.inl ⟨p, hk, hl⟩)
      have hlt : k < gs.length := (List.getElem?_eq_some_iff.1 hk).1
      rw [hf]
      simp only [ne_eq, show k ≠ gs.length by omega, not_false_eq_true, if_true]
      exact ⟨e.groupMap, rfl, by simpa using h⟩

theorem lutGroupInner_spec (v : Int) (x : Letter) : ∀ (g : List Letter) (e : ErrorValues),
    ∃ lut, lutGroupInner v x e g = .ok { e with lut := lut } ∧
      ∀ a b : Letter, a.toNat < 512 → b.toNat < 512 →
        lut (lutOffset a.toNat b.toNat) = if a ≠ b ∧ ((a = x ∧ b ∈ g) ∨ (b = x ∧ a ∈ g)) then v
          else e.lut (lutOffset a.toNat b.toNat) := by
  intro g
  induction g with
  | nil => intro e; exact ⟨e.lut, rfl, by simp⟩
  | cons y g ih =>
    intro e
    rw [lutGroupInner]
    by_cases hxy : x = y
    · subst hxy
      rw [if_pos rfl]
      obtain ⟨lut, e1, h1⟩ := ih e
      refine ⟨lut, e1, ?_⟩
      intro a b ha hb
      rw [h1 a b ha hb]
      congr 1
      apply propext
      simp only [List.mem_cons]
      constructor
      · rintro ⟨h3, ⟨h1, h2⟩ | ⟨h1, h2⟩⟩
        · exact ⟨h3, Or.inl ⟨h1, Or.inr h2⟩⟩
        · exact ⟨h3, Or.inr ⟨h1, Or.inr h2⟩⟩
      · rintro ⟨h3, ⟨h1, h2 | h2⟩ | ⟨h1, h2 | h2⟩⟩
        · exact absurd (h1.trans h2.symm) h3
        · exact ⟨h3, Or.inl ⟨h1, h2⟩⟩
        · exact absurd (h2.trans h1.symm) h3
        · exact ⟨h3, Or.inr ⟨h1, h2⟩⟩
    · rw [if_neg hxy]
      obtain ⟨lut0, e0, h0⟩ := addToLUT_spec e x y v
      rw [e0, ok_bind]
      obtain ⟨lut, e1, h1⟩ := ih { e with lut := lut0 }
      refine ⟨lut, e1, ?_⟩
      intro a b ha hb
      rw [h1 a b ha hb]
      simp only [h0 a b ha hb, samePair_iff, List.mem_cons]
      by_cases hp : a ≠ b ∧ ((a = x ∧ b ∈ g) ∨ (b = x ∧ a ∈ g))
      · rw [if_pos hp, if_pos]
        rcases hp with ⟨h1, h2 | h2⟩
        · exact ⟨h1, Or.inl ⟨h2.1, Or.inr h2.2⟩⟩
        · exact ⟨h1, Or.inr ⟨h2.1, Or.inr h2.2⟩⟩
      · rw [if_neg hp]
        congr 1
        apply propext
        constructor
        · rintro (⟨rfl, rfl⟩ | ⟨rfl, rfl⟩)
          · exact ⟨hxy, Or.inl ⟨rfl, Or.inl rfl⟩⟩
          · exact ⟨Ne.symm hxy, Or.inr ⟨rfl, Or.inl rfl⟩⟩
        · rintro ⟨h3, ⟨h1, h2 | h2⟩ | ⟨h1, h2 | h2⟩⟩
          · exact Or.inl ⟨h1, h2⟩
          · exact absurd ⟨h3, Or.inl ⟨h1, h2⟩⟩ hp
          · exact Or.inr ⟨h2, h1⟩
          · exact absurd ⟨h3, Or.inr ⟨h1, h2⟩⟩ hp

theorem addGroupErrorToLUT_spec (v : Int) : ∀ (g : List Letter) (e : ErrorValues),
    ∃ lut, addGroupErrorToLUT v e g = .ok { e with lut := lut } ∧
      ∀ a b : Letter, a.toNat < 512 → b.toNat < 512 →
        lut (lutOffset a.toNat b.toNat) = if a ∈ g ∧ b ∈ g ∧ a ≠ b then v else e.lut (lutOffset a.toNat b.toNat) := by
  intro g
  induction g with
  | nil => intro e; exact ⟨e.lut, rfl, by simp⟩
  | cons x g ih =>
    intro e
    obtain ⟨lut0, e0, h0⟩ := lutGroupInner_spec v x (x :: g) e
    rw [addGroupErrorToLUT, e0, ok_bind]
    obtain ⟨lut, e1, h1⟩ := ih { e with lut := lut0 }
    refine ⟨lut, e1, ?_⟩
    intro a b ha hb
    rw [h1 a b ha hb]
    simp only [h0 a b ha hb]
    by_cases hp : a ∈ g ∧ b ∈ g ∧ a ≠ b
    · rw [if_pos hp, if_pos ⟨List.mem_cons_of_mem _ hp.1, List.mem_cons_of_mem _ hp.2.1, hp.2.2⟩]
    · rw [if_neg hp]
      congr 1
      apply propext
      simp only [List.mem_cons]
      constructor
      · rintro ⟨h1, ⟨rfl, h2⟩ | ⟨rfl, h2⟩⟩
        · exact ⟨Or.inl rfl, h2, h1⟩
        · exact ⟨h2, Or.inl rfl, h1⟩
      · rintro ⟨h1, h2, h3⟩
        refine ⟨h3, ?_⟩
        rcases h1 with rfl | h1
        · exact Or.inl ⟨rfl, h2⟩
        · rcases h2 with rfl | h2
          · exact Or.inr ⟨rfl, Or.inr h1⟩
          · exact absurd ⟨h1, h2, h3⟩ hp

/-- The settings other than substitution costs are the same. -/
def SameSettings (e e' : ErrorValues) : Prop :=
  e'.insertionError = e.insertionError ∧ e'.deletionError = e.deletionError ∧ e'.endDeletionError = e.endDeletionError ∧
    e'.startInsertionError = e.startInsertionError ∧ e'.transposeError = e.transposeError ∧
    e'.substringStartLimit = e.substringStartLimit

theorem SameSettings.refl (e : ErrorValues) : SameSettings e e := ⟨rfl, rfl, rfl, rfl, rfl, rfl⟩

theorem SameSettings.trans {e e1 e2 : ErrorValues} (h : SameSettings e e1) (h' : SameSettings e1 e2) :
    SameSettings e e2 :=
  ⟨h'.1.trans h.1, h'.2.1.trans h.2.1, h'.2.2.1.trans h.2.2.1, h'.2.2.2.1.trans h.2.2.2.1,
    h'.2.2.2.2.1.trans h.2.2.2.2.1, h'.2.2.2.2.2.trans h.2.2.2.2.2⟩

theorem EInv.setGroupError {e : ErrorValues} {h : List Ev} (hi : EInv e h) (g : List Letter) (v : Int) :
    ∃ e', e.setGroupError g v = (e', if accepted h g then none else some .runtimeError) ∧
      EInv e' (.group g v :: h) ∧ SameSettings e e' := by
  rw [ErrorValues.setGroupError]
  have hlen : e.groupErrors.length = (groups h).length := by rw [hi.errors, List.length_map]
  obtain ⟨m, e1, h1⟩ := groupLoop_spec (groups h) g [] { e with groupErrors := e.groupErrors ++ [v] }
    (by intro l k; simp only [List.not_mem_nil, and_false, or_false]; exact hi.map l k) (by simp)
  simp only [hlen, e1]
  have hmap : ∀ (l : Letter) (k : Nat), SMap.find ltLetter m l = some k ↔
      ∃ p, (groups (.group g v :: h))[k]? = some p ∧ l ∈ p.1 := by
    intro l k
    rw [h1 l k, groups, List.nil_append]
    constructor
    · rintro (⟨p, h2, h3⟩ | ⟨rfl, h2⟩)
      · exact ⟨p, by rw [List.getElem?_append_left (List.getElem?_eq_some_iff.1 h2).1]; exact h2, h3⟩
      · exact ⟨_, List.getElem?_concat_length, h2⟩
    · rintro ⟨p, h2, h3⟩
      rw [List.getElem?_append] at h2
      split at h2
      · exact Or.inl ⟨p, h2, h3⟩
      · right
        have hk : k = (groups h).length := by
          have := (List.getElem?_eq_some_iff.1 h2).1
          simp only [List.length_singleton] at this; omega
        subst hk
        simp only [Nat.sub_self, List.getElem?_cons_zero, Option.some.injEq] at h2
        subst h2
        exact ⟨rfl, h3⟩
  have herr : e.groupErrors ++ [v] = (groups (.group g v :: h)).map (·.2) := by
    rw [groups, List.map_append, hi.errors]; rfl
  rw [show (g.all fun l => !inGroups (groups h) l) = accepted h g from rfl]
  cases ha : accepted h g with
  | true =>
    simp only [Bool.not_true]
    obtain ⟨lut, e2, h2⟩ := addGroupErrorToLUT_spec v g
      { { e with groupErrors := e.groupErrors ++ [v] } with groupMap := m }
    simp only at e2
    rw [e2]
    refine ⟨_, rfl, ⟨hi.sub, ?_, hi.single, herr, hmap⟩, ⟨rfl, rfl, rfl, rfl, rfl, rfl⟩⟩
    intro a b hla hlb
    simp only
    rw [h2 a b hla hlb, tableCost, hi.lut a b hla hlb, ha]
    simp only [true_and]
  | false =>
    simp only [Bool.not_false]
    refine ⟨_, rfl, ⟨hi.sub, ?_, hi.single, herr, hmap⟩, ⟨rfl, rfl, rfl, rfl, rfl, rfl⟩⟩
    intro a b hla hlb
    simp only
    rw [hi.lut a b hla hlb, tableCost, ha]
    simp

/-- The slow path. -/
theorem EInv.slow {e : ErrorValues} {h : List Ev} (hi : EInv e h) (a b : Letter) :
    e.substituteErrorSlow a b = .ok (mapCost h a b) := by
  rw [substituteErrorSlow, mapCost]
  split
  · rfl
  · have hs : SMap.find ltLL e.singleErrors (ordered a b) = singleCost h a b := by
      rw [← Prod.eta (ordered a b), hi.single _ _ (ordered_le a b)]
      rcases ordered_pair a b with h' | h' <;> rw [h']
      exact singleCost_comm h a b
    simp only
    rw [hs]
    have hg : groupCost h (ordered a b).1 (ordered a b).2 = groupCost h a b := by
      rcases ordered_pair a b with h' | h' <;> rw [h']
      exact groupCost_comm h a b
    rw [← hg]
    generalize (ordered a b).1 = x
    generalize (ordered a b).2 = y
    cases singleCost h a b with
    | some v => rfl
    | none =>
      simp only
      cases h1 : SMap.find ltLetter e.groupMap y with
      | none =>
        have : groupCost h x y = none := by
          rw [groupCost, Option.map_eq_none_iff, List.find?_eq_none]
          intro p hp hc
          simp only [Bool.and_eq_true, decide_eq_true_eq] at hc
          obtain ⟨k, hk⟩ := List.mem_iff_getElem?.1 hp
          rw [(hi.map y k).2 ⟨p, hk, hc.2⟩] at h1; cases h1
        rw [this, Option.getD_none, hi.sub]
      | some k1 =>
        simp only
        obtain ⟨p1, hk1, hp1⟩ := (hi.map y k1).1 h1
        cases h2 : SMap.find ltLetter e.groupMap x with
        | none =>
          have : groupCost h x y = none := by
            rw [groupCost, Option.map_eq_none_iff, List.find?_eq_none]
            intro p hp hc
            simp only [Bool.and_eq_true, decide_eq_true_eq] at hc
            obtain ⟨k, hk⟩ := List.mem_iff_getElem?.1 hp
            rw [(hi.map x k).2 ⟨p, hk, hc.1⟩] at h2; cases h2
          rw [this, Option.getD_none, hi.sub]
        | some k2 =>
          simp only
          obtain ⟨p2, hk2, hp2⟩ := (hi.map x k2).1 h2
          split
          · rename_i e12
            subst e12
            rw [hk1] at hk2; injection hk2 with hk2; subst hk2
            have hge : e.groupErrors[k1]? = some p1.2 := by rw [hi.errors, List.getElem?_map, hk1]; rfl
            rw [hge]
            have : groupCost h x y = some p1.2 := by
              rw [groupCost, Option.map_eq_some_iff]
              refine ⟨p1, ?_, rfl⟩
              cases hf : (groups h).find? fun p => decide (x ∈ p.1) && decide (y ∈ p.1) with
              | none =>
                have := List.find?_eq_none.1 hf p1 (List.mem_of_getElem? hk1)
                simp [hp1, hp2] at this
              | some q =>
                have hq := List.find?_some hf
                simp only [Bool.and_eq_true, decide_eq_true_eq] at hq
                obtain ⟨j, hj⟩ := List.mem_iff_getElem?.1 (List.mem_of_find?_eq_some hf)
                have := groups_unique hj hk1 hq.2 hp1
                subst this
                rw [hj] at hk1; exact hk1
            rw [this]; rfl
          · rename_i e12
            have : groupCost h x y = none := by
              rw [groupCost, Option.map_eq_none_iff, List.find?_eq_none]
              intro p hp hc
              simp only [Bool.and_eq_true, decide_eq_true_eq] at hc
              obtain ⟨k, hk⟩ := List.mem_iff_getElem?.1 hp
              exact e12 ((groups_unique hk1 hk hp1 hc.2).trans (groups_unique hk hk2 hc.1 hp2))
            rw [this, Option.getD_none, hi.sub]

/-- The central fact: the cost of every pair after a history. -/
theorem EInv.cost {e : ErrorValues} {h : List Ev} (hi : EInv e h) (a b : Letter) :
    e.getSubstituteError a b = .ok (cost h a b) := by
  rw [getSubstituteError, ErrorValues.cost]
  simp only [show LUT_LETTERS = 512 from rfl]
  split
  · rename_i hab
    have : lutOffset a.toNat b.toNat < LUT_SIZE := by
      rw [lutOffset_eq hab.2, show LUT_SIZE = 262144 from rfl]; omega
    rw [if_pos this, hi.lut a b hab.1 hab.2]
  · exact hi.slow a b

theorem EInv.isInGroup {e : ErrorValues} {h : List Ev} (hi : EInv e h) (l : Letter) :
    e.isInGroup l = inGroups (groups h) l := by
  rw [ErrorValues.isInGroup, Bool.eq_iff_iff, Option.isSome_iff_exists, inGroups_iff]
  constructor
  · rintro ⟨k, hk⟩
    obtain ⟨p, h1, h2⟩ := (hi.map l k).1 hk
    exact ⟨p, List.mem_of_getElem? h1, h2⟩
  · rintro ⟨p, h1, h2⟩
    obtain ⟨k, hk⟩ := List.mem_iff_getElem?.1 h1
    exact ⟨k, (hi.map l k).2 ⟨p, hk, h2⟩⟩

end ErrorValues
end Columbus
