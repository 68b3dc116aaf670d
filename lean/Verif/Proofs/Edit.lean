import Verif.Spec.Edit
import Verif.Proofs.Basic
/-
The dynamic programming table computes the cheapest edit scripts.
-/

namespace Columbus
open Spec

/-- The table. -/
def D (c : EditCosts) (q w : List Letter) : Nat → Nat → Int
  | 0, i => i * c.lead
  | d + 1, 0 => (d + 1 : Nat) * c.startIns
  | d + 1, i + 1 =>
    min (D c q w (d + 1) i + c.ins)
      (min (D c q w d (i + 1) + if q.length ≤ i + 1 then c.endDel else c.del)
        (min (D c q w d i + c.sub (q.getD i 0) (w.getD d 0))
          (if 0 < i ∧ 0 < d ∧ q.getD i 0 = w.getD (d - 1) 0 ∧ q.getD (i - 1) 0 = w.getD d 0
            then D c q w (d - 1) (i - 1) + c.trans
            else D c q w (d + 1) i + c.ins + 10000)))
termination_by d i => (d, i)

variable {c : EditCosts} {q w : List Letter}

theorem D_zero (i : Nat) : D c q w 0 i = i * c.lead := by rw [D]

theorem D_col (d : Nat) : D c q w (d + 1) 0 = (d + 1 : Nat) * c.startIns := by rw [D]

theorem D_col' (hs : D c q w 0 0 = 0) (d : Nat) : D c q w d 0 = d * c.startIns := by
  cases d with
  | zero => rw [hs]; simp
  | succ d => exact D_col d

theorem D_zero_zero : D c q w 0 0 = 0 := by rw [D_zero]; simp

theorem D_succ (d i : Nat) : D c q w (d + 1) (i + 1) =
    min (D c q w (d + 1) i + c.ins)
      (min (D c q w d (i + 1) + if q.length ≤ i + 1 then c.endDel else c.del)
        (min (D c q w d i + c.sub (q.getD i 0) (w.getD d 0))
          (if 0 < i ∧ 0 < d ∧ q.getD i 0 = w.getD (d - 1) 0 ∧ q.getD (i - 1) 0 = w.getD d 0
            then D c q w (d - 1) (i - 1) + c.trans
            else D c q w (d + 1) i + c.ins + 10000))) := by rw [D]

/-- Only the first letters of the word matter. -/
theorem D_congr {w' : List Letter} : ∀ d i : Nat, (∀ j, j < d → w.getD j 0 = w'.getD j 0) →
    D c q w d i = D c q w' d i := by
  suffices h : ∀ n d i, d + i = n → (∀ j, j < d → w.getD j 0 = w'.getD j 0) → D c q w d i = D c q w' d i from
    fun d i => h _ d i rfl
  intro n
  induction n using Nat.strongRecOn with
  | _ n ih =>
    intro d i hn hw
    match d, i with
    | 0, i => rw [D_zero, D_zero]
    | d + 1, 0 => rw [D_col, D_col]
    | d + 1, i + 1 =>
      rw [D_succ, D_succ, ih (d + 1 + i) (by omega) (d + 1) i rfl hw,
        ih (d + (i + 1)) (by omega) d (i + 1) rfl (fun j hj => hw j (by omega)),
        ih (d + i) (by omega) d i rfl (fun j hj => hw j (by omega)),
        ih (d - 1 + (i - 1)) (by omega) (d - 1) (i - 1) rfl (fun j hj => hw j (by omega)), hw d (by omega),
        hw (d - 1) (by omega)]

theorem getD_of_lt {l : List Letter} {i : Nat} (h : i < l.length) : l[i]? = some (l.getD i 0) := by
  rw [List.getD_eq_getElem?_getD, List.getElem?_eq_getElem h]; rfl

theorem getD_of_some {l : List Letter} {i : Nat} {a : Letter} (h : l[i]? = some a) : l.getD i 0 = a := by
  rw [List.getD_eq_getElem?_getD, h]; rfl

theorem lt_of_some {l : List Letter} {i : Nat} {a : Letter} (h : l[i]? = some a) : i < l.length :=
  (List.getElem?_eq_some_iff.1 h).1

/-- The table is attained by a script. -/
theorem D_script : ∀ d i : Nat, d ≤ w.length → i ≤ q.length → Script c q w d i (D c q w d i) := by
  suffices h : ∀ n d i, d + i = n → d ≤ w.length → i ≤ q.length → Script c q w d i (D c q w d i) from
    fun d i => h _ d i rfl
  intro n
  induction n using Nat.strongRecOn with
  | _ n ih =>
    intro d i hn hd hi
    match d, i with
    | 0, 0 => rw [D_zero_zero]; exact .start
    | 0, i + 1 =>
      have := Script.extra (ih (0 + i) (by omega) 0 i rfl hd (by omega)) (by omega)
      rw [if_pos rfl, D_zero] at this
      rw [D_zero]
      have e : (↑(i + 1) : Int) * c.lead = i * c.lead + c.lead := by rw [Int.natCast_add, Int.add_mul]; simp
      rw [e]; exact this
    | d + 1, 0 =>
      have := Script.missing (ih (d + 0) (by omega) d 0 rfl (by omega) hi) (by omega)
      rw [if_pos rfl, D_col' D_zero_zero] at this
      rw [D_col]
      have e : (↑(d + 1) : Int) * c.startIns = d * c.startIns + c.startIns := by rw [Int.natCast_add, Int.add_mul]; simp
      rw [e]; exact this
    | d + 1, i + 1 =>
      have h1 := Script.extra (ih (d + 1 + i) (by omega) (d + 1) i rfl hd (by omega)) (by omega)
      rw [if_neg (by omega)] at h1
      have h2 := Script.missing (ih (d + (i + 1)) (by omega) d (i + 1) rfl (by omega) hi) (by omega)
      have h3 := Script.subst (ih (d + i) (by omega) d i rfl (by omega) (by omega))
        (getD_of_lt (l := q) (i := i) (by omega)) (getD_of_lt (l := w) (i := d) (by omega))
      rw [D_succ]
      generalize ha : D c q w (d + 1) i + c.ins = a at *
      have hb : (if q.length ≤ i + 1 then c.endDel else c.del) =
          (if i + 1 = 0 then c.startIns else if i + 1 = q.length then c.endDel else c.del) := by
        by_cases hq : i + 1 = q.length
        · rw [if_pos (show q.length ≤ i + 1 by omega), if_neg (show ¬ i + 1 = 0 by omega), if_pos hq]
        · rw [if_neg (show ¬ q.length ≤ i + 1 by omega), if_neg (show ¬ i + 1 = 0 by omega), if_neg hq]
      rw [hb]
      generalize D c q w d (i + 1) + (if i + 1 = 0 then c.startIns else if i + 1 = q.length then c.endDel else c.del) = b at *
      generalize D c q w d i + c.sub (q.getD i 0) (w.getD d 0) = s at *
      have h4 : ∃ t, (if 0 < i ∧ 0 < d ∧ q.getD i 0 = w.getD (d - 1) 0 ∧ q.getD (i - 1) 0 = w.getD d 0
            then D c q w (d - 1) (i - 1) + c.trans else a + 10000) = t ∧ (Script c q w (d + 1) (i + 1) t ∨ a < t) := by
        split
        · rename_i hc
          obtain ⟨h1, h2, h3, h4⟩ := hc
          refine ⟨_, rfl, Or.inl ?_⟩
          have hq1 := getD_of_lt (l := q) (i := i - 1) (by omega)
          have hq2 := getD_of_lt (l := q) (i := i) (by omega)
          have hw1 := getD_of_lt (l := w) (i := d - 1) (by omega)
          have hw2 := getD_of_lt (l := w) (i := d) (by omega)
          rw [h4] at hq1
          rw [← h3] at hw1
          have := Script.swap (ih (d - 1 + (i - 1)) (by omega) (d - 1) (i - 1) rfl (by omega) (by omega))
            hq1 (by rw [show i - 1 + 1 = i by omega]; exact hq2) hw1 (by rw [show d - 1 + 1 = d by omega]; exact hw2)
          rw [show d - 1 + 2 = d + 1 by omega, show i - 1 + 2 = i + 1 by omega] at this
          exact this
        · exact ⟨_, rfl, Or.inr (by omega)⟩
      obtain ⟨t, ht, h4⟩ := h4
      rw [ht]
      rcases Int.min_eq_left_or_right a (min b (min s t)) with e | e <;> rw [e]
      · exact h1
      · rcases Int.min_eq_left_or_right b (min s t) with e' | e' <;> rw [e']
        · exact h2
        · rcases Int.min_eq_left_or_right s t with e'' | e'' <;> rw [e'']
          · exact h3
          · rcases h4 with h4 | h4
            · exact h4
            · omega
where
  Int.min_eq_left_or_right (a b : Int) : min a b = a ∨ min a b = b := by omega

/-- The table is below every script. -/
theorem D_le {d i : Nat} {v : Int} (h : Script c q w d i v) : D c q w d i ≤ v := by
  induction h with
  | start => rw [D_zero_zero]; exact Int.le_refl 0
  | @extra d i v _ hi ih =>
    match d with
    | 0 =>
      rw [if_pos rfl]
      rw [D_zero] at ih ⊢
      have e : (↑(i + 1) : Int) * c.lead = i * c.lead + c.lead := by rw [Int.natCast_add, Int.add_mul]; simp
      omega
    | d + 1 =>
      rw [if_neg (by omega), D_succ]; omega
  | @missing d i v _ hd ih =>
    match i with
    | 0 =>
      rw [if_pos rfl]
      rw [D_col' D_zero_zero] at ih ⊢
      have e : (↑(d + 1) : Int) * c.startIns = d * c.startIns + c.startIns := by rw [Int.natCast_add, Int.add_mul]; simp
      omega
    | i + 1 =>
      rw [if_neg (by omega), D_succ]
      by_cases hq : i + 1 = q.length
      · rw [if_pos hq, if_pos (by omega)]; omega
      · rw [if_neg hq]
        by_cases hq2 : q.length ≤ i + 1
        · -- the script cannot have consumed more letters than the query has
          rename_i hs
          have := script_le hs
          omega
        · rw [if_neg hq2]; omega
  | @subst d i v a b _ ha hb ih =>
    rw [D_succ, getD_of_some ha, getD_of_some hb]; omega
  | @swap d i v a b _ ha hb hwb hwa ih =>
    rw [show d + 2 = d + 1 + 1 from rfl, show i + 2 = i + 1 + 1 from rfl, D_succ]
    have hc : 0 < i + 1 ∧ 0 < d + 1 ∧ q.getD (i + 1) 0 = w.getD (d + 1 - 1) 0 ∧ q.getD (i + 1 - 1) 0 = w.getD (d + 1) 0 := by
      refine ⟨by omega, by omega, ?_, ?_⟩
      · rw [getD_of_some hb, Nat.add_sub_cancel, getD_of_some hwb]
      · rw [getD_of_some hwa, Nat.add_sub_cancel, getD_of_some ha]
    rw [if_pos hc, Nat.add_sub_cancel, Nat.add_sub_cancel]
    omega
where
  script_le {d i : Nat} {v : Int} (h : Script c q w d i v) : i ≤ q.length ∧ d ≤ w.length := by
    induction h with
    | start => omega
    | extra _ h ih => omega
    | missing _ h ih => omega
    | subst _ ha hb ih => have := lt_of_some ha; have := lt_of_some hb; omega
    | swap _ ha hb hc hd ih => have := lt_of_some hb; have := lt_of_some hd; omega

/-- The price of the whole word. -/
def best (c : EditCosts) (q w : List Letter) : Int := D c q w w.length q.length

theorem best_isEditCost : IsEditCost c q w (best c q w) :=
  ⟨D_script _ _ (Nat.le_refl _) (Nat.le_refl _), fun _ h => D_le h⟩

theorem isEditCost_iff {v : Int} : IsEditCost c q w v ↔ v = best c q w := by
  constructor
  · rintro ⟨h1, h2⟩
    have := D_le h1
    have := h2 _ best_isEditCost.1
    unfold best; unfold best at this
    omega
  · rintro rfl; exact best_isEditCost

/-! ### Bounds -/

theorem script_within {B : Int} (hB : c.Within B) {d i : Nat} {v : Int} (h : Script c q w d i v) :
    -((d + i : Nat) * B) ≤ v ∧ v ≤ (d + i : Nat) * B := by
  obtain ⟨h1, h2, h3, h4, h5, h6, h7⟩ := hB
  have mulB : ∀ n m : Nat, ((n + m : Nat) : Int) * B = n * B + m * B := by
    intro n m; rw [Int.natCast_add, Int.add_mul]
  have h0 : 0 ≤ B := by omega
  induction h with
  | start => simp
  | @extra d i v _ _ ih =>
    have e := mulB (d + i) 1
    rw [show d + (i + 1) = d + i + 1 by omega, e]
    split <;> omega
  | @missing d i v _ _ ih =>
    have e := mulB (d + i) 1
    rw [show d + 1 + i = d + i + 1 by omega, e]
    repeat' split
    all_goals omega
  | @subst d i v a b _ _ _ ih =>
    have e := mulB (d + i) 2
    rw [show d + 1 + (i + 1) = d + i + 2 by omega, e]
    have := h7 a b
    omega
  | @swap d i v a b _ _ _ _ _ ih =>
    have e := mulB (d + i) 4
    rw [show d + 2 + (i + 2) = d + i + 4 by omega, e]
    omega

theorem D_within {B : Int} (hB : c.Within B) {d i : Nat} (hd : d ≤ w.length) (hi : i ≤ q.length) :
    -((d + i : Nat) * B) ≤ D c q w d i ∧ D c q w d i ≤ (d + i : Nat) * B :=
  script_within hB (D_script d i hd hi)

end Columbus
