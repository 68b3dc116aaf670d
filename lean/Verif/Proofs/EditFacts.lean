import Verif.Proofs.FindWords
/-
Facts about cheapest edit scripts.
-/

namespace Columbus
open Spec

variable {c : EditCosts} {q w : Word}

theorem script_nonneg (hn : c.NonNeg) {d i : Nat} {v : Int} (h : Script c q w d i v) : 0 ≤ v := by
  obtain ⟨h1, h2, h3, h4, h5, h6, h7⟩ := hn
  induction h with
  | start => exact Int.le_refl 0
  | extra _ _ ih => split <;> omega
  | missing _ _ ih => repeat' split
                      all_goals omega
  | @subst _ _ _ a b _ _ _ ih => have := h7 a b; omega
  | swap _ _ _ _ _ ih => omega

theorem script_bounds {d i : Nat} {v : Int} (h : Script c q w d i v) : i ≤ q.length ∧ d ≤ w.length := D_le.script_le h

/-- A script visits every row, or swaps over it. -/
theorem script_rows (hn : c.NonNeg) {d i : Nat} {v : Int} (h : Script c q w d i v) : ∀ r, r ≤ d →
    (∃ i' v', Script c q w r i' v' ∧ v' ≤ v) ∨
    (∃ i' v', 1 ≤ r ∧ r < w.length ∧ i' + 1 < q.length ∧ Script c q w (r - 1) i' v' ∧ v' + c.trans ≤ v) := by
  obtain ⟨h1, h2, h3, h4, h5, h6, h7⟩ := hn
  have weaken : ∀ {r : Nat} {v v2 : Int}, v ≤ v2 →
      ((∃ i' v', Script c q w r i' v' ∧ v' ≤ v) ∨
        (∃ i' v', 1 ≤ r ∧ r < w.length ∧ i' + 1 < q.length ∧ Script c q w (r - 1) i' v' ∧ v' + c.trans ≤ v)) →
      ((∃ i' v', Script c q w r i' v' ∧ v' ≤ v2) ∨
        (∃ i' v', 1 ≤ r ∧ r < w.length ∧ i' + 1 < q.length ∧ Script c q w (r - 1) i' v' ∧ v' + c.trans ≤ v2)) := by
    rintro r v v2 hv (⟨i', v', a, b⟩ | ⟨i', v', a, b, x, y, z⟩)
    · exact Or.inl ⟨i', v', a, by omega⟩
    · exact Or.inr ⟨i', v', a, b, x, y, by omega⟩
  induction h with
  | start =>
    intro r hr
    have : r = 0 := by omega
    subst this
    exact Or.inl ⟨0, 0, .start, Int.le_refl _⟩
  | extra _ _ ih =>
    intro r hr
    refine weaken ?_ (ih r hr)
    split <;> omega
  | @missing d i v hs hd ih =>
    intro r hr
    by_cases hrd : r = d + 1
    · subst hrd; exact Or.inl ⟨_, _, Script.missing hs hd, Int.le_refl _⟩
    · refine weaken ?_ (ih r (by omega))
      repeat' split
      all_goals omega
  | @subst d i v a b hs ha hb ih =>
    intro r hr
    by_cases hrd : r = d + 1
    · subst hrd; exact Or.inl ⟨_, _, Script.subst hs ha hb, Int.le_refl _⟩
    · refine weaken ?_ (ih r (by omega))
      have := h7 a b
      omega
  | @swap d i v a b hs ha hb hwb hwa ih =>
    intro r hr
    by_cases hrd : r = d + 2
    · subst hrd; exact Or.inl ⟨_, _, Script.swap hs ha hb hwb hwa, Int.le_refl _⟩
    · by_cases hrd1 : r = d + 1
      · subst hrd1
        exact Or.inr ⟨i, v, by omega, lt_of_some hwa, lt_of_some hb, hs, Int.le_refl _⟩
      · exact weaken (by omega) (ih r (by omega))

/-- A cell of a prefix's row, seen from the whole word. -/
theorem rowOk_of_script {T : Int} {r : Word} (hr : r <+: w) {i : Nat} {v : Int} (hs : Script c q w r.length i v)
    (hv : v ≤ T) : RowOk c q T r := by
  refine ⟨i, (script_bounds hs).1, ?_⟩
  have h1 := D_le hs
  have h2 : D c q r r.length i = D c q w r.length i := by
    apply D_congr
    intro j hj
    obtain ⟨s, rfl⟩ := hr
    rw [List.getD_eq_getElem?_getD, List.getD_eq_getElem?_getD, List.getElem?_append_left hj]
  omega

/-- Nothing is pruned on the way to a word within the limit. -/
theorem rowOk_of_best (hn : c.NonNeg) (hs : c.SwapsAreDear) {T : Int} (hT : best c q w ≤ T) {r : Word} (hr : r <+: w) :
    RowOk c q T r := by
  have hb : Script c q w w.length q.length (best c q w) := best_isEditCost.1
  rcases script_rows hn hb r.length hr.length_le with ⟨i, v, h1, h2⟩ | ⟨i, v, h1, h2, h3, h4, h5⟩
  · exact rowOk_of_script hr h1 (by omega)
  · rcases hs with ⟨hs1, hs2⟩ | hs
    · have := Script.missing h4 (show r.length - 1 < w.length by omega)
      rw [show r.length - 1 + 1 = r.length by omega] at this
      refine rowOk_of_script hr this ?_
      by_cases hi0 : i = 0
      · rw [if_pos hi0]; omega
      · rw [if_neg hi0, if_neg (by omega)]; omega
    · have := Script.subst h4 (getD_of_lt (l := q) (i := i) (by omega)) (getD_of_lt (l := w) (i := r.length - 1) (by omega))
      rw [show r.length - 1 + 1 = r.length by omega] at this
      refine rowOk_of_script hr this ?_
      have := hs (q.getD i 0) (w.getD (r.length - 1) 0)
      omega

/-! ### Equal words and substrings -/

theorem script_shift (x y : Word) (h0 : ∀ a ∈ q, c.sub a a = 0) : ∀ j, j ≤ q.length →
    Script c q (x ++ q ++ y) (x.length + j) j (x.length * c.startIns) := by
  intro j
  induction j with
  | zero =>
    intro _
    have : ∀ d, d ≤ x.length → Script c q (x ++ q ++ y) d 0 (d * c.startIns) := by
      intro d
      induction d with
      | zero => intro _; simpa using Script.start
      | succ d ih =>
        intro hd
        have := Script.missing (ih (by omega)) (by simp; omega)
        rw [if_pos rfl] at this
        have e1 : (((d + 1 : Nat) : Int)) * c.startIns = d * c.startIns + c.startIns := by
          rw [Int.natCast_add, Int.add_mul]; simp
        rw [e1]; exact this
    exact this x.length (Nat.le_refl _)
  | succ j ih =>
    intro hj
    have hlt : j < q.length := by omega
    have := Script.subst (a := q[j]) (b := q[j]) (ih (by omega)) (List.getElem?_eq_getElem hlt) (by
      rw [List.getElem?_append_left (by simp; omega), List.getElem?_append_right (by omega)]
      rw [show x.length + j - x.length = j by omega, List.getElem?_eq_getElem hlt])
    rw [h0 _ (List.getElem_mem hlt), Int.add_zero] at this
    exact this

theorem script_substring (x y : Word) (hq : q ≠ []) (h0 : ∀ a ∈ q, c.sub a a = 0) : ∀ k, k ≤ y.length →
    Script c q (x ++ q ++ y) (x.length + q.length + k) q.length (x.length * c.startIns + k * c.endDel) := by
  intro k
  induction k with
  | zero => intro _; simpa using script_shift x y h0 q.length (Nat.le_refl _)
  | succ k ih =>
    intro hk
    have := Script.missing (ih (by omega)) (by simp; omega)
    have hl : q.length ≠ 0 := by rw [ne_eq, List.length_eq_zero_iff]; exact hq
    rw [if_neg hl, if_pos rfl] at this
    have e1 : (((k + 1 : Nat) : Int)) * c.endDel = k * c.endDel + c.endDel := by
      rw [Int.natCast_add, Int.add_mul]; simp
    rw [e1, ← Int.add_assoc]; exact this

theorem best_substring (x y : Word) (hq : q ≠ []) (h0 : ∀ a ∈ q, c.sub a a = 0) :
    best c q (x ++ q ++ y) ≤ x.length * c.startIns + y.length * c.endDel := by
  have := script_substring x y hq h0 y.length (Nat.le_refl _)
  apply best_isEditCost.2
  simpa [Nat.add_assoc] using this

theorem best_self (hn : c.NonNeg) (h0 : ∀ a ∈ q, c.sub a a = 0) : best c q q = 0 := by
  have h1 := script_shift (c := c) (q := q) [] [] h0 q.length (Nat.le_refl _)
  simp at h1
  have h2 := D_le h1
  have h3 := script_nonneg hn (best_isEditCost (c := c) (q := q) (w := q)).1
  unfold best at h3 ⊢
  omega

theorem rowOk_self (h0 : ∀ a ∈ q, c.sub a a = 0) {T : Int} (hT : 0 ≤ T) {r : Word} (hr : r <+: q) : RowOk c q T r := by
  have h1 := script_shift (c := c) (q := q) [] [] h0 r.length hr.length_le
  simp at h1
  exact rowOk_of_script hr h1 hT

/-! ### Default prices -/

/-- Every edit costs 100. -/
def unitCosts : EditCosts := ⟨100, 100, 100, 100, 100, 100, fun a b => if a = b then 0 else 100⟩

theorem take_succ_of_some {l : List Letter} {i : Nat} {a : Letter} (h : l[i]? = some a) : l.take (i + 1) = l.take i ++ [a] := by
  rw [List.take_add_one, h]; rfl

theorem edits_of_script {d i : Nat} {v : Int} (h : Script unitCosts q w d i v) :
    ∃ n : Nat, v = 100 * n ∧ Edits (q.take i) (w.take d) n := by
  induction h with
  | start => exact ⟨0, rfl, .nil⟩
  | @extra d i v hs hi ih =>
    obtain ⟨n, e, he⟩ := ih
    refine ⟨n + 1, ?_, ?_⟩
    · have : (if d = 0 then unitCosts.lead else unitCosts.ins) = 100 := by split <;> rfl
      rw [this, e]; omega
    · rw [take_succ_of_some (getD_of_lt hi)]; exact .delete _ he
  | @missing d i v hs hd ih =>
    obtain ⟨n, e, he⟩ := ih
    refine ⟨n + 1, ?_, ?_⟩
    · have : (if i = 0 then unitCosts.startIns else if i = q.length then unitCosts.endDel else unitCosts.del) = 100 := by
        repeat' split
        all_goals rfl
      rw [this, e]; omega
    · rw [take_succ_of_some (getD_of_lt hd)]; exact .insert _ he
  | @subst d i v a b hs ha hb ih =>
    obtain ⟨n, e, he⟩ := ih
    rw [take_succ_of_some ha, take_succ_of_some hb]
    by_cases hab : a = b
    · subst hab
      refine ⟨n, ?_, .keep _ he⟩
      show v + (if a = a then 0 else 100) = _
      rw [if_pos rfl]; omega
    · refine ⟨n + 1, ?_, .replace _ _ he⟩
      show v + (if a = b then 0 else 100) = _
      rw [if_neg hab]; omega
  | @swap d i v a b hs ha hb hwb hwa ih =>
    obtain ⟨n, e, he⟩ := ih
    refine ⟨n + 1, ?_, ?_⟩
    · show v + 100 = _
      omega
    · rw [take_succ_of_some hb, take_succ_of_some ha, take_succ_of_some hwa, take_succ_of_some hwb, List.append_assoc,
        List.append_assoc]
      exact .swap _ _ he

theorem prefix_snoc {l m : List Letter} {a : Letter} (h : l ++ [a] <+: m) : l <+: m ∧ m[l.length]? = some a := by
  obtain ⟨s, rfl⟩ := h
  refine ⟨⟨[a] ++ s, by simp⟩, ?_⟩
  rw [List.append_assoc, List.getElem?_append_right (Nat.le_refl _)]; simp

theorem script_of_edits {q' w' : List Letter} {n : Nat} (h : Edits q' w' n) (hq : q' <+: q) (hw : w' <+: w) :
    ∃ v : Int, v ≤ 100 * n ∧ Script unitCosts q w w'.length q'.length v := by
  induction h with
  | nil => exact ⟨0, by simp, .start⟩
  | @delete q' w' n a _ ih =>
    obtain ⟨hq1, hq2⟩ := prefix_snoc hq
    obtain ⟨v, hv, hs⟩ := ih hq1 hw
    have := Script.extra hs (lt_of_some hq2)
    refine ⟨_, ?_, by rw [List.length_append]; exact this⟩
    have : (if w'.length = 0 then unitCosts.lead else unitCosts.ins) = 100 := by split <;> rfl
    rw [this]; omega
  | @insert q' w' n b _ ih =>
    obtain ⟨hw1, hw2⟩ := prefix_snoc hw
    obtain ⟨v, hv, hs⟩ := ih hq hw1
    have := Script.missing hs (lt_of_some hw2)
    refine ⟨_, ?_, by rw [List.length_append]; exact this⟩
    have : (if q'.length = 0 then unitCosts.startIns else if q'.length = q.length then unitCosts.endDel else unitCosts.del) = 100 := by
      repeat' split
      all_goals rfl
    rw [this]; omega
  | @keep q' w' n a _ ih =>
    obtain ⟨hq1, hq2⟩ := prefix_snoc hq
    obtain ⟨hw1, hw2⟩ := prefix_snoc hw
    obtain ⟨v, hv, hs⟩ := ih hq1 hw1
    have := Script.subst hs hq2 hw2
    refine ⟨_, ?_, by simpa using this⟩
    show v + (if a = a then 0 else 100) ≤ _
    rw [if_pos rfl]; omega
  | @replace q' w' n a b _ ih =>
    obtain ⟨hq1, hq2⟩ := prefix_snoc hq
    obtain ⟨hw1, hw2⟩ := prefix_snoc hw
    obtain ⟨v, hv, hs⟩ := ih hq1 hw1
    have := Script.subst hs hq2 hw2
    refine ⟨_, ?_, by simpa using this⟩
    show v + (if a = b then 0 else 100) ≤ _
    split <;> omega
  | @swap q' w' n a b _ ih =>
    rw [show q' ++ [a, b] = q' ++ [a] ++ [b] by simp] at hq
    rw [show w' ++ [b, a] = w' ++ [b] ++ [a] by simp] at hw
    obtain ⟨hq1, hq2⟩ := prefix_snoc hq
    obtain ⟨hq3, hq4⟩ := prefix_snoc hq1
    obtain ⟨hw1, hw2⟩ := prefix_snoc hw
    obtain ⟨hw3, hw4⟩ := prefix_snoc hw1
    obtain ⟨v, hv, hs⟩ := ih hq3 hw3
    have := Script.swap hs hq4 (by simpa using hq2) hw4 (by simpa using hw2)
    refine ⟨_, ?_, by simpa using this⟩
    show v + 100 ≤ _
    omega

/-- With default prices the cost is 100 times the edit distance. -/
theorem best_unit : ∃ n : Nat, best unitCosts q w = 100 * n ∧ IsEditDistance q w n := by
  obtain ⟨n, e, he⟩ := edits_of_script (best_isEditCost (c := unitCosts) (q := q) (w := w)).1
  rw [List.take_length, List.take_length] at he
  refine ⟨n, e, he, ?_⟩
  intro m hm
  obtain ⟨v, hv, hs⟩ := script_of_edits hm (List.prefix_refl q) (List.prefix_refl w)
  have := best_isEditCost.2 v hs
  omega

theorem edits_symm {n : Nat} (h : Edits q w n) : Edits w q n := by
  induction h with
  | nil => exact .nil
  | delete a _ ih => exact .insert a ih
  | insert b _ ih => exact .delete b ih
  | keep a _ ih => exact .keep a ih
  | replace a b _ ih => exact .replace b a ih
  | swap a b _ ih => exact .swap b a ih

theorem edits_refl (q : Word) : Edits q q 0 := by
  induction q using List.reverseRecOn with
  | nil => exact .nil
  | append_singleton q a ih => exact .keep a ih

theorem edits_zero {n : Nat} (h : Edits q w n) : n = 0 → q = w := by
  induction h with
  | nil => intro _; rfl
  | delete => intro h; omega
  | insert => intro h; omega
  | keep a _ ih => intro h; rw [ih h]
  | replace => intro h; omega
  | swap => intro h; omega

/-! ### Words that start differently -/

/-- With default prices apart from the end, a different first letter costs at least 100 (any nonempty query, any price
`x` for letters after the query). -/
theorem script_first {c : EditCosts} (hl : 100 ≤ c.lead) (hi : 100 ≤ c.ins) (hst : 100 ≤ c.startIns) (ht : 100 ≤ c.trans)
    (hd : 0 ≤ c.del) (he : 0 ≤ c.endDel) (hsub : ∀ a b, 0 ≤ c.sub a b) (hne : ∀ a b, a ≠ b → 100 ≤ c.sub a b)
    (hdiff : ∀ a b, q[0]? = some a → w[0]? = some b → a ≠ b) {d i : Nat} {v : Int}
    (h : Script c q w d i v) : (d = 0 ∧ i = 0 ∧ v = 0) ∨ 100 ≤ v := by
  induction h with
  | start => left; simp
  | extra _ _ ih => right; split <;> omega
  | @missing d i v _ _ ih =>
    right
    rcases ih with ⟨_, h2, h3⟩ | ih
    · rw [if_pos h2]; omega
    · repeat' split
      all_goals omega
  | @subst d i v a b _ ha hb ih =>
    right
    rcases ih with ⟨h1, h2, h3⟩ | ih
    · subst h1 h2
      have := hne a b (hdiff a b ha hb)
      omega
    · have := hsub a b; omega
  | @swap d i v a b _ ha hb hwb hwa ih => right; omega

end Columbus
