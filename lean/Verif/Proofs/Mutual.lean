import Verif.Proofs.EditFacts
import Verif.Spec.Mutual
/-
Edit scripts under even prices: swapping, joining and reversing the two words.
-/

namespace Columbus
open Spec

variable {c : EditCosts} {q w : List Letter}

theorem Spec.EditCosts.Even.swap (he : c.Even) {d i : Nat} {v : Int} (h : Script c q w d i v) : Script c w q i d v := by
  induction h with
  | start => exact .start
  | @extra d i v _ hi ih =>
    have := Script.missing (c := c) ih hi
    rw [he.startIns, he.endDel, he.del] at this
    rw [he.lead]
    simpa using this
  | @missing d i v _ hd ih =>
    have := Script.extra (c := c) ih hd
    rw [he.lead] at this
    rw [he.startIns, he.endDel, he.del]
    simpa using this
  | subst _ ha hb ih => rw [he.sub]; exact .subst ih hb ha
  | swap _ h1 h2 h3 h4 ih => exact .swap ih h3 h4 h1 h2

/-- The first script can be carried out in longer words. -/
theorem Spec.EditCosts.Even.longer (he : c.Even) (q' w' : List Letter) {d i : Nat} {v : Int} (h : Script c q w d i v) :
    Script c (q ++ q') (w ++ w') d i v := by
  have up : ∀ {l l' : List Letter} {n : Nat} {a : Letter}, l[n]? = some a → (l ++ l')[n]? = some a := by
    intro l l' n a h
    obtain ⟨hn, _⟩ := List.getElem?_eq_some_iff.1 h
    rw [List.getElem?_append_left hn, h]
  induction h with
  | start => exact .start
  | @extra d i v _ hi ih => exact .extra ih (by rw [List.length_append]; omega)
  | @missing d i v _ hd ih =>
    have := Script.missing (c := c) ih (show d < (w ++ w').length by rw [List.length_append]; omega)
    rw [he.startIns, he.endDel, he.del] at this ⊢
    simpa using this
  | subst _ ha hb ih => exact .subst ih (up ha) (up hb)
  | swap _ h1 h2 h3 h4 ih => exact .swap ih (up h1) (up h2) (up h3) (up h4)

theorem Spec.EditCosts.Even.join (he : c.Even) {q1 w1 : List Letter} {v1 : Int} (h1 : Script c q1 w1 w1.length q1.length v1)
    {d i : Nat} {v : Int} (h : Script c q w d i v) :
    Script c (q1 ++ q) (w1 ++ w) (w1.length + d) (q1.length + i) (v1 + v) := by
  have up : ∀ {p l : List Letter} {n : Nat} {a : Letter}, l[n]? = some a → (p ++ l)[p.length + n]? = some a := by
    intro p l n a h
    rw [List.getElem?_append_right (by omega), Nat.add_sub_cancel_left, h]
  induction h with
  | start => simpa using he.longer q w h1
  | @extra d i v _ hi ih =>
    have := Script.extra (c := c) ih (by rw [List.length_append]; omega)
    rw [he.lead] at this ⊢
    simpa [Int.add_assoc, Nat.add_assoc] using this
  | @missing d i v _ hd ih =>
    have := Script.missing (c := c) ih (by rw [List.length_append]; omega)
    rw [he.startIns, he.endDel, he.del] at this ⊢
    simpa [Int.add_assoc, Nat.add_assoc] using this
  | subst _ ha hb ih =>
    rw [← Int.add_assoc]
    exact .subst ih (up ha) (up hb)
  | swap _ h1 h2 h3 h4 ih =>
    rw [← Int.add_assoc]
    exact .swap ih (up h1) (up h2) (up h3) (up h4)

theorem Spec.EditCosts.Even.join_all (he : c.Even) {q1 w1 : List Letter} {v1 v2 : Int} (h1 : Script c q1 w1 w1.length q1.length v1)
    (h2 : Script c q w w.length q.length v2) :
    Script c (q1 ++ q) (w1 ++ w) (w1 ++ w).length (q1 ++ q).length (v1 + v2) := by
  rw [List.length_append, List.length_append]
  exact he.join h1 h2

theorem reverse_take_succ {l : List Letter} {n : Nat} {a : Letter} (h : l[n]? = some a) :
    (l.take (n + 1)).reverse = [a] ++ (l.take n).reverse := by
  obtain ⟨hn, e⟩ := List.getElem?_eq_some_iff.1 h
  rw [List.take_add_one, h]
  simp

theorem Spec.EditCosts.Even.back (he : c.Even) {d i : Nat} {v : Int} (h : Script c q w d i v) :
    Script c (q.take i).reverse (w.take d).reverse (w.take d).reverse.length (q.take i).reverse.length v := by
  induction h with
  | start => simpa using (Script.start (c := c) (q := []) (w := []))
  | @extra d i v _ hi ih =>
    rw [reverse_take_succ (List.getElem?_eq_getElem hi), Int.add_comm]
    have s : Script c [q[i]] [] 0 1 (0 + c.lead) := by
      simpa using Script.extra (c := c) (q := [q[i]]) (w := []) .start (by simp)
    have := he.join_all (q1 := [q[i]]) (w1 := []) s ih
    rw [he.lead] at this ⊢
    simpa using this
  | @missing d i v _ hd ih =>
    rw [reverse_take_succ (List.getElem?_eq_getElem hd), Int.add_comm]
    have s : Script c [] [w[d]] 1 0 (0 + c.startIns) := by
      simpa using Script.missing (c := c) (q := []) (w := [w[d]]) .start (by simp)
    have := he.join_all (q1 := []) (w1 := [w[d]]) s ih
    rw [he.startIns] at this ⊢
    rw [he.endDel, he.del]
    simpa using this
  | @subst d i v a b _ ha hb ih =>
    rw [reverse_take_succ ha, reverse_take_succ hb, Int.add_comm]
    have s : Script c [a] [b] 1 1 (0 + c.sub a b) := .subst .start rfl rfl
    rw [Int.zero_add] at s
    exact he.join_all (q1 := [a]) (w1 := [b]) s ih
  | @swap d i v a b _ h1 h2 h3 h4 ih =>
    rw [reverse_take_succ h2, reverse_take_succ h1, reverse_take_succ h4, reverse_take_succ h3, Int.add_comm,
      ← List.append_assoc, ← List.append_assoc]
    have s : Script c [b, a] [a, b] 2 2 (0 + c.trans) := .swap .start rfl rfl rfl rfl
    rw [Int.zero_add] at s
    exact he.join_all (q1 := [b, a]) (w1 := [a, b]) s ih

theorem Spec.EditCosts.Even.back_all (he : c.Even) {v : Int} (h : Script c q w w.length q.length v) :
    Script c q.reverse w.reverse w.reverse.length q.reverse.length v := by
  have := he.back h
  rwa [List.take_length, List.take_length] at this

end Columbus
