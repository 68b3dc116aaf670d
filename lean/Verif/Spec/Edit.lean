import Verif.Model.Basic
/-
Specification of approximate matching: edit scripts and their cost.
-/

namespace Columbus.Spec
open Columbus

/-- Prices of the edit operations that turn a query into a word. -/
structure EditCosts where
  /-- a letter of the query that the word does not have, before the first letter of the word -/
  lead : Int
  /-- any other letter of the query that the word does not have -/
  ins : Int
  /-- a letter of the word before the first letter of the query -/
  startIns : Int
  /-- a letter of the word after the last letter of the query -/
  endDel : Int
  /-- any other letter of the word that the query does not have -/
  del : Int
  /-- two adjacent letters in the other order -/
  trans : Int
  /-- a letter of the query instead of a letter of the word -/
  sub : Letter → Letter → Int

/-- All prices are between `-B` and `B`. -/
def EditCosts.Within (c : EditCosts) (B : Int) : Prop :=
  (-B ≤ c.lead ∧ c.lead ≤ B) ∧ (-B ≤ c.ins ∧ c.ins ≤ B) ∧ (-B ≤ c.startIns ∧ c.startIns ≤ B) ∧
  (-B ≤ c.endDel ∧ c.endDel ≤ B) ∧ (-B ≤ c.del ∧ c.del ≤ B) ∧ (-B ≤ c.trans ∧ c.trans ≤ B) ∧
  ∀ a b, -B ≤ c.sub a b ∧ c.sub a b ≤ B

/-- No price is negative. -/
def EditCosts.NonNeg (c : EditCosts) : Prop :=
  0 ≤ c.lead ∧ 0 ≤ c.ins ∧ 0 ≤ c.startIns ∧ 0 ≤ c.endDel ∧ 0 ≤ c.del ∧ 0 ≤ c.trans ∧ ∀ a b, 0 ≤ c.sub a b

/-- No price of `c'` is higher than that of `c`. -/
structure NoDearer (c' c : EditCosts) : Prop where
  lead : c'.lead ≤ c.lead
  ins : c'.ins ≤ c.ins
  startIns : c'.startIns ≤ c.startIns
  endDel : c'.endDel ≤ c.endDel
  del : c'.del ≤ c.del
  trans : c'.trans ≤ c.trans
  sub : ∀ a b, c'.sub a b ≤ c.sub a b

/-- Swapping two letters is not cheaper than skipping a letter of the word, or than replacing any letter. -/
def EditCosts.SwapsAreDear (c : EditCosts) : Prop :=
  (c.startIns ≤ c.trans ∧ c.del ≤ c.trans) ∨ ∀ a b, c.sub a b ≤ c.trans

/-- `Script c q w d i v`: the first `i` letters of the query can be turned into the first `d` letters of the word at
price `v`. Each step prices one more letter of either, of both, or an adjacent pair. -/
inductive Script (c : EditCosts) (q w : List Letter) : Nat → Nat → Int → Prop
  | start : Script c q w 0 0 0
  | extra {d i : Nat} {v : Int} : Script c q w d i v → i < q.length → Script c q w d (i + 1) (v + if d = 0 then c.lead else c.ins)
  | missing {d i : Nat} {v : Int} : Script c q w d i v → d < w.length →
      Script c q w (d + 1) i (v + if i = 0 then c.startIns else if i = q.length then c.endDel else c.del)
  | subst {d i : Nat} {v : Int} {a b : Letter} : Script c q w d i v → q[i]? = some a → w[d]? = some b →
      Script c q w (d + 1) (i + 1) (v + c.sub a b)
  | swap {d i : Nat} {v : Int} {a b : Letter} : Script c q w d i v → q[i]? = some a → q[i + 1]? = some b →
      w[d]? = some b → w[d + 1]? = some a → Script c q w (d + 2) (i + 2) (v + c.trans)

/-- The least price of turning the query into the word. -/
def IsEditCost (c : EditCosts) (q w : List Letter) (v : Int) : Prop :=
  Script c q w w.length q.length v ∧ ∀ v', Script c q w w.length q.length v' → v ≤ v'

/-- `Edits q w n`: the query becomes the word by `n` insertions, deletions, substitutions and swaps of adjacent
letters, read from left to right. -/
inductive Edits : List Letter → List Letter → Nat → Prop
  | nil : Edits [] [] 0
  | delete {q w : List Letter} {n : Nat} (a : Letter) : Edits q w n → Edits (q ++ [a]) w (n + 1)
  | insert {q w : List Letter} {n : Nat} (b : Letter) : Edits q w n → Edits q (w ++ [b]) (n + 1)
  | keep {q w : List Letter} {n : Nat} (a : Letter) : Edits q w n → Edits (q ++ [a]) (w ++ [a]) n
  | replace {q w : List Letter} {n : Nat} (a b : Letter) : Edits q w n → Edits (q ++ [a]) (w ++ [b]) (n + 1)
  | swap {q w : List Letter} {n : Nat} (a b : Letter) : Edits q w n → Edits (q ++ [a, b]) (w ++ [b, a]) (n + 1)

/-- The least number of edits. -/
def IsEditDistance (q w : List Letter) (n : Nat) : Prop := Edits q w n ∧ ∀ m, Edits q w m → n ≤ m

end Columbus.Spec
