import Verif.Spec.Text
/-
Typing errors.
-/

namespace Columbus.Spec

/-- One typing error: what is typed in place of what is meant, in characters (code points). -/
inductive Typo : List Nat → List Nat → Prop
  | missing (u v : List Nat) (a : Nat) : Typo (u ++ [a] ++ v) (u ++ v)
  | extra (u v : List Nat) (a : Nat) : Typo (u ++ v) (u ++ [a] ++ v)
  | wrong (u v : List Nat) (a b : Nat) : Typo (u ++ [a] ++ v) (u ++ [b] ++ v)
  | swapped (u v : List Nat) (a b : Nat) : Typo (u ++ [a, b] ++ v) (u ++ [b, a] ++ v)

/-- Two neighbouring characters outside the Basic Multilingual Plane are typed in the wrong order, and nothing else. -/
def WideSwap (meant typed : List Nat) : Prop :=
  ∃ u v a b, 0x10000 ≤ a ∧ 0x10000 ≤ b ∧ meant = u ++ [a, b] ++ v ∧ typed = u ++ [b, a] ++ v

end Columbus.Spec
