import Verif.Spec.Text
import Verif.Spec.Edit

/-! Differences between texts in characters, not in letters of the library. -/

namespace Columbus.Spec

/-- `TextEdits q w n`: one text becomes the other by `n` insertions, deletions and replacements of characters (code points)
and swaps of adjacent characters, read from left to right. -/
inductive TextEdits : List Nat → List Nat → Nat → Prop
  | nil : TextEdits [] [] 0
  | delete {q w : List Nat} {n : Nat} (a : Nat) : TextEdits q w n → TextEdits (q ++ [a]) w (n + 1)
  | insert {q w : List Nat} {n : Nat} (b : Nat) : TextEdits q w n → TextEdits q (w ++ [b]) (n + 1)
  | keep {q w : List Nat} {n : Nat} (a : Nat) : TextEdits q w n → TextEdits (q ++ [a]) (w ++ [a]) n
  | replace {q w : List Nat} {n : Nat} (a b : Nat) : TextEdits q w n → TextEdits (q ++ [a]) (w ++ [b]) (n + 1)
  | swap {q w : List Nat} {n : Nat} (a b : Nat) : TextEdits q w n → TextEdits (q ++ [a, b]) (w ++ [b, a]) (n + 1)

/-- The least number of edits. -/
def IsTextDistance (q w : List Nat) (n : Nat) : Prop := TextEdits q w n ∧ ∀ m, TextEdits q w m → n ≤ m

end Columbus.Spec
