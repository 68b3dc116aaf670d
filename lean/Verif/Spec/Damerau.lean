import Verif.Spec.Edit
/-
The Damerau-Levenshtein distance, to which hacking.txt refers: the least number of single changes that lead from one word to
another, one after the other.
-/

namespace Columbus.Spec
open Columbus

/-- One change anywhere in a word: a letter inserted, deleted or replaced, or two adjacent letters swapped. -/
inductive Change : Word → Word → Prop
  | insert (u v : Word) (a : Letter) : Change (u ++ v) (u ++ [a] ++ v)
  | delete (u v : Word) (a : Letter) : Change (u ++ [a] ++ v) (u ++ v)
  | replace (u v : Word) (a b : Letter) : Change (u ++ [a] ++ v) (u ++ [b] ++ v)
  | swap (u v : Word) (a b : Letter) : Change (u ++ [a, b] ++ v) (u ++ [b, a] ++ v)

/-- That many changes in a row; each may change what earlier ones left. -/
inductive Changes : Word → Word → Nat → Prop
  | nil (x : Word) : Changes x x 0
  | more {x y z : Word} {n : Nat} : Changes x y n → Change y z → Changes x z (n + 1)

/-- The least number of changes. -/
def IsDamerau (x y : Word) (n : Nat) : Prop := Changes x y n ∧ ∀ m, Changes x y m → n ≤ m

end Columbus.Spec
