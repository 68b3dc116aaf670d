import Verif.Model.Exports

/-! What a line of a version script is about. -/

namespace Columbus.Spec

open Exports

/-- The text fits the pattern: every `*` stands for some text, other characters for themselves. -/
inductive Glob : Bytes → Bytes → Prop
  | nil : Glob [] []
  | star {p s} (t : Bytes) : Glob p s → Glob (42 :: p) (t ++ s)
  | char {c p s} : c ≠ 42 → Glob p s → Glob (c :: p) (c :: s)

/-- A line of the script lists a name. -/
def IsAbout : Entry → Bytes → Prop
  | .quoted n, s => s = n
  | .pattern p, s => Glob p s

/-- The name is in the `global:` part for C++. -/
def Global (name : Bytes) : Prop := ∃ e ∈ cppGlobals, IsAbout e name

end Columbus.Spec
