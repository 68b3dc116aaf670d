import Verif.Model.Scalability
import Verif.Spec.Tools
/-
Specification of test/LevScalabilityTest.cc.
-/

namespace Columbus.Spec
open Columbus

/-- The number of queries asked for by the arguments after the name of the file: the first of them, or else one for each of
the words. -/
def Asked (more : List Bytes) (words : Nat) (number : Int) : Prop :=
  more = [] ∧ number = words ∨ ∃ m rest, more = m :: rest ∧ Limit m number

/-- There are that many words to search for. -/
def Available (number : Int) (words : Nat) : Prop := 0 ≤ number ∧ number ≤ words

end Columbus.Spec
