import Mathlib.Data.List.Dedup
import Verif.Spec.Matcher
/-
Specification of the memory of a matcher (C94).
-/

namespace Columbus.Spec

/-- The number of distinct prefixes of some words, the empty one included. -/
def prefixCount (ws : List Word) : Nat := ([] :: ws.flatMap List.inits).dedup.length

/-- The least of 1024 and its doublings above 4 bytes and 32 for each of so many prefixes. -/
def Room (prefixes size : Nat) : Prop :=
  ∃ j, size = 1024 * 2^j ∧ 4 + 32 * prefixes < size ∧ ∀ i, 4 + 32 * prefixes < 1024 * 2^i → j ≤ i

end Columbus.Spec
