import Verif.Spec.Text
/-
Specification of dictionaries: words in order of first use.
-/

namespace Columbus.Spec

/-- A usable word: not empty, well-formed, without blanks and NUL letters. -/
structure GoodWord (w : Word) : Prop where
  nonempty : w ≠ []
  wellFormed : ∃ cps, Utf16 w cps
  noBlank : ∀ l ∈ w, ¬ IsBlank l.toNat
  noNul : ∀ l ∈ w, l ≠ 0#16

/-- The distinct elements of a list in order of first occurrence. -/
def distinct {α : Type} [DecidableEq α] : List α → List α
  | [] => []
  | a :: r => a :: (distinct r).filter (· ≠ a)

end Columbus.Spec
