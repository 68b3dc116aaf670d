import Verif.Spec.Edit
/-
Specification of prices that do not tell the query from the word.
-/

namespace Columbus.Spec
open Columbus

/-- Leaving out a letter has the same price at every place and in both directions, and replacing one letter by another
has the price of the opposite. -/
structure EditCosts.Even (c : EditCosts) : Prop where
  lead : c.lead = c.ins
  startIns : c.startIns = c.ins
  endDel : c.endDel = c.ins
  del : c.del = c.ins
  sub : ∀ a b, c.sub a b = c.sub b a

end Columbus.Spec
