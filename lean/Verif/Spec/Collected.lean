import Verif.Model.Levenshtein
/-
Specification of match containers: what was collected since the last `clear`.
-/

namespace Columbus.Spec
open Columbus

/-- The container can have arisen by public calls; `L` lists what the searches since the last `clear` found, each with
its query. What a search finds is told by the same search with a new container. -/
inductive Collected [Build] [Runtime] : IndexMatches → List (Word × MatchData) → Prop
  | new : Collected IndexMatches.new []
  | clear {ms L} : Collected ms L → Collected ms.clear []
  | find {ms L} (ix : LevIndex) (q : Word) (e : ErrorValues) (T : Int) {ms' alone : IndexMatches} : Collected ms L →
      ix.findWords q e T ms = .ok ms' → ix.findWords q e T IndexMatches.new = .ok alone →
      Collected ms' (L ++ alone.map fun d => (q, d))

end Columbus.Spec
