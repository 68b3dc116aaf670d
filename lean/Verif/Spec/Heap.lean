import Verif.Model.Heap
import Verif.Spec.Matcher
/-
Specification of indexing that stops for want of memory.
-/

namespace Columbus.Spec
open Columbus

/-- `Upto T D C`: of the texts `T`, the part `D` has been indexed, a text possibly not to its end; `C` is the same part,
or has one more word, whose document was not noted. -/
inductive Upto : MatcherHistory → MatcherHistory → MatcherHistory → Prop
  | between (D b : MatcherHistory) : Upto (D ++ b) D D
  | inside (a : MatcherHistory) (x : Indexed) (b : MatcherHistory) (ws rest C : WordList) : x.words = ws ++ rest →
      (C = ws ∨ ∃ w r, rest = w :: r ∧ C = ws ++ [w]) →
      Upto (a ++ x :: b) (a ++ [{ x with words := ws }]) (a ++ [{ x with words := C }])

/-- Stops after which the matcher can be used on: an empty word or field name, or memory refused where nothing is left
half done. -/
def Stop.Harmless : Stop → Prop
  | .fault f => f = .outOfRange
  | .refused p => p ≠ .identifier ∧ p ≠ .count

/-- Some calls of `index`, each with the requests it makes of the heap: where all end normally or with a harmless stop,
the matcher afterwards and the outcomes. -/
inductive Calls [Build] : Matcher → List (Heap × Corpus) → Matcher → List (Option Stop) → Prop
  | nil (m : Matcher) : Calls m [] m []
  | ok {m m' m'' : Matcher} {heap : Heap} {c : Corpus} {k : Nat} {r os} : m.indexHeap heap 0 c = (m', .ok k) → Calls m' r m'' os →
      Calls m ((heap, c) :: r) m'' (none :: os)
  | stop {m m' m'' : Matcher} {heap : Heap} {c : Corpus} {s : Stop} {r os} : m.indexHeap heap 0 c = (m', .error s) →
      Stop.Harmless s → Calls m' r m'' os → Calls m ((heap, c) :: r) m'' (some s :: os)

/-- What some calls with these outcomes have indexed (`D`) and counted (`C`): all of the corpus of a call that returns,
a part of the corpus of another. -/
inductive Gathered : List (Heap × Corpus) → List (Option Stop) → MatcherHistory → MatcherHistory → Prop
  | nil : Gathered [] [] [] []
  | ok {heap : Heap} {c : Corpus} {r os D C} : Gathered r os D C →
      Gathered ((heap, c) :: r) (none :: os) (corpusTexts c ++ D) (corpusTexts c ++ C)
  | stop {heap : Heap} {c : Corpus} {s : Stop} {r os D C D' C'} : Upto (corpusTexts c) D C → Gathered r os D' C' →
      Gathered ((heap, c) :: r) (some s :: os) (D ++ D') (C ++ C')

/-- The texts of all corpora of some calls. -/
def callTexts (calls : List (Heap × Corpus)) : MatcherHistory := calls.flatMap fun x => corpusTexts x.2

end Columbus.Spec
