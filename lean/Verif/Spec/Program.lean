import Verif.Spec.Matcher
/-
Programs: sequences of calls on one matcher.
-/

namespace Columbus.Spec
open Columbus

/-- A call of the public interface of `Matcher`. -/
inductive Call where
  | index (c : Corpus)
  | search (q : WordList) (p : SearchParameters)
  | online (q : WordList) (f : Word)
  | errors (op : ErrOp)
  | weight (f : Word) (v : ℚ)

/-- What a call returns: nothing or an exception (`index` and the setters); results or an exception. -/
inductive Outcome where
  | done (o : Option Fault)
  | set (o : Option Fault)
  | results (r : M MatchResults)

/-- Does the program go on? It catches exceptions. After a refusal of memory the matcher cannot be used, and there is no
going on from undefined behaviour or a failed assertion. Exceptions of the setters of prices leave the matcher usable. -/
def Outcome.goesOn : Outcome → Bool
  | .done (some f) => decide (f = .outOfRange ∨ f = .invalidArgument)
  | .results (.error f) => decide (f = .outOfRange ∨ f = .invalidArgument)
  | _ => true

/-- One call. -/
def Call.run [Build] [Icu] [Runtime] [Fp] (m : Matcher) : Call → Matcher × Outcome
  | .index c => ((m.index c).1, .done (m.index c).2)
  | .search q p => ((m.matchQuery q p).1, .results (m.matchQuery q p).2)
  | .online q f => ((m.onlineMatch q f).1, .results (m.onlineMatch q f).2)
  | .errors op => ({ m with e := (op.run m.e).1 }, .set (op.run m.e).2)
  | .weight f v => ({ m with weights := IndexWeights.setWeight m.weights f v }, .set none)

/-- A program: the matcher at the end, and the outcomes of the calls made. -/
def runCalls [Build] [Icu] [Runtime] [Fp] (m : Matcher) : List Call → Matcher × List Outcome
  | [] => (m, [])
  | c :: r =>
    if (c.run m).2.goesOn then ((runCalls (c.run m).1 r).1, (c.run m).2 :: (runCalls (c.run m).1 r).2)
    else ((c.run m).1, [(c.run m).2])

/-- The texts indexed after a call. -/
def Call.texts (H : MatcherHistory) : Call → MatcherHistory
  | .index c => H ++ beforeEmpty (corpusTexts c)
  | _ => H

/-- The prices after a call. -/
def Call.prices [Build] [Icu] (e : ErrorValues) : Call → ErrorValues
  | .errors op => (op.run e).1
  | _ => e

/-- The words that a call mentions in filters. -/
def Call.filterWords : Call → List Word
  | .search _ p => Spec.filterWords p.filter
  | _ => []

/-- A call that a caller may make when `H` is indexed and `e` are the prices. -/
def Call.Ok [Build] (e : ErrorValues) (H : MatcherHistory) : Call → Prop
  | .index c => CorpusOk c
  | .search q p => Sane e q H ∧ ∀ w ∈ Spec.filterWords p.filter, Usable w
  | .online q f => Sane e q H ∧ (∀ w ∈ q, Usable w) ∧ Usable f
  | _ => True

/-- A sequence of such calls. -/
def CallsOk [Build] [Icu] (e : ErrorValues) (H : MatcherHistory) : List Call → Prop
  | [] => True
  | c :: r => c.Ok e H ∧ CallsOk (c.prices e) (c.texts H) r

/-- The letters that a call may have to store. -/
def Call.letters : Call → Nat
  | .index c => lettersIn (corpusTexts c).mentions
  | .search _ p => lettersIn (Spec.filterWords p.filter)
  | _ => 0

/-- Every field of an `onlineMatch` is the name of something indexed before, or not mentioned in the filters before.
(For the others see C52.) -/
def FieldsClear (H : MatcherHistory) (K : List Word) : List Call → Prop
  | [] => True
  | c :: r => (∀ q f, c = .online q f → f ∈ H.mentions ∨ f ∉ K) ∧ FieldsClear (c.texts H) (K ++ c.filterWords) r

/-- The outcomes show the same: the same exception or results with the same documents. -/
inductive Outcome.Alike : Outcome → Outcome → Prop
  | same (o : Outcome) : Alike o o
  | results {r1 r2 : MatchResults} {k1 k2 : List Result} : Shows r1 k1 → Shows r2 k2 →
      (∀ d, d ∈ k1.map (·.2) ↔ d ∈ k2.map (·.2)) → Alike (.results (.ok r1)) (.results (.ok r2))

/-- A search that can make no new word known: `onlineMatch`, or `match` with a filter of indexed words. -/
def Call.Quiet (H : MatcherHistory) : Call → Prop
  | .search _ p => ∀ w ∈ Spec.filterWords p.filter, w ∈ H.mentions
  | .online _ _ => True
  | _ => False

end Columbus.Spec
