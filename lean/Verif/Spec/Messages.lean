import Verif.Spec.Program
import Verif.Model.Messages
/-
What the build with debug messages should do.
-/

namespace Columbus.Spec
open Columbus

/-- The letters are well-formed UTF-16. -/
def Printable (w : Word) : Prop := ∃ cps, Utf16 w cps

/-- The bytes are the word as UTF-8. -/
def Printed (w : Word) (s : Bytes) : Prop := ∃ cps, Utf16 w cps ∧ Utf8 s cps

/-- There are `n` things with the property. -/
def Counts {α : Type} (n : Nat) (P : α → Prop) : Prop := ∃ l : List α, l.Nodup ∧ (∀ x, x ∈ l ↔ P x) ∧ n = l.length

/-- The words that a call may have to print are well-formed. (Field names and words of an indexed corpus are covered by
`Call.Ok`.) -/
def Call.Printable : Call → Prop
  | .search q _ => ∀ w ∈ q, Spec.Printable w
  | .online q _ => ∀ w ∈ q, Spec.Printable w
  | .errors (.setGroupError g _) => Spec.Printable g
  | _ => True

end Columbus.Spec

namespace Columbus.Verbose
open Columbus Spec

/-- The message on an index after indexing. -/
def Reported (H : MatcherHistory) (f : Word) (r : Message) : Prop :=
  ∃ s words nodes, r = .index s words nodes ∧ Printed f s ∧ Counts words (fun w => w ∈ H.occurrences f) ∧
    Counts nodes fun r : Word => ∃ w ∈ H.occurrences f, r <+: w

/-- The message on one query word and one field: the limit, and how many words of the field are within it. -/
def TriedOn (e : ErrorValues) (p : SearchParameters) (H : MatcherHistory) (q f : Word) (r : Message) : Prop :=
  ∃ s t n, r = .matched s t (limit p q) n ∧ Printed q s ∧ Printed f t ∧
    Counts n fun w => w ∈ H.occurrences f ∧ ∃ v, IsEditCost (configured e q.length) q w v ∧ v ≤ limit p q

/-- The message on a matched word of a field: how many documents have it there. -/
def GatheredOn (H : MatcherHistory) (f w : Word) (r : Message) : Prop :=
  ∃ s t n, r = .searched s t n ∧ Printed w s ∧ Printed f t ∧ Counts n fun d => H.Posting d f w

/-- The exception of a call, if any. -/
def faultOf {α : Type} : M α → Option Fault
  | .ok _ => none
  | .error f => some f

/-- The output after a call; that of a call that ends in an exception is not kept. -/
def outputOf {α : Type} (out : Output) : M (α × Output) → Output
  | .ok x => x.2
  | .error _ => out

/-- A call of the setters of prices. -/
def errRun [Build] [Icu] (e : ErrorValues) (out : Output) : ErrOp → ErrorValues × M Output
  | .setGroupError g v => setGroupError e g v out
  | .addAccents d greek => addAccents d e greek out
  | .addStandardErrors d => addStandardErrors d e out
  | op => match op.run e with
    | (e, none) => (e, .ok out)
    | (e, some f) => (e, .error f)

/-- One call in the build with debug messages. -/
def run [Build] [Icu] [Runtime] [Fp] (m : Matcher) (out : Output) : Call → Matcher × Outcome × Output
  | .index c => match index m c out with
    | (m, .ok out) => (m, .done none, out)
    | (m, .error f) => (m, .done (some f), out)
  | .search q p => ((matchQuery m q p out).1, .results ((matchQuery m q p out).2.map (·.1)), outputOf out (matchQuery m q p out).2)
  | .online q f => ((onlineMatch m q f out).1, .results ((onlineMatch m q f out).2.map (·.1)), outputOf out (onlineMatch m q f out).2)
  | .errors op => match errRun m.e out op with
    | (e, .ok out) => ({ m with e := e }, .set none, out)
    | (e, .error f) => ({ m with e := e }, .set (some f), out)
  | .weight f v => ({ m with weights := IndexWeights.setWeight m.weights f v }, .set none, out)

/-- A program: the matcher at the end, the outcomes of the calls made and the output. -/
def runCalls [Build] [Icu] [Runtime] [Fp] (m : Matcher) (out : Output) : List Call → Matcher × List Outcome × Output
  | [] => (m, [], out)
  | c :: r =>
    match run m out c with
    | (m, o, out) =>
      if o.goesOn then
        match runCalls m out r with
        | (m, os, out) => (m, o :: os, out)
      else (m, [o], out)

end Columbus.Verbose
