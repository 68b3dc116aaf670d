import Verif.Model.Documents
/-
Specification of the containers of src/MatchResults.cc, Document.cc, ResultFilter.cc, SearchParameters.cc, IndexWeights.cc.
-/

namespace Columbus.Spec
open Columbus

/-- One result: relevancy and document. -/
abbrev Result := ℚ × DocumentID

/-- `l` lists the results of `added` by falling relevancy, equal ones in their order in `added`. -/
def IsRanking (added l : List Result) : Prop :=
  l.Pairwise (fun a b => b.1 ≤ a.1) ∧ ∀ v, l.filter (fun x => x.1 == v) = added.filter (fun x => x.1 == v)

/-- `Filled r added`: some interleaving of adding, copying and reading led to the object `r`, and `added` lists what was
added, in that order. The sources of `addResults` and `copyResult` have histories of their own. -/
inductive Filled : MatchResults → List Result → Prop
  | new : Filled .new []
  | add {r l} (id : DocumentID) (rel : ℚ) : Filled r l → Filled (r.addResult id rel) (l ++ [(rel, id)])
  | addAll {r l o k} : Filled r l → Filled o k → Filled (r.addResults o) (l ++ k)
  | copy {r l o k i x r'} : Filled r l → Filled o k → o.results[i]? = some x → r.copyResult o i = .ok r' →
      Filled r' (l ++ [x])
  | readID {r l i r' d} : Filled r l → r.getDocumentID i = .ok (r', d) → Filled r' l
  | readRelevancy {r l i r' v} : Filled r l → r.getRelevancy i = .ok (r', v) → Filled r' l

/-- The document after the given `addText` calls. -/
def documentOf (id : DocumentID) (h : List (Word × WordList)) : Document :=
  h.foldl (fun d p => d.addText p.1 p.2) (Document.new id)

/-- The text last given for a field. -/
def lastText (h : List (Word × WordList)) (f : Word) : Option WordList := (h.reverse.find? fun p => p.1 == f).map (·.2)

/-- Calls on a filter. -/
inductive FilterOp where
  | newTerm
  | subTerm (field word : Word)

/-- Carry out calls on a filter. -/
def runFilter (f : ResultFilter) : List FilterOp → M ResultFilter
  | [] => .ok f
  | .newTerm :: r => runFilter f.addNewTerm r
  | .subTerm a b :: r => do
    let f ← f.addNewSubTerm a b
    runFilter f r

/-- The terms that a sequence of calls describes, starting inside a first term: `newTerm` separates. -/
def termsOf : List FilterOp → List (List (Word × Word))
  | [] => [[]]
  | .newTerm :: r => [] :: termsOf r
  | .subTerm a b :: r =>
    match termsOf r with
    | [] => [[(a, b)]]
    | t :: ts => ((a, b) :: t) :: ts

/-- Calls on search parameters. -/
inductive ParamOp where
  | setDynamic (b : Bool)
  | addNonsearching (w : Word)
  | filter (o : FilterOp)

/-- Carry out calls on search parameters. -/
def runParams (p : SearchParameters) : List ParamOp → M SearchParameters
  | [] => .ok p
  | .setDynamic b :: r => runParams (p.setDynamic b) r
  | .addNonsearching w :: r => runParams (p.addNonsearchingField w) r
  | .filter .newTerm :: r => runParams { p with filter := p.filter.addNewTerm } r
  | .filter (.subTerm a b) :: r => do
    let f ← p.filter.addNewSubTerm a b
    runParams { p with filter := f } r

/-- The filter calls among calls on search parameters. -/
def filterOps : List ParamOp → List FilterOp
  | [] => []
  | .filter o :: r => o :: filterOps r
  | _ :: r => filterOps r

/-- The weights after the given `setWeight` calls. -/
def weightsOf (h : List (Word × ℚ)) : IndexWeights := h.foldl (fun iw p => IndexWeights.setWeight iw p.1 p.2) []

/-- The weight last given for a field. -/
def lastWeight (h : List (Word × ℚ)) (f : Word) : Option ℚ := (h.reverse.find? fun p => p.1 == f).map (·.2)

end Columbus.Spec
