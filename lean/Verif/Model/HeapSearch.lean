import Verif.Model.Heap
/-
`Matcher::match` when `new` may refuse memory (`std::bad_alloc`), as `index` in `Verif.Model.Heap`. Up to the filter the
call only reads what belongs to the matcher; all its requests there are for memory of its own, and one of them refused
ends it with the matcher as it was. So a single answer stands for them: is some request before the filter refused? The
filter asks the store for identifiers, which adds words to it, and copies results, and there each request is granted or
refused on its own.
-/

namespace Columbus

/-- How a search ends that does not return. -/
inductive SearchStop
  /-- Memory of the call itself is refused (src/Matcher.cc 333-349; src/MatchResults.cc 91). -/
  | work
  /-- `wordIndex.push_back` (src/WordStore.cc 60) for a word of the filter (src/Matcher.cc 240-241). -/
  | identifier
  | fault (f : Fault)
deriving DecidableEq

/-- The end of `getID` as the end of a search. -/
def Stop.inSearch : Stop → SearchStop
  | .refused _ => .identifier
  | .fault f => .fault f

namespace Matcher
variable [Build] [Runtime]

/-- The two `getID` calls of src/Matcher.cc 240-241, in either order. -/
def getIDsHeap (heap : Heap) (k : Nat) (s : WordStore) (value field : Word) :
    WordStore × Except SearchStop ((WordID × WordID) × Nat) :=
  let first := if Runtime.valueFirst then value else field
  let second := if Runtime.valueFirst then field else value
  match s.getIDHeap heap k first with
  | (s, .error e) => (s, .error e.inSearch)
  | (s, .ok (a, k)) =>
    match s.getIDHeap heap k second with
    | (s, .error e) => (s, .error e.inSearch)
    | (s, .ok (b, k)) => (s, .ok (if Runtime.valueFirst then (a, b) else (b, a), k))

/-- The loop of `subtermsMatch` (src/Matcher.cc 237-245). -/
def subtermLoopHeap (heap : Heap) (ri : ReverseIndex) (filter : ResultFilter) (term : Nat) (id : DocumentID) (k : Nat)
    (s : WordStore) : List Nat → WordStore × Except SearchStop (Bool × Nat)
  | [] => (s, .ok (true, k))
  | st :: r =>
    match filter.getField term st with
    | .error f => (s, .error (.fault f))
    | .ok filterName =>
      match filter.getWord term st with
      | .error f => (s, .error (.fault f))
      | .ok value =>
        match getIDsHeap heap k s value filterName with
        | (s, .error e) => (s, .error e)
        | (s, .ok ((v, n), k)) =>
          if ReverseIndex.documentHasTerm ri v n id then subtermLoopHeap heap ri filter term id k s r
          else (s, .ok (false, k))

/-- `subtermsMatch` (src/Matcher.cc 236-247). -/
def subtermsMatchHeap (heap : Heap) (ri : ReverseIndex) (filter : ResultFilter) (term : Nat) (id : DocumentID) (k : Nat)
    (s : WordStore) : WordStore × Except SearchStop (Bool × Nat) :=
  match filter.numSubTerms term with
  | .error f => (s, .error (.fault f))
  | .ok n => subtermLoopHeap heap ri filter term id k s (List.range n)

/-- The loop over the filter terms for one result (src/Matcher.cc 355-360). -/
def termLoopHeap (heap : Heap) (ri : ReverseIndex) (filter : ResultFilter) (id : DocumentID) (k : Nat) (s : WordStore) :
    List Nat → WordStore × Except SearchStop (Bool × Nat)
  | [] => (s, .ok (false, k))
  | t :: ts =>
    match subtermsMatchHeap heap ri filter t id k s with
    | (s, .error e) => (s, .error e)
    | (s, .ok (true, k)) => (s, .ok (true, k))
    | (s, .ok (false, k)) => termLoopHeap heap ri filter id k s ts

/-- The filtering loop of `match` (src/Matcher.cc 353-361); `copyResult` (src/MatchResults.cc 87-93) may be refused. -/
def filterLoopHeap (heap : Heap) (ri : ReverseIndex) (filter : ResultFilter) (k : Nat) (s : WordStore)
    (all matched : MatchResults) : List Nat → WordStore × Except SearchStop (MatchResults × Nat)
  | [] => (s, .ok (matched, k))
  | i :: is =>
    match all.getDocumentID i with
    | .error f => (s, .error (.fault f))
    | .ok (all, id) =>
      match termLoopHeap heap ri filter id k s (List.range filter.numTerms) with
      | (s, .error e) => (s, .error e)
      | (s, .ok (false, k)) => filterLoopHeap heap ri filter k s all matched is
      | (s, .ok (true, k)) =>
        match matched.copyResult all i with
        | .error f => (s, .error (.fault f))
        | .ok matched => if heap k then filterLoopHeap heap ri filter (k + 1) s all matched is else (s, .error .work)

/-- `Matcher::match` (src/Matcher.cc 332-363); `working`: is every request before the filter granted? -/
def matchHeap [Fp] (working : Bool) (heap : Heap) (k : Nat) (m : Matcher) (query : WordList) (params : SearchParameters) :
    Matcher × Except SearchStop (MatchResults × Nat) :=
  if working = false then (m, .error .work)
  else if query.length = 0 then (m, .ok (MatchResults.new, k))
  else match matchLoop m query params MatchResults.new 0 maxIterations with
    | .error f => (m, .error (.fault f))
    | .ok all =>
      match filterLoopHeap heap m.reverseIndex params.filter k m.store all MatchResults.new (List.range all.size) with
      | (s, r) => ({ m with store := s }, r)

end Matcher
end Columbus
