import Verif.Model.HeapSearch
/-
`Matcher::onlineMatch` when `new` may refuse memory, as `match` in `Verif.Model.HeapSearch`. What belongs to the matcher and
may grow in this call are the store, through `getID`, and the sizes, through `operator[]`. Everything else is memory of the
call itself: a single request stands for that of a word of the query, of a document with exact words, and of the results.
-/

namespace Columbus.Matcher
variable [Build] [Runtime]

/-- `countExacts` (src/Matcher.cc 391-406) over the remaining query words. The request after `getID` stands for `exacts` and
the nodes of `matchCounts` (400-403). -/
def countExactsHeap (heap : Heap) (ri : ReverseIndex) (indexID : WordID) (k : Nat) (s : WordStore)
    (counts : SMap DocumentID Nat) : WordList → WordStore × Except SearchStop (SMap DocumentID Nat × Nat)
  | [] => (s, .ok (counts, k))
  | w :: ws =>
    if w.length = 0 then countExactsHeap heap ri indexID k s counts ws
    else match s.hasWord w with
      | .error f => (s, .error (.fault f))
      | .ok false => countExactsHeap heap ri indexID k s counts ws
      | .ok true =>
        match s.getIDHeap heap k w with
        | (s, .error e) => (s, .error e.inSearch)
        | (s, .ok (curWord, k)) =>
          if heap k = false then (s, .error .work)
          else countExactsHeap heap ri indexID (k + 1) s (countDocs counts (ReverseIndex.findDocuments ri curWord indexID)) ws

/-- The loops over the counts and `stats` (src/Matcher.cc 426-442). The first request of a round stands for `exactMatched`,
`stats` and `accumulator`, the second is for a size that is missing. -/
def exactLoopHeap [Fp] (heap : Heap) (querySize : Nat) (indexID : WordID) (k : Nat) (sizes : SMap (DocumentID × WordID) Nat)
    (acc : SMap DocumentID ℚ) :
    SMap DocumentID Nat → SMap (DocumentID × WordID) Nat × Except SearchStop (SMap DocumentID ℚ × Nat)
  | [] => (sizes, .ok (acc, k))
  | (id, n) :: r =>
    let base := ofInt (2 * (n : Int))
    if heap k = false then (sizes, .error .work)
    else if n = querySize then
      match SMap.find ltDW sizes (id, indexID) with
      | some size =>
        if n = size then exactLoopHeap heap querySize indexID (k + 1) sizes (SMap.set ltNat acc id (fadd base 100)) r
        else exactLoopHeap heap querySize indexID (k + 1) sizes (SMap.set ltNat acc id base) r
      | none =>
        if heap (k + 1) = false then (sizes, .error .work)
        else
          let sizes := SMap.set ltDW sizes (id, indexID) 0
          if n = 0 then exactLoopHeap heap querySize indexID (k + 2) sizes (SMap.set ltNat acc id (fadd base 100)) r
          else exactLoopHeap heap querySize indexID (k + 2) sizes (SMap.set ltNat acc id base) r
    else exactLoopHeap heap querySize indexID (k + 1) sizes (SMap.set ltNat acc id base) r

/-- `Matcher::onlineMatch` (src/Matcher.cc 413-453); `working` as in `matchHeap`. The first request is for the message
(418-420), the last one for the merged results (444-451). -/
def onlineMatchHeap [Fp] (working : Bool) (heap : Heap) (k : Nat) (m : Matcher) (query : WordList) (primaryIndex : Word) :
    Matcher × Except SearchStop (MatchResults × Nat) :=
  match m.store.hasWord primaryIndex with
  | .error f => (m, .error (.fault f))
  | .ok false =>
    if heap k = false then (m, .error .work)
    else match Word.asUtf8 primaryIndex with
      | .error f => (m, .error (.fault f))
      | .ok _ => (m, .error (.fault .invalidArgument))
  | .ok true =>
    match m.store.getIDHeap heap k primaryIndex with
    | (s, .error e) => ({ m with store := s }, .error e.inSearch)
    | (s, .ok (indexID, k)) =>
      match countExactsHeap heap m.reverseIndex indexID k s [] query with
      | (s, .error e) => ({ m with store := s }, .error e)
      | (s, .ok (counts, k)) =>
        match exactLoopHeap heap query.length indexID k m.originalSizes [] counts with
        | (sizes, .error e) => ({ m with store := s, originalSizes := sizes }, .error e)
        | (sizes, .ok (acc, k)) =>
          match matchHeap working heap k { m with store := s, originalSizes := sizes } query SearchParameters.new with
          | (m, .error e) => (m, .error e)
          | (m, .ok (fuzzy, k)) =>
            if heap k = false then (m, .error .work)
            else match mergeLoop fuzzy acc (List.range fuzzy.size) with
              | .error f => (m, .error (.fault f))
              | .ok acc => (m, .ok (addAll MatchResults.new acc, k + 1))

end Columbus.Matcher
