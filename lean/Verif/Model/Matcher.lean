import Verif.Model.Documents
import Verif.Model.Levenshtein
/-
src/Matcher.cc.
-/

namespace Columbus

/-- `ReverseIndexData` (src/Matcher.cc 73): (index name, word) to the set of documents. -/
abbrev ReverseIndex := HMap (WordID × WordID) (List DocumentID)

namespace ReverseIndex

/-- `ReverseIndex::add` (src/Matcher.cc 106-119). -/
def add (ri : ReverseIndex) (wordID indexID : WordID) (id : DocumentID) : ReverseIndex :=
  match HMap.find ri (indexID, wordID) with
  | none => HMap.set ri (indexID, wordID) (hsetInsert [] id)
  | some s => HMap.set ri (indexID, wordID) (hsetInsert s id)

/-- `ReverseIndex::documentHasTerm` (src/Matcher.cc 121-129). -/
def documentHasTerm (ri : ReverseIndex) (wordID indexID : WordID) (id : DocumentID) : Bool :=
  match HMap.find ri (indexID, wordID) with
  | none => false
  | some s => decide (id ∈ s)

/-- `ReverseIndex::findDocuments` (src/Matcher.cc 131-142), in the iteration order of the hash set. -/
def findDocuments [Runtime] (ri : ReverseIndex) (wordID indexID : WordID) : List DocumentID :=
  match HMap.find ri (indexID, wordID) with
  | none => []
  | some s => Runtime.iterDocs s

end ReverseIndex

/-- `MatchErrorMap`, `BestIndexMatches` (src/Matcher.cc 78-80). -/
abbrev MatchErrorMap := SMap WordID Int
abbrev BestIndexMatches := SMap WordID MatchErrorMap

/-- `MatcherPrivate` (src/Matcher.cc 96-104). `os` is the environment handed to every new trie. -/
structure Matcher where
  indexes : HMap WordID LevIndex
  reverseIndex : ReverseIndex
  e : ErrorValues
  weights : IndexWeights
  stats : MatcherStatistics
  store : WordStore
  originalSizes : SMap (DocumentID × WordID) Nat
  os : Nat → Bool

namespace Matcher

/-- Comparator of `map<pair<DocumentID, WordID>, size_t>` (src/Matcher.cc 103). -/
def ltDW : DocumentID × WordID → DocumentID × WordID → Bool := ltPair ltNat ltNat

/-- `Matcher::Matcher` (src/Matcher.cc 249-251). -/
def new [Build] (os : Nat → Bool) : M Matcher := do
  let s ← WordStore.new os
  .ok { indexes := [], reverseIndex := [], e := ErrorValues.new, weights := [], stats := [], store := s,
        originalSizes := [], os := os }

/-! ### Searching -/

/-- The loop of `addMatches` (src/Matcher.cc 158-169) over the remaining matches. -/
def addMatchLoop (best : MatchErrorMap) : IndexMatches → MatchErrorMap
  | [] => best
  | d :: r =>
    match SMap.find ltNat best d.matchedWord with
    | none => addMatchLoop (SMap.set ltNat best d.matchedWord d.error) r
    | some old =>
      if d.error < old then addMatchLoop (SMap.set ltNat best d.matchedWord d.error) r else addMatchLoop best r

/-- `addMatches` (src/Matcher.cc 149-170). -/
def addMatches (best : BestIndexMatches) (indexID : WordID) (ms : IndexMatches) : BestIndexMatches :=
  let cur := match SMap.find ltNat best indexID with
    | none => []
    | some x => x
  SMap.set ltNat best indexID (addMatchLoop cur ms)

/-- `calculateRelevancy` (src/Matcher.cc 177-187). -/
def calculateRelevancy [Build] [Fp] (m : Matcher) (wID indexID : WordID) (error : Int) : M ℚ :=
  match HMap.find m.indexes indexID with
  | none => .error .ub
  | some ind => do
    let errorMultiplier ← fdiv 100 (fadd 100 (ofInt error))
    let indexCount := ind.wordCount wID
    let indexMaxCount := ind.getMaxCount
    cassert (decide (0 < indexCount))
    cassert (decide (0 < indexMaxCount))
    let q ← fdiv (ofInt indexCount) (ofInt ((indexMaxCount : Int) + 1))
    let frequencyMultiplier := fsub 1 q
    let name ← m.store.getWord indexID
    let indexWeightMultiplier := IndexWeights.getWeight m.weights name
    .ok (fmul (fmul errorMultiplier frequencyMultiplier) indexWeightMultiplier)

/-- `maxError` of one query word (src/Matcher.cc 193-198). -/
def wordMaxError (params : SearchParameters) (w : Word) (extraError : Int) : Int :=
  (if params.isDynamic then params.getDynamicError w else 2 * 100) + extraError

/-- The loop over the field indexes (src/Matcher.cc 200-209) for one query word; the list is what remains of the
iteration. -/
def indexLoop [Build] [Runtime] (m : Matcher) (params : SearchParameters) (w : Word) (maxError : Int)
    (best : BestIndexMatches) : List WordID → M BestIndexMatches
  | [] => .ok best
  | k :: ks => do
    let name ← m.store.getWord k
    if params.isNonsearchingField name then indexLoop m params w maxError best ks
    else
      match HMap.find m.indexes k with
      | none => .error .ub
      | some ind => do
        let ms ← ind.findWords w m.e maxError []
        indexLoop m params w maxError (addMatches best k ms) ks

/-- `matchIndexes` (src/Matcher.cc 190-211) over the remaining query words. -/
def matchIndexes [Build] [Runtime] (m : Matcher) (params : SearchParameters) (extraError : Int)
    (best : BestIndexMatches) : WordList → M BestIndexMatches
  | [] => .ok best
  | w :: ws => do
    let best ← indexLoop m params w (wordMaxError params w extraError) best
      (Runtime.iterIndexes (m.indexes.map (·.1)))
    matchIndexes m params extraError best ws

/-- The innermost loop of `gatherMatchedDocuments` (src/Matcher.cc 221-231). -/
def gatherDocs [Build] [Fp] (m : Matcher) (wID indexID : WordID) (error : Int) (docs : SMap DocumentID ℚ) :
    List DocumentID → M (SMap DocumentID ℚ)
  | [] => .ok docs
  | cur :: r => do
    let relevancy ← m.calculateRelevancy wID indexID error
    match SMap.find ltNat docs cur with
    | none => gatherDocs m wID indexID error (SMap.set ltNat docs cur relevancy) r
    | some x => gatherDocs m wID indexID error (SMap.set ltNat docs cur (fadd x relevancy)) r

/-- The loop over the matched words of one index (src/Matcher.cc 215-232). -/
def gatherWords [Build] [Runtime] [Fp] (m : Matcher) (indexID : WordID) (docs : SMap DocumentID ℚ) :
    MatchErrorMap → M (SMap DocumentID ℚ)
  | [] => .ok docs
  | (wID, error) :: r => do
    let docs ← gatherDocs m wID indexID error docs (ReverseIndex.findDocuments m.reverseIndex wID indexID)
    gatherWords m indexID docs r

/-- `gatherMatchedDocuments` (src/Matcher.cc 213-234). -/
def gatherMatchedDocuments [Build] [Runtime] [Fp] (m : Matcher) (docs : SMap DocumentID ℚ) :
    BestIndexMatches → M (SMap DocumentID ℚ)
  | [] => .ok docs
  | (indexID, words) :: r => do
    let docs ← gatherWords m indexID docs words
    gatherMatchedDocuments m docs r

/-- Adding the documents of a map to results (src/Matcher.cc 323-325, 449-451). -/
def addAll (r : MatchResults) : SMap DocumentID ℚ → MatchResults
  | [] => r
  | (id, rel) :: rest => addAll (r.addResult id rel) rest

/-- `Matcher::relevancyMatch` (src/Matcher.cc 312-330). -/
def relevancyMatch [Build] [Runtime] [Fp] (m : Matcher) (query : WordList) (params : SearchParameters)
    (extraError : Int) (matched : MatchResults) : M MatchResults := do
  let best ← matchIndexes m params extraError [] query
  let docs ← gatherMatchedDocuments m [] best
  .ok (addAll matched docs)

/-- `maxIterations`, `increment`, `minMatches` (src/Matcher.cc 334-336). -/
def maxIterations : Nat := 1
def increment : Int := 100
def minMatches : Nat := 10

/-- The loop of `match` with growing error (src/Matcher.cc 342-349): `n` rounds remain, the next one is number `i`. -/
def matchLoop [Build] [Runtime] [Fp] (m : Matcher) (query : WordList) (params : SearchParameters)
    (all : MatchResults) (i : Nat) : Nat → M MatchResults
  | 0 => .ok all
  | n + 1 => do
    let ms ← relevancyMatch m query params (i * increment) MatchResults.new
    if minMatches ≤ ms.size ∨ i + 1 = maxIterations then .ok (all.addResults ms)
    else matchLoop m query params all (i + 1) n

/-- The two `getID` calls of src/Matcher.cc 240-241, in either order, with the store after them. -/
def getIDs [Build] [Runtime] (s : WordStore) (value field : Word) : WordStore × M (WordID × WordID) :=
  let first := if Runtime.valueFirst then value else field
  let second := if Runtime.valueFirst then field else value
  match s.getID first with
  | .error f => (s.after f, .error f)
  | .ok (s1, a) =>
    match s1.getID second with
    | .error f => (s1.after f, .error f)
    | .ok (s2, b) => (s2, .ok (if Runtime.valueFirst then (a, b) else (b, a)))

/-- The loop of `subtermsMatch` (src/Matcher.cc 237-245) over the remaining sub-terms. -/
def subtermLoop [Build] [Runtime] (ri : ReverseIndex) (filter : ResultFilter) (term : Nat) (id : DocumentID)
    (s : WordStore) : List Nat → WordStore × M Bool
  | [] => (s, .ok true)
  | st :: r =>
    match filter.getField term st with
    | .error f => (s, .error f)
    | .ok filterName =>
      match filter.getWord term st with
      | .error f => (s, .error f)
      | .ok value =>
        match getIDs s value filterName with
        | (s, .error f) => (s, .error f)
        | (s, .ok (v, n)) =>
          if ReverseIndex.documentHasTerm ri v n id then subtermLoop ri filter term id s r else (s, .ok false)

/-- `subtermsMatch` (src/Matcher.cc 236-247). -/
def subtermsMatch [Build] [Runtime] (ri : ReverseIndex) (filter : ResultFilter) (term : Nat) (id : DocumentID)
    (s : WordStore) : WordStore × M Bool :=
  match filter.numSubTerms term with
  | .error f => (s, .error f)
  | .ok n => subtermLoop ri filter term id s (List.range n)

/-- The loop over the filter terms for one result (src/Matcher.cc 355-360): does some term match? -/
def termLoop [Build] [Runtime] (ri : ReverseIndex) (filter : ResultFilter) (id : DocumentID) (s : WordStore) :
    List Nat → WordStore × M Bool
  | [] => (s, .ok false)
  | t :: ts =>
    match subtermsMatch ri filter t id s with
    | (s, .error f) => (s, .error f)
    | (s, .ok true) => (s, .ok true)
    | (s, .ok false) => termLoop ri filter id s ts

/-- The filtering loop of `match` (src/Matcher.cc 353-361) over the remaining positions. -/
def filterLoop [Build] [Runtime] (ri : ReverseIndex) (filter : ResultFilter) (s : WordStore)
    (all matched : MatchResults) : List Nat → WordStore × M MatchResults
  | [] => (s, .ok matched)
  | i :: is =>
    match all.getDocumentID i with
    | .error f => (s, .error f)
    | .ok (all, id) =>
      match termLoop ri filter id s (List.range filter.numTerms) with
      | (s, .error f) => (s, .error f)
      | (s, .ok false) => filterLoop ri filter s all matched is
      | (s, .ok true) =>
        match matched.copyResult all i with
        | .error f => (s, .error f)
        | .ok matched => filterLoop ri filter s all matched is

/-- `Matcher::match(const WordList&, const SearchParameters&)` (src/Matcher.cc 332-363): the matcher after the call and
the results or exception. -/
def matchQuery [Build] [Runtime] [Fp] (m : Matcher) (query : WordList) (params : SearchParameters) :
    Matcher × M MatchResults :=
  if query.length = 0 then (m, .ok MatchResults.new)
  else match matchLoop m query params MatchResults.new 0 maxIterations with
    | .error f => (m, .error f)
    | .ok all =>
      match filterLoop m.reverseIndex params.filter m.store all MatchResults.new (List.range all.size) with
      | (s, r) => ({ m with store := s }, r)

/-- `Matcher::match(const WordList&)` (src/Matcher.cc 374-377). -/
def matchDefault [Build] [Runtime] [Fp] (m : Matcher) (query : WordList) : Matcher × M MatchResults :=
  m.matchQuery query SearchParameters.new

/-- `Matcher::match(const char*)` and the `std::string` overload (src/Matcher.cc 365-371). -/
def matchUtf8 [Build] [Icu] [Runtime] [Fp] (m : Matcher) (queryAsUtf8 : Bytes) : Matcher × M MatchResults :=
  match splitToWords queryAsUtf8 with
  | .error f => (m, .error f)
  | .ok q => m.matchDefault q

/-- `Matcher::match(const char*, const SearchParameters&)` (src/Matcher.cc 383-385). -/
def matchUtf8Params [Build] [Icu] [Runtime] [Fp] (m : Matcher) (queryAsUtf8 : Bytes) (params : SearchParameters) :
    Matcher × M MatchResults :=
  match splitToWords queryAsUtf8 with
  | .error f => (m, .error f)
  | .ok q => m.matchQuery q params

/-! ### Indexing -/

/-- `Matcher::addToIndex` (src/Matcher.cc 299-309): the matcher after the call and the exception, if any. -/
def addToIndex [Build] (m : Matcher) (word : Word) (wordID indexID : WordID) : Matcher × Option Fault :=
  let found : Matcher × M LevIndex :=
    match HMap.find m.indexes indexID with
    | some ix => (m, .ok ix)
    | none => match LevIndex.new m.os with
      | .error f => (m, .error f)
      | .ok ix => ({ m with indexes := HMap.set m.indexes indexID ix }, .ok ix)
  match found with
  | (m, .error f) => (m, some f)
  | (m, .ok target) =>
    match target.insertWord word wordID with
    | .error f => ({ m with indexes := HMap.set m.indexes indexID (target.after f) }, some f)
    | .ok target => ({ m with indexes := HMap.set m.indexes indexID target }, none)

/-- The loop over the words of a field (src/Matcher.cc 287-294). -/
def indexWords [Build] (docID : DocumentID) (fieldID : WordID) (m : Matcher) : WordList → Matcher × Option Fault
  | [] => (m, none)
  | word :: rest =>
    match m.store.getID word with
    | .error f => ({ m with store := m.store.after f }, some f)
    | .ok (s, wordID) =>
      let m := { m with store := s, stats := MatcherStatistics.wordProcessed m.stats wordID }
      match m.addToIndex word wordID fieldID with
      | (m, some f) => (m, some f)
      | (m, none) =>
        let m := { m with reverseIndex := ReverseIndex.add m.reverseIndex wordID fieldID docID }
        indexWords docID fieldID m rest

/-- The loop over the fields of a document (src/Matcher.cc 279-295). -/
def indexFields [Build] (d : Document) (m : Matcher) : WordList → Matcher × Option Fault
  | [] => (m, none)
  | fieldName :: rest =>
    match m.store.getID fieldName with
    | .error f => ({ m with store := m.store.after f }, some f)
    | .ok (s, fieldID) =>
      let m := { m with store := s }
      match d.getText fieldName with
      | .error f => (m, some f)
      | .ok text =>
        let m := { m with originalSizes := SMap.set ltDW m.originalSizes (d.id, fieldID) text.length }
        match indexWords d.id fieldID m text with
        | (m, some f) => (m, some f)
        | (m, none) => indexFields d m rest

/-- `Matcher::buildIndexes` (src/Matcher.cc 274-297), which is all that `Matcher::index` (253-265) does apart from debug
messages. -/
def index [Build] (m : Matcher) : Corpus → Matcher × Option Fault
  | [] => (m, none)
  | d :: rest =>
    match indexFields d m d.getFieldNames with
    | (m, some f) => (m, some f)
    | (m, none) => index m rest

/-! ### Online matching -/

/-- The inner loop of `countExacts` (src/Matcher.cc 401-403). -/
def countDocs (counts : SMap DocumentID Nat) : List DocumentID → SMap DocumentID Nat
  | [] => counts
  | d :: r =>
    let c := match SMap.find ltNat counts d with
      | none => 0
      | some c => c
    countDocs (SMap.set ltNat counts d (c + 1)) r

/-- `countExacts` (src/Matcher.cc 391-406) over the remaining query words. -/
def countExacts [Build] [Runtime] (ri : ReverseIndex) (indexID : WordID) (s : WordStore)
    (counts : SMap DocumentID Nat) : WordList → M (WordStore × SMap DocumentID Nat)
  | [] => .ok (s, counts)
  | w :: ws =>
    if w.length = 0 then countExacts ri indexID s counts ws
    else do
      let h ← s.hasWord w
      if h = false then countExacts ri indexID s counts ws
      else do
        let (s, curWord) ← s.getID w
        countExacts ri indexID s (countDocs counts (ReverseIndex.findDocuments ri curWord indexID)) ws

/-- The loop over `stats` (src/Matcher.cc 436-442). `originalSizes[...]` inserts a zero when the key is missing. -/
def exactLoop [Fp] (querySize : Nat) (indexID : WordID) (sizes : SMap (DocumentID × WordID) Nat)
    (acc : SMap DocumentID ℚ) : SMap DocumentID Nat → SMap (DocumentID × WordID) Nat × SMap DocumentID ℚ
  | [] => (sizes, acc)
  | (id, n) :: r =>
    let base := ofInt (2 * (n : Int))
    if n = querySize then
      let (sizes, size) := match SMap.find ltDW sizes (id, indexID) with
        | some x => (sizes, x)
        | none => (SMap.set ltDW sizes (id, indexID) 0, 0)
      if n = size then exactLoop querySize indexID sizes (SMap.set ltNat acc id (fadd base 100)) r
      else exactLoop querySize indexID sizes (SMap.set ltNat acc id base) r
    else exactLoop querySize indexID sizes (SMap.set ltNat acc id base) r

/-- The merging loop (src/Matcher.cc 445-448) over the remaining positions. -/
def mergeLoop [Fp] (fuzzy : MatchResults) (acc : SMap DocumentID ℚ) : List Nat → M (SMap DocumentID ℚ)
  | [] => .ok acc
  | i :: is => do
    let (fuzzy, docid) ← fuzzy.getDocumentID i
    let (fuzzy, rel) ← fuzzy.getRelevancy i
    let old := match SMap.find ltNat acc docid with
      | none => 0
      | some x => x
    mergeLoop fuzzy (SMap.set ltNat acc docid (fadd old rel)) is

/-- `Matcher::onlineMatch` (src/Matcher.cc 413-453). -/
def onlineMatch [Build] [Runtime] [Fp] (m : Matcher) (query : WordList) (primaryIndex : Word) :
    Matcher × M MatchResults :=
  match m.store.hasWord primaryIndex with
  | .error f => (m, .error f)
  | .ok false =>
    match Word.asUtf8 primaryIndex with
    | .error f => (m, .error f)
    | .ok _ => (m, .error .invalidArgument)
  | .ok true =>
    match m.store.getID primaryIndex with
    | .error f => ({ m with store := m.store.after f }, .error f)
    | .ok (s, indexID) =>
      match countExacts m.reverseIndex indexID s [] query with
      | .error f => ({ m with store := s }, .error f)
      | .ok (s, counts) =>
        let (sizes, acc) := exactLoop query.length indexID m.originalSizes [] counts
        let m := { m with store := s, originalSizes := sizes }
        match m.matchDefault query with
        | (m, .error f) => (m, .error f)
        | (m, .ok fuzzy) =>
          match mergeLoop fuzzy acc (List.range fuzzy.size) with
          | .error f => (m, .error f)
          | .ok acc => (m, .ok (addAll MatchResults.new acc))

end Matcher
end Columbus
