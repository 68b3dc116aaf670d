import Verif.Model.Matcher
/-
`Matcher::index` when `new` may refuse memory (`std::bad_alloc`). The other models take the heap for granted and let only
the files of the tries be refused; here each request of a container or object is granted or refused. A refused
container operation changes nothing (the strong guarantee of [container.requirements.general] and [vector.modifiers]);
what was done before it in the same call stays done. The maps are those of the standard library, not `sparse_hash_map`.
A vector asks for memory at some `push_back` calls only; here it may be refused at each.
-/

namespace Columbus

/-- The container operations of `buildIndexes` and `addToIndex` that may be refused memory. -/
inductive Place
  /-- The list of field names (src/Matcher.cc 277-278). -/
  | names
  /-- `wordIndex.push_back` (src/WordStore.cc 60) for a field name or word (src/Matcher.cc 281, 289). -/
  | identifier
  /-- `originalSizes[lengths]` (src/Matcher.cc 286). -/
  | size
  /-- `totalWordCounts[w]` (src/MatcherStatistics.cc 51; src/Matcher.cc 290). -/
  | statistics
  /-- `new LevenshteinIndex()` (src/Matcher.cc 303). -/
  | newIndex
  /-- `p->indexes[indexID]` (src/Matcher.cc 304). -/
  | indexEntry
  /-- `p->wordCounts[wordID]` (src/LevenshteinIndex.cc 92). -/
  | count
  /-- The set of documents (src/Matcher.cc 112-116). -/
  | posting
deriving DecidableEq

/-- How a call ends that does not return. -/
inductive Stop
  | refused (p : Place)
  | fault (f : Fault)
deriving DecidableEq

/-- `heap k`: is the request number `k` granted? -/
abbrev Heap := Nat → Bool

/-- `WordStore::getID` (src/WordStore.cc 55-63), the next request being number `k`. The trie has the word before the
vector of nodes grows. -/
def WordStore.getIDHeap [Build] (heap : Heap) (k : Nat) (s : WordStore) (w : Word) : WordStore × Except Stop (WordID × Nat) :=
  match s.getID w with
  | .error f => (s.after f, .error (.fault f))
  | .ok (s', id) =>
    if s'.wordIndex.length = s.wordIndex.length then (s', .ok (id, k))
    else if heap k then (s', .ok (id, k + 1))
    else ({ s' with wordIndex := s.wordIndex }, .error (.refused .identifier))

/-- `MatcherStatistics::wordProcessed` (src/MatcherStatistics.cc 48-55). -/
def MatcherStatistics.wordProcessedHeap (heap : Heap) (k : Nat) (st : MatcherStatistics) (w : WordID) :
    MatcherStatistics × Except Stop Nat :=
  match HMap.find st w with
  | some _ => (MatcherStatistics.wordProcessed st w, .ok k)
  | none => if heap k then (MatcherStatistics.wordProcessed st w, .ok (k + 1)) else (st, .error (.refused .statistics))

/-- `LevenshteinIndex::insertWord` (src/LevenshteinIndex.cc 81-98). The trie has the word before the count is made; the
length of the longest word and the largest count come after it. -/
def LevIndex.insertWordHeap [Build] (heap : Heap) (k : Nat) (ix : LevIndex) (word : Word) (wordID : WordID) :
    LevIndex × Except Stop Nat :=
  match ix.insertWord word wordID with
  | .error f => (ix.after f, .error (.fault f))
  | .ok ix' =>
    if word.length = 0 then (ix', .ok k)
    else match HMap.find ix.wordCounts wordID with
      | some _ => (ix', .ok k)
      | none => if heap k then (ix', .ok (k + 1)) else ({ ix with trie := ix'.trie }, .error (.refused .count))

/-- `ReverseIndex::add` (src/Matcher.cc 106-119): a new set is built, then its place in the map, then it is copied there. -/
def ReverseIndex.addHeap (heap : Heap) (k : Nat) (ri : ReverseIndex) (wordID indexID : WordID) (id : DocumentID) :
    ReverseIndex × Except Stop Nat :=
  match HMap.find ri (indexID, wordID) with
  | none =>
    if heap k = false ∨ heap (k + 1) = false then (ri, .error (.refused .posting))
    else if heap (k + 2) = false then (HMap.set ri (indexID, wordID) [], .error (.refused .posting))
    else (ReverseIndex.add ri wordID indexID id, .ok (k + 3))
  | some s =>
    if id ∈ s then (ReverseIndex.add ri wordID indexID id, .ok k)
    else if heap k then (ReverseIndex.add ri wordID indexID id, .ok (k + 1))
    else (ri, .error (.refused .posting))

namespace Matcher

/-- `Matcher::addToIndex` (src/Matcher.cc 299-309). -/
def addToIndexHeap [Build] (heap : Heap) (k : Nat) (m : Matcher) (word : Word) (wordID indexID : WordID) :
    Matcher × Except Stop Nat :=
  match HMap.find m.indexes indexID with
  | some ix =>
    match ix.insertWordHeap heap k word wordID with
    | (ix, r) => ({ m with indexes := HMap.set m.indexes indexID ix }, r)
  | none =>
    if heap k = false then (m, .error (.refused .newIndex))
    else match LevIndex.new m.os with
      | .error f => (m, .error (.fault f))
      | .ok ix =>
        if heap (k + 1) = false then (m, .error (.refused .indexEntry))
        else match ix.insertWordHeap heap (k + 2) word wordID with
          | (ix', r) => ({ m with indexes := HMap.set (HMap.set m.indexes indexID ix) indexID ix' }, r)

/-- One round of the loop over the words of a field (src/Matcher.cc 288-293). -/
def indexWordHeap [Build] (heap : Heap) (k : Nat) (docID : DocumentID) (fieldID : WordID) (m : Matcher) (word : Word) :
    Matcher × Except Stop Nat :=
  match m.store.getIDHeap heap k word with
  | (s, .error e) => ({ m with store := s }, .error e)
  | (s, .ok (wordID, k)) =>
    let m := { m with store := s }
    match MatcherStatistics.wordProcessedHeap heap k m.stats wordID with
    | (st, .error e) => ({ m with stats := st }, .error e)
    | (st, .ok k) =>
      let m := { m with stats := st }
      match m.addToIndexHeap heap k word wordID fieldID with
      | (m, .error e) => (m, .error e)
      | (m, .ok k) =>
        match ReverseIndex.addHeap heap k m.reverseIndex wordID fieldID docID with
        | (ri, r) => ({ m with reverseIndex := ri }, r)

/-- The loop over the words of a field (src/Matcher.cc 287-294). -/
def indexWordsHeap [Build] (heap : Heap) (k : Nat) (docID : DocumentID) (fieldID : WordID) (m : Matcher) :
    WordList → Matcher × Except Stop Nat
  | [] => (m, .ok k)
  | word :: rest =>
    match m.indexWordHeap heap k docID fieldID word with
    | (m, .error e) => (m, .error e)
    | (m, .ok k) => indexWordsHeap heap k docID fieldID m rest

/-- The loop over the fields of a document (src/Matcher.cc 279-295). -/
def indexFieldsHeap [Build] (heap : Heap) (k : Nat) (d : Document) (m : Matcher) : WordList → Matcher × Except Stop Nat
  | [] => (m, .ok k)
  | fieldName :: rest =>
    match m.store.getIDHeap heap k fieldName with
    | (s, .error e) => ({ m with store := s }, .error e)
    | (s, .ok (fieldID, k)) =>
      let m := { m with store := s }
      match d.getText fieldName with
      | .error f => (m, .error (.fault f))
      | .ok text =>
        let new := (SMap.find ltDW m.originalSizes (d.id, fieldID)).isNone
        if new ∧ heap k = false then (m, .error (.refused .size))
        else
          let m := { m with originalSizes := SMap.set ltDW m.originalSizes (d.id, fieldID) text.length }
          match indexWordsHeap heap (if new then k + 1 else k) d.id fieldID m text with
          | (m, .error e) => (m, .error e)
          | (m, .ok k) => indexFieldsHeap heap k d m rest

/-- `Matcher::buildIndexes` (src/Matcher.cc 274-297). -/
def indexHeap [Build] (heap : Heap) (k : Nat) (m : Matcher) : Corpus → Matcher × Except Stop Nat
  | [] => (m, .ok k)
  | d :: rest =>
    if heap k = false then (m, .error (.refused .names))
    else match indexFieldsHeap heap (k + 1) d m d.getFieldNames with
      | (m, .error e) => (m, .error e)
      | (m, .ok k) => indexHeap heap k m rest

end Matcher
end Columbus
