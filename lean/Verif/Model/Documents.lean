import Verif.Model.Word
import Verif.Model.Runtime
/-
src/Document.cc, src/Corpus.cc, src/WordList.cc, src/ResultFilter.cc, src/SearchParameters.cc, src/IndexWeights.cc,
src/MatcherStatistics.cc and src/MatchResults.cc.
-/

namespace Columbus

/-- `WordList` (src/WordList.cc 29-31): a vector of words. Moved-from lists are not modelled. -/
abbrev WordList := List Word

/-- `WordList::operator[]` (src/WordList.cc 54-58). -/
def WordList.at (l : WordList) (i : Nat) : M Word :=
  match l[i]? with
  | none => .error .outOfRange
  | some w => .ok w

/-- `WordList::WordList()` (src/WordList.cc 33-35). -/
def WordList.new : WordList := []

/-- `WordList::size` (src/WordList.cc 51-53). -/
def WordList.size (l : WordList) : Nat := l.length

/-- `WordList::addWord` (src/WordList.cc 60-62). -/
def WordList.addWord (l : WordList) (w : Word) : WordList := l ++ [w]

/-- `WordList::operator==` and `operator!=` (src/WordList.cc 80-86): vectors are compared by size, then word by word. -/
def WordList.beq (a b : WordList) : Bool := decide (a.length = b.length) && (a.zip b).all fun p => Word.beq p.1 p.2
def WordList.bne (a b : WordList) : Bool := !WordList.beq a b

/-! ### src/Document.cc, src/Corpus.cc -/

/-- `DocumentPrivate` (src/Document.cc 30-33). The map is ordered with `Word::operator<`. -/
structure Document where
  id : DocumentID
  texts : SMap Word WordList

namespace Document

/-- `Document::Document` (src/Document.cc 38-41). -/
def new (id : DocumentID) : Document := ⟨id, []⟩

/-- `Document::addText(const Word&, const WordList&)` (src/Document.cc 53-55). -/
def addText (d : Document) (field : Word) (words : WordList) : Document :=
  { d with texts := SMap.set Word.lt d.texts field words }

/-- `Document::addText(const Word&, const char*)` and the `std::string` overload (src/Document.cc 57-63). -/
def addTextUtf8 [Build] [Icu] (d : Document) (field : Word) (textAsUtf8 : Bytes) : M Document := do
  let words ← splitToWords textAsUtf8
  .ok (d.addText field words)

/-- `Document::getText` (src/Document.cc 65-71). -/
def getText (d : Document) (field : Word) : M WordList :=
  match SMap.find Word.lt d.texts field with
  | none => .error .invalidArgument
  | some t => .ok t

/-- `Document::fieldCount` (src/Document.cc 73-75). -/
def fieldCount (d : Document) : Nat := d.texts.length

/-- `Document::getFieldNames` (src/Document.cc 81-85). -/
def getFieldNames (d : Document) : WordList := d.texts.map (·.1)

/-- The counting loop of `wordCount` (src/Document.cc 100-103). -/
def countLoop (w : Word) (count : Nat) : WordList → Nat
  | [] => count
  | x :: r => countLoop w (if Word.beq x w then count + 1 else count) r

/-- `Document::wordCount` (src/Document.cc 95-105). -/
def wordCount (d : Document) (w field : Word) : Nat :=
  match SMap.find Word.lt d.texts field with
  | none => 0
  | some t => countLoop w 0 t

/-- Loop of `totalWordCount` (src/Document.cc 109-111) over the remaining fields. -/
def totalLoop (d : Document) (w : Word) (count : Nat) : SMap Word WordList → Nat
  | [] => count
  | (f, _) :: r => totalLoop d w (count + d.wordCount w f) r

/-- `Document::totalWordCount` (src/Document.cc 107-113). -/
def totalWordCount (d : Document) (w : Word) : Nat := totalLoop d w 0 d.texts

end Document

/-- `Corpus` (src/Corpus.cc 28-30). -/
abbrev Corpus := List Document

/-- `Corpus::addDocument` (src/Corpus.cc 40-42). -/
def Corpus.addDocument (c : Corpus) (d : Document) : Corpus := c ++ [d]

/-- `Corpus::getDocument` (src/Corpus.cc 48-52). -/
def Corpus.getDocument (c : Corpus) (i : Nat) : M Document :=
  match c[i]? with
  | none => .error .outOfRange
  | some d => .ok d

/-! ### src/ResultFilter.cc -/

/-- `ResultFilterPrivate` (src/ResultFilter.cc 29-31): terms, each a list of (field, word) pairs. -/
structure ResultFilter where
  termList : List (List (Word × Word))

namespace ResultFilter

/-- `ResultFilter::addNewTerm` (src/ResultFilter.cc 42-45). -/
def addNewTerm (f : ResultFilter) : ResultFilter := ⟨f.termList ++ [[]]⟩

/-- `ResultFilter::ResultFilter` (src/ResultFilter.cc 33-36). -/
def new : ResultFilter := addNewTerm ⟨[]⟩

/-- `ResultFilter::addNewSubTerm` (src/ResultFilter.cc 47-49): `back()` of an empty vector is undefined. -/
def addNewSubTerm (f : ResultFilter) (field word : Word) : M ResultFilter :=
  match f.termList.getLast? with
  | none => .error .ub
  | some last => .ok ⟨f.termList.dropLast ++ [last ++ [(field, word)]]⟩

/-- `ResultFilter::numTerms` (src/ResultFilter.cc 67-69). -/
def numTerms (f : ResultFilter) : Nat := f.termList.length

/-- `ResultFilter::numSubTerms` (src/ResultFilter.cc 71-75). -/
def numSubTerms (f : ResultFilter) (term : Nat) : M Nat :=
  match f.termList[term]? with
  | none => .error .outOfRange
  | some t => .ok t.length

/-- The bounds checks and access shared by `getField` and `getWord` (src/ResultFilter.cc 51-65). -/
def getPair (f : ResultFilter) (term subTerm : Nat) : M (Word × Word) :=
  match f.termList[term]? with
  | none => .error .outOfRange
  | some t => match t[subTerm]? with
    | none => .error .outOfRange
    | some p => .ok p

/-- `ResultFilter::getField` (src/ResultFilter.cc 51-57). -/
def getField (f : ResultFilter) (term subTerm : Nat) : M Word := do
  let p ← f.getPair term subTerm
  .ok p.1

/-- `ResultFilter::getWord` (src/ResultFilter.cc 59-65). -/
def getWord (f : ResultFilter) (term subTerm : Nat) : M Word := do
  let p ← f.getPair term subTerm
  .ok p.2

end ResultFilter

/-! ### src/SearchParameters.cc, src/IndexWeights.cc, src/MatcherStatistics.cc -/

/-- `SearchParametersPrivate` (src/SearchParameters.cc 29-33). The `set<Word>` is a map to `Unit`. -/
structure SearchParameters where
  dynamic : Bool
  filter : ResultFilter
  nosearchFields : SMap Word Unit

namespace SearchParameters

/-- `SearchParameters::SearchParameters` (src/SearchParameters.cc 35-38). -/
def new : SearchParameters := ⟨true, ResultFilter.new, []⟩

/-- `SearchParameters::isDynamic`, `setDynamic` (src/SearchParameters.cc 44-49). -/
def isDynamic (p : SearchParameters) : Bool := p.dynamic
def setDynamic (p : SearchParameters) (dyn : Bool) : SearchParameters := { p with dynamic := dyn }

/-- `SearchParameters::getDynamicError` (src/SearchParameters.cc 57-63), with `LevenshteinIndex::getDefaultError`
(src/LevenshteinIndex.cc 77-79) = 100. -/
def getDynamicError (_p : SearchParameters) (w : Word) : Int :=
  if w.length < 2 then 100 else 2 * 100

/-- `SearchParameters::addNonsearchingField` (src/SearchParameters.cc 73-75). `set::insert` leaves an equivalent element
in place, as `SMap.set` does for keys. -/
def addNonsearchingField (p : SearchParameters) (w : Word) : SearchParameters :=
  { p with nosearchFields := SMap.set Word.lt p.nosearchFields w () }

/-- `SearchParameters::isNonsearchingField` (src/SearchParameters.cc 77-79). -/
def isNonsearchingField (p : SearchParameters) (w : Word) : Bool :=
  (SMap.find Word.lt p.nosearchFields w).isSome

end SearchParameters

/-- `IndexWeights` (src/IndexWeights.cc 27-29). -/
abbrev IndexWeights := SMap Word ℚ

/-- `IndexWeights::setWeight` (src/IndexWeights.cc 41-43). -/
def IndexWeights.setWeight (iw : IndexWeights) (w : Word) (weight : ℚ) : IndexWeights :=
  SMap.set Word.lt iw w weight

/-- `IndexWeights::getWeight` (src/IndexWeights.cc 45-50). -/
def IndexWeights.getWeight (iw : IndexWeights) (w : Word) : ℚ :=
  match SMap.find Word.lt iw w with
  | none => 1
  | some v => v

/-- `MatcherStatistics` (src/MatcherStatistics.cc 35-37). -/
abbrev MatcherStatistics := HMap WordID Nat

/-- `MatcherStatistics::wordProcessed` (src/MatcherStatistics.cc 48-55). -/
def MatcherStatistics.wordProcessed (s : MatcherStatistics) (w : WordID) : MatcherStatistics :=
  match HMap.find s w with
  | none => HMap.set s w 1
  | some c => HMap.set s w (c + 1)

/-- `MatcherStatistics::getTotalWordCount` (src/MatcherStatistics.cc 57-65). -/
def MatcherStatistics.getTotalWordCount (s : MatcherStatistics) (w : WordID) : Nat :=
  match HMap.find s w with
  | none => 0
  | some c => c

/-! ### src/MatchResults.cc -/

/-- `MatchResultsPrivate` (src/MatchResults.cc 29-32). -/
structure MatchResults where
  results : List (ℚ × DocumentID)
  sorted : Bool

namespace MatchResults

/-- `MatchResults::MatchResults` (src/MatchResults.cc 34-37). Moved-from objects are not modelled. -/
def new : MatchResults := ⟨[], true⟩

/-- `MatchResults::addResult` (src/MatchResults.cc 69-75). -/
def addResult (r : MatchResults) (id : DocumentID) (relevancy : ℚ) : MatchResults :=
  ⟨r.results ++ [(relevancy, id)], false⟩

/-- `MatchResults::addResults` with a different object (src/MatchResults.cc 77-80). -/
def addResults (r other : MatchResults) : MatchResults := ⟨r.results ++ other.results, false⟩

/-- `MatchResults::size` (src/MatchResults.cc 83-85). -/
def size (r : MatchResults) : Nat := r.results.length

/-- `MatchResults::copyResult` (src/MatchResults.cc 87-93). -/
def copyResult (r other : MatchResults) (i : Nat) : M MatchResults :=
  match other.results[i]? with
  | none => .error .outOfRange
  | some x => .ok ⟨r.results ++ [x], false⟩

/-- `MatchResults::sortIfRequired` (src/MatchResults.cc 95-104): a stable sort of the reversed sequence by ascending
relevancy. `List.mergeSort` is a stable sort. -/
def sortIfRequired (r : MatchResults) : MatchResults :=
  if r.sorted then r
  else ⟨(r.results.reverse.mergeSort (fun a b => decide (a.1 ≤ b.1))).reverse, true⟩

/-- `MatchResults::getDocumentID` (src/MatchResults.cc 106-112): the object is sorted in place as a side effect. -/
def getDocumentID (r : MatchResults) (i : Nat) : M (MatchResults × DocumentID) :=
  if r.results.length ≤ i then .error .outOfRange
  else
    let r := r.sortIfRequired
    match r.results[i]? with
    | none => .error .ub
    | some x => .ok (r, x.2)

/-- `MatchResults::getRelevancy` (src/MatchResults.cc 114-120). -/
def getRelevancy (r : MatchResults) (i : Nat) : M (MatchResults × ℚ) :=
  if r.results.length ≤ i then .error .outOfRange
  else
    let r := r.sortIfRequired
    match r.results[i]? with
    | none => .error .ub
    | some x => .ok (r, x.1)

end MatchResults
end Columbus
