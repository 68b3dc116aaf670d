import Verif.Model.Matcher
/-
src/ColumbusCAPI.cc: the C interface, with its objects on a heap and handles to them. Using a handle that is null, stale
or of another kind is undefined behaviour. `new` is assumed to find memory; `fprintf` is left out.
-/

namespace Columbus.CApi

/-- The objects that handles lead to (include/columbus.h 38-44). -/
inductive Obj where
  | word (w : Word)
  | document (d : Document)
  | matcher (m : Matcher)
  | results (r : MatchResults)
  | corpus (c : Corpus)

/-- What a `void*` handle can be: null, an object made by a `_new` function or `col_matcher_match`, or the error values or
weights inside a matcher. -/
inductive Handle where
  | null
  | obj (n : Nat)
  | errorsOf (n : Nat)
  | weightsOf (n : Nat)
deriving DecidableEq

/-- The heap: a cell for each object ever made, `none` once it is deleted. -/
structure Heap where
  cells : List (Option Obj)

namespace Heap

/-- `new`. -/
def alloc (h : Heap) (o : Obj) : Heap × Handle := (⟨h.cells ++ [some o]⟩, .obj h.cells.length)

/-- The live object of a handle. -/
def get (h : Heap) : Handle → M Obj
  | .obj n => match h.cells[n]? with
    | some (some o) => .ok o
    | _ => .error .ub
  | _ => .error .ub

/-- `reinterpret_cast<Word*>` and use. -/
def word (h : Heap) (x : Handle) : M Word := do
  match ← h.get x with
  | .word w => .ok w
  | _ => .error .ub

def document (h : Heap) (x : Handle) : M Document := do
  match ← h.get x with
  | .document d => .ok d
  | _ => .error .ub

def matcher (h : Heap) (x : Handle) : M Matcher := do
  match ← h.get x with
  | .matcher m => .ok m
  | _ => .error .ub

def results (h : Heap) (x : Handle) : M MatchResults := do
  match ← h.get x with
  | .results r => .ok r
  | _ => .error .ub

def corpus (h : Heap) (x : Handle) : M Corpus := do
  match ← h.get x with
  | .corpus c => .ok c
  | _ => .error .ub

/-- The object changes. -/
def put (h : Heap) (x : Handle) (o : Obj) : Heap :=
  match x with
  | .obj n => ⟨h.cells.set n (some o)⟩
  | _ => h

/-- The matcher that a handle of error values or weights is part of. -/
def errorsOwner (h : Heap) : Handle → M (Handle × Matcher)
  | .errorsOf n => do let m ← h.matcher (.obj n); .ok (.obj n, m)
  | _ => .error .ub

def weightsOwner (h : Heap) : Handle → M (Handle × Matcher)
  | .weightsOf n => do let m ← h.matcher (.obj n); .ok (.obj n, m)
  | _ => .error .ub

/-- `delete` of an object that must satisfy `kind`; deleting null does nothing. -/
def free (h : Heap) (x : Handle) (kind : Obj → Bool) : M Heap :=
  match x with
  | .null => .ok h
  | .obj n => do
    let o ← h.get (.obj n)
    if kind o then .ok ⟨h.cells.set n none⟩ else .error .ub
  | _ => .error .ub

end Heap

/-- Is it an exception derived from `std::exception`, caught by the `catch` clauses? -/
def caught : Fault → Bool
  | .outOfRange | .invalidArgument | .runtimeError => true
  | _ => false

/-- `try { … } catch(exception &e) { … } return sentinel;` -/
def orElse {α : Type} (x : M α) (sentinel : α) : M α :=
  match x with
  | .ok v => .ok v
  | .error f => if caught f then .ok sentinel else .error f

/-- `col_word_new` (src/ColumbusCAPI.cc 38-46). -/
def wordNew [Build] [Icu] (h : Heap) (utf8 : Bytes) : M (Heap × Handle) :=
  orElse (do let w ← Word.ofUtf8 utf8; .ok (h.alloc (.word w))) (h, .null)

/-- `col_word_delete` (src/ColumbusCAPI.cc 48-54). -/
def wordDelete (h : Heap) (w : Handle) : M Heap :=
  orElse (h.free w fun o => o matches .word _) h

/-- `col_word_length` (src/ColumbusCAPI.cc 56-63). -/
def wordLength (h : Heap) (w : Handle) : M Nat :=
  orElse (do let w ← h.word w; .ok w.length) 0

/-- `col_word_as_utf8` (src/ColumbusCAPI.cc 65-71): what is written into the buffer before the terminator, `none` when
an exception was caught. -/
def wordAsUtf8 (h : Heap) (w : Handle) (bufSize : Nat) : M (Option Bytes) :=
  orElse (do let w ← h.word w; let b ← Word.toUtf8 w bufSize; .ok (some b)) none

/-- `col_document_new` (src/ColumbusCAPI.cc 73-80). -/
def documentNew (h : Heap) (id : DocumentID) : M (Heap × Handle) :=
  orElse (.ok (h.alloc (.document (Document.new id)))) (h, .null)

/-- `col_document_delete` (src/ColumbusCAPI.cc 82-88). -/
def documentDelete (h : Heap) (d : Handle) : M Heap :=
  orElse (h.free d fun o => o matches .document _) h

/-- `col_document_get_id` (src/ColumbusCAPI.cc 90-97). -/
def documentGetId (h : Heap) (d : Handle) : M DocumentID :=
  orElse (do let d ← h.document d; .ok d.id) INVALID_DOCID

/-- `col_document_add_text` (src/ColumbusCAPI.cc 99-107). -/
def documentAddText [Build] [Icu] (h : Heap) (d field : Handle) (text : Bytes) : M Heap :=
  orElse (do
    let doc ← h.document d
    let w ← h.word field
    let doc ← doc.addTextUtf8 w text
    .ok (h.put d (.document doc))) h

/-- `col_matcher_new` (src/ColumbusCAPI.cc 109-116). `os` are the answers of the operating system to this matcher. -/
def matcherNew [Build] (h : Heap) (os : Nat → Bool) : M (Heap × Handle) :=
  orElse (do let m ← Matcher.new os; .ok (h.alloc (.matcher m))) (h, .null)

/-- `col_matcher_delete` (src/ColumbusCAPI.cc 118-124). -/
def matcherDelete (h : Heap) (m : Handle) : M Heap :=
  orElse (h.free m fun o => o matches .matcher _) h

/-- `col_matcher_index` (src/ColumbusCAPI.cc 126-134): an exception is swallowed and leaves what `Matcher::index` has
done so far. -/
def matcherIndex [Build] (h : Heap) (m c : Handle) : M Heap := do
  let mm ← h.matcher m
  let cc ← h.corpus c
  match mm.index cc with
  | (m', none) => .ok (h.put m (.matcher m'))
  | (m', some f) => if caught f then .ok (h.put m (.matcher m')) else .error f

/-- `col_matcher_match` (src/ColumbusCAPI.cc 136-146). -/
def matcherMatch [Build] [Icu] [Runtime] [Fp] (h : Heap) (m : Handle) (query : Bytes) : M (Heap × Handle) := do
  let mm ← h.matcher m
  match mm.matchUtf8 query with
  | (m', .ok r) => .ok ((h.put m (.matcher m')).alloc (.results r))
  | (m', .error f) => if caught f then .ok (h.put m (.matcher m'), .null) else .error f

/-- `col_matcher_get_error_values` (src/ColumbusCAPI.cc 148-156). -/
def matcherGetErrorValues (h : Heap) (m : Handle) : M Handle :=
  orElse (do
    let _ ← h.matcher m
    match m with
    | .obj n => .ok (.errorsOf n)
    | _ => .error .ub) .null

/-- `col_matcher_get_index_weights` (src/ColumbusCAPI.cc 158-166). -/
def matcherGetIndexWeights (h : Heap) (m : Handle) : M Handle :=
  orElse (do
    let _ ← h.matcher m
    match m with
    | .obj n => .ok (.weightsOf n)
    | _ => .error .ub) .null

/-- `col_match_results_new` (src/ColumbusCAPI.cc 168-175). -/
def matchResultsNew (h : Heap) : M (Heap × Handle) := orElse (.ok (h.alloc (.results MatchResults.new))) (h, .null)

/-- `col_match_results_delete` (src/ColumbusCAPI.cc 176-182). -/
def matchResultsDelete (h : Heap) (r : Handle) : M Heap :=
  orElse (h.free r fun o => o matches .results _) h

/-- `col_match_results_size` (src/ColumbusCAPI.cc 184-191). -/
def matchResultsSize (h : Heap) (r : Handle) : M Nat :=
  orElse (do let r ← h.results r; .ok r.size) 0

/-- `col_match_results_get_id` (src/ColumbusCAPI.cc 193-201). Reading sorts the object in place. -/
def matchResultsGetId (h : Heap) (r : Handle) (i : Nat) : M (Heap × DocumentID) :=
  orElse (do
    let rr ← h.results r
    let (r', id) ← rr.getDocumentID i
    .ok (h.put r (.results r'), id)) (h, INVALID_DOCID)

/-- `col_match_results_get_relevancy` (src/ColumbusCAPI.cc 203-211). The code returns `getDocumentID(i)` converted to
double. -/
def matchResultsGetRelevancy [Fp] (h : Heap) (r : Handle) (i : Nat) : M (Heap × ℚ) :=
  orElse (do
    let rr ← h.results r
    let (r', id) ← rr.getDocumentID i
    .ok (h.put r (.results r'), ofInt id)) (h, -1)

/-- `col_corpus_new` (src/ColumbusCAPI.cc 213-220). -/
def corpusNew (h : Heap) : M (Heap × Handle) := orElse (.ok (h.alloc (.corpus []))) (h, .null)

/-- `col_corpus_delete` (src/ColumbusCAPI.cc 223-229). -/
def corpusDelete (h : Heap) (c : Handle) : M Heap :=
  orElse (h.free c fun o => o matches .corpus _) h

/-- `col_corpus_add_document` (src/ColumbusCAPI.cc 231-239): the corpus gets a copy. -/
def corpusAddDocument (h : Heap) (c d : Handle) : M Heap :=
  orElse (do
    let cc ← h.corpus c
    let dd ← h.document d
    .ok (h.put c (.corpus (Corpus.addDocument cc dd)))) h

/-- `col_error_values_add_standard_errors` (src/ColumbusCAPI.cc 241-248): an exception leaves what has been done so
far. -/
def addStandardErrors [Build] [Icu] (h : Heap) (data : ErrorValues.DataDir) (e : Handle) : M Heap := do
  let (x, m) ← h.errorsOwner e
  match m.e.addStandardErrors data with
  | (e', none) => .ok (h.put x (.matcher { m with e := e' }))
  | (e', some f) => if caught f then .ok (h.put x (.matcher { m with e := e' })) else .error f

/-- `col_error_values_set_substring_mode` (src/ColumbusCAPI.cc 250-257). -/
def setSubstringMode (h : Heap) (e : Handle) : M Heap :=
  orElse (do
    let (x, m) ← h.errorsOwner e
    .ok (h.put x (.matcher { m with e := m.e.setSubstringMode }))) h

/-- `col_index_weights_set_weight` (src/ColumbusCAPI.cc 259-267). -/
def setWeight (h : Heap) (iw field : Handle) (v : ℚ) : M Heap :=
  orElse (do
    let (x, m) ← h.weightsOwner iw
    let w ← h.word field
    .ok (h.put x (.matcher { m with weights := IndexWeights.setWeight m.weights w v }))) h

/-- `col_index_weights_get_weight` (src/ColumbusCAPI.cc 269-278). -/
def getWeight (h : Heap) (iw field : Handle) : M ℚ :=
  orElse (do
    let (_, m) ← h.weightsOwner iw
    let w ← h.word field
    .ok (IndexWeights.getWeight m.weights w)) 1

end Columbus.CApi
