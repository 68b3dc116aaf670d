import Verif.Model.Matcher
/-
The library built with the option `debug_messages` (CMakeLists.txt 11, 31-33): `debugMessage(...)` is then
`printf(__VA_ARGS__);` (include/ColumbusCore.hh.in 66-75), which evaluates its arguments. They convert words to UTF-8, and
that can throw. The functions below are those of src/ErrorValues.cc and src/Matcher.cc that print, and their callers, in
that build; everything else is the same code as in the ordinary build.

Messages are kept as values, not as the text made from them by `printf`; the timings in them are left out. A call that
ends in an exception has printed the messages up to it; they are not kept. The order in which the arguments of one `printf`
are evaluated is not specified; it does not matter here, since none of them changes anything. `printf` itself is taken to
succeed (its result is not looked at by the code).
-/

namespace Columbus.Verbose

/-- The messages, with the values printed. -/
inductive Message where
  /-- src/ErrorValues.cc 148 -/
  | group (letters : Bytes)
  /-- src/Matcher.cc 258-259 -/
  | added (documents indexes : Nat)
  /-- src/Matcher.cc 261-263 -/
  | index (name : Bytes) (words nodes : Nat)
  /-- src/Matcher.cc 207-208 -/
  | matched (word index : Bytes) (maxError : Int) (found : Nat)
  /-- src/Matcher.cc 218-220 -/
  | searched (word field : Bytes) (documents : Nat)
  /-- src/Matcher.cc 326 -/
  | total (documents : Nat)
  /-- src/Matcher.cc 328-329 -/
  | finished
  deriving DecidableEq

/-- The messages printed so far, in order. -/
abbrev Output := List Message

/-! ### src/ErrorValues.cc -/

/-- `ErrorValues::setGroupError` (src/ErrorValues.cc 134-149). -/
def setGroupError (e : ErrorValues) (groupLetters : Word) (error : Int) (out : Output) : ErrorValues × M Output :=
  match e.setGroupError groupLetters error with
  | (e, some f) => (e, .error f)
  | (e, none) =>
    match groupLetters.asUtf8 with
    | .error f => (e, .error f)
    | .ok s => (e, .ok (out ++ [.group s]))

/-- The loop of `addAccents` (src/ErrorValues.cc 183-188). -/
def accentLoop [Build] [Icu] (e : ErrorValues) (out : Output) : List Bytes → ErrorValues × M Output
  | [] => (e, .ok out)
  | line :: rest =>
    match Word.ofUtf8 line with
    | .error f => (e, .error f)
    | .ok group =>
      if group.length = 0 then accentLoop e out rest
      else match setGroupError e group DEFAULT_GROUP_ERROR out with
        | (e, .error f) => (e, .error f)
        | (e, .ok out) => accentLoop e out rest

/-- `ErrorValues::addAccents` (src/ErrorValues.cc 167-189). -/
def addAccents [Build] [Icu] (data : ErrorValues.DataDir) (e : ErrorValues) (group : Bool) (out : Output) :
    ErrorValues × M Output :=
  match data group with
  | none => (e, .error .runtimeError)
  | some lines => accentLoop e out (lines.map fun l => l.takeWhile (· != 0))

/-- `ErrorValues::addStandardErrors` (src/ErrorValues.cc 263-267). -/
def addStandardErrors [Build] [Icu] (data : ErrorValues.DataDir) (e : ErrorValues) (out : Output) :
    ErrorValues × M Output :=
  match addAccents data e false out with
  | (e, .error f) => (e, .error f)
  | (e, .ok out) =>
    match addAccents data e true out with
    | (e, .error f) => (e, .error f)
    | (e, .ok out) =>
      match e.addKeyboardErrors with
      | .ok e => (e, .ok out)
      | .error f => (e, .error f)

/-! ### src/Matcher.cc -/

/-- The loop over the indexes at the end of `Matcher::index` (src/Matcher.cc 260-264); the list is what remains of the
iteration. -/
def reportLoop [Build] (m : Matcher) (out : Output) : List WordID → M Output
  | [] => .ok out
  | k :: ks => do
    let name ← m.store.getWord k
    let s ← name.asUtf8
    match HMap.find m.indexes k with
    | none => .error .ub
    | some ind => do
      let words ← ind.numWords
      let nodes ← ind.numNodes
      reportLoop m (out ++ [.index s words nodes]) ks

/-- `Matcher::index` (src/Matcher.cc 253-265). -/
def index [Build] [Runtime] (m : Matcher) (c : Corpus) (out : Output) : Matcher × M Output :=
  match m.index c with
  | (m, some f) => (m, .error f)
  | (m, none) =>
    (m, reportLoop m (out ++ [.added c.length m.indexes.length]) (Runtime.iterIndexes (m.indexes.map (·.1))))

/-- The loop over the field indexes (src/Matcher.cc 200-209). -/
def indexLoop [Build] [Runtime] (m : Matcher) (params : SearchParameters) (w : Word) (maxError : Int)
    (best : BestIndexMatches) (out : Output) : List WordID → M (BestIndexMatches × Output)
  | [] => .ok (best, out)
  | k :: ks => do
    let name ← m.store.getWord k
    if params.isNonsearchingField name then indexLoop m params w maxError best out ks
    else
      match HMap.find m.indexes k with
      | none => .error .ub
      | some ind => do
        let ms ← ind.findWords w m.e maxError []
        let best := Matcher.addMatches best k ms
        let s ← w.asUtf8
        let name ← m.store.getWord k
        let t ← name.asUtf8
        indexLoop m params w maxError best (out ++ [.matched s t maxError ms.length]) ks

/-- `matchIndexes` (src/Matcher.cc 190-211). -/
def matchIndexes [Build] [Runtime] (m : Matcher) (params : SearchParameters) (extraError : Int)
    (best : BestIndexMatches) (out : Output) : WordList → M (BestIndexMatches × Output)
  | [] => .ok (best, out)
  | w :: ws => do
    let (best, out) ← indexLoop m params w (Matcher.wordMaxError params w extraError) best out
      (Runtime.iterIndexes (m.indexes.map (·.1)))
    matchIndexes m params extraError best out ws

/-- The loop over the matched words of one index (src/Matcher.cc 215-232). -/
def gatherWords [Build] [Runtime] [Fp] (m : Matcher) (indexID : WordID) (docs : SMap DocumentID ℚ) (out : Output) :
    MatchErrorMap → M (SMap DocumentID ℚ × Output)
  | [] => .ok (docs, out)
  | (wID, error) :: r => do
    let tmp := ReverseIndex.findDocuments m.reverseIndex wID indexID
    let word ← m.store.getWord wID
    let s ← word.asUtf8
    let field ← m.store.getWord indexID
    let t ← field.asUtf8
    let docs ← Matcher.gatherDocs m wID indexID error docs tmp
    gatherWords m indexID docs (out ++ [.searched s t tmp.length]) r

/-- `gatherMatchedDocuments` (src/Matcher.cc 213-234). -/
def gatherMatchedDocuments [Build] [Runtime] [Fp] (m : Matcher) (docs : SMap DocumentID ℚ) (out : Output) :
    BestIndexMatches → M (SMap DocumentID ℚ × Output)
  | [] => .ok (docs, out)
  | (indexID, words) :: r => do
    let (docs, out) ← gatherWords m indexID docs out words
    gatherMatchedDocuments m docs out r

/-- `Matcher::relevancyMatch` (src/Matcher.cc 312-330). -/
def relevancyMatch [Build] [Runtime] [Fp] (m : Matcher) (query : WordList) (params : SearchParameters)
    (extraError : Int) (matched : MatchResults) (out : Output) : M (MatchResults × Output) := do
  let (best, out) ← matchIndexes m params extraError [] out query
  let (docs, out) ← gatherMatchedDocuments m [] out best
  let matched := Matcher.addAll matched docs
  .ok (matched, out ++ [.total matched.size, .finished])

/-- The loop of `match` with growing error (src/Matcher.cc 342-349). -/
def matchLoop [Build] [Runtime] [Fp] (m : Matcher) (query : WordList) (params : SearchParameters)
    (all : MatchResults) (i : Nat) (out : Output) : Nat → M (MatchResults × Output)
  | 0 => .ok (all, out)
  | n + 1 => do
    let (ms, out) ← relevancyMatch m query params (i * Matcher.increment) MatchResults.new out
    if Matcher.minMatches ≤ ms.size ∨ i + 1 = Matcher.maxIterations then .ok (all.addResults ms, out)
    else matchLoop m query params all (i + 1) out n

/-- `Matcher::match(const WordList&, const SearchParameters&)` (src/Matcher.cc 332-363). -/
def matchQuery [Build] [Runtime] [Fp] (m : Matcher) (query : WordList) (params : SearchParameters) (out : Output) :
    Matcher × M (MatchResults × Output) :=
  if query.length = 0 then (m, .ok (MatchResults.new, out))
  else match matchLoop m query params MatchResults.new 0 out Matcher.maxIterations with
    | .error f => (m, .error f)
    | .ok (all, out) =>
      match Matcher.filterLoop m.reverseIndex params.filter m.store all MatchResults.new (List.range all.size) with
      | (s, .error f) => ({ m with store := s }, .error f)
      | (s, .ok r) => ({ m with store := s }, .ok (r, out))

/-- `Matcher::match(const char*, const SearchParameters&)` (src/Matcher.cc 383-385). -/
def matchUtf8Params [Build] [Icu] [Runtime] [Fp] (m : Matcher) (queryAsUtf8 : Bytes) (params : SearchParameters)
    (out : Output) : Matcher × M (MatchResults × Output) :=
  match splitToWords queryAsUtf8 with
  | .error f => (m, .error f)
  | .ok q => matchQuery m q params out

/-- `Matcher::onlineMatch` (src/Matcher.cc 413-453). -/
def onlineMatch [Build] [Runtime] [Fp] (m : Matcher) (query : WordList) (primaryIndex : Word) (out : Output) :
    Matcher × M (MatchResults × Output) :=
  match m.store.hasWord primaryIndex with
  | .error f => (m, .error f)
  | .ok false =>
    match Word.asUtf8 primaryIndex with
    | .error f => (m, .error f)
    | .ok _ => (m, .error .invalidArgument)
  | .ok true =>
    match m.store.getID primaryIndex with
    | .error f => ({ m with store := m.store.after f }, .error f)
    | .ok (s, indexID) =>
      match Matcher.countExacts m.reverseIndex indexID s [] query with
      | .error f => ({ m with store := s }, .error f)
      | .ok (s, counts) =>
        let (sizes, acc) := Matcher.exactLoop query.length indexID m.originalSizes [] counts
        let m := { m with store := s, originalSizes := sizes }
        match matchQuery m query SearchParameters.new out with
        | (m, .error f) => (m, .error f)
        | (m, .ok (fuzzy, out)) =>
          match Matcher.mergeLoop fuzzy acc (List.range fuzzy.size) with
          | .error f => (m, .error f)
          | .ok acc => (m, .ok (Matcher.addAll MatchResults.new acc, out))

end Columbus.Verbose
