import Verif.Model.Matcher
import Verif.Model.DataFile
/-
The graphical tools tools/queryapp.cc, numberpad.cc, hudtest.cc and sctest.cc: how they fill a matcher, and what they put
into their list of results. The windows are not modelled. A process that ends is described by `Started`.
-/

namespace Columbus.Apps
open Columbus

/-- `s.c_str()` as a C string: what is before the first NUL. -/
def cstr (s : Bytes) : Bytes := s.takeWhile (· != 0)

/-- `app_data`: the matcher and the vectors of what is shown for a document (tools/queryapp.cc 37-46, numberpad.cc 37-47,
hudtest.cc, where there are two vectors of the same length, sctest.cc 45-55). -/
structure App (ρ : Type) where
  m : Matcher
  source : List ρ

/-- `m->index(c)`; an exception ends the process. -/
def indexed [Build] (m : Matcher) (c : Corpus) : M Matcher :=
  match m.index c with
  | (m, none) => .ok m
  | (_, some f) => .error f

/-- `batchSize` (tools/queryapp.cc 147, numberpad.cc 246, hudtest.cc 157). -/
def batchSize : Nat := 100000

/-- The `while(getline(ifile, line))` loop of `build_matcher` (tools/queryapp.cc 161-177, numberpad.cc 263-279, hudtest.cc
175-203). `read` is the part that makes a document of a line, given its identifier `source.size()`; `none` is `continue`.
The counter `i` is always equal to `source.size()`. -/
def readLoop [Build] {ρ : Type} (read : Nat → Bytes → M (Option (Document × ρ))) :
    List Bytes → Matcher → Corpus → List ρ → M (Matcher × Corpus × List ρ)
  | [], m, c, source => .ok (m, c, source)
  | line :: r, m, c, source =>
    match read source.length line with
    | .error f => .error f
    | .ok none => readLoop read r m c source
    | .ok (some (d, row)) =>
      if (source.length + 1) % batchSize = 0 then
        match indexed m (c.addDocument d) with
        | .error f => .error f
        | .ok m => readLoop read r m [] (source ++ [row])
      else readLoop read r m (c.addDocument d) (source ++ [row])

/-- The loop and the last `index` call after it (tools/queryapp.cc 161-178, numberpad.cc 263-280, hudtest.cc 175-204). -/
def readAll [Build] {ρ : Type} (read : Nat → Bytes → M (Option (Document × ρ))) (contents : Bytes) (m : Matcher) :
    M (App ρ) := do
  let (m, c, source) ← readLoop read (Host.lines contents) m [] []
  let m ← indexed m c
  .ok ⟨m, source⟩

/-- Lines 164-166 of tools/queryapp.cc, 266-268 of numberpad.cc, 180-182 of hudtest.cc, for a line that is not empty:
`line[line.size()-2]` is outside the string if it has one character. -/
def dosLine (line : Bytes) : M Bytes :=
  if line.length < 2 then .error .ub
  else match line[line.length - 2]? with
    | none => .error .ub
    | some b => .ok (if b = 0x0d then line.set (line.length - 2) 0 else line)

/-- The body of the loop (tools/queryapp.cc 162-170, numberpad.cc 264-272). -/
def readLine [Build] [Icu] (field : Word) (id : Nat) (line : Bytes) : M (Option (Document × Bytes)) :=
  if line.length = 0 then .ok none
  else do
    let line ← dosLine line
    let d ← (Document.new id).addTextUtf8 field (cstr line)
    .ok (some (d, line))

/-- "name", "path", "command", "alias", "genericname", "comment". -/
def nameText : Bytes := [0x6e, 0x61, 0x6d, 0x65]
def pathText : Bytes := [0x70, 0x61, 0x74, 0x68]
def commandText : Bytes := [0x63, 0x6f, 0x6d, 0x6d, 0x61, 0x6e, 0x64]
def aliasText : Bytes := [0x61, 0x6c, 0x69, 0x61, 0x73]
def genericText : Bytes := [0x67, 0x65, 0x6e, 0x65, 0x72, 0x69, 0x63, 0x6e, 0x61, 0x6d, 0x65]
def commentText : Bytes := [0x63, 0x6f, 0x6d, 0x6d, 0x65, 0x6e, 0x74]

/-- `build_matcher` of tools/queryapp.cc (144-182) on the contents of the file. -/
def queryappBuild [Build] [Icu] (os : Nat → Bool) (contents : Bytes) : M (App Bytes) := do
  let field ← Word.ofUtf8 nameText
  let m ← Matcher.new os
  readAll (readLine field) contents m

/-- `build_matcher` of tools/numberpad.cc (243-284) on the contents of the file. -/
def numberpadBuild [Build] [Icu] (os : Nat → Bool) (contents : Bytes) : M (App Bytes) := do
  let field ← Word.ofUtf8 nameText
  let m ← Matcher.new os
  let e ← m.e.addNumberpadErrors
  readAll (readLine field) contents { m with e := e.setSubstringMode }

/-- `line.find(c, 0)`. -/
def find (c : Nat) (line : Bytes) : Option Nat := line.findIdx? (· == c)

/-- `splitShowableParts` (tools/hudtest.cc 145-149). Without `>` the position is `npos`, and `npos+1` is 0. -/
def splitShowableParts (line : Bytes) : Bytes × Bytes :=
  match find 0x3e line with
  | none => (line, line)
  | some k => (line.take k, line.drop (k + 1))

/-- "Fuzzy Select", "magnetic lasso". -/
def fuzzySelect : Bytes := [0x46, 0x75, 0x7a, 0x7a, 0x79, 0x20, 0x53, 0x65, 0x6c, 0x65, 0x63, 0x74]
def magneticLasso : Bytes := [0x6d, 0x61, 0x67, 0x6e, 0x65, 0x74, 0x69, 0x63, 0x20, 0x6c, 0x61, 0x73, 0x73, 0x6f]

/-- `text.find(s) != npos`. -/
def containsText (s : Bytes) : Bytes → Bool
  | [] => s.isEmpty
  | b :: r => s.isPrefixOf (b :: r) || containsText s r

/-- The body of the loop (tools/hudtest.cc 176-196). -/
def readCommand [Build] [Icu] (pathField commandField aliasField : Word) (id : Nat) (line : Bytes) :
    M (Option (Document × (Bytes × Bytes))) :=
  if line.length = 0 then .ok none
  else do
    let line ← dosLine line
    let (pathPart, commandPart) := splitShowableParts line
    let path ← splitToWords (cstr pathPart)
    let command ← splitToWords (cstr commandPart)
    if WordList.size command = 0 then .ok none
    else do
      let d := ((Document.new id).addText pathField path).addText commandField command
      let d ← if containsText fuzzySelect commandPart then d.addTextUtf8 aliasField magneticLasso else .ok d
      .ok (some (d, (pathPart, commandPart)))

/-- The weights of tools/hudtest.cc (159-160) and tools/sctest.cc (247-248). -/
def pathWeight [Fp] : ℚ := Fp.rnd (3 / 10)
def aliasWeight [Fp] : ℚ := Fp.rnd (8 / 10)
def genericWeight [Fp] : ℚ := Fp.rnd (6 / 10)
def commentWeight [Fp] : ℚ := Fp.rnd (3 / 10)

/-- `addStandardErrors` as a call whose exception ends the process. -/
def standard [Build] [Icu] (sys : Host) (e : ErrorValues) : M ErrorValues :=
  match sys.addStandardErrors e with
  | (e, none) => .ok e
  | (_, some f) => .error f

/-- `build_matcher` of tools/hudtest.cc (152-210) on the contents of the file. -/
def hudtestBuild [Build] [Icu] [Fp] (sys : Host) (os : Nat → Bool) (contents : Bytes) : M (App (Bytes × Bytes)) := do
  let pathField ← Word.ofUtf8 pathText
  let commandField ← Word.ofUtf8 commandText
  let aliasField ← Word.ofUtf8 aliasText
  let m ← Matcher.new os
  let e ← standard sys m.e.setSubstringMode
  let app ← readAll (readCommand pathField commandField aliasField) contents { m with e := e }
  let weights := IndexWeights.setWeight app.m.weights pathField pathWeight
  .ok { app with m := { app.m with weights := IndexWeights.setWeight weights aliasField aliasWeight } }

/-- The three lists that `processFile` fills in. -/
structure Desktop where
  name : WordList
  genericName : WordList
  comment : WordList

/-- The loop of `processFile` (tools/sctest.cc 174-197). `n` is a fresh word in each round. -/
def processLoop [Build] [Icu] : List Bytes → Desktop → M Desktop
  | [], d => .ok d
  | line :: r, d =>
    match find 0x3d line with
    | none => processLoop r d
    | some k =>
      match splitToWords (cstr (line.drop (k + 1))) with
      | .error f => .error f
      | .ok vals =>
        match Word.ofUtf8 (cstr (line.set k 0)) with
        | .error .invalidArgument => processLoop r d
        | .error f => .error f
        | .ok n =>
          if 0 < WordList.size vals then do
            let isName ← n.beqUtf8 nameText
            let d := if isName then { d with name := vals } else d
            let isGeneric ← n.beqUtf8 genericText
            let d := if isGeneric then { d with genericName := vals } else d
            let isComment ← n.beqUtf8 commentText
            let d := if isComment then { d with comment := vals } else d
            processLoop r d
          else processLoop r d

/-- `processFile` (tools/sctest.cc 164-198) on the contents of the file. -/
def processFile [Build] [Icu] (contents : Bytes) : M Desktop := processLoop (Host.lines contents) ⟨[], [], []⟩

/-- How a tool starts: it prints how to use it (code 0), that a file cannot be opened (code 1), a failure (code 99), or it
waits for queries. -/
inductive Started (α : Type) where
  | usage
  | noFile (name : Bytes)
  | failed
  | ready (app : α)

/-- The loop of `buildCorpus` (tools/sctest.cc 210-228) over the entries of the directory in the order of `readdir`: names
and contents, `none` if the file cannot be opened, which ends the process (168-171). -/
def corpusLoop [Build] [Icu] (nameField genericField commentField : Word) :
    List (Bytes × Option Bytes) → Corpus → List Bytes → M (Started (Corpus × List Bytes))
  | [], c, names => .ok (.ready (c, names))
  | (file, contents) :: r, c, names =>
    if file.head? = some 0x2e then corpusLoop nameField genericField commentField r c names
    else match contents with
      | none => .ok (.noFile file)
      | some contents =>
        match processFile contents with
        | .error f => .error f
        | .ok x =>
          if 0 < x.name.size then
            let d := (Document.new c.length).addText nameField x.name
            let d := if 0 < x.genericName.size then d.addText genericField x.genericName else d
            let d := if 0 < x.comment.size then d.addText commentField x.comment else d
            corpusLoop nameField genericField commentField r (c.addDocument d) (names ++ [file])
          else corpusLoop nameField genericField commentField r c names

/-- `build_matcher` of tools/sctest.cc (234-251), with `buildCorpus` (200-232): `dir` are the entries of the directory,
`none` if it cannot be opened. The fields are the globals of lines 41-43. -/
def sctestBuild [Build] [Icu] [Fp] (sys : Host) (os : Nat → Bool) (dir : Option (List (Bytes × Option Bytes))) :
    M (Started (App Bytes)) := do
  let nameField ← Word.ofUtf8 nameText
  let genericField ← Word.ofUtf8 genericText
  let commentField ← Word.ofUtf8 commentText
  let m ← Matcher.new os
  match dir with
  | none => .error .runtimeError
  | some entries =>
    match ← corpusLoop nameField genericField commentField entries [] [] with
    | .usage => .ok .usage
    | .noFile f => .ok (.noFile f)
    | .failed => .ok .failed
    | .ready (c, names) => do
      let m ← indexed m c
      let weights := IndexWeights.setWeight m.weights genericField genericWeight
      let weights := IndexWeights.setWeight weights commentField commentWeight
      let e ← standard sys m.e
      .ok (.ready ⟨{ m with weights := weights, e := e.setSubstringMode }, names⟩)

/-- The faults that are C++ exceptions; `main` of all tools catches them (tools/queryapp.cc 205-208, numberpad.cc 308-311,
hudtest.cc 233-236, sctest.cc 270-273). -/
def caught {α : Type} : M (Started α) → M (Started α)
  | .ok x => .ok x
  | .error .outOfRange => .ok .failed
  | .error .invalidArgument => .ok .failed
  | .error .runtimeError => .ok .failed
  | .error f => .error f

/-- `main` of tools/queryapp.cc (188-210), numberpad.cc (291-313) and hudtest.cc (216-239) up to `gtk_main`, for the given
`build_matcher`. `files` has the files that can be opened. Simplification: `gtk_init` takes no arguments away. -/
def start {α : Type} (build : Bytes → M α) (files : Bytes → Option Bytes) (argv : List Bytes) : M (Started α) :=
  match argv with
  | _ :: file :: _ =>
    match files file with
    | none => .ok (.noFile file)
    | some contents => caught (do let app ← build contents; .ok (.ready app))
  | _ => .ok .usage

/-- `main` of tools/sctest.cc (257-275) up to `gtk_main`. -/
def sctestStart [Build] [Icu] [Fp] (sys : Host) (os : Nat → Bool) (dir : Option (List (Bytes × Option Bytes))) :
    M (Started (App Bytes)) := caught (sctestBuild sys os dir)

/-- What a tool shows after a search: an empty list because the search failed, or a list of what was pushed for the
documents, with relevancies. -/
inductive Shown (ρ : Type) where
  | failed
  | rows (l : List (ρ × ℚ))

/-- The loop that fills the list (tools/queryapp.cc 75-82, numberpad.cc 103-110, hudtest.cc 78-86, sctest.cc 71-78);
`text` is what is shown of a string in the vector. -/
def showLoop {ρ : Type} (text : ρ → ρ) (source : List ρ) (matches' : MatchResults) : List Nat → M (List (ρ × ℚ))
  | [] => .ok []
  | i :: r => do
    let (matches', id) ← matches'.getDocumentID i
    match source[id]? with
    | none => .error .ub
    | some row =>
      let (matches', rel) ← matches'.getRelevancy i
      let rest ← showLoop text source matches' r
      .ok ((text row, rel) :: rest)

/-- `doSearch` for the text of the entry. -/
def searchWith [Build] [Icu] [Runtime] [Fp] {ρ : Type} (text : ρ → ρ) (app : App ρ) (query : Bytes) : M (App ρ × Shown ρ) :=
  match app.m.matchUtf8 query with
  | (m, .error .outOfRange) => .ok ({ app with m := m }, .failed)
  | (m, .error .invalidArgument) => .ok ({ app with m := m }, .failed)
  | (m, .error .runtimeError) => .ok ({ app with m := m }, .failed)
  | (_, .error f) => .error f
  | (m, .ok found) => do
    let l ← showLoop text app.source found (List.range found.size)
    .ok ({ app with m := m }, .rows l)

/-- `doSearch` of tools/queryapp.cc (57-89), numberpad.cc (85-115, without the call of `doExactMatch`) and sctest.cc
(84-113): `source[id].c_str()` is shown. -/
def doSearch [Build] [Icu] [Runtime] [Fp] (app : App Bytes) (query : Bytes) : M (App Bytes × Shown Bytes) :=
  searchWith cstr app query

/-- `doSearch` of tools/hudtest.cc (60-93). -/
def hudtestSearch [Build] [Icu] [Runtime] [Fp] (app : App (Bytes × Bytes)) (query : Bytes) :
    M (App (Bytes × Bytes) × Shown (Bytes × Bytes)) :=
  searchWith (fun r => (cstr r.1, cstr r.2)) app query

end Columbus.Apps
