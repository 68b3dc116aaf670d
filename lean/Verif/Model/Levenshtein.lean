import Verif.Model.ErrorValues
import Verif.Model.Trie
import Verif.Model.Runtime
/-
src/ErrorMatrix.cc, src/IndexMatches.cc and src/LevenshteinIndex.cc.
-/

namespace Columbus

/-- Result of an `int` computation: signed overflow is undefined behaviour. -/
def chk (v : Int) : M Int := if -2^31 ≤ v ∧ v < 2^31 then .ok v else .error .ub

/-- Narrowing conversion to `int` (modular on the modelled compilers). -/
def wrap32 (v : Int) : Int := (v + 2^31) % 2^32 - 2^31

/-- `a - b` for `size_t` used as an array index: when it wraps around the access is out of bounds. -/
def idxSub (a b : Nat) : M Nat := if b ≤ a then .ok (a - b) else .error .ub

/-! ### src/ErrorMatrix.cc -/

/-- `ErrorMatrix` (include/ErrorMatrix.hh 37-39): `(rows+1) × (columns+1)` integers; `none` is a cell that was never
written. -/
structure ErrorMatrix where
  rows : Nat
  columns : Nat
  m : Nat → Nat → Option Int

namespace ErrorMatrix

/-- Left column (src/ErrorMatrix.cc 37-38): the value of `m[i][0]`, starting from `m[0][0]`. -/
def leftColumn (first deletionError : Int) : Nat → M Int
  | 0 => .ok first
  | i + 1 => do
    let v ← leftColumn first deletionError i
    chk (v + deletionError)

/-- `ErrorMatrix::ErrorMatrix` (src/ErrorMatrix.cc 27-39). `i*insertError` is computed in `size_t` and narrowed. The
last cell of the left column is computed to check all the additions. -/
def new (rows columns : Nat) (insertError deletionError : Int) : M ErrorMatrix := do
  let first := wrap32 (((0 : Nat) : Int) * insertError)
  let _ ← leftColumn first deletionError rows
  .ok { rows := rows, columns := columns,
        m := fun r c =>
          if r = 0 then some (wrap32 ((c : Int) * insertError))
          else if c = 0 then some (first + r * deletionError)
          else none }

/-- `ErrorMatrix::get` (include/ErrorMatrix.hh 50), no bounds check in the code. -/
def get (em : ErrorMatrix) (r c : Nat) : M Int :=
  if r ≤ em.rows ∧ c ≤ em.columns then
    match em.m r c with
    | some v => .ok v
    | none => .error .ub
  else .error .ub

/-- `ErrorMatrix::set` (src/ErrorMatrix.cc 49-55). -/
def set (em : ErrorMatrix) (r c : Nat) (error : Int) : M ErrorMatrix :=
  if em.rows < r then .error .outOfRange
  else if em.columns < c then .error .outOfRange
  else .ok { em with m := fun r' c' => if r' = r ∧ c' = c then some error else em.m r' c' }

/-- `ErrorMatrix::totalError` (src/ErrorMatrix.cc 57-59). -/
def totalError (em : ErrorMatrix) (r : Nat) : M Int := do
  let c ← idxSub em.columns 1
  em.get r c

/-- Loop of `minError` (src/ErrorMatrix.cc 63-65) over the remaining columns. -/
def minLoop (em : ErrorMatrix) (r : Nat) (result : Int) : List Nat → M Int
  | [] => .ok result
  | i :: is => do
    let v ← em.get r i
    minLoop em r (if v < result then v else result) is

/-- `ErrorMatrix::minError` (src/ErrorMatrix.cc 61-67). -/
def minError (em : ErrorMatrix) (r : Nat) : M Int := do
  let first ← em.get r 0
  em.minLoop r first (List.range' 1 (em.columns - 1))

end ErrorMatrix

/-! ### src/IndexMatches.cc -/

/-- `IndexMatches` (src/IndexMatches.cc 41-43). -/
abbrev IndexMatches := List MatchData

namespace IndexMatches

/-- `IndexMatches::IndexMatches()`, `clear` (src/IndexMatches.cc 45-47, 100-102). -/
def new : IndexMatches := []
def clear (_ : IndexMatches) : IndexMatches := []

/-- `IndexMatches::size` (src/IndexMatches.cc 60-62). -/
def size (ms : IndexMatches) : Nat := ms.length

/-- `IndexMatches::addMatch` (src/IndexMatches.cc 53-58). The query word is ignored: `queryWord` stays an empty `Word`. -/
def addMatch (ms : IndexMatches) (w : WordID) (error : Int) : IndexMatches := ms ++ [⟨w, error⟩]

/-- `IndexMatches::getMatch` (src/IndexMatches.cc 64-74). -/
def getMatch (ms : IndexMatches) (num : Nat) : M WordID :=
  match ms[num]? with
  | none => .error .outOfRange
  | some m => .ok m.matchedWord

/-- `IndexMatches::getQuery` (src/IndexMatches.cc 76-86): the `queryWord` of every entry is empty. -/
def getQuery (ms : IndexMatches) (num : Nat) : M Word :=
  match ms[num]? with
  | none => .error .outOfRange
  | some _ => .ok []

/-- `IndexMatches::getMatchError` (src/IndexMatches.cc 88-98). -/
def getMatchError (ms : IndexMatches) (num : Nat) : M Int :=
  match ms[num]? with
  | none => .error .outOfRange
  | some m => .ok m.error

/-- `IndexMatches::sort` (src/IndexMatches.cc 104-106). -/
def sort [Runtime] (ms : IndexMatches) : IndexMatches := Runtime.sortMatches ms

end IndexMatches

/-! ### src/LevenshteinIndex.cc -/

/-- `LevenshteinIndexPrivate` (src/LevenshteinIndex.cc 57-64). The members `numNodes` and `numWords` are never used. -/
structure LevIndex where
  wordCounts : HMap WordID Nat
  maxCount : Nat
  longestWordLength : Nat
  trie : Trie

namespace LevIndex

/-- `LevenshteinIndex::LevenshteinIndex` (src/LevenshteinIndex.cc 67-71). -/
def new [Build] (os : Nat → Bool) : M LevIndex := do
  let t ← Trie.new os
  .ok ⟨[], 0, 0, t⟩

/-- `LevenshteinIndex::wordCount` (src/LevenshteinIndex.cc 168-173). -/
def wordCount (ix : LevIndex) (id : WordID) : Nat := (HMap.find ix.wordCounts id).getD 0

/-- `LevenshteinIndex::insertWord` (src/LevenshteinIndex.cc 81-98). -/
def insertWord [Build] (ix : LevIndex) (word : Word) (wordID : WordID) : M LevIndex :=
  if word.length = 0 then .ok ix
  else do
    let newCount := match HMap.find ix.wordCounts wordID with
      | some c => c + 1
      | none => 1
    let (t, _) ← ix.trie.insertWord word wordID
    .ok { wordCounts := HMap.set ix.wordCounts wordID newCount
          maxCount := if ix.maxCount < newCount then newCount else ix.maxCount
          longestWordLength := if word.length > ix.longestWordLength then word.length else ix.longestWordLength
          trie := t }

/-- The index after an exception in `insertWord`: only the trie can have changed (src/LevenshteinIndex.cc 91). -/
def after (ix : LevIndex) (f : Fault) : LevIndex := if f = .runtimeError then { ix with trie := ix.trie.lost } else ix

/-- `LevenshteinIndex::hasWord` (src/LevenshteinIndex.cc 100-102). -/
def hasWord (ix : LevIndex) (word : Word) : M Bool := ix.trie.hasWord word

/-- `query.text[i]`: the letters and the terminator are readable (src/LevenshteinIndex.cc 133, 136). -/
def queryText (query : Word) (i : Nat) : M Letter :=
  match query[i]? with
  | some l => .ok l
  | none => if i = query.length ∧ 0 < query.length then .ok 0#16 else .error .ub

/-- The condition of the transposition case (src/LevenshteinIndex.cc 136), with its short-circuits. -/
def transposable (query : Word) (i : Nat) (letter previousLetter : Letter) : M Bool :=
  if 1 < i then do
    let a ← queryText query (i - 1)
    if a = previousLetter then do
      let b ← queryText query (i - 2)
      .ok (decide (b = letter))
    else .ok false
  else .ok false

/-- `LevenshteinIndex::findOptimalError` (src/LevenshteinIndex.cc 124-142). -/
def findOptimalError (letter previousLetter : Letter) (query : Word) (i depth : Nat) (em : ErrorMatrix)
    (e : ErrorValues) : M Int := do
  let im1 ← idxSub i 1
  let a ← em.get depth im1
  let insertError ← chk (a + e.getInsertionError)
  let dm1 ← idxSub depth 1
  let b ← em.get dm1 i
  let deleteError ←
    if query.length ≤ i then chk (b + e.getEndDeletionError) else chk (b + e.getDeletionError)
  let c ← em.get dm1 im1
  let q ← queryText query im1
  let s ← e.getSubstituteError q letter
  let substituteError ← chk (c + s)
  let t ← transposable query i letter previousLetter
  let transposeError ←
    if t then do
      let dm2 ← idxSub depth 2
      let d ← em.get dm2 (i - 2)
      chk (d + e.getTransposeError)
    else chk (insertError + 10000)
  .ok (min insertError (min deleteError (min substituteError transposeError)))

/-- The row loop of `searchRecursive` (src/LevenshteinIndex.cc 148-151) over the remaining columns. -/
def fillRow (query : Word) (e : ErrorValues) (letter previousLetter : Letter) (depth : Nat) (em : ErrorMatrix) :
    List Nat → M ErrorMatrix
  | [] => .ok em
  | i :: is => do
    let v ← findOptimalError letter previousLetter query i depth em e
    let em ← em.set depth i v
    fillRow query e letter previousLetter depth em is

mutual
/-- `LevenshteinIndex::searchRecursive` (src/LevenshteinIndex.cc 144-166). -/
def searchRecursive (t : Trie) (query : Word) (e : ErrorValues) (maxError : Int) (fuel : Nat) (node : Nat)
    (letter previousLetter : Letter) (depth : Nat) (em : ErrorMatrix) (ms : IndexMatches) :
    M (ErrorMatrix × IndexMatches) :=
  match fuel with
  | 0 => .error .fuel
  | fuel + 1 => do
    let em ← fillRow query e letter previousLetter depth em (List.range' 1 query.length)
    let total ← em.totalError depth
    let w ← t.getWordID node
    let ms := if total ≤ maxError ∧ w ≠ INVALID_WORDID then IndexMatches.addMatch ms w total else ms
    let mn ← em.minError depth
    if mn ≤ maxError then do
      let sibling ← t.getSiblingList node
      searchSiblings t query e maxError fuel sibling letter (depth + 1) em ms
    else .ok (em, ms)
/-- The `while(sibling != 0)` loops of `searchRecursive` (src/LevenshteinIndex.cc 159-164) and `findWords` (115-120):
each child is searched at depth `depth` with `letter` as the previous letter. -/
def searchSiblings (t : Trie) (query : Word) (e : ErrorValues) (maxError : Int) (fuel : Nat) (sibling : Nat)
    (letter : Letter) (depth : Nat) (em : ErrorMatrix) (ms : IndexMatches) : M (ErrorMatrix × IndexMatches) :=
  match fuel with
  | 0 => .error .fuel
  | fuel + 1 =>
    if sibling = 0 then .ok (em, ms)
    else do
      let l ← t.getLetter sibling
      let nextNode ← t.getChild sibling
      let (em, ms) ← searchRecursive t query e maxError fuel nextNode l letter depth em ms
      let sibling ← t.getNextSibling sibling
      searchSiblings t query e maxError fuel sibling letter depth em ms
end

/-- `LevenshteinIndex::findWords` (src/LevenshteinIndex.cc 104-122): the contents of `matches` after the call. -/
def findWords [Build] [Runtime] (ix : LevIndex) (query : Word) (e : ErrorValues) (maxError : Int)
    (matches0 : IndexMatches) : M IndexMatches := do
  let em ← ErrorMatrix.new (ix.longestWordLength + 1) (query.length + 1) e.getDeletionError
    (e.getStartInsertionError query.length)
  let e00 ← em.get 0 0
  cassert (decide (e00 = 0))
  if 0 < query.length then
    let e01 ← em.get 0 1
    cassert (decide (e01 = e.getInsertionError))
  let sibling ← ix.trie.getSiblingList ix.trie.getRoot
  let (_, ms) ← searchSiblings ix.trie query e maxError ix.trie.mapped sibling 0#16 1 em matches0
  .ok (IndexMatches.sort ms)

/-- `LevenshteinIndex::maxCount`, `numNodes`, `numWords` (src/LevenshteinIndex.cc 175-185). -/
def getMaxCount (ix : LevIndex) : Nat := ix.maxCount
def numNodes (ix : LevIndex) : M Nat := ix.trie.numNodes
def numWords (ix : LevIndex) : M Nat := ix.trie.numWords

end LevIndex
end Columbus
