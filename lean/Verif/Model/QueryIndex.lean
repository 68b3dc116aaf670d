import Verif.Model.Levenshtein
/-
tools/queryindex.cc, the command line tool that searches a word list.
-/

namespace Columbus.QueryIndex

/-- `fgets(buffer, n + 1, f)` on the bytes that are left: what is stored before the terminator, at most `n` bytes up to and
including the first newline, and the bytes left after the call. -/
def fgets : Nat → Bytes → Bytes × Bytes
  | 0, s => ([], s)
  | _ + 1, [] => ([], [])
  | n + 1, b :: s => if b = 0x0a then ([b], s) else let (l, r) := fgets n s; (b :: l, r)

/-- `buffer` after lines 42-44 (tools/queryindex.cc), as a C string. `slen` is the length up to the first NUL byte. If it is
0, `buffer[slen-1]` is outside the buffer: the index is 4294967295. -/
def chop [Build] (stored : Bytes) : M Bytes :=
  let text := stored.takeWhile (· != 0)
  match text.getLast? with
  | none => .error .ub
  | some last => do
    cassert (decide (last = 0x0a))
    .ok text.dropLast

/-- The loop of `load_data` (tools/queryindex.cc 41-47), with fuel: every round takes at least one byte. -/
def loadLoop [Build] [Icu] : Nat → Bytes → LevIndex → WordStore → M (LevIndex × WordStore)
  | _, [], ind, s => .ok (ind, s)
  | 0, _ :: _, _, _ => .error .fuel
  | fuel + 1, b :: rest, ind, s => do
    let (stored, left) := fgets 1023 (b :: rest)
    let line ← chop stored
    let w ← Word.ofUtf8 line
    let (s, id) ← s.getID w
    let ind ← ind.insertWord w id
    loadLoop fuel left ind s

/-- `load_data` (tools/queryindex.cc 34-49) on the contents of the file. -/
def loadData [Build] [Icu] (ind : LevIndex) (s : WordStore) (contents : Bytes) : M (LevIndex × WordStore) :=
  loadLoop contents.length contents ind s

/-- What the tool prints, one constructor for each `printf` (tools/queryindex.cc 38, 56, 63, 74, 81, 89, 108). -/
inductive Printed
  | noFile (file : Bytes)
  | noMatches
  | hit (text : Bytes) (error : Int)
  | usage
  | queryBlank (query : Bytes)
  | malformed
  | failed
  deriving DecidableEq, Repr

/-- The loop of `queryAndPrint` (tools/queryindex.cc 59-64) over the positions `i`: what was printed and the fault that
ended it, if any. -/
def printLoop [Build] (s : WordStore) (ms : IndexMatches) : List Nat → List Printed × Option Fault
  | [] => ([], none)
  | i :: r =>
    match (do
      let id ← ms.getMatch i
      let w ← s.getWord id
      let text ← w.toUtf8 1024
      let error ← ms.getMatchError i
      .ok (Printed.hit (text.takeWhile (· != 0)) error) : M Printed) with
    | .error f => ([], some f)
    | .ok p => let (ps, f) := printLoop s ms r; (p :: ps, f)

/-- `queryAndPrint` (tools/queryindex.cc 51-65). -/
def queryAndPrint [Build] [Icu] [Runtime] (ind : LevIndex) (s : WordStore) (query : Word) (maxError : Int) :
    List Printed × Option Fault :=
  match ind.findWords query ErrorValues.new maxError IndexMatches.new with
  | .error f => ([], some f)
  | .ok ms => if ms.size = 0 then ([.noMatches], none) else printLoop s ms (List.range ms.size)

/-- The characters skipped by `atoi`, and digits. -/
def isSpace (b : Nat) : Bool := b = 0x20 || (decide (0x09 ≤ b) && decide (b ≤ 0x0d))
def isDigit (b : Nat) : Bool := decide (0x30 ≤ b) && decide (b ≤ 0x39)

/-- `atoi` (line 84) as the C standard has it: blanks, a sign, digits; undefined if the value is no `int`. -/
def atoi (s : Bytes) : M Int :=
  let s := s.dropWhile isSpace
  let (negative, s) := match s with
    | 0x2d :: r => (true, r)
    | 0x2b :: r => (false, r)
    | _ => (false, s)
  let v : Int := (s.takeWhile isDigit).foldl (fun (v : Int) (b : Nat) => 10 * v + ((b : Int) - 48)) 0
  let v := if negative then -v else v
  if -2^31 ≤ v ∧ v < 2^31 then .ok v else .error .ub

/-- How the process ended: what it printed on the standard output, and the exit code. -/
structure Ended where
  out : List Printed
  code : Nat
  deriving DecidableEq, Repr

/-- The faults that are C++ exceptions, all of them derived from `std::exception`. -/
def thrown : Fault → Bool
  | .outOfRange | .invalidArgument | .runtimeError => true
  | _ => false

/-- `run_test` (tools/queryindex.cc 67-102). `osI` and `osS` answer the size requests of the index and of the word store,
`files` has the files that can be opened. Simplification: the query object that early returns leak is not tracked. -/
def runTest [Build] [Icu] [Runtime] (osI osS : Nat → Bool) (files : Bytes → Option Bytes) (argv : List Bytes) :
    M Ended := do
  let ind ← LevIndex.new osI
  let s ← WordStore.new osS
  match argv with
  | _ :: file :: q :: m :: _ =>
    match Word.ofUtf8 q with
    | .error .invalidArgument => .ok ⟨[.queryBlank q], 1⟩
    | .error f => .error f
    | .ok query =>
      let maxError ← atoi m
      match files file with
      | none => .ok ⟨[.noFile file], 1⟩
      | some contents =>
        match loadData ind s contents with
        | .error .invalidArgument => .ok ⟨[.malformed], 1⟩
        | .error f => .error f
        | .ok (ind, s) =>
          match queryAndPrint ind s query maxError with
          | (out, none) => .ok ⟨out, 0⟩
          | (out, some f) => if thrown f then .ok ⟨out, 99⟩ else .error f
  | _ => .ok ⟨[.usage], 0⟩

/-- `main` (tools/queryindex.cc 104-111): the end of the process; a fault that is no exception kills it. -/
def main [Build] [Icu] [Runtime] (osI osS : Nat → Bool) (files : Bytes → Option Bytes) (argv : List Bytes) : M Ended :=
  match runTest osI osS files argv with
  | .ok r => .ok r
  | .error f => if thrown f then .ok ⟨[.failed], 105⟩ else .error f

end Columbus.QueryIndex
