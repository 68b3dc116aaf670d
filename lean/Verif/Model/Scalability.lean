import Verif.Model.QueryIndex
import Verif.Model.DataFile
/-
test/LevScalabilityTest.cc, the program that measures how fast a list of words is indexed and searched.
-/

namespace Columbus.Scalability
open Columbus QueryIndex

/-- The loop of `readData` (test/LevScalabilityTest.cc 48-54), with fuel: every round takes at least one byte. -/
def readLoop [Build] [Icu] : Nat → Bytes → List Word → M (List Word)
  | _, [], a => .ok a
  | 0, _ :: _, _ => .error .fuel
  | fuel + 1, b :: rest, a => do
    let (stored, left) := fgets 1023 (b :: rest)
    let line ← chop stored
    let s ← Word.ofUtf8 line
    readLoop fuel left (a ++ [s])

/-- `readData` (test/LevScalabilityTest.cc 41-56) on the contents of a file that could be opened. -/
def readData [Build] [Icu] (contents : Bytes) : M (List Word) := readLoop contents.length contents []

/-- What the program prints on the standard output, one constructor for each `printf` (test/LevScalabilityTest.cc 45, 84, 90,
97, 106, 111, 116). Simplification: the times and speeds in it are left out. -/
inductive Printed
  | skipped
  | built
  | simple
  | heavy
  | usage (name : Bytes)
  | read (words : Nat)
  | querying (number : Int)
  deriving DecidableEq, Repr

/-- `(size_t)query_size` (line 63). -/
def sizeOfInt (n : Int) : Nat := (n % 2^64).toNat

/-- The conversion of `a.size()` to `int` (line 115), which wraps around. -/
def intOfSize (n : Nat) : Int := wrap32 n

/-- `LevenshteinIndex::getDefaultError` (src/LevenshteinIndex.cc 77-79). -/
def defaultError : Int := 100

/-- The loop of `runQueries` (test/LevScalabilityTest.cc 63-66) with `remaining` rounds left. The matches are dropped after
each of them. `a[i]` is undefined beyond the end. -/
def queryLoop [Build] [Icu] [Runtime] (a : List Word) (e : ErrorValues) (ind : LevIndex) : Nat → Nat → M Unit
  | 0, _ => .ok ()
  | remaining + 1, i =>
    match a[i]? with
    | none => .error .ub
    | some q => do
      let _ ← ind.findWords q e (2 * defaultError) IndexMatches.new
      queryLoop a e ind remaining (i + 1)

/-- `runQueries` (test/LevScalabilityTest.cc 62-67). -/
def runQueries [Build] [Icu] [Runtime] (querySize : Int) (a : List Word) (e : ErrorValues) (ind : LevIndex) : M Unit :=
  queryLoop a e ind (sizeOfInt querySize) 0

/-- The loop that builds the index (test/LevScalabilityTest.cc 79-80). -/
def insertLoop [Build] : List Word → LevIndex → WordStore → M (LevIndex × WordStore)
  | [], ind, store => .ok (ind, store)
  | w :: r, ind, store => do
    let (store, id) ← store.getID w
    let ind ← ind.insertWord w id
    insertLoop r ind store

/-- The part of `runTest` before the first message (test/LevScalabilityTest.cc 72-82). -/
def buildIndex [Build] (osI osS : Nat → Bool) (a : List Word) : M LevIndex := do
  let ind ← LevIndex.new osI
  let store ← WordStore.new osS
  let (ind, _) ← insertLoop a ind store
  .ok ind

/-- `runTest` (test/LevScalabilityTest.cc 69-98): what is printed, and the fault that ended it, if any. `osI` and `osS` answer
the size requests of the index and of the word store. -/
def runTest [Build] [Icu] [Runtime] (sys : Host) (osI osS : Nat → Bool) (a : List Word) (querySize : Int) :
    List Printed × Option Fault :=
  match buildIndex osI osS a with
  | .error f => ([], some f)
  | .ok ind =>
    match runQueries querySize a ErrorValues.new ind with
    | .error f => ([.built], some f)
    | .ok () =>
      match sys.addStandardErrors ErrorValues.new with
      | (_, some f) => ([.built, .simple], some f)
      | (e, none) =>
        match runQueries querySize a e ind with
        | .error f => ([.built, .simple], some f)
        | .ok () => ([.built, .simple, .heavy], none)

/-- How the process ended: what it printed on the standard output, and the exit code. -/
structure Ended where
  out : List Printed
  code : Nat
  deriving DecidableEq, Repr

/-- The end of `main` (test/LevScalabilityTest.cc 122-127) after `out` was printed: an exception is reported on the error
output and the exit code is 666, of which the system keeps the lowest byte. Any other fault kills the process. -/
def ending (out : List Printed) : Option Fault → M Ended
  | none => .ok ⟨out, 0⟩
  | some f => if thrown f then .ok ⟨out, 154⟩ else .error f

/-- `querySize` (test/LevScalabilityTest.cc 112-115), from the arguments after the name of the file. -/
def numberOfQueries (more : List Bytes) (size : Nat) : M Int :=
  match more with
  | [] => .ok (intOfSize size)
  | n :: _ => atoi n

/-- `runtest` and `main` (test/LevScalabilityTest.cc 100-128). `files` has the files that can be opened; `exit(0)` if the one
that is named cannot (46). Without any argument, not even the name of the program, `argv[1]` is a null pointer: undefined. -/
def main [Build] [Icu] [Runtime] (sys : Host) (osI osS : Nat → Bool) (files : Bytes → Option Bytes) (argv : List Bytes) :
    M Ended :=
  match argv with
  | [] => .error .ub
  | [name] => .ok ⟨[.usage name], 1⟩
  | _ :: ifile :: more =>
    match files ifile with
    | none => .ok ⟨[.skipped], 0⟩
    | some contents =>
      match readData contents with
      | .error f => ending [] (some f)
      | .ok a =>
        match numberOfQueries more a.length with
        | .error f => ending [.read a.length] (some f)
        | .ok querySize =>
          let (out, f) := runTest sys osI osS a querySize
          ending ([.read a.length, .querying querySize] ++ out) f

end Columbus.Scalability
