import Verif.Model.QueryIndex
import Verif.Model.SearchApps
/-
test/CreatePerformanceTest.cc, the program that measures how fast an index is built.
-/

namespace Columbus.CreatePerformance
open Columbus QueryIndex

/-- `batchSize` (test/CreatePerformanceTest.cc 36). -/
def batchSize : Nat := 100000

/-- The `while(getline(ifile, line))` loop of `build_matcher` (test/CreatePerformanceTest.cc 53-68): the matcher, the corpus
and the counter `i`, which is always equal to `totalDocs`. The counter is an `int`; it cannot overflow, since the loop ends
when it reaches `maxLines`. -/
def buildLoop [Build] [Icu] (field : Word) (maxLines : Int) : List Bytes → Matcher → Corpus → Nat → M (Matcher × Corpus × Nat)
  | [], m, c, i => .ok (m, c, i)
  | line :: r, m, c, i =>
    if line.length = 0 then buildLoop field maxLines r m c i
    else do
      let d ← (Document.new (i + 1)).addTextUtf8 field (Apps.cstr line)
      let c := c.addDocument d
      let (m, c) ← if (i + 1) % batchSize = 0 then do
          let m ← Apps.indexed m c
          .ok (m, ([] : Corpus))
        else .ok (m, c)
      if ((i + 1 : Nat) : Int) ≥ maxLines then .ok (m, c, i + 1) else buildLoop field maxLines r m c (i + 1)

/-- `build_matcher` (test/CreatePerformanceTest.cc 33-74) on the contents of a file that could be opened: the matcher and
`totalDocs`, which is printed. -/
def buildMatcher [Build] [Icu] (os : Nat → Bool) (contents : Bytes) (maxLines : Int) : M (Matcher × Nat) := do
  let field ← Word.ofUtf8 Apps.nameText
  let m ← Matcher.new os
  let (m, c, n) ← buildLoop field maxLines (Host.lines contents) m [] 0
  let m ← Apps.indexed m c
  .ok (m, n)

/-- What the program prints on the standard output (test/CreatePerformanceTest.cc 44, 72, 80). Simplification: the time in it
is left out. -/
inductive Printed
  | usage (name : Bytes)
  | noFile (file : Bytes)
  | read (documents : Nat)
  deriving DecidableEq, Repr

/-- How the program ends: what it printed and its exit code. -/
structure Ended where
  out : List Printed
  code : Nat
  deriving DecidableEq, Repr

/-- `maxLines` (test/CreatePerformanceTest.cc 77, 83-84), from the arguments after the name of the file. -/
def numberOfLines (more : List Bytes) : M Int :=
  match more with
  | [] => .ok 2147483647
  | n :: _ => atoi n

/-- `main` (test/CreatePerformanceTest.cc 76-93). `files` has the files that can be opened; `exit(1)` if the one that is named
cannot (45). The exit code after an exception is 666, of which the system keeps the lowest byte. Any other fault kills the
process. Without any argument, not even the name of the program, `argv[1]` is a null pointer: undefined. -/
def main [Build] [Icu] (os : Nat → Bool) (files : Bytes → Option Bytes) (argv : List Bytes) : M Ended :=
  match argv with
  | [] => .error .ub
  | [name] => .ok ⟨[.usage name], 1⟩
  | _ :: file :: more => do
    let maxLines ← numberOfLines more
    match files file with
    | none => .ok ⟨[.noFile file], 1⟩
    | some contents =>
      match buildMatcher os contents maxLines with
      | .ok (_, n) => .ok ⟨[.read n], 0⟩
      | .error f => if thrown f then .ok ⟨[], 154⟩ else .error f

end Columbus.CreatePerformance
