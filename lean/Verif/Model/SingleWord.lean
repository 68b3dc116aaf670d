import Verif.Model.QueryIndex
import Verif.Model.SearchApps
/-
tools/singleword.cc, the graphical tool that searches a word list. The window is not modelled.
-/

namespace Columbus.SingleWord
open Columbus QueryIndex Apps

/-- `app_data` (tools/singleword.cc 42-53) without the widgets. -/
structure Data where
  ind : LevIndex
  store : WordStore
  e : ErrorValues

/-- The loop of `readData` (tools/singleword.cc 166-172), with fuel: every round takes at least one byte. -/
def readLoop [Build] [Icu] : Nat → Bytes → M (List Word)
  | _, [] => .ok []
  | 0, _ :: _ => .error .fuel
  | fuel + 1, b :: rest => do
    let (stored, left) := fgets 1023 (b :: rest)
    let line ← chop stored
    let w ← Word.ofUtf8 line
    let ws ← readLoop fuel left
    .ok (w :: ws)

/-- `readData` (tools/singleword.cc 159-174) on the contents of the file. -/
def readData [Build] [Icu] (contents : Bytes) : M (List Word) := readLoop contents.length contents

/-- The loop of `main` (tools/singleword.cc 188-189). -/
def insertLoop [Build] : List Word → LevIndex → WordStore → M (LevIndex × WordStore)
  | [], ind, s => .ok (ind, s)
  | w :: ws, ind, s => do
    let (s, id) ← s.getID w
    let ind ← ind.insertWord w id
    insertLoop ws ind s

/-- `main` (tools/singleword.cc 176-196) up to `gtk_main`. `osI` and `osS` answer the size requests of the index and of the
word store, `files` has the files that can be opened; for one that cannot, the message has no name and the exit code is 0.
The members of `app` are made before the `try` block: an exception there is not caught. Simplification: `gtk_init` takes no
arguments away. -/
def start [Build] [Icu] (osI osS : Nat → Bool) (files : Bytes → Option Bytes) (argv : List Bytes) : M (Started Data) := do
  let ind ← LevIndex.new osI
  let s ← WordStore.new osS
  match argv with
  | _ :: file :: _ =>
    match files file with
    | none => .ok (.noFile file)
    | some contents => caught (do
        let ws ← readData contents
        let (ind, s) ← insertLoop ws ind s
        .ok (.ready ⟨ind, s, ErrorValues.new⟩))
  | _ => .ok .usage

/-- What is in the window after a search: what was there before, an empty list because the search failed, or a list of words
with errors. -/
inductive Shown where
  | unchanged
  | failed
  | rows (l : List (Bytes × Int))

/-- The loop that fills the list (tools/singleword.cc 86-94). An exception leaves the callback: it is outside the `try`
block. Simplification: the rows that are in the list then are not tracked. -/
def rowLoop [Build] (s : WordStore) (ms : IndexMatches) : List Nat → M (List (Bytes × Int))
  | [] => .ok []
  | i :: r => do
    let id ← ms.getMatch i
    let w ← s.getWord id
    let text ← w.toUtf8 1024
    let error ← ms.getMatchError i
    let rest ← rowLoop s ms r
    .ok ((text.takeWhile (· != 0), error) :: rest)

/-- `doSearch` (tools/singleword.cc 64-100) for the text of the entry and the value of the spin button. -/
def doSearch [Build] [Icu] [Runtime] (app : Data) (text : Bytes) (maxError : Int) : M Shown :=
  match Word.ofUtf8 text with
  | .error f => if thrown f then .ok .failed else .error f
  | .ok query =>
    if query.length = 0 then .ok .unchanged
    else match app.ind.findWords query app.e maxError IndexMatches.new with
      | .error f => if thrown f then .ok .failed else .error f
      | .ok ms => do
        let l ← rowLoop app.store ms (List.range ms.size)
        .ok (.rows l)

end Columbus.SingleWord
