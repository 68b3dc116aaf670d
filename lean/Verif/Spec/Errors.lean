import Verif.Model.ErrorValues
/-
Specification of error tables: calls of the public interface, and the geometry of keyboard and number pad.
-/

namespace Columbus.Spec
open Columbus

/-- Calls of the public interface of `ErrorValues` that change the object. -/
inductive ErrOp where
  | setError (a b : Letter) (v : Int)
  | setGroupError (g : Word) (v : Int)
  | clearErrors
  | addAccents (data : ErrorValues.DataDir) (greek : Bool)
  | addKeyboardErrors
  | addNumberpadErrors
  | addStandardErrors (data : ErrorValues.DataDir)
  | setSubstringMode
  | setInsertionError (v : Int)
  | setDeletionError (v : Int)
  | setEndDeletionError (v : Int)
  | setStartInsertionError (v : Int)
  | setTransposeError (v : Int)
  | setSubstringStartLimit (n : Nat)

/-- The object and the exception, if any. -/
def ofM (e : ErrorValues) : M ErrorValues → ErrorValues × Option Fault
  | .ok e' => (e', none)
  | .error f => (e, some f)

/-- Carry out a call: the object after it, and the exception. -/
def ErrOp.run [Build] [Icu] (e : ErrorValues) : ErrOp → ErrorValues × Option Fault
  | .setError a b v => ofM e (e.setError a b v)
  | .setGroupError g v => e.setGroupError g v
  | .clearErrors => (e.clearErrors, none)
  | .addAccents d greek => ErrorValues.addAccents d e greek
  | .addKeyboardErrors => ofM e e.addKeyboardErrors
  | .addNumberpadErrors => ofM e e.addNumberpadErrors
  | .addStandardErrors d => ErrorValues.addStandardErrors d e
  | .setSubstringMode => (e.setSubstringMode, none)
  | .setInsertionError v => (e.setInsertionError v, none)
  | .setDeletionError v => (e.setDeletionError v, none)
  | .setEndDeletionError v => (e.setEndDeletionError v, none)
  | .setStartInsertionError v => (e.setStartInsertionError v, none)
  | .setTransposeError v => (e.setTransposeError v, none)
  | .setSubstringStartLimit n => (e.setSubstringStartLimit n, none)

/-- The object after a history of calls on a new one; exceptions are caught and the object used on. -/
def afterOps [Build] [Icu] (ops : List ErrOp) : ErrorValues := ops.foldl (fun e op => (op.run e).1) ErrorValues.new

/-- The letters of the accent groups of a data file. -/
def IsAccentGroup [Build] [Icu] (d : ErrorValues.DataDir) (greek : Bool) (g : Word) : Prop :=
  ∃ lines, d greek = some lines ∧ ∃ l ∈ lines, Word.ofUtf8 (l.takeWhile (· != 0)) = .ok g

/-- The four rows of the keyboard. -/
def keyRow1 : List Letter := [0x31, 0x32, 0x33, 0x34, 0x35, 0x36, 0x37, 0x38, 0x39, 0x30, 0x2b]
def keyRow2 : List Letter := [0x71, 0x77, 0x65, 0x72, 0x74, 0x79, 0x75, 0x69, 0x6f, 0x70, 0xe5]
def keyRow3 : List Letter := [0x61, 0x73, 0x64, 0x66, 0x67, 0x68, 0x6a, 0x6b, 0x6c, 0xf6, 0xe4, 0x27]
def keyRow4 : List Letter := [0x7a, 0x78, 0x63, 0x76, 0x62, 0x6e, 0x6d, 0x2c, 0x2e, 0x2d]

/-- Neighbours involving an upper row: next to each other in it, or touching in the row below (a key touches the one
below to the left and the one below to the right). -/
def rowPairs (upper lower : List Letter) : List (Letter × Letter) :=
  upper.zip upper.tail ++ upper.tail.zip lower ++ upper.zip lower

/-- The neighbours that the routine sets up: those of the three upper rows. -/
def keyPairs : List (Letter × Letter) := rowPairs keyRow1 keyRow2 ++ rowPairs keyRow2 keyRow3 ++ rowPairs keyRow3 keyRow4

/-- Two letters are keyboard neighbours. -/
def KeyNeighbours (a b : Letter) : Prop := (a, b) ∈ keyPairs ∨ (b, a) ∈ keyPairs

instance (a b : Letter) : Decidable (KeyNeighbours a b) := inferInstanceAs (Decidable (_ ∨ _))

/-- A button of the number pad: row, column, digit, letters. -/
def padButtons : List (Nat × Nat × Letter × List Letter) := [
  (0, 0, 0x31, []), (0, 1, 0x32, [0x61, 0x62, 0x63]), (0, 2, 0x33, [0x64, 0x65, 0x66]),
  (1, 0, 0x34, [0x67, 0x68, 0x69]), (1, 1, 0x35, [0x6a, 0x6b, 0x6c]), (1, 2, 0x36, [0x6d, 0x6e, 0x6f]),
  (2, 0, 0x37, [0x70, 0x71, 0x72, 0x73]), (2, 1, 0x38, [0x74, 0x75, 0x76]), (2, 2, 0x39, [0x77, 0x78, 0x79, 0x7a])]

/-- The letter is on the digit's button. -/
def OnButton (d l : Letter) : Prop := ∃ r c ls, (r, c, d, ls) ∈ padButtons ∧ l ∈ ls

/-- The letter's button is next to the digit's, in the same row or the same column. -/
def NextToButton (d l : Letter) : Prop :=
  ∃ r c ls r' c' d' ls', (r, c, d, ls) ∈ padButtons ∧ (r', c', d', ls') ∈ padButtons ∧ l ∈ ls' ∧
    ((r = r' ∧ (c = c' + 1 ∨ c' = c + 1)) ∨ (c = c' ∧ (r = r' + 1 ∨ r' = r + 1)))

/-- The call sets the cost of the pair individually. -/
def ErrOp.NamesPair (a b : Letter) : ErrOp → Prop
  | .setError x y _ => (a = x ∧ b = y) ∨ (a = y ∧ b = x)
  | .addKeyboardErrors => KeyNeighbours a b
  | .addStandardErrors _ => KeyNeighbours a b
  | .addNumberpadErrors => (OnButton a b ∨ NextToButton a b) ∨ (OnButton b a ∨ NextToButton b a)
  | _ => False

/-- The call names the pair, individually or as part of a group, or clears everything. -/
def ErrOp.Touches [Build] [Icu] (a b : Letter) : ErrOp → Prop
  | .setGroupError g _ => a ∈ g ∧ b ∈ g
  | .clearErrors => True
  | .addAccents d greek => ∃ g, IsAccentGroup d greek g ∧ a ∈ g ∧ b ∈ g
  | .addStandardErrors d => KeyNeighbours a b ∨ ∃ greek g, IsAccentGroup d greek g ∧ a ∈ g ∧ b ∈ g
  | op => op.NamesPair a b

end Columbus.Spec
