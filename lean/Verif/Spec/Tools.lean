import Verif.Model.QueryIndex
import Verif.Spec.Matcher
/-
Specification of the command line tool: word lists as text files.
-/

namespace Columbus.Spec
open Columbus

/-- The text of a line of a word list: one word. -/
structure WordLine (l : Bytes) : Prop where
  nonempty : l ≠ []
  wellFormed : WellFormed l
  noBlank : ∀ b ∈ l, ¬ IsBlank b
  noNul : 0 ∉ l

/-- A text file: each line is followed by a newline. -/
def fileOf (ls : List Bytes) : Bytes := ls.flatMap fun l => l ++ [0x0a]

/-- `t` is the text `s` in lower case. -/
def LowerText [Icu] (s t : Bytes) : Prop := ∃ cps, Utf8 s cps ∧ Utf8 t (cps.map lowerCp)

/-- `w` are the letters of the text `s` in lower case. -/
def LowerLetters [Icu] (s : Bytes) (w : Word) : Prop := ∃ cps, Utf8 s cps ∧ Utf16 w (cps.map lowerCp)

/-- The value of a row of decimal digits. -/
def decimal (ds : Bytes) : Nat := ds.foldl (fun v b => 10 * v + (b - 0x30)) 0

/-- `Limit s T`: the argument `s` stands for the number `T`: blanks, a sign or none, decimal digits, and then anything that
is no digit; the value fits an `int`. Without digits it stands for 0. -/
def Limit (s : Bytes) (T : Int) : Prop := ∃ blanks sign ds rest, s = blanks ++ sign ++ ds ++ rest ∧
  (∀ b ∈ blanks, b = 0x20 ∨ 0x09 ≤ b ∧ b ≤ 0x0d) ∧ (∀ b ∈ ds, 0x30 ≤ b ∧ b ≤ 0x39) ∧
  (sign = [] ∧ T = decimal ds ∧ (ds ++ rest).head? ≠ some 0x2b ∧ (ds ++ rest).head? ≠ some 0x2d ∧
      (∀ b, (ds ++ rest).head? = some b → b ≠ 0x20 ∧ ¬ (0x09 ≤ b ∧ b ≤ 0x0d)) ∨
    sign = [0x2b] ∧ T = decimal ds ∨ sign = [0x2d] ∧ T = -decimal ds) ∧
  (∀ b, rest.head? = some b → ¬ (0x30 ≤ b ∧ b ≤ 0x39)) ∧ -2^31 ≤ T ∧ T < 2^31

/-- What is to be printed for a word list: the words in lower case that are as many edits from the query as the limit
allows, 100 for each edit. -/
def Listed [Icu] (ls : List Bytes) (q : Bytes) (T : Int) (t : Bytes) (v : Int) : Prop :=
  ∃ l ∈ ls, LowerText l t ∧ ∃ wq w n, LowerLetters q wq ∧ LowerLetters l w ∧ IsEditDistance wq w n ∧
    v = 100 * n ∧ v ≤ T

/-- The lines printed for matches. -/
def shown (hits : List (Bytes × Int)) : List QueryIndex.Printed := hits.map fun p => .hit p.1 p.2

/-- Storage for the words of a file of that many bytes may be refused. -/
def Refused (osI osS : Nat → Bool) (bytes : Nat) : Prop := StorageRefused osI bytes ∨ StorageRefused osS bytes

end Columbus.Spec
