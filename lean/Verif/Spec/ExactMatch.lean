import Verif.Model.ExactMatch
import Verif.Spec.Apps
/-
What the exact match of numberpad should do. It uses the shell and `grep`; what they do with the text they are given is
said here, for the small part of their languages that matters. `none` stands for everything else.
-/

namespace Columbus.Spec
open Columbus Columbus.Apps

/-! ### The shell -/

/-- Characters that mean nothing to the shell: letters, digits and `% + , - . / : @ _`. -/
def ShPlain (b : Nat) : Prop :=
  (0x30 ≤ b ∧ b ≤ 0x39) ∨ (0x41 ≤ b ∧ b ≤ 0x5a) ∨ (0x61 ≤ b ∧ b ≤ 0x7a) ∨
  b ∈ [0x25, 0x2b, 0x2c, 0x2d, 0x2e, 0x2f, 0x3a, 0x40, 0x5f]

instance : DecidablePred ShPlain := fun _ => inferInstanceAs (Decidable (_ ∨ _ ∨ _ ∨ _))

/-- How the shell reads a line: commands are separated by `;`, their words by blanks; between single quotes everything
stands for itself. Given are the commands and words already read, the word being read, if any, and whether quotes are
open. -/
def shRead (commands : List (List Bytes)) (words : List Bytes) (word : Option Bytes) (quoted : Bool) :
    Bytes → Option (List (List Bytes))
  | [] => if quoted then none else
      match words ++ word.toList with
      | [] => none
      | ws => some (commands ++ [ws])
  | b :: r =>
    if b = 0 then none
    else if quoted then
      if b = 0x27 then shRead commands words word false r
      else shRead commands words (some (word.getD [] ++ [b])) true r
    else if b = 0x27 then shRead commands words (some (word.getD [])) true r
    else if b = 0x20 then shRead commands (words ++ word.toList) none false r
    else if b = 0x3b then
      match words ++ word.toList with
      | [] => none
      | ws => shRead (commands ++ [ws]) [] none false r
    else if ShPlain b then shRead commands words (some (word.getD [] ++ [b])) false r
    else none

/-- The commands of a line for the shell, each with its arguments. -/
def shell (line : Bytes) : Option (List (List Bytes)) := shRead [] [] none false line

/-! ### grep -/

/-- A part of a basic regular expression that stands for one character. -/
inductive Atom where
  | char (b : Nat)
  | oneOf (s : Bytes)
  | any

def Atom.Fits : Atom → Nat → Prop
  | .char c, b => b = c
  | .oneOf s, b => b ∈ s
  | .any, _ => True

/-- How `grep` reads an expression after a leading `^`: atoms, each with or without a star. Given are the atoms already
read and the members of the bracket expression being read, if any. -/
def breRead (atoms : List (Atom × Bool)) (bracket : Option Bytes) : Bytes → Option (List (Atom × Bool))
  | [] => match bracket with
    | none => some atoms
    | some _ => none
  | b :: r =>
    match bracket with
    | some s =>
      if b = 0x5d then if s = [] then none else breRead (atoms ++ [(.oneOf s, false)]) none r
      else if b ∈ [0, 0x0a, 0x2d, 0x2e, 0x3a, 0x3d, 0x5b, 0x5c, 0x5e] then none
      else breRead atoms (some (s ++ [b])) r
    | none =>
      if b = 0x5b then breRead atoms (some []) r
      else if b = 0x2e then breRead (atoms ++ [(.any, false)]) none r
      else if b = 0x2a then
        match atoms.getLast? with
        | none => breRead [(.char b, false)] none r
        | some (a, _) => breRead (atoms.dropLast ++ [(a, true)]) none r
      else if b ∈ [0, 0x0a, 0x24, 0x5c, 0x5d, 0x5e] then none
      else breRead (atoms ++ [(.char b, false)]) none r

/-- The line begins with what the atoms stand for. -/
inductive BeginsWith : List (Atom × Bool) → Bytes → Prop
  | done {l} : BeginsWith [] l
  | one {a r b l} : a.Fits b → BeginsWith r l → BeginsWith ((a, false) :: r) (b :: l)
  | skip {a r l} : BeginsWith r l → BeginsWith ((a, true) :: r) l
  | again {a r b l} : a.Fits b → BeginsWith ((a, true) :: r) l → BeginsWith ((a, true) :: r) (b :: l)

/-- `grep` with the expression prints exactly those lines that satisfy `P`. -/
def GrepPrints (expr : Bytes) (P : Bytes → Prop) : Prop :=
  ∃ r atoms, expr = 0x5e :: r ∧ breRead [] none r = some atoms ∧ ∀ l, BeginsWith atoms l ↔ P l

/-! ### numberpad -/

/-- The letters on the keys. -/
def keyLetters : List (Nat × Bytes) := [(0x32, ascii "abc"), (0x33, ascii "def"), (0x34, ascii "ghi"), (0x35, ascii "jkl"),
  (0x36, ascii "mno"), (0x37, ascii "pqrs"), (0x38, ascii "tuv"), (0x39, ascii "wxyz")]

/-- The key stands for the character: its own, or one of its letters. -/
def Dials (key c : Nat) : Prop := c = key ∨ ∃ ls, (key, ls) ∈ keyLetters ∧ c ∈ ls

/-- The line begins with something that was dialled. -/
def Dialled (q l : Bytes) : Prop := ∃ p, p <+: l ∧ List.Forall₂ Dials q p

/-- Characters that mean nothing special to `grep` and do not end the quotes. -/
def Ordinary (b : Nat) : Prop := b ∉ [0, 0x0a, 0x24, 0x27, 0x2a, 0x2e, 0x5b, 0x5c, 0x5d, 0x5e]

/-- A file name that the shell and `grep` take as it is. -/
def PlainName (f : Bytes) : Prop := f ≠ [] ∧ f.head? ≠ some 0x2d ∧ ∀ b ∈ f, ShPlain b

end Columbus.Spec
