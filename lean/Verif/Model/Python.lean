import Verif.Model.Documents
/-
python/columbus.cc: word lists as a Python program sees them.
-/

namespace Columbus.Python
open Columbus

/-- How `std::vector` grows: the capacity after an addition to a full vector. -/
class Growth where
  grow : Nat → Nat
  grow_lt : ∀ n, n < grow n

/-- A `columbus.WordList` (python/columbus.cc 43-49): the vector with its capacity, the number of times its elements were
moved to another place, and the items a program has taken. An item is made by `return_internal_reference`, so it points into
the vector: it is a position and the place of the elements at that time. -/
structure PyWords where
  words : List Word
  capacity : Nat
  place : Nat
  items : List (Nat × Nat)

/-- `WordList()` (python/columbus.cc 43). -/
def PyWords.new : PyWords := ⟨[], 0, 0, []⟩

/-- What a Python program does with a list: add a word, add an item, take an item, ask an item for its text. Items are
numbered in the order in which they were taken. -/
inductive Op where
  | add (w : Word)
  | addItem (r : Nat)
  | take (i : Nat)
  | text (r : Nat)

/-- What it gets: nothing, the text, or an IndexError (the translation of `out_of_range` by Boost.Python). -/
inductive Ret where
  | none
  | text (t : Bytes)
  | indexError
deriving DecidableEq

variable [Growth]

/-- `add_word` (python/columbus.cc 48, src/WordList.cc 60-62): `push_back` moves the elements if the vector is full. -/
def PyWords.addWord (l : PyWords) (w : Word) : PyWords :=
  if l.words.length < l.capacity then { l with words := l.words ++ [w] }
  else { l with words := l.words ++ [w], capacity := Growth.grow l.words.length, place := l.place + 1 }

/-- `__getitem__` (python/columbus.cc 46-47, src/WordList.cc 54-58). -/
def PyWords.getItem (l : PyWords) (i : Nat) : PyWords × Ret :=
  if i < l.words.length then ({ l with items := l.items ++ [(i, l.place)] }, .none) else (l, .indexError)

/-- The word an item points to: undefined if the elements were moved. A program has no other items than those it took. -/
def PyWords.item (l : PyWords) (r : Nat) : M Word :=
  match l.items[r]? with
  | none => .error .invalidArgument
  | some (i, place) =>
    if place = l.place then
      match l.words[i]? with
      | none => .error .ub
      | some w => .ok w
    else .error .ub

/-- One operation. -/
def PyWords.step (l : PyWords) : Op → M (PyWords × Ret)
  | .add w => .ok (l.addWord w, .none)
  | .addItem r => do
    let w ← l.item r
    .ok (l.addWord w, .none)
  | .take i => .ok (l.getItem i)
  | .text r => do
    let w ← l.item r
    let t ← Word.asUtf8 w
    .ok (l, .text t)

/-- A program. -/
def PyWords.run (l : PyWords) : List Op → M (PyWords × List Ret)
  | [] => .ok (l, [])
  | o :: r => do
    let (l, x) ← l.step o
    let (l, xs) ← PyWords.run l r
    .ok (l, x :: xs)

/-- `for w in list`: Python calls `__getitem__` with 0, 1, ... until an IndexError. `fuel` bounds the number of rounds. The
words seen. -/
def PyWords.iterate (l : PyWords) : Nat → Nat → M (List Word)
  | 0, _ => .error .fuel
  | fuel + 1, i =>
    match l.getItem i with
    | (_, .indexError) => .ok []
    | (l', _) => do
      let w ← l'.item l.items.length
      let r ← PyWords.iterate l' fuel (i + 1)
      .ok (w :: r)

end Columbus.Python
