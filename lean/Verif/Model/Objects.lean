import Verif.Model.Word
/-
Objects that own memory: the constructors, assignments and destructors of `Word` (src/Word.cc) and of the classes with a
private part behind a pointer (src/WordList.cc, src/MatchResults.cc, src/Document.cc and the classes without a copy
constructor of their own). The other files of the model treat these objects as values.
-/

namespace Columbus

/-! ### Memory -/

/-- Memory: what the allocations made so far hold, `none` once freed. `asked` counts the requests, refused ones
included. -/
structure Memory (V : Type) where
  cells : List (Option V)
  asked : Nat

namespace Memory
variable {V : Type}

/-- Dereferencing a pointer. `none` is the null pointer. -/
def load (m : Memory V) : Option Nat → M V
  | none => .error .ub
  | some a => match m.cells[a]? with
    | some (some v) => .ok v
    | _ => .error .ub

/-- Writing through a pointer. -/
def store (m : Memory V) (p : Option Nat) (v : V) : M (Memory V) :=
  match p with
  | none => .error .ub
  | some a => match m.cells[a]? with
    | some (some _) => .ok { m with cells := m.cells.set a (some v) }
    | _ => .error .ub

/-- `delete` and `delete []`: nothing happens for the null pointer. -/
def free (m : Memory V) (p : Option Nat) : M (Memory V) :=
  match p with
  | none => .ok m
  | some a => match m.cells[a]? with
    | some (some _) => .ok { m with cells := m.cells.set a none }
    | _ => .error .ub

/-- `new`: `none` if the request is refused, which throws `bad_alloc`. -/
def alloc (grant : Nat → Bool) (m : Memory V) (v : V) : Memory V × Option Nat :=
  if grant m.asked then (⟨m.cells ++ [some v], m.asked + 1⟩, some m.cells.length)
  else (⟨m.cells, m.asked + 1⟩, none)

end Memory

/-- The variables of a program: `none` while no object lives there. -/
abbrev Vars (α : Type) := Nat → Option α

/-- One variable changed. -/
def Vars.set {α : Type} (v : Vars α) (x : Nat) (o : Option α) : Vars α := fun y => if y = x then o else v y

/-! ### `Word` -/

/-- A `Word` object (include/Word.hh 34-38). -/
structure WordCell where
  text : Option Nat
  len : Nat
deriving DecidableEq, Repr

/-- A program's words and the arrays they point to. -/
structure Words where
  mem : Memory (List Letter)
  objs : Vars WordCell

/-- What a program can do with words: each constructor makes an object in an unused variable. -/
inductive WordOp where
  /-- `Word x;` -/
  | default (x : Nat)
  /-- `Word x("...");` -/
  | text (x : Nat) (s : Bytes)
  /-- `Word x(y);` -/
  | copy (x y : Nat)
  /-- `Word x(std::move(y));` -/
  | move (x y : Nat)
  /-- `Word x = y.join(z);` -/
  | join (x y z : Nat)
  /-- `x = y;` -/
  | assign (x y : Nat)
  /-- `x = std::move(y);` -/
  | assignMove (x y : Nat)
  /-- `x = "...";` -/
  | assignText (x : Nat) (s : Bytes)
  /-- The end of the lifetime of `x`. -/
  | destroy (x : Nat)
  /-- `x[i]` -/
  | letter (x i : Nat)
  /-- `x == y` -/
  | same (x y : Nat)
  /-- `x < y` -/
  | before (x y : Nat)

/-- What the program sees of it. -/
inductive WordRet where
  | done
  | letter (l : Letter)
  | truth (b : Bool)
  | threw (f : Fault)
  | badAlloc
deriving DecidableEq, Repr

namespace Words

/-- No objects, no memory in use. -/
def start : Words := ⟨⟨[], 0⟩, fun _ => none⟩

/-- The object in a variable. Using a variable without an object is undefined. -/
def obj (s : Words) (x : Nat) : M WordCell :=
  match s.objs x with
  | none => .error .ub
  | some o => .ok o

/-- The letters `text[0..len-1]` of an object. An object of length zero is not read. -/
def letters (s : Words) (o : WordCell) : M (List Letter) :=
  if o.len = 0 then .ok []
  else match s.mem.load o.text with
    | .error f => .error f
    | .ok arr => if o.len ≤ arr.length then .ok (arr.take o.len) else .error .ub

/-- `convertString` (src/Word.cc 92-108) into a new object without text: the memory, the object and the exception.
`utf8ToInternal` asks for an array, which it does not free when the conversion fails (src/ColumbusHelpers.cc 59, 73-77).
Simplification: its second array, of the exact size (81-88), is not a request of its own, and an array that is freed
before the call ends does not appear. -/
def convert [Build] [Icu] (grant : Nat → Bool) (m : Memory (List Letter)) (s : Bytes) : Memory (List Letter) × WordCell × WordRet :=
  match utf8ToInternal s with
  | .error f => match m.alloc grant [] with
    | (m, none) => (m, ⟨none, 0⟩, .badAlloc)
    | (m, some _) => (m, ⟨none, 0⟩, .threw f)
  | .ok text =>
    if grant m.asked = false then (⟨m.cells, m.asked + 1⟩, ⟨none, 0⟩, .badAlloc)
    else if hasWhitespace text then (⟨m.cells, m.asked + 1⟩, ⟨none, text.length⟩, .threw .invalidArgument)
    else match hasBrokenSurrogates text with
      | .error f => (⟨m.cells, m.asked + 1⟩, ⟨none, text.length⟩, .threw f)
      | .ok true => (⟨m.cells, m.asked + 1⟩, ⟨none, text.length⟩, .threw .invalidArgument)
      | .ok false => match m.alloc grant (text ++ [0#16]) with
        | (m, a) => (m, ⟨a, text.length⟩, .done)

/-- `duplicateFrom` (src/Word.cc 110-122) after the test for the same object, for a target whose text has been deleted or
is null: the memory, the object, and whether memory was granted. The length is stored before the request for the array; a
refusal leaves `text` as it was, here `old`. The copy reads `len+1` letters. -/
def duplicate (grant : Nat → Bool) (m : Memory (List Letter)) (old : Option Nat) (w : WordCell) :
    M (Memory (List Letter) × WordCell × WordRet) :=
  if w.len = 0 then .ok (m, ⟨none, 0⟩, .done)
  else if grant m.asked = false then .ok (⟨m.cells, m.asked + 1⟩, ⟨old, w.len⟩, .badAlloc)
  else match m.load w.text with
    | .error f => .error f
    | .ok arr =>
      if w.len + 1 ≤ arr.length then
        match m.alloc grant (arr.take (w.len + 1)) with
        | (m, a) => .ok (m, ⟨a, w.len⟩, .done)
      else .error .ub

/-- One step of a program. An exception in a constructor leaves no object. -/
def run [Build] [Icu] (grant : Nat → Bool) (s : Words) : WordOp → M (Words × WordRet)
  -- src/Word.cc 44-45
  | .default x => .ok ({ s with objs := s.objs.set x (some ⟨none, 0⟩) }, .done)
  -- src/Word.cc 47-49
  | .text x t => match convert grant s.mem t with
    | (m, o, .done) => .ok (⟨m, s.objs.set x (some o)⟩, .done)
    | (m, _, r) => .ok (⟨m, s.objs⟩, r)
  -- src/Word.cc 51-53
  | .copy x y => do
    let w ← s.obj y
    match ← duplicate grant s.mem none w with
    | (m, o, .done) => .ok (⟨m, s.objs.set x (some o)⟩, .done)
    | (m, _, r) => .ok (⟨m, s.objs⟩, r)
  -- src/Word.cc 55-60
  | .move x y => do
    let w ← s.obj y
    .ok ({ s with objs := (s.objs.set x (some w)).set y (some ⟨none, 0⟩) }, .done)
  -- src/Word.cc 262-271
  | .join x y z => do
    let v ← s.obj y
    let w ← s.obj z
    match s.mem.alloc grant [] with
    | (m, none) => .ok (⟨m, s.objs⟩, .badAlloc)
    | (m, some a) => do
      let l ← s.letters v
      let l' ← s.letters w
      let m ← m.store (some a) (l ++ l' ++ [0#16])
      .ok (⟨m, s.objs.set x (some ⟨some a, v.len + w.len⟩)⟩, .done)
  -- src/Word.cc 110-122, 136-139
  | .assign x y => do
    let o ← s.obj x
    let _ ← s.obj y
    if x = y then .ok (s, .done)
    else do
      let m ← s.mem.free o.text
      let w ← s.obj y
      let (m, o, r) ← duplicate grant m o.text w
      .ok (⟨m, s.objs.set x (some o)⟩, r)
  -- src/Word.cc 141-150
  | .assignMove x y => do
    let o ← s.obj x
    let _ ← s.obj y
    let m ← s.mem.free o.text
    let w ← s.obj y
    .ok (⟨m, (s.objs.set x (some w)).set y (some ⟨none, 0⟩)⟩, .done)
  -- src/Word.cc 273-283
  | .assignText x t => do
    let o ← s.obj x
    let m ← s.mem.free o.text
    match convert grant m t with
    | (m, o, r) => .ok (⟨m, s.objs.set x (some o)⟩, r)
  -- src/Word.cc 88-90
  | .destroy x => do
    let o ← s.obj x
    let m ← s.mem.free o.text
    .ok (⟨m, s.objs.set x none⟩, .done)
  -- src/Word.cc 124-134
  | .letter x i => do
    let o ← s.obj x
    if o.len ≤ i then .ok (s, .threw .outOfRange)
    else do
      let arr ← s.mem.load o.text
      match arr[i]? with
      | none => .error .ub
      | some l => .ok (s, .letter l)
  -- src/Word.cc 202-211
  | .same x y => do
    let v ← s.obj x
    let w ← s.obj y
    if x = y then .ok (s, .truth true)
    else if v.len ≠ w.len then .ok (s, .truth false)
    else do
      let l ← s.letters v
      let l' ← s.letters w
      .ok (s, .truth (decide (l = l')))
  -- src/Word.cc 234-247
  | .before x y => do
    let v ← s.obj x
    let w ← s.obj y
    if x = y then .ok (s, .truth false)
    else do
      let l ← s.letters v
      let l' ← s.letters w
      .ok (s, .truth (Word.lt l l'))

end Words

/-! ### Classes with a private part behind a pointer -/

/-- A program's objects of one class: each holds the pointer `p`, null in an object that was moved from. -/
structure Pimpls (V : Type) where
  mem : Memory V
  objs : Vars (Option Nat)

/-- What a program can do with them. -/
inductive PimplOp (V R : Type) where
  /-- A constructor that makes the contents `v`. -/
  | make (x : Nat) (v : V)
  /-- `C x(y);` -/
  | copy (x y : Nat)
  /-- `C x(std::move(y));` -/
  | move (x y : Nat)
  /-- `x = y;` -/
  | assign (x y : Nat)
  /-- `x = std::move(y);` -/
  | assignMove (x y : Nat)
  /-- The end of the lifetime of `x`. -/
  | destroy (x : Nat)
  /-- A member function of `x` that works on its contents. -/
  | call (x : Nat) (f : V → V × R)
  /-- A member function of `x` that is given `y` by reference. `alias` tells whether it is defined when both are one
  object; it then sees one contents. -/
  | callWith (x y : Nat) (alias : Bool) (f : V → V → V × R)

namespace Pimpls
variable {V R : Type}

/-- No objects, no memory in use. -/
def start : Pimpls V := ⟨⟨[], 0⟩, fun _ => none⟩

/-- The object in a variable. -/
def obj (s : Pimpls V) (x : Nat) : M (Option Nat) :=
  match s.objs x with
  | none => .error .ub
  | some p => .ok p

/-- One step for a class with its own copying and moving: `WordList` (src/WordList.cc 33-84) and `MatchResults`
(src/MatchResults.cc 34-67). `Document` (src/Document.cc 38-51, 87-93) has no moving of its own: its moves are copies.
Simplification: memory is granted. -/
def run (s : Pimpls V) : PimplOp V R → M (Pimpls V × Option R)
  | .make x v => match s.mem.alloc (fun _ => true) v with
    | (m, p) => .ok (⟨m, s.objs.set x (some p)⟩, none)
  -- WordList.cc 37-40, MatchResults.cc 39-42, Document.cc 43-47
  | .copy x y => do
    let q ← s.obj y
    let v ← s.mem.load q
    match s.mem.alloc (fun _ => true) v with
    | (m, p) => .ok (⟨m, s.objs.set x (some p)⟩, none)
  -- WordList.cc 42-45, MatchResults.cc 44-47
  | .move x y => do
    let q ← s.obj y
    .ok ({ s with objs := (s.objs.set x (some q)).set y (some none) }, none)
  -- WordList.cc 64-69, MatchResults.cc 62-67, Document.cc 87-93
  | .assign x y => do
    let p ← s.obj x
    let q ← s.obj y
    if x = y then .ok (s, none)
    else do
      let v ← s.mem.load q
      let m ← s.mem.store p v
      .ok (⟨m, s.objs⟩, none)
  -- WordList.cc 71-78, MatchResults.cc 53-60
  | .assignMove x y => do
    let p ← s.obj x
    let q ← s.obj y
    if x = y then .ok (s, none)
    else do
      let m ← s.mem.free p
      .ok (⟨m, (s.objs.set x (some q)).set y (some none)⟩, none)
  -- WordList.cc 47-49, MatchResults.cc 49-51, Document.cc 49-51
  | .destroy x => do
    let p ← s.obj x
    let m ← s.mem.free p
    .ok (⟨m, s.objs.set x none⟩, none)
  | .call x f => do
    let p ← s.obj x
    let v ← s.mem.load p
    let m ← s.mem.store p (f v).1
    .ok (⟨m, s.objs⟩, some (f v).2)
  | .callWith x y alias f => do
    let p ← s.obj x
    let q ← s.obj y
    if x = y ∧ alias = false then .error .ub
    else do
      let v ← s.mem.load p
      let w ← s.mem.load q
      let m ← s.mem.store p (f v w).1
      .ok (⟨m, s.objs⟩, some (f v w).2)

/-- One step for a class whose copy constructor is the implicit one: `IndexWeights`, `SearchParameters`, `ErrorValues`,
`MatcherStatistics` and `Matcher` declare a destructor that deletes `p` (src/IndexWeights.cc 36-38,
src/SearchParameters.cc 40-42, src/ErrorValues.cc 70-72, src/MatcherStatistics.cc 44-46, src/Matcher.cc 267-269), but neither
declare nor delete a copy constructor (include/IndexWeights.hh 33-35, include/SearchParameters.hh 36-38,
include/ErrorValues.hh 62-64, include/MatcherStatistics.hh 36-37, include/Matcher.hh 48-50). The implicit one copies the
pointer; moving does the same. Assignment is deleted, except for `MatcherStatistics`, where it copies the pointer too. -/
def runShallow (s : Pimpls V) : PimplOp V R → M (Pimpls V × Option R)
  | .copy x y => do
    let q ← s.obj y
    .ok ({ s with objs := s.objs.set x (some q) }, none)
  | .move x y => do
    let q ← s.obj y
    .ok ({ s with objs := s.objs.set x (some q) }, none)
  | .assign x y => do
    let _ ← s.obj x
    let q ← s.obj y
    .ok ({ s with objs := s.objs.set x (some q) }, none)
  | .assignMove x y => do
    let _ ← s.obj x
    let q ← s.obj y
    .ok ({ s with objs := s.objs.set x (some q) }, none)
  | op => s.run op

end Pimpls
end Columbus
