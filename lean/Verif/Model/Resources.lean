import Verif.Model.Trie
/-
src/Trie.cc once more, 67-210, with what a trie takes from the system and gives back: the private part (`new`/`delete`), the
temporary file (`tmpfile`/`fclose`) and the mapping (`mmap`/`munmap`). Model/Trie.lean has one answer per size for
`ftruncate` and `mmap` together and lets `tmpfile` and `munmap` succeed; here every call has its own answer, and an object
is kept when a call throws or when it has been destroyed, so that what it still holds can be counted.
-/

namespace Columbus.Res

/-- The answers of the system to one call of `expand`: `munmap` (src/Trie.cc 101), `ftruncate` (109), `mmap` (114). -/
structure Answers where
  unmap : Bool
  truncate : Bool
  map : Bool

/-- The answers to one trie: to `tmpfile` (src/Trie.cc 76), and to each call of `expand`, counted from 0. -/
structure System where
  tmpfile : Bool
  expand : Nat → Answers

/-- `p->map`: null before the first `mmap`, the mapping of the file with its length, or a pointer to no mapping: what
`munmap` took away, or `MAP_FAILED`. -/
inductive Map
  | null
  | live (len : Nat)
  | gone
deriving DecidableEq

/-- The bytes that can be reached through the pointer. -/
def Map.len : Map → Nat
  | live n => n
  | _ => 0

/-- A trie object and what it holds: `priv` the private part `p` is allocated, `file` the temporary file `p->f` is open,
`map` the mapping. `mem` is the contents of the file, `calls` counts the calls of `expand`. Resources of different
tries are different, so each object can be followed for itself (copying is deleted: include/Trie.hh 43-44). -/
structure Obj where
  priv : Bool
  file : Bool
  map : Map
  mem : Mem
  root : Nat
  calls : Nat
  sys : System

/-- The object as a trie of Model/Trie.lean. -/
def Obj.view (os : Nat → Bool) (o : Obj) : Trie := ⟨o.mem, o.map.len, o.root, os⟩

/-- A call on the object: what it leaves, also when it throws. -/
def Act (α : Type) := Obj → Obj × M α

namespace Act

instance : Monad Act where
  pure a := fun o => (o, .ok a)
  bind x f := fun o => match x o with
    | (o', .ok a) => f a o'
    | (o', .error e) => (o', .error e)

def get : Act Obj := fun o => (o, .ok o)
def modify (f : Obj → Obj) : Act Unit := fun o => (f o, .ok ())
def throw {α : Type} (e : Fault) : Act α := fun o => (o, .error e)

/-- A call that changes nothing, as in Model/Trie.lean. -/
def read {α : Type} (f : Trie → M α) : Act α := fun o => (o, f (o.view fun _ => false))

/-- Checked read and write through the mapping. -/
def rd32 (a : Nat) : Act Nat := read fun t => t.rd32 a

def wr (a : Nat) (bs : List Nat) : Act Unit := fun o =>
  if a + bs.length ≤ o.map.len then ({ o with mem := o.mem.put a bs }, .ok ()) else (o, .error .ub)

def assert [Build] (b : Bool) : Act Unit := read fun _ => cassert b

end Act

open Act

/-- `Trie::expand` from the `ftruncate` on (src/Trie.cc 109-126), for `n` bytes of which the first `keep` stay. -/
def grow [Build] (a : Answers) (keep n : Nat) : Act Unit := do
  if a.truncate = false then throw .runtimeError
  else if n = 0 ∨ a.map = false then do
    modify fun o => { o with map := .gone }
    throw .runtimeError
  else do
    modify fun o => { o with map := .live n, mem := fun x => if x < keep then o.mem x else 0 }
    wr 0 (bytes32 n)
    let total ← rd32 0
    let free ← rd32 4
    assert (decide (free < total))

/-- `Trie::expand` (src/Trie.cc 96-127). To unmap another length than was mapped would leave part of the mapping; it does
not happen, and is an error here. -/
def expand [Build] : Act Unit := do
  let o ← get
  let a := o.sys.expand o.calls
  match o.map with
  | .null => do
    modify fun o => { o with calls := o.calls + 1 }
    grow a 0 1024
  | _ => do
    let oldSize ← rd32 0
    if oldSize ≠ o.map.len then throw .ub
    else do
      modify fun o => { o with calls := o.calls + 1 }
      if a.unmap = false then throw .runtimeError
      else do
        modify fun o => { o with map := .gone }
        grow a oldSize (oldSize * 2 % 2^32)

/-- The `while` loop of `append` (src/Trie.cc 132-134), with fuel. -/
def growLoop [Build] (size : Nat) : Nat → Act Unit
  | 0 => throw .fuel
  | fuel + 1 => do
    let free ← rd32 4
    let total ← rd32 0
    if (free + size) % 2^32 ≥ total then do
      expand
      growLoop size fuel
    else pure ()

/-- `Trie::append` (src/Trie.cc 129-140). -/
def append [Build] (data : List Nat) : Act Nat := do
  let total0 ← rd32 0
  let free0 ← rd32 4
  assert (decide (free0 < total0))
  growLoop data.length 33
  let free ← rd32 4
  wr free data
  wr 4 (bytes32 (free + data.length))
  let total3 ← rd32 0
  let free3 ← rd32 4
  assert (decide (free3 < total3))
  pure free

/-- `Trie::addNewNode` (src/Trie.cc 142-153). -/
def addNewNode [Build] (parent : Nat) : Act Nat := do
  let nodeoffset ← append (nodeBytes INVALID_WORDID parent)
  let _ ← append (ptrsBytes 0#16 0 0)
  let n ← rd32 12
  wr 12 (bytes32 (n + 1))
  pure nodeoffset

/-- `Trie::Trie` (src/Trie.cc 74-88). -/
def construct [Build] : Act Unit := do
  let o ← get
  modify fun o => { o with priv := true }
  if o.sys.tmpfile = false then throw .runtimeError
  else do
    modify fun o => { o with file := true, map := .null }
    expand
    wr 4 (bytes32 sizeofHeader)
    let root ← rd32 4
    modify fun o => { o with root := root }
    wr 8 (bytes32 0)
    let _ ← addNewNode 0
    pure ()

/-- `Trie::~Trie` (src/Trie.cc 91-94). -/
def destroy : Act Unit := do
  modify fun o => { o with file := false }
  modify fun o => { o with priv := false }

/-- `Trie::addNewSibling` (src/Trie.cc 155-167). -/
def addNewSibling [Build] (node sibling : Nat) (l : Letter) : Act Nat := do
  let child ← addNewNode node
  let newSibling ← append (ptrsBytes l child 0)
  let lastSibling ← rd32 (sibling + 8)
  assert (decide (lastSibling = 0))
  wr (sibling + 8) (bytes32 newSibling)
  pure child

/-- The outer `while` of `insertWord` (src/Trie.cc 179-197) over the remaining letters. -/
def insertLoop [Build] (node : Nat) : List Letter → Act Nat
  | [] => pure node
  | l :: rest => do
    let sibl ← read fun t => t.walk l (t.mapped + 1) (node + sizeofNode)
    let c ← read fun t => t.rdLetter sibl
    if c = l then do
      let child ← rd32 (sibl + 4)
      insertLoop child rest
    else do
      let child ← addNewSibling node sibl l
      insertLoop child rest

/-- `Trie::insertWord` (src/Trie.cc 169-210). -/
def insertWord [Build] (word : Word) (wordID : WordID) : Act Nat := do
  let lw ← read fun _ => Word.at word 0
  if isSurrogate lw && !isHighSurrogate lw then assert false
  let o ← get
  let node ← insertLoop o.root word
  let w ← rd32 node
  if w = INVALID_WORDID then do
    wr node (bytes32 wordID)
    let n ← rd32 8
    wr 8 (bytes32 (n + 1))
    let w' ← rd32 node
    assert (decide (w' = wordID % 2^32))
    pure node
  else do
    assert (decide (w = wordID % 2^32))
    pure node

/-! ### A process with tries -/

/-- What has become of an object. -/
inductive Life
  | failed    -- its constructor threw: there is no object, and no destructor runs
  | alive
  | ended     -- destroyed
deriving DecidableEq

/-- All tries a process ever made, in the order of their making. -/
abbrev Proc := List (Life × Obj)

/-- What the program does with tries; `i` counts the makings. -/
inductive Op
  | make (sys : System)
  | insert (i : Nat) (w : Word) (id : WordID)
  | find (i : Nat) (w : Word)
  | destroy (i : Nat)

/-- Memory of an object to be made: nothing is held. -/
def blank (sys : System) : Obj := ⟨false, false, .gone, fun _ => 0, 0, 0, sys⟩

/-- Exceptions that a caller can catch and go on. -/
def caught : Fault → Bool
  | .outOfRange => true
  | .runtimeError => true
  | _ => false

/-- One operation. To use an object that is not alive is undefined behaviour. The program catches exceptions; undefined
behaviour and failed assertions end it. -/
def step [Build] (p : Proc) : Op → M Proc
  | .make sys => match construct (blank sys) with
    | (o, .ok ()) => .ok (p ++ [(.alive, o)])
    | (o, .error e) => if caught e then .ok (p ++ [(.failed, o)]) else .error e
  | .insert i w id => match p[i]? with
    | some (.alive, o) => match insertWord w id o with
      | (o', .ok _) => .ok (p.set i (.alive, o'))
      | (o', .error e) => if caught e then .ok (p.set i (.alive, o')) else .error e
    | _ => .error .ub
  | .find i w => match p[i]? with
    | some (.alive, o) => match (o.view fun _ => false).hasWord w with
      | .ok _ => .ok p
      | .error e => .error e
    | _ => .error .ub
  | .destroy i => match p[i]? with
    | some (.alive, o) => .ok (p.set i (.ended, (destroy o).1))
    | _ => .error .ub

/-- A program, from the start. -/
def run [Build] : List Op → Proc → M Proc
  | [], p => .ok p
  | op :: ops, p => do
    let p' ← step p op
    run ops p'

/-- What the process holds: private parts, open files, mappings with their lengths. -/
def privates (p : Proc) : Nat := p.countP fun x => x.2.priv
def files (p : Proc) : Nat := p.countP fun x => x.2.file
def mappings (p : Proc) : List Nat := p.filterMap fun x => match x.2.map with
  | .live n => some n
  | _ => none

end Columbus.Res
