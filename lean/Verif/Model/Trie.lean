import Verif.Model.Word
/-
src/Trie.cc: the trie as an array in a memory mapped file, at byte level.

Layout with a 2-byte `Letter` and 4-byte offsets (src/Trie.cc 49-65):
  TrieHeader (16 bytes): totalSize @0, firstFree @4, numWords @8, numNodes @12
  TrieNode    (8 bytes): word @0, parent @4
  TriePtrs   (12 bytes): l @0 (2 bytes, then 2 bytes of padding), child @4, sibling @8
-/

namespace Columbus

/-- File contents: address to byte. -/
abbrev Mem := Nat → Nat

/-- Little-endian 32-bit read. -/
def Mem.get32 (m : Mem) (a : Nat) : Nat := m a + 256 * m (a+1) + 65536 * m (a+2) + 16777216 * m (a+3)

/-- 16-bit read. -/
def Mem.get16 (m : Mem) (a : Nat) : Nat := m a + 256 * m (a+1)

/-- Copy a byte list to address `a`. -/
def Mem.put (m : Mem) (a : Nat) (bs : List Nat) : Mem := fun x =>
  if a ≤ x ∧ x < a + bs.length then bs.getD (x - a) 0 else m x

/-- The four bytes of a `uint32_t`. -/
def bytes32 (v : Nat) : List Nat := [v % 256, v / 256 % 256, v / 65536 % 256, v / 16777216 % 256]

/-- The bytes of a `Letter`. -/
def bytes16 (l : Letter) : List Nat := [l.toNat % 256, l.toNat / 256 % 256]

/-- `struct TrieNode` (src/Trie.cc 62-65). -/
def nodeBytes (word parent : Nat) : List Nat := bytes32 word ++ bytes32 parent

/-- `struct TriePtrs` (src/Trie.cc 56-60). Simplification: the padding is written as zeros. -/
def ptrsBytes (l : Letter) (child sibling : Nat) : List Nat :=
  bytes16 l ++ [0, 0] ++ bytes32 child ++ bytes32 sibling

def sizeofHeader : Nat := 16
def sizeofNode : Nat := 8

/-- `Trie` (src/Trie.cc 67-72). `mapped` is the length of the current mapping; `os n` tells whether the operating system
grants `ftruncate` and `mmap` of `n` bytes (environment; each size is requested at most once per trie). -/
structure Trie where
  mem : Mem
  mapped : Nat
  root : Nat
  os : Nat → Bool

namespace Trie

/-- Checked 32-bit read through the mapping. -/
def rd32 (t : Trie) (a : Nat) : M Nat := if a + 4 ≤ t.mapped then .ok (t.mem.get32 a) else .error .ub

/-- Checked letter read. -/
def rdLetter (t : Trie) (a : Nat) : M Letter :=
  if a + 2 ≤ t.mapped then .ok (BitVec.ofNat 16 (t.mem.get16 a)) else .error .ub

/-- Checked write of bytes through the mapping. -/
def wr (t : Trie) (a : Nat) (bs : List Nat) : M Trie :=
  if a + bs.length ≤ t.mapped then .ok { t with mem := t.mem.put a bs } else .error .ub

/-- `Trie::expand` with an existing mapping (src/Trie.cc 96-127). `oldSize*2` is computed in 32 bits; `mmap` of zero
bytes fails. The grown part of the file reads as zeros. Simplification: `munmap` always succeeds. After a
`runtime_error` the object has no mapping any more: see `lost`. -/
def expand [Build] (t : Trie) : M Trie := do
  let oldSize ← t.rd32 0
  let newSize := (oldSize * 2) % 2^32
  if newSize = 0 ∨ t.os newSize = false then .error .runtimeError
  else
    let t1 : Trie := { t with mem := (fun x => if x < oldSize then t.mem x else 0), mapped := newSize }
    let t2 ← t1.wr 0 (bytes32 newSize)
    let total ← t2.rd32 0
    let free ← t2.rd32 4
    cassert (decide (free < total))
    .ok t2

/-- The trie after the `runtime_error` of `expand`: the old mapping is gone (src/Trie.cc 101) and there is no new one. What
a failed call wrote before is in the file, but no longer accessible. -/
def lost (t : Trie) : Trie := { t with mapped := 0 }

/-- The `while` loop of `append` (src/Trie.cc 132-134), with fuel. -/
def growLoop [Build] (size : Nat) : Nat → Trie → M Trie
  | 0, _ => .error .fuel
  | fuel + 1, t => do
    let free ← t.rd32 4
    let total ← t.rd32 0
    if (free + size) % 2^32 ≥ total then do
      let t' ← t.expand
      growLoop size fuel t'
    else .ok t

/-- `Trie::append` (src/Trie.cc 129-140). The loop needs at most 32 rounds: the size doubles in 32 bits. -/
def append [Build] (t : Trie) (data : List Nat) : M (Trie × Nat) := do
  let total0 ← t.rd32 0
  let free0 ← t.rd32 4
  cassert (decide (free0 < total0))
  let t1 ← growLoop data.length 33 t
  let free ← t1.rd32 4
  let t2 ← t1.wr free data
  let t3 ← t2.wr 4 (bytes32 (free + data.length))
  let total3 ← t3.rd32 0
  let free3 ← t3.rd32 4
  cassert (decide (free3 < total3))
  .ok (t3, free)

/-- `Trie::addNewNode` (src/Trie.cc 142-153). -/
def addNewNode [Build] (t : Trie) (parent : Nat) : M (Trie × Nat) := do
  let (t1, nodeoffset) ← t.append (nodeBytes INVALID_WORDID parent)
  let (t2, _) ← t1.append (ptrsBytes 0#16 0 0)
  let n ← t2.rd32 12
  let t3 ← t2.wr 12 (bytes32 (n + 1))
  .ok (t3, nodeoffset)

/-- `Trie::Trie` (src/Trie.cc 74-88), with the first `expand` (no mapping yet, new size 1024) inlined.
Simplification: `tmpfile` succeeds. -/
def new [Build] (os : Nat → Bool) : M Trie := do
  if os 1024 = false then .error .runtimeError
  else
    let t0 : Trie := { mem := fun _ => 0, mapped := 1024, root := 0, os := os }
    let t1 ← t0.wr 0 (bytes32 1024)
    let total ← t1.rd32 0
    let free ← t1.rd32 4
    cassert (decide (free < total))
    let t2 ← t1.wr 4 (bytes32 sizeofHeader)
    let root ← t2.rd32 4
    let t3 ← ({ t2 with root := root }).wr 8 (bytes32 0)
    let (t4, _) ← t3.addNewNode 0
    .ok t4

/-- `Trie::addNewSibling` (src/Trie.cc 155-167). -/
def addNewSibling [Build] (t : Trie) (node sibling : Nat) (l : Letter) : M (Trie × Nat) := do
  let (t1, child) ← t.addNewNode node
  let (t2, newSibling) ← t1.append (ptrsBytes l child 0)
  let lastSibling ← t2.rd32 (sibling + 8)
  cassert (decide (lastSibling = 0))
  let t3 ← t2.wr (sibling + 8) (bytes32 newSibling)
  .ok (t3, child)

/-- The inner `while` of `insertWord` and `findWord` (src/Trie.cc 186-189, 229-232): the record where the walk over the
siblings stops. -/
def walk (t : Trie) (l : Letter) : Nat → Nat → M Nat
  | 0, _ => .error .fuel
  | fuel + 1, sibl => do
    let s ← t.rd32 (sibl + 8)
    let c ← t.rdLetter sibl
    if s ≠ 0 ∧ c ≠ l then t.walk l fuel s else .ok sibl

/-- The outer `while` of `insertWord` (src/Trie.cc 179-197) over the remaining letters. -/
def insertLoop [Build] (t : Trie) (node : Nat) : List Letter → M (Trie × Nat)
  | [] => .ok (t, node)
  | l :: rest => do
    let sibl ← t.walk l (t.mapped + 1) (node + sizeofNode)
    let c ← t.rdLetter sibl
    if c = l then
      let child ← t.rd32 (sibl + 4)
      t.insertLoop child rest
    else
      let (t', child) ← t.addNewSibling node sibl l
      t'.insertLoop child rest

/-- `Trie::insertWord` (src/Trie.cc 169-210). `word[0]` throws on an empty word (172, src/Word.cc 124-134). -/
def insertWord [Build] (t : Trie) (word : Word) (wordID : WordID) : M (Trie × Nat) := do
  let lw ← Word.at word 0
  if isSurrogate lw && !isHighSurrogate lw then cassert false
  let (t1, node) ← t.insertLoop t.root word
  let w ← t1.rd32 node
  if w = INVALID_WORDID then
    let t2 ← t1.wr node (bytes32 wordID)
    let n ← t2.rd32 8
    let t3 ← t2.wr 8 (bytes32 (n + 1))
    let w' ← t3.rd32 node
    cassert (decide (w' = wordID % 2^32))
    .ok (t3, node)
  else
    cassert (decide (w = wordID % 2^32))
    .ok (t1, node)

/-- The loop of `findWord` (src/Trie.cc 224-237) over the remaining letters. -/
def findLoop (t : Trie) (node : Nat) : List Letter → M Nat
  | [] => .ok node
  | l :: rest => do
    let sibl ← t.walk l (t.mapped + 1) (node + sizeofNode)
    let c ← t.rdLetter sibl
    if c ≠ l then .ok 0
    else
      let child ← t.rd32 (sibl + 4)
      t.findLoop child rest

/-- `Trie::findWord` (src/Trie.cc 222-239). -/
def findWord (t : Trie) (word : Word) : M Nat := t.findLoop t.root word

/-- `Trie::getRoot` (src/Trie.cc 241-243). -/
def getRoot (t : Trie) : Nat := t.root

/-- `Trie::getSiblingList` (src/Trie.cc 246-250). -/
def getSiblingList (t : Trie) (node : Nat) : M Nat := t.rd32 (node + sizeofNode + 8)

/-- `Trie::getNextSibling` (src/Trie.cc 252-255). -/
def getNextSibling (t : Trie) (sibling : Nat) : M Nat := t.rd32 (sibling + 8)

/-- `Trie::getLetter` (src/Trie.cc 257-260). -/
def getLetter (t : Trie) (sibling : Nat) : M Letter := t.rdLetter sibling

/-- `Trie::getChild` (src/Trie.cc 262-265). -/
def getChild (t : Trie) (sibling : Nat) : M Nat := t.rd32 (sibling + 4)

/-- `Trie::getWordID` (src/Trie.cc 267-270). -/
def getWordID (t : Trie) (node : Nat) : M WordID := t.rd32 node

/-- `Trie::hasSibling` (src/Trie.cc 272-275). -/
def hasSibling (t : Trie) (sibling : Nat) : M Bool := do
  let s ← t.rd32 (sibling + 8)
  .ok (decide (s ≠ 0))

/-- `Trie::getParent` (src/Trie.cc 285-288). -/
def getParent (t : Trie) (node : Nat) : M Nat := t.rd32 (node + 4)

/-- `Trie::hasWord` (src/Trie.cc 212-220). -/
def hasWord (t : Trie) (word : Word) : M Bool := do
  let node ← t.findWord word
  if node = 0 then .ok false
  else
    let w ← t.rd32 node
    .ok (decide (w ≠ INVALID_WORDID))

/-- `Trie::numWords` (src/Trie.cc 277-279). -/
def numWords (t : Trie) : M Nat := t.rd32 8

/-- `Trie::numNodes` (src/Trie.cc 281-283). -/
def numNodes (t : Trie) : M Nat := t.rd32 12

/-- The loop of `getSiblingTo` (src/Trie.cc 292-296). -/
def siblingToLoop (t : Trie) (child : Nat) : Nat → Nat → M Nat
  | 0, _ => .error .fuel
  | fuel + 1, sibling => do
    let c ← t.getChild sibling
    if c ≠ child then
      let s ← t.getNextSibling sibling
      if s = 0 then .error .runtimeError else t.siblingToLoop child fuel s
    else .ok sibling

/-- `Trie::getSiblingTo` (src/Trie.cc 290-298). -/
def getSiblingTo (t : Trie) (node child : Nat) : M Nat := do
  let s ← t.getSiblingList node
  t.siblingToLoop child t.mapped s

/-- The `while(parent)` loop of `getWord` (src/Trie.cc 309-315): letters collected so far, last first. -/
def lettersLoop (t : Trie) : Nat → Nat → Nat → List Letter → M (List Letter)
  | 0, _, _, _ => .error .fuel
  | fuel + 1, node, parent, acc =>
    if parent = 0 then .ok acc
    else do
      let s ← t.getSiblingTo parent node
      let l ← t.getLetter s
      let newParent ← t.getParent parent
      t.lettersLoop fuel parent newParent (acc ++ [l])

/-- `Trie::getWord` (src/Trie.cc 300-318). The collected letters start with the terminator and are reversed before the
`Word(Letter*, size_t)` constructor is called. -/
def getWord [Build] (t : Trie) (startNode : Nat) : M Word :=
  if startNode = 0 then .ok []
  else do
    let parent ← t.getParent startNode
    let letters ← t.lettersLoop t.mapped startNode parent [0#16]
    Word.ofLetters letters.reverse

end Trie

/-! ### src/WordStore.cc -/

/-- `WordStorePrivate` (src/WordStore.cc 41-44). -/
structure WordStore where
  words : Trie
  wordIndex : List Nat

namespace WordStore

/-- `WordStore::WordStore` (src/WordStore.cc 46-49). -/
def new [Build] (os : Nat → Bool) : M WordStore := do
  let t ← Trie.new os
  .ok ⟨t, []⟩

/-- `WordStore::hasWord(const Word&)` (src/WordStore.cc 65-67). -/
def hasWord (s : WordStore) (w : Word) : M Bool := s.words.hasWord w

/-- `WordStore::getID` (src/WordStore.cc 55-63). The identifier passed to the trie and the one returned are the number of
stored words before the call, converted to 32 bits. -/
def getID [Build] (s : WordStore) (w : Word) : M (WordStore × WordID) := do
  let h ← s.words.hasWord w
  if h then
    let node ← s.words.findWord w
    let id ← s.words.getWordID node
    .ok (s, id)
  else
    let (t, node) ← s.words.insertWord w (s.wordIndex.length % 2^32)
    let idx := s.wordIndex ++ [node]
    .ok (⟨t, idx⟩, (idx.length - 1) % 2^32)

/-- The store after an exception in `getID`: `runtime_error` comes from `Trie::expand` only, everything else is thrown
before the first change. -/
def after (s : WordStore) (f : Fault) : WordStore := if f = .runtimeError then { s with words := s.words.lost } else s

/-- `WordStore::hasWord(const WordID)` (src/WordStore.cc 76-78). -/
def hasWordID (s : WordStore) (id : WordID) : Bool := decide (id < s.wordIndex.length)

/-- `WordStore::getWord` (src/WordStore.cc 69-74). -/
def getWord [Build] (s : WordStore) (id : WordID) : M Word :=
  if s.hasWordID id = false then .error .outOfRange
  else match s.wordIndex[id]? with
    | none => .error .ub
    | some node => s.words.getWord node

end WordStore

end Columbus
