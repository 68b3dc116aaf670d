import Verif.Model.Matcher
import Verif.Model.CApi
import Verif.Props.Accents
import Verif.Props.Example
import Verif.Proofs.Unicode
import Verif.Proofs.Double
import Verif.Spec.Apps
/-
The unit tests of the project (test/*.cc, test/CAPITest.c) run on the model. They prove none of the properties; they are
evidence that the model behaves like the code, whose authors expect these tests to pass. A test is written with the
functions of the model in the order of the calls; tests of copying and of destruction, which the model's values have no
notion of, are left out, as are the tests of performance. Lower-casing is that of Unicode, arithmetic that of IEEE doubles.
`#guard` runs a test with Lean's evaluator when this file is built.
-/

namespace Columbus.Suite
open Columbus Spec

@[reducible] scoped instance icu : Icu := Unicode.icu
@[reducible] scoped instance build : Build := Example.debug
@[reducible] scoped instance runtime : Runtime := Example.runtime
@[reducible] scoped instance fp : Fp := ieee

/-- `assert` in a test. -/
def check (b : Bool) : M Unit := if b then .ok () else .error .assertion

/-- The test ends without an exception and without a failed assertion. -/
def passes : M Unit → Bool
  | .ok () => true
  | .error _ => false

/-- The call throws this. -/
def throws {α : Type} (f : Fault) (x : M α) : M Unit :=
  match x with
  | .ok _ => .error .assertion
  | .error g => check (decide (f = g))

/-- `Word w("…")`. -/
def word (s : String) : M Word := Word.ofUtf8 (ascii s)

/-! ### test/WordTest.cc -/

def testEmpty : M Unit := check (([] : Word).length = 0)

def testIndexing : M Unit := do
  let w ← word "abc"
  check ((← w.at 0) = 0x61#16)
  check ((← w.at 1) = 0x62#16)
  check ((← w.at 2) = 0x63#16)
  throws .outOfRange (w.at 3)

def shouldThrow (s : String) : M Unit := throws .invalidArgument (word s)

def testWhitespace : M Unit := do
  shouldThrow " "; shouldThrow " a"; shouldThrow "a "; shouldThrow "a a"
  shouldThrow "\t"; shouldThrow "a\t"; shouldThrow "\ta"; shouldThrow "a\ta"
  shouldThrow "\n"; shouldThrow "a\n"; shouldThrow "\na"; shouldThrow "a\na"
  shouldThrow "\r"; shouldThrow "a\r"; shouldThrow "\ra"; shouldThrow "a\ra"

def testComparison : M Unit := do
  let w1a : Word := []
  let w1b : Word := []
  let w2a ← word "abc"
  let w2b ← word "abc"
  let w2c ← word "abd"
  let different ← word "different"
  check (Word.beq w1a w1a); check (Word.beq w2a w2a); check (Word.beq w2b w2b)
  check (!Word.bne w1a w1b); check (!Word.bne w2a w2a); check (!Word.bne w2b w2b)
  check (Word.bne w1a w2a); check (Word.bne w2a w2c); check (Word.bne w1a different); check (Word.bne w2a different)
  check (!Word.beq w1a w2a); check (!Word.beq w2a w2c); check (!Word.beq w1a different); check (!Word.beq w2a different)

def testEncoding : M Unit := do
  let text : Bytes := [0x61, 0xc3, 0xa4, 0x63]
  let w1 ← Word.ofUtf8 text
  check (w1.length = 3)
  check ((← w1.at 0) = 0x61#16)
  check ((← w1.at 1) = 0xe4#16)
  check ((← w1.at 2) = 0x63#16)
  check ((← Word.toUtf8 w1 5) = text)
  check ((← Word.asUtf8 w1) = text)

def testEncoding2 : M Unit := do
  let text : Bytes := [0xF0, 0x90, 0x90, 0xB7]
  let w1 ← Word.ofUtf8 text
  check (w1.length = 2)
  check ((← w1.at 0) = 0xd801#16)
  check ((← w1.at 1) = 0xdc37#16)
  throws .invalidArgument (Word.ofLetters [0x61#16, 0x62#16, 0xd801#16, 0x63#16, 0#16])
  throws .invalidArgument (Word.ofLetters [0x61#16, 0x62#16, 0xdc37#16, 0x63#16, 0#16])
  throws .invalidArgument (Word.ofLetters [0x61#16, 0xd801#16, 0xdc37#16, 0xdc37#16, 0#16])
  check ((← Word.toUtf8 w1 5) = text)
  check ((← Word.asUtf8 w1) = text)

def testLessThan : M Unit := do
  let w1 ← word "a"; let w2 ← word "b"; let w3 ← word "aa"; let w4 ← word "ab"
  check (Word.lt w1 w2); check (Word.lt w1 w3); check (Word.lt w3 w2); check (Word.lt w3 w4); check (Word.lt w4 w2)
  check (Word.lt w1 w4)

def testAutoLower : M Unit := do
  let tl : Bytes := [0x61, 0xc3, 0xa4]
  let wUpper ← Word.ofUtf8 [0x41, 0xc3, 0x84]
  let wLower ← Word.ofUtf8 tl
  check (Word.beq wUpper wLower)
  check ((← Word.asUtf8 wLower) = tl)
  check ((← Word.asUtf8 wUpper) = tl)

def testJoin : M Unit := do
  let w1 ← word "abc"; let w2 ← word "def"; let r1 ← word "abcdef"; let r2 ← word "defabc"
  let empty : Word := []
  check (Word.beq (w1.join w2) r1)
  check ((← Word.asUtf8 (w1.join w2)) = ascii "abcdef")
  check (Word.beq (w2.join w1) r2)
  check (Word.beq (empty.join w1) w1)
  check (Word.beq (w2.join empty) w2)
  check (Word.beq (empty.join empty) empty)

/-- The new object, or the exception. -/
def assigned (old : WordObj) (s : String) : M WordObj :=
  match WordObj.assignUtf8 old (ascii s) with
  | (o, none) => .ok o
  | (_, some f) => .error f

def testAssignment : M Unit := do
  let w ← assigned .empty "abc"
  check (← Word.beqUtf8 (← w.value) (ascii "abc"))
  check (← Word.bneUtf8 (← w.value) (ascii "defg"))
  check (w.len = 3)
  let w ← assigned w "defg"
  check (← Word.bneUtf8 (← w.value) (ascii "abc"))
  check (← Word.beqUtf8 (← w.value) (ascii "defg"))
  check (w.len = 4)
  let w ← assigned w "xyz"
  check (← Word.beqString (← w.value) (ascii "xyz"))
  check (← Word.bneString (← w.value) (ascii "lmn"))
  check (w.len = 3)
  let w ← assigned w "lmn"
  check (← Word.bneString (← w.value) (ascii "xyz"))
  check (← Word.beqString (← w.value) (ascii "lmn"))
  check (w.len = 3)
  throws .invalidArgument (assigned w "h h")

#guard [testEmpty, testIndexing, testWhitespace, testComparison, testEncoding, testEncoding2, testLessThan, testAutoLower, testJoin, testAssignment].all passes

/-! ### test/LevIndexTest.cc -/

/-- `LevenshteinIndex ind` and insertions; the system grants all storage. -/
def index (ws : List (String × WordID)) : M LevIndex := do
  let ix ← LevIndex.new fun _ => true
  ws.foldlM (fun ix p => do ix.insertWord (← word p.1) p.2) ix

/-- `findWords` into an empty container: words and errors of the matches, in their order. -/
def find (ix : LevIndex) (s : String) (e : ErrorValues) (maxError : Int) : M (List (WordID × Int)) := do
  let ms ← ix.findWords (← word s) e maxError IndexMatches.new
  (List.range ms.size).mapM fun i => do .ok (← ms.getMatch i, ← ms.getMatchError i)

def defaultError : Int := DEFAULT_ERROR
def ev : ErrorValues := ErrorValues.new

def testTrivial : M Unit := do
  let ix ← index []
  check ((← find ix "a" ev (100 * defaultError)) = [])

def testSimple : M Unit := do
  let ix ← index [("abc", 1), ("def", 2)]
  check ((← find ix "abc" ev defaultError) = [(1, 0)])
  check ((← find ix "def" ev defaultError) = [(2, 0)])

def testOrder : M Unit := do
  let ix ← index [("abcde", 1), ("abxye", 2), ("supercalifragilisticexpialidocious", 100)]
  check ((← find ix "abche" ev defaultError) = [(1, defaultError)])
  check ((← find ix "abxhe" ev defaultError) = [(2, defaultError)])
  let ms ← find ix "abche" ev (2 * defaultError)
  check (ms = [(1, defaultError), (2, 2 * defaultError)])
  let ms ← find ix "abxhe" ev (2 * defaultError)
  check (ms = [(2, defaultError), (1, 2 * defaultError)])

def testEdges : M Unit := do
  let ix ← index [("abc", 1)]
  check ((← find ix "bbc" ev (100 * defaultError)) = [(1, defaultError)])
  check ((← find ix "acc" ev (100 * defaultError)) = [(1, defaultError)])
  check ((← find ix "abb" ev (100 * defaultError)) = [(1, defaultError)])

def testEmptyQuery : M Unit := do
  let ix ← index [("a", 1), ("b", 2), ("abc", 3)]
  check ((← find ix "" ev defaultError).map (·.2) = [defaultError, defaultError])

def testExact : M Unit := do
  let ix ← index [("abcd", 1)]
  check ((← find ix "abce" ev 0) = [])
  check ((← find ix "abcd" ev 0) = [(1, 0)])

def testTranspose : M Unit := do
  let ix ← index [("abcd", 1)]
  check ((← find ix "acbd" ev defaultError) = [(1, defaultError)])
  check ((← find ix "bacd" ev defaultError) = [(1, defaultError)])
  check ((← find ix "abdc" ev defaultError) = [(1, defaultError)])

def testEndError : M Unit := do
  let endError := DEFAULT_SUBSTRING_END_DELETION_ERROR
  let e := ev.setEndDeletionError endError
  check (2 * endError < defaultError)
  let ix ← index [("abcdef", 1), ("abcdefghijkl", 2)]
  check ((← find ix "abcde" e defaultError).map (·.1) = [1])
  check ((← find ix "abcde" e endError).map (·.1) = [1])
  check ((← find ix "bcdef" e endError) = [])
  check ((← find ix "abdef" e endError) = [])
  check ((← find ix "abcd" e (2 * endError)).map (·.1) = [1])

def testStartError : M Unit := do
  let startError := DEFAULT_SUBSTRING_END_DELETION_ERROR
  let e := ev.setStartInsertionError startError
  check (2 * startError < defaultError)
  let ix ← index [("abcdef", 1), ("ghijklabcdef", 2)]
  check ((← find ix "bcdef" e defaultError).map (·.1) = [1])
  check ((← find ix "bcdef" e startError).map (·.1) = [1])
  check ((← find ix "abcdefe" e startError) = [])
  check ((← find ix "abdef" e startError) = [])
  check ((← find ix "cdef" e (2 * startError)).map (·.1) = [1])

#guard [testTrivial, testSimple, testOrder, testEdges, testEmptyQuery, testExact, testTranspose, testEndError, testStartError].all passes

/-! ### test/LevTrieTest.cc -/

def has (ix : LevIndex) (s : String) : M Bool := do ix.hasWord (← word s)

/-- After each insertion, exactly the first words of the list are there. -/
def grows (ws : List (String × WordID)) : M Unit :=
  (List.range (ws.length + 1)).forM fun n => do
    let ix ← index (ws.take n)
    (List.range ws.length).forM fun i => do check ((← has ix (ws.getD i ("", 0)).1) = decide (i < n))

def basicTest : M Unit := grows [("word", 1), ("another", 2)]
def shortTest : M Unit := grows [("a", 1)]
def prefixTest : M Unit := grows [("ab", 1), ("a", 2)]
def suffixTest : M Unit := grows [("abc", 1), ("abcd", 2)]
def branchTest : M Unit := grows [("abc", 1), ("abcd", 2), ("abce", 3)]

def counts (ws : List (String × WordID)) (c1 c2 c3 max words : Nat) : M Unit := do
  let ix ← index ws
  check (ix.wordCount 1 = c1)
  check (ix.wordCount 2 = c2)
  check (ix.wordCount 3 = c3)
  check (ix.getMaxCount = max)
  check ((← ix.numWords) = words)

def countTest : M Unit := do
  counts [] 0 0 0 0 0
  counts [("abc", 1)] 1 0 0 1 1
  counts [("abc", 1), ("def", 2)] 1 1 0 1 2
  counts [("abc", 1), ("def", 2), ("abc", 1)] 2 1 0 2 2

#guard [basicTest, shortTest, prefixTest, suffixTest, branchTest, countTest].all passes

/-! ### test/TrieTest.cc -/

def testWordBuilding : M Unit := do
  let t ← Trie.new fun _ => true
  let w1 ← word "abc"; let w2 ← word "abd"
  check ((← t.numWords) = 0)
  let (t, node1) ← t.insertWord w1 1
  check ((← t.numWords) = 1)
  let (t, node2) ← t.insertWord w2 2
  check ((← t.numWords) = 2)
  check (Word.beq (← t.getWord node1) w1)
  check (Word.beq (← t.getWord node2) w2)

def testHas : M Unit := do
  let t ← Trie.new fun _ => true
  check ((← t.numWords) = 0)
  let (t, _) ← t.insertWord (← word "abc") 1
  check (← t.hasWord (← word "abc"))
  check (!(← t.hasWord (← word "abd")))
  check (!(← t.hasWord (← word "a")))
  check (!(← t.hasWord (← word "x")))

/-! ### test/WordStoreTest.cc -/

def testStore : M Unit := do
  let s ← WordStore.new fun _ => true
  let w1 ← word "abc"; let w2 ← word "def"
  let (s, w1ID) ← s.getID w1
  let (s, w1CopyID) ← s.getID (← word "abc")
  let (s, w2ID) ← s.getID w2
  check (w1ID = w1CopyID); check (w2ID ≠ w1ID); check (42 ≠ w1ID); check (42 ≠ w2ID)
  check (Word.beq (← s.getWord w1ID) w1)
  check (Word.beq (← s.getWord w2ID) w2)
  throws .outOfRange (s.getWord 42)

#guard [testWordBuilding, testHas, testStore].all passes

/-! ### test/CustomErrorTest.cc -/

def testCustomError : M Unit := do
  let ix ← index [("abc", 17)]
  let e := ev
  check ((← find ix "adc" e defaultError) = [(17, defaultError)])
  let e ← e.setError 0x62#16 0x64#16 1
  check ((← find ix "adc" e defaultError) = [(17, 1)])
  let e ← e.setError 0x64#16 0x62#16 2
  check ((← find ix "adc" e defaultError) = [(17, 2)])
  let e := e.clearErrors
  check ((← find ix "adc" e defaultError) = [(17, defaultError)])

/-! ### test/ErrorValuesTest.cc -/

def testError : M Unit := do
  let l1 := 16#16
  let l2 := 17#16
  check ((← ev.getSubstituteError l1 l2) = defaultError)
  let e ← ev.setError l1 l2 1
  check ((← e.getSubstituteError l1 l2) = 1)
  check ((← e.getSubstituteError l2 l1) = 1)
  check ((← ev.getSubstituteError l2 l1) = defaultError)
  let e2 ← ev.setError l2 l1 1
  check ((← e2.getSubstituteError l1 l2) = 1)
  check ((← e2.getSubstituteError l2 l1) = 1)
  check ((← e.clearErrors.getSubstituteError l1 l2) = defaultError)

/-- The latin accent groups of share/latinAccentedLetterGroups.txt. -/
def testGroupError : M Unit := do
  let e := 0x65#16; let eacute := 0xe9#16; let ebreve := 0x115#16
  let a := 0x61#16; let aacute := 0xe1#16; let abreve := 0x103#16
  let group := DEFAULT_GROUP_ERROR
  check (defaultError ≠ group)
  check ((← ev.getSubstituteError e eacute) = defaultError)
  check ((← ev.getSubstituteError a aacute) = defaultError)
  check ((← ev.getSubstituteError e aacute) = defaultError)
  let (v, x) := ev.addAccents Props.sharedData false
  check (x = none)
  check ([e, eacute, ebreve, a, aacute, abreve].all v.isInGroup)
  check ((← v.getSubstituteError e eacute) = group)
  check ((← v.getSubstituteError eacute e) = group)
  check ((← v.getSubstituteError eacute ebreve) = group)
  check ((← v.getSubstituteError e ebreve) = group)
  check ((← v.getSubstituteError a e) = defaultError)
  check ((← v.getSubstituteError a aacute) = group)
  check ((← v.getSubstituteError abreve aacute) = group)
  check ((← v.getSubstituteError eacute aacute) = defaultError)
  check ((← v.clearErrors.getSubstituteError e eacute) = defaultError)

def testKeyboardErrors : M Unit := do
  check ((← ev.getSubstituteError 0x71#16 0x61#16) = defaultError)
  let e ← ev.addKeyboardErrors
  check ((← e.getSubstituteError 0x71#16 0x61#16) = DEFAULT_TYPO_ERROR)
  check ((← e.getSubstituteError 0x77#16 0x61#16) = DEFAULT_TYPO_ERROR)

def testNumberpadErrors : M Unit := do
  let e ← ev.addNumberpadErrors
  check ((← e.getSubstituteError 0x32#16 0x61#16) = 0)
  check ((← e.getSubstituteError 0x35#16 0x6d#16) < defaultError)
  check ((← e.getSubstituteError 0x6a#16 0x36#16) < defaultError)

def testBigError : M Unit := do
  let l1 := 1000#16
  let l2 := 10000#16
  check (1 < defaultError)
  check ((← ev.getSubstituteError l1 l2) = defaultError)
  check ((← ev.getSubstituteError l2 l1) = defaultError)
  check ((← ev.getSubstituteError l2 l2) = 0)
  let e ← ev.setError l1 l2 1
  check ((← e.getSubstituteError l1 l2) = 1)
  check ((← e.getSubstituteError l2 l1) = 1)
  check ((← e.getSubstituteError l2 l2) = 0)

#guard [testCustomError, testError, testGroupError, testKeyboardErrors, testNumberpadErrors, testBigError].all passes

/-! ### test/HelpersTest.cc -/

def splitCorrectly (s : String) (l : WordList) : M Unit := do check (WordList.beq (← splitToWords (ascii s)) l)

def testSplitter : M Unit := do
  let l1 := (WordList.new.addWord (← word "abc")).addWord (← word "def")
  splitCorrectly "abc def" l1
  splitCorrectly "abc\tdef" l1
  splitCorrectly "abc\ndef" l1
  splitCorrectly "abc\rdef" l1
  splitCorrectly " abc def" l1
  splitCorrectly "abc def " l1
  splitCorrectly " abc def " l1
  splitCorrectly "" .new
  splitCorrectly " " .new
  splitCorrectly "\t" .new
  splitCorrectly "\n" .new
  splitCorrectly "\r" .new
  splitCorrectly " \t\n\r\n\t " .new

def testWeirdWord : M Unit := do
  let l ← splitToWords [0x42, 0x6c, 0x75, 0x65, 0x73, 0x20, 0xe2, 0x80, 0x9a, 0xc3, 0x84, 0xc3, 0xb2, 0x6e, 0xe2, 0x80,
    0x9a, 0xc3, 0x84, 0xc3, 0xb4, 0x20, 0x54, 0x72, 0x6f, 0x75, 0x62, 0x6c, 0x65, 0x0d, 0x0a]
  check (l.length = 3)

#guard [testSplitter, testWeirdWord].all passes

/-! ### test/WordListTest.cc -/

def testList : M Unit := do
  let l : WordList := .new
  let w1 ← word "abc"; let w2 ← word "def"
  check (l.size = 0)
  throws .outOfRange (WordList.at l 1)
  let l := l.addWord w1
  check (l.size = 1)
  check (Word.beq (← WordList.at l 0) w1)
  let l := l.addWord w2
  check (l.size = 2)
  check (Word.beq (← WordList.at l 1) w2)

def testEquality : M Unit := do
  let w1 ← word "abc"; let w2 ← word "def"; let w3 ← word "ghi"
  let l1 : WordList := .new
  let l2 : WordList := .new
  check (WordList.beq l1 l2); check (!WordList.bne l1 l2)
  let l1 := l1.addWord w1
  check (!WordList.beq l1 l2); check (WordList.bne l1 l2)
  let l2 := l2.addWord w1
  check (WordList.beq l1 l2); check (!WordList.bne l1 l2)
  let l2 := l2.addWord w2
  check (!WordList.beq l1 l2); check (WordList.bne l1 l2)
  let l1 := l1.addWord w3
  check (!WordList.beq l1 l2); check (WordList.bne l1 l2)

/-! ### test/DocumentTest.cc, test/CorpusTest.cc, test/IndexWeightsTest.cc -/

/-- A list of words. -/
def words (l : List String) : M WordList := l.foldlM (fun wl s => do .ok (wl.addWord (← word s))) WordList.new

def testDoc : M Unit := do
  let d := (Document.new 42).addText (← word "title") (← words ["abc", "def"])
  let l ← d.getText (← word "title")
  check (l.size = 2)
  check (Word.beq (← WordList.at l 0) (← word "abc"))
  check (Word.beq (← WordList.at l 1) (← word "def"))

def testIndexNames : M Unit := do
  let d := (Document.new 102).addText (← word "text1") (← words ["abc"])
  let d := d.addText (← word "text2") (← words ["def"])
  let names := d.getFieldNames
  (List.range names.size).forM fun i => do
    let _ ← d.getText (← WordList.at names i)
    .ok ()
  throws .invalidArgument (d.getText (← word "foooooo"))

def testCounts : M Unit := do
  let w1 ← word "abc"; let w2 ← word "def"; let w3 ← word "geh"; let w4 ← word "ijk"
  let f1 ← word "field1"; let f2 ← word "field2"; let f3 ← word "field3"
  let d := Document.new 2
  check (d.wordCount w1 f1 = 0); check (d.wordCount w1 f2 = 0)
  check (d.totalWordCount w1 = 0); check (d.totalWordCount w2 = 0); check (d.totalWordCount w3 = 0)
  let d := d.addText f1 [w1, w2]
  check (d.wordCount w1 f1 = 1); check (d.wordCount w1 f2 = 0); check (d.wordCount w2 f1 = 1)
  check (d.wordCount w2 f2 = 0); check (d.wordCount w3 f1 = 0); check (d.wordCount w3 f2 = 0)
  check (d.totalWordCount w1 = 1); check (d.totalWordCount w2 = 1); check (d.totalWordCount w3 = 0)
  let d := d.addText f2 [w2, w3]
  check (d.wordCount w1 f1 = 1); check (d.wordCount w1 f2 = 0); check (d.wordCount w2 f1 = 1)
  check (d.wordCount w2 f2 = 1); check (d.wordCount w3 f1 = 0); check (d.wordCount w3 f2 = 1)
  check (d.totalWordCount w1 = 1); check (d.totalWordCount w2 = 2); check (d.totalWordCount w3 = 1)
  let d := d.addText f3 [w4, w4]
  check (d.wordCount w4 f3 = 2); check (d.totalWordCount w4 = 2)

def testCorpus : M Unit := do
  let title ← word "title"
  let d1 := (Document.new 0).addText title (← words ["abc", "def"])
  let d2 := (Document.new 0).addText title (← words ["test1", "test2"])
  let c : Corpus := []
  check (c.length = 0)
  let c := c.addDocument d1
  check (c.length = 1)
  let c := c.addDocument d2
  check (c.length = 2)
  check ((← c.getDocument 0).id = 0)
  let d ← c.getDocument 1
  check (d.id = 0)
  let l ← d.getText title
  check (Word.beq (← WordList.at l 0) (← word "test1"))
  check (Word.beq (← WordList.at l 1) (← word "test2"))

def testWeights : M Unit := do
  let w1 ← word "abc"
  let iw : IndexWeights := []
  check (iw.getWeight w1 = 1)
  check ((iw.setWeight w1 2).getWeight w1 = 2)

#guard [testList, testEquality, testDoc, testIndexNames, testCounts, testCorpus, testWeights].all passes

/-! ### test/MatchResultsTest.cc -/

def relevancy (r : MatchResults) (i : Nat) : M ℚ := do .ok (← r.getRelevancy i).2
def idAt (r : MatchResults) (i : Nat) : M DocumentID := do .ok (← r.getDocumentID i).2

def testMatchResult : M Unit := do
  let r := MatchResults.new
  check (r.size = 0)
  let r := r.addResult 0 1
  check (r.size = 1)
  let (r, x) ← r.getRelevancy 0
  check (x = 1)
  let r := r.addResult 1 2
  check (r.size = 2)
  let (r, x) ← r.getRelevancy 0
  check (x = 2)
  let r := r.addResult 2 (1/2)
  check (r.size = 3)
  let (_, x) ← r.getRelevancy 0
  check (x = 2)

#guard passes testMatchResult

/-! ### test/MatcherTest.cc -/

/-- A document with texts given as UTF-8. -/
def document (id : DocumentID) (ts : List (String × String)) : M Document :=
  ts.foldlM (fun d p => do d.addTextUtf8 (← word p.1) (ascii p.2)) (Document.new id)

/-- `Matcher m; m.index(c)`. -/
def matcher (ds : List (DocumentID × List (String × String))) : M Matcher := do
  let c ← ds.mapM fun p => document p.1 p.2
  match (← Matcher.new fun _ => true).index c with
  | (m, none) => .ok m
  | (_, some f) => .error f

/-- Documents and relevancies in their order. -/
def listed (r : M MatchResults) : M (List (DocumentID × ℚ)) := do
  let r ← r
  (List.range r.size).mapM fun i => do .ok (← idAt r i, ← relevancy r i)

def testCorpusDocs : List (DocumentID × List (String × String)) :=
  [(0, [("title", "abc def")]), (10, [("title", "abe test")]), (1000, [("title", "faraway donotmatchme")])]

def testMatcher : M Unit := do
  let m ← matcher testCorpusDocs
  let r ← listed (m.matchDefault [← word "abc"]).2
  check (r.length = 2)
  check (!(r.map (·.1)).contains 1000)
  check ((r.map (·.1)).contains 0)
  check ((r.map (·.1)).contains 10)

def testRelevancy : M Unit := do
  let m ← matcher testCorpusDocs
  match ← listed (m.matchDefault [← word "abc"]).2 with
  | [(a, x), (_, y)] => check (x > y); check (a = 0)
  | _ => check false

/-- The first document found. -/
def first (r : M MatchResults) (id : DocumentID) : M Unit := do
  check ((← listed r).head?.map (·.1) = some id)

def testMultiWord : M Unit := do
  let m ← matcher [(1, [("name", "Sarah Michelle Gellar")]), (0, [("name", "Sara Giller")])]
  first (m.matchUtf8 (ascii "Sari Michell Geller")).2 1

def testSentence : M Unit := do
  let m ← matcher [(1, [("name", "Fit Canvas to Layers"), ("context", "View Zoom (100%)")]),
    (0, [("name", "Fit image in Window"), ("context", "Image")])]
  first (m.matchUtf8 (ascii "fit canvas to layers")).2 1

def online (m : Matcher) (q : String) (field : String) : M MatchResults := do
  (m.onlineMatch (← splitToWords (ascii q)) (← word field)).2

def testExactOrder : M Unit := do
  let m ← matcher [(1, [("name", "Fit Canvas to Layers"), ("context", "View Zoom (100%)")]),
    (0, [("name", "Fit image in Window"), ("context", "Image")]),
    (100, [("name", "Not matching."), ("context", "fit canvas to layers")])]
  first (online m "fit canvas to layers" "name") 1

def testSmallestMatch : M Unit := do
  let m ← matcher [(1, [("name", "save"), ("dummy", "lots of text to ensure statistics of this field are ignored")]),
    (0, [("name", "save as")])]
  check ((← listed (online m "save" "name")).length = 2)
  first (online m "save" "name") 1

def noCommonMatch : M Unit := do
  let m ← matcher [(1, [("name", "Preparing your Images for the Web"), ("name", "Help user manual")])]
  check ((← listed (online m "fit canvas to selection" "name")) = [])

def emptyMatch : M Unit := do
  let m ← matcher [(1, [("name", "Preparing your Images for the Web"), ("name", "Help user manual")])]
  check ((← listed (online m "" "name")) = [])

def testMatchCount : M Unit := do
  let m ← matcher [(1, [("name", "Fit Canvas to Layers"), ("context", "View Zoom (100%)")]),
    (0, [("name", "Selection editor"), ("context", "Windows dockable dialogs")])]
  check ((← listed (online m "fit canvas to selection" "name")).length = 2)
  first (online m "fit canvas to selection" "name") 1

def testPerfect : M Unit := do
  let m ← matcher [(1, [("name", "Save as")]), (0, [("name", "Save")]), (2, [("name", "Save yourself")]),
    (3, [("name", "Save the whales")])]
  first (online m "save" "name") 0

#guard [testMatcher, testRelevancy, testMultiWord, testSentence, testExactOrder, testSmallestMatch, noCommonMatch, emptyMatch,
  testMatchCount, testPerfect].all passes

/-! ### test/ResultFilterTest.cc, test/SearchParametersTest.cc -/

def filterDocs : List (DocumentID × List (String × String)) :=
  [(1, [("text", "something"), ("field1", "one"), ("field2", "three")]),
   (2, [("text", "something"), ("field1", "two"), ("field2", "three")])]

/-- Sub-terms of one term, then a new term, and so on. -/
def filter (ts : List (List (String × String))) : M SearchParameters := do
  let f ← (ts.zip (List.range ts.length)).foldlM (fun (f : ResultFilter) (p : List (String × String) × Nat) => do
    let f := if p.2 = 0 then f else f.addNewTerm
    p.1.foldlM (fun (f : ResultFilter) q => do f.addNewSubTerm (← word q.1) (← word q.2)) f) ResultFilter.new
  .ok { SearchParameters.new with filter := f }

def filtered (ts : List (List (String × String))) : M (List DocumentID) := do
  let m ← matcher filterDocs
  .ok ((← listed (m.matchUtf8Params (ascii "something") (← filter ts)).2).map (·.1))

def testFiltering : M Unit := do
  check ((← filtered []).length = 2)
  check ((← filtered [[("field1", "one")]]) = [1])
  check ((← filtered [[("field1", "two")]]) = [2])
  check ((← filtered [[("field1", "one")], [("field1", "two")]]).length = 2)
  check ((← filtered [[("field2", "two"), ("field1", "one")]]) = [])

def testDynamic : M Unit := do
  let sp := SearchParameters.new
  check sp.isDynamic
  let sp := sp.setDynamic false
  check (!sp.isDynamic)
  let sp := sp.setDynamic true
  check sp.isDynamic

def testNosearch : M Unit := do
  let sp := SearchParameters.new
  let w1 ← word "abc"; let w2 ← word "def"
  check (!sp.isNonsearchingField w1); check (!sp.isNonsearchingField w2)
  let sp := sp.addNonsearchingField w1
  check (sp.isNonsearchingField w1); check (!sp.isNonsearchingField w2)
  let sp := sp.addNonsearchingField w2
  check (sp.isNonsearchingField w1); check (sp.isNonsearchingField w2)

def testNosearchMatching : M Unit := do
  let m ← matcher [(1, [("field1", "one")]), (2, [("field2", "one")])]
  let sp := SearchParameters.new.addNonsearchingField (← word "field2")
  check ((← listed (m.matchUtf8Params (ascii "one") sp).2).map (·.1) = [1])

#guard [testFiltering, testDynamic, testNosearch, testNosearchMatching].all passes

/-! ### test/CAPITest.c -/
namespace C
open CApi

def testWord : M Unit := do
  let (h, w) ← wordNew ⟨[]⟩ (ascii "abc")
  check (w ≠ .null)
  check ((← wordLength h w) = 3)
  check ((← wordAsUtf8 h w 10) = some (ascii "abc"))
  let _ ← wordDelete h w

def testDocument : M Unit := do
  let (h, d) ← documentNew ⟨[]⟩ 55
  let (h, w) ← wordNew h (ascii "abc")
  check (d ≠ .null)
  check ((← documentGetId h d) = 55)
  let h ← documentAddText h d w (ascii "this is just some text")
  let h ← wordDelete h w
  let _ ← documentDelete h d

def testMatcher : M Unit := do
  let (h, m) ← matcherNew ⟨[]⟩ fun _ => true
  check (m ≠ .null)
  let _ ← matcherDelete h m

def testMatchResults : M Unit := do
  let (h, r) ← matchResultsNew ⟨[]⟩
  check (r ≠ .null)
  let _ ← matchResultsDelete h r

def testCorpus : M Unit := do
  let (h, c) ← corpusNew ⟨[]⟩
  let (h, d) ← documentNew h 42
  let (h, w) ← wordNew h (ascii "abc")
  let h ← documentAddText h d w (ascii "this is just some text")
  let h ← wordDelete h w
  check (c ≠ .null)
  let h ← corpusAddDocument h c d
  let h ← documentDelete h d
  let _ ← corpusDelete h c

def buildCorpus (h : Heap) : M (Heap × Handle) := do
  let (h, c) ← corpusNew h
  let (h, textName) ← wordNew h (ascii "title")
  let (h, d1) ← documentNew h 0
  let h ← documentAddText h d1 textName (ascii "abc def")
  let (h, d2) ← documentNew h 10
  let h ← documentAddText h d2 textName (ascii "abe test")
  let (h, dFar) ← documentNew h 1000
  let h ← documentAddText h dFar textName (ascii "faraway donotmatchme")
  let h ← corpusAddDocument h c d1
  let h ← corpusAddDocument h c d2
  let h ← corpusAddDocument h c dFar
  let h ← wordDelete h textName
  let h ← documentDelete h d1
  let h ← documentDelete h d2
  let h ← documentDelete h dFar
  .ok (h, c)

def testMatching : M Unit := do
  let (h, c) ← buildCorpus ⟨[]⟩
  let (h, m) ← matcherNew h fun _ => true
  let h ← matcherIndex h m c
  let h ← corpusDelete h c
  let (h, r) ← matcherMatch h m (ascii "abe")
  check ((← matchResultsSize h r) = 2)
  let (h, a) ← matchResultsGetId h r 0
  let (h, b) ← matchResultsGetId h r 1
  check (a ≠ 1000); check (b ≠ 1000)
  check (a = 0 || b = 0)
  check (a = 10 || b = 10)
  let h ← matchResultsDelete h r
  let _ ← matcherDelete h m

#guard [testWord, testDocument, testMatcher, testMatchResults, testCorpus, testMatching].all passes
end C
end Columbus.Suite
