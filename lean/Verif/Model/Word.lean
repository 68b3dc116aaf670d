import Verif.Model.Containers
import Verif.Model.Utf
/-
src/Word.cc and the conversion helpers of src/ColumbusHelpers.cc.
-/

namespace Columbus

/-- `whitespaceLetters` with `numWhitespaceLetters = 4` (src/ColumbusHelpers.cc 39-40): the fifth entry, NUL, is not
looked at. -/
def whitespaceLetters : List Letter := [0x20#16, 0x09#16, 0x0a#16, 0x0d#16]

/-- `isInList` (src/ColumbusHelpers.cc 132-137). -/
def isInList (l : Letter) (chars : List Letter) : Bool :=
  match chars with
  | [] => false
  | c :: cs => if c = l then true else isInList l cs

/-- `isWhitespace` (src/ColumbusHelpers.cc 181-183). -/
def isWhitespace (l : Letter) : Bool := isInList l whitespaceLetters

/-- `utf8ToInternal` (src/ColumbusHelpers.cc 46-95): the letters written, lower-cased, without the terminator.
Buffer sizes are checked: `txt` holds `inputLen+1` letters (line 60); iconv fails when its output does not fit
(line 64-76); the shrinking copy (80-87) must stay inside `txt`, and the terminator (89) inside the final array.
Simplification: `inputLen` is not truncated to 32 bits (strings are shorter than 4 GiB); `new`/`strdup` succeed. -/
def utf8ToInternal [Icu] (s : Bytes) : M (List Letter) :=
  let inputLen := s.length
  match decodeUtf8 s with
  | none => .error .runtimeError
  | some cps =>
    let units := cps.flatMap encodeUtf16
    let outBytesOriginal := 2 * (inputLen + 1)
    let bytesWritten := 2 * units.length
    if outBytesOriginal < bytesWritten then .error .runtimeError
    else
      let resultStringSize := bytesWritten / 2
      let newArraySize := bytesWritten + 2
      if bytesWritten < inputLen ∧ outBytesOriginal < newArraySize then .error .ub
      else
        let allocated := if bytesWritten < inputLen then newArraySize / 2 else inputLen + 1
        if resultStringSize < allocated then .ok ((units.take resultStringSize).map Icu.lower) else .error .ub

/-- `internalToUtf8` (src/ColumbusHelpers.cc 97-119) on letters `w` into a buffer of `bufsize` bytes: the bytes written
before the terminator. iconv fails (line 114) on ill-formed UTF-16 or when the output does not fit; the terminator is
written at index `resultStringSize` (line 118) without a check. -/
def internalToUtf8 (w : List Letter) (bufsize : Nat) : M Bytes :=
  match decodeUtf16 w with
  | none => .error .runtimeError
  | some cps =>
    let out := cps.flatMap encodeUtf8
    if bufsize < out.length then .error .runtimeError
    else if out.length < bufsize then .ok out
    else .error .ub

/-- `Word::hasWhitespace` (src/Word.cc 155-162). -/
def hasWhitespace : List Letter → Bool
  | [] => false
  | cur :: r => if isWhitespace cur then true else hasWhitespace r

/-- The loop of `Word::hasBrokenSurrogates` (src/Word.cc 171-199) with its two state variables. -/
def brokenLoop [Build] (expectSurrogate expectHigh : Bool) : List Letter → M Bool
  | [] => .ok false
  | cur :: r =>
    if expectSurrogate && !isSurrogate cur then .ok true
    else if isSurrogate cur then
      if expectHigh && !isHighSurrogate cur then .ok true
      else do
        cassert (expectHigh || (!expectHigh && isLowSurrogate cur))
        if expectHigh then brokenLoop true false r else brokenLoop false true r
    else brokenLoop expectSurrogate expectHigh r

/-- `Word::hasBrokenSurrogates` (src/Word.cc 168-200). -/
def hasBrokenSurrogates [Build] (w : List Letter) : M Bool := brokenLoop false true w

/-- The `Word(const char*)` and `Word(const std::string&)` constructors (src/Word.cc 47-49, 84-86, `convertString`
92-108) as a value: the letters of the constructed word. -/
def Word.ofUtf8 [Build] [Icu] (s : Bytes) : M Word := do
  let text ← utf8ToInternal s
  if hasWhitespace text then .error .invalidArgument
  else
    let broken ← hasBrokenSurrogates text
    if broken then .error .invalidArgument else .ok text

/-- The `Word(Letter*, size_t)` constructor (src/Word.cc 62-82). `letters` is the array of `length` letters passed;
`letters[length-1]` is read out of bounds when it is empty. -/
def Word.ofLetters [Build] (letters : List Letter) : M Word :=
  match letters.getLast? with
  | none => .error .ub
  | some last =>
    let text := if last = 0#16 then letters.dropLast else letters
    if hasWhitespace text then .error .invalidArgument
    else do
      let broken ← hasBrokenSurrogates text
      if broken then .error .invalidArgument else .ok text

/-- `Word::toUtf8` (src/Word.cc 249-251). -/
def Word.toUtf8 (w : Word) (bufSize : Nat) : M Bytes := internalToUtf8 w bufSize

/-- `Word::asUtf8` (src/Word.cc 253-260): a buffer of `4*(len+1)` bytes, then `string result(u8)`, which stops at the
first NUL. -/
def Word.asUtf8 (w : Word) : M Bytes := do
  let u8 ← Word.toUtf8 w (4 * (w.length + 1))
  .ok (u8.takeWhile (· != 0))

/-- `Word::operator[]` (src/Word.cc 124-134). -/
def Word.at (w : Word) (i : Nat) : M Letter :=
  match w[i]? with
  | none => .error .outOfRange
  | some l => .ok l

/-- `Word::operator==(const Word&)` (src/Word.cc 202-211). -/
def Word.beq (a b : Word) : Bool :=
  if a.length ≠ b.length then false
  else match a, b with
    | x :: a', y :: b' => if x ≠ y then false else Word.beq a' b'
    | _, _ => true

/-- `Word::operator==(const char*)` (src/Word.cc 213-215): `strcmp` with the UTF-8 text. `s` are the characters before the
terminator. -/
def Word.beqUtf8 (a : Word) (s : Bytes) : M Bool := do
  let u ← Word.asUtf8 a
  .ok (decide (u = s))

/-- `Word::operator==(const std::string&)` (src/Word.cc 217-219): `c_str` ends at the first NUL. -/
def Word.beqString (a : Word) (s : Bytes) : M Bool := Word.beqUtf8 a (s.takeWhile (· != 0))

/-- The overloads of `Word::operator!=` (src/Word.cc 222-232). -/
def Word.bne (a b : Word) : Bool := !Word.beq a b
def Word.bneUtf8 (a : Word) (s : Bytes) : M Bool := do
  let b ← Word.beqUtf8 a s
  .ok !b
def Word.bneString (a : Word) (s : Bytes) : M Bool := do
  let b ← Word.beqString a s
  .ok !b

/-- `Word::operator<` (src/Word.cc 234-247). -/
def Word.lt : Word → Word → Bool
  | [], b => decide (0 < b.length)
  | _ :: _, [] => false
  | x :: a, y :: b =>
    if x.toNat < y.toNat then true
    else if y.toNat < x.toNat then false
    else Word.lt a b

/-- `Word::join` (src/Word.cc 262-271). -/
def Word.join (a b : Word) : Word := a ++ b

/-- The initialised part of `randomNumbers` (src/Word.cc 33-42). The array has 256 entries; the other 192 are zero. -/
def randomNumbers : List (BitVec 64) := [
  0x31d04490f9cd0152, 0xcfd220f4878a1427, 0x9b2dd113758d9e8a, 0x35a4419e88a812d5, 0x9f9743e9ee40cd55, 0x7038be807e85f27f, 0x9ca0e3499edabe60, 0x9b3e409e7ffbe39f,
  0xc58155e5a1e164e0, 0x1f3f0823c9670283, 0xddc1ff4e8431766f, 0xf708145c12c3a474, 0x1bd343edebb746e8, 0x59363d26f1d34003, 0xade2044c51ce1ab5, 0x86c0607a613fa4e6,
  0x4751cef8b5647cf1, 0x618cdd1beaba96a6, 0x9a5616eed71a1b05, 0x90fffcf56ab61b54, 0xc7b408b8542bf4f9, 0x64d8fba24eed76cd, 0x483d04576118f39b,  0x5c9534dee689698,
  0x25d7939c3cf11b2d, 0xe020bdf2ba9f78f5, 0xf441f807c4808932, 0x993166a178ddade4, 0x51c7de16e4a0e2bb,  0xa89b70521c0b028,  0x9b3f7f5af8b2f82, 0x6985efce9aa164a7,
  0x692607c787097f9c, 0x6afaf7e9f5ee3211, 0xfa34657c280407b4, 0xa160382b0e3e03ec, 0xe8902b92a6dd18c4,  0x7cd35c609f728a7, 0xdd7ac1ab0ce338f3, 0xa7a9e144792de8b4,
  0x435dc2030e1bd3bb, 0xba03839edae53f8c, 0x74918b9786b2ecf6,  0x183041d61d4e02d, 0xaa1dc5c7c7c5fb5b, 0x939564fc52bece9b, 0x3a3faae9201160d0, 0xc20d3f67a52cb7b6,
  0x77ad9b3c19bda0f9, 0x65696731011860b4,  0xae6b011d726f2fe, 0xba5217bd2b48005f, 0x8f8e100ae6ba4e9d, 0x51967f54690c822d, 0x261a8bf80c1d6890, 0x58cb529d19f0856f,
  0xc45e7d76ca927907, 0xc15c5589af3dbef0, 0xa8175814c7ff20f6, 0xaec21b2f3fddfc14,  0xaf247b61fd25583, 0x2d784f3af2691077, 0x58f3a2b1743759c6, 0x77115ac165a120a9]

/-- `nums[index]` (src/Word.cc 287, 292): entry of the 256-element array, on a 64-bit machine. -/
def randomNumber (index : Nat) : M (BitVec 64) :=
  if index < 256 then .ok (randomNumbers.getD index 0) else .error .ub

/-- The byte image of the letters on a little-endian machine (src/Word.cc 288). -/
def letterBytes (w : Word) : List Nat := w.flatMap fun l => [l.toNat % 256, l.toNat / 256]

/-- The loop of `Word::hash` (src/Word.cc 289-293) from byte position `i`. -/
def hashLoop (i : Nat) (result : BitVec 64) : List Nat → M (BitVec 64)
  | [] => .ok result
  | b :: r => do
    let index := (b + i % 256) % 256
    let n ← randomNumber index
    hashLoop (i + 1) (result ^^^ n) r

/-- `Word::hash` (src/Word.cc 285-295). -/
def Word.hash (w : Word) : M (BitVec 64) := hashLoop 0 0 (letterBytes w)

/-! ### The `Word` object: pointer and length -/

/-- A `Word` object (include/Word.hh 34-38): `text` is `none` for a null pointer, else the contents of the array it
points to, terminator included. -/
structure WordObj where
  text : Option (List Letter)
  len : Nat
deriving DecidableEq, Repr

/-- `Word::Word()` (src/Word.cc 44-45). -/
def WordObj.empty : WordObj := ⟨none, 0⟩

/-- The object built for letters `w`: an array with the terminator (src/Word.cc 89-95 of ColumbusHelpers.cc and
src/Word.cc 63-71). -/
def WordObj.ofValue (w : Word) : WordObj := ⟨some (w ++ [0#16]), w.length⟩

/-- Reading the letters `text[0..len-1]`, as every comparison, copy and conversion does. Simplification: all letters are
read, where the code may stop at the first difference. -/
def WordObj.value (o : WordObj) : M Word :=
  if o.len = 0 then .ok []
  else match o.text with
    | none => .error .ub
    | some arr => if o.len ≤ arr.length then .ok (arr.take o.len) else .error .ub

/-- `Word(const char*)` constructor (src/Word.cc 47-49). -/
def WordObj.new [Build] [Icu] (s : Bytes) : M WordObj := do
  let w ← Word.ofUtf8 s
  .ok (WordObj.ofValue w)

/-- `Word::operator=(const char*)` and `operator=(const std::string&)` (src/Word.cc 273-283, `convertString` 92-108): the
object after the call and the exception, if any. The old text is deleted first; `utf8ToInternal` stores the new length
through the reference `len` when it succeeds (src/ColumbusHelpers.cc 78), and `convertString` resets only `text` before
throwing (95-96, 102-103). -/
def WordObj.assignUtf8 [Build] [Icu] (_old : WordObj) (s : Bytes) : WordObj × Option Fault :=
  match utf8ToInternal s with
  | .error f => (⟨none, 0⟩, some f)
  | .ok text =>
    if hasWhitespace text then (⟨none, text.length⟩, some .invalidArgument)
    else match hasBrokenSurrogates text with
      | .error f => (⟨some (text ++ [0#16]), text.length⟩, some f)
      | .ok true => (⟨none, text.length⟩, some .invalidArgument)
      | .ok false => (⟨some (text ++ [0#16]), text.length⟩, none)

/-- `Word::duplicateFrom` / `operator=(const Word&)` between distinct objects (src/Word.cc 110-122, 136-139). The copy
reads `len+1` letters, so the source array must hold them. -/
def WordObj.assign (_old w : WordObj) : M WordObj :=
  if w.len = 0 then .ok ⟨none, 0⟩
  else match w.text with
    | none => .error .ub
    | some arr => if w.len + 1 ≤ arr.length then .ok ⟨some (arr.take (w.len + 1)), w.len⟩ else .error .ub

/-- `Word::operator=(Word&&)` between distinct objects (src/Word.cc 141-150): the target and the source after the
move. The move constructor (55-60) does the same. -/
def WordObj.moveAssign (_old w : WordObj) : WordObj × WordObj := (w, ⟨none, 0⟩)

/-- `Word::join` on objects (src/Word.cc 262-271). -/
def WordObj.join (a b : WordObj) : M WordObj := do
  let x ← a.value
  let y ← b.value
  .ok ⟨some (x ++ y ++ [0#16]), x.length + y.length⟩

/-- `Word::operator[]` on objects (src/Word.cc 124-134). -/
def WordObj.at (o : WordObj) (i : Nat) : M Letter :=
  if o.len ≤ i then .error .outOfRange
  else match o.text with
    | none => .error .ub
    | some arr => match arr[i]? with
      | none => .error .ub
      | some l => .ok l

/-! ### Splitting text -/

/-- `utf8Text[i]` passed as a `Letter`: `char` is signed on the modelled platform, so bytes from 0x80 on become
`0xFF80..0xFFFF` (src/ColumbusHelpers.cc 132, 149, 157). -/
def charToLetter (b : Nat) : Letter := if b < 0x80 then BitVec.ofNat 16 b else BitVec.ofNat 16 (0xFF00 + b % 256)

/-- The body of the `do … while` of `split` (src/ColumbusHelpers.cc 147-176) on the rest of the text, with the words
found so far. `fuel` bounds the number of rounds. -/
def splitLoop [Build] [Icu] (splitChars : List Letter) : Nat → Bytes → List Word → M (List Word)
  | 0, _, _ => .error .fuel
  | fuel + 1, rest, list =>
    -- 148-151: skip separators
    match rest.dropWhile (fun b => isInList (charToLetter b) splitChars) with
    | [] => .ok list                                                        -- 152-155
    | c :: tail => do
      -- 156-159: the token is the first byte and all following non-separators
      let word := c :: tail.takeWhile (fun b => !isInList (charToLetter b) splitChars)
      let rest' := tail.dropWhile (fun b => !isInList (charToLetter b) splitChars)
      let w ← Word.ofUtf8 word                                              -- 169-175
      if rest'.length = 0 then .ok (list ++ [w])                            -- 176
      else splitLoop splitChars fuel rest' (list ++ [w])

/-- `split` (src/ColumbusHelpers.cc 139-179). -/
def split [Build] [Icu] (utf8Text : Bytes) (splitChars : List Letter) : M (List Word) :=
  splitLoop splitChars (utf8Text.length + 1) utf8Text []

/-- `splitToWords` (src/ColumbusHelpers.cc 128-130). -/
def splitToWords [Build] [Icu] (utf8Text : Bytes) : M (List Word) := split utf8Text whitespaceLetters

end Columbus
