import Verif.Model.Word
/-
The `full_unicode` build of src/Word.cc and of the conversion helpers of src/ColumbusHelpers.cc: CMakeLists.txt 60-66 makes
`Letter_` a `uint32_t` and `INTERNAL_ENCODING` "UTF-32LE". The source is the same; what changes is `sizeof(Letter)`, the
encoding, and which overload of the surrogate tests is taken.
-/

namespace Columbus.Wide

/-- `Letter` with `LETTER_TYPE` `uint32_t` (CMakeLists.txt 66, include/ColumbusCore.hh.in 83, 202). -/
abbrev Letter := BitVec 32

/-- The letters of a `Word` without the terminator (include/Word.hh 34-38). -/
abbrev Word := List Letter

/-- `megari_internal::isHighSurrogate<LetterUCS4>` (include/ColumbusCore.hh.in 128-131). -/
def isHighSurrogate (_ : Letter) : Bool := false

/-- `megari_internal::isLowSurrogate<LetterUCS4>` (include/ColumbusCore.hh.in 132-135). -/
def isLowSurrogate (_ : Letter) : Bool := false

/-- `megari_internal::isSurrogate` (include/ColumbusCore.hh.in 122-126). -/
def isSurrogate (l : Letter) : Bool := isHighSurrogate l || isLowSurrogate l

/-- iconv's UTF-32LE encoder for one scalar value. -/
def encodeUtf32 (c : Nat) : Letter := BitVec.ofNat 32 c

/-- iconv's UTF-32LE decoder: `none` on a surrogate and on a value above 0x10FFFF. Assumed behaviour of iconv. -/
def decodeUtf32 : List Letter → Option (List Nat)
  | [] => some []
  | u :: r =>
    if 0x110000 ≤ u.toNat ∨ 0xD800 ≤ u.toNat ∧ u.toNat < 0xE000 then none
    else (decodeUtf32 r).map (u.toNat :: ·)

/-- `u_tolower` on a whole code point (`lowerLetter`, src/ColumbusHelpers.cc 42-44; nothing is cut off in this build). A
parameter of the model; the laws are the assumptions made about ICU. -/
class Icu where
  lower : Letter → Letter
  lower_idem : ∀ l, lower (lower l) = lower l
  lower_scalar : ∀ l, (l.toNat < 0xD800 ∨ 0xE000 ≤ l.toNat ∧ l.toNat < 0x110000) →
    ((lower l).toNat < 0xD800 ∨ 0xE000 ≤ (lower l).toNat ∧ (lower l).toNat < 0x110000)
  lower_ascii : ∀ l, (lower l).toNat < 0x41 → lower l = l
  lower_control : ∀ l, l.toNat < 0x41 → lower l = l

/-- `whitespaceLetters` with `numWhitespaceLetters = 4` (src/ColumbusHelpers.cc 39-40). -/
def whitespaceLetters : List Letter := [0x20#32, 0x09#32, 0x0a#32, 0x0d#32]

/-- `isInList` (src/ColumbusHelpers.cc 132-137). -/
def isInList (l : Letter) (chars : List Letter) : Bool :=
  match chars with
  | [] => false
  | c :: cs => if c = l then true else isInList l cs

/-- `isWhitespace` (src/ColumbusHelpers.cc 181-183). -/
def isWhitespace (l : Letter) : Bool := isInList l whitespaceLetters

/-- `utf8ToInternal` (src/ColumbusHelpers.cc 46-95) with letters of four bytes: the letters written, lower-cased, without
the terminator. Sizes are checked as in `Columbus.utf8ToInternal`, with the same simplifications. -/
def utf8ToInternal [Icu] (s : Bytes) : M (List Letter) :=
  let inputLen := s.length
  match decodeUtf8 s with
  | none => .error .runtimeError
  | some cps =>
    let units := cps.map encodeUtf32
    let outBytesOriginal := 4 * (inputLen + 1)
    let bytesWritten := 4 * units.length
    if outBytesOriginal < bytesWritten then .error .runtimeError
    else
      let resultStringSize := bytesWritten / 4
      let newArraySize := bytesWritten + 4
      if bytesWritten < inputLen ∧ outBytesOriginal < newArraySize then .error .ub
      else
        let allocated := if bytesWritten < inputLen then newArraySize / 4 else inputLen + 1
        if resultStringSize < allocated then .ok ((units.take resultStringSize).map Icu.lower) else .error .ub

/-- `internalToUtf8` (src/ColumbusHelpers.cc 97-119): the bytes written before the terminator. -/
def internalToUtf8 (w : List Letter) (bufsize : Nat) : M Bytes :=
  match decodeUtf32 w with
  | none => .error .runtimeError
  | some cps =>
    let out := cps.flatMap encodeUtf8
    if bufsize < out.length then .error .runtimeError
    else if out.length < bufsize then .ok out
    else .error .ub

/-- `Word::hasWhitespace` (src/Word.cc 155-162). -/
def hasWhitespace : List Letter → Bool
  | [] => false
  | cur :: r => if isWhitespace cur then true else hasWhitespace r

/-- The loop of `Word::hasBrokenSurrogates` (src/Word.cc 171-199) with its two state variables. -/
def brokenLoop [Build] (expectSurrogate expectHigh : Bool) : List Letter → M Bool
  | [] => .ok false
  | cur :: r =>
    if expectSurrogate && !isSurrogate cur then .ok true
    else if isSurrogate cur then
      if expectHigh && !isHighSurrogate cur then .ok true
      else do
        cassert (expectHigh || (!expectHigh && isLowSurrogate cur))
        if expectHigh then brokenLoop true false r else brokenLoop false true r
    else brokenLoop expectSurrogate expectHigh r

/-- `Word::hasBrokenSurrogates` (src/Word.cc 168-200). -/
def hasBrokenSurrogates [Build] (w : List Letter) : M Bool := brokenLoop false true w

/-- The `Word(const char*)` and `Word(const std::string&)` constructors (src/Word.cc 47-49, 84-86, `convertString`
92-108). -/
def Word.ofUtf8 [Build] [Icu] (s : Bytes) : M Word := do
  let text ← utf8ToInternal s
  if hasWhitespace text then .error .invalidArgument
  else
    let broken ← hasBrokenSurrogates text
    if broken then .error .invalidArgument else .ok text

/-- The `Word(Letter*, size_t)` constructor (src/Word.cc 62-82). -/
def Word.ofLetters [Build] (letters : List Letter) : M Word :=
  match letters.getLast? with
  | none => .error .ub
  | some last =>
    let text := if last = 0#32 then letters.dropLast else letters
    if hasWhitespace text then .error .invalidArgument
    else do
      let broken ← hasBrokenSurrogates text
      if broken then .error .invalidArgument else .ok text

/-- `Word::toUtf8` (src/Word.cc 249-251). -/
def Word.toUtf8 (w : Word) (bufSize : Nat) : M Bytes := internalToUtf8 w bufSize

/-- `Word::asUtf8` (src/Word.cc 253-260). -/
def Word.asUtf8 (w : Word) : M Bytes := do
  let u8 ← Word.toUtf8 w (4 * (w.length + 1))
  .ok (u8.takeWhile (· != 0))

/-- `Word::operator==(const Word&)` (src/Word.cc 202-211). -/
def Word.beq (a b : Word) : Bool :=
  if a.length ≠ b.length then false
  else match a, b with
    | x :: a', y :: b' => if x ≠ y then false else Word.beq a' b'
    | _, _ => true

/-- `Word::operator<` (src/Word.cc 234-247). -/
def Word.lt : Word → Word → Bool
  | [], b => decide (0 < b.length)
  | _ :: _, [] => false
  | x :: a, y :: b =>
    if x.toNat < y.toNat then true
    else if y.toNat < x.toNat then false
    else Word.lt a b

/-- `utf8Text[i]` passed as a `Letter`: `char` is signed, so bytes from 0x80 on become `0xFFFFFF80..0xFFFFFFFF`
(src/ColumbusHelpers.cc 132, 149, 157). -/
def charToLetter (b : Nat) : Letter :=
  if b < 0x80 then BitVec.ofNat 32 b else BitVec.ofNat 32 (0xFFFFFF00 + b % 256)

/-- The body of the `do … while` of `split` (src/ColumbusHelpers.cc 147-176), as in `Columbus.splitLoop`. -/
def splitLoop [Build] [Icu] (splitChars : List Letter) : Nat → Bytes → List Word → M (List Word)
  | 0, _, _ => .error .fuel
  | fuel + 1, rest, list =>
    match rest.dropWhile (fun b => isInList (charToLetter b) splitChars) with
    | [] => .ok list
    | c :: tail => do
      let word := c :: tail.takeWhile (fun b => !isInList (charToLetter b) splitChars)
      let rest' := tail.dropWhile (fun b => !isInList (charToLetter b) splitChars)
      let w ← Word.ofUtf8 word
      if rest'.length = 0 then .ok (list ++ [w])
      else splitLoop splitChars fuel rest' (list ++ [w])

/-- `split` (src/ColumbusHelpers.cc 139-179). -/
def split [Build] [Icu] (utf8Text : Bytes) (splitChars : List Letter) : M (List Word) :=
  splitLoop splitChars (utf8Text.length + 1) utf8Text []

/-- `splitToWords` (src/ColumbusHelpers.cc 128-130). -/
def splitToWords [Build] [Icu] (utf8Text : Bytes) : M (List Word) := split utf8Text whitespaceLetters

/-- The byte image of the letters on a little-endian machine (src/Word.cc 288). -/
def letterBytes (w : Word) : List Nat := w.flatMap fun l =>
  [l.toNat % 256, l.toNat / 256 % 256, l.toNat / 65536 % 256, l.toNat / 16777216]

/-- `Word::hash` (src/Word.cc 285-295): the loop over bytes is that of the default build. -/
def Word.hash (w : Word) : M (BitVec 64) := hashLoop 0 0 (letterBytes w)

end Columbus.Wide
