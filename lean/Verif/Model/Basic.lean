/-
Basic vocabulary of the model: abnormal outcomes, build configuration, scalar types.
-/

namespace Columbus

/-- The ways in which a modelled C++ call can fail to return normally.

* `outOfRange`, `invalidArgument`, `runtimeError` are the C++ exceptions thrown by the library;
* `assertion` is a failed `assert` (abort), only possible when the build keeps assertions;
* `ub` is undefined behaviour: an access outside a mapping or an array, a null dereference, a read of an
  uninitialised array cell or a signed integer overflow;
* `fuel` is the model's own marker for a loop that did not stop within the bound given to it
  (an infinite loop in C++); the theorems prove that it is never reached;
* `nonFinite` is the model's marker for a floating point division by zero, whose result is not
  a finite number. -/
inductive Fault where
  | outOfRange
  | invalidArgument
  | runtimeError
  | assertion
  | ub
  | fuel
  | nonFinite
deriving DecidableEq, Repr

/-- Result of a call that can fail. -/
abbrev M (α : Type) := Except Fault α

/-- Build configuration. `asserts = true` is a build without `NDEBUG` (CMake's default and `debug`, see
readme.txt 13-18); `false` is a `release`/`relwithdebinfo` build, where `assert` is a no-op. -/
class Build where
  asserts : Bool

/-- C `assert`. -/
def cassert [Build] (c : Bool) : M Unit :=
  if !Build.asserts || c then .ok () else .error .assertion

/-- `Letter` in the default configuration: `uint16_t`, a UTF-16 code unit
(CMakeLists.txt 67-74, include/ColumbusCore.hh.in 83, 202). For words, the `full_unicode` configuration is
modelled in `Model/Wide.lean`. -/
abbrev Letter := BitVec 16

/-- The contents of a `Word` object as a value: its letters without the terminator
(include/Word.hh 34-38). The object level, with pointer and length, is `WordObj` in `Model/Word.lean`. -/
abbrev Word := List Letter

/-- `WordID`, `uint32_t` (include/ColumbusCore.hh.in 217). Values stored in memory are reduced modulo `2^32`. -/
abbrev WordID := Nat

/-- `INVALID_WORDID`, `(WordID)-1` (include/ColumbusCore.hh.in 218). -/
def INVALID_WORDID : WordID := 0xFFFFFFFF

/-- `DocumentID`, `uintptr_t` (include/ColumbusCore.hh.in 220). Opaque keys with an order. -/
abbrev DocumentID := Nat

/-- `INVALID_DOCID`, `(DocumentID)-1` on a 64-bit machine (include/ColumbusCore.hh.in 221). -/
def INVALID_DOCID : DocumentID := 2^64 - 1

/-- UTF-8 text: a list of bytes. Values that are not below 256 are never well-formed. The terminating NUL of a C
string is not part of the list. -/
abbrev Bytes := List Nat

/-- `megari_internal::isHighSurrogate<LetterUTF16>` (include/ColumbusCore.hh.in 137-140). -/
def isHighSurrogate (l : Letter) : Bool := decide (0xd7ff < l.toNat) && decide (l.toNat < 0xdc00)

/-- `megari_internal::isLowSurrogate<LetterUTF16>` (include/ColumbusCore.hh.in 141-144). -/
def isLowSurrogate (l : Letter) : Bool := decide (0xdbff < l.toNat) && decide (l.toNat < 0xe000)

/-- `megari_internal::isSurrogate` (include/ColumbusCore.hh.in 122-126). -/
def isSurrogate (l : Letter) : Bool := isHighSurrogate l || isLowSurrogate l

end Columbus
