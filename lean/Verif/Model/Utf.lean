import Verif.Model.Basic
/-
The character conversions the library delegates to iconv and ICU.
-/

namespace Columbus

/-- A UTF-8 continuation byte. -/
def isCont (b : Nat) : Bool := decide (0x80 ≤ b) && decide (b < 0xC0)

/-- iconv's strict UTF-8 decoder: Unicode scalar values, or `none` for an ill-formed or truncated sequence
(`iconv` returns `(size_t)-1`; src/ColumbusHelpers.cc 69-76). Assumed behaviour of iconv, part of the trusted base. -/
def decodeUtf8 : Bytes → Option (List Nat)
  | [] => some []
  | b0 :: r0 =>
    if b0 < 0x80 then (decodeUtf8 r0).map (b0 :: ·)
    else if b0 < 0xC2 then none
    else if b0 < 0xE0 then
      match r0 with
      | b1 :: r1 =>
        if isCont b1 then (decodeUtf8 r1).map (((b0 - 0xC0) * 64 + (b1 - 0x80)) :: ·) else none
      | [] => none
    else if b0 < 0xF0 then
      match r0 with
      | b1 :: b2 :: r2 =>
        let c := (b0 - 0xE0) * 4096 + (b1 - 0x80) * 64 + (b2 - 0x80)
        if isCont b1 && isCont b2 && decide (0x800 ≤ c) && !(decide (0xD800 ≤ c) && decide (c < 0xE000)) then
          (decodeUtf8 r2).map (c :: ·) else none
      | _ => none
    else if b0 < 0xF5 then
      match r0 with
      | b1 :: b2 :: b3 :: r3 =>
        let c := (b0 - 0xF0) * 262144 + (b1 - 0x80) * 4096 + (b2 - 0x80) * 64 + (b3 - 0x80)
        if isCont b1 && isCont b2 && isCont b3 && decide (0x10000 ≤ c) && decide (c < 0x110000) then
          (decodeUtf8 r3).map (c :: ·) else none
      | _ => none
    else none

/-- iconv's UTF-16LE encoder for one scalar value. -/
def encodeUtf16 (c : Nat) : List Letter :=
  if c < 0x10000 then [BitVec.ofNat 16 c]
  else [BitVec.ofNat 16 (0xD800 + (c - 0x10000) / 0x400), BitVec.ofNat 16 (0xDC00 + (c - 0x10000) % 0x400)]

/-- iconv's UTF-16LE decoder: `none` on a lone or misordered surrogate. -/
def decodeUtf16 : List Letter → Option (List Nat)
  | [] => some []
  | u :: r =>
    if isHighSurrogate u then
      match r with
      | v :: r' =>
        if isLowSurrogate v then
          (decodeUtf16 r').map ((0x10000 + (u.toNat - 0xD800) * 0x400 + (v.toNat - 0xDC00)) :: ·)
        else none
      | [] => none
    else if isLowSurrogate u then none
    else (decodeUtf16 r).map (u.toNat :: ·)

/-- iconv's UTF-8 encoder for one scalar value. -/
def encodeUtf8 (c : Nat) : Bytes :=
  if c < 0x80 then [c]
  else if c < 0x800 then [0xC0 + c / 64, 0x80 + c % 64]
  else if c < 0x10000 then [0xE0 + c / 4096, 0x80 + c / 64 % 64, 0x80 + c % 64]
  else [0xF0 + c / 262144, 0x80 + c / 4096 % 64, 0x80 + c / 64 % 64, 0x80 + c % 64]

/-- ICU's simple lower-casing as the library uses it: `u_tolower` applied to one 16-bit unit and truncated to 16 bits
(`lowerLetter`, src/ColumbusHelpers.cc 42-44). ICU is external: the function is a parameter of the model and the laws
below are the assumptions made about it. -/
class Icu where
  lower : Letter → Letter
  lower_idem : ∀ l, lower (lower l) = lower l
  lower_surrogate : ∀ l, isSurrogate l = true → lower l = l
  lower_not_surrogate : ∀ l, isSurrogate l = false → isSurrogate (lower l) = false
  lower_ascii : ∀ l, (lower l).toNat < 0x41 → lower l = l
  lower_control : ∀ l, l.toNat < 0x41 → lower l = l

end Columbus
