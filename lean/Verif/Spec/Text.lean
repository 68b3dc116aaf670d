import Verif.Model.Utf
/-
Specification of UTF-8 and UTF-16 text, independent of the codecs in the model.
-/

namespace Columbus.Spec

/-- `Utf8 s cps`: the bytes `s` are well-formed UTF-8 for the code points `cps`, after table 3-7 of the Unicode
standard. -/
inductive Utf8 : List Nat → List Nat → Prop where
  | nil : Utf8 [] []
  | one {b r cps} : b ≤ 0x7F → Utf8 r cps → Utf8 (b :: r) (b :: cps)
  | two {b0 b1 r cps} : 0xC2 ≤ b0 → b0 ≤ 0xDF → 0x80 ≤ b1 → b1 ≤ 0xBF → Utf8 r cps →
      Utf8 (b0 :: b1 :: r) (((b0 - 0xC0) * 64 + (b1 - 0x80)) :: cps)
  | three {b0 b1 b2 r cps} :
      (b0 = 0xE0 ∧ 0xA0 ≤ b1 ∧ b1 ≤ 0xBF ∨ 0xE1 ≤ b0 ∧ b0 ≤ 0xEC ∧ 0x80 ≤ b1 ∧ b1 ≤ 0xBF ∨
        b0 = 0xED ∧ 0x80 ≤ b1 ∧ b1 ≤ 0x9F ∨ 0xEE ≤ b0 ∧ b0 ≤ 0xEF ∧ 0x80 ≤ b1 ∧ b1 ≤ 0xBF) →
      0x80 ≤ b2 → b2 ≤ 0xBF → Utf8 r cps →
      Utf8 (b0 :: b1 :: b2 :: r) (((b0 - 0xE0) * 4096 + (b1 - 0x80) * 64 + (b2 - 0x80)) :: cps)
  | four {b0 b1 b2 b3 r cps} :
      (b0 = 0xF0 ∧ 0x90 ≤ b1 ∧ b1 ≤ 0xBF ∨ 0xF1 ≤ b0 ∧ b0 ≤ 0xF3 ∧ 0x80 ≤ b1 ∧ b1 ≤ 0xBF ∨
        b0 = 0xF4 ∧ 0x80 ≤ b1 ∧ b1 ≤ 0x8F) →
      0x80 ≤ b2 → b2 ≤ 0xBF → 0x80 ≤ b3 → b3 ≤ 0xBF → Utf8 r cps →
      Utf8 (b0 :: b1 :: b2 :: b3 :: r)
        (((b0 - 0xF0) * 262144 + (b1 - 0x80) * 4096 + (b2 - 0x80) * 64 + (b3 - 0x80)) :: cps)

/-- `Utf16 u cps`: the 16-bit units `u` are well-formed UTF-16 for the code points `cps`. -/
inductive Utf16 : List (BitVec 16) → List Nat → Prop where
  | nil : Utf16 [] []
  | bmp {u r cps} : (u.toNat < 0xD800 ∨ 0xE000 ≤ u.toNat) → Utf16 r cps → Utf16 (u :: r) (u.toNat :: cps)
  | pair {u v r cps} : 0xD800 ≤ u.toNat → u.toNat < 0xDC00 → 0xDC00 ≤ v.toNat → v.toNat < 0xE000 → Utf16 r cps →
      Utf16 (u :: v :: r) ((0x10000 + (u.toNat - 0xD800) * 0x400 + (v.toNat - 0xDC00)) :: cps)

/-- Space, tab, line feed, carriage return. -/
def IsBlank (b : Nat) : Prop := b = 0x20 ∨ b = 0x09 ∨ b = 0x0a ∨ b = 0x0d

instance : DecidablePred IsBlank := fun _ => inferInstanceAs (Decidable (_ ∨ _ ∨ _ ∨ _))

/-- Well-formed UTF-8 text. -/
def WellFormed (s : List Nat) : Prop := ∃ cps, Utf8 s cps

/-- Simple lower-casing of a code point: the library's table for the Basic Multilingual Plane, nothing else. -/
def lowerCp [Icu] (c : Nat) : Nat := if c < 0x10000 then (Icu.lower (BitVec.ofNat 16 c)).toNat else c

/-- The unit is a high surrogate. -/
def HighUnit (u : BitVec 16) : Prop := 0xD800 ≤ u.toNat ∧ u.toNat < 0xDC00

/-- UTF-16 read loosely: after a high surrogate any surrogate will do, and at the end nothing. -/
inductive Loose16 : List (BitVec 16) → Prop where
  | nil : Loose16 []
  | last {u} : HighUnit u → Loose16 [u]
  | plain {u r} : (u.toNat < 0xD800 ∨ 0xE000 ≤ u.toNat) → Loose16 r → Loose16 (u :: r)
  | pair {u v r} : HighUnit u → 0xD800 ≤ v.toNat → v.toNat < 0xE000 → Loose16 r → Loose16 (u :: v :: r)

/-- Every high surrogate is followed by a unit that is not a high surrogate. -/
def HighsGuarded (w : List (BitVec 16)) : Prop :=
  ∀ x u y, w = x ++ u :: y → (0xD800 ≤ u.toNat ∧ u.toNat < 0xDC00) →
    ∃ v z, y = v :: z ∧ ¬ (0xD800 ≤ v.toNat ∧ v.toNat < 0xDC00)

/-- `TokensBy S s ts`: `ts` are the maximal runs of bytes of `s` that are not in `S`, from left to right. -/
inductive TokensBy (S : Nat → Prop) : List Nat → List (List Nat) → Prop where
  | done {p} : (∀ b ∈ p, S b) → TokensBy S p []
  | tok {p t r ts} : (∀ b ∈ p, S b) → t ≠ [] → (∀ b ∈ t, ¬ S b) → (∀ b, r.head? = some b → S b) →
      TokensBy S r ts → TokensBy S (p ++ t ++ r) (t :: ts)

/-- `Tokens s ts`: `ts` are the maximal runs of non-blank bytes of `s`, from left to right. -/
abbrev Tokens : List Nat → List (List Nat) → Prop := TokensBy IsBlank

/-- The byte is an ASCII separator. -/
def SepBy (cs : List Letter) (b : Nat) : Prop := b < 0x80 ∧ ∃ c ∈ cs, c.toNat = b

instance (cs : List Letter) : DecidablePred (SepBy cs) := fun b =>
  inferInstanceAs (Decidable (b < 0x80 ∧ ∃ c ∈ cs, c.toNat = b))

/-- The byte as a (signed) `char` turned into a 16 bit letter is among the separators. -/
def SepByte (cs : List Letter) (b : Nat) : Prop := ∃ c ∈ cs, c.toNat = if b < 0x80 then b else 0xFF00 + b

end Columbus.Spec
