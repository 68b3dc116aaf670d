import Mathlib.Data.Rat.Floor
import Mathlib.Data.Int.Log
/-
IEEE 754 binary64: the doubles and rounding to nearest, ties to even. The exponent is not bounded above.
-/

namespace Columbus.Spec

/-- A finite double: a mantissa of 53 bits times a power of two from 2^-1074 on. -/
def IsDouble (x : ℚ) : Prop := ∃ n e : ℤ, |n| < 2^53 ∧ -1074 ≤ e ∧ x = n * (2 : ℚ)^e

/-- The nearest integer, the even one of two. -/
def roundEven (q : ℚ) : ℤ :=
  if q - ⌊q⌋ < 1/2 then ⌊q⌋
  else if 1/2 < q - ⌊q⌋ then ⌊q⌋ + 1
  else if 2 ∣ ⌊q⌋ then ⌊q⌋ else ⌊q⌋ + 1

/-- The exponent of the last bit of doubles of the size of `x`. -/
def lastBit (x : ℚ) : ℤ := max (Int.log 2 |x| - 52) (-1074)

/-- Rounding to the nearest double, ties to even. -/
def roundDouble (x : ℚ) : ℚ := roundEven (x / (2 : ℚ)^lastBit x) * (2 : ℚ)^lastBit x

end Columbus.Spec
