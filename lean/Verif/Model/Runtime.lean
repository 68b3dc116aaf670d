import Verif.Model.Basic
import Mathlib.Data.Rat.Defs
import Mathlib.Algebra.Order.Ring.Rat
import Mathlib.Data.List.Perm.Basic
/-
Behaviour the C++ standard leaves open, and floating point arithmetic.
-/

namespace Columbus

/-- One entry of `IndexMatches`: matched word and error (src/IndexMatches.cc 31-39). `queryWord` is never filled in
(53-58), so it stays the empty word and is left out. -/
structure MatchData where
  matchedWord : WordID
  error : Int
deriving DecidableEq, Repr

/-- The unspecified choices of the standard library and the compiler. The theorems hold for every instance. -/
class Runtime where
  /-- iteration order of the `unordered_map` of field indexes -/
  iterIndexes : List WordID → List WordID
  iterIndexes_perm : ∀ l, (iterIndexes l).Perm l
  /-- iteration order of an `unordered_set` of documents -/
  iterDocs : List DocumentID → List DocumentID
  iterDocs_perm : ∀ l, (iterDocs l).Perm l
  /-- `std::sort` of matches by error: equal errors come in any order -/
  sortMatches : List MatchData → List MatchData
  sortMatches_perm : ∀ l, (sortMatches l).Perm l
  sortMatches_sorted : ∀ l, (sortMatches l).Pairwise (fun a b => a.error ≤ b.error)
  /-- evaluation order of the two arguments in src/Matcher.cc 240-241: is the word's ID asked for first? -/
  valueFirst : Bool

/-- IEEE double arithmetic. A double is a rational number; an operation computes the exact result and rounds it with
`rnd`. The laws hold for round-to-nearest (and every other IEEE rounding mode) as long as nothing overflows to an
infinity. Not modelled: infinities, NaN, signed zeros. -/
class Fp where
  rnd : ℚ → ℚ
  rnd_mono : ∀ x y, x ≤ y → rnd x ≤ rnd y
  rnd_idem : ∀ x, rnd (rnd x) = rnd x
  rnd_exact : ∀ (n : ℤ) (k : ℕ), |n| ≤ 2^53 → k ≤ 1074 → rnd (n / 2^k) = n / 2^k

/-- Double addition. -/
def fadd [Fp] (a b : ℚ) : ℚ := Fp.rnd (a + b)
/-- Double subtraction. -/
def fsub [Fp] (a b : ℚ) : ℚ := Fp.rnd (a - b)
/-- Double multiplication. -/
def fmul [Fp] (a b : ℚ) : ℚ := Fp.rnd (a * b)
/-- Double division; dividing by zero gives an infinity or NaN. -/
def fdiv [Fp] (a b : ℚ) : M ℚ := if b = 0 then .error .nonFinite else .ok (Fp.rnd (a / b))
/-- Conversion of an integer to double. -/
def ofInt [Fp] (n : Int) : ℚ := Fp.rnd n

end Columbus
