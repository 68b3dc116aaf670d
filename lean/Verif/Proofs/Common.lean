import Verif.Proofs.Unrelated
/-
What a word is worth when it is indexed again, for C119.
-/

namespace Columbus
open Spec

section
variable [Fp]

/-- A count that fits a double is converted exactly. -/
theorem ofInt_nat {n : ℕ} (h : n ≤ 2^53) : ofInt (n : Int) = (n : ℚ) := by
  have : |(n : ℤ)| ≤ 2^53 := by rw [abs_of_nonneg (Int.natCast_nonneg n)]; exact_mod_cast h
  exact (rnd_int _ this).trans (by norm_cast)

/-- A word whose share of the most frequent word of its field does not fall is worth no more. -/
theorem contribution_falls {W : IndexWeights} {H H' : MatcherHistory} {f w : Word} {v : Int} (hv : 0 ≤ v)
    (hw : 0 ≤ IndexWeights.getWeight W f) (hb : H.maxCount f < 2^53) (hb' : H'.maxCount f < 2^53)
    (hc : H.count f w * (H'.maxCount f + 1) ≤ H'.count f w * (H.maxCount f + 1)) :
    contribution W H' f w v ≤ contribution W H f w v := by
  have d1 : (100 : ℚ) ≤ fadd 100 (ofInt v) := denominator hv
  have a0 : 0 ≤ Fp.rnd (100 / fadd 100 (ofInt v)) := rnd_nonneg (by apply div_nonneg <;> linarith)
  have l := MatcherHistory.count_le_max H f w
  have l' := MatcherHistory.count_le_max H' f w
  have q1 := ofInt_nat (n := H.count f w) (by omega)
  have q2 := ofInt_nat (n := H'.count f w) (by omega)
  have q3 : ofInt ((H.maxCount f : Int) + 1) = ((H.maxCount f + 1 : ℕ) : ℚ) := ofInt_nat (n := H.maxCount f + 1) (by omega)
  have q4 : ofInt ((H'.maxCount f : Int) + 1) = ((H'.maxCount f + 1 : ℕ) : ℚ) := ofInt_nat (n := H'.maxCount f + 1) (by omega)
  have b : Fp.rnd (ofInt (H.count f w : Int) / ofInt ((H.maxCount f : Int) + 1)) ≤
      Fp.rnd (ofInt (H'.count f w : Int) / ofInt ((H'.maxCount f : Int) + 1)) := by
    apply Fp.rnd_mono
    rw [q1, q2, q3, q4, div_le_div_iff₀ (by exact_mod_cast Nat.succ_pos _) (by exact_mod_cast Nat.succ_pos _)]
    exact_mod_cast hc
  unfold contribution
  refine Fp.rnd_mono _ _ (mul_le_mul_of_nonneg_right (Fp.rnd_mono _ _ (mul_le_mul_of_nonneg_left (Fp.rnd_mono _ _ ?_) a0)) hw)
  linarith

end

theorem MatcherHistory.count_append (H T : MatcherHistory) (f w : Word) :
    MatcherHistory.count (H ++ T) f w = MatcherHistory.count H f w + MatcherHistory.count T f w := by
  unfold Spec.MatcherHistory.count
  rw [MatcherHistory.occurrences_append, List.count_append]

/-- Texts made of one word raise its share of the most frequent word, whatever the field. -/
theorem MatcherHistory.share {H T : MatcherHistory} {w : Word} (hT : ∀ x ∈ T, ∀ u ∈ x.words, u = w) (f : Word) :
    MatcherHistory.count H f w * (MatcherHistory.maxCount (H ++ T) f + 1) ≤
      MatcherHistory.count (H ++ T) f w * (MatcherHistory.maxCount H f + 1) := by
  have le := MatcherHistory.count_le_max H f w
  have hc := MatcherHistory.count_append H T f w
  have key : MatcherHistory.maxCount (H ++ T) f ≤ MatcherHistory.maxCount H f ∨
      MatcherHistory.maxCount (H ++ T) f = MatcherHistory.count (H ++ T) f w := by
    rcases MatcherHistory.max_attained (H ++ T) f with h | ⟨u, _, h⟩
    · left; rw [h]; exact Nat.zero_le _
    · by_cases hu : u = w
      · right; rw [← h, hu]
      · left
        have h0 : MatcherHistory.count T f u = 0 := by
          refine List.count_eq_zero_of_not_mem fun hin => ?_
          obtain ⟨x, hx, hux⟩ := List.mem_flatMap.1 hin
          exact hu (hT x (List.mem_filter.1 hx).1 u hux)
        have := MatcherHistory.count_append H T f u
        have := MatcherHistory.count_le_max H f u
        omega
  rcases key with h | h
  · exact Nat.mul_le_mul (by omega) (by omega)
  · rw [h]
    generalize MatcherHistory.count (H ++ T) f w = c' at *
    generalize MatcherHistory.maxCount H f = M at *
    generalize MatcherHistory.count H f w = c at *
    have : c * c' ≤ M * c' := Nat.mul_le_mul_right _ le
    nlinarith

end Columbus
