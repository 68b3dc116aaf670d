import Verif.Proofs.Accuracy
/-
What a word is worth when other words of its field are counted, for C115.
-/

namespace Columbus
open Spec

section
variable [Fp]

/-- A word that is not indexed again is worth no less when others are. -/
theorem contribution_grows {W : IndexWeights} {H H' : MatcherHistory} {f w : Word} {v : Int} (hv : 0 ≤ v)
    (hw : 0 ≤ IndexWeights.getWeight W f) (hc : H'.count f w = H.count f w) (hm : H.maxCount f ≤ H'.maxCount f) :
    contribution W H f w v ≤ contribution W H' f w v := by
  have d1 : (100 : ℚ) ≤ fadd 100 (ofInt v) := denominator hv
  have a0 : 0 ≤ Fp.rnd (100 / fadd 100 (ofInt v)) := rnd_nonneg (by apply div_nonneg <;> linarith)
  have d2 : (1 : ℚ) ≤ ofInt ((H.maxCount f : Int) + 1) := ofInt_one_le (by omega)
  have d3 : ofInt ((H.maxCount f : Int) + 1) ≤ ofInt ((H'.maxCount f : Int) + 1) := by
    apply Fp.rnd_mono
    exact_mod_cast (by omega : (H.maxCount f : Int) + 1 ≤ (H'.maxCount f : Int) + 1)
  have n2 : 0 ≤ ofInt (H.count f w : Int) := ofInt_nonneg (by omega)
  have b : Fp.rnd (ofInt (H.count f w : Int) / ofInt ((H'.maxCount f : Int) + 1)) ≤
      Fp.rnd (ofInt (H.count f w : Int) / ofInt ((H.maxCount f : Int) + 1)) :=
    Fp.rnd_mono _ _ (div_le_div_of_nonneg_left n2 (by linarith) d3)
  unfold contribution
  rw [hc]
  refine Fp.rnd_mono _ _ (mul_le_mul_of_nonneg_right (Fp.rnd_mono _ _ (mul_le_mul_of_nonneg_left (Fp.rnd_mono _ _ ?_) a0)) hw)
  linarith

end

theorem MatcherHistory.maxCount_append (H T : MatcherHistory) (f : Word) :
    MatcherHistory.maxCount H f ≤ MatcherHistory.maxCount (H ++ T) f := by
  rcases MatcherHistory.max_attained H f with h | ⟨w, _, h⟩
  · rw [h]; exact Nat.zero_le _
  · rw [← h]
    refine le_trans ?_ (MatcherHistory.count_le_max (H ++ T) f w)
    unfold Spec.MatcherHistory.count
    rw [MatcherHistory.occurrences_append, List.count_append]
    exact Nat.le_add_right _ _

end Columbus
