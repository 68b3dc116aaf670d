import Verif.Proofs.Accuracy
/-
The closest word of a query, for C113.
-/

namespace Columbus
open Spec

/-- Among query words close to a word there is a closest one. -/
theorem close_exists {e : ErrorValues} {p : SearchParameters} {q : WordList} {w x : Word} {v : Int} (hx : x ∈ q)
    (hn : ∀ q' ∈ q, (configured e q'.length).NonNeg) (hc : IsEditCost (configured e x.length) x w v) (hl : v ≤ limit p x) :
    ∃ v', CloseTo e p q w v' := by
  classical
  have ex : ∃ n : Nat, ∃ y ∈ q, IsEditCost (configured e y.length) y w (n : Int) ∧ (n : Int) ≤ limit p y := by
    have h0 : 0 ≤ v := script_nonneg (hn x hx) hc.1
    exact ⟨v.toNat, x, hx, by rw [Int.toNat_of_nonneg h0]; exact ⟨hc, hl⟩⟩
  obtain ⟨y, hy, c1, c2⟩ := Nat.find_spec ex
  refine ⟨(Nat.find ex : Int), ⟨y, hy, c1, c2⟩, fun z hz v' d1 d2 => ?_⟩
  have h0 : 0 ≤ v' := script_nonneg (hn z hz) d1.1
  have := Nat.find_min' ex ⟨z, hz, by rw [Int.toNat_of_nonneg h0]; exact ⟨d1, d2⟩⟩
  omega

end Columbus
