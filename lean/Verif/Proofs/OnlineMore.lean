import Verif.Proofs.MatcherMore
import Verif.Proofs.MatcherOnline
/-
Helpers for C121: scores of `onlineMatch` that do not fall.
-/

namespace Columbus
open Spec

section
variable [Fp] {H : MatcherHistory} {q q' : WordList} {f : Word} {d : DocumentID}

theorem exactPart_rnd (H : MatcherHistory) (q : WordList) (f : Word) (d : DocumentID) :
    Fp.rnd (exactPart H q f d) = exactPart H q f d := by
  unfold exactPart
  split
  · exact rnd_zero
  · split
    · exact Fp.rnd_idem _
    · exact Fp.rnd_idem _

/-- At least twice the number of exact words. -/
theorem exactPart_ge (H : MatcherHistory) (q : WordList) (f : Word) (d : DocumentID) :
    ofInt (2 * (exacts H q f d : Int)) ≤ exactPart H q f d := by
  unfold exactPart
  split
  · rename_i h0
    rw [h0]
    simp [ofInt, rnd_zero]
  · split
    · have h := Fp.rnd_mono (ofInt (2 * (exacts H q f d : Int))) (ofInt (2 * (exacts H q f d : Int)) + 100) (by linarith)
      rwa [show Fp.rnd (ofInt (2 * (exacts H q f d : Int))) = ofInt (2 * (exacts H q f d : Int)) from Fp.rnd_idem _] at h
    · exact le_refl _

omit [Fp] in
theorem exacts_subperm (h : q.Subperm q') : exacts H q f d ≤ exacts H q' f d := by
  unfold exacts
  exact h.countP_le _

/-- Scores do not fall if neither of the two parts does. -/
theorem IsScores.grow {k k' : List Result} {acc acc' : SMap DocumentID ℚ} (h : IsScores H q f k acc) (h' : IsScores H q' f k' acc')
    (hm : ∀ rel, (rel, d) ∈ k → ∃ rel', (rel', d) ∈ k' ∧ rel ≤ rel') (h0 : ∀ rel, (rel, d) ∈ k' → 0 ≤ rel)
    (hx : exacts H q f d ≤ exacts H q' f d) (hp : exactPart H q f d ≤ exactPart H q' f d) {s : ℚ} (hs : (d, s) ∈ acc) :
    ∃ s', (d, s') ∈ acc' ∧ s ≤ s' := by
  have hfd := (SMap.find_some_iff strict_ltNat h.sorted d s).2 hs
  by_cases hd : d ∈ k.map (·.2)
  · obtain ⟨⟨rel, d'⟩, hr, rfl⟩ := List.mem_map.1 hd
    rw [h.matched _ _ hr] at hfd
    injection hfd with hfd
    obtain ⟨rel', hr', hle⟩ := hm rel hr
    refine ⟨_, (SMap.find_some_iff strict_ltNat h'.sorted _ _).1 (h'.matched _ _ hr'), ?_⟩
    rw [← hfd]
    exact fadd_mono hp hle
  · rw [h.other d hd] at hfd
    split at hfd
    · cases hfd
    · rename_i hne
      injection hfd with hfd
      subst hfd
      by_cases hd' : d ∈ k'.map (·.2)
      · obtain ⟨⟨rel, d'⟩, hr, rfl⟩ := List.mem_map.1 hd'
        refine ⟨_, (SMap.find_some_iff strict_ltNat h'.sorted _ _).1 (h'.matched _ _ hr), ?_⟩
        rw [← exactPart_rnd]
        exact Fp.rnd_mono _ _ (by have := h0 rel hr; linarith)
      · refine ⟨_, (SMap.find_some_iff strict_ltNat h'.sorted _ _).1 (by
          rw [h'.other d hd', if_neg (by omega)]), hp⟩

end
end Columbus
