import Verif.Model.Word
import Verif.Model.Runtime
/-
Concrete instances of the parameters of the model, used by the examples beside the theorems. They also show that the
laws assumed of the parameters can hold together.
-/

namespace Columbus.Example

/-- Lower-casing of the ASCII letters. -/
def lower (l : Letter) : Letter := if 0x41 ≤ l.toNat ∧ l.toNat ≤ 0x5a then l + 0x20#16 else l

theorem lower_toNat (l : Letter) :
    (lower l).toNat = if 0x41 ≤ l.toNat ∧ l.toNat ≤ 0x5a then l.toNat + 0x20 else l.toNat := by
  unfold lower
  split
  · rw [BitVec.toNat_add]; simp; omega
  · rfl

@[reducible] def icu : Icu where
  lower := lower
  lower_idem l := by
    apply BitVec.eq_of_toNat_eq
    rw [lower_toNat (lower l), lower_toNat l]
    repeat' split
    all_goals omega
  lower_surrogate l h := by
    apply BitVec.eq_of_toNat_eq
    simp [isSurrogate, isHighSurrogate, isLowSurrogate] at h
    rw [lower_toNat]; split <;> omega
  lower_not_surrogate l h := by
    simp [isSurrogate, isHighSurrogate, isLowSurrogate, lower_toNat] at h ⊢
    split <;> omega
  lower_ascii l h := by
    apply BitVec.eq_of_toNat_eq
    rw [lower_toNat] at h ⊢
    split at h <;> split <;> omega
  lower_control l h := by
    apply BitVec.eq_of_toNat_eq
    rw [lower_toNat]; split <;> omega

/-- A build with assertions and one without. -/
@[reducible] def debug : Build := ⟨true⟩
@[reducible] def release : Build := ⟨false⟩

/-- One resolution of the unspecified behaviour. -/
@[reducible] def runtime : Runtime where
  iterIndexes := List.reverse
  iterIndexes_perm := List.reverse_perm
  iterDocs := id
  iterDocs_perm := fun l => List.Perm.refl l
  sortMatches l := l.mergeSort (fun a b => decide (a.error ≤ b.error))
  sortMatches_perm l := List.mergeSort_perm l _
  sortMatches_sorted l := by
    have := List.pairwise_mergeSort (le := fun a b : MatchData => decide (a.error ≤ b.error))
      (by intro a b c; simp; omega) (by intro a b; simp; omega) l
    simpa using this
  valueFirst := true

/-- Exact arithmetic. -/
@[reducible] def fp : Fp where
  rnd := id
  rnd_mono _ _ h := h
  rnd_idem _ := rfl
  rnd_exact _ _ _ _ := rfl

end Columbus.Example
