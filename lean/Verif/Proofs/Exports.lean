import Verif.Spec.Exports

namespace Columbus.Exports

open Spec

theorem globMatch_iff (p s : Bytes) : globMatch p s = true ↔ Glob p s := by
  induction p generalizing s with
  | nil =>
    simp only [globMatch, List.isEmpty_iff]
    exact ⟨fun h => h ▸ .nil, fun h => by cases h; rfl⟩
  | cons c p ih =>
    unfold globMatch
    by_cases hc : c = 42
    · rw [if_pos hc]
      subst hc
      simp only [List.any_eq_true, List.mem_tails, ih]
      constructor
      · rintro ⟨r, ⟨t, rfl⟩, h⟩
        exact .star t h
      · intro h
        cases h with
        | star t h => exact ⟨_, ⟨t, rfl⟩, h⟩
        | char h _ => exact absurd rfl h
    · rw [if_neg hc]
      cases s with
      | nil =>
        simp only [Bool.false_eq_true, false_iff]
        intro h
        generalize hs : ([] : Bytes) = s' at h
        cases h with
        | star t h => exact hc rfl
        | char _ h => cases hs
      | cons b r =>
        simp only [Bool.and_eq_true, beq_iff_eq, ih]
        constructor
        · rintro ⟨rfl, h⟩
          exact .char hc h
        · intro h
          generalize hs : b :: r = s' at h
          cases h with
          | star t h => exact absurd rfl hc
          | char _ h =>
            injection hs with h1 h2
            exact ⟨h1, h2 ▸ h⟩

theorem isFor_iff (e : Entry) (s : Bytes) : e.isFor s = true ↔ IsAbout e s := by
  cases e with
  | quoted n => simp only [Entry.isFor, IsAbout, beq_iff_eq]; exact eq_comm
  | pattern p => exact globMatch_iff p s

theorem exportsCpp_iff (s : Bytes) : exportsCpp s = true ↔ Global s := by
  simp only [exportsCpp, List.any_eq_true, isFor_iff, Global]

/-- A pattern that ends in `*` is for every text that begins like it. -/
theorem glob_prefix {p : Bytes} (hp : 42 ∉ p) (s : Bytes) : Glob (p ++ [42]) (p ++ s) := by
  induction p with
  | nil =>
    have := Glob.star s Glob.nil
    simpa using this
  | cons c p ih =>
    rw [List.mem_cons, not_or] at hp
    exact .char (fun h => hp.1 h.symm) (ih hp.2)

end Columbus.Exports
