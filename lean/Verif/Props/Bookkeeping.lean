import Verif.Props.MatcherExample
/-
C64: the statistics that a matcher keeps about its words.
-/

namespace Columbus.Props
open Columbus Spec

section
variable [Build] [Icu] [Runtime] [Fp] {os : Nat → Bool} {m : Matcher} {H : MatcherHistory} {K : List Word}

/-- C64. After any use of a matcher the total count kept for a word is the number of its occurrences in the texts indexed
so far, over all fields and documents; searches, settings and filters leave it alone. -/
theorem C64_counts (h : Ran os m H K) (i : WordID) (w : Word) (hi : m.store.getWord i = .ok w) :
    m.stats.getTotalWordCount i = H.words.count w := by
  obtain ⟨names, hm, _⟩ := Columbus.Ran.inv h
  rw [hm.stats, hm.store.getWord_iff.1 hi]
  rfl

/-- C64. Identifiers that were never given out are counted zero times. -/
theorem C64_unknown (h : Ran os m H K) (i : WordID) (hi : ∀ w, m.store.getWord i ≠ .ok w) :
    m.stats.getTotalWordCount i = 0 := by
  obtain ⟨names, hm, _⟩ := Columbus.Ran.inv h
  rw [hm.stats]
  cases hn : names[i]? with
  | none => rfl
  | some w => exact absurd (hm.store.getWord_iff.2 hn) (hi w)

/-- C64. Every word indexed has an identifier, so the counts cover all of them. -/
theorem C64_all (h : Ran os m H K) (w : Word) (hw : w ∈ H.words) :
    ∃ i, m.store.getWord i = .ok w ∧ m.stats.getTotalWordCount i = H.words.count w ∧ 0 < H.words.count w := by
  obtain ⟨names, hm, _⟩ := Columbus.Ran.inv h
  have hk : w ∈ names := hm.known w (by
    obtain ⟨x, hx, hv⟩ := List.mem_flatMap.1 hw
    exact MatcherHistory.mem_mentions.2 ⟨x, hx, Or.inr hv⟩)
  have hi := hm.store.getWord_iff.2 (getElem?_idxOf hk)
  exact ⟨_, hi, C64_counts h _ _ hi, List.count_pos_iff.2 hw⟩

/-- In the example "save" occurs twice: the count over all fields. -/
example : ∃ m, Ran Example.os m Example.texts [] ∧ ∃ i, m.store.getWord i = .ok Example.save ∧ m.stats.getTotalWordCount i = 2 := by
  obtain ⟨m, h, _⟩ := Example.ran
  obtain ⟨i, h1, h2, _⟩ := C64_all h Example.save (by decide)
  exact ⟨m, h, i, h1, by rw [h2]; decide⟩

end

end Columbus.Props
