import Verif.Proofs.MatcherLife
import Verif.Props.MatcherExample
/-
C94: what a matcher takes from the system, and what it gives back.
-/

namespace Columbus.Props
open Columbus Spec Life

section
variable [Build] [Icu] [Runtime] [Fp]

/-- C94. What a matcher holds, whatever was done with it: one private part, one open file and one mapping for the store, and the same
again for each field with at least one word. The mapping of a field has the least length, of 1024 and its doublings, above 4 bytes
and 32 for each distinct prefix of the words of the field. That of the store goes by the words and the names of fields, and those of
the words of filters that were looked up. -/
theorem C94_holds {os : Nat → Bool} {m : Matcher} {H : MatcherHistory} {K : List Word} (h : Ran os m H K) (sys : Res.System) :
    ∃ (names fields : List Word) (size : Word → Nat) (store : Nat),
      (∀ w ∈ H.mentions, w ∈ names) ∧ (∀ w ∈ names, w ∈ H.mentions ∨ w ∈ K) ∧
      fields.Nodup ∧ (∀ f, f ∈ fields ↔ H.occurrences f ≠ []) ∧
      Res.privates (holds sys m) = fields.length + 1 ∧ Res.files (holds sys m) = fields.length + 1 ∧
      Res.mappings (holds sys m) = fields.map size ++ [store] ∧
      (∀ f ∈ fields, Room (prefixCount (H.occurrences f)) (size f)) ∧ Room (prefixCount names) store := by
  obtain ⟨names, hi, _, hk⟩ := Ran.inv h
  obtain ⟨fields, size, h1, h2, h3, h4⟩ := fields_of hi
  obtain ⟨g, hs, _⟩ := hi.store.inv
  have hroom := room hs.trie (SInv.paths hs)
  have hpos : ∀ {n k}, Room n k → k ≠ 0 := by
    rintro n k ⟨j, rfl, hlt, _⟩ h0
    omega
  have hl : (tries m).length = fields.length + 1 := by
    have := congrArg List.length h3
    simp only [List.length_map] at this
    simp [tries, this]
  refine ⟨names, fields, size, m.store.words.mapped, hi.known, hk, h1, h2, ?_, ?_, ?_, h4, hroom⟩
  · rw [← hl, Res.privates, holds, List.countP_map]
    exact List.countP_eq_length.2 fun _ _ => rfl
  · rw [← hl, Res.files, holds, List.countP_map]
    exact List.countP_eq_length.2 fun _ _ => rfl
  · rw [mappings_holds, tries, List.map_append, List.map_map]
    · rw [← h3]; rfl
    · intro t ht
      rw [tries, List.mem_append, List.mem_singleton] at ht
      rcases ht with ht | rfl
      · have hm : t.mapped ∈ fields.map size := by
          rw [← h3]
          obtain ⟨p, hp, rfl⟩ := List.mem_map.1 ht
          exact List.mem_map_of_mem (f := fun p : WordID × LevIndex => p.2.trie.mapped) hp
        obtain ⟨f, hf, e⟩ := List.mem_map.1 hm
        rw [← e]
        exact hpos (h4 f hf)
      · exact hpos hroom

omit [Icu] [Runtime] [Fp] in
/-- C94, what is given back: the destructor frees every private part and closes every file, and leaves every mapping. -/
theorem C94_left (m : Matcher) (sys : Res.System) :
    ∃ p, destroy sys m = .ok p ∧ p.length = (holds sys m).length ∧ (∀ x ∈ p, x.1 = .ended) ∧ Res.privates p = 0 ∧ Res.files p = 0 ∧
      Res.mappings p = Res.mappings (holds sys m) := by
  refine ⟨_, destroy_eq sys m, by simp [holds], ?_, ?_, ?_, ?_⟩
  · intro x hx
    obtain ⟨t, _, rfl⟩ := List.mem_map.1 hx
    rfl
  · rw [Res.privates, List.countP_map, List.countP_eq_zero]
    intro t _ h
    cases h
  · rw [Res.files, List.countP_map, List.countP_eq_zero]
    intro t _ h
    cases h
  · rw [Res.mappings, Res.mappings, holds, List.filterMap_map, List.filterMap_map]
    rfl

/-- What the tries are said to hold is what the calls of Model/Resources.lean, which C86 is about, have led to: memory, mapping and
root agree, and so does the number of calls of `expand`. -/
theorem C94_agrees {os : Nat → Bool} {m : Matcher} {H : MatcherHistory} {K : List Word} (h : Ran os m H K) (sys : Res.System)
    (hs : Res.Like sys os) : ∀ t ∈ tries m, Res.Agree (held sys t) t := by
  obtain ⟨names, hi, hos, hk⟩ := Ran.inv h
  have key : ∀ (t : Trie) (g : Ghost), TInv t g → t.os = os → Res.Agree (held sys t) t := by
    intro t g ht ho
    obtain ⟨j, hj, hm⟩ := ht.hdr.size
    have h1 : 1 ≤ 2^j := Nat.one_le_two_pow
    refine ⟨rfl, ?_, rfl, by rw [ho]; exact hs, j, hm, ?_⟩
    · exact if_neg (by omega)
    · show (t.mapped / 1024).log2 + 1 = j + 1
      rw [hm, Nat.mul_div_cancel_left _ (by omega), Nat.log2_two_pow]
  intro t ht
  rw [tries, List.mem_append, List.mem_singleton] at ht
  rcases ht with ht | rfl
  · obtain ⟨p, hp, rfl⟩ := List.mem_map.1 ht
    obtain ⟨f, _, _, g, hl, _, ho⟩ := hi.ixs p.1 p.2 (find_of_mem hi.keys hp)
    exact key _ g hl.tinv (by rw [ho, hos])
  · obtain ⟨g, hg, _⟩ := hi.store.inv
    exact key _ g hg.trie (by rw [hi.store.os, hos])

/-- C94, in bytes: a matcher that saw no filter is destroyed. What stays mapped is a sum that the texts determine: `size f` for each
field with words, and that of the store. -/
theorem C94_leak {os : Nat → Bool} {m : Matcher} {H : MatcherHistory} (h : Ran os m H []) (sys : Res.System)
    (fields : List Word) (hn : fields.Nodup) (hf : ∀ f, f ∈ fields ↔ H.occurrences f ≠ []) (size : Word → Nat)
    (hs : ∀ f ∈ fields, Room (prefixCount (H.occurrences f)) (size f)) (store : Nat) (hst : Room (prefixCount H.mentions) store) :
    ∃ p, destroy sys m = .ok p ∧ (Res.mappings p).sum = (fields.map size).sum + store := by
  have huniq : ∀ {n a b}, Room n a → Room n b → a = b := by
    rintro n a b ⟨i, rfl, h1, h2⟩ ⟨j, rfl, h3, h4⟩
    rw [Nat.le_antisymm (h2 j h3) (h4 i h1)]
  obtain ⟨names, fields', size', store', a1, a2, a3, a4, _, _, a7, a8, a9⟩ := C94_holds h sys
  obtain ⟨p, e, _, _, _, _, hm⟩ := C94_left m sys
  refine ⟨p, e, ?_⟩
  have hcount : prefixCount names = prefixCount H.mentions := by
    unfold prefixCount
    apply List.Perm.length_eq
    rw [List.perm_ext_iff_of_nodup (List.nodup_dedup _) (List.nodup_dedup _)]
    intro r
    simp only [List.mem_dedup, List.mem_cons, List.mem_flatMap]
    constructor
    · rintro (h | ⟨w, hw, hr⟩)
      · exact Or.inl h
      · exact Or.inr ⟨w, (a2 w hw).resolve_right (by simp), hr⟩
    · rintro (h | ⟨w, hw, hr⟩)
      · exact Or.inl h
      · exact Or.inr ⟨w, a1 w hw, hr⟩
  have hperm : fields'.Perm fields := (List.perm_ext_iff_of_nodup a3 hn).2 fun f => (a4 f).trans (hf f).symm
  have hsize : fields.map size = fields.map size' := by
    apply List.map_congr_left
    intro f hm
    exact huniq (hs f hm) (a8 f (hperm.mem_iff.2 hm))
  rw [hm, a7, List.sum_append, hsize, (hperm.map size').sum_eq, huniq hst (hcount ▸ a9)]
  simp

end

/-! ### Examples -/

theorem room_of {n j : Nat} (h : 4 + 32 * n < 1024 * 2^j) (h' : j = 0 ∨ 1024 * 2^(j - 1) ≤ 4 + 32 * n) : Room n (1024 * 2^j) := by
  refine ⟨j, rfl, h, fun i hi => ?_⟩
  rcases h' with rfl | h'
  · omega
  · by_contra hlt
    have : 2^i ≤ 2^(j-1) := Nat.pow_le_pow_right (by omega) (by omega)
    omega

/-- A word of 40 letters in the field "title": 41 prefixes in the index, 46 in the store. -/
def longText : MatcherHistory := [⟨1, Example.title, 1, [List.replicate 40 0x61#16]⟩]

theorem longText_leaks [Build] [Icu] [Runtime] [Fp] {m : Matcher} (h : Ran Example.os m longText []) (sys : Res.System) :
    ∃ p, destroy sys m = .ok p ∧ (Res.mappings p).sum = 4096 := by
  have := C94_leak h sys [Example.title] (by simp)
    (by
      intro f
      by_cases hf : f = Example.title
      · subst hf; simp; decide
      · simp only [List.mem_singleton, hf, false_iff, not_not]
        have : (Example.title == f) = false := by simpa using fun e => hf e.symm
        simp [MatcherHistory.occurrences, longText, this])
    (fun _ => 2048)
    (by
      intro f hf
      rw [List.mem_singleton] at hf
      subst hf
      rw [show prefixCount (longText.occurrences Example.title) = 41 from by decide +kernel]
      exact room_of (j := 1) (by decide) (by decide))
    2048 (by
      rw [show prefixCount longText.mentions = 46 from by decide +kernel]
      exact room_of (j := 1) (by decide) (by decide))
  simpa using this

/-- The hypotheses can be met. -/
theorem longText_ran [Build] [Icu] [Runtime] [Fp] : ∃ m, Ran Example.os m longText [] := by
  have hg : GoodWord (List.replicate 40 0x61#16) := Example.good_ascii (by simp) (by
    intro l hl
    rw [List.eq_of_mem_replicate hl]
    decide)
  have ht : corpusTexts [documentOf 1 [(Example.title, [List.replicate 40 0x61#16])]] = longText := by decide +kernel
  obtain ⟨m, _, h, _⟩ := Example.ran_corpus (c := [documentOf 1 [(Example.title, [List.replicate 40 0x61#16])]])
    (by
      intro d hd
      simp only [List.mem_singleton] at hd
      subst hd
      refine ⟨_, rfl, ?_⟩
      simp only [List.mem_cons, List.not_mem_nil, or_false, forall_eq]
      exact ⟨Or.inr Example.good_title, Or.inr hg⟩)
    (by rw [ht]; decide +kernel)
  rw [ht, beforeEmpty_self (by decide +kernel)] at h
  exact ⟨m, h⟩

/-- The destructor does not free everything: a matcher that is made and destroyed at once leaves 1024 bytes mapped; with one field more than that. -/
theorem C94_not_freed [Build] [Icu] [Runtime] [Fp] (sys : Res.System) :
    (∃ m, Ran Example.os m [] [] ∧ ∃ p, destroy sys m = .ok p ∧ (Res.mappings p).sum = 1024) ∧
    ∃ m, Ran Example.os m longText [] ∧ ∃ p, destroy sys m = .ok p ∧ (Res.mappings p).sum = 4096 := by
  constructor
  · rcases MInv.new Example.os with ⟨h, _⟩ | ⟨m, e, _⟩
    · cases h
    · refine ⟨m, .new e, ?_⟩
      have := C94_leak (.new e) sys [] (by simp) (by simp [MatcherHistory.occurrences]) (fun _ => 0) (by simp) 1024
        (by
          rw [show prefixCount (MatcherHistory.mentions []) = 1 from by decide]
          exact room_of (j := 0) (by decide) (by decide))
      simpa using this
  · obtain ⟨m, h⟩ := longText_ran
    exact ⟨m, h, longText_leaks h sys⟩

end Columbus.Props
