import Mathlib.Data.List.Perm.Lattice
import Mathlib.Data.List.Dedup
import Verif.Proofs.EditFacts
import Verif.Proofs.SearchShape
import Verif.Proofs.SearchCosts
import Verif.Props.Example
/-
C17-C28: the word index.
-/

namespace Columbus.Props
open Columbus Spec ErrorValues

/-! ### C17 -/

/-- C17 is false of words with NUL letters: such a probe reads outside the mapping, and in a release build such a word is
not found after it was inserted. -/
theorem C17_false :
    (@built Example.release (fun _ => true) [] >>= fun ix => ix.hasWord [0#16, 0x61#16]) = .error .ub ∧
    (@built Example.release (fun _ => true) [([0#16], 0)] >>= fun ix => ix.hasWord [0#16]) = .ok false := by
  constructor <;> rfl

/-- C17, what holds: after a history of NUL-free words `hasWord` is exact for every NUL-free probe. Missing from the full
claim: words with NUL letters. -/
theorem C17_membership_partial [Build] (os : Nat → Bool) (h : IndexHistory) (ix : LevIndex) (ho : IndexHistory.Ok h)
    (hb : built os h = .ok ix) (v : Word) (hv : ∀ l ∈ v, l ≠ 0#16) :
    ∃ b, ix.hasWord v = .ok b ∧ (b = true ↔ v ≠ [] ∧ ∃ i, (v, i) ∈ h) := by
  obtain ⟨g, hi⟩ := built_inv ho hb
  obtain ⟨b, e, hbi⟩ := hasWord_spec hi.tinv v hv
  refine ⟨b, e, hbi.trans ?_⟩
  constructor
  · rintro ⟨i, hh⟩
    obtain ⟨h1, h2⟩ := (hi.has v i).1 hh
    exact ⟨h1, i, h2⟩
  · rintro ⟨h1, i, h2⟩; exact ⟨i, (hi.has v i).2 ⟨h1, h2⟩⟩

/-- C17. Building an index succeeds or ends in `runtime_error`, the latter only if storage is refused. -/
theorem C17_build [Build] (os : Nat → Bool) (h : IndexHistory) (ho : IndexHistory.Ok h) :
    (∃ ix, built os h = .ok ix) ∨ (built os h = .error .runtimeError ∧
      ((∃ n, os n = false) ∨ 2^31 ≤ 36 + 32 * (h.map fun p => p.1.length).sum)) := by
  unfold built
  rcases LInv.new os with ⟨h1, e⟩ | ⟨ix0, e, hi, hos, _⟩
  · right; rw [e]; exact ⟨rfl, Or.inl ⟨_, h1⟩⟩
  · rw [e, ok_bind]
    rcases insertAll_inv h hi (by simpa using ho) with ⟨e1, hr⟩ | ⟨ix1, g1, e1, h1⟩
    · right
      refine ⟨e1, ?_⟩
      have hn : Ghost.init.n = 1 := rfl
      rw [hn] at hr
      rcases hr with hr | ⟨sz, _, _, _, _, h4⟩
      · right; omega
      · left; rw [hos] at h4; exact ⟨_, h4⟩
    · left; exact ⟨ix1, e1⟩

/-! ### C18 -/

/-- C18. The count of a word's identifier is the number of insertions of the word; identifiers of no inserted word have
count 0. -/
theorem C18_wordCount [Build] (os : Nat → Bool) (h : IndexHistory) (ix : LevIndex) (ho : IndexHistory.Ok h)
    (hb : built os h = .ok ix) (i : WordID) :
    (∀ w, IndexHistory.Has h w i → ix.wordCount i = h.countP fun p => decide (p.1 = w)) ∧
    ((∀ w, ¬ IndexHistory.Has h w i) → ix.wordCount i = 0) := by
  obtain ⟨g, hi⟩ := built_inv ho hb
  rw [wordCount_eq hi]
  constructor
  · intro w hh; exact count_eq ho hh
  · intro hno
    unfold IndexHistory.count
    rw [List.countP_eq_zero]
    intro p hp hc
    simp only [Bool.and_eq_true, Bool.not_eq_true', List.isEmpty_eq_false_iff, beq_iff_eq] at hc
    exact hno p.1 ⟨hc.1, by rw [← hc.2]; exact hp⟩

/-- C18. The maximum count is the count of some word and no word's count is larger; with no words it is 0. -/
theorem C18_maxCount [Build] (os : Nat → Bool) (h : IndexHistory) (ix : LevIndex) (ho : IndexHistory.Ok h)
    (hb : built os h = .ok ix) :
    (∀ i, ix.wordCount i ≤ ix.getMaxCount) ∧
    ((∃ w i, IndexHistory.Has h w i ∧ ix.wordCount i = ix.getMaxCount) ∨
      ((∀ w i, ¬ IndexHistory.Has h w i) ∧ ix.getMaxCount = 0)) := by
  obtain ⟨g, hi⟩ := built_inv ho hb
  refine ⟨fun i => by rw [wordCount_eq hi]; exact hi.max_le i, ?_⟩
  have hpos : ∀ i, 0 < IndexHistory.count h i ↔ ∃ w, IndexHistory.Has h w i := by
    intro i
    unfold IndexHistory.count
    rw [List.countP_pos_iff]
    constructor
    · rintro ⟨p, hp, hc⟩
      simp only [Bool.and_eq_true, Bool.not_eq_true', List.isEmpty_eq_false_iff, beq_iff_eq] at hc
      exact ⟨p.1, hc.1, by rw [← hc.2]; exact hp⟩
    · rintro ⟨w, h1, h2⟩
      exact ⟨_, h2, by simp [h1]⟩
  by_cases h0 : ix.maxCount = 0
  · right
    refine ⟨?_, h0⟩
    intro w i hh
    have := (hpos i).2 ⟨w, hh⟩
    have := hi.max_le i
    omega
  · left
    rcases hi.max_eq with e | ⟨i, e⟩
    · exact absurd e h0
    · obtain ⟨w, hh⟩ := (hpos i).1 (by omega)
      exact ⟨w, i, hh, by rw [wordCount_eq hi]; exact e⟩

/-- C18. `numNodes` is the number of distinct prefixes, the empty one included. -/
theorem C18_numNodes [Build] (os : Nat → Bool) (h : IndexHistory) (ix : LevIndex) (ho : IndexHistory.Ok h)
    (hb : built os h = .ok ix) (prefixes : List Word) (hnd : prefixes.Nodup)
    (hmem : ∀ r, r ∈ prefixes ↔ r = [] ∨ ∃ p ∈ h, r <+: p.1) : ix.numNodes = .ok prefixes.length := by
  obtain ⟨g, hi⟩ := built_inv ho hb
  rw [LevIndex.numNodes, numNodes_spec hi.tinv]
  congr 1
  have hp : ((List.range g.n).map g.path).Perm prefixes := by
    rw [List.perm_ext_iff_of_nodup _ hnd]
    · intro r
      rw [List.mem_map, hmem, ← hi.paths r]
      simp only [List.mem_range]
    · apply List.Nodup.map_on _ List.nodup_range
      intro a ha b hb hab
      exact hi.tinv.path_inj a b (List.mem_range.1 ha) (List.mem_range.1 hb) hab
  have := hp.length_eq
  simpa using this

/-- C18. `numWords` is the number of distinct words. -/
theorem C18_numWords [Build] (os : Nat → Bool) (h : IndexHistory) (ix : LevIndex) (ho : IndexHistory.Ok h)
    (hb : built os h = .ok ix) (words : List Word) (hnd : words.Nodup)
    (hmem : ∀ w, w ∈ words ↔ w ≠ [] ∧ ∃ i, (w, i) ∈ h) : ix.numWords = .ok words.length := by
  obtain ⟨g, hi⟩ := built_inv ho hb
  rw [LevIndex.numWords, numWords_spec hi.tinv]
  congr 1
  rw [Ghost.count, List.countP_eq_length_filter]
  have hp : (((List.range g.n).filter fun k => g.word k != INVALID_WORDID).map g.path).Perm words := by
    rw [List.perm_ext_iff_of_nodup _ hnd]
    · intro w
      rw [List.mem_map, hmem]
      simp only [List.mem_filter, List.mem_range, bne_iff_ne]
      constructor
      · rintro ⟨k, ⟨hk, hne⟩, rfl⟩
        obtain ⟨h1, h2⟩ := (hi.has (g.path k) (g.word k)).1 ⟨k, hk, rfl, rfl, hne⟩
        exact ⟨h1, _, h2⟩
      · rintro ⟨h1, i, h2⟩
        obtain ⟨k, hk, hpk, hwk, hne⟩ := (hi.has w i).2 ⟨h1, h2⟩
        exact ⟨k, ⟨hk, by rw [hwk]; exact hne⟩, hpk⟩
    · apply List.Nodup.map_on _ (List.nodup_range.filter _)
      intro a ha b hb hab
      exact hi.tinv.path_inj a b (List.mem_range.1 (List.mem_filter.1 ha).1) (List.mem_range.1 (List.mem_filter.1 hb).1) hab
  have := hp.length_eq
  simpa using this

/-! ### C19 -/

/-- C19. What a search adds belongs to inserted words, carries the least price of editing the query into the word, and is
within the limit. -/
theorem C19_true_errors [Build] [Icu] [Runtime] (os : Nat → Bool) (h : IndexHistory) (ix : LevIndex) (ho : IndexHistory.Ok h)
    (hb : built os h = .ok ix) (ops : List ErrOp) (q : Word) (hq : ∀ l ∈ q, l ≠ 0#16)
    (hm : Moderate (configured (afterOps ops) q.length) q h)
    (hid : (afterOps ops).getInsertionError = (afterOps ops).getDeletionError)
    (T : Int) (ms0 result : IndexMatches) (he : ix.findWords q (afterOps ops) T ms0 = .ok result) :
    ∃ added, result.Perm (ms0 ++ added) ∧ ∀ m ∈ added, m.error ≤ T ∧
      ∃ w, IndexHistory.Has h w m.matchedWord ∧ IsEditCost (configured (afterOps ops) q.length) q w m.error := by
  obtain ⟨added, e, _, hmem⟩ := search ho hb ops hq hm (Or.inr (Or.inr hid)) T ms0
  rw [e] at he; cases he
  refine ⟨added, Runtime.sortMatches_perm _, ?_⟩
  intro m hm
  obtain ⟨w, h1, h2, h3, _⟩ := (hmem m).1 hm
  rw [charged_eq hid] at h2 h3
  exact ⟨by omega, w, h1, isEditCost_iff.2 h2⟩

/-! ### C20 -/

/-- C20 is false: with cheap swaps the search turns back too early. "ba" is one swap (cost 10) from "ab", but the row of
"b" has no value within 50. -/
theorem C20_false :
    (@built Example.debug (fun _ => true) [([0x62, 0x61], 0)] >>= fun ix =>
      @LevIndex.findWords Example.debug Example.runtime ix [0x61, 0x62]
        (@afterOps Example.debug Example.icu [.setTransposeError 10]) 50 []) = .ok [] ∧
    Script (configured (@afterOps Example.debug Example.icu [.setTransposeError 10]) 2) [0x61, 0x62] [0x62, 0x61] 2 2 10 := by
  constructor
  · decide +kernel
  · exact Script.swap (a := 0x61) (b := 0x62) .start rfl rfl rfl rfl

/-- C20, what holds: nothing is missed if no price is negative and a swap is not cheaper than skipping a letter of the
word (or than replacing any letter). Missing from the full claim: cheaper swaps. -/
theorem C20_partial [Build] [Icu] [Runtime] (os : Nat → Bool) (h : IndexHistory) (ix : LevIndex) (ho : IndexHistory.Ok h)
    (hb : built os h = .ok ix) (ops : List ErrOp) (q : Word) (hq : ∀ l ∈ q, l ≠ 0#16)
    (hm : Moderate (configured (afterOps ops) q.length) q h)
    (hid : (afterOps ops).getInsertionError = (afterOps ops).getDeletionError)
    (hn : (configured (afterOps ops) q.length).NonNeg) (hs : (configured (afterOps ops) q.length).SwapsAreDear)
    (T : Int) (ms0 result : IndexMatches) (he : ix.findWords q (afterOps ops) T ms0 = .ok result) :
    ∃ added, result.Perm (ms0 ++ added) ∧ ∀ w i v, IndexHistory.Has h w i →
      IsEditCost (configured (afterOps ops) q.length) q w v → v ≤ T → ⟨i, v⟩ ∈ added := by
  obtain ⟨added, e, _, hmem⟩ := search ho hb ops hq hm (Or.inr (Or.inr hid)) T ms0
  rw [e] at he; cases he
  refine ⟨added, Runtime.sortMatches_perm _, ?_⟩
  intro w i v hh hv hT
  rw [isEditCost_iff] at hv
  subst hv
  rw [hmem]
  rw [charged_eq hid]
  exact ⟨w, hh, rfl, hT, fun r _ hr _ => rowOk_of_best hn hs hT hr⟩

/-! ### C21 -/

/-- C21. Whatever the settings: the result is in order of error, holds the previous matches, and what is added are
inserted words, each once. -/
theorem C21_sorted_distinct [Build] [Runtime] (os : Nat → Bool) (h : IndexHistory) (ix : LevIndex) (ho : IndexHistory.Ok h)
    (hb : built os h = .ok ix) (e : ErrorValues) (q : Word) (T : Int) (ms0 result : IndexMatches)
    (he : ix.findWords q e T ms0 = .ok result) :
    result.Pairwise (fun a b => a.error ≤ b.error) ∧
    ∃ added, result.Perm (ms0 ++ added) ∧ (added.map MatchData.matchedWord).Nodup ∧
      ∀ m ∈ added, ∃ w, IndexHistory.Has h w m.matchedWord := by
  obtain ⟨g, hi⟩ := built_inv ho hb
  obtain ⟨added, rfl, h1, h2⟩ := findWords_shape hi he
  exact ⟨Runtime.sortMatches_sorted _, added, Runtime.sortMatches_perm _, h1, h2⟩

/-! ### C22 -/

/-- C22. An inserted query is found with error 0 for every limit that is not negative. -/
theorem C22_exact [Build] [Icu] [Runtime] (os : Nat → Bool) (h : IndexHistory) (ix : LevIndex) (ho : IndexHistory.Ok h)
    (hb : built os h = .ok ix) (ops : List ErrOp) (q : Word) (i : WordID) (hin : IndexHistory.Has h q i)
    (hm : Moderate (configured (afterOps ops) q.length) q h)
    (hn : (configured (afterOps ops) q.length).NonNeg)
    (h0 : ∀ a ∈ q, (afterOps ops).getSubstituteError a a = .ok 0)
    (T : Int) (hT : 0 ≤ T) (ms0 result : IndexMatches) (he : ix.findWords q (afterOps ops) T ms0 = .ok result) :
    ⟨i, 0⟩ ∈ result := by
  have hq : ∀ l ∈ q, l ≠ 0#16 := ho.noNul _ hin.2
  have hsub : ∀ a ∈ q, (charged (afterOps ops) q.length).sub a a = 0 := by
    intro a ha
    show (match (afterOps ops).getSubstituteError a a with | .ok v => v | .error _ => 0) = 0
    rw [h0 a ha]
  have hn' : (charged (afterOps ops) q.length).NonNeg := by
    obtain ⟨a1, a2, a3, a4, a5, a6, a7⟩ := hn
    exact ⟨a5, a2, a3, a4, a5, a6, a7⟩
  have ha : Build.asserts = false ∨ q = [] ∨ (afterOps ops).getInsertionError = (afterOps ops).getDeletionError := by
    by_cases hx : (afterOps ops).getInsertionError = (afterOps ops).getDeletionError
    · exact Or.inr (Or.inr hx)
    · left
      by_contra hc
      obtain ⟨g, hi⟩ := built_inv ho hb
      obtain ⟨B, hf⟩ := moderate_fits hi hm
      rw [Bool.not_eq_false] at hc
      have := assert_fails (charged_priced ops q.length) hf hin.1 (fun hy => hx hy.symm) hc (ix := ix) T ms0
      rw [this] at he; cases he
  obtain ⟨added, e, _, hmem⟩ := search ho hb ops hq hm ha T ms0
  rw [e] at he; cases he
  have : (⟨i, 0⟩ : MatchData) ∈ added := by
    rw [hmem]
    have hbs := best_self hn' hsub
    exact ⟨q, hin, hbs.symm, by rw [hbs]; exact hT, fun r _ hr _ => rowOk_self hsub hT hr⟩
  rw [IndexMatches.sort]
  rw [(Runtime.sortMatches_perm _).mem_iff]
  exact List.mem_append_right _ this

/-! ### C23 -/

/-- C23. What is added for a limit is added with the same error for every larger one. -/
theorem C23_monotone [Build] [Icu] [Runtime] (os : Nat → Bool) (h : IndexHistory) (ix : LevIndex) (ho : IndexHistory.Ok h)
    (hb : built os h = .ok ix) (ops : List ErrOp) (q : Word) (hq : ∀ l ∈ q, l ≠ 0#16)
    (hm : Moderate (configured (afterOps ops) q.length) q h)
    (a b : Int) (hab : a ≤ b) (ms0 ra rb : IndexMatches) (hea : ix.findWords q (afterOps ops) a ms0 = .ok ra)
    (heb : ix.findWords q (afterOps ops) b ms0 = .ok rb) :
    ∃ adda addb, ra.Perm (ms0 ++ adda) ∧ rb.Perm (ms0 ++ addb) ∧ ∀ m ∈ adda, m ∈ addb := by
  have ha : Build.asserts = false ∨ q = [] ∨ (afterOps ops).getInsertionError = (afterOps ops).getDeletionError := by
    by_cases hx : (afterOps ops).getInsertionError = (afterOps ops).getDeletionError
    · exact Or.inr (Or.inr hx)
    · by_cases hq0 : q = []
      · exact Or.inr (Or.inl hq0)
      · left
        by_contra hc
        obtain ⟨g, hi⟩ := built_inv ho hb
        obtain ⟨B, hf⟩ := moderate_fits hi hm
        rw [Bool.not_eq_false] at hc
        have := assert_fails (charged_priced ops q.length) hf hq0 (fun hy => hx hy.symm) hc (ix := ix) a ms0
        rw [this] at hea; cases hea
  obtain ⟨adda, e1, _, h1⟩ := search ho hb ops hq hm ha a ms0
  obtain ⟨addb, e2, _, h2⟩ := search ho hb ops hq hm ha b ms0
  rw [e1] at hea; cases hea
  rw [e2] at heb; cases heb
  refine ⟨adda, addb, Runtime.sortMatches_perm _, Runtime.sortMatches_perm _, ?_⟩
  intro m hmm
  rw [h1] at hmm
  rw [h2]
  obtain ⟨w, x1, x2, x3, x4⟩ := hmm
  refine ⟨w, x1, x2, by omega, ?_⟩
  intro r r1 r2 r3
  obtain ⟨i, hi, hle⟩ := x4 r r1 r2 r3
  exact ⟨i, hi, by omega⟩

/-! ### C24 -/

/-- C24. Histories with the same insertions, in any order and with any repetitions, give the same matches. -/
theorem C24_order [Build] [Icu] [Runtime] (os os' : Nat → Bool) (h h' : IndexHistory) (ix ix' : LevIndex)
    (ho : IndexHistory.Ok h) (hsame : ∀ p, p ∈ h ↔ p ∈ h')
    (hb : built os h = .ok ix) (hb' : built os' h' = .ok ix') (ops : List ErrOp) (q : Word) (hq : ∀ l ∈ q, l ≠ 0#16)
    (hm : Moderate (configured (afterOps ops) q.length) q h) (T : Int) (ms0 r r' : IndexMatches)
    (he : ix.findWords q (afterOps ops) T ms0 = .ok r) (he' : ix'.findWords q (afterOps ops) T ms0 = .ok r') : r.Perm r' := by
  have ho' : IndexHistory.Ok h' := ho.sub (fun p hp => (hsame p).2 hp)
  have hm' : Moderate (configured (afterOps ops) q.length) q h' := by
    obtain ⟨B, L, a, b, c⟩ := hm
    exact ⟨B, L, a, fun p hp => b p ((hsame p).2 hp), c⟩
  have ha : Build.asserts = false ∨ q = [] ∨ (afterOps ops).getInsertionError = (afterOps ops).getDeletionError := by
    by_cases hx : (afterOps ops).getInsertionError = (afterOps ops).getDeletionError
    · exact Or.inr (Or.inr hx)
    · by_cases hq0 : q = []
      · exact Or.inr (Or.inl hq0)
      · left
        by_contra hc
        obtain ⟨g, hi⟩ := built_inv ho hb
        obtain ⟨B, hf⟩ := moderate_fits hi hm
        rw [Bool.not_eq_false] at hc
        have := assert_fails (charged_priced ops q.length) hf hq0 (fun hy => hx hy.symm) hc (ix := ix) T ms0
        rw [this] at he; cases he
  obtain ⟨add, e1, n1, h1⟩ := search ho hb ops hq hm ha T ms0
  obtain ⟨add', e2, n2, h2⟩ := search ho' hb' ops hq hm' ha T ms0
  rw [e1] at he; cases he
  rw [e2] at he'; cases he'
  refine (Runtime.sortMatches_perm _).trans (List.Perm.trans ?_ (Runtime.sortMatches_perm _).symm)
  refine List.Perm.append_left _ ?_
  rw [List.perm_ext_iff_of_nodup n1.of_map n2.of_map]
  intro m
  rw [h1, h2]
  unfold Added IndexHistory.Has
  simp only [hsame]

/-! ### C25 -/

/-- C25. With moderate prices, and equal insertion and deletion prices, every search returns: no exception, no failed
assertion, no overflow, no access outside the table. -/
theorem C25_no_fault [Build] [Icu] [Runtime] (os : Nat → Bool) (h : IndexHistory) (ix : LevIndex) (ho : IndexHistory.Ok h)
    (hb : built os h = .ok ix) (ops : List ErrOp) (q : Word) (hq : ∀ l ∈ q, l ≠ 0#16)
    (hm : Moderate (configured (afterOps ops) q.length) q h)
    (hid : (afterOps ops).getInsertionError = (afterOps ops).getDeletionError) (T : Int) (ms0 : IndexMatches) :
    ∃ result, ix.findWords q (afterOps ops) T ms0 = .ok result := by
  obtain ⟨added, e, _, _⟩ := search ho hb ops hq hm (Or.inr (Or.inr hid)) T ms0
  exact ⟨_, e⟩

/-- That queries have no NUL letters is needed: the search of an index of "a" for "a" and a NUL takes the two for swapped
and reads the row before the first. -/
theorem C25_nul :
    (@built Example.debug (fun _ => true) [([0x61], 0)] >>= fun ix =>
      @LevIndex.findWords Example.debug Example.runtime ix [0x61, 0]
        (@afterOps Example.debug Example.icu []) 200 []) = .error .ub := by
  decide +kernel

/-- C25. Default and substring settings are moderate for any words and queries up to 21 million letters together. -/
theorem C25_default [Build] [Icu] [Runtime] (os : Nat → Bool) (h : IndexHistory) (ix : LevIndex) (ho : IndexHistory.Ok h)
    (hb : built os h = .ok ix) (substring : Bool) (q : Word) (hq : ∀ l ∈ q, l ≠ 0#16)
    (hlen : ∀ p ∈ h, p.1.length + q.length ≤ 21000000) (hq2 : q.length ≤ 21000000) (T : Int) (ms0 : IndexMatches) :
    ∃ result, ix.findWords q (afterOps (if substring then [.setSubstringMode] else [])) T ms0 = .ok result := by
  apply C25_no_fault os h ix ho hb _ q hq
  · refine ⟨100, 21000000 - q.length, ?_, ?_, ?_⟩
    · cases substring
      · simp only [Bool.false_eq_true, if_false]
        rw [configured_default]
        exact unit_within
      · simp only [if_true]
        rw [configured_substring]
        exact substring_within _
    · intro p hp
      have := hlen p hp
      omega
    · omega
  · cases substring <;> rfl

/-- C20 for the settings the library ships: nothing is missed with default or substring settings. -/
theorem C20_default [Build] [Icu] [Runtime] (os : Nat → Bool) (h : IndexHistory) (ix : LevIndex) (ho : IndexHistory.Ok h)
    (hb : built os h = .ok ix) (substring : Bool) (ops : List ErrOp) (hops : ops = if substring then [.setSubstringMode] else [])
    (q : Word) (hq : ∀ l ∈ q, l ≠ 0#16) (hm : Moderate (configured (afterOps ops) q.length) q h)
    (T : Int) (ms0 result : IndexMatches) (he : ix.findWords q (afterOps ops) T ms0 = .ok result) :
    ∃ added, result.Perm (ms0 ++ added) ∧ ∀ w i v, IndexHistory.Has h w i →
      IsEditCost (configured (afterOps ops) q.length) q w v → v ≤ T → ⟨i, v⟩ ∈ added := by
  subst hops
  cases substring
  · refine C20_partial os h ix ho hb _ q hq hm rfl ?_ ?_ T ms0 result he
    · show (configured (afterOps []) q.length).NonNeg
      rw [configured_default]; exact unit_nonneg
    · show (configured (afterOps []) q.length).SwapsAreDear
      rw [configured_default]; exact Or.inl (by decide)
  · refine C20_partial os h ix ho hb _ q hq hm rfl ?_ ?_ T ms0 result he
    · show (configured (afterOps [.setSubstringMode]) q.length).NonNeg
      rw [configured_substring]; exact substring_nonneg _
    · show (configured (afterOps [.setSubstringMode]) q.length).SwapsAreDear
      rw [configured_substring]; exact substring_swaps _

/-! ### C26 -/

/-- C26. With default settings, an error is 100 times the least number of edits. -/
theorem C26_distance [Build] [Icu] [Runtime] (os : Nat → Bool) (h : IndexHistory) (ix : LevIndex) (ho : IndexHistory.Ok h)
    (hb : built os h = .ok ix) (q : Word) (hq : ∀ l ∈ q, l ≠ 0#16)
    (hm : Moderate (configured (afterOps []) q.length) q h) (T : Int) (ms0 result : IndexMatches)
    (he : ix.findWords q (afterOps []) T ms0 = .ok result) :
    ∃ added, result.Perm (ms0 ++ added) ∧ ∀ m, m ∈ added ↔
      ∃ w n, IndexHistory.Has h w m.matchedWord ∧ IsEditDistance q w n ∧ m.error = 100 * n ∧ 100 * (n : Int) ≤ T := by
  obtain ⟨added, e, _, hmem⟩ := search ho hb [] hq hm (Or.inr (Or.inr rfl)) T ms0
  rw [e] at he; cases he
  have hc : charged (afterOps []) q.length = unitCosts := by rw [charged_eq rfl, configured_default]
  rw [hc] at hmem
  refine ⟨added, Runtime.sortMatches_perm _, ?_⟩
  intro m
  rw [hmem]
  have uniq : ∀ {w : Word} {n k : Nat}, IsEditDistance q w n → IsEditDistance q w k → n = k := by
    intro w n k h1 h2
    have := h1.2 k h2.1
    have := h2.2 n h1.1
    omega
  constructor
  · rintro ⟨w, h1, h2, h3, _⟩
    obtain ⟨n, e1, e2⟩ := best_unit (q := q) (w := w)
    exact ⟨w, n, h1, e2, by omega, by omega⟩
  · rintro ⟨w, n, h1, h2, h3, h4⟩
    obtain ⟨k, e1, e2⟩ := best_unit (q := q) (w := w)
    have := uniq h2 e2
    subst this
    refine ⟨w, h1, by omega, by omega, ?_⟩
    intro r _ hr _
    exact rowOk_of_best unit_nonneg (Or.inl (by decide)) (by omega) hr

/-- C26. The number of edits is defined for every pair, is the same in both directions, and is 0 exactly for equal
words. -/
theorem C26_metric (q w : Word) : (∃ n, IsEditDistance q w n) ∧ (∀ n, IsEditDistance q w n ↔ IsEditDistance w q n) ∧
    (IsEditDistance q w 0 ↔ q = w) := by
  refine ⟨?_, ?_, ?_⟩
  · obtain ⟨n, _, h⟩ := best_unit (q := q) (w := w); exact ⟨n, h⟩
  · intro n
    constructor <;> rintro ⟨h1, h2⟩ <;> exact ⟨edits_symm h1, fun m hm => h2 m (edits_symm hm)⟩
  · constructor
    · rintro ⟨h1, _⟩; exact edits_zero h1 rfl
    · rintro rfl; exact ⟨edits_refl q, fun m _ => Nat.zero_le m⟩

/-! ### C27 -/

/-- C27. In substring mode, whatever the other settings: a word that contains the query, of three letters or more, is
given an error of at most 15 for each letter outside the occurrence. -/
theorem C27_bound [Build] [Icu] [Runtime] (os : Nat → Bool) (h : IndexHistory) (ix : LevIndex) (ho : IndexHistory.Ok h)
    (hb : built os h = .ok ix) (ops : List ErrOp) (q : Word) (hq : ∀ l ∈ q, l ≠ 0#16) (hq3 : 3 ≤ q.length)
    (hm : Moderate (configured (afterOps (ops ++ [.setSubstringMode])) q.length) q h)
    (hid : (afterOps ops).getInsertionError = (afterOps ops).getDeletionError)
    (h0 : ∀ a ∈ q, (afterOps ops).getSubstituteError a a = .ok 0)
    (T : Int) (ms0 result : IndexMatches) (he : ix.findWords q (afterOps (ops ++ [.setSubstringMode])) T ms0 = .ok result)
    (x y : Word) (i : WordID) (hw : IndexHistory.Has h (x ++ q ++ y) i) :
    ∃ added, result.Perm (ms0 ++ added) ∧ ∀ m ∈ added, m.matchedWord = i → m.error ≤ 15 * (x.length + y.length) := by
  have e0 : afterOps (ops ++ [.setSubstringMode]) = (afterOps ops).setSubstringMode := by
    rw [afterOps, List.foldl_append]; rfl
  have hid' : (afterOps (ops ++ [.setSubstringMode])).getInsertionError = (afterOps (ops ++ [.setSubstringMode])).getDeletionError := by
    rw [e0]; exact hid
  obtain ⟨added, e, _, hmem⟩ := search ho hb _ hq hm (Or.inr (Or.inr hid')) T ms0
  rw [e] at he; cases he
  refine ⟨added, Runtime.sortMatches_perm _, ?_⟩
  intro m hmm hmi
  obtain ⟨w, h1, h2, _, _⟩ := (hmem m).1 hmm
  have hww : w = x ++ q ++ y := by
    rw [hmi] at h1
    exact (ho.consistent _ h1.2 _ hw.2 h1.1 hw.1).2 rfl
  subst hww
  have hne : q ≠ [] := by rintro rfl; simp at hq3
  have hsub : ∀ a ∈ q, (charged (afterOps (ops ++ [.setSubstringMode])) q.length).sub a a = 0 := by
    intro a ha
    show (match (afterOps (ops ++ [.setSubstringMode])).getSubstituteError a a with | .ok v => v | .error _ => 0) = 0
    have : (afterOps (ops ++ [.setSubstringMode])).getSubstituteError a a = (afterOps ops).getSubstituteError a a := by
      rw [e0]; rfl
    rw [this, h0 a ha]
  have hb2 := best_substring x y hne hsub
  have hst : (charged (afterOps (ops ++ [.setSubstringMode])) q.length).startIns = 15 := by
    show (afterOps (ops ++ [.setSubstringMode])).getStartInsertionError q.length = 15
    rw [e0]
    show (if 3 ≤ q.length then (15 : Int) else _) = 15
    rw [if_pos hq3]
  have hen : (charged (afterOps (ops ++ [.setSubstringMode])) q.length).endDel = 15 := by
    show (afterOps (ops ++ [.setSubstringMode])).getEndDeletionError = 15
    rw [e0]; rfl
  rw [hst, hen] at hb2
  omega

/-- C27. With default settings and substring mode such a word is found whenever the limit allows its price. -/
theorem C27_found [Build] [Icu] [Runtime] (os : Nat → Bool) (h : IndexHistory) (ix : LevIndex) (ho : IndexHistory.Ok h)
    (hb : built os h = .ok ix) (q : Word) (hq : ∀ l ∈ q, l ≠ 0#16) (hq3 : 3 ≤ q.length)
    (hm : Moderate (configured (afterOps [.setSubstringMode]) q.length) q h) (T : Int) (ms0 result : IndexMatches)
    (he : ix.findWords q (afterOps [.setSubstringMode]) T ms0 = .ok result)
    (x y : Word) (i : WordID) (hw : IndexHistory.Has h (x ++ q ++ y) i) (hT : 15 * ((x.length : Int) + y.length) ≤ T) :
    ∃ m ∈ result, m.matchedWord = i ∧ m.error ≤ 15 * (x.length + y.length) := by
  obtain ⟨added, e, _, hmem⟩ := search ho hb [.setSubstringMode] hq hm (Or.inr (Or.inr rfl)) T ms0
  rw [e] at he; cases he
  rw [charged_eq rfl, configured_substring] at hmem
  have hne : q ≠ [] := by rintro rfl; simp at hq3
  have hb2 := best_substring (c := substringCosts q.length) x y hne (fun a _ => if_pos rfl)
  rw [show (substringCosts q.length).startIns = 15 from if_pos hq3, show (substringCosts q.length).endDel = 15 from rfl] at hb2
  refine ⟨⟨i, best (substringCosts q.length) q (x ++ q ++ y)⟩, ?_, rfl, by dsimp only; omega⟩
  rw [IndexMatches.sort, (Runtime.sortMatches_perm _).mem_iff]
  refine List.mem_append_right _ ((hmem _).2 ⟨_, hw, rfl, by omega, ?_⟩)
  intro r _ hr _
  exact rowOk_of_best (substring_nonneg _) (substring_swaps _) (by omega) hr

/-- C27. Queries of one or two letters pay the full price for letters of the word before them: substring mode leaves the
price of a leading letter at the insertion error, and a word whose first letter differs costs 100 or more. -/
theorem C27_short [Build] [Icu] [Runtime] (os : Nat → Bool) (h : IndexHistory) (ix : LevIndex) (ho : IndexHistory.Ok h)
    (hb : built os h = .ok ix) (q : Word) (hq : ∀ l ∈ q, l ≠ 0#16) (hq1 : 1 ≤ q.length) (hq3 : q.length < 3)
    (hm : Moderate (configured (afterOps [.setSubstringMode]) q.length) q h) (T : Int) (ms0 result : IndexMatches)
    (he : ix.findWords q (afterOps [.setSubstringMode]) T ms0 = .ok result) :
    (∀ ops, (afterOps (ops ++ [.setSubstringMode])).getStartInsertionError q.length =
      (afterOps (ops ++ [.setSubstringMode])).getInsertionError) ∧
    ∃ added, result.Perm (ms0 ++ added) ∧ ∀ m ∈ added, ∀ w, IndexHistory.Has h w m.matchedWord →
      w.head? ≠ q.head? → 100 ≤ m.error := by
  constructor
  · intro ops
    have e0 : afterOps (ops ++ [.setSubstringMode]) = (afterOps ops).setSubstringMode := by
      rw [afterOps, List.foldl_append]; rfl
    rw [e0]
    show (if 3 ≤ q.length then (15 : Int) else _) = _
    rw [if_neg (by omega)]; rfl
  obtain ⟨added, e, _, hmem⟩ := search ho hb [.setSubstringMode] hq hm (Or.inr (Or.inr rfl)) T ms0
  rw [e] at he; cases he
  rw [charged_eq rfl, configured_substring,
    show substringCosts q.length = ⟨100, 100, 100, 15, 100, 100, fun a b => if a = b then 0 else 100⟩ by
      rw [substringCosts, if_neg (by omega)]] at hmem
  refine ⟨added, Runtime.sortMatches_perm _, ?_⟩
  intro m hmm w hw hne
  obtain ⟨w', h1, h2, _, _⟩ := (hmem m).1 hmm
  have hww : w' = w := (ho.consistent _ h1.2 _ hw.2 h1.1 hw.1).2 rfl
  subst hww
  have hs := (best_isEditCost (c := ⟨100, 100, 100, 15, 100, 100, fun a b => if a = b then 0 else 100⟩) (q := q) (w := w')).1
  have := script_first (by decide) (by decide) (by decide) (by decide) (by decide) (by decide)
    (by intro a b; dsimp only; split <;> decide) (by intro a b hab; dsimp only; rw [if_neg hab])
    (by
      intro a b ha hb' hab
      apply hne
      rw [List.head?_eq_getElem?, List.head?_eq_getElem?, ha, hb', hab]) hs
  rcases this with ⟨_, h4, _⟩ | h4
  · omega
  · omega

/-! ### C28 -/

/-- C28 is false. With an insertion error of 50 a debug build aborts on every non-empty query; a release build charges
the extra first letter of the query "ba" against the word "a" as a deletion (100), though its price is 50. -/
theorem C28_false :
    (@built Example.debug (fun _ => true) [([0x61], 0)] >>= fun ix =>
      @LevIndex.findWords Example.debug Example.runtime ix [0x62, 0x61]
        (@afterOps Example.debug Example.icu [.setInsertionError 50]) 200 []) = .error .assertion ∧
    (@built Example.release (fun _ => true) [([0x61], 0)] >>= fun ix =>
      @LevIndex.findWords Example.release Example.runtime ix [0x62, 0x61]
        (@afterOps Example.release Example.icu [.setInsertionError 50]) 200 []) = .ok [⟨0, 100⟩] ∧
    Script (configured (@afterOps Example.release Example.icu [.setInsertionError 50]) 2) [0x62, 0x61] [0x61] 1 2 50 := by
  refine ⟨by decide +kernel, by decide +kernel, ?_⟩
  exact Script.subst (a := 0x61) (b := 0x61) (Script.extra .start (by decide)) rfl rfl

/-- C28, what holds: without assertions every pair of prices works, and errors are least prices where extra letters of the
query cost the insertion error, except before the first letter of the word, where they cost the deletion error. With
equal values C19 gives the full claim. Missing: leading letters charged as insertions, and debug builds. -/
theorem C28_partial [Build] [Icu] [Runtime] (hrel : Build.asserts = false) (os : Nat → Bool) (h : IndexHistory) (ix : LevIndex)
    (ho : IndexHistory.Ok h) (hb : built os h = .ok ix) (ops : List ErrOp) (q : Word) (hq : ∀ l ∈ q, l ≠ 0#16)
    (hm : Moderate (configured (afterOps ops) q.length) q h) (T : Int) (ms0 : IndexMatches) :
    ∃ result added, ix.findWords q (afterOps ops) T ms0 = .ok result ∧ result.Perm (ms0 ++ added) ∧
      ∀ m ∈ added, m.error ≤ T ∧ ∃ w, IndexHistory.Has h w m.matchedWord ∧
        IsEditCost { configured (afterOps ops) q.length with lead := (afterOps ops).getDeletionError } q w m.error := by
  obtain ⟨added, e, _, hmem⟩ := search ho hb ops hq hm (Or.inl hrel) T ms0
  refine ⟨_, added, e, Runtime.sortMatches_perm _, ?_⟩
  intro m hm
  obtain ⟨w, h1, h2, h3, _⟩ := (hmem m).1 hm
  exact ⟨by omega, w, h1, isEditCost_iff.2 h2⟩

/-! ### A concrete index -/

/-- "save", "same" and "as" indexed, "save" twice. -/
def exampleHistory : IndexHistory :=
  [([0x73, 0x61, 0x76, 0x65], 0), ([0x73, 0x61, 0x6d, 0x65], 1), ([0x61, 0x73], 2), ([0x73, 0x61, 0x76, 0x65], 0), ([], 3)]

theorem exampleHistory_ok : IndexHistory.Ok exampleHistory := by
  have all : ∀ p ∈ exampleHistory, p.1.all (fun l => l != 0#16 && !isLowSurrogate l) = true ∧ p.2 < 4 := by decide +kernel
  refine ⟨?_, ?_, ?_, by decide +kernel⟩
  · intro p hp l hl
    have := List.all_eq_true.1 (all p hp).1 l hl
    simp only [Bool.and_eq_true, bne_iff_ne] at this
    exact this.1
  · intro p hp l hl
    have := List.all_eq_true.1 (all p hp).1 l (List.mem_of_mem_head? hl)
    simp only [Bool.and_eq_true, Bool.not_eq_true'] at this
    exact this.2
  · intro p hp
    have := (all p hp).2
    exact Nat.lt_trans this (by decide)

example [Build] [Icu] : Moderate (configured (afterOps []) 4) [0x73, 0x61, 0x65, 0x76] exampleHistory := by
  refine ⟨100, 4, ?_, ?_, by decide⟩
  · rw [configured_default]
    exact unit_within
  · intro p hp
    simp only [exampleHistory, List.mem_cons, List.not_mem_nil, or_false] at hp
    rcases hp with rfl | rfl | rfl | rfl | rfl <;> simp

/-- The example can be built, so the theorems above speak about it. -/
example [Build] : ∃ ix, built (fun _ => true) exampleHistory = .ok ix := by
  rcases C17_build (fun _ => true) exampleHistory exampleHistory_ok
    with h | ⟨_, ⟨_, h⟩ | h⟩
  · exact h
  · cases h
  · exact absurd h (by decide +kernel)

/-- Searching "ab" with "ba" indexed. -/
example : (@built Example.debug (fun _ => true) [([0x62, 0x61], 0)] >>= fun ix =>
    @LevIndex.findWords Example.debug Example.runtime ix [0x61, 0x62]
      (@afterOps Example.debug Example.icu []) 100 []) = .ok [⟨0, 100⟩] := by decide +kernel

end Columbus.Props
