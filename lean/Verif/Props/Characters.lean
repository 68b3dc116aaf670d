import Verif.Props.Levenshtein
import Verif.Proofs.Characters
import Mathlib.Data.Nat.Find
/-
C100: errors count characters.
-/

namespace Columbus.Props
open Columbus Spec

/-- C100 is false: letters are UTF-16 units, so characters outside the Basic Multilingual Plane count up to twice, and up to
four times in a swap. "𝄞" (U+1D11E) for "😀" (U+1F600) is one replacement, error 200; the two characters in the wrong
order are one swap, error 400. -/
theorem C100_false :
    Utf16 [0xD834#16, 0xDD1E#16] [0x1D11E] ∧ Utf16 [0xD83D#16, 0xDE00#16] [0x1F600] ∧
    IsTextDistance [0x1F600] [0x1D11E] 1 ∧ IsTextDistance [0x1F600, 0x1D11E] [0x1D11E, 0x1F600] 1 ∧
    (@built Example.debug (fun _ => true) [([0xD834#16, 0xDD1E#16], 5)] >>= fun ix =>
      @LevIndex.findWords Example.debug Example.runtime ix [0xD83D#16, 0xDE00#16]
        (@afterOps Example.debug Example.icu []) 1000 []) = .ok [⟨5, 200⟩] ∧
    (@built Example.debug (fun _ => true) [([0xD834#16, 0xDD1E#16, 0xD83D#16, 0xDE00#16], 5)] >>= fun ix =>
      @LevIndex.findWords Example.debug Example.runtime ix [0xD83D#16, 0xDE00#16, 0xD834#16, 0xDD1E#16]
        (@afterOps Example.debug Example.icu []) 1000 []) = .ok [⟨5, 400⟩] := by
  have zero : ∀ {p q : List Nat} {n : Nat}, TextEdits p q n → n = 0 → p = q := by
    intro p q n h
    induction h with
    | nil => intro _; rfl
    | keep a _ ih => intro h; rw [ih h]
    | _ => intro h; omega
  have pos : ∀ {p q : List Nat} {n : Nat}, TextEdits p q n → p ≠ q → 1 ≤ n := by
    intro p q n h hne
    rcases Nat.eq_zero_or_pos n with h0 | h0
    · exact absurd (zero h h0) hne
    · exact h0
  refine ⟨?_, ?_, ⟨TextEdits.replace _ _ .nil, fun m hm => pos hm (by decide)⟩,
    ⟨TextEdits.swap _ _ .nil, fun m hm => pos hm (by decide)⟩, by decide +kernel, by decide +kernel⟩
  · exact Utf16.pair (u := 0xD834#16) (v := 0xDD1E#16) (by decide) (by decide) (by decide) (by decide) .nil
  · exact Utf16.pair (u := 0xD83D#16) (v := 0xDE00#16) (by decide) (by decide) (by decide) (by decide) .nil

/-- The characters of a word made from UTF-8 are those of the text in lower case. -/
theorem C100_characters [Build] [Icu] (s : Bytes) (w : Word) (c : List Nat) (h : Word.ofUtf8 s = .ok w) (hc : Utf8 s c) :
    Utf16 w (c.map lowerCp) := by
  obtain ⟨_, d, hd, rfl⟩ := (ofUtf8_ok_iff _ _).1 h
  rw [show c = d from Option.some.inj ((decodeUtf8_complete hc).symm.trans (decodeUtf8_complete hd))]
  exact lettersOf_lowerCp hd

/-- C100, letters and characters: the least number of edits of letters is at least that of characters and at most four times
as many; it is the same for texts in the Basic Multilingual Plane. -/
theorem C100_distances (q w : Word) (cq cw : List Nat) (hq : Utf16 q cq) (hw : Utf16 w cw) (n m : Nat)
    (hn : IsEditDistance q w n) (hm : IsTextDistance cq cw m) :
    m ≤ n ∧ n ≤ 4 * m ∧ ((∀ c ∈ cq, c < 0x10000) → (∀ c ∈ cw, c < 0x10000) → n = m) := by
  obtain ⟨k, h1, h2⟩ := edits_characters hq hw hn.1
  obtain ⟨j, h3, h4, h5⟩ := characters_edits hm.1 (half_of_utf16 hq) (half_of_utf16 hw)
  have h6 := hm.2 k h2
  have h7 := hn.2 j h5
  exact ⟨by omega, by omega, fun a b => by have := h4 a b; omega⟩

/-- The least number of edits of characters exists. -/
theorem textDistance_exists (q w : List Nat) : ∃ n, IsTextDistance q w n := by
  have : ∃ n, TextEdits q w n := by
    have h1 : ∃ n, TextEdits q [] n := by
      induction q using List.reverseRecOn with
      | nil => exact ⟨0, .nil⟩
      | append_singleton q a ih => obtain ⟨n, h⟩ := ih; exact ⟨n + 1, h.delete a⟩
    induction w using List.reverseRecOn with
    | nil => exact h1
    | append_singleton w a ih => obtain ⟨n, h⟩ := ih; exact ⟨n + 1, h.insert a⟩
  classical
  exact ⟨Nat.find this, Nat.find_spec this, fun m hm => Nat.find_min' this hm⟩

/-- C100, what holds for all texts: with default settings, a word found has an error between 100 and 400 times the least number
of edits of characters, and every word within a quarter of the limit is found. Missing from the full claim: exactly 100
times. -/
theorem C100_partial [Build] [Icu] [Runtime] (os : Nat → Bool) (h : IndexHistory) (ix : LevIndex) (ho : IndexHistory.Ok h)
    (hb : built os h = .ok ix) (q : Word) (hq : ∀ l ∈ q, l ≠ 0#16) (cq : List Nat) (hcq : Utf16 q cq)
    (hm : Moderate (configured (afterOps []) q.length) q h) (T : Int) (ms0 result : IndexMatches)
    (he : ix.findWords q (afterOps []) T ms0 = .ok result) :
    ∃ added, result.Perm (ms0 ++ added) ∧
      (∀ m ∈ added, ∃ w, IndexHistory.Has h w m.matchedWord ∧ m.error ≤ T ∧ ∀ cw n, Utf16 w cw → IsTextDistance cq cw n →
        100 * (n : Int) ≤ m.error ∧ m.error ≤ 400 * n) ∧
      ∀ w i cw n, IndexHistory.Has h w i → Utf16 w cw → IsTextDistance cq cw n → 400 * (n : Int) ≤ T →
        ∃ m ∈ added, m.matchedWord = i ∧ m.error ≤ 400 * n := by
  obtain ⟨added, hp, hmem⟩ := C26_distance os h ix ho hb q hq hm T ms0 result he
  refine ⟨added, hp, ?_, ?_⟩
  · intro m hma
    obtain ⟨w, n, h1, h2, h3, h4⟩ := (hmem m).1 hma
    refine ⟨w, h1, by omega, ?_⟩
    intro cw k hcw hk
    obtain ⟨d1, d2, _⟩ := C100_distances q w cq cw hcq hcw n k h2 hk
    omega
  · intro w i cw k hw hcw hk hT
    obtain ⟨n, hn⟩ := (C26_metric q w).1
    obtain ⟨d1, d2, _⟩ := C100_distances q w cq cw hcq hcw n k hn hk
    exact ⟨⟨i, 100 * n⟩, (hmem _).2 ⟨w, n, hw, hn, rfl, by omega⟩, rfl, by show (100 * n : Int) ≤ _; omega⟩

/-- C100, what holds for texts in the Basic Multilingual Plane: an error is 100 times the least number of edits of
characters. Missing from the full claim: other characters. -/
theorem C100_bmp_partial [Build] [Icu] [Runtime] (os : Nat → Bool) (h : IndexHistory) (ix : LevIndex)
    (ho : IndexHistory.Ok h) (hb : built os h = .ok ix) (q : Word) (hq : ∀ l ∈ q, l ≠ 0#16) (cq : List Nat)
    (hcq : Utf16 q cq) (hbq : ∀ c ∈ cq, c < 0x10000) (texts : ∀ p ∈ h, ∃ c, Utf16 p.1 c ∧ ∀ x ∈ c, x < 0x10000)
    (hm : Moderate (configured (afterOps []) q.length) q h) (T : Int) (ms0 result : IndexMatches)
    (he : ix.findWords q (afterOps []) T ms0 = .ok result) :
    ∃ added, result.Perm (ms0 ++ added) ∧ ∀ m, m ∈ added ↔
      ∃ w cw n, IndexHistory.Has h w m.matchedWord ∧ Utf16 w cw ∧ IsTextDistance cq cw n ∧ m.error = 100 * n ∧
        100 * (n : Int) ≤ T := by
  obtain ⟨added, hp, hmem⟩ := C26_distance os h ix ho hb q hq hm T ms0 result he
  refine ⟨added, hp, ?_⟩
  intro m
  rw [hmem]
  constructor
  · rintro ⟨w, n, h1, h2, h3, h4⟩
    obtain ⟨c, hc, hbc⟩ := texts _ h1.2
    obtain ⟨k, hk⟩ := textDistance_exists cq c
    have := (C100_distances q w cq c hcq hc n k h2 hk).2.2 hbq hbc
    subst this
    exact ⟨w, c, n, h1, hc, hk, h3, h4⟩
  · rintro ⟨w, c, k, h1, hc, hk, h3, h4⟩
    obtain ⟨c', hc', hbc⟩ := texts _ h1.2
    rw [← show c = c' from Option.some.inj ((decodeUtf16_complete hc).symm.trans (decodeUtf16_complete hc'))] at hbc
    obtain ⟨n, hn⟩ := (C26_metric q w).1
    have := (C100_distances q w cq c hcq hc n k hn hk).2.2 hbq hbc
    subst this
    exact ⟨w, n, h1, hn, h3, h4⟩

/-- A case with both kinds of characters: "a😀" for "b𝄞" is two replacements; the error is 300. -/
example : Utf16 [0x61#16, 0xD83D#16, 0xDE00#16] [0x61, 0x1F600] ∧ TextEdits [0x61, 0x1F600] [0x62, 0x1D11E] 2 ∧
    (@built Example.debug (fun _ => true) [([0x62#16, 0xD834#16, 0xDD1E#16], 5)] >>= fun ix =>
      @LevIndex.findWords Example.debug Example.runtime ix [0x61#16, 0xD83D#16, 0xDE00#16]
        (@afterOps Example.debug Example.icu []) 1000 []) = .ok [⟨5, 300⟩] := by
  refine ⟨?_, TextEdits.replace _ _ (TextEdits.replace _ _ .nil), by decide +kernel⟩
  exact Utf16.bmp (u := 0x61#16) (by decide)
    (Utf16.pair (u := 0xD83D#16) (v := 0xDE00#16) (by decide) (by decide) (by decide) (by decide) .nil)

/-- The hypotheses of C100_bmp_partial hold of "é" and "ae": one replacement and one insertion. -/
example : Utf16 [0xE9#16] [0xE9] ∧ Utf16 [0x61#16, 0x65#16] [0x61, 0x65] ∧ IndexHistory.Ok [([0x61#16, 0x65#16], 3)] ∧
    (@built Example.debug (fun _ => true) [([0x61#16, 0x65#16], 3)] >>= fun ix =>
      @LevIndex.findWords Example.debug Example.runtime ix [0xE9#16]
        (@afterOps Example.debug Example.icu []) 1000 []) = .ok [⟨3, 200⟩] := by
  refine ⟨.bmp (u := 0xE9#16) (by decide) .nil, .bmp (u := 0x61#16) (by decide) (.bmp (u := 0x65#16) (by decide) .nil), ?_,
    by decide +kernel⟩
  refine ⟨?_, ?_, ?_, ?_⟩
  · simp
  · simp; decide
  · simp [INVALID_WORDID]
  · simp

end Columbus.Props
