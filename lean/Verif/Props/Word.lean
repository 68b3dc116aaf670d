import Verif.Proofs.Split
import Verif.Props.Example
/-
C01-C11: words.
-/

namespace Columbus.Props
open Columbus Spec

/-! ### C01 -/

/-- C01. The constructor accepts exactly the well-formed UTF-8 strings without blanks; the word's letters are the
UTF-16 units of the text, lower-cased. -/
theorem C01_accepts [Build] [Icu] (s : Bytes) :
    (∃ w, Word.ofUtf8 s = .ok w) ↔ WellFormed s ∧ ∀ b ∈ s, ¬ IsBlank b := by
  constructor
  · rintro ⟨w, hw⟩
    obtain ⟨hb, c, hc, _⟩ := (ofUtf8_ok_iff s w).1 hw
    exact ⟨⟨c, hc⟩, hb⟩
  · rintro ⟨⟨c, hc⟩, hb⟩
    exact ⟨_, (ofUtf8_ok_iff s _).2 ⟨hb, c, hc, rfl⟩⟩

/-- C01. The contents of the word. -/
theorem C01_value [Build] [Icu] (s : Bytes) (cps : List Nat) (units : List Letter) (w : Word)
    (hs : Utf8 s cps) (hu : Utf16 units cps) (hw : Word.ofUtf8 s = .ok w) : w = units.map Icu.lower := by
  obtain ⟨_, c, hc, rfl⟩ := (ofUtf8_ok_iff s w).1 hw
  rw [Utf8.det hc hs, lettersOf, ← Utf16.eq_encodes hu]

/-- C01. The kind of every rejection. In particular there is no assertion failure and no undefined behaviour. -/
theorem C01_rejects [Build] [Icu] (s : Bytes) :
    (¬ WellFormed s → Word.ofUtf8 s = .error .runtimeError) ∧
    (WellFormed s → (∃ b ∈ s, IsBlank b) → Word.ofUtf8 s = .error .invalidArgument) := by
  refine ⟨ofUtf8_bad, ?_⟩
  rintro ⟨c, hc⟩ hb
  rw [ofUtf8_of_utf8 hc, if_pos hb]

/-- C01. No build and no input gives any other outcome. -/
theorem C01_no_other_outcome [Build] [Icu] (s : Bytes) (f : Fault) (h : Word.ofUtf8 s = .error f) :
    f = .runtimeError ∨ f = .invalidArgument := by
  by_cases hs : WellFormed s
  · by_cases hb : ∃ b ∈ s, IsBlank b
    · rw [(C01_rejects s).2 hs hb] at h; cases h; exact Or.inr rfl
    · obtain ⟨w, hw⟩ := (C01_accepts s).2 ⟨hs, by simpa using hb⟩
      rw [hw] at h; cases h
  · rw [(C01_rejects s).1 hs] at h; cases h; exact Or.inl rfl

/-- "Aé😀" is accepted and gives the letters a, é and a surrogate pair. -/
example : @Word.ofUtf8 Example.debug Example.icu [0x41, 0xC3, 0xA9, 0xF0, 0x9F, 0x98, 0x80] =
    .ok [0x61#16, 0xE9#16, 0xD83D#16, 0xDE00#16] := by decide
/-- An overlong encoding, a surrogate in UTF-8, a blank. -/
example : @Word.ofUtf8 Example.debug Example.icu [0xC0, 0x80] = .error .runtimeError ∧
    @Word.ofUtf8 Example.debug Example.icu [0xED, 0xA0, 0x80] = .error .runtimeError ∧
    @Word.ofUtf8 Example.debug Example.icu [0x61, 0x0A] = .error .invalidArgument := by decide

/-! ### C02 -/

/-- C02. `asUtf8` of a constructed word is the UTF-8 text of its lower-cased code points, and building a word from
that text gives the same word. The string contains no NUL byte, as a C string. -/
theorem C02_round_trip [Build] [Icu] (s : Bytes) (cps : List Nat) (w : Word) (h0 : 0 ∉ s) (hs : Utf8 s cps)
    (hw : Word.ofUtf8 s = .ok w) :
    ∃ u, Word.asUtf8 w = .ok u ∧ Utf8 u (cps.map lowerCp) ∧ Word.ofUtf8 u = .ok w := by
  obtain ⟨hb, c, hc, rfl⟩ := (ofUtf8_ok_iff s w).1 hw
  obtain rfl := Utf8.det hc hs
  have h16 := lettersOf_lowerCp hs
  refine ⟨_, asUtf8_ok' h16 (nonzero_lettersOf hs h0), utf8_encodes (Utf16.scalar h16), ?_⟩
  obtain ⟨c', hc', hnb, hlow⟩ := ofUtf8_lettersOf hw
  obtain rfl := Utf16.det hc' h16
  have h8 := utf8_encodes (Utf16.scalar h16)
  refine (ofUtf8_ok_iff _ _).2 ⟨?_, _, h8, ?_⟩
  · intro b hb hbb
    have : ∃ b ∈ (List.map lowerCp c).flatMap encodeUtf8, IsBlank b := ⟨b, hb, hbb⟩
    rw [utf8_small h8 IsBlank (fun x h => by have := IsBlank.lt h; omega),
      ← utf16_small h16 IsBlank (fun x h => by have := IsBlank.lt h; omega)] at this
    obtain ⟨l, hl, hl'⟩ := this
    exact hnb l hl hl'
  · conv => rhs; rw [lettersOf, ← Utf16.eq_encodes h16, hlow]

/-- C02. Text that lower-casing leaves alone is returned byte for byte. -/
theorem C02_lower_text [Build] [Icu] (s : Bytes) (cps : List Nat) (w : Word) (h0 : 0 ∉ s) (hs : Utf8 s cps)
    (hw : Word.ofUtf8 s = .ok w) (hl : ∀ c ∈ cps, lowerCp c = c) : Word.asUtf8 w = .ok s := by
  obtain ⟨u, hu, hu8, _⟩ := C02_round_trip s cps w h0 hs hw
  have : cps.map lowerCp = cps := by
    conv => rhs; rw [← List.map_id cps]
    exact List.map_congr_left hl
  rw [this] at hu8
  rw [hu, Utf8.eq_encodes hu8, ← Utf8.eq_encodes hs]

/-- "Åb": the text changes to "Åb" with only the ASCII part lower-cased in this instance. -/
example : @Word.ofUtf8 Example.debug Example.icu [0x42, 0xC3, 0x85] = .ok [0x62#16, 0xC5#16] ∧
    Word.asUtf8 [0x62#16, 0xC5#16] = .ok [0x62, 0xC3, 0x85] := by decide

/-! ### C03 -/

/-- C03. Texts that agree up to lower-casing of their characters give equal words. -/
theorem C03_case [Build] [Icu] (s t : Bytes) (cs ct : List Nat) (v w : Word) (hs : Utf8 s cs) (ht : Utf8 t ct)
    (hv : Word.ofUtf8 s = .ok v) (hw : Word.ofUtf8 t = .ok w) : v = w ↔ cs.map lowerCp = ct.map lowerCp := by
  obtain ⟨_, c, hc, rfl⟩ := (ofUtf8_ok_iff s v).1 hv
  obtain ⟨_, d, hd, rfl⟩ := (ofUtf8_ok_iff t w).1 hw
  obtain rfl := Utf8.det hc hs
  obtain rfl := Utf8.det hd ht
  have h1 := lettersOf_lowerCp hs
  have h2 := lettersOf_lowerCp ht
  constructor
  · intro e; rw [e] at h1; exact Utf16.det h1 h2
  · intro e; rw [Utf16.eq_encodes h1, Utf16.eq_encodes h2, e]

/-- C03. A constructed word is in lower case. -/
theorem C03_lower [Build] [Icu] (s : Bytes) (w : Word) (h : Word.ofUtf8 s = .ok w) : ∀ l ∈ w, Icu.lower l = l := by
  obtain ⟨_, _, _, hl⟩ := ofUtf8_lettersOf h
  intro l hm
  have : w.map Icu.lower = w.map id := by simpa using hl
  exact List.map_inj_left.1 this l hm

example : @Word.ofUtf8 Example.debug Example.icu [0x41, 0x62] = @Word.ofUtf8 Example.debug Example.icu [0x61, 0x42] := by
  decide

/-! ### C04 -/

/-- C04. No conversion leaves its buffers, whatever the input. -/
theorem C04_in_bounds [Build] [Icu] (s : Bytes) (w : Word) :
    utf8ToInternal s ≠ .error .ub ∧ Word.ofUtf8 s ≠ .error .ub ∧ Word.asUtf8 w ≠ .error .ub := by
  refine ⟨?_, ?_, ?_⟩
  · by_cases hs : WellFormed s
    · obtain ⟨c, hc⟩ := hs
      rw [utf8ToInternal_ok hc]; simp
    · rw [utf8ToInternal_bad hs]; simp
  · intro h
    rcases C01_no_other_outcome s _ h with h | h <;> cases h
  · by_cases hs : ∃ c, Utf16 w c
    · obtain ⟨c, hc⟩ := hs
      rw [asUtf8_ok hc]; simp
    · rw [asUtf8_bad hs]; simp

/-- C04. `asUtf8` is total on well-formed letters: the buffer of `4*(len+1)` bytes is always large enough. -/
theorem C04_asUtf8_total (w : Word) : (∃ cps, Utf16 w cps) → ∃ u, Word.asUtf8 w = .ok u := by
  rintro ⟨c, hc⟩; exact ⟨_, asUtf8_ok hc⟩

/-! ### C05 -/

/-- C05 is false: with a buffer exactly as long as the text, the terminator is written one byte past the end. -/
theorem C05_false : ∃ (w : Word) (n : Nat), Word.toUtf8 w n = .error .ub := ⟨[0x61#16], 1, by decide⟩

/-- C05, what holds: the call stores the text when there is room for it and the terminator, throws when the text alone
does not fit, and is out of bounds exactly when the buffer has as many bytes as the text. Missing from the full claim:
the case of equality. -/
theorem C05_partial (w : Word) (cps : List Nat) (s : Bytes) (hw : Utf16 w cps) (hs : Utf8 s cps) (n : Nat) :
    (s.length < n → Word.toUtf8 w n = .ok s) ∧ (n < s.length → Word.toUtf8 w n = .error .runtimeError) ∧
    (n = s.length ↔ Word.toUtf8 w n = .error .ub) := by
  rw [Utf8.eq_encodes hs]
  simp only [Word.toUtf8, internalToUtf8, decodeUtf16_complete hw]
  refine ⟨?_, ?_, ?_⟩
  · intro h; rw [if_neg (by omega), if_pos h]
  · intro h; rw [if_pos h]
  · constructor
    · intro h; rw [if_neg (by omega), if_neg (by omega)]
    · intro h
      split at h
      · cases h
      · split at h
        · cases h
        · omega

/-- C05. An ill-formed word throws. -/
theorem C05_ill_formed (w : Word) (n : Nat) (hw : ¬ ∃ cps, Utf16 w cps) : Word.toUtf8 w n = .error .runtimeError := by
  have : decodeUtf16 w = none := by
    cases hd : decodeUtf16 w with
    | none => rfl
    | some c => exact absurd ⟨c, decodeUtf16_sound _ _ hd⟩ hw
  simp [Word.toUtf8, internalToUtf8, this]

example : Word.toUtf8 [0xE5#16, 0x62#16] 4 = .ok [0xC3, 0xA5, 0x62] ∧
    Word.toUtf8 [0xE5#16, 0x62#16] 3 = .error .ub ∧ Word.toUtf8 [0xE5#16, 0x62#16] 2 = .error .runtimeError := by decide

/-! ### C06 -/

/-- The letters of the array without a final NUL. -/
def trimNul (letters : List Letter) : List Letter :=
  if letters.getLast? = some 0#16 then letters.dropLast else letters

/-- C06 is false: an array ending in a lone high surrogate is accepted, in every build. -/
theorem C06_false_accepts [Build] : ∃ letters w, Word.ofLetters letters = .ok w ∧ ¬ ∃ cps, Utf16 w cps := by
  refine ⟨[0xD800#16], [0xD800#16], ?_, ?_⟩
  · simp [Word.ofLetters, hasWhitespace, isWhitespace, isInList, whitespaceLetters, hasBrokenSurrogates, brokenLoop,
      isSurrogate, isHighSurrogate, cassert]
  · rintro ⟨c, hc⟩
    cases hc with
    | bmp h _ => simp at h

/-- C06 is false: two high surrogates abort a debug build and are accepted by a release build. -/
theorem C06_false_assertion : @Word.ofLetters Example.debug [0xD800#16, 0xD800#16] = .error .assertion ∧
    @Word.ofLetters Example.release [0xD800#16, 0xD800#16] = .ok [0xD800#16, 0xD800#16] := by decide

/-- C06 is false: an empty array is read at index -1. -/
theorem C06_false_empty [Build] : Word.ofLetters [] = .error .ub := rfl

/-- C06, what holds: for a non-empty array in which every high surrogate is followed by something that is not a high
surrogate, the constructor accepts exactly the blank-free well-formed letters (a final NUL does not count) and rejects
all others with `invalid_argument`. Missing from the full claim: arrays with an unguarded high surrogate, which may be
accepted or abort, and the empty array. -/
theorem C06_partial [Build] (letters : List Letter) (hne : letters ≠ []) (hg : HighsGuarded (trimNul letters)) :
    ((∃ cps, Utf16 (trimNul letters) cps) ∧ (∀ l ∈ trimNul letters, ¬ IsBlank l.toNat) →
      Word.ofLetters letters = .ok (trimNul letters)) ∧
    (¬ ((∃ cps, Utf16 (trimNul letters) cps) ∧ ∀ l ∈ trimNul letters, ¬ IsBlank l.toNat) →
      Word.ofLetters letters = .error .invalidArgument) := by
  have e : Word.ofLetters letters = if hasWhitespace (trimNul letters) then .error .invalidArgument else
      hasBrokenSurrogates (trimNul letters) >>= fun broken =>
        if broken then .error .invalidArgument else .ok (trimNul letters) := by
    unfold Word.ofLetters trimNul
    cases hl : letters.getLast? with
    | none => exact absurd (List.getLast?_eq_none_iff.1 hl) hne
    | some last => simp only [Option.some.injEq]
  rw [e]
  constructor
  · rintro ⟨⟨c, hc⟩, hb⟩
    rw [(hasWhitespace_false_iff _).2 hb, hasBrokenSurrogates_utf16 hc]; rfl
  · intro h
    by_cases hb : hasWhitespace (trimNul letters) = true
    · rw [if_pos hb]
    · have hb' : hasWhitespace (trimNul letters) = false := by simpa using hb
      rw [if_neg hb]
      have hc : ¬ ∃ cps, Utf16 (trimNul letters) cps := fun hc => h ⟨hc, (hasWhitespace_false_iff _).1 hb'⟩
      rw [hasBrokenSurrogates, brokenLoop_bad _ hg hc]; rfl

/-- C06. Blank-free well-formed letters are always accepted. -/
theorem C06_well_formed [Build] (letters : List Letter) (hne : letters ≠ [])
    (hw : ∃ cps, Utf16 (trimNul letters) cps) (hb : ∀ l ∈ trimNul letters, ¬ IsBlank l.toNat) :
    Word.ofLetters letters = .ok (trimNul letters) := by
  obtain ⟨c, hc⟩ := hw
  unfold Word.ofLetters
  unfold trimNul at *
  cases hl : letters.getLast? with
  | none => exact absurd (List.getLast?_eq_none_iff.1 hl) hne
  | some last =>
    rw [hl] at hc hb
    simp only [Option.some.injEq] at hc hb ⊢
    simp [(hasWhitespace_false_iff _).2 hb, hasBrokenSurrogates_utf16 hc]

/-- C06. A blank is always rejected. -/
theorem C06_blank [Build] (letters : List Letter) (hb : ∃ l ∈ trimNul letters, IsBlank l.toNat) :
    Word.ofLetters letters = .error .invalidArgument := by
  unfold Word.ofLetters
  unfold trimNul at hb
  cases hl : letters.getLast? with
  | none =>
    rw [List.getLast?_eq_none_iff.1 hl] at hb; simp at hb
  | some last =>
    rw [hl] at hb
    simp only [Option.some.injEq] at hb
    simp only
    rw [if_pos ((hasWhitespace_iff _).2 hb)]

theorem ofLetters_eq [Build] (letters : List Letter) (hne : letters ≠ []) (hb : ∀ l ∈ trimNul letters, ¬ IsBlank l.toNat) :
    Word.ofLetters letters = hasBrokenSurrogates (trimNul letters) >>= fun broken =>
      if broken then .error .invalidArgument else .ok (trimNul letters) := by
  unfold Word.ofLetters
  unfold trimNul at *
  cases hl : letters.getLast? with
  | none => exact absurd (List.getLast?_eq_none_iff.1 hl) hne
  | some last =>
    rw [hl] at hb
    simp only [Option.some.injEq] at hb ⊢
    rw [(hasWhitespace_false_iff _).2 hb]; rfl

/-- C06. What a release build does with an array without blanks: it accepts more than well-formed letters, namely any
surrogate after a high one, and a high one at the end. -/
theorem C06_release_partial [Build] (ha : Build.asserts = false) (letters : List Letter) (hne : letters ≠ [])
    (hb : ∀ l ∈ trimNul letters, ¬ IsBlank l.toNat) :
    (Loose16 (trimNul letters) → Word.ofLetters letters = .ok (trimNul letters)) ∧
    (¬ Loose16 (trimNul letters) → Word.ofLetters letters = .error .invalidArgument) := by
  obtain ⟨h1, h2⟩ := brokenLoop_loose ha (trimNul letters)
  rw [ofLetters_eq letters hne hb, hasBrokenSurrogates]
  exact ⟨fun h => by rw [h1 h]; rfl, fun h => by rw [h2 h]; rfl⟩

/-- C06. What a debug build does with an array without blanks: it accepts well-formed letters, also with a high surrogate at
the end, is aborted by two high surrogates after well-formed letters, and rejects all others. -/
theorem C06_debug_partial [Build] (ha : Build.asserts = true) (letters : List Letter) (hne : letters ≠ [])
    (hb : ∀ l ∈ trimNul letters, ¬ IsBlank l.toNat) :
    ((∃ cps, Utf16 (trimNul letters) cps) ∨ (∃ p cps u, Utf16 p cps ∧ HighUnit u ∧ trimNul letters = p ++ [u]) →
      Word.ofLetters letters = .ok (trimNul letters)) ∧
    ((∃ p cps u v r, Utf16 p cps ∧ HighUnit u ∧ HighUnit v ∧ trimNul letters = p ++ u :: v :: r) →
      Word.ofLetters letters = .error .assertion) ∧
    ((¬ ∃ cps, Utf16 (trimNul letters) cps) ∧ (¬ ∃ p cps u, Utf16 p cps ∧ HighUnit u ∧ trimNul letters = p ++ [u]) ∧
      (¬ ∃ p cps u v r, Utf16 p cps ∧ HighUnit u ∧ HighUnit v ∧ trimNul letters = p ++ u :: v :: r) →
      Word.ofLetters letters = .error .invalidArgument) := by
  rw [ofLetters_eq letters hne hb]
  generalize trimNul letters = w
  refine ⟨?_, ?_, ?_⟩
  · rintro (⟨c, hc⟩ | ⟨p, c, u, hc, hu, rfl⟩)
    · rw [hasBrokenSurrogates_utf16 hc]; rfl
    · rw [hasBrokenSurrogates, brokenLoop_end hc hu]; rfl
  · rintro ⟨p, c, u, v, r, hc, hu, hv, rfl⟩
    rw [hasBrokenSurrogates, brokenLoop_highs ha hc hu hv]; rfl
  · rintro ⟨h0, h1, h2⟩
    rw [hasBrokenSurrogates, brokenLoop_other w h0 h1 h2]; rfl

example : Loose16 [0x61#16, 0xD83D#16, 0xD83D#16, 0xD83D#16] ∧ ¬ Loose16 [0xD83D#16, 0x61#16] := by
  refine ⟨.plain (by decide) (.pair (by unfold HighUnit; decide) (by decide) (by decide) (.last (by unfold HighUnit; decide))), ?_⟩
  intro h
  cases h with
  | plain h _ => exact absurd h (by decide)
  | pair _ h _ _ => exact absurd h (by decide)

example : @Word.ofLetters Example.debug [0x61#16, 0xD83D#16, 0xDE00#16, 0#16] = .ok [0x61#16, 0xD83D#16, 0xDE00#16] ∧
    @Word.ofLetters Example.debug [0xDE00#16, 0x61#16] = .error .invalidArgument ∧
    @Word.ofLetters Example.debug [0xD83D#16, 0x61#16] = .error .invalidArgument := by decide

/-! ### C07 -/

/-- C07. `<` is a strict total order that agrees with `==`, and a proper prefix comes first. -/
theorem C07_strict_total_order :
    (∀ a, Word.lt a a = false) ∧
    (∀ a b c, Word.lt a b = true → Word.lt b c = true → Word.lt a c = true) ∧
    (∀ a b, Word.lt a b = true ∨ Word.beq a b = true ∨ Word.lt b a = true) ∧
    (∀ a b, Word.beq a b = true ↔ Word.lt a b = false ∧ Word.lt b a = false) ∧
    (∀ a b, Word.beq a b = true ↔ a = b) ∧
    (∀ a b, b ≠ [] → Word.lt a (a ++ b) = true) := by
  refine ⟨Word.lt_irrefl, fun _ _ _ => Word.lt_trans, ?_, ?_, Word.beq_iff, ?_⟩
  · intro a b; rw [Word.beq_iff]; exact Word.lt_trichotomy a b
  · intro a b; rw [Word.beq_iff, Word.not_lt_both]
  · intro a b hb
    induction a with
    | nil => simp [Word.lt, List.length_pos_iff.2 hb]
    | cons x a ih => simp [Word.lt, ih]

/-- C07. The order is lexicographic on letter values. -/
theorem C07_lexicographic (a b : Word) :
    Word.lt a b = true ↔ List.Lex (· < ·) (a.map BitVec.toNat) (b.map BitVec.toNat) := Word.lt_lex a b

example : Word.lt [0x61#16, 0x62#16] [0x61#16, 0x63#16] = true ∧ Word.lt [0x61#16] [0x61#16, 0x62#16] = true ∧
    Word.lt [0x62#16] [0x61#16, 0x62#16] = false := by decide

/-! ### C08 -/

/-- C08 is false: after the exception of `w = "a b"` the object has a null pointer and a length of three, and reading
its letters is undefined. -/
theorem C08_false : ∃ (old : WordObj) (s : Bytes) (o : WordObj),
    @WordObj.assignUtf8 Example.debug Example.icu old s = (o, some .invalidArgument) ∧ o.value = .error .ub ∧
    WordObj.assign .empty o = .error .ub := by
  exact ⟨.empty, [0x61, 0x20, 0x62], ⟨none, 3⟩, by decide, by decide, by decide⟩

/-- The object can be read, copied and joined, and holds `w`. -/
def Holds (o : WordObj) (w : Word) : Prop :=
  o.value = .ok w ∧ o.len = w.length ∧ ∀ old, ∃ o', WordObj.assign old o = .ok o' ∧ o'.value = .ok w

/-- C08, what holds: successful assignment gives an object holding the word, and a failure on ill-formed UTF-8 leaves
the empty word. Missing from the full claim: the failure on blanks, which leaves an object that cannot be read. -/
theorem C08_partial [Build] [Icu] (old : WordObj) (s : Bytes) :
    (∀ w, Word.ofUtf8 s = .ok w →
      ∃ o, WordObj.assignUtf8 old s = (o, none) ∧ Holds o w) ∧
    (¬ WellFormed s → ∃ o, WordObj.assignUtf8 old s = (o, some .runtimeError) ∧ Holds o []) ∧
    (WellFormed s → (∃ b ∈ s, IsBlank b) →
      ∃ o, WordObj.assignUtf8 old s = (o, some .invalidArgument) ∧ o.value = .error .ub) := by
  refine ⟨?_, ?_, ?_⟩
  · intro w hw
    obtain ⟨hb, c, hc, rfl⟩ := (ofUtf8_ok_iff s w).1 hw
    have hws : hasWhitespace (lettersOf c) = false := by
      rw [← Bool.not_eq_true, hasWhitespace_iff, blank_lettersOf hc]; simpa using hb
    refine ⟨⟨some (lettersOf c ++ [0#16]), (lettersOf c).length⟩, ?_, ?_, rfl, ?_⟩
    · simp [WordObj.assignUtf8, utf8ToInternal_ok hc, hws, hasBrokenSurrogates_utf16 (lettersOf_lowerCp hc)]
    · simp only [WordObj.value]
      split
      · rename_i h; rw [List.eq_nil_of_length_eq_zero h]
      · simp
    · intro old
      simp only [WordObj.assign]
      split
      · rename_i h; exact ⟨_, rfl, by simp [WordObj.value, List.eq_nil_of_length_eq_zero h]⟩
      · rename_i h; exact ⟨⟨some (lettersOf c ++ [0#16]), (lettersOf c).length⟩, by simp [List.take_of_length_le], by simp [WordObj.value, h]⟩
  · intro h
    refine ⟨⟨none, 0⟩, by simp [WordObj.assignUtf8, utf8ToInternal_bad h], rfl, rfl, ?_⟩
    intro old; exact ⟨_, rfl, rfl⟩
  · rintro ⟨c, hc⟩ hb
    have hws : hasWhitespace (lettersOf c) = true := by
      rw [hasWhitespace_iff, blank_lettersOf hc]; exact hb
    refine ⟨⟨none, (lettersOf c).length⟩, ?_, ?_⟩
    · simp [WordObj.assignUtf8, utf8ToInternal_ok hc, hws]
    · have : (lettersOf c).length ≠ 0 := by
        intro h
        rw [List.eq_nil_of_length_eq_zero h] at hws
        simp [hasWhitespace] at hws
      simp [WordObj.value, this]

/-- C08. A constructed object holds the word; the constructor throws what the conversion throws. -/
theorem C08_constructed [Build] [Icu] (s : Bytes) :
    (∀ w, Word.ofUtf8 s = .ok w → ∃ o, WordObj.new s = .ok o ∧ Holds o w) ∧
    (∀ f, Word.ofUtf8 s = .error f → WordObj.new s = .error f) := by
  constructor
  · intro w hw
    refine ⟨WordObj.ofValue w, by simp only [WordObj.new, hw, ok_bind], ?_, rfl, ?_⟩
    · cases w <;> simp [WordObj.value, WordObj.ofValue]
    · intro old
      cases w with
      | nil => exact ⟨_, rfl, rfl⟩
      | cons l w => exact ⟨WordObj.ofValue (l :: w), by simp [WordObj.assign, WordObj.ofValue, List.take_of_length_le], by simp [WordObj.value, WordObj.ofValue]⟩
  · intro f hf
    simp only [WordObj.new, hf]; rfl

/-- C08. Copy and move assignment transfer the value; the moved-from object is the empty word. -/
theorem C08_copy_move (old o : WordObj) (w : Word) (h : Holds o w) :
    (∃ o', WordObj.assign old o = .ok o' ∧ o'.value = .ok w ∧ o'.len = w.length) ∧
    Holds (WordObj.moveAssign old o).1 w ∧ Holds (WordObj.moveAssign old o).2 [] := by
  refine ⟨?_, h, rfl, rfl, fun old => ⟨_, rfl, rfl⟩⟩
  obtain ⟨o', h1, h2⟩ := h.2.2 old
  refine ⟨o', h1, h2, ?_⟩
  have hl := h.2.1
  unfold WordObj.assign at h1
  split at h1
  · cases h1; simp_all
  · split at h1
    · cases h1
    · split at h1
      · cases h1; exact hl
      · cases h1

example : @WordObj.assignUtf8 Example.debug Example.icu .empty [0x61, 0x62] =
    (⟨some [0x61#16, 0x62#16, 0#16], 2⟩, none) := by decide

/-! ### C09 -/

/-- C09. For all words: the joined object holds the letters of both, in order, no letter can be read after them, and
there is no blank in it if there is none in either. -/
theorem C09_join (a b : WordObj) (v w : Word) (ha : a.value = .ok v) (hb : b.value = .ok w) :
    ∃ o, WordObj.join a b = .ok o ∧ o.value = .ok (v ++ w) ∧ o.len = v.length + w.length ∧
      (∀ i l, v[i]? = some l → WordObj.at o i = .ok l) ∧
      (∀ i l, w[i]? = some l → WordObj.at o (v.length + i) = .ok l) ∧
      (∀ i, v.length + w.length ≤ i → WordObj.at o i = .error .outOfRange) ∧
      ((∀ l ∈ v, ¬ IsBlank l.toNat) → (∀ l ∈ w, ¬ IsBlank l.toNat) → ∀ i l, WordObj.at o i = .ok l → ¬ IsBlank l.toNat) := by
  refine ⟨⟨some (v ++ w ++ [0#16]), v.length + w.length⟩, by simp only [WordObj.join, ha, hb, ok_bind], ?_, rfl, ?_, ?_, ?_, ?_⟩
  · simp only [WordObj.value]
    split
    · rename_i h
      have h1 : v = [] := List.eq_nil_of_length_eq_zero (by omega)
      have h2 : w = [] := List.eq_nil_of_length_eq_zero (by omega)
      simp [h1, h2]
    · rw [if_pos (by simp), ← List.length_append, List.take_left]
  · intro i l hi
    have hlt := (List.getElem?_eq_some_iff.1 hi).1
    simp only [WordObj.at]
    rw [if_neg (by omega), List.append_assoc, List.getElem?_append_left hlt, hi]
  · intro i l hi
    have hlt := (List.getElem?_eq_some_iff.1 hi).1
    simp only [WordObj.at]
    rw [if_neg (by omega), List.append_assoc, List.getElem?_append_right (by omega), Nat.add_sub_cancel_left,
      List.getElem?_append_left hlt, hi]
  · intro i hi
    simp only [WordObj.at]
    rw [if_pos hi]
  · intro h1 h2 i l h
    simp only [WordObj.at] at h
    split at h
    · cases h
    · rename_i hi
      rw [List.getElem?_append_left (by simp; omega)] at h
      cases hl : (v ++ w)[i]? with
      | none => rw [hl] at h; cases h
      | some x =>
        rw [hl] at h
        injection h with h
        subst h
        rcases List.mem_append.1 (List.mem_of_getElem? hl) with hm | hm
        · exact h1 _ hm
        · exact h2 _ hm

/-- C09 is false of the text of words with NUL letters, which the letter-array constructor makes: the text ends at the
first NUL. -/
theorem C09_false : @Word.ofLetters Example.debug [0x61#16, 0#16, 0#16] = .ok [0x61#16, 0#16] ∧
    Word.asUtf8 [0x61#16, 0#16] = .ok [0x61] ∧ Word.asUtf8 [0x62#16] = .ok [0x62] ∧
    Word.asUtf8 (Word.join [0x61#16, 0#16] [0x62#16]) = .ok [0x61] := by decide +kernel

/-- C09, what holds of the text: for NUL-free well-formed words it is the concatenation of the texts. Missing from the
full claim: words with NUL letters, and words with broken surrogate pairs, which have no text (C05_ill_formed). -/
theorem C09_text_partial (v w : Word) (hv : ∃ c, Utf16 v c) (hw : ∃ c, Utf16 w c) (hv0 : ∀ l ∈ v, l ≠ 0#16)
    (hw0 : ∀ l ∈ w, l ≠ 0#16) :
    ∃ a b, Word.asUtf8 v = .ok a ∧ Word.asUtf8 w = .ok b ∧ Word.asUtf8 (Word.join v w) = .ok (a ++ b) := by
  obtain ⟨c, hc⟩ := hv
  obtain ⟨d, hd⟩ := hw
  refine ⟨_, _, asUtf8_ok' hc hv0, asUtf8_ok' hd hw0, ?_⟩
  rw [Word.join, asUtf8_ok' (Columbus.Utf16.append hc hd) (by
    intro l hl
    rcases List.mem_append.1 hl with hl | hl
    · exact hv0 l hl
    · exact hw0 l hl)]
  simp

/-- C09. Joining the words of two texts gives the word of the two texts together. -/
theorem C09_texts [Build] [Icu] (s t : Bytes) (v w : Word) (hs0 : 0 ∉ s) (ht0 : 0 ∉ t) (hv : Word.ofUtf8 s = .ok v)
    (hw : Word.ofUtf8 t = .ok w) :
    (∀ l ∈ Word.join v w, ¬ IsBlank l.toNat) ∧
    (∃ a b, Word.asUtf8 v = .ok a ∧ Word.asUtf8 w = .ok b ∧ Word.asUtf8 (Word.join v w) = .ok (a ++ b)) ∧
    Word.ofUtf8 (s ++ t) = .ok (Word.join v w) := by
  obtain ⟨hbs, c, hc, rfl⟩ := (ofUtf8_ok_iff s v).1 hv
  obtain ⟨hbt, d, hd, rfl⟩ := (ofUtf8_ok_iff t w).1 hw
  have e : Word.join (lettersOf c) (lettersOf d) = lettersOf (c ++ d) := by
    simp [Word.join, lettersOf]
  have hcd := Utf8.append hc hd
  have hj : Word.ofUtf8 (s ++ t) = .ok (lettersOf (c ++ d)) := by
    refine (ofUtf8_ok_iff _ _).2 ⟨?_, _, hcd, rfl⟩
    intro b hb
    rcases List.mem_append.1 hb with hb | hb
    · exact hbs b hb
    · exact hbt b hb
  refine ⟨?_, ⟨_, _, asUtf8_ok' (lettersOf_lowerCp hc) (nonzero_lettersOf hc hs0),
    asUtf8_ok' (lettersOf_lowerCp hd) (nonzero_lettersOf hd ht0), ?_⟩, ?_⟩
  · rw [e]; obtain ⟨_, _, h, _⟩ := ofUtf8_lettersOf hj; exact h
  · rw [e, asUtf8_ok' (lettersOf_lowerCp hcd) (nonzero_lettersOf hcd (by simp [hs0, ht0]))]
    simp
  · rw [e, hj]

example : WordObj.join (.ofValue [0x61#16]) .empty = .ok (.ofValue [0x61#16]) := by decide

/-! ### C10 -/

/-- C10. The hash is defined for every word and is the exclusive or, over the bytes of the letters, of the table entry
selected by byte value plus position. -/
theorem C10_hash (w : Word) :
    Word.hash w = .ok (((w.flatMap fun l => [l.toNat % 256, l.toNat / 256]).zipIdx.map fun p =>
      randomNumbers.getD ((p.1 + p.2) % 256) 0).foldl (· ^^^ ·) 0) := by
  have : ∀ (bs : List Nat) (i : Nat) (r : BitVec 64), hashLoop i r bs =
      .ok (((bs.zipIdx i).map fun p => randomNumbers.getD ((p.1 + p.2) % 256) 0).foldl (· ^^^ ·) r) := by
    intro bs
    induction bs with
    | nil => intro i r; rfl
    | cons b bs ih =>
      intro i r
      have hlt : (b + i % 256) % 256 < 256 := Nat.mod_lt _ (by omega)
      have he : (b + i % 256) % 256 = (b + i) % 256 := by omega
      simp only [hashLoop, randomNumber]
      rw [if_pos hlt]
      simp only [ok_bind, ih, he, List.zipIdx_cons, List.map_cons, List.foldl_cons]
  exact this _ _ _

/-- C10. Texts that differ only in case hash equally, and the hash never fails. -/
theorem C10_case [Build] [Icu] (s t : Bytes) (cs ct : List Nat) (v w : Word) (hs : Utf8 s cs) (ht : Utf8 t ct)
    (hv : Word.ofUtf8 s = .ok v) (hw : Word.ofUtf8 t = .ok w) (h : cs.map lowerCp = ct.map lowerCp) :
    ∃ n, Word.hash v = .ok n ∧ Word.hash w = .ok n := by
  rw [(C03_case s t cs ct v w hs ht hv hw).2 h]
  exact ⟨_, C10_hash w, C10_hash w⟩

example : Word.hash [] = .ok 0 ∧ Word.hash [0x01#16] = .ok (0xcfd220f4878a1427 ^^^ 0xcfd220f4878a1427) := by decide

/-! ### C11 -/

/-- C11. Splitting succeeds exactly on well-formed text and yields the words of the maximal blank-free runs in order;
ill-formed text raises `runtime_error`. -/
theorem C11_split [Build] [Icu] (s : Bytes) :
    ∃ ts, Tokens s ts ∧
      (WellFormed s → ∃ ws, splitToWords s = .ok ws ∧ List.Forall₂ (fun t w => Word.ofUtf8 t = .ok w) ts ws) ∧
      (¬ WellFormed s → splitToWords s = .error .runtimeError) := by
  obtain ⟨ts, hts⟩ := tokens_exists s
  refine ⟨ts, hts, ?_, ?_⟩
  · intro h
    have hw := (wellFormed_tokens hts).1 h
    obtain ⟨ws, hws⟩ := wordsOf_good fun t ht => ⟨hw t ht, (tokens_mem hts t ht).2⟩
    exact ⟨ws, by rw [splitToWords_tokens hts, hws], wordsOf_ok.1 hws⟩
  · intro h
    rw [wellFormed_tokens hts] at h
    rw [splitToWords_tokens hts]
    exact wordsOf_bad (fun t ht => (tokens_mem hts t ht).2) h

/-- C11. No word of the result is empty or contains a blank. -/
theorem C11_words [Build] [Icu] (s : Bytes) (ws : List Word) (h : splitToWords s = .ok ws) :
    ∀ w ∈ ws, w ≠ [] ∧ ∀ l ∈ w, ¬ IsBlank l.toNat := by
  obtain ⟨ts, hts⟩ := tokens_exists s
  rw [splitToWords_tokens hts, wordsOf_ok] at h
  have hne := tokens_mem hts
  clear hts
  induction h with
  | nil => simp
  | cons hw _ ih =>
    rename_i t w ts ws _
    intro v hv
    rcases List.mem_cons.1 hv with rfl | hv
    · refine ⟨?_, (ofUtf8_lettersOf hw).choose_spec.2.1⟩
      rintro rfl
      obtain ⟨_, c, hc, he⟩ := (ofUtf8_ok_iff _ _).1 hw
      have := lettersOf_lowerCp hc
      rw [← he] at this
      generalize hq : c.map lowerCp = q at this
      cases this
      rw [List.map_eq_nil_iff] at hq
      subst hq
      cases hc
      exact (hne [] (by simp)).1 rfl
    · exact ih (fun t ht => hne t (by simp [ht])) v hv

/-- C11. Texts with the same blank-free runs give the same words: leading, trailing and repeated separators and the
kind of separator do not matter. -/
theorem C11_separators [Build] [Icu] (s t : Bytes) (ts : List Bytes) (hs : Tokens s ts) (ht : Tokens t ts) :
    splitToWords s = splitToWords t := by
  rw [splitToWords_tokens hs, splitToWords_tokens ht]

example : @splitToWords Example.debug Example.icu [0x20, 0x41, 0x09, 0x20, 0x62, 0x63, 0x0a] =
    .ok [[0x61#16], [0x62#16, 0x63#16]] := by decide

end Columbus.Props
