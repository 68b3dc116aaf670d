import Verif.Proofs.Wide
import Verif.Props.Example
/-
C87: words in the `full_unicode` build, where a letter is a code point.
-/

namespace Columbus.Props
open Columbus Spec

/-- Simple lower-casing of a code point, in every plane. -/
def lowerPoint [Wide.Icu] (c : Nat) : Nat := (Wide.Icu.lower (BitVec.ofNat 32 c)).toNat

theorem toNat_lettersOf [Wide.Icu] (cps : List Nat) : (Wide.lettersOf cps).map BitVec.toNat = cps.map lowerPoint := by
  simp [Wide.lettersOf, Wide.encodeUtf32, lowerPoint]

/-- C87. The constructor accepts exactly the well-formed UTF-8 strings without blanks, and the word has one letter per
character: its code point, lower-cased. -/
theorem C87_accepts [Build] [Wide.Icu] (s : Bytes) :
    ((∃ w, Wide.Word.ofUtf8 s = .ok w) ↔ WellFormed s ∧ ∀ b ∈ s, ¬ IsBlank b) ∧
    ∀ cps w, Utf8 s cps → Wide.Word.ofUtf8 s = .ok w → w.map BitVec.toNat = cps.map lowerPoint := by
  refine ⟨⟨?_, ?_⟩, ?_⟩
  · rintro ⟨w, hw⟩
    obtain ⟨hb, c, hc, _⟩ := (Wide.ofUtf8_ok_iff s w).1 hw
    exact ⟨⟨c, hc⟩, hb⟩
  · rintro ⟨⟨c, hc⟩, hb⟩
    exact ⟨_, (Wide.ofUtf8_ok_iff s _).2 ⟨hb, c, hc, rfl⟩⟩
  · intro cps w hs hw
    obtain ⟨_, c, hc, rfl⟩ := (Wide.ofUtf8_ok_iff s w).1 hw
    rw [Utf8.det hc hs, toNat_lettersOf]

/-- C87. The kind of every rejection. -/
theorem C87_rejects [Build] [Wide.Icu] (s : Bytes) :
    (¬ WellFormed s → Wide.Word.ofUtf8 s = .error .runtimeError) ∧
    (WellFormed s → (∃ b ∈ s, IsBlank b) → Wide.Word.ofUtf8 s = .error .invalidArgument) := by
  refine ⟨Wide.ofUtf8_bad, ?_⟩
  rintro ⟨c, hc⟩ hb
  rw [Wide.ofUtf8_of_utf8 hc, if_pos hb]

/-- C87. `asUtf8` of a constructed word is the UTF-8 text of its lower-cased characters, and building a word from that
text gives the same word. -/
theorem C87_round_trip [Build] [Wide.Icu] (s : Bytes) (cps : List Nat) (w : Wide.Word) (h0 : 0 ∉ s) (hs : Utf8 s cps)
    (hw : Wide.Word.ofUtf8 s = .ok w) :
    ∃ u, Wide.Word.asUtf8 w = .ok u ∧ Utf8 u (cps.map lowerPoint) ∧ Wide.Word.ofUtf8 u = .ok w := by
  obtain ⟨hb, c, hc, rfl⟩ := (Wide.ofUtf8_ok_iff s w).1 hw
  obtain rfl := Utf8.det hc hs
  have hsc := Wide.scalars_lettersOf (Utf8.scalar hs)
  have h8 : Utf8 (((Wide.lettersOf c).map BitVec.toNat).flatMap encodeUtf8) ((Wide.lettersOf c).map BitVec.toNat) :=
    utf8_encodes (by simpa [Wide.Scalars] using hsc)
  refine ⟨_, Wide.asUtf8_ok' hsc (Wide.nonzero_lettersOf hs h0), by rw [← toNat_lettersOf]; exact h8, ?_⟩
  refine (Wide.ofUtf8_ok_iff _ _).2 ⟨?_, _, h8, ?_⟩
  · intro b hb' hbb
    have : ∃ b ∈ ((Wide.lettersOf c).map BitVec.toNat).flatMap encodeUtf8, IsBlank b := ⟨b, hb', hbb⟩
    rw [utf8_small h8 IsBlank (fun x h => by have := IsBlank.lt h; omega)] at this
    obtain ⟨x, hx, hxb⟩ := this
    obtain ⟨l, hl, rfl⟩ := List.mem_map.1 hx
    obtain ⟨b, hb1, hb2⟩ := (Wide.blank_lettersOf hs).1 ⟨l, hl, hxb⟩
    exact hb b hb1 hb2
  · rw [Wide.lettersOf_toNat, Wide.lower_lettersOf]

/-- C87. Equality of words is equality of the lower-cased characters, for `==` and as a value. -/
theorem C87_case [Build] [Wide.Icu] (s t : Bytes) (cs ct : List Nat) (v w : Wide.Word) (hs : Utf8 s cs) (ht : Utf8 t ct)
    (hv : Wide.Word.ofUtf8 s = .ok v) (hw : Wide.Word.ofUtf8 t = .ok w) :
    Wide.Word.beq v w = true ↔ cs.map lowerPoint = ct.map lowerPoint := by
  rw [Wide.Word.beq_iff, ← Wide.letters_inj, (C87_accepts s).2 cs v hs hv, (C87_accepts t).2 ct w ht hw]

/-- C87. `<` is the lexicographic order of the lower-cased code points. -/
theorem C87_order [Build] [Wide.Icu] (s t : Bytes) (cs ct : List Nat) (v w : Wide.Word) (hs : Utf8 s cs) (ht : Utf8 t ct)
    (hv : Wide.Word.ofUtf8 s = .ok v) (hw : Wide.Word.ofUtf8 t = .ok w) :
    Wide.Word.lt v w = true ↔ List.Lex (· < ·) (cs.map lowerPoint) (ct.map lowerPoint) := by
  rw [Wide.Word.lt_lex, (C87_accepts s).2 cs v hs hv, (C87_accepts t).2 ct w ht hw]

/-- The letters of the array without a final NUL. -/
def trimWide (letters : List Wide.Letter) : List Wide.Letter :=
  if letters.getLast? = some 0#32 then letters.dropLast else letters

/-- C87. Words from letters: exactly the blank-free arrays are accepted, whatever the letters are, in every build. The
empty array is read before its beginning. -/
theorem C87_letters [Build] (letters : List Wide.Letter) :
    (letters = [] → Wide.Word.ofLetters letters = .error .ub) ∧
    (letters ≠ [] → (∀ l ∈ trimWide letters, ¬ IsBlank l.toNat) → Wide.Word.ofLetters letters = .ok (trimWide letters)) ∧
    ((∃ l ∈ trimWide letters, IsBlank l.toNat) → Wide.Word.ofLetters letters = .error .invalidArgument) := by
  have e : letters ≠ [] → Wide.Word.ofLetters letters = if Wide.hasWhitespace (trimWide letters) then .error .invalidArgument
      else .ok (trimWide letters) := by
    intro hne
    unfold Wide.Word.ofLetters trimWide
    cases hl : letters.getLast? with
    | none => exact absurd (List.getLast?_eq_none_iff.1 hl) hne
    | some last => simp [Wide.hasBrokenSurrogates_false]
  refine ⟨?_, ?_, ?_⟩
  · rintro rfl; rfl
  · intro hne hb
    rw [e hne, if_neg]
    rw [Wide.hasWhitespace_iff]; simpa using hb
  · intro hb
    rw [e, if_pos ((Wide.hasWhitespace_iff _).2 hb)]
    rintro rfl
    simp [trimWide] at hb

/-- C87. The text of a word: words of characters have one, up to the first NUL; all others throw. -/
theorem C87_text (w : Wide.Word) :
    ((∀ l ∈ w, IsScalar l.toNat) → ∃ u, Wide.Word.asUtf8 w = .ok u ∧ (0#32 ∉ w → Utf8 u (w.map BitVec.toNat))) ∧
    (¬ (∀ l ∈ w, IsScalar l.toNat) → Wide.Word.asUtf8 w = .error .runtimeError) := by
  refine ⟨?_, Wide.asUtf8_bad⟩
  intro h
  refine ⟨_, Wide.asUtf8_ok h, ?_⟩
  intro h0
  have e := (Wide.asUtf8_ok h).symm.trans (Wide.asUtf8_ok' h h0)
  injection e with e
  rw [e]
  exact utf8_encodes (by simpa using h)

/-- C87. The text of a word in a buffer, as C05 has it: stored if there is room for it and the terminator, an exception if the
text alone does not fit, and a byte beyond the buffer if it just fits. -/
theorem C87_buffer (w : Wide.Word) (n : Nat) :
    (∀ s, Utf8 s (w.map BitVec.toNat) → (s.length < n → Wide.Word.toUtf8 w n = .ok s) ∧
      (n < s.length → Wide.Word.toUtf8 w n = .error .runtimeError) ∧ (n = s.length ↔ Wide.Word.toUtf8 w n = .error .ub)) ∧
    (¬ (∀ l ∈ w, IsScalar l.toNat) → Wide.Word.toUtf8 w n = .error .runtimeError) := by
  constructor
  · intro s hs
    have hsc : Wide.Scalars w := by simpa [Wide.Scalars] using Utf8.scalar hs
    rw [Utf8.eq_encodes hs]
    simp only [Wide.Word.toUtf8, Wide.internalToUtf8, Wide.decodeUtf32_ok hsc]
    refine ⟨?_, ?_, ?_⟩
    · intro h; rw [if_neg (by omega), if_pos h]
    · intro h; rw [if_pos h]
    · constructor
      · intro h; rw [if_neg (by omega), if_neg (by omega)]
      · intro h
        split at h
        · cases h
        · split at h
          · cases h
          · omega
  · intro h
    simp [Wide.Word.toUtf8, Wide.internalToUtf8, Wide.decodeUtf32_bad h]

example : Wide.Word.toUtf8 [0xE5#32, 0x1F600#32] 7 = .ok [0xC3, 0xA5, 0xF0, 0x9F, 0x98, 0x80] ∧
    Wide.Word.toUtf8 [0xE5#32, 0x1F600#32] 6 = .error .ub ∧ Wide.Word.toUtf8 [0xE5#32, 0x1F600#32] 5 = .error .runtimeError := by decide

/-- C87 is false of words made from letters: a lone surrogate and a number beyond Unicode are accepted, and such a word
has no text. -/
theorem C87_false [Build] : ∃ v w, Wide.Word.ofLetters [0xD800#32, 0#32] = .ok v ∧ Wide.Word.asUtf8 v = .error .runtimeError ∧
    Wide.Word.ofLetters [0x110000#32] = .ok w ∧ Wide.Word.asUtf8 w = .error .runtimeError := by
  refine ⟨[0xD800#32], [0x110000#32], ?_, ?_, ?_, ?_⟩
  · exact (C87_letters [0xD800#32, 0#32]).2.1 (by simp) (by simp [trimWide, IsBlank])
  · exact (C87_text _).2 (by simp [IsScalar])
  · exact (C87_letters [0x110000#32]).2.1 (by simp) (by simp [trimWide, IsBlank])
  · exact (C87_text _).2 (by simp [IsScalar])

/-- C87, what holds: every word the text constructors make has a text. Missing from the full claim: words made from arrays
with surrogates or numbers beyond Unicode (C87_false). -/
theorem C87_partial [Build] [Wide.Icu] (s : Bytes) (w : Wide.Word) (hw : Wide.Word.ofUtf8 s = .ok w) :
    ∃ u, Wide.Word.asUtf8 w = .ok u := by
  obtain ⟨_, c, hc, rfl⟩ := (Wide.ofUtf8_ok_iff s w).1 hw
  exact ⟨_, Wide.asUtf8_ok (Wide.scalars_lettersOf (Utf8.scalar hc))⟩

/-- C87. Splitting succeeds exactly on well-formed text and gives the words of the maximal blank-free runs in order. -/
theorem C87_split [Build] [Wide.Icu] (s : Bytes) :
    ∃ ts, Tokens s ts ∧
      (WellFormed s → ∃ ws, Wide.splitToWords s = .ok ws ∧ List.Forall₂ (fun t w => Wide.Word.ofUtf8 t = .ok w) ts ws) ∧
      (¬ WellFormed s → Wide.splitToWords s = .error .runtimeError) := by
  obtain ⟨ts, hts⟩ := tokens_exists s
  refine ⟨ts, hts, ?_, ?_⟩
  · intro h
    have hw := (wellFormed_tokens hts).1 h
    obtain ⟨ws, hws⟩ := Wide.wordsOf_good fun t ht => ⟨hw t ht, (tokens_mem hts t ht).2⟩
    exact ⟨ws, by rw [Wide.splitToWords_tokens hts, hws], Wide.wordsOf_ok.1 hws⟩
  · intro h
    rw [wellFormed_tokens hts] at h
    rw [Wide.splitToWords_tokens hts]
    exact Wide.wordsOf_bad (fun t ht => (tokens_mem hts t ht).2) h

/-- C87. Both builds accept the same texts and reject the others in the same way. If ICU lower-cases characters of the
Basic Multilingual Plane to characters of that plane, texts that are equal words in the default build are equal words
in the full build. -/
theorem C87_builds [Build] [Icu] [Wide.Icu] (s t : Bytes) :
    (∀ f, Word.ofUtf8 s = .error f ↔ Wide.Word.ofUtf8 s = .error f) ∧
    ((∀ c < 0x10000, lowerPoint c = lowerCp c) → ∀ v w v' w',
      Word.ofUtf8 s = .ok v → Word.ofUtf8 t = .ok w → Wide.Word.ofUtf8 s = .ok v' → Wide.Word.ofUtf8 t = .ok w' →
      v = w → v' = w') := by
  constructor
  · intro f
    by_cases hs : WellFormed s
    · obtain ⟨c, hc⟩ := hs
      rw [Wide.ofUtf8_of_utf8 hc, ofUtf8_of_utf8 hc]
      split <;> simp
    · rw [ofUtf8_bad hs, Wide.ofUtf8_bad hs]; simp
  · intro hl v w v' w' hv hw hv' hw' e
    obtain ⟨_, c, hc, rfl⟩ := (ofUtf8_ok_iff s v).1 hv
    obtain ⟨_, d, hd, rfl⟩ := (ofUtf8_ok_iff t w).1 hw
    have h1 := lettersOf_lowerCp hc
    have h2 := lettersOf_lowerCp hd
    rw [e] at h1
    have e' := Utf16.det h1 h2
    have key : ∀ x : List Nat, x.map lowerPoint = (x.map lowerCp).map lowerPoint := by
      intro x
      rw [List.map_map]
      apply List.map_congr_left
      intro a _
      rw [Function.comp_apply]
      by_cases ha : a < 0x10000
      · rw [← hl a ha]
        simp only [lowerPoint, BitVec.ofNat_toNat, BitVec.setWidth_eq, Wide.Icu.lower_idem]
      · rw [lowerCp, if_neg ha]
    rw [← Wide.letters_inj, (C87_accepts s).2 c v' hc hv', (C87_accepts t).2 d w' hd hw', key c, key d, e']

/-- C87. The hash is the exclusive or of the table entries chosen by the four bytes of each letter and their places. -/
theorem C87_hash (w : Wide.Word) :
    Wide.Word.hash w = .ok (((w.flatMap fun l =>
      [l.toNat % 256, l.toNat / 256 % 256, l.toNat / 65536 % 256, l.toNat / 16777216]).zipIdx.map fun p =>
        randomNumbers.getD ((p.1 + p.2) % 256) 0).foldl (· ^^^ ·) 0) := by
  have : ∀ (bs : List Nat) (i : Nat) (r : BitVec 64), hashLoop i r bs =
      .ok (((bs.zipIdx i).map fun p => randomNumbers.getD ((p.1 + p.2) % 256) 0).foldl (· ^^^ ·) r) := by
    intro bs
    induction bs with
    | nil => intro i r; rfl
    | cons b bs ih =>
      intro i r
      have hlt : (b + i % 256) % 256 < 256 := Nat.mod_lt _ (by omega)
      have he : (b + i % 256) % 256 = (b + i) % 256 := by omega
      simp only [hashLoop, randomNumber]
      rw [if_pos hlt]
      simp only [ok_bind, ih, he, List.zipIdx_cons, List.map_cons, List.foldl_cons]
  exact this _ _ _

/-- Lower-casing of ASCII and of the Deseret letters (U+10400 to U+10427). -/
def deseret (l : Wide.Letter) : Wide.Letter :=
  if 0x41 ≤ l.toNat ∧ l.toNat ≤ 0x5a then l + 0x20#32
  else if 0x10400 ≤ l.toNat ∧ l.toNat ≤ 0x10427 then l + 0x28#32 else l

theorem deseret_toNat (l : Wide.Letter) : (deseret l).toNat =
    if 0x41 ≤ l.toNat ∧ l.toNat ≤ 0x5a then l.toNat + 0x20
    else if 0x10400 ≤ l.toNat ∧ l.toNat ≤ 0x10427 then l.toNat + 0x28 else l.toNat := by
  unfold deseret
  split
  · rw [BitVec.toNat_add]; simp; omega
  · split
    · rw [BitVec.toNat_add]; simp; omega
    · rfl

@[reducible] def wideIcu : Wide.Icu where
  lower := deseret
  lower_idem l := by
    apply BitVec.eq_of_toNat_eq
    rw [deseret_toNat (deseret l), deseret_toNat l]
    repeat' split
    all_goals omega
  lower_scalar l h := by
    rw [deseret_toNat]
    repeat' split
    all_goals omega
  lower_ascii l h := by
    apply BitVec.eq_of_toNat_eq
    rw [deseret_toNat] at h ⊢
    repeat' split at h
    all_goals (repeat' split)
    all_goals omega
  lower_control l h := by
    apply BitVec.eq_of_toNat_eq
    rw [deseret_toNat]
    repeat' split
    all_goals omega

/-- "A😀" has two letters; a Deseret letter is lower-cased. -/
example : @Wide.Word.ofUtf8 Example.debug wideIcu [0x41, 0xF0, 0x9F, 0x98, 0x80] = .ok [0x61#32, 0x1F600#32] ∧
    @Wide.Word.ofUtf8 Example.debug wideIcu [0xF0, 0x90, 0x90, 0x80] = .ok [0x10428#32] ∧
    Wide.Word.asUtf8 [0x10428#32] = .ok [0xF0, 0x90, 0x90, 0xA8] := by decide +kernel

/-- The hypothesis of C87_builds holds of the example instances, and its converse fails: the capital and the small Deseret
letter are one word in the full build and two in the default build. -/
theorem C87_planes : let _ := Example.debug; let _ := Example.icu; let _ := wideIcu
    (∀ c < 0x10000, lowerPoint c = lowerCp c) ∧
    ∃ s t v w u, Word.ofUtf8 s = .ok v ∧ Word.ofUtf8 t = .ok w ∧ v ≠ w ∧ Wide.Word.ofUtf8 s = .ok u ∧ Wide.Word.ofUtf8 t = .ok u := by
  intro _ _ _
  constructor
  · intro c hc
    rw [lowerCp, if_pos hc]
    show (deseret _).toNat = (Example.lower _).toNat
    rw [deseret_toNat, Example.lower_toNat]
    simp only [BitVec.toNat_ofNat, Nat.mod_eq_of_lt hc, Nat.mod_eq_of_lt (show c < 2 ^ 32 by omega)]
    repeat' split
    all_goals omega
  · exact ⟨[0xF0, 0x90, 0x90, 0x80], [0xF0, 0x90, 0x90, 0xA8], [0xD801#16, 0xDC00#16], [0xD801#16, 0xDC28#16], [0x10428#32],
      by decide +kernel, by decide +kernel, by decide, by decide +kernel, by decide +kernel⟩

/-- C87. The two builds order words differently: U+FF21 (a full-width letter) comes before U+10428 in the full build and
after it in the default build, where the latter begins with a surrogate. -/
theorem C87_order_differs : let _ := Example.debug; let _ := Example.icu; let _ := wideIcu
    ∃ s t v w v' w', Word.ofUtf8 s = .ok v ∧ Word.ofUtf8 t = .ok w ∧ Word.lt w v = true ∧
      Wide.Word.ofUtf8 s = .ok v' ∧ Wide.Word.ofUtf8 t = .ok w' ∧ Wide.Word.lt v' w' = true := by
  exact ⟨[0xEF, 0xBC, 0xA1], [0xF0, 0x90, 0x90, 0xA8], [0xFF21#16], [0xD801#16, 0xDC28#16], [0xFF21#32], [0x10428#32],
    by decide +kernel, by decide +kernel, by decide +kernel, by decide +kernel, by decide +kernel, by decide +kernel⟩

/-- An array with a blank, one with a final NUL, and a split text. -/
example : @Wide.Word.ofLetters Example.debug [0x61#32, 0x20#32] = .error .invalidArgument ∧
    @Wide.Word.ofLetters Example.debug [0x61#32, 0#32] = .ok [0x61#32] ∧
    @Wide.splitToWords Example.debug wideIcu [0x20, 0x41, 0x20, 0x20, 0xC3, 0xA9, 0x0A] = .ok [[0x61#32], [0xE9#32]] := by
  decide +kernel

end Columbus.Props
