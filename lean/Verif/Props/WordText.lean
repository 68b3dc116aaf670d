import Verif.Props.Word
/-
C76, C77: comparing words with text, and how well the hash tells words apart.
-/

namespace Columbus.Props
open Columbus Spec

/-! ### C76 -/

/-- C76, what holds: a word made from a text without NUL is equal to exactly one text, its own in lower case; `!=` is the
negation. Missing from the full claim: text with letters that lower-casing changes. -/
theorem C76_compare_partial [Build] [Icu] (s t : Bytes) (cps : List Nat) (w : Word) (h0 : 0 ∉ s) (hs : Utf8 s cps)
    (hw : Word.ofUtf8 s = .ok w) :
    ∃ b, Word.beqUtf8 w t = .ok b ∧ Word.bneUtf8 w t = .ok !b ∧ (b = true ↔ Utf8 t (cps.map lowerCp)) := by
  obtain ⟨u, hu, hu8, _⟩ := C02_round_trip s cps w h0 hs hw
  have e : Word.beqUtf8 w t = .ok (decide (u = t)) := by simp only [Word.beqUtf8, hu, ok_bind]
  refine ⟨_, e, by simp only [Word.bneUtf8, e, ok_bind], ?_⟩
  rw [decide_eq_true_eq]
  constructor
  · rintro rfl; exact hu8
  · intro ht; rw [Utf8.eq_encodes hu8, ← Utf8.eq_encodes ht]

/-- C76. The overloads for `std::string` look at the text before the first NUL. -/
theorem C76_string (w : Word) (a b : Bytes) (ha : 0 ∉ a) :
    Word.beqString w a = Word.beqUtf8 w a ∧ Word.bneString w a = Word.bneUtf8 w a ∧
    Word.beqString w (a ++ 0 :: b) = Word.beqUtf8 w a ∧ Word.bneString w (a ++ 0 :: b) = Word.bneUtf8 w a := by
  have e1 : a.takeWhile (· != 0) = a := by
    have := List.takeWhile_append_of_pos (p := (· != 0)) (l₁ := a) (l₂ := []) (by intro x hx; simp; rintro rfl; exact ha hx)
    simpa using this
  have e2 : (a ++ 0 :: b).takeWhile (· != 0) = a := by
    rw [List.takeWhile_append_of_pos (by intro x hx; simp; rintro rfl; exact ha hx)]; simp
  simp only [Word.bneString, Word.bneUtf8, Word.beqString, e1, e2, and_self]

/-- C76. `!=` between words is the negation of `==`. -/
theorem C76_words (v w : Word) : Word.bne v w = true ↔ v ≠ w := by
  rw [Word.bne, Bool.not_eq_true', ← Bool.not_eq_true, Word.beq_iff]

/-- C76. Text without letters changed by lower-casing is equal to its word. -/
theorem C76_lower_partial [Build] [Icu] (s : Bytes) (cps : List Nat) (w : Word) (h0 : 0 ∉ s) (hs : Utf8 s cps)
    (hw : Word.ofUtf8 s = .ok w) (hl : ∀ c ∈ cps, lowerCp c = c) : Word.beqUtf8 w s = .ok true := by
  simp only [Word.beqUtf8, C02_lower_text s cps w h0 hs hw hl, ok_bind, decide_true]

/-- C76 is false: the word made from "A" is not equal to "A". -/
theorem C76_false : ∃ (s : Bytes) (w : Word), @Word.ofUtf8 Example.debug Example.icu s = .ok w ∧ Word.beqUtf8 w s = .ok false :=
  ⟨[0x41], [0x61#16], by decide, by decide⟩

/-- "Ab" is equal to "ab" only. -/
example : @Word.ofUtf8 Example.debug Example.icu [0x41, 0x62] = .ok [0x61#16, 0x62#16] ∧
    Word.beqUtf8 [0x61#16, 0x62#16] [0x61, 0x62] = .ok true ∧ Word.beqUtf8 [0x61#16, 0x62#16] [0x61] = .ok false := by decide

/-! ### C77 -/

/-- The entry of the table for a byte at a position. -/
def tableEntry (byte position : Nat) : BitVec 64 := randomNumbers.getD ((byte + position) % 256) 0

/-- What a letter at a position adds to the hash. -/
def letterPart (l : Letter) (i : Nat) : BitVec 64 :=
  tableEntry (l.toNat % 256) (2 * i) ^^^ tableEntry (l.toNat / 256) (2 * i + 1)

theorem hashLoop_letters (w : Word) : ∀ (i : Nat) (r : BitVec 64), hashLoop (2 * i) r (letterBytes w) =
    .ok (((w.zipIdx i).map fun p => letterPart p.1 p.2).foldl (· ^^^ ·) r) := by
  induction w with
  | nil => intro i r; rfl
  | cons l w ih =>
    intro i r
    have hb : ∀ (n b : Nat), randomNumber ((b + n % 256) % 256) = .ok (tableEntry b n) := by
      intro n b
      unfold randomNumber tableEntry
      rw [if_pos (Nat.mod_lt _ (by omega)), show (b + n % 256) % 256 = (b + n) % 256 by omega]
    have e : letterBytes (l :: w) = (l.toNat % 256) :: (l.toNat / 256) :: letterBytes w := by simp [letterBytes]
    rw [e]
    simp only [hashLoop, hb, ok_bind]
    rw [show 2 * i + 1 + 1 = 2 * (i + 1) by omega, ih]
    simp only [List.zipIdx_cons, List.map_cons, List.foldl_cons, letterPart, BitVec.xor_assoc]

theorem hash_letters (w : Word) : Word.hash w = .ok ((w.zipIdx.map fun p => letterPart p.1 p.2).foldl (· ^^^ ·) 0) :=
  hashLoop_letters w 0 0

theorem foldl_xor (l : List (BitVec 64)) : ∀ a, l.foldl (· ^^^ ·) a = a ^^^ l.foldl (· ^^^ ·) 0 := by
  induction l with
  | nil => intro a; simp
  | cons x l ih => intro a; simp only [List.foldl_cons]; rw [ih, ih (0 ^^^ x)]; simp [BitVec.xor_assoc]

/-- C77, what holds: replacing one letter changes the hash exactly when the table entries of its two bytes differ in
sum. Missing from the full claim: that they do. -/
theorem C77_letter_partial (a b : Word) (x y : Letter) :
    Word.hash (a ++ x :: b) = Word.hash (a ++ y :: b) ↔ letterPart x a.length = letterPart y a.length := by
  have key : ∀ z : Letter, ((a ++ z :: b).zipIdx.map fun p => letterPart p.1 p.2).foldl (· ^^^ ·) 0 =
      letterPart z a.length ^^^ (((a.zipIdx.map fun p => letterPart p.1 p.2).foldl (· ^^^ ·) 0) ^^^
        (((b.zipIdx (a.length + 1)).map fun p => letterPart p.1 p.2).foldl (· ^^^ ·) 0)) := by
    intro z
    rw [List.zipIdx_append, List.map_append, List.foldl_append, List.zipIdx_cons, List.map_cons, List.foldl_cons, foldl_xor]
    simp only [Nat.zero_add]
    rw [BitVec.xor_comm _ (letterPart z a.length), BitVec.xor_assoc]
  rw [hash_letters, hash_letters, key, key]
  constructor
  · intro h
    injection h with h
    have := congrArg (· ^^^ (((a.zipIdx.map fun p => letterPart p.1 p.2).foldl (· ^^^ ·) 0) ^^^
        (((b.zipIdx (a.length + 1)).map fun p => letterPart p.1 p.2).foldl (· ^^^ ·) 0))) h
    simpa [BitVec.xor_assoc] using this
  · intro h; rw [h]

theorem letterPart_ascii {l : Letter} {i : Nat} (h1 : 97 ≤ l.toNat) (h2 : l.toNat ≤ 122) (hi : i ≤ 66) :
    letterPart l i = tableEntry 0 (2 * i + 1) := by
  have e1 : tableEntry (l.toNat % 256) (2 * i) = 0 := by
    unfold tableEntry
    have hlen : randomNumbers.length = 64 := by decide
    rw [List.getD_eq_getElem?_getD, List.getElem?_eq_none (by omega)]; rfl
  have e2 : l.toNat / 256 = 0 := by omega
  unfold letterPart
  rw [e1, e2]; simp

/-- C77. Only 64 of the 256 entries of the table are given, so all words of equally many small ASCII letters, up to 67, have
the same hash. -/
theorem C77_collide (v w : Word) (hl : v.length = w.length) (h67 : v.length ≤ 67)
    (hv : ∀ l ∈ v, 97 ≤ l.toNat ∧ l.toNat ≤ 122) (hw : ∀ l ∈ w, 97 ≤ l.toNat ∧ l.toNat ≤ 122) : Word.hash v = Word.hash w := by
  have key : ∀ (u : Word), u.length ≤ 67 → (∀ l ∈ u, 97 ≤ l.toNat ∧ l.toNat ≤ 122) →
      (u.zipIdx.map fun p => letterPart p.1 p.2) = (List.range u.length).map fun i => tableEntry 0 (2 * i + 1) := by
    intro u hu h
    apply List.ext_getElem
    · simp
    · intro i h1 h2
      simp only [List.length_map, List.length_zipIdx] at h1
      simp only [List.getElem_map, List.getElem_zipIdx, List.getElem_range, Nat.zero_add]
      obtain ⟨a, b⟩ := h _ (List.getElem_mem h1)
      exact letterPart_ascii a b (by omega)
  rw [hash_letters, hash_letters, key v h67 hv, key w (hl ▸ h67) hw, hl]

/-- C77 is false. -/
theorem C77_false : ¬ ∀ (a b : Word) (x y : Letter), x ≠ y → Word.hash (a ++ x :: b) ≠ Word.hash (a ++ y :: b) := by
  intro h
  have := C77_collide [0x61#16] [0x62#16] rfl (by simp) (by simp) (by simp)
  exact h [] [] 0x61#16 0x62#16 (by decide) this

/-- Digits do differ, "save" and "open" do not. -/
example : Word.hash [0x31#16] ≠ Word.hash [0x32#16] ∧
    Word.hash [0x73#16, 0x61#16, 0x76#16, 0x65#16] = Word.hash [0x6f#16, 0x70#16, 0x65#16, 0x6e#16] := by decide +kernel

end Columbus.Props
