import Verif.Model.Wide
import Verif.Proofs.Split
/-
Words of the `full_unicode` build.
-/

namespace Columbus.Wide
open Spec

/-- The letters are code points of Unicode characters. -/
def Scalars (w : Word) : Prop := ∀ l ∈ w, IsScalar l.toNat

theorem decodeUtf32_ok {w : Word} (h : Scalars w) : decodeUtf32 w = some (w.map BitVec.toNat) := by
  induction w with
  | nil => rfl
  | cons u r ih =>
    have hu : IsScalar u.toNat := h u (by simp)
    rw [decodeUtf32, if_neg (by unfold IsScalar at hu; omega), ih fun l hl => h l (by simp [hl])]
    rfl

theorem decodeUtf32_bad {w : Word} (h : ¬ Scalars w) : decodeUtf32 w = none := by
  induction w with
  | nil => exact absurd (fun _ hl => by cases hl) h
  | cons u r ih =>
    rw [decodeUtf32]
    by_cases hu : IsScalar u.toNat
    · rw [if_neg (by unfold IsScalar at hu; omega), ih]
      · rfl
      · intro hr; apply h
        intro l hl
        rcases List.mem_cons.1 hl with rfl | hl
        · exact hu
        · exact hr l hl
    · rw [if_pos (by unfold IsScalar at hu; omega)]

theorem isInList_iff (l : Letter) (cs : List Letter) : isInList l cs = true ↔ l ∈ cs := by
  induction cs with
  | nil => simp [isInList]
  | cons c cs ih =>
    rw [isInList]
    split
    · rename_i h; simp [h]
    · rename_i h
      rw [ih, List.mem_cons]
      constructor
      · exact Or.inr
      · rintro (rfl | h'); exacts [absurd rfl h, h']

theorem isWhitespace_iff (l : Letter) : isWhitespace l = true ↔ IsBlank l.toNat := by
  rw [isWhitespace, isInList_iff]
  simp only [whitespaceLetters, List.mem_cons, List.not_mem_nil, or_false, IsBlank, ← BitVec.toNat_inj]
  rfl

theorem hasWhitespace_iff (w : List Letter) : hasWhitespace w = true ↔ ∃ l ∈ w, IsBlank l.toNat := by
  induction w with
  | nil => simp [hasWhitespace]
  | cons l w ih =>
    rw [hasWhitespace]
    split
    · rename_i h; simp [(isWhitespace_iff l).1 h]
    · rename_i h; rw [isWhitespace_iff] at h; simp [ih, h]

theorem brokenLoop_false [Build] (w : List Letter) : brokenLoop false true w = .ok false := by
  induction w with
  | nil => rfl
  | cons l w ih => simp [brokenLoop, isSurrogate, isHighSurrogate, isLowSurrogate, ih]

theorem hasBrokenSurrogates_false [Build] (w : List Letter) : hasBrokenSurrogates w = .ok false := brokenLoop_false w

theorem isBlank_lower [Icu] (l : Letter) : IsBlank (Icu.lower l).toNat ↔ IsBlank l.toNat := by
  constructor
  · intro h
    rwa [Icu.lower_ascii l (by have := IsBlank.lt h; omega)] at h
  · intro h
    rwa [Icu.lower_control l (by have := IsBlank.lt h; omega)]

theorem len_le {s cps} (h : Utf8 s cps) : cps.length ≤ s.length := by
  induction h <;> simp <;> omega

/-- The letters of a well-formed text. -/
def lettersOf [Icu] (cps : List Nat) : Word := (cps.map encodeUtf32).map Icu.lower

theorem utf8ToInternal_ok [Icu] {s cps} (h : Utf8 s cps) : utf8ToInternal s = .ok (lettersOf cps) := by
  have hl := len_le h
  simp only [utf8ToInternal, decodeUtf8_complete h, List.length_map]
  rw [if_neg (by omega), if_neg (by omega)]
  rw [List.take_of_length_le (by rw [List.length_map]; omega)]
  split
  · rw [if_pos (by omega)]; rfl
  · rw [if_pos (by omega)]; rfl

theorem utf8ToInternal_bad [Icu] {s} (h : ¬ WellFormed s) : utf8ToInternal s = .error .runtimeError := by
  unfold utf8ToInternal
  cases hd : decodeUtf8 s with
  | none => rfl
  | some c => exact absurd ⟨c, decodeUtf8_sound _ _ hd⟩ h

theorem encode_toNat {c : Nat} (h : IsScalar c) : (encodeUtf32 c).toNat = c := by
  rw [encodeUtf32, BitVec.toNat_ofNat, Nat.mod_eq_of_lt (by unfold IsScalar at h; omega)]

/-- Letters of a text and its code points. -/
theorem mem_lettersOf [Icu] {s cps} (h : Utf8 s cps) (P : Nat → Prop) (hP : ∀ l : Letter, P (Icu.lower l).toNat ↔ P l.toNat) :
    (∃ l ∈ lettersOf cps, P l.toNat) ↔ ∃ c ∈ cps, P c := by
  simp only [lettersOf, List.map_map, List.mem_map, Function.comp_apply]
  constructor
  · rintro ⟨_, ⟨c, hc, rfl⟩, hl⟩
    rw [hP, encode_toNat (Utf8.scalar h c hc)] at hl
    exact ⟨c, hc, hl⟩
  · rintro ⟨c, hc, hl⟩
    exact ⟨_, ⟨c, hc, rfl⟩, by rwa [hP, encode_toNat (Utf8.scalar h c hc)]⟩

theorem blank_lettersOf [Icu] {s cps} (h : Utf8 s cps) :
    (∃ l ∈ lettersOf cps, IsBlank l.toNat) ↔ ∃ b ∈ s, IsBlank b := by
  rw [utf8_small h IsBlank (fun x h => by have := IsBlank.lt h; omega), mem_lettersOf h _ isBlank_lower]

theorem ofUtf8_of_utf8 [Build] [Icu] {s cps} (h : Utf8 s cps) :
    Word.ofUtf8 s = if ∃ b ∈ s, IsBlank b then .error .invalidArgument else .ok (lettersOf cps) := by
  simp only [Word.ofUtf8, utf8ToInternal_ok h, ok_bind, hasBrokenSurrogates_false]
  split
  · rename_i hw
    rw [hasWhitespace_iff, blank_lettersOf h] at hw
    rw [if_pos hw]
  · rename_i hw
    rw [hasWhitespace_iff, blank_lettersOf h] at hw
    rw [if_neg hw]; rfl

theorem ofUtf8_bad [Build] [Icu] {s} (h : ¬ WellFormed s) : Word.ofUtf8 s = .error .runtimeError := by
  simp [Word.ofUtf8, utf8ToInternal_bad h]

theorem ofUtf8_ok_iff [Build] [Icu] (s w) : Word.ofUtf8 s = .ok w ↔
    (∀ b ∈ s, ¬ IsBlank b) ∧ ∃ cps, Utf8 s cps ∧ w = lettersOf cps := by
  by_cases hs : WellFormed s
  · obtain ⟨cps, hs⟩ := hs
    rw [ofUtf8_of_utf8 hs]
    split
    · rename_i hb
      obtain ⟨b, hb, hb'⟩ := hb
      simp only [reduceCtorEq, false_iff, not_and]
      intro h; exact absurd hb' (h b hb)
    · rename_i hb
      simp only [Except.ok.injEq]
      constructor
      · rintro rfl; exact ⟨by simpa using hb, cps, hs, rfl⟩
      · rintro ⟨_, c, hc, rfl⟩; rw [Utf8.det hs hc]
  · rw [ofUtf8_bad hs]
    simp only [reduceCtorEq, false_iff, not_and, not_exists]
    intro _ c hc; exact absurd ⟨c, hc⟩ hs

theorem scalars_lettersOf [Icu] {cps : List Nat} (h : ∀ c ∈ cps, IsScalar c) : Scalars (lettersOf cps) := by
  intro l hl
  simp only [lettersOf, List.map_map, List.mem_map, Function.comp_apply] at hl
  obtain ⟨c, hc, rfl⟩ := hl
  apply Icu.lower_scalar
  rw [encode_toNat (h c hc)]
  exact h c hc

theorem utf8_len_le {cps : List Nat} : (cps.flatMap encodeUtf8).length ≤ 4 * cps.length := by
  induction cps with
  | nil => simp
  | cons c cps ih =>
    have : (encodeUtf8 c).length ≤ 4 := by unfold encodeUtf8; repeat' split
                                           all_goals simp
    simp only [List.flatMap_cons, List.length_append, List.length_cons]
    omega

theorem asUtf8_ok {w : Word} (h : Scalars w) :
    Word.asUtf8 w = .ok (((w.map BitVec.toNat).flatMap encodeUtf8).takeWhile (· != 0)) := by
  have hl := utf8_len_le (cps := w.map BitVec.toNat)
  rw [List.length_map] at hl
  simp only [Word.asUtf8, Word.toUtf8, internalToUtf8, decodeUtf32_ok h]
  rw [if_neg (by omega), if_pos (by omega)]; rfl

theorem asUtf8_ok' {w : Word} (h : Scalars w) (h0 : 0#32 ∉ w) :
    Word.asUtf8 w = .ok ((w.map BitVec.toNat).flatMap encodeUtf8) := by
  rw [asUtf8_ok h, takeWhile_all]
  intro x hx
  simp only [bne_iff_ne, ne_eq]
  intro hx0
  have : ∃ b ∈ (w.map BitVec.toNat).flatMap encodeUtf8, b = 0 := ⟨x, hx, hx0⟩
  rw [utf8_small (utf8_encodes (by simpa [Scalars] using h)) (· = 0) (fun x h => by omega)] at this
  obtain ⟨c, hc, rfl⟩ := this
  obtain ⟨l, hl, hl0⟩ := List.mem_map.1 hc
  exact h0 (by rwa [← (BitVec.eq_of_toNat_eq hl0 : l = 0#32)])

theorem asUtf8_bad {w : Word} (h : ¬ Scalars w) : Word.asUtf8 w = .error .runtimeError := by
  simp [Word.asUtf8, Word.toUtf8, internalToUtf8, decodeUtf32_bad h]

theorem nonzero_lettersOf [Icu] {s cps} (h : Utf8 s cps) (h0 : 0 ∉ s) : 0#32 ∉ lettersOf cps := by
  intro hl
  have : ∃ c ∈ cps, c = 0 := (mem_lettersOf h (· = 0) (fun l => by
    constructor
    · intro e; rwa [Icu.lower_ascii l (by omega)] at e
    · intro e; rwa [Icu.lower_control l (by omega)])).1 ⟨_, hl, rfl⟩
  rw [← utf8_small h (· = 0) (fun x h => by omega)] at this
  obtain ⟨b, hb, rfl⟩ := this
  exact h0 hb

theorem lower_lettersOf [Icu] (cps : List Nat) : (lettersOf cps).map Icu.lower = lettersOf cps := by
  simp [lettersOf, Icu.lower_idem]

theorem lettersOf_toNat [Icu] (w : Word) : lettersOf (w.map BitVec.toNat) = w.map Icu.lower := by
  simp [lettersOf, encodeUtf32]

theorem letters_inj {v w : Word} : v.map BitVec.toNat = w.map BitVec.toNat ↔ v = w :=
  ⟨fun h => List.map_injective_iff.2 (fun _ _ => BitVec.eq_of_toNat_eq) h, fun h => h ▸ rfl⟩

/-! ### Comparison -/

theorem Word.beq_iff (a b : Word) : Word.beq a b = true ↔ a = b := by
  induction a generalizing b with
  | nil => cases b <;> simp [Word.beq]
  | cons x a ih =>
    cases b with
    | nil => simp [Word.beq]
    | cons y b =>
      simp only [Word.beq, List.cons.injEq]
      split
      · rename_i h
        simp only [Bool.false_eq_true, false_iff, not_and]
        rintro rfl rfl; simp at h
      · split
        · rename_i h; simp [h]
        · rename_i h; simp only [ne_eq, Decidable.not_not] at h; simp [h, ih]

theorem Word.lt_lex (a b : Word) : Word.lt a b = true ↔ List.Lex (· < ·) (a.map BitVec.toNat) (b.map BitVec.toNat) := by
  induction a generalizing b with
  | nil => cases b <;> simp [Word.lt]
  | cons x a ih =>
    cases b with
    | nil => simp [Word.lt]
    | cons y b =>
      simp only [Word.lt, List.map_cons, List.cons_lex_cons_iff]
      split
      · rename_i h; simp [h]
      · split
        · rename_i h1 h2
          simp only [Bool.false_eq_true, false_iff]; omega
        · rename_i h1 h2
          have : x.toNat = y.toNat := by omega
          simp [this, ih]

/-! ### Splitting -/

theorem isInList_blank (b : Nat) : isInList (charToLetter b) whitespaceLetters = true ↔ IsBlank b := by
  have h := isWhitespace_iff (charToLetter b)
  rw [isWhitespace] at h
  rw [h]
  unfold charToLetter
  split
  · rw [BitVec.toNat_ofNat, Nat.mod_eq_of_lt (by omega)]
  · rw [BitVec.toNat_ofNat]; unfold IsBlank; omega

/-- Conversion of every token, stopping at the first failure. -/
def wordsOf [Build] [Icu] : List Bytes → M (List Word)
  | [] => .ok []
  | t :: ts => do
    let w ← Word.ofUtf8 t
    let ws ← wordsOf ts
    .ok (w :: ws)

theorem splitLoop_tokens [Build] [Icu] {S : Nat → Prop} {cs : List Letter}
    (hS : ∀ b, isInList (charToLetter b) cs = true ↔ S b) {s ts} (h : TokensBy S s ts) :
    ∀ (fuel : Nat) (acc : List Word), s.length < fuel →
      splitLoop cs fuel s acc = (wordsOf ts >>= fun ws => .ok (acc ++ ws)) := by
  induction h with
  | done hp =>
    rename_i p
    intro fuel acc hf
    obtain ⟨fuel, rfl⟩ : ∃ k, fuel = k + 1 := ⟨fuel - 1, by omega⟩
    have : p.dropWhile (fun b => isInList (charToLetter b) cs) = [] := by
      rw [← List.append_nil p, dropWhile_pre]
      · rfl
      · intro b hb; exact (hS b).2 (hp b hb)
    rw [splitLoop, this]; simp [wordsOf]
  | tok hp ht htb hr htok ih =>
    rename_i p t r ts
    intro fuel acc hf
    obtain ⟨fuel, rfl⟩ : ∃ k, fuel = k + 1 := ⟨fuel - 1, by omega⟩
    obtain ⟨c, t', rfl⟩ : ∃ c t', t = c :: t' := List.exists_cons_of_ne_nil ht
    have e1 : (p ++ (c :: t') ++ r).dropWhile (fun b => isInList (charToLetter b) cs) = c :: (t' ++ r) := by
      rw [List.append_assoc, dropWhile_pre, dropWhile_stop]
      · rfl
      · intro x hx
        simp only [List.cons_append, List.head?_cons, Option.some.injEq] at hx
        subst hx
        rw [← Bool.not_eq_true, hS]; exact htb _ (by simp)
      · intro b hb; exact (hS b).2 (hp b hb)
    have hnb : ∀ x ∈ t', (!isInList (charToLetter x) cs) = true := by
      intro x hx
      rw [Bool.not_eq_true', ← Bool.not_eq_true, hS]; exact htb _ (by simp [hx])
    have hrb : ∀ x, r.head? = some x → (!isInList (charToLetter x) cs) = false := by
      intro x hx
      rw [Bool.not_eq_false', hS]; exact hr x hx
    rw [splitLoop, e1]
    simp only [takeWhile_pre hnb, dropWhile_pre hnb, takeWhile_stop hrb, dropWhile_stop hrb, List.append_nil]
    cases hw : Word.ofUtf8 (c :: t') with
    | error e => simp [wordsOf, hw]
    | ok w =>
      simp only [ok_bind, wordsOf, hw]
      by_cases hr0 : r.length = 0
      · rw [if_pos hr0]
        have : r = [] := List.eq_nil_of_length_eq_zero hr0
        subst this
        have : ts = [] := tokens_nil htok rfl
        subst this; simp [wordsOf]
      · rw [if_neg hr0, ih]
        · cases wordsOf ts <;> simp
        · simp only [List.length_append, List.length_cons] at hf; omega

theorem split_tokens [Build] [Icu] {S : Nat → Prop} {cs : List Letter} (hS : ∀ b, isInList (charToLetter b) cs = true ↔ S b)
    {s ts} (h : TokensBy S s ts) : split s cs = wordsOf ts := by
  rw [split, splitLoop_tokens hS h _ _ (by omega)]
  cases wordsOf ts <;> simp

theorem splitToWords_tokens [Build] [Icu] {s ts} (h : Tokens s ts) : splitToWords s = wordsOf ts :=
  split_tokens isInList_blank h

theorem wordsOf_ok [Build] [Icu] {ts : List Bytes} {ws : List Word} :
    wordsOf ts = .ok ws ↔ List.Forall₂ (fun t w => Word.ofUtf8 t = .ok w) ts ws := by
  induction ts generalizing ws with
  | nil => simp [wordsOf, eq_comm]
  | cons t ts ih =>
    simp only [wordsOf, bind_eq_ok, ih, List.forall₂_cons_left_iff]
    constructor
    · rintro ⟨w, hw, ws', hws, h⟩
      cases h; exact ⟨w, ws', hw, hws, rfl⟩
    · rintro ⟨w, ws', hw, hws, rfl⟩
      exact ⟨w, hw, ws', hws, rfl⟩

theorem wordsOf_good [Build] [Icu] {ts : List Bytes} (h : ∀ t ∈ ts, WellFormed t ∧ ∀ b ∈ t, ¬ IsBlank b) :
    ∃ ws, wordsOf ts = .ok ws := by
  induction ts with
  | nil => exact ⟨_, rfl⟩
  | cons t ts ih =>
    obtain ⟨ws, hws⟩ := ih fun t ht => h t (by simp [ht])
    obtain ⟨⟨c, hc⟩, hb⟩ := h t (by simp)
    have : Word.ofUtf8 t = .ok (lettersOf c) := (ofUtf8_ok_iff _ _).2 ⟨hb, c, hc, rfl⟩
    exact ⟨lettersOf c :: ws, by simp only [wordsOf, this, hws, ok_bind]⟩

theorem wordsOf_bad [Build] [Icu] {ts : List Bytes} (h : ∀ t ∈ ts, ∀ b ∈ t, ¬ IsBlank b) (hb : ¬ ∀ t ∈ ts, WellFormed t) :
    wordsOf ts = .error .runtimeError := by
  induction ts with
  | nil => simp at hb
  | cons t ts ih =>
    by_cases ht : WellFormed t
    · have : ¬ ∀ t ∈ ts, WellFormed t := fun h => hb (by simpa [ht] using h)
      have e := ih (fun t ht => h t (by simp [ht])) this
      obtain ⟨c, hc⟩ := ht
      have : Word.ofUtf8 t = .ok (lettersOf c) := (ofUtf8_ok_iff _ _).2 ⟨h t (by simp), c, hc, rfl⟩
      simp only [wordsOf, this, e, ok_bind, error_bind]
    · simp only [wordsOf, ofUtf8_bad ht, error_bind]

end Columbus.Wide
