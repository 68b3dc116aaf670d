import Verif.Proofs.Basic
import Verif.Proofs.Utf
/-
Words: construction, conversion, comparison.
-/

namespace Columbus
open Spec

theorem isInList_iff (l : Letter) (cs : List Letter) : isInList l cs = true ↔ l ∈ cs := by
  induction cs with
  | nil => simp [isInList]
  | cons c cs ih =>
    simp only [isInList, List.mem_cons]
    split
    · rename_i h; simp [h]
    · rename_i h
      rw [ih]
      constructor
      · exact Or.inr
      · rintro (h' | h')
        · exact absurd h'.symm h
        · exact h'

theorem isWhitespace_iff (l : Letter) : isWhitespace l = true ↔ IsBlank l.toNat := by
  rw [isWhitespace, isInList_iff]
  simp only [whitespaceLetters, List.mem_cons, List.not_mem_nil, or_false, IsBlank, ← BitVec.toNat_inj]
  rfl

theorem hasWhitespace_iff (w : List Letter) : hasWhitespace w = true ↔ ∃ l ∈ w, IsBlank l.toNat := by
  induction w with
  | nil => simp [hasWhitespace]
  | cons c cs ih =>
    simp only [hasWhitespace, List.mem_cons, exists_eq_or_imp, ← isWhitespace_iff] at ih ⊢
    split
    · rename_i h; simp [h]
    · rename_i h; simp [ih, h]

theorem hasWhitespace_false_iff (w : List Letter) : hasWhitespace w = false ↔ ∀ l ∈ w, ¬ IsBlank l.toNat := by
  rw [← Bool.not_eq_true, hasWhitespace_iff]; simp

theorem brokenLoop_utf16 [Build] {w cps} (h : Utf16 w cps) (rest : List Letter) :
    brokenLoop false true (w ++ rest) = brokenLoop false true rest := by
  induction h with
  | nil => rfl
  | bmp hu _ ih =>
    rename_i u r cps _
    have : isSurrogate u = false := (isSurrogate_false_iff u).2 hu
    rw [List.cons_append, brokenLoop]
    simp [this, ih]
  | pair h1 h2 h3 h4 _ ih =>
    rename_i u v r cps _
    have hu : isHighSurrogate u = true := (isHighSurrogate_iff u).2 ⟨h1, h2⟩
    have hv : isLowSurrogate v = true := (isLowSurrogate_iff v).2 ⟨h3, h4⟩
    have hu' : isSurrogate u = true := by simp [isSurrogate, hu]
    have hv' : isSurrogate v = true := by simp [isSurrogate, hv]
    rw [List.cons_append, List.cons_append, brokenLoop]
    simp only [hu', hu]
    simp [cassert, brokenLoop, hv, hv', ih]

theorem hasBrokenSurrogates_utf16 [Build] {w cps} (h : Utf16 w cps) : hasBrokenSurrogates w = .ok false := by
  have := brokenLoop_utf16 h []
  rw [List.append_nil] at this
  rw [hasBrokenSurrogates, this]; rfl

/-- Lower-casing keeps UTF-16 well-formed. -/
theorem utf16_lower [Icu] {w cps} (h : Utf16 w cps) : ∃ cps', Utf16 (w.map Icu.lower) cps' := by
  induction h with
  | nil => exact ⟨_, .nil⟩
  | bmp hu _ ih =>
    rename_i u r cps _
    obtain ⟨c, hc⟩ := ih
    have : isSurrogate u = false := (isSurrogate_false_iff u).2 hu
    have := (isSurrogate_false_iff _).1 (Icu.lower_not_surrogate u this)
    exact ⟨_, .bmp this hc⟩
  | pair h1 h2 h3 h4 _ ih =>
    rename_i u v r cps _
    obtain ⟨c, hc⟩ := ih
    have e1 : Icu.lower u = u := Icu.lower_surrogate u ((isSurrogate_iff u).2 (by omega))
    have e2 : Icu.lower v = v := Icu.lower_surrogate v ((isSurrogate_iff v).2 (by omega))
    rw [List.map_cons, List.map_cons, e1, e2]
    exact ⟨_, .pair h1 h2 h3 h4 hc⟩

theorem IsBlank.lt {b : Nat} (h : IsBlank b) : b < 0x21 := by unfold IsBlank at h; omega

theorem isBlank_lower [Icu] (l : Letter) : IsBlank (Icu.lower l).toNat ↔ IsBlank l.toNat := by
  constructor
  · intro h
    rwa [Icu.lower_ascii l (by have := IsBlank.lt h; omega)] at h
  · intro h
    rwa [Icu.lower_control l (by have := IsBlank.lt h; omega)]

theorem utf16_small {u cps} (h : Utf16 u cps) (P : Nat → Prop) (hP : ∀ x, P x → x < 0x80) :
    (∃ l ∈ u, P l.toNat) ↔ ∃ c ∈ cps, P c := by
  induction h with
  | nil => simp
  | bmp _ _ ih => simp [ih]
  | pair h1 h2 h3 h4 _ ih =>
    rename_i u v r cps _
    simp only [List.mem_cons, exists_eq_or_imp, ih]
    have a : ¬ P u.toNat := fun h => by have := hP _ h; omega
    have b : ¬ P v.toNat := fun h => by have := hP _ h; omega
    have c : ¬ P (65536 + (u.toNat - 55296) * 1024 + (v.toNat - 56320)) := fun h => by have := hP _ h; omega
    simp [a, b, c]

theorem utf8_small {s cps} (h : Utf8 s cps) (P : Nat → Prop) (hP : ∀ x, P x → x < 0x80) :
    (∃ b ∈ s, P b) ↔ ∃ c ∈ cps, P c := by
  induction h with
  | nil => simp
  | one _ _ ih => simp [ih]
  | two h1 h2 h3 h4 _ ih =>
    simp only [List.mem_cons, exists_eq_or_imp, ih]
    have e : ∀ x, 0x80 ≤ x → ¬ P x := fun x hx h => by have := hP _ h; omega
    rw [eq_false (e _ (by omega)), eq_false (e _ (by omega)), eq_false (e _ (by omega))]
    simp
  | three h1 h2 h3 _ ih =>
    simp only [List.mem_cons, exists_eq_or_imp, ih]
    have e : ∀ x, 0x80 ≤ x → ¬ P x := fun x hx h => by have := hP _ h; omega
    rw [eq_false (e _ (by omega)), eq_false (e _ (by omega)), eq_false (e _ (by omega)), eq_false (e _ (by omega))]
    simp
  | four h1 h2 h3 h4 h5 _ ih =>
    simp only [List.mem_cons, exists_eq_or_imp, ih]
    have e : ∀ x, 0x80 ≤ x → ¬ P x := fun x hx h => by have := hP _ h; omega
    rw [eq_false (e _ (by omega)), eq_false (e _ (by omega)), eq_false (e _ (by omega)), eq_false (e _ (by omega)),
      eq_false (e _ (by omega))]
    simp

/-- The letters of a well-formed text. -/
def lettersOf [Icu] (cps : List Nat) : Word := (cps.flatMap encodeUtf16).map Icu.lower

theorem utf8ToInternal_ok [Icu] {s cps} (h : Utf8 s cps) : utf8ToInternal s = .ok (lettersOf cps) := by
  have hl := utf16_len_le h
  simp only [utf8ToInternal, decodeUtf8_complete h]
  rw [if_neg (by omega), if_neg (by omega)]
  rw [List.take_of_length_le (by omega)]
  split
  · rw [if_pos (by omega)]; rfl
  · rw [if_pos (by omega)]; rfl

theorem utf8ToInternal_bad [Icu] {s} (h : ¬ WellFormed s) : utf8ToInternal s = .error .runtimeError := by
  unfold utf8ToInternal
  cases hd : decodeUtf8 s with
  | none => rfl
  | some c => exact absurd ⟨c, decodeUtf8_sound _ _ hd⟩ h

theorem blank_lettersOf [Icu] {s cps} (h : Utf8 s cps) :
    (∃ l ∈ lettersOf cps, IsBlank l.toNat) ↔ ∃ b ∈ s, IsBlank b := by
  rw [utf8_small h IsBlank (fun x h => by have := IsBlank.lt h; omega),
    ← utf16_small (utf16_encodes (Utf8.scalar h)) IsBlank (fun x h => by have := IsBlank.lt h; omega)]
  simp only [lettersOf, List.mem_map]
  constructor
  · rintro ⟨l, ⟨u, hu, rfl⟩, hl⟩; exact ⟨u, hu, (isBlank_lower u).1 hl⟩
  · rintro ⟨u, hu, hb⟩; exact ⟨_, ⟨u, hu, rfl⟩, (isBlank_lower u).2 hb⟩

theorem ofUtf8_of_utf8 [Build] [Icu] {s cps} (h : Utf8 s cps) :
    Word.ofUtf8 s = if ∃ b ∈ s, IsBlank b then .error .invalidArgument else .ok (lettersOf cps) := by
  simp only [Word.ofUtf8, utf8ToInternal_ok h, ok_bind]
  obtain ⟨c, hc⟩ := utf16_lower (utf16_encodes (Utf8.scalar h))
  have hb : hasBrokenSurrogates (lettersOf cps) = .ok false := hasBrokenSurrogates_utf16 hc
  split
  · rename_i hw
    rw [hasWhitespace_iff, blank_lettersOf h] at hw
    rw [if_pos hw]
  · rename_i hw
    rw [hasWhitespace_iff, blank_lettersOf h] at hw
    rw [if_neg hw, hb]; rfl

theorem ofUtf8_bad [Build] [Icu] {s} (h : ¬ WellFormed s) : Word.ofUtf8 s = .error .runtimeError := by
  simp [Word.ofUtf8, utf8ToInternal_bad h]

theorem ofUtf8_ok_iff [Build] [Icu] (s w) : Word.ofUtf8 s = .ok w ↔
    (∀ b ∈ s, ¬ IsBlank b) ∧ ∃ cps, Utf8 s cps ∧ w = lettersOf cps := by
  by_cases hs : WellFormed s
  · obtain ⟨cps, hs⟩ := hs
    rw [ofUtf8_of_utf8 hs]
    split
    · rename_i hb
      obtain ⟨b, hb, hb'⟩ := hb
      simp only [reduceCtorEq, false_iff, not_and]
      intro h; exact absurd hb' (h b hb)
    · rename_i hb
      simp only [Except.ok.injEq]
      constructor
      · rintro rfl; exact ⟨by simpa using hb, cps, hs, rfl⟩
      · rintro ⟨_, c, hc, rfl⟩; rw [Utf8.det hs hc]
  · rw [ofUtf8_bad hs]
    simp only [reduceCtorEq, false_iff, not_and, not_exists]
    intro _ c hc; exact absurd ⟨c, hc⟩ hs

/-- A value produced by the UTF-8 constructor. -/
theorem ofUtf8_lettersOf [Build] [Icu] {s w} (h : Word.ofUtf8 s = .ok w) :
    ∃ cps, Utf16 w cps ∧ (∀ l ∈ w, ¬ IsBlank l.toNat) ∧ w.map Icu.lower = w := by
  obtain ⟨hb, cps, hs, rfl⟩ := (ofUtf8_ok_iff s w).1 h
  obtain ⟨c, hc⟩ := utf16_lower (utf16_encodes (Utf8.scalar hs))
  refine ⟨c, hc, ?_, ?_⟩
  · intro l hl hl'
    obtain ⟨b, hb1, hb2⟩ := (blank_lettersOf hs).1 ⟨l, hl, hl'⟩
    exact hb b hb1 hb2
  · simp [lettersOf, Icu.lower_idem]

theorem internalToUtf8_ok {w cps n} (h : Utf16 w cps) (hn : (cps.flatMap encodeUtf8).length < n) :
    internalToUtf8 w n = .ok (cps.flatMap encodeUtf8) := by
  simp only [internalToUtf8, decodeUtf16_complete h]
  rw [if_neg (by omega), if_pos hn]

theorem takeWhile_all {α : Type} {p : α → Bool} {l : List α} (h : ∀ x ∈ l, p x = true) : l.takeWhile p = l := by
  induction l with
  | nil => rfl
  | cons a l ih =>
    rw [List.takeWhile_cons, if_pos (h a (by simp)), ih fun x hx => h x (by simp [hx])]

theorem asUtf8_ok {w cps} (h : Utf16 w cps) :
    Word.asUtf8 w = .ok ((cps.flatMap encodeUtf8).takeWhile (· != 0)) := by
  have := utf8_len_le h
  simp only [Word.asUtf8, Word.toUtf8]
  rw [internalToUtf8_ok h (by omega)]; rfl

theorem asUtf8_ok' {w cps} (h : Utf16 w cps) (h0 : ∀ l ∈ w, l ≠ 0#16) :
    Word.asUtf8 w = .ok (cps.flatMap encodeUtf8) := by
  rw [asUtf8_ok h, takeWhile_all]
  intro x hx
  simp only [bne_iff_ne, ne_eq]
  intro hx0
  have : ∃ b ∈ cps.flatMap encodeUtf8, b = 0 := ⟨x, hx, hx0⟩
  rw [utf8_small (utf8_encodes (Utf16.scalar h)) (· = 0) (fun x h => by omega),
    ← utf16_small h (· = 0) (fun x h => by omega)] at this
  obtain ⟨l, hl, hl0⟩ := this
  exact h0 l hl (BitVec.eq_of_toNat_eq hl0)

theorem asUtf8_bad {w} (h : ¬ ∃ cps, Utf16 w cps) : Word.asUtf8 w = .error .runtimeError := by
  have : decodeUtf16 w = none := by
    cases hd : decodeUtf16 w with
    | none => rfl
    | some c => exact absurd ⟨c, decodeUtf16_sound _ _ hd⟩ h
  simp [Word.asUtf8, Word.toUtf8, internalToUtf8, this]

/-- No NUL letters when there are no NUL bytes. -/
theorem nonzero_lettersOf [Icu] {s cps} (h : Utf8 s cps) (h0 : 0 ∉ s) : ∀ l ∈ lettersOf cps, l ≠ 0#16 := by
  intro l hl hl0
  simp only [lettersOf, List.mem_map] at hl
  obtain ⟨u, hu, rfl⟩ := hl
  have hu0 : u = 0#16 := by
    rw [Icu.lower_ascii u (by rw [hl0]; simp)] at hl0; exact hl0
  have : ∃ l ∈ cps.flatMap encodeUtf16, l.toNat = 0 := ⟨u, hu, by rw [hu0]; rfl⟩
  rw [utf16_small (utf16_encodes (Utf8.scalar h)) (· = 0) (fun x h => by omega),
    ← utf8_small h (· = 0) (fun x h => by omega)] at this
  obtain ⟨b, hb, hb0⟩ := this
  subst hb0; exact h0 hb

/-- Lower-casing on code points. -/
theorem utf16_lowerCp [Icu] {w cps} (h : Utf16 w cps) : Utf16 (w.map Icu.lower) (cps.map lowerCp) := by
  induction h with
  | nil => exact .nil
  | bmp hu _ ih =>
    rename_i u r cps _
    have : isSurrogate u = false := (isSurrogate_false_iff u).2 hu
    have := (isSurrogate_false_iff _).1 (Icu.lower_not_surrogate u this)
    have e : lowerCp u.toNat = (Icu.lower u).toNat := by
      rw [lowerCp, if_pos (by have := u.isLt; omega), BitVec.ofNat_toNat, BitVec.setWidth_eq]
    rw [List.map_cons, List.map_cons, e]
    exact .bmp this ih
  | pair h1 h2 h3 h4 _ ih =>
    rename_i u v r cps _
    have e1 : Icu.lower u = u := Icu.lower_surrogate u ((isSurrogate_iff u).2 (by omega))
    have e2 : Icu.lower v = v := Icu.lower_surrogate v ((isSurrogate_iff v).2 (by omega))
    rw [List.map_cons, List.map_cons, e1, e2, List.map_cons, lowerCp, if_neg (by omega)]
    exact .pair h1 h2 h3 h4 ih

theorem lettersOf_lowerCp [Icu] {s cps} (h : Utf8 s cps) :
    Utf16 (lettersOf cps) (cps.map lowerCp) := utf16_lowerCp (utf16_encodes (Utf8.scalar h))

/-! ### Letter arrays -/

theorem brokenLoop_bad [Build] (w : List Letter) (hg : HighsGuarded w) (hw : ¬ ∃ cps, Utf16 w cps) :
    brokenLoop false true w = .ok true := by
  match w with
  | [] => exact absurd ⟨_, .nil⟩ hw
  | u :: r =>
    have hgr : HighsGuarded r := fun x v y e hv => hg (u :: x) v y (by simp [e]) hv
    rw [brokenLoop]
    simp only [Bool.false_and, Bool.false_eq_true, if_false, Bool.true_and, Bool.true_or]
    by_cases hs : isSurrogate u = true
    · rw [if_pos hs]
      by_cases hh : isHighSurrogate u = true
      · obtain ⟨v, z, rfl, hv⟩ := hg [] u r rfl ((isHighSurrogate_iff u).1 hh)
        have hv' : isHighSurrogate v = false := by
          rw [← Bool.not_eq_true, isHighSurrogate_iff]; exact hv
        simp only [hh, cassert_true, ok_bind, if_true, Bool.not_true, Bool.false_eq_true, if_false]
        rw [brokenLoop]
        by_cases hl : isLowSurrogate v = true
        · have hvs : isSurrogate v = true := by simp [isSurrogate, hl]
          simp only [hvs, hl, Bool.not_true, Bool.and_false, Bool.false_eq_true, if_false, if_true, Bool.false_and,
            Bool.not_false, Bool.and_self, Bool.or_true, cassert_true, ok_bind]
          apply brokenLoop_bad z
          · exact fun x v' y e hv => hgr (v :: x) v' y (by simp [e]) hv
          · rintro ⟨c, hc⟩
            have h1 := (isHighSurrogate_iff u).1 hh
            have h2 := (isLowSurrogate_iff v).1 hl
            exact hw ⟨_, .pair h1.1 h1.2 h2.1 h2.2 hc⟩
        · have hvs : isSurrogate v = false := by simp [isSurrogate, hv', hl]
          simp [hvs]
      · simp [hh]
    · rw [if_neg hs]
      apply brokenLoop_bad r hgr
      rintro ⟨c, hc⟩
      exact hw ⟨_, .bmp ((isSurrogate_false_iff u).1 (by simpa using hs)) hc⟩
termination_by w.length

/-- What the check does without assertions. -/
theorem brokenLoop_loose [Build] (ha : Build.asserts = false) (w : List Letter) :
    (Loose16 w → brokenLoop false true w = .ok false) ∧ (¬ Loose16 w → brokenLoop false true w = .ok true) := by
  match w with
  | [] => exact ⟨fun _ => rfl, fun h => absurd .nil h⟩
  | u :: r =>
    have hc : ∀ b, cassert b = .ok () := by simp [cassert, ha]
    rw [brokenLoop]
    simp only [Bool.false_and, Bool.false_eq_true, if_false, Bool.true_and, hc, ok_bind, if_true]
    by_cases hs : isSurrogate u = true
    · rw [if_pos hs]
      have hs' := (isSurrogate_iff u).1 hs
      by_cases hh : isHighSurrogate u = true
      · have hh' := (isHighSurrogate_iff u).1 hh
        simp only [hh, Bool.not_true, Bool.false_eq_true, if_false]
        match r with
        | [] => exact ⟨fun _ => rfl, fun h => absurd (.last hh') h⟩
        | v :: z =>
          rw [brokenLoop]
          simp only [Bool.false_and, Bool.false_eq_true, if_false, Bool.true_and, hc, ok_bind]
          by_cases hv : isSurrogate v = true
          · have hv' := (isSurrogate_iff v).1 hv
            simp only [hv, Bool.not_true, Bool.false_eq_true, if_false, if_true]
            obtain ⟨h1, h2⟩ := brokenLoop_loose ha z
            refine ⟨fun h => h1 ?_, fun h => h2 fun hz => h (.pair hh' hv'.1 hv'.2 hz)⟩
            cases h with
            | plain h _ => omega
            | pair _ _ _ h => exact h
          · have hv' := (isSurrogate_false_iff v).1 (by simpa using hv)
            simp only [hv, Bool.not_false, if_true]
            refine ⟨fun h => ?_, fun _ => trivial⟩
            cases h with
            | plain h _ => omega
            | pair _ _ _ _ => omega
      · simp only [hh, Bool.not_false, if_true]
        have hh' : ¬ HighUnit u := fun h => hh ((isHighSurrogate_iff u).2 h)
        refine ⟨fun h => ?_, fun _ => trivial⟩
        cases h with
        | last h => exact absurd h hh'
        | plain h _ => omega
        | pair h _ _ _ => exact absurd h hh'
    · have hs' := (isSurrogate_false_iff u).1 (by simpa using hs)
      rw [if_neg hs]
      obtain ⟨h1, h2⟩ := brokenLoop_loose ha r
      refine ⟨fun h => h1 ?_, fun h => h2 fun hz => h (.plain hs' hz)⟩
      cases h with
      | last h => exact absurd h (by unfold HighUnit; omega)
      | plain _ h => exact h
      | pair h _ _ _ => exact absurd h (by unfold HighUnit; omega)
termination_by w.length

/-- What the check does after well-formed letters. -/
theorem brokenLoop_end [Build] {w cps} (h : Utf16 w cps) {u : Letter} (hu : HighUnit u) :
    brokenLoop false true (w ++ [u]) = .ok false := by
  rw [brokenLoop_utf16 h]
  have h1 := (isHighSurrogate_iff u).2 hu
  have h2 : isSurrogate u = true := by simp [isSurrogate, h1]
  simp [brokenLoop, h1, h2, cassert]

theorem brokenLoop_highs [Build] (ha : Build.asserts = true) {w cps} (h : Utf16 w cps) {u v : Letter} (hu : HighUnit u)
    (hv : HighUnit v) (r : List Letter) : brokenLoop false true (w ++ u :: v :: r) = .error .assertion := by
  rw [brokenLoop_utf16 h]
  have h1 := (isHighSurrogate_iff u).2 hu
  have h2 : isSurrogate u = true := by simp [isSurrogate, h1]
  have h3 := (isHighSurrogate_iff v).2 hv
  have h4 : isSurrogate v = true := by simp [isSurrogate, h3]
  have h5 : isLowSurrogate v = false := by
    rw [← Bool.not_eq_true, isLowSurrogate_iff]; unfold HighUnit at hv; omega
  simp [brokenLoop, h1, h2, h4, h5, cassert, ha]

/-- All other letters are found broken. -/
theorem brokenLoop_other [Build] (w : List Letter) (h0 : ¬ ∃ cps, Utf16 w cps)
    (h1 : ¬ ∃ p cps u, Utf16 p cps ∧ HighUnit u ∧ w = p ++ [u])
    (h2 : ¬ ∃ p cps u v r, Utf16 p cps ∧ HighUnit u ∧ HighUnit v ∧ w = p ++ u :: v :: r) :
    brokenLoop false true w = .ok true := by
  match w with
  | [] => exact absurd ⟨_, .nil⟩ h0
  | u :: r =>
    rw [brokenLoop]
    simp only [Bool.false_and, Bool.false_eq_true, if_false, Bool.true_and, Bool.true_or]
    by_cases hs : isSurrogate u = true
    · rw [if_pos hs]
      by_cases hh : isHighSurrogate u = true
      · have hu : HighUnit u := (isHighSurrogate_iff u).1 hh
        match r with
        | [] => exact absurd ⟨[], [], u, .nil, hu, rfl⟩ h1
        | v :: z =>
          have hv : ¬ HighUnit v := fun hv => h2 ⟨[], [], u, v, z, .nil, hu, hv, rfl⟩
          have hv' : isHighSurrogate v = false := by
            rw [← Bool.not_eq_true, isHighSurrogate_iff]; exact hv
          simp only [hh, cassert_true, ok_bind, if_true, Bool.not_true, Bool.false_eq_true, if_false]
          rw [brokenLoop]
          by_cases hl : isLowSurrogate v = true
          · have hvs : isSurrogate v = true := by simp [isSurrogate, hl]
            simp only [hvs, hl, Bool.not_true, Bool.and_false, Bool.false_eq_true, if_false, if_true, Bool.false_and,
              Bool.not_false, Bool.and_self, Bool.or_true, cassert_true, ok_bind]
            have h4 := (isLowSurrogate_iff v).1 hl
            have hp : ∀ {p cps}, Utf16 p cps → ∃ cps', Utf16 (u :: v :: p) cps' :=
              fun h => ⟨_, .pair hu.1 hu.2 h4.1 h4.2 h⟩
            apply brokenLoop_other z
            · rintro ⟨c, hc⟩
              exact h0 (hp hc)
            · rintro ⟨p, c, x, hc, hx, rfl⟩
              obtain ⟨c', hc'⟩ := hp hc
              exact h1 ⟨_, c', x, hc', hx, rfl⟩
            · rintro ⟨p, c, x, y, q, hc, hx, hy, rfl⟩
              obtain ⟨c', hc'⟩ := hp hc
              exact h2 ⟨_, c', x, y, q, hc', hx, hy, rfl⟩
          · have hvs : isSurrogate v = false := by simp [isSurrogate, hv', hl]
            simp [hvs]
      · simp [hh]
    · rw [if_neg hs]
      have hu := (isSurrogate_false_iff u).1 (by simpa using hs)
      apply brokenLoop_other r
      · rintro ⟨c, hc⟩
        exact h0 ⟨_, .bmp hu hc⟩
      · rintro ⟨p, c, x, hc, hx, rfl⟩
        exact h1 ⟨u :: p, _, x, .bmp hu hc, hx, rfl⟩
      · rintro ⟨p, c, x, y, q, hc, hx, hy, rfl⟩
        exact h2 ⟨u :: p, _, x, y, q, .bmp hu hc, hx, hy, rfl⟩
termination_by w.length

/-! ### Comparison -/

theorem Word.beq_iff (a b : Word) : Word.beq a b = true ↔ a = b := by
  induction a generalizing b with
  | nil => cases b <;> simp [Word.beq]
  | cons x a ih =>
    cases b with
    | nil => simp [Word.beq]
    | cons y b =>
      simp only [Word.beq, List.cons.injEq]
      split
      · rename_i h
        simp only [Bool.false_eq_true, false_iff, not_and]
        rintro rfl rfl; simp at h
      · split
        · rename_i h; simp [h]
        · rename_i h; simp only [ne_eq, Decidable.not_not] at h; simp [h, ih]

theorem Word.lt_irrefl (a : Word) : Word.lt a a = false := by
  induction a with
  | nil => rfl
  | cons x a ih => simp [Word.lt, ih]

/-- The order is lexicographic on letter values. -/
theorem Word.lt_lex (a b : Word) : Word.lt a b = true ↔ List.Lex (· < ·) (a.map BitVec.toNat) (b.map BitVec.toNat) := by
  induction a generalizing b with
  | nil => cases b <;> simp [Word.lt]
  | cons x a ih =>
    cases b with
    | nil => simp [Word.lt]
    | cons y b =>
      simp only [Word.lt, List.map_cons, List.cons_lex_cons_iff, ← ih]
      rcases Nat.lt_trichotomy x.toNat y.toNat with h | h | h
      · simp [h]
      · simp [h]
      · rw [if_neg (by omega), if_pos h]; simp; omega

theorem Word.lt_trichotomy (a b : Word) : Word.lt a b = true ∨ a = b ∨ Word.lt b a = true := by
  induction a generalizing b with
  | nil => cases b <;> simp [Word.lt]
  | cons x a ih =>
    cases b with
    | nil => simp [Word.lt]
    | cons y b =>
      simp only [Word.lt, List.cons.injEq]
      rcases Nat.lt_trichotomy x.toNat y.toNat with h | h | h
      · simp [h]
      · have : x = y := BitVec.eq_of_toNat_eq h
        subst this
        simp only [Nat.lt_irrefl, if_false, true_and]
        exact ih b
      · right; right; simp [h]

theorem Word.lt_trans {a b c : Word} (h1 : Word.lt a b = true) (h2 : Word.lt b c = true) : Word.lt a c = true := by
  induction a generalizing b c with
  | nil =>
    cases c with
    | nil => cases b <;> simp [Word.lt] at *
    | cons => simp [Word.lt]
  | cons x a ih =>
    cases b with
    | nil => simp [Word.lt] at h1
    | cons y b =>
      cases c with
      | nil => simp [Word.lt] at h2
      | cons z c =>
        simp only [Word.lt] at *
        split at h1
        · split at h2
          · rw [if_pos (by omega)]
          · split at h2
            · simp at h2
            · rw [if_pos (by omega)]
        · split at h1
          · simp at h1
          · split at h2
            · rw [if_pos (by omega)]
            · split at h2
              · simp at h2
              · rw [if_neg (by omega), if_neg (by omega)]; exact ih h1 h2

theorem Word.lt_asymm {a b : Word} (h1 : Word.lt a b = true) : Word.lt b a = false := by
  cases h : Word.lt b a with
  | false => rfl
  | true => have := Word.lt_trans h1 h; rw [Word.lt_irrefl] at this; exact absurd this (by simp)

theorem Word.not_lt_both {a b : Word} : (Word.lt a b = false ∧ Word.lt b a = false) ↔ a = b := by
  constructor
  · rintro ⟨h1, h2⟩
    rcases Word.lt_trichotomy a b with h | h | h
    · simp [h] at h1
    · exact h
    · simp [h] at h2
  · rintro rfl; simp [Word.lt_irrefl]

end Columbus
