import Verif.Spec.Typo
import Verif.Props.Better
import Verif.Props.Characters
import Verif.Props.Triangle
import Verif.Proofs.AppLines
/-
C108: typing errors are forgiven.
-/

namespace Columbus.Props
open Columbus Spec

/-! ### C108 -/

theorem utf16_units {w : Word} {c : List Nat} (h : Utf16 w c) : w = c.flatMap units := by
  induction h with
  | nil => rfl
  | @bmp u r cps _ _ ih =>
    rw [List.flatMap_cons, ← ih, units, if_pos u.isLt]
    simp
  | @pair u v r cps h1 h2 h3 h4 _ ih =>
    rw [List.flatMap_cons, ← ih]
    have := units_pair (h := u) (l := v) ⟨h1, h2⟩ ⟨h3, h4⟩
    unfold pairCp at this
    rw [this]
    rfl

/-- What is put in place of something else, in edits. -/
theorem edits_between (u v : Word) {x y : Word} {n : Nat} (h : Edits x y n) : Edits (u ++ x ++ v) (u ++ y ++ v) n := by
  have := edits_append (edits_append (edits_refl u) h) (edits_refl v)
  simpa using this

/-- A typing error in letters: at most two edits unless two wide characters are swapped, and one if there are none. -/
theorem typo_edits {c c' : List Nat} (h : Typo c c') :
    (¬ WideSwap c c' → ∃ n, n ≤ 2 ∧ Edits (c'.flatMap units) (c.flatMap units) n) ∧
    ((∀ x ∈ c, x < 0x10000) → (∀ x ∈ c', x < 0x10000) → ∃ n, n ≤ 1 ∧ Edits (c'.flatMap units) (c.flatMap units) n) := by
  have len : ∀ a, (units a).length ≤ 2 := fun a => by rcases (units_length a).1 with h | h <;> omega
  have one : ∀ {a : Nat}, a < 0x10000 → ∃ l, units a = [l] := by
    intro a ha; exact ⟨_, by rw [units, if_pos ha]⟩
  cases h with
  | missing u v a =>
    have e : ∀ n, Edits [] (units a) n → Edits ((u ++ v).flatMap units) ((u ++ [a] ++ v).flatMap units) n := by
      intro n hn
      have := edits_between (u.flatMap units) (v.flatMap units) hn
      simpa using this
    have h1 := e _ (edits_symm (edits_erase (units a)))
    refine ⟨fun _ => ⟨_, len a, h1⟩, fun h2 _ => ⟨_, ?_, h1⟩⟩
    exact le_of_eq ((units_length a).2 (h2 a (by simp)))
  | extra u v a =>
    have e : ∀ n, Edits (units a) [] n → Edits ((u ++ [a] ++ v).flatMap units) ((u ++ v).flatMap units) n := by
      intro n hn
      have := edits_between (u.flatMap units) (v.flatMap units) hn
      simpa using this
    have h1 := e _ (edits_erase (units a))
    refine ⟨fun _ => ⟨_, len a, h1⟩, fun _ h2 => ⟨_, ?_, h1⟩⟩
    exact le_of_eq ((units_length a).2 (h2 a (by simp)))
  | wrong u v a b =>
    have e : ∀ n, Edits (units b) (units a) n → Edits ((u ++ [b] ++ v).flatMap units) ((u ++ [a] ++ v).flatMap units) n := by
      intro n hn
      have := edits_between (u.flatMap units) (v.flatMap units) hn
      simpa using this
    constructor
    · intro _
      have : ∃ n, n ≤ 2 ∧ Edits (units b) (units a) n := by
        have hb := len b
        have ha := len a
        have hb' := (units_length b).1
        have ha' := (units_length a).1
        generalize units a = x at *
        generalize units b = y at *
        match x, y with
        | [x], [y] => exact ⟨1, by omega, Edits.replace y x .nil⟩
        | [x], [y, z] => exact ⟨2, by omega, Edits.delete z (Edits.replace y x .nil)⟩
        | [x, z], [y] => exact ⟨2, by omega, Edits.insert z (Edits.replace y x .nil)⟩
        | [x, z], [y, t] => exact ⟨2, by omega, Edits.replace t z (Edits.replace y x .nil)⟩
        | [], _ => simp at ha'
        | _ :: _ :: _ :: _, _ => simp at ha'
        | [_], [] => simp at hb'
        | [_], _ :: _ :: _ :: _ => simp at hb'
        | [_, _], [] => simp at hb'
        | [_, _], _ :: _ :: _ :: _ => simp at hb'
      obtain ⟨n, hn, h⟩ := this
      exact ⟨n, hn, e n h⟩
    · intro h1 h2
      obtain ⟨x, hx⟩ := one (h1 a (by simp))
      obtain ⟨y, hy⟩ := one (h2 b (by simp))
      refine ⟨1, Nat.le_refl _, e 1 ?_⟩
      rw [hx, hy]
      exact Edits.replace y x .nil
  | swapped u v a b =>
    have e : ∀ n, Edits (units b ++ units a) (units a ++ units b) n →
        Edits ((u ++ [b, a] ++ v).flatMap units) ((u ++ [a, b] ++ v).flatMap units) n := by
      intro n hn
      have := edits_between (u.flatMap units) (v.flatMap units) hn
      simpa using this
    constructor
    · intro hw
      by_cases ha : a < 0x10000
      · obtain ⟨x, hx⟩ := one ha
        refine ⟨2, Nat.le_refl _, e 2 ?_⟩
        rw [hx]
        have := edits_append (Edits.insert x .nil) (edits_append (edits_refl (units b)) (Edits.delete x .nil))
        simpa using this
      · by_cases hb : b < 0x10000
        · obtain ⟨x, hx⟩ := one hb
          refine ⟨2, Nat.le_refl _, e 2 ?_⟩
          rw [hx]
          have := edits_append (Edits.delete x .nil) (edits_append (edits_refl (units a)) (Edits.insert x .nil))
          simpa using this
        · exact absurd ⟨u, v, a, b, by omega, by omega, rfl, rfl⟩ hw
    · intro h1 _
      obtain ⟨x, hx⟩ := one (h1 a (by simp))
      obtain ⟨y, hy⟩ := one (h1 b (by simp))
      refine ⟨1, Nat.le_refl _, e 1 ?_⟩
      rw [hx, hy]
      exact Edits.swap y x .nil

theorem lowerCp_small [Icu] {c : Nat} : lowerCp c < 0x10000 ↔ c < 0x10000 := by
  unfold lowerCp
  split
  · next h => exact ⟨fun _ => h, fun _ => BitVec.isLt _⟩
  · exact Iff.rfl

/-- The words of a text are those of its blank-free runs. -/
theorem word_of_run [Build] [Icu] {s : Bytes} {ts : List Bytes} {q : WordList} (h : splitToWords s = .ok q) (ht : Tokens s ts)
    {t : Bytes} (hm : t ∈ ts) : ∃ w ∈ q, Word.ofUtf8 t = .ok w := by
  rw [splitToWords_tokens ht, wordsOf_ok] at h
  clear ht
  induction h with
  | nil => cases hm
  | cons h1 _ ih' =>
    rcases List.mem_cons.1 hm with rfl | hm
    · exact ⟨_, List.mem_cons_self, h1⟩
    · obtain ⟨w, hw, e⟩ := ih' hm
      exact ⟨w, List.mem_cons_of_mem _ hw, e⟩

section
variable [Build] [Icu] [Runtime] [Fp] {os : Nat → Bool} {m : Matcher} {H : MatcherHistory} {K : List Word}

/-- C108, what holds: with the default settings a search lists every document of which a word, up to case, is typed in the query
with at most one typing error, if all characters of both are in the Basic Multilingual Plane, or if the error is not a swap of two
characters outside of it and what is typed is longer than one letter. Missing from the full claim: such swaps, and single letters
typed for texts with such a character. -/
theorem C108_partial (h : Ran os m H K) (hd : m.e = ErrorValues.new) (p : SearchParameters) (hf : Unfiltered p) (s : Bytes)
    (ts : List Bytes) (ht : Tokens s ts) (hw : WellFormed s) (hs : ∀ q, splitToWords s = .ok q → Sane m.e q H) :
    ∃ r k, m.matchUtf8Params s p = (m, .ok r) ∧ Shows r k ∧
      ∀ x ∈ H, p.isNonsearchingField x.field = false → ∀ text us, splitToWords text = .ok x.words → Tokens text us →
        ∀ u ∈ us, ∀ t ∈ ts, ∀ c c', Utf8 u c → Utf8 t c' →
          c.map lowerCp = c'.map lowerCp ∨ Typo (c.map lowerCp) (c'.map lowerCp) →
          ((∀ a ∈ c, a < 0x10000) ∧ ∀ a ∈ c', a < 0x10000) ∨
            ¬ WideSwap (c.map lowerCp) (c'.map lowerCp) ∧ (2 ≤ c'.length ∨ ∃ a ∈ c', 0x10000 ≤ a) →
          x.doc ∈ k.map (·.2) := by
  obtain ⟨ts', ht', h1, _⟩ := C11_split s
  obtain ⟨q, hq, _⟩ := h1 hw
  obtain ⟨r, k, e, hk, hm⟩ := C44_default h hd q p (hs q hq) hf
  refine ⟨r, k, by rw [Matcher.matchUtf8Params, hq]; exact e, hk, ?_⟩
  intro x hx hfield text us htext hus u hu t htt c c' hc hc' herr hcase
  obtain ⟨w, hwx, hw⟩ := word_of_run htext hus hu
  obtain ⟨v, hvq, hv⟩ := word_of_run hq ht htt
  have ew := utf16_units (C100_characters u w c hw hc)
  have ev := utf16_units (C100_characters t v c' hv hc')
  have near : ∃ n, n ≤ (if p.isDynamic = true ∧ v.length < 2 then 1 else 2) ∧ Edits v w n := by
    rcases herr with herr | herr
    · refine ⟨0, Nat.zero_le _, ?_⟩
      rw [ew, ev, herr]
      exact edits_refl _
    · obtain ⟨t1, t2⟩ := typo_edits herr
      rw [← ew, ← ev] at t1 t2
      rcases hcase with ⟨b1, b2⟩ | ⟨b1, b2⟩
      · have small : ∀ {c : List Nat}, (∀ a ∈ c, a < 0x10000) → ∀ a ∈ c.map lowerCp, a < 0x10000 := by
          intro c hc a ha
          obtain ⟨b, hb, rfl⟩ := List.mem_map.1 ha
          exact lowerCp_small.2 (hc b hb)
        obtain ⟨n, hn, he⟩ := t2 (small b1) (small b2)
        exact ⟨n, by split <;> omega, he⟩
      · obtain ⟨n, hn, he⟩ := t1 b1
        refine ⟨n, ?_, he⟩
        rw [if_neg]
        · exact hn
        · rintro ⟨_, hlen⟩
          rw [ev] at hlen
          rcases b2 with b2 | ⟨a, ha, b2⟩
          · obtain ⟨a, b, c2, rfl⟩ : ∃ a b c2, c' = a :: b :: c2 := by
              clear * - b2
              rcases c' with _ | ⟨a, _ | ⟨b, c2⟩⟩
              · simp at b2
              · simp at b2
              · exact ⟨a, b, c2, rfl⟩
            have := (units_length (lowerCp a)).1
            have := (units_length (lowerCp b)).1
            simp only [List.map_cons, List.flatMap_cons, List.length_append] at hlen
            omega
          · obtain ⟨c1, c2, rfl⟩ := List.append_of_mem ha
            have : (units (lowerCp a)).length = 2 := by
              rw [show lowerCp a = a by unfold lowerCp; rw [if_neg (by omega)], units, if_neg (by omega)]; rfl
            simp only [List.map_append, List.map_cons, List.flatMap_append, List.flatMap_cons, List.length_append] at hlen
            omega
  obtain ⟨n, hn, he⟩ := near
  obtain ⟨n', hn'⟩ := (C26_metric v w).1
  exact (hm x.doc).2 ⟨x.field, w, v, n', ⟨x, hx, rfl, rfl, hwx⟩, hfield, hvq, hn', (hn'.2 n he).trans hn⟩

/-- The letters of "😀" and "𝄞". -/
def faceUnits : Word := [0xD83D#16, 0xDE00#16]
def clefUnits : Word := [0xD834#16, 0xDD1E#16]

/-- A matcher with one document, the title of which is one word. -/
theorem one_title (w : Word) (hg : GoodWord w) (hl : lettersIn (MatcherHistory.mentions [⟨1, Example.fieldT, 1, [w]⟩]) < 20000000) :
    ∃ m, Ran Example.os m [⟨1, Example.fieldT, 1, [w]⟩] [] ∧ m.e = ErrorValues.new := by
  have hT : corpusTexts [documentOf 1 [(Example.fieldT, [w])]] = [⟨1, Example.fieldT, 1, [w]⟩] := by
    simp [corpusTexts, documentOf, Document.addText, Document.new, SMap.set]
  have hne : NoEmpty [(⟨1, Example.fieldT, 1, [w]⟩ : Indexed)] := by
    intro x hx; rw [List.mem_singleton] at hx; subst hx; exact ⟨by simp [Example.fieldT], by simpa using hg.1⟩
  have hc : CorpusOk [documentOf 1 [(Example.fieldT, [w])]] := by
    intro d hd
    rw [List.mem_singleton] at hd
    subst hd
    refine ⟨_, rfl, ?_⟩
    simp only [List.mem_cons, List.not_mem_nil, or_false, forall_eq]
    exact ⟨Or.inr Example.goodT, Or.inr hg⟩
  obtain ⟨m, _, h1, he, _⟩ := Example.ran_corpus hc (by rw [hT]; exact hl)
  rw [hT, beforeEmpty_self hne] at h1
  exact ⟨m, h1, he⟩

omit [Runtime] [Fp] in
/-- A text without blanks is one word. -/
theorem one_run {s : Bytes} {c : List Nat} {w : Word} (hne : s ≠ []) (hb : ∀ b ∈ s, ¬ IsBlank b) (hc : Utf8 s c) (hu : Utf16 w c)
    (hl : w.map Icu.lower = w) : Tokens s [s] ∧ splitToWords s = .ok [w] := by
  have ht : Tokens s [s] := by
    have := TokensBy.tok (S := IsBlank) (p := []) (t := s) (r := []) (ts := []) (by simp) hne hb (by simp) (.done (by simp))
    simpa using this
  refine ⟨ht, ?_⟩
  rw [splitToWords_tokens ht, wordsOf_ok]
  obtain ⟨v, hv⟩ := (C01_accepts s).2 ⟨⟨c, hc⟩, hb⟩
  rw [← hl, ← C01_value s c w v hc hu hv]
  exact .cons hv .nil

/-- No document is listed if the only word is too far away. -/
theorem none_listed {m : Matcher} {w q : Word} {s : Bytes} {n : Nat} (h : Ran Example.os m [⟨1, Example.fieldT, 1, [w]⟩] [])
    (he : m.e = ErrorValues.new) (hq : splitToWords s = .ok [q]) (hn : IsEditDistance q w n)
    (hfar : (if q.length < 2 then 1 else 2) < n) (h0 : ∀ l ∈ q, l ≠ 0#16) (hlq : q.length ≤ 100) (hlw : w.length ≤ 100) :
    ∃ r, m.matchUtf8Params s .new = (m, .ok r) ∧ Shows r [] := by
  have sane : Sane m.e [q] [⟨1, Example.fieldT, 1, [w]⟩] := by
    rw [he]
    exact sane_default (L := 100) (by simpa using h0) (by simpa using hlq) (by simpa [MatcherHistory.words] using hlw) (by norm_num)
  obtain ⟨r, k, e, hk, hm⟩ := C44_default h he [q] .new sane rfl
  have : k = [] := by
    rw [← List.map_eq_nil_iff (f := (·.2)), List.eq_nil_iff_forall_not_mem]
    intro d hd
    obtain ⟨f, w', x, n', ⟨y, hy, _, _, hw'⟩, _, hx, hn', hle⟩ := (hm d).1 hd
    rw [List.mem_singleton] at hy hx
    subst hy hx
    rw [List.mem_singleton] at hw'
    subst hw'
    have := hn.2 n' hn'.1
    rw [show SearchParameters.isDynamic .new = true from rfl] at hle
    simp only [true_and] at hle
    omega
  rw [this] at hk
  exact ⟨r, by rw [Matcher.matchUtf8Params, hq]; exact e, hk⟩

end

/-- A distance read from a search. -/
theorem distance_found (q w : Word) (n : Nat) (hq : ∀ l ∈ q, l ≠ 0#16) (hw : ∀ l ∈ w, l ≠ 0#16) (h1 : q.length ≤ 100)
    (h2 : w.length ≤ 100) (hl : ∀ l, w.head? = some l → isLowSurrogate l = false) (v : Int) (hv' : v = 100 * n) (hs : (@built Example.debug (fun _ => true) [(w, 0)] >>= fun ix =>
      @LevIndex.findWords Example.debug Example.runtime ix q (@afterOps Example.debug Example.icu []) 1000 []) = .ok [⟨0, v⟩]) :
    IsEditDistance q w n := by
  cases hb : @built Example.debug (fun _ => true) [(w, 0)] with
  | error f => rw [hb] at hs; cases hs
  | ok ix =>
    rw [hb, ok_bind] at hs
    have ho : IndexHistory.Ok [(w, 0)] := by
      refine ⟨by simpa using hw, by simpa using hl, by simp [INVALID_WORDID], by simp⟩
    obtain ⟨r, hr, hm⟩ := @found_within Example.debug Example.icu Example.runtime (fun _ => true) [(w, 0)] ix ho hb
      (by simp; omega) q hq (by omega) 1000
    rw [hs] at hr
    injection hr with hr
    obtain ⟨w', n', hw', hd, hv, _⟩ := (hm ⟨0, v⟩).1 (hr ▸ List.mem_singleton.2 rfl)
    have h3 : n' = n := by simp only at hv; omega
    have hw' : w' = w := by
      have := hw'.2
      rw [List.mem_singleton] at this
      exact congrArg Prod.fst this
    rw [h3, hw'] at hd
    exact hd

theorem digit_face : IsEditDistance [0x31#16] faceUnits 2 :=
  distance_found _ _ 2 (by simp) (by simp [faceUnits]) (by simp) (by simp [faceUnits]) (by simp [faceUnits]; decide) 200 rfl
    (by decide +kernel)

theorem face_clef : IsEditDistance (faceUnits ++ clefUnits) (clefUnits ++ faceUnits) 4 :=
  distance_found _ _ 4 (by simp [faceUnits, clefUnits]) (by simp [faceUnits, clefUnits]) (by simp [faceUnits, clefUnits])
    (by simp [faceUnits, clefUnits]) (by simp [clefUnits]; decide) 400 rfl (by decide +kernel)

theorem utf16_face {r : Word} {c : List Nat} (h : Utf16 r c) : Utf16 (0xD83D#16 :: 0xDE00#16 :: r) (0x1F600 :: c) :=
  Utf16.pair (u := 0xD83D#16) (v := 0xDE00#16) (by decide) (by decide) (by decide) (by decide) h

theorem utf16_clef {r : Word} {c : List Nat} (h : Utf16 r c) : Utf16 (0xD834#16 :: 0xDD1E#16 :: r) (0x1D11E :: c) :=
  Utf16.pair (u := 0xD834#16) (v := 0xDD1E#16) (by decide) (by decide) (by decide) (by decide) h

theorem utf8_face {r c : List Nat} (h : Utf8 r c) : Utf8 (0xF0 :: 0x9F :: 0x98 :: 0x80 :: r) (0x1F600 :: c) :=
  Utf8.four (b0 := 0xF0) (b1 := 0x9F) (b2 := 0x98) (b3 := 0x80) (by decide) (by decide) (by decide) (by decide) (by decide) h

theorem utf8_clef {r c : List Nat} (h : Utf8 r c) : Utf8 (0xF0 :: 0x9D :: 0x84 :: 0x9E :: r) (0x1D11E :: c) :=
  Utf8.four (b0 := 0xF0) (b1 := 0x9D) (b2 := 0x84) (b3 := 0x9E) (by decide) (by decide) (by decide) (by decide) (by decide) h

theorem surrogates_low [Icu] (w : Word) (h : ∀ l ∈ w, l ∈ faceUnits ∨ l ∈ clefUnits) : w.map Icu.lower = w := by
  have sur : ∀ l, l ∈ faceUnits ∨ l ∈ clefUnits → isSurrogate l = true := by
    simp only [faceUnits, clefUnits, List.mem_cons, List.not_mem_nil, or_false]
    rintro l ((rfl | rfl) | (rfl | rfl)) <;> rfl
  conv_rhs => rw [← List.map_id w]
  exact List.map_congr_left fun l hl => Icu.lower_surrogate l (sur l (h l hl))

theorem face_title [Build] [Icu] : splitToWords [0xF0, 0x9F, 0x98, 0x80] = .ok [faceUnits] :=
  (one_run (by simp) (by simp [IsBlank]) (utf8_face .nil) (utf16_face .nil) (surrogates_low _ (fun l hl => Or.inl hl))).2

theorem clef_face_title [Build] [Icu] :
    splitToWords [0xF0, 0x9D, 0x84, 0x9E, 0xF0, 0x9F, 0x98, 0x80] = .ok [clefUnits ++ faceUnits] :=
  (one_run (by simp) (by simp [IsBlank]) (utf8_clef (utf8_face .nil)) (utf16_clef (utf16_face .nil))
    (surrogates_low (clefUnits ++ faceUnits) (fun l hl => (List.mem_append.1 hl).symm))).2

theorem face_clef_query [Build] [Icu] :
    splitToWords [0xF0, 0x9F, 0x98, 0x80, 0xF0, 0x9D, 0x84, 0x9E] = .ok [faceUnits ++ clefUnits] :=
  (one_run (by simp) (by simp [IsBlank]) (utf8_face (utf8_clef .nil)) (utf16_face (utf16_clef .nil))
    (surrogates_low (faceUnits ++ clefUnits) (fun l hl => List.mem_append.1 hl))).2

theorem digit_query [Build] [Icu] : splitToWords [0x31] = .ok [[0x31#16]] :=
  (one_run (by simp) (by simp [IsBlank]) (.one (by decide) .nil) (Utf16.bmp (u := 0x31#16) (by decide) .nil)
    (by rw [List.map_singleton, Icu.lower_control _ (by decide)])).2

/-- C108 is false in every build: a document with the title "😀" is not found by "1", though one character was replaced, and one
with the title "𝄞😀" not by "😀𝄞". -/
theorem C108_false [Build] [Icu] [Runtime] [Fp] :
    (∃ m r, Ran Example.os m [⟨1, Example.fieldT, 1, [faceUnits]⟩] [] ∧ m.e = ErrorValues.new ∧
      splitToWords [0xF0, 0x9F, 0x98, 0x80] = .ok [faceUnits] ∧ Utf8 [0xF0, 0x9F, 0x98, 0x80] [0x1F600] ∧ Typo [0x1F600] [0x31] ∧
      m.matchUtf8Params [0x31] .new = (m, .ok r) ∧ Shows r []) ∧
    ∃ m r, Ran Example.os m [⟨1, Example.fieldT, 1, [clefUnits ++ faceUnits]⟩] [] ∧ m.e = ErrorValues.new ∧
      splitToWords [0xF0, 0x9D, 0x84, 0x9E, 0xF0, 0x9F, 0x98, 0x80] = .ok [clefUnits ++ faceUnits] ∧
      Utf8 [0xF0, 0x9D, 0x84, 0x9E, 0xF0, 0x9F, 0x98, 0x80] [0x1D11E, 0x1F600] ∧
      Utf8 [0xF0, 0x9F, 0x98, 0x80, 0xF0, 0x9D, 0x84, 0x9E] [0x1F600, 0x1D11E] ∧ Typo [0x1D11E, 0x1F600] [0x1F600, 0x1D11E] ∧
      m.matchUtf8Params [0xF0, 0x9F, 0x98, 0x80, 0xF0, 0x9D, 0x84, 0x9E] .new = (m, .ok r) ∧ Shows r [] := by
  constructor
  · obtain ⟨m, h, he⟩ := one_title faceUnits
      ⟨by simp [faceUnits], ⟨_, utf16_face .nil⟩, by simp [faceUnits, IsBlank], by simp [faceUnits]⟩ (by decide)
    obtain ⟨r, e, hk⟩ := none_listed h he digit_query digit_face (by simp) (by simp) (by simp) (by simp [faceUnits])
    exact ⟨m, r, h, he, face_title, utf8_face .nil, .wrong [] [] _ _, e, hk⟩
  · obtain ⟨m, h, he⟩ := one_title (clefUnits ++ faceUnits) ⟨by simp [faceUnits], ⟨_, utf16_clef (utf16_face .nil)⟩,
      by simp [faceUnits, clefUnits, IsBlank], by simp [faceUnits, clefUnits]⟩ (by decide)
    obtain ⟨r, e, hk⟩ := none_listed h he face_clef_query face_clef (by simp [faceUnits, clefUnits]) (by simp [faceUnits, clefUnits])
      (by simp [faceUnits, clefUnits]) (by simp [faceUnits, clefUnits])
    exact ⟨m, r, h, he, clef_face_title, utf8_clef (utf8_face .nil), utf8_face (utf8_clef .nil), .swapped [] [] _ _, e, hk⟩

/-- A document with the title "12" is listed for "21". -/
example [Build] [Icu] [Runtime] [Fp] : ∃ m r k, Ran Example.os m [⟨1, Example.fieldT, 1, [[0x31#16, 0x32#16]]⟩] [] ∧
    m.matchUtf8Params [0x32, 0x31] .new = (m, .ok r) ∧ Shows r k ∧ 1 ∈ k.map (·.2) := by
  have u12 : Utf8 [0x31, 0x32] [0x31, 0x32] := .one (by decide) (.one (by decide) .nil)
  have u21 : Utf8 [0x32, 0x31] [0x32, 0x31] := .one (by decide) (.one (by decide) .nil)
  have v12 : Utf16 [0x31#16, 0x32#16] [0x31, 0x32] :=
    Utf16.bmp (u := 0x31#16) (by decide) (Utf16.bmp (u := 0x32#16) (by decide) .nil)
  have v21 : Utf16 [0x32#16, 0x31#16] [0x32, 0x31] :=
    Utf16.bmp (u := 0x32#16) (by decide) (Utf16.bmp (u := 0x31#16) (by decide) .nil)
  have l1 : Icu.lower 0x31#16 = 0x31#16 := Icu.lower_control _ (by decide)
  have l2 : Icu.lower 0x32#16 = 0x32#16 := Icu.lower_control _ (by decide)
  have p1 : lowerCp 0x31 = 0x31 := by simp [lowerCp, l1]
  have p2 : lowerCp 0x32 = 0x32 := by simp [lowerCp, l2]
  obtain ⟨t12, s12⟩ := one_run (by simp) (by simp [IsBlank]) u12 v12 (by simp [l1, l2])
  obtain ⟨t21, s21⟩ := one_run (by simp) (by simp [IsBlank]) u21 v21 (by simp [l1, l2])
  obtain ⟨m, h, he⟩ := one_title [0x31#16, 0x32#16] ⟨by simp, ⟨_, v12⟩, by simp [IsBlank], by simp⟩ (by decide)
  obtain ⟨r, k, e, hk, hm⟩ := C108_partial h he .new rfl _ _ t21 ⟨_, u21⟩ (by
    intro q hq
    rw [s21] at hq
    cases hq
    rw [he]
    exact sane_default (L := 100) (by simp) (by simp) (by simp [MatcherHistory.words]) (by norm_num))
  refine ⟨m, r, k, h, e, hk, ?_⟩
  refine hm _ List.mem_cons_self rfl _ _ s12 t12 _ List.mem_cons_self _ List.mem_cons_self _ _ u12 u21 (Or.inr ?_) (Or.inl ?_)
  · simp only [List.map_cons, List.map_nil, p1, p2]
    exact .swapped [] [] _ _
  · simp

end Columbus.Props
