import Verif.Proofs.Split
import Verif.Props.Example
/-
C72: splitting text at given separators.
-/

namespace Columbus.Props
open Columbus Spec

/-- C72. With ASCII separators (separators beyond ASCII below U+FF80 have no effect): the text is cut into its maximal
runs without separators and each run becomes a word; the first run that is no word decides the exception. -/
theorem C72_split_partial [Build] [Icu] (s : Bytes) (hs : ∀ b ∈ s, b < 256) (cs : List Letter) (hc : ∀ c ∈ cs, c.toNat < 0xFF80) :
    ∃ ts, TokensBy (SepBy cs) s ts ∧
      (∀ ws, split s cs = .ok ws ↔ List.Forall₂ (fun t w => Word.ofUtf8 t = .ok w) ts ws) ∧
      ∀ f, split s cs = .error f ↔ ∃ good t rest, ts = good ++ t :: rest ∧ (∀ g ∈ good, ∃ w, Word.ofUtf8 g = .ok w) ∧
        Word.ofUtf8 t = .error f := by
  obtain ⟨ts, hts⟩ := tokensBy_exists (SepBy cs) s
  refine ⟨ts, hts, fun ws => ?_, fun f => ?_⟩
  · rw [split_at hts hs hc, wordsOf_ok]
  · rw [split_at hts hs hc, wordsOf_error]

/-- C72. With any separators: the text is cut into runs of bytes, each taken as a signed `char` turned into a letter. -/
theorem C72_bytes_partial [Build] [Icu] (s : Bytes) (hs : ∀ b ∈ s, b < 256) (cs : List Letter) :
    ∃ ts, TokensBy (SepByte cs) s ts ∧
      (∀ ws, split s cs = .ok ws ↔ List.Forall₂ (fun t w => Word.ofUtf8 t = .ok w) ts ws) ∧
      ∀ f, split s cs = .error f ↔ ∃ good t rest, ts = good ++ t :: rest ∧ (∀ g ∈ good, ∃ w, Word.ofUtf8 g = .ok w) ∧
        Word.ofUtf8 t = .error f := by
  classical
  obtain ⟨ts, hts⟩ := tokensBy_exists (SepByte cs) s
  exact ⟨ts, hts, fun ws => by rw [split_bytes hts hs, wordsOf_ok], fun f => by rw [split_bytes hts hs, wordsOf_error]⟩

/-- U+FFA0 is the byte A0 here. -/
example : SepByte [0xFFA0#16] 0xA0 ∧ ¬ SepByte [0xA0#16] 0xA0 := by
  constructor
  · exact ⟨0xFFA0#16, by simp, by decide⟩
  · rintro ⟨c, hc, h⟩
    rw [List.mem_singleton] at hc
    subst hc
    exact absurd h (by decide)

/-- C72. If the blanks are among the separators, splitting succeeds exactly on well-formed text. -/
theorem C72_well_formed_partial [Build] [Icu] (s : Bytes) (hs : ∀ b ∈ s, b < 256) (cs : List Letter)
    (hc : ∀ c ∈ cs, c.toNat < 0xFF80) (hb : ∀ b, IsBlank b → SepBy cs b) :
    (∃ ws, split s cs = .ok ws) ↔ WellFormed s := by
  obtain ⟨ts, hts⟩ := tokensBy_exists (SepBy cs) s
  have hnb : ∀ t ∈ ts, ∀ b ∈ t, ¬ IsBlank b := fun t ht b hbt hx => (tokens_mem hts t ht).2 b hbt (hb b hx)
  have hwf := wellFormed_tokensBy (S := SepBy cs) (fun b h => by have := h.1; omega) hts
  rw [split_at hts hs hc]
  constructor
  · rintro ⟨ws, hw⟩
    by_contra hn
    rw [hwf] at hn
    rw [wordsOf_bad hnb hn] at hw
    cases hw
  · intro h
    exact wordsOf_good fun t ht => ⟨hwf.1 h t ht, hnb t ht⟩

/-- C72. Separators between U+0080 and U+FF7F have no effect. -/
theorem C72_ignored [Build] [Icu] (s : Bytes) (hs : ∀ b ∈ s, b < 256) (cs : List Letter) (hc : ∀ c ∈ cs, c.toNat < 0xFF80) :
    split s cs = split s (cs.filter fun c => c.toNat < 0x80) := by
  obtain ⟨ts, hts⟩ := tokensBy_exists (SepBy cs) s
  rw [split_at hts hs hc]
  refine (split_at (tokensBy_congr hts ?_) hs fun c h => hc c (List.mem_filter.1 h).1).symm
  intro b _
  unfold SepBy
  simp only [List.mem_filter, decide_eq_true_eq]
  constructor
  · rintro ⟨h, c, h1, h2⟩; exact ⟨h, c, ⟨h1, by omega⟩, h2⟩
  · rintro ⟨h, c, ⟨h1, _⟩, h2⟩; exact ⟨h, c, h1, h2⟩

/-- C72 is false of other separators: "a", a no-break space (U+00A0) and "b" are not separated by the no-break space. -/
theorem C72_false : let _ := Example.debug; let _ := Example.icu
    split [0x61, 0xC2, 0xA0, 0x62] [0xA0#16] = .ok [[0x61#16, 0xA0#16, 0x62#16]] := by decide

/-- C72. A separator from U+FF80 on cuts characters into halves: "à" (U+00E0) is cut by the separator U+FFA0, and this
well-formed text is rejected. -/
theorem C72_halves : let _ := Example.debug; let _ := Example.icu
    WellFormed [0xC3, 0xA0] ∧ split [0xC3, 0xA0] [0xFFA0#16] = .error .runtimeError := by
  refine ⟨⟨_, .two (by omega) (by omega) (by omega) (by omega) .nil⟩, by decide⟩

/-- Commas and blanks. -/
example : let _ := Example.debug; let _ := Example.icu
    split [0x61, 0x2c, 0x20, 0x62, 0x2c] [0x2c#16, 0x20#16] = .ok [[0x61#16], [0x62#16]] ∧
    split [0x61, 0x2c, 0x20, 0x62] [0x2c#16] = .error .invalidArgument := by decide

end Columbus.Props
