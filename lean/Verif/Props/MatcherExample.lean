import Verif.Proofs.MatcherFilter
import Verif.Props.Example
/-
A matcher with two documents, used by the examples beside the theorems on the matcher.
-/

namespace Columbus.Example
open Columbus Spec

/-- Words of printable ASCII letters are good. -/
theorem good_ascii {w : Word} (hne : w ≠ []) (h : ∀ l ∈ w, 33 ≤ l.toNat ∧ l.toNat < 127) : GoodWord w := by
  refine ⟨hne, ?_, ?_, ?_⟩
  · clear hne
    induction w with
    | nil => exact ⟨[], .nil⟩
    | cons l w ih =>
      obtain ⟨c, hc⟩ := ih (fun x hx => h x (by simp [hx]))
      exact ⟨_, .bmp (Or.inl (by have := (h l (by simp)).2; omega)) hc⟩
  · intro l hl hb
    have := h l hl
    unfold IsBlank at hb
    omega
  · rintro l hl rfl
    have := h _ hl
    simp at this

/-- "save", "as", "title", "body" and two words that are nowhere. -/
def save : Word := [0x73#16, 0x61#16, 0x76#16, 0x65#16]
def as : Word := [0x61#16, 0x73#16]
def title : Word := [0x74#16, 0x69#16, 0x74#16, 0x6c#16, 0x65#16]
def body : Word := [0x62#16, 0x6f#16, 0x64#16, 0x79#16]
def other : Word := [0x78#16]
def another : Word := [0x7a#16]

theorem good_save : GoodWord save := good_ascii (by simp [save]) (by simp [save])
theorem good_as : GoodWord as := good_ascii (by simp [as]) (by simp [as])
theorem good_title : GoodWord title := good_ascii (by simp [title]) (by simp [title])
theorem good_body : GoodWord body := good_ascii (by simp [body]) (by simp [body])
theorem good_other : GoodWord other := good_ascii (by simp [other]) (by simp [other])
theorem good_another : GoodWord another := good_ascii (by simp [another]) (by simp [another])

/-- Document 1 has the title "save as", document 2 the title "save" and the body "as". -/
def corpus : Corpus := [documentOf 1 [(title, [save, as])], documentOf 2 [(title, [save]), (body, [as])]]

def texts : MatcherHistory := [⟨1, title, 2, [save, as]⟩, ⟨2, body, 1, [as]⟩, ⟨2, title, 1, [save]⟩]

theorem corpus_texts : corpusTexts corpus = texts := by decide

theorem corpus_ok : CorpusOk corpus := by
  intro d hd
  simp only [corpus, List.mem_cons, List.not_mem_nil, or_false] at hd
  rcases hd with rfl | rfl
  · refine ⟨_, rfl, ?_⟩
    simp only [List.mem_cons, List.not_mem_nil, or_false, forall_eq, forall_eq_or_imp]
    exact ⟨Or.inr good_title, Or.inr good_save, Or.inr good_as⟩
  · refine ⟨_, rfl, ?_⟩
    simp only [List.mem_cons, List.not_mem_nil, or_false, forall_eq, forall_eq_or_imp]
    exact ⟨⟨Or.inr good_title, Or.inr good_save⟩, Or.inr good_body, Or.inr good_as⟩

/-- An operating system that grants everything. -/
def os : Nat → Bool := fun _ => true

theorem granted {n : Nat} (h : n < 60000000) : ¬ StorageRefused os n := by
  rintro (⟨n, h⟩ | h)
  · cases h
  · omega

section
variable [Build] [Icu] [Runtime] [Fp]

/-- A corpus can be indexed by a new matcher. -/
theorem ran_corpus {c : Corpus} (hc : CorpusOk c) (hs : lettersIn (corpusTexts c).mentions < 20000000) :
    ∃ m o, Ran os m (beforeEmpty (corpusTexts c)) [] ∧ m.e = ErrorValues.new ∧ m.weights = [] ∧
      ∃ m0, Matcher.new os = .ok m0 ∧ m0.index c = (m, o) ∧ (o = none ↔ NoEmpty (corpusTexts c)) ∧ (o = none ∨ o = some .outOfRange) := by
  rcases MInv.new os with ⟨h, _⟩ | ⟨m0, e0, h0, hos⟩
  · cases h
  · rcases h0.index c m0 [] [] hc with ⟨_, _, _, hr⟩ | ⟨m1, names, e1, h1, _, _, _, _, h2, h3⟩
    · rw [hos] at hr
      exact absurd hr (granted (by simp [lettersIn_nil, MatcherHistory.words]; omega))
    · refine ⟨m1, emptyFault (!decide (NoEmpty (corpusTexts c))), ?_, ?_, ?_, m0, e0, e1, ?_, ?_⟩
      · have := Ran.index (.new e0) hc e1 (by
          intro f hf
          left
          unfold emptyFault at hf
          split at hf
          · injection hf with hf; exact hf.symm
          · cases hf)
        simpa using this
      · rw [h2]
        simp only [Matcher.new] at e0
        cases hn : WordStore.new os with
        | error f => rw [hn] at e0; cases e0
        | ok s => rw [hn] at e0; injection e0 with e0; rw [← e0]
      · rw [h3]
        simp only [Matcher.new] at e0
        cases hn : WordStore.new os with
        | error f => rw [hn] at e0; cases e0
        | ok s => rw [hn] at e0; injection e0 with e0; rw [← e0]
      · by_cases hne : NoEmpty (corpusTexts c) <;> simp [emptyFault, hne]
      · by_cases hne : NoEmpty (corpusTexts c) <;> simp [emptyFault, hne]

omit [Build] [Icu] [Runtime] [Fp] in
theorem texts_noEmpty : NoEmpty texts := by decide

/-- The matcher of the examples. -/
theorem ran : ∃ m, Ran os m texts [] ∧ m.e = ErrorValues.new ∧ m.weights = [] := by
  obtain ⟨m, _, h, h1, h2, _⟩ := ran_corpus corpus_ok (by rw [corpus_texts]; decide)
  rw [corpus_texts, beforeEmpty_self texts_noEmpty] at h
  exact ⟨m, h, h1, h2⟩

omit [Runtime] [Fp] in
theorem sane {q : WordList} (h : ∀ x ∈ q, GoodWord x) (hl : ∀ x ∈ q, x.length ≤ 100) : Sane ErrorValues.new q texts :=
  sane_default (fun x hx => (h x hx).noNul) (L := 100) hl (by decide) (by omega)

omit [Runtime] [Fp] in
theorem sane_save : Sane ErrorValues.new [save] texts := sane (by simp [good_save]) (by decide)

end
end Columbus.Example
