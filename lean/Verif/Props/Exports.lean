import Verif.Proofs.Exports

/-! C99: the functions that programs can link to. -/

namespace Columbus.Props

open Exports Spec

/-- C99. A C++ function is exported if and only if a line of the script lists its name. -/
theorem C99_script (name : Bytes) : exportsCpp name = true ↔ Global name := exportsCpp_iff name

example : Global (ascii! "Columbus::Word::join(Columbus::Word const&) const") ∧
    ¬ Global (ascii! "Columbus::Word::hasWhitespace()") := by
  rw [← C99_script, ← C99_script]
  decide +kernel

/-- C99. The C functions exported are those of the header. -/
theorem C99_c (name : Bytes) : exportsC name = true ↔ name ∈ cFunctions := by
  simp only [exportsC, cFunctions, List.any_eq_true, beq_iff_eq, exists_eq_right]
  rfl

example : exportsC (ascii! "col_matcher_match") = true ∧ exportsC (ascii! "col_matcher_online_match") = false := by
  decide +kernel

/-- `split` with separators of one's own. -/
def splitName : Bytes := ascii! "Columbus::split(char const*, LetterT<unsigned short> const*, int)"
def isWhitespaceName : Bytes := ascii! "Columbus::isWhitespace(LetterT<unsigned short>)"

/-- C99 is false: `split` and `isWhitespace` are declared public, and no line of the script lists them. -/
theorem C99_false : ¬ ∀ f ∈ cppFunctions, Global f := by
  intro h
  have := (C99_script splitName).2 (h _ (by decide +kernel))
  revert this
  decide +kernel

/-- C99. Missing: `split` and `isWhitespace`. All other public functions are exported. -/
theorem C99_partial : ∀ f ∈ cppFunctions, Global f ↔ f ≠ splitName ∧ f ≠ isWhitespaceName := by
  simp only [← C99_script]
  decide +kernel

/-- C99. Whatever is added to one of these classes is exported. -/
theorem C99_classes : ∀ c ∈ [ascii! "Columbus::WordList", ascii! "Columbus::Corpus", ascii! "Columbus::Document",
    ascii! "Columbus::IndexWeights", ascii! "Columbus::SearchParameters", ascii! "Columbus::ResultFilter"],
    ∀ s, Global (c ++ s) := by
  intro c hc s
  have h1 : ∀ c ∈ [ascii! "Columbus::WordList", ascii! "Columbus::Corpus", ascii! "Columbus::Document",
      ascii! "Columbus::IndexWeights", ascii! "Columbus::SearchParameters", ascii! "Columbus::ResultFilter"],
      42 ∉ c ∧ Entry.pattern (c ++ [42]) ∈ cppGlobals := by
    decide +kernel
  exact ⟨_, (h1 c hc).2, glob_prefix (h1 c hc).1 s⟩

example : Global (ascii! "Columbus::WordList::begin() const") :=
  C99_classes (ascii! "Columbus::WordList") (by decide +kernel) (ascii! "::begin() const")

/-- C99. The headers that an installed header includes are installed. -/
theorem C99_includes : ∀ h ∈ installed, ∀ i ∈ h.includes, ∃ h' ∈ installed, h'.name = i := by decide +kernel

/-- C99. Classes named in an installed header are defined in one, except for `SearchParameters` and `ResultFilter`: programs
cannot make the parameters that `match` takes. -/
theorem C99_headers : ∀ h ∈ installed, ∀ c ∈ h.names,
    (∃ h' ∈ installed, c ∈ h'.defines) ↔ c ≠ ascii! "SearchParameters" ∧ c ≠ ascii! "ResultFilter" := by decide +kernel

end Columbus.Props
