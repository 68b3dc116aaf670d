import Verif.Proofs.CApi
import Verif.Props.MatcherExample
/-
C61-C62: the C interface.
-/

namespace Columbus.Props
open Columbus Spec CApi

section
variable [Build] [Icu] [Runtime] [Fp]

/-! ### C61 -/

/-- C61. No C++ exception leaves any C function, whatever the heap, the handles and the arguments. -/
theorem C61_no_escape (h : Heap) (c : CCall) (f : Fault) (e : c.run h = .error f) :
    f ≠ .outOfRange ∧ f ≠ .invalidArgument ∧ f ≠ .runtimeError := by
  suffices caught f = false by refine ⟨?_, ?_, ?_⟩ <;> rintro rfl <;> cases this
  cases c with
  | matcherIndex x y =>
    simp only [CCall.run, CApi.matcherIndex] at e
    cases hm : h.matcher x with
    | error g => rw [hm] at e; cases e; rw [matcher_escape hm]; rfl
    | ok m =>
      cases hc : h.corpus y with
      | error g => rw [hm, hc] at e; cases e; rw [corpus_escape hc]; rfl
      | ok cc =>
        rw [hm, hc] at e
        simp only [ok_bind] at e
        rcases hg : m.index cc with ⟨m', _ | g⟩
        · rw [hg] at e; cases e
        · rw [hg] at e
          dsimp only at e
          split at e
          · cases e
          · cases e; simp_all
  | matcherMatch x s =>
    simp only [CCall.run, CApi.matcherMatch] at e
    cases hm : h.matcher x with
    | error g => rw [hm] at e; cases e; rw [matcher_escape hm]; rfl
    | ok m =>
      rw [hm] at e
      simp only [ok_bind] at e
      rcases hg : m.matchUtf8 s with ⟨m', g | v⟩
      · rw [hg] at e
        dsimp only at e
        split at e
        · cases e
        · cases e; simp_all
      · rw [hg] at e; cases e
  | addStandardErrors data x =>
    simp only [CCall.run, CApi.addStandardErrors] at e
    cases hm : h.errorsOwner x with
    | error g =>
      rw [hm] at e; cases e
      cases x with
      | errorsOf n =>
        simp only [Heap.errorsOwner] at hm
        cases hx : h.matcher (.obj n) with
        | error g => rw [hx] at hm; cases hm; rw [matcher_escape hx]; rfl
        | ok v => rw [hx] at hm; cases hm
      | _ => cases hm; rfl
    | ok m =>
      rw [hm] at e
      simp only [ok_bind] at e
      rcases hg : m.2.e.addStandardErrors data with ⟨m', _ | g⟩
      · rw [hg] at e; cases e
      · rw [hg] at e
        dsimp only at e
        split at e
        · cases e
        · cases e; simp_all
  | documentNew id => cases e
  | matchResultsNew => cases e
  | corpusNew => cases e
  | _ => exact orElse_escape e

/-- C61. Every valid call of every C program returns: no crash, no undefined behaviour, no failed assertion. -/
theorem C61_returns (h : Heap) (hr : CRan h) (c : CCall) (hv : c.Valid h) : ∃ h' r, c.run h = .ok (h', r) ∧ CRan h' := by
  obtain ⟨h', r, e, _⟩ := call_ok (CRan.ok hr) hv
  exact ⟨h', r, e, .call hr hv e⟩

/-- C61. Each C function does and returns what its C++ counterpart does and returns; where that throws, it returns the
sentinel. Missing: `col_match_results_get_relevancy`, for which it is false (`C61_false`). -/
theorem C61_partial (h h' : Heap) (c : CCall) (r : CRet) (hv : c.Valid h) (hc : ¬ c.IsRelevancy) (hr : c.run h = .ok (h', r)) :
    c.Mirrors h h' r := by
  cases c with
  | wordNew s =>
    simp only [CCall.run, CApi.wordNew] at hr
    simp only [CCall.Mirrors]
    cases hw : Word.ofUtf8 s with
    | ok w => rw [hw] at hr; cases hr; exact ⟨rfl, rfl⟩
    | error f => rw [hw] at hr; simp only [error_bind, orElse, ofUtf8_caught hw, if_true] at hr; cases hr; exact ⟨rfl, rfl⟩
  | wordDelete x => exact deleted_of hr (hv.imp id fun ⟨w, hw⟩ => ⟨_, hw, rfl⟩)
  | wordLength x =>
    obtain ⟨w, hw⟩ := hv
    simp only [CCall.run, CApi.wordLength, holds_word hw, ok_bind] at hr
    cases hr; exact ⟨rfl, w, hw, rfl⟩
  | wordAsUtf8 x n =>
    obtain ⟨w, hw, _⟩ := hv
    simp only [CCall.run, CApi.wordAsUtf8, holds_word hw, ok_bind] at hr
    refine ⟨?_, w, hw, ?_⟩ <;> cases hu : Word.toUtf8 w n with
    | ok b => rw [hu] at hr; cases hr; rfl
    | error f =>
      rw [hu] at hr; simp only [error_bind, orElse] at hr
      split at hr <;> cases hr
      rfl
  | documentNew id => cases hr; exact ⟨rfl, rfl⟩
  | documentDelete x => exact deleted_of hr (hv.imp id fun ⟨w, hw⟩ => ⟨_, hw, rfl⟩)
  | documentGetId x =>
    obtain ⟨w, hw⟩ := hv
    simp only [CCall.run, CApi.documentGetId, holds_document hw, ok_bind] at hr
    cases hr; exact ⟨rfl, w, hw, rfl⟩
  | documentAddText x y s =>
    obtain ⟨⟨d, hd⟩, ⟨w, hw⟩, hs⟩ := hv
    simp only [CCall.run, CApi.documentAddText, holds_document hd, holds_word hw, ok_bind] at hr
    cases hu : d.addTextUtf8 w s with
    | ok d' => rw [hu] at hr; cases hr; exact ⟨rfl, d, w, hd, hw, by rw [hu]; exact changed_put hd⟩
    | error f =>
      rw [hu] at hr; simp only [error_bind, orElse] at hr
      split at hr <;> cases hr
      exact ⟨rfl, d, w, hd, hw, by rw [hu]⟩
  | matcherNew os =>
    simp only [CCall.run, CApi.matcherNew] at hr
    simp only [CCall.Mirrors]
    cases hu : Matcher.new os with
    | ok m => rw [hu] at hr; cases hr; exact ⟨rfl, rfl⟩
    | error f =>
      rw [hu] at hr; simp only [error_bind, orElse] at hr
      split at hr <;> cases hr
      exact ⟨rfl, rfl⟩
  | matcherDelete x => exact deleted_of hr (hv.imp id fun ⟨w, hw⟩ => ⟨_, hw, rfl⟩)
  | matcherIndex x y =>
    obtain ⟨m, c, hm, hc, _⟩ := hv
    simp only [CCall.run, CApi.matcherIndex, holds_matcher hm, holds_corpus hc, ok_bind] at hr
    rcases hg : m.index c with ⟨m', _ | f⟩
    · rw [hg] at hr; cases hr; exact ⟨rfl, m, c, hm, hc, by rw [hg]; exact changed_put hm⟩
    · rw [hg] at hr; dsimp only at hr
      split at hr <;> cases hr
      exact ⟨rfl, m, c, hm, hc, by rw [hg]; exact changed_put hm⟩
  | matcherMatch x s =>
    obtain ⟨⟨m, hm⟩, _⟩ := hv
    simp only [CCall.run, CApi.matcherMatch, holds_matcher hm, ok_bind] at hr
    refine ⟨m, h.put x (.matcher (m.matchUtf8 s).1), hm, changed_put hm, ?_⟩
    rcases hg : m.matchUtf8 s with ⟨m', f | v⟩
    · rw [hg] at hr; dsimp only at hr
      split at hr <;> cases hr
      exact ⟨rfl, rfl⟩
    · rw [hg] at hr; cases hr; exact ⟨rfl, rfl⟩
  | matcherGetErrorValues x =>
    obtain ⟨m, hm⟩ := hv
    simp only [CCall.run, CApi.matcherGetErrorValues, holds_matcher hm, ok_bind] at hr
    obtain ⟨n, rfl, _⟩ := hm
    cases hr; exact ⟨rfl, n, rfl, rfl⟩
  | matcherGetIndexWeights x =>
    obtain ⟨m, hm⟩ := hv
    simp only [CCall.run, CApi.matcherGetIndexWeights, holds_matcher hm, ok_bind] at hr
    obtain ⟨n, rfl, _⟩ := hm
    cases hr; exact ⟨rfl, n, rfl, rfl⟩
  | matchResultsNew => cases hr; exact ⟨rfl, rfl⟩
  | matchResultsDelete x => exact deleted_of hr (hv.imp id fun ⟨w, hw⟩ => ⟨_, hw, rfl⟩)
  | matchResultsSize x =>
    obtain ⟨w, hw⟩ := hv
    simp only [CCall.run, CApi.matchResultsSize, holds_results hw, ok_bind] at hr
    cases hr; exact ⟨rfl, w, hw, rfl⟩
  | matchResultsGetId x i =>
    obtain ⟨w, hw⟩ := hv
    simp only [CCall.run, CApi.matchResultsGetId, holds_results hw, ok_bind] at hr
    refine ⟨w, hw, ?_⟩
    cases hu : w.getDocumentID i with
    | ok b => rw [hu] at hr; cases hr; exact ⟨rfl, changed_put hw⟩
    | error f =>
      rw [hu] at hr; simp only [error_bind, orElse] at hr
      split at hr <;> cases hr
      exact ⟨rfl, rfl⟩
  | matchResultsGetRelevancy x i => exact absurd trivial hc
  | corpusNew => cases hr; exact ⟨rfl, rfl⟩
  | corpusDelete x => exact deleted_of hr (hv.imp id fun ⟨w, hw⟩ => ⟨_, hw, rfl⟩)
  | corpusAddDocument x y =>
    obtain ⟨⟨c, hc⟩, d, hd⟩ := hv
    simp only [CCall.run, CApi.corpusAddDocument, holds_corpus hc, holds_document hd, ok_bind] at hr
    cases hr; exact ⟨rfl, c, d, hc, hd, changed_put hc⟩
  | addStandardErrors data x =>
    obtain ⟨n, m, rfl, hm⟩ := hv
    simp only [CCall.run, CApi.addStandardErrors, Heap.errorsOwner, holds_matcher hm, ok_bind] at hr
    rcases hg : ErrorValues.addStandardErrors data m.e with ⟨e', _ | f⟩
    · rw [hg] at hr; cases hr; exact ⟨rfl, n, m, rfl, hm, by rw [hg]; exact changed_put hm⟩
    · rw [hg] at hr; dsimp only at hr
      split at hr <;> cases hr
      exact ⟨rfl, n, m, rfl, hm, by rw [hg]; exact changed_put hm⟩
  | setSubstringMode x =>
    obtain ⟨n, m, rfl, hm⟩ := hv
    simp only [CCall.run, CApi.setSubstringMode, Heap.errorsOwner, holds_matcher hm, ok_bind] at hr
    cases hr; exact ⟨rfl, n, m, rfl, hm, changed_put hm⟩
  | setWeight x y v =>
    obtain ⟨⟨n, m, rfl, hm⟩, w, hw⟩ := hv
    simp only [CCall.run, CApi.setWeight, Heap.weightsOwner, holds_matcher hm, holds_word hw, ok_bind] at hr
    cases hr; exact ⟨rfl, n, m, w, rfl, hm, hw, changed_put hm⟩
  | getWeight x y =>
    obtain ⟨⟨n, m, rfl, hm⟩, w, hw⟩ := hv
    simp only [CCall.run, CApi.getWeight, Heap.weightsOwner, holds_matcher hm, holds_word hw, ok_bind] at hr
    cases hr; exact ⟨rfl, n, m, w, rfl, hm, hw, rfl⟩

omit [Build] [Icu] [Runtime] [Fp] in
/-- C61. A handle that leads to no live word is not reported with a sentinel: using it is undefined behaviour. -/
theorem C61_stale (h : Heap) (x : Handle) (hx : ∀ w, ¬ Heap.Holds h x (.word w)) : CApi.wordLength h x = .error .ub := by
  simp only [CApi.wordLength, Heap.word]
  cases hg : h.get x with
  | error f => rw [get_escape hg]; rfl
  | ok o =>
    cases o with
    | word w => exact absurd (holds_iff.1 hg) (hx w)
    | _ => rfl

omit [Build] [Icu] [Runtime] [Fp] in
theorem wrong_object {h : Heap} {x : Handle} :
    ((∃ w, Heap.Holds h x (.word w) ∧ h.word x = .ok w) ∨ (¬ ∃ w, Heap.Holds h x (.word w)) ∧ h.word x = .error .ub) ∧
    ((∃ w, Heap.Holds h x (.document w) ∧ h.document x = .ok w) ∨
      (¬ ∃ w, Heap.Holds h x (.document w)) ∧ h.document x = .error .ub) ∧
    ((∃ w, Heap.Holds h x (.matcher w) ∧ h.matcher x = .ok w) ∨ (¬ ∃ w, Heap.Holds h x (.matcher w)) ∧ h.matcher x = .error .ub) ∧
    ((∃ w, Heap.Holds h x (.results w) ∧ h.results x = .ok w) ∨ (¬ ∃ w, Heap.Holds h x (.results w)) ∧ h.results x = .error .ub) ∧
    ((∃ w, Heap.Holds h x (.corpus w) ∧ h.corpus x = .ok w) ∨ (¬ ∃ w, Heap.Holds h x (.corpus w)) ∧ h.corpus x = .error .ub) := by
  have hu : ∀ o o', Heap.Holds h x o → Heap.Holds h x o' → o = o' := by
    intro o o' h1 h2
    have e1 := holds_iff.2 h1
    rw [holds_iff.2 h2] at e1
    injection e1 with e1
    exact e1.symm
  simp only [Heap.word, Heap.document, Heap.matcher, Heap.results, Heap.corpus]
  cases hg : h.get x with
  | error f =>
    have hn : ∀ o, ¬ Heap.Holds h x o := by
      intro o ho
      rw [holds_iff.2 ho] at hg; cases hg
    rw [get_escape hg]
    refine ⟨Or.inr ⟨?_, rfl⟩, Or.inr ⟨?_, rfl⟩, Or.inr ⟨?_, rfl⟩, Or.inr ⟨?_, rfl⟩, Or.inr ⟨?_, rfl⟩⟩ <;>
      exact fun ⟨w, hw⟩ => hn _ hw
  | ok o =>
    have ho := holds_iff.1 hg
    simp only [ok_bind]
    cases o with
    | word w => exact ⟨Or.inl ⟨w, ho, rfl⟩, Or.inr ⟨fun ⟨_, h2⟩ => (by cases hu _ _ ho h2), rfl⟩,
        Or.inr ⟨fun ⟨_, h2⟩ => (by cases hu _ _ ho h2), rfl⟩, Or.inr ⟨fun ⟨_, h2⟩ => (by cases hu _ _ ho h2), rfl⟩,
        Or.inr ⟨fun ⟨_, h2⟩ => (by cases hu _ _ ho h2), rfl⟩⟩
    | document w => exact ⟨Or.inr ⟨fun ⟨_, h2⟩ => (by cases hu _ _ ho h2), rfl⟩, Or.inl ⟨w, ho, rfl⟩,
        Or.inr ⟨fun ⟨_, h2⟩ => (by cases hu _ _ ho h2), rfl⟩, Or.inr ⟨fun ⟨_, h2⟩ => (by cases hu _ _ ho h2), rfl⟩,
        Or.inr ⟨fun ⟨_, h2⟩ => (by cases hu _ _ ho h2), rfl⟩⟩
    | matcher w => exact ⟨Or.inr ⟨fun ⟨_, h2⟩ => (by cases hu _ _ ho h2), rfl⟩, Or.inr ⟨fun ⟨_, h2⟩ => (by cases hu _ _ ho h2), rfl⟩,
        Or.inl ⟨w, ho, rfl⟩, Or.inr ⟨fun ⟨_, h2⟩ => (by cases hu _ _ ho h2), rfl⟩,
        Or.inr ⟨fun ⟨_, h2⟩ => (by cases hu _ _ ho h2), rfl⟩⟩
    | results w => exact ⟨Or.inr ⟨fun ⟨_, h2⟩ => (by cases hu _ _ ho h2), rfl⟩, Or.inr ⟨fun ⟨_, h2⟩ => (by cases hu _ _ ho h2), rfl⟩,
        Or.inr ⟨fun ⟨_, h2⟩ => (by cases hu _ _ ho h2), rfl⟩, Or.inl ⟨w, ho, rfl⟩,
        Or.inr ⟨fun ⟨_, h2⟩ => (by cases hu _ _ ho h2), rfl⟩⟩
    | corpus w => exact ⟨Or.inr ⟨fun ⟨_, h2⟩ => (by cases hu _ _ ho h2), rfl⟩, Or.inr ⟨fun ⟨_, h2⟩ => (by cases hu _ _ ho h2), rfl⟩,
        Or.inr ⟨fun ⟨_, h2⟩ => (by cases hu _ _ ho h2), rfl⟩, Or.inr ⟨fun ⟨_, h2⟩ => (by cases hu _ _ ho h2), rfl⟩,
        Or.inl ⟨w, ho, rfl⟩⟩

omit [Build] [Icu] [Runtime] [Fp] in
theorem wrong_free {h : Heap} {x : Handle} {kind : Obj → Bool} (hx : x ≠ .null) (hk : ∀ o, Heap.Holds h x o → kind o = false) :
    h.free x kind = .error .ub := by
  cases x with
  | null => exact absurd rfl hx
  | obj n =>
    rw [Heap.free]
    cases hg : h.get (.obj n) with
    | error f => rw [get_escape hg]; rfl
    | ok o => simp [ok_bind, hk o (holds_iff.1 hg)]
  | errorsOf n => rfl
  | weightsOf n => rfl

omit [Build] [Icu] [Runtime] [Fp] in
theorem wrong_owner {h : Heap} {x : Handle} :
    ((¬ ∃ n m, x = .errorsOf n ∧ Heap.Holds h (.obj n) (.matcher m)) → h.errorsOwner x = .error .ub) ∧
    ((¬ ∃ n m, x = .weightsOf n ∧ Heap.Holds h (.obj n) (.matcher m)) → h.weightsOwner x = .error .ub) := by
  constructor <;> intro hx
  · cases x with
    | errorsOf n =>
      rcases (wrong_object (h := h) (x := .obj n)).2.2.1 with ⟨m, hm, _⟩ | ⟨_, e⟩
      · exact absurd ⟨n, m, rfl, hm⟩ hx
      · rw [Heap.errorsOwner, e]; rfl
    | _ => rfl
  · cases x with
    | weightsOf n =>
      rcases (wrong_object (h := h) (x := .obj n)).2.2.1 with ⟨m, hm, _⟩ | ⟨_, e⟩
      · exact absurd ⟨n, m, rfl, hm⟩ hx
      · rw [Heap.weightsOwner, e]; rfl
    | _ => rfl

/-- C61. A null, stale or wrong handle is not reported with a sentinel: using it is undefined behaviour in each function that
takes a handle, and so is deleting it, except that null may be deleted. -/
theorem C61_wrong (h : Heap) (c : CCall) (hc : ¬ c.Handles h) : c.run h = .error .ub := by
  have free : ∀ (x : Handle) (kind : Obj → Bool), x ≠ .null → (∀ o, Heap.Holds h x o → kind o = false) →
      orElse (h.free x kind) h = .error .ub := fun x kind h1 h2 => by rw [wrong_free h1 h2]; rfl
  have word : ∀ x, (¬ ∃ w, Heap.Holds h x (.word w)) → h.word x = .error .ub := fun x hx =>
    wrong_object.1.elim (fun ⟨w, hw, _⟩ => absurd ⟨w, hw⟩ hx) (fun h => h.2)
  have document : ∀ x, (¬ ∃ w, Heap.Holds h x (.document w)) → h.document x = .error .ub := fun x hx =>
    wrong_object.2.1.elim (fun ⟨w, hw, _⟩ => absurd ⟨w, hw⟩ hx) (fun h => h.2)
  have matcher : ∀ x, (¬ ∃ w, Heap.Holds h x (.matcher w)) → h.matcher x = .error .ub := fun x hx =>
    wrong_object.2.2.1.elim (fun ⟨w, hw, _⟩ => absurd ⟨w, hw⟩ hx) (fun h => h.2)
  have results : ∀ x, (¬ ∃ w, Heap.Holds h x (.results w)) → h.results x = .error .ub := fun x hx =>
    wrong_object.2.2.2.1.elim (fun ⟨w, hw, _⟩ => absurd ⟨w, hw⟩ hx) (fun h => h.2)
  have corpus : ∀ x, (¬ ∃ w, Heap.Holds h x (.corpus w)) → h.corpus x = .error .ub := fun x hx =>
    wrong_object.2.2.2.2.elim (fun ⟨w, hw, _⟩ => absurd ⟨w, hw⟩ hx) (fun h => h.2)
  cases c with
  | wordNew | documentNew | matcherNew | matchResultsNew | corpusNew => exact absurd trivial hc
  | wordDelete x =>
    simp only [CCall.Handles, not_or] at hc
    simp only [CCall.run, CApi.wordDelete]
    rw [free x _ hc.1 fun o ho => ?_]; · rfl
    cases o <;> first | rfl | exact absurd ⟨_, ho⟩ hc.2
  | documentDelete x =>
    simp only [CCall.Handles, not_or] at hc
    simp only [CCall.run, CApi.documentDelete]
    rw [free x _ hc.1 fun o ho => ?_]; · rfl
    cases o <;> first | rfl | exact absurd ⟨_, ho⟩ hc.2
  | matcherDelete x =>
    simp only [CCall.Handles, not_or] at hc
    simp only [CCall.run, CApi.matcherDelete]
    rw [free x _ hc.1 fun o ho => ?_]; · rfl
    cases o <;> first | rfl | exact absurd ⟨_, ho⟩ hc.2
  | matchResultsDelete x =>
    simp only [CCall.Handles, not_or] at hc
    simp only [CCall.run, CApi.matchResultsDelete]
    rw [free x _ hc.1 fun o ho => ?_]; · rfl
    cases o <;> first | rfl | exact absurd ⟨_, ho⟩ hc.2
  | corpusDelete x =>
    simp only [CCall.Handles, not_or] at hc
    simp only [CCall.run, CApi.corpusDelete]
    rw [free x _ hc.1 fun o ho => ?_]; · rfl
    cases o <;> first | rfl | exact absurd ⟨_, ho⟩ hc.2
  | wordLength x => simp only [CCall.run, CApi.wordLength, word x hc]; rfl
  | wordAsUtf8 x n => simp only [CCall.run, CApi.wordAsUtf8, word x hc]; rfl
  | documentGetId x => simp only [CCall.run, CApi.documentGetId, document x hc]; rfl
  | documentAddText x y s =>
    simp only [CCall.Handles, not_and_or] at hc
    simp only [CCall.run, CApi.documentAddText]
    rcases hc with hc | hc
    · rw [document x hc]; rfl
    · rcases (wrong_object (h := h) (x := x)).2.1 with ⟨_, _, e⟩ | ⟨_, e⟩
      · rw [e, ok_bind, word y hc]; rfl
      · rw [e]; rfl
  | matcherIndex x y =>
    simp only [CCall.Handles, not_and_or] at hc
    simp only [CCall.run, CApi.matcherIndex]
    rcases hc with hc | hc
    · rw [matcher x hc]; rfl
    · rcases (wrong_object (h := h) (x := x)).2.2.1 with ⟨_, _, e⟩ | ⟨_, e⟩
      · rw [e, ok_bind, corpus y hc]; rfl
      · rw [e]; rfl
  | matcherMatch x s => simp only [CCall.run, CApi.matcherMatch, matcher x hc]; rfl
  | matcherGetErrorValues x => simp only [CCall.run, CApi.matcherGetErrorValues, matcher x hc]; rfl
  | matcherGetIndexWeights x => simp only [CCall.run, CApi.matcherGetIndexWeights, matcher x hc]; rfl
  | matchResultsSize x => simp only [CCall.run, CApi.matchResultsSize, results x hc]; rfl
  | matchResultsGetId x i => simp only [CCall.run, CApi.matchResultsGetId, results x hc]; rfl
  | matchResultsGetRelevancy x i => simp only [CCall.run, CApi.matchResultsGetRelevancy, results x hc]; rfl
  | corpusAddDocument x y =>
    simp only [CCall.Handles, not_and_or] at hc
    simp only [CCall.run, CApi.corpusAddDocument]
    rcases hc with hc | hc
    · rw [corpus x hc]; rfl
    · rcases (wrong_object (h := h) (x := x)).2.2.2.2 with ⟨_, _, e⟩ | ⟨_, e⟩
      · rw [e, ok_bind, document y hc]; rfl
      · rw [e]; rfl
  | addStandardErrors data x => simp only [CCall.run, CApi.addStandardErrors, wrong_owner.1 hc]; rfl
  | setSubstringMode x => simp only [CCall.run, CApi.setSubstringMode, wrong_owner.1 hc]; rfl
  | setWeight x y v =>
    simp only [CCall.Handles, not_and_or] at hc
    simp only [CCall.run, CApi.setWeight]
    rcases hc with hc | hc
    · rw [wrong_owner.2 hc]; rfl
    · by_cases hx : ∃ n m, x = .weightsOf n ∧ Heap.Holds h (.obj n) (.matcher m)
      · obtain ⟨n, m, rfl, hm⟩ := hx
        simp only [Heap.weightsOwner, holds_matcher hm, ok_bind, word y hc]; rfl
      · rw [wrong_owner.2 hx]; rfl
  | getWeight x y =>
    simp only [CCall.Handles, not_and_or] at hc
    simp only [CCall.run, CApi.getWeight]
    rcases hc with hc | hc
    · rw [wrong_owner.2 hc]; rfl
    · by_cases hx : ∃ n m, x = .weightsOf n ∧ Heap.Holds h (.obj n) (.matcher m)
      · obtain ⟨n, m, rfl, hm⟩ := hx
        simp only [Heap.weightsOwner, holds_matcher hm, ok_bind, word y hc]; rfl
      · rw [wrong_owner.2 hx]; rfl

/-- A corpus handed over as results, and a null word. -/
example : ¬ CCall.Handles ⟨[some (.corpus [])]⟩ (.matchResultsSize (.obj 0)) ∧ ¬ CCall.Handles ⟨[]⟩ (.wordLength .null) := by
  constructor
  · rintro ⟨r, n, h1, h2⟩
    cases h1; cases h2
  · rintro ⟨r, n, h1, h2⟩
    cases h1

/-! ### C62 -/

omit [Build] [Icu] [Runtime] in
/-- C62. What the code returns instead: the document identifier of the i-th result as a number, and -1 beyond the last.
Missing: the relevancy. -/
theorem C62_partial (h : Heap) (x : Handle) (res : MatchResults) (added l : List Result) (hx : Heap.Holds h x (.results res))
    (hf : Filled res added) (hl : IsRanking added l) (i : Nat) :
    ∃ h', CApi.matchResultsGetRelevancy h x i = .ok (h', match l[i]? with | some y => ofInt y.2 | none => -1) := by
  rw [IsRanking.unique hl (rank_isRanking added)]
  simp only [CApi.matchResultsGetRelevancy, holds_results hx, ok_bind, (filled_inv hf).getDocumentID]
  cases (rank added)[i]? with
  | none => exact ⟨_, rfl⟩
  | some y => exact ⟨_, rfl⟩

omit [Build] [Icu] [Runtime] in
/-- C62. The answer is the relevancy only where that happens to equal the identifier. -/
theorem C62_when (h : Heap) (x : Handle) (res : MatchResults) (added l : List Result) (hx : Heap.Holds h x (.results res))
    (hf : Filled res added) (hl : IsRanking added l) (i : Nat) (y : Result) (hy : l[i]? = some y) :
    ((CApi.matchResultsGetRelevancy h x i).map (·.2) = .ok y.1) ↔ y.1 = ofInt y.2 := by
  obtain ⟨h', e⟩ := C62_partial h x res added l hx hf hl i
  rw [e, hy]
  simp only [Except.map]
  constructor
  · intro e; exact (Except.ok.inj e).symm
  · intro e; rw [e]

end

/-- The results of the witness: document 7 with relevancy 1/2. -/
def half : MatchResults := MatchResults.new.addResult 7 (1 / 2)

theorem half_filled : Filled half [(1 / 2, 7)] := .add 7 (1 / 2) .new

theorem half_ranking : IsRanking [(1 / 2, 7)] [((1 / 2 : ℚ), 7)] := ⟨by simp, fun v => rfl⟩

/-- C62 is false: document 7 with relevancy 1/2 is reported with relevancy 7. -/
theorem C62_false : ∃ (h : Heap) (x : Handle) (res : MatchResults), Heap.Holds h x (.results res) ∧ Filled res [(1 / 2, 7)] ∧
    ∃ h', @CApi.matchResultsGetRelevancy Example.fp h x 0 = .ok (h', 7) := by
  refine ⟨⟨[some (.results half)]⟩, .obj 0, half, ⟨0, rfl, rfl⟩, half_filled, ?_⟩
  obtain ⟨h', e⟩ := @C62_partial Example.fp ⟨[some (.results half)]⟩ (.obj 0) half _ _ ⟨0, rfl, rfl⟩ half_filled half_ranking 0
  exact ⟨h', e⟩

/-- C61 is false of `col_match_results_get_relevancy`: it does not return what `MatchResults::getRelevancy` returns. -/
theorem C61_false : ∃ (h h' : Heap) (c : CCall) (r : CRet), @CCall.Valid Example.debug h c ∧
    @CCall.run Example.debug Example.icu Example.runtime Example.fp h c = .ok (h', r) ∧
    ¬ @CCall.Mirrors Example.debug Example.icu Example.runtime Example.fp h h' r c := by
  obtain ⟨h', e⟩ := @C62_partial Example.fp ⟨[some (.results half)]⟩ (.obj 0) half _ _ ⟨0, rfl, rfl⟩ half_filled half_ranking 0
  refine ⟨⟨[some (.results half)]⟩, h', .matchResultsGetRelevancy (.obj 0) 0, .real 7, ⟨half, 0, rfl, rfl⟩, ?_, ?_⟩
  · simp only [CCall.run, e]; rfl
  · rintro ⟨res, ⟨n, hn, hc⟩, hm⟩
    cases hn
    simp only [List.getElem?_cons_zero, Option.some.injEq, Obj.results.injEq] at hc
    subst hc
    rw [(filled_inv half_filled).getRelevancy, IsRanking.unique (rank_isRanking _) half_ranking] at hm
    have := hm.1
    simp only [CRet.real.injEq] at this
    norm_num at this

/-- A C program: make the word "As", ask for its length, delete it. -/
example : ∃ h1 h2 h3, @CCall.run Example.debug Example.icu Example.runtime Example.fp ⟨[]⟩ (.wordNew [0x41, 0x73]) = .ok (h1, .handle (.obj 0)) ∧
    @CCall.run Example.debug Example.icu Example.runtime Example.fp h1 (.wordLength (.obj 0)) = .ok (h2, .number 2) ∧
    @CCall.run Example.debug Example.icu Example.runtime Example.fp h2 (.wordDelete (.obj 0)) = .ok (h3, .nothing) ∧
    @CRan Example.debug Example.icu Example.runtime Example.fp h3 ∧
    CApi.wordLength h3 (.obj 0) = .error .ub := by
  let _ := Example.debug; let _ := Example.icu; let _ := Example.runtime; let _ := Example.fp
  have hs : CString [0x41, 0x73] := ⟨by decide, by decide⟩
  have e0 : Word.ofUtf8 [0x41, 0x73] = .ok Example.as := by decide +kernel
  have e1 : CCall.run ⟨[]⟩ (.wordNew [0x41, 0x73]) = .ok (⟨[some (.word Example.as)]⟩, .handle (.obj 0)) := by
    simp only [CCall.run, CApi.wordNew, e0]; rfl
  have e2 : CCall.run ⟨[some (.word Example.as)]⟩ (.wordLength (.obj 0)) = .ok (⟨[some (.word Example.as)]⟩, .number 2) := rfl
  have e3 : CCall.run ⟨[some (.word Example.as)]⟩ (.wordDelete (.obj 0)) = .ok (⟨[none]⟩, .nothing) := rfl
  refine ⟨_, _, _, e1, e2, e3, ?_, rfl⟩
  have r1 := CRan.call (c := .wordNew [0x41, 0x73]) .start hs e1
  have r2 := CRan.call (c := .wordLength (.obj 0)) r1 ⟨Example.as, 0, rfl, rfl⟩ e2
  exact CRan.call (c := .wordDelete (.obj 0)) r2 (Or.inr ⟨Example.as, 0, rfl, rfl⟩) e3

end Columbus.Props
