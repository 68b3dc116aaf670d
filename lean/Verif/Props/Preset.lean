import Verif.Proofs.CApi
import Verif.Props.Online
import Verif.Props.Word
/-
C63: searching plain text with the error settings that the library provides itself.
-/

namespace Columbus.Props
open Columbus Spec ErrorValues

section
variable [Build] [Icu] [Runtime] [Fp] {os : Nat → Bool} {m : Matcher} {H : MatcherHistory} {K : List Word}

/-- C63. Any C string, with settings made only by the preset operations: ill-formed text throws `runtime_error`; otherwise
the unfiltered search returns and lists exactly the documents with a word, in a field not excluded, that some blank-free
run of the text can be edited into within its limit. No assumption on costs or overflow is left. -/
theorem C63_text (h : Ran os m H K) (ops : List ErrOp) (hops : ∀ op ∈ ops, op.Preset) (he : m.e = afterOps ops)
    (hH : ∀ w ∈ H.words, w.length ≤ 10000000) (s : Bytes) (hs : CString s) (p : SearchParameters) (hf : Unfiltered p) :
    (¬ WellFormed s → m.matchUtf8Params s p = (m, .error .runtimeError)) ∧
    (WellFormed s → ∃ ts r k, Tokens s ts ∧ m.matchUtf8Params s p = (m, .ok r) ∧ Shows r k ∧
      ∀ d, d ∈ k.map (·.2) ↔ ∃ f w t x v, H.Posting d f w ∧ p.isNonsearchingField f = false ∧ t ∈ ts ∧
        Word.ofUtf8 t = .ok x ∧ IsEditCost (configured m.e x.length) x w v ∧ v ≤ limit p x) := by
  have hp : PresetMade m.e := by rw [he]; exact presetMade_afterOps hops
  obtain ⟨ts, hts, h1, h2⟩ := C11_split s
  refine ⟨fun hw => by rw [Matcher.matchUtf8Params, h2 hw], fun hw => ?_⟩
  obtain ⟨q, eq, hq⟩ := h1 hw
  have hok := wordOk_split hs eq
  obtain ⟨r, k, e, hk, hd⟩ := C44_found h q p
    (hp.sane (fun x hx => usable_noNul (hok x hx).1) (L := 10000000) (fun x hx => (hok x hx).2) hH (le_refl _)) (hp.exact q) hf
  refine ⟨ts, r, k, hts, by rw [Matcher.matchUtf8Params, eq]; exact e, hk, fun d => (hd d).trans ?_⟩
  have hmem : ∀ x, x ∈ q ↔ ∃ t ∈ ts, Word.ofUtf8 t = .ok x := by
    clear hd hok e eq h1 h2 hts
    intro x
    induction hq with
    | nil => simp
    | cons hw _ ih =>
      rename_i t w ts ws _
      simp only [List.mem_cons, ih, exists_eq_or_imp, hw, Except.ok.injEq]
      exact or_congr_left eq_comm
  constructor
  · rintro ⟨f, w, x, v, a, b, c, d, e⟩
    obtain ⟨t, ht, hx⟩ := (hmem x).1 c
    exact ⟨f, w, t, x, v, a, b, ht, hx, d, e⟩
  · rintro ⟨f, w, t, x, v, a, b, ht, hx, d, e⟩
    exact ⟨f, w, x, v, a, b, (hmem x).2 ⟨t, ht, hx⟩, d, e⟩

/-- C63. The overload without parameters is the search with default ones. -/
theorem C63_default (s : Bytes) : m.matchUtf8 s = m.matchUtf8Params s .new := rfl

/-- C63. A document that contains one of the words typed is always found, whatever preset operations were used. -/
theorem C63_exact (h : Ran os m H K) (ops : List ErrOp) (hops : ∀ op ∈ ops, op.Preset) (he : m.e = afterOps ops)
    (hH : ∀ w ∈ H.words, w.length ≤ 10000000) (s : Bytes) (hs : CString s) (hw : WellFormed s) (p : SearchParameters)
    (hf : Unfiltered p) (ts : List Bytes) (hts : Tokens s ts) (t : Bytes) (ht : t ∈ ts) (w : Word) (hx : Word.ofUtf8 t = .ok w)
    (d : DocumentID) (f : Word) (hd : H.Posting d f w) (hn : p.isNonsearchingField f = false) :
    ∃ r k, m.matchUtf8Params s p = (m, .ok r) ∧ Shows r k ∧ d ∈ k.map (·.2) := by
  have hp : PresetMade m.e := by rw [he]; exact presetMade_afterOps hops
  obtain ⟨q, eq⟩ : ∃ q, splitToWords s = .ok q := by
    obtain ⟨_, _, h1, _⟩ := C11_split s
    obtain ⟨q, eq, _⟩ := h1 hw
    exact ⟨q, eq⟩
  have hok := wordOk_split hs eq
  have hsane : Sane m.e q H :=
    hp.sane (fun x hx => usable_noNul (hok x hx).1) (L := 10000000) (fun x hx => (hok x hx).2) hH (le_refl _)
  have hwq : w ∈ q := by
    have hq := wordsOf_ok.1 ((splitToWords_tokens hts).symm.trans eq)
    clear eq hok hsane hts
    induction hq with
    | nil => cases ht
    | cons hv _ ih =>
      rcases List.mem_cons.1 ht with rfl | ht
      · rw [hx] at hv; injection hv with hv; simp [hv]
      · simp [ih ht]
  obtain ⟨names, hi, _⟩ := Ran.start h
  obtain ⟨docs, ha, e⟩ := hi.matchQuery_eq (p := p) hsane
  have hsorted : SMap.Sorted ltNat docs := by obtain ⟨P, _, hD⟩ := ha; exact hD.sorted
  rw [filtered_trivial _ hf] at e
  refine ⟨_, _, by rw [Matcher.matchUtf8Params, eq]; exact e, shows_copied (listing_rank hsorted), ?_⟩
  rw [mem_listing_docs, hi.answer_mem hsane.nonNeg ha]
  exact ⟨f, w, w, hd, hn, hwq, seen_self (hsane.nonNeg w hwq) (fun a _ => hp.self a) (limit_nonneg _ _)⟩

/-- C63. `onlineMatch` of any words typed on a field that was indexed returns, and lists the same documents as `match`. -/
theorem C63_online (h : Ran os m H K) (ops : List ErrOp) (hops : ∀ op ∈ ops, op.Preset) (he : m.e = afterOps ops)
    (hH : ∀ w ∈ H.words, w.length ≤ 10000000) (s : Bytes) (hs : CString s) (q : WordList) (hq : splitToWords s = .ok q)
    (f : Word) (hf : ∃ x ∈ H, x.field = f) :
    ∃ r k r' k', m.matchUtf8 s = (m, .ok r) ∧ Shows r k ∧ m.onlineMatch q f = (m, .ok r') ∧ Shows r' k' ∧
      (∀ d, d ∈ k'.map (·.2) ↔ d ∈ k.map (·.2)) := by
  have hp : PresetMade m.e := by rw [he]; exact presetMade_afterOps hops
  have hok := wordOk_split hs hq
  have hsane : Sane m.e q H :=
    hp.sane (fun x hx => usable_noNul (hok x hx).1) (L := 10000000) (fun x hx => (hok x hx).2) hH (le_refl _)
  obtain ⟨r, k, e, hk, _⟩ := C44_found h q .new hsane (hp.exact q) rfl
  obtain ⟨names, hi, _⟩ := Ran.start h
  obtain ⟨x, hx, rfl⟩ := hf
  rcases hi.online_known (hi.known _ (MatcherHistory.mentions_field hx)) (q := q) (fun w hw => usable_noNul (hok w hw).1) with
    ⟨_, e1, _⟩ | ⟨docs, acc, hsorted, e1, e2, hsc⟩
  · rw [Matcher.matchDefault, e] at e1; cases e1
  · refine ⟨r, k, _, _, by rw [Matcher.matchUtf8, hq]; exact e, hk, e2, shows_addAll acc, ?_⟩
    exact C55_partial h q (fun w hw => (hok w hw).1) hsane (fun w _ a _ => hp.self a) _ ⟨x, hx, rfl⟩ m m r _ k _ e hk e2 (shows_addAll acc)

end

/-- "save" typed between blanks, in the example. -/
example [Build] [Icu] [Runtime] [Fp] : ∃ m : Matcher, Ran Example.os m Example.texts [] ∧ m.e = afterOps [] ∧
    (∀ w ∈ Example.texts.words, w.length ≤ 10000000) ∧ CString [0x20, 0x73, 0x61, 0x76, 0x65, 0x20] ∧
    WellFormed [0x20, 0x73, 0x61, 0x76, 0x65, 0x20] ∧ Tokens [0x20, 0x73, 0x61, 0x76, 0x65, 0x20] [[0x73, 0x61, 0x76, 0x65]] ∧
    Example.texts.Posting 1 Example.title Example.save := by
  obtain ⟨m, h, he, _⟩ := Example.ran
  refine ⟨m, h, he, by decide, by unfold CString; decide, ?_, ?_, by decide⟩
  · exact ⟨_, .one (by decide) (.one (by decide) (.one (by decide) (.one (by decide) (.one (by decide) (.one (by decide) .nil)))))⟩
  · exact .tok (p := [0x20]) (t := [0x73, 0x61, 0x76, 0x65]) (r := [0x20]) (by decide) (by decide) (by decide) (by decide) (.done (by decide))

/-- "save" becomes the word of the example. -/
example : @Word.ofUtf8 Example.debug Example.icu [0x73, 0x61, 0x76, 0x65] = .ok Example.save := by decide

/-- Operations that are preset. -/
example : ∀ op ∈ [ErrOp.addKeyboardErrors, .setSubstringMode], op.Preset := by simp [ErrOp.Preset]

end Columbus.Props
