import Verif.Proofs.AppLines
import Verif.Props.Documents
/-
Tools whose documents have several fields.
-/

namespace Columbus.Apps
open Columbus Spec

/-- A name that can be used for a field. -/
def FieldName (s : Bytes) : Prop := (∀ b ∈ s, b ≤ 0x7f ∧ b ≠ 0 ∧ ¬ IsBlank b) ∧ s ≠ [] ∧ s.length ≤ 10000000

/-- Texts that can be indexed. -/
structure TextsOk (ts : List (Bytes × Bytes)) : Prop where
  name : ∀ t ∈ ts, FieldName t.1
  text : ∀ t ∈ ts, CString t.2 ∧ WellFormed t.2
  distinct : (ts.map fun t => t.1.length).Nodup

section
variable [Build] [Icu]

/-- The name of a field. -/
def fieldWord (s : Bytes) : Word :=
  match Word.ofUtf8 s with
  | .ok w => w
  | .error _ => []

theorem fieldWord_eq {s : Bytes} (h : FieldName s) : Word.ofUtf8 s = .ok (fieldWord s) ∧
    (WordOk (fieldWord s) ∧ fieldWord s ≠ []) ∧ (fieldWord s).length = s.length := by
  obtain ⟨f, e, h1, h2⟩ := field_word h.1 h.2.1 h.2.2
  rw [fieldWord, e]
  exact ⟨rfl, h1, h2⟩

theorem fieldWord_iff {s : Bytes} (h : FieldName s) (w : Word) : LowerLetters s w ↔ w = fieldWord s := by
  rw [QueryIndex.lowerLetters_iff (fun b hb => (h.1 b hb).2.2), (fieldWord_eq h).1]
  simp only [Except.ok.injEq, eq_comm]

/-- The entry of some texts. -/
def textsEntry {ρ : Type} (ts : List (Bytes × Bytes)) (row : ρ) : Entry ρ := ⟨ts.map fun t => (fieldWord t.1, lineWords t.2), row⟩

theorem textsEntry_ok {ρ : Type} {ts : List (Bytes × Bytes)} (h : TextsOk ts) (row : ρ) : EntryOk (textsEntry ts row) := by
  intro p hp
  obtain ⟨t, ht, rfl⟩ := List.mem_map.1 hp
  refine ⟨(fieldWord_eq (h.name t ht)).2.1, fun w hw => ⟨?_, ?_⟩⟩
  · exact wordOk_split (h.text t ht).1 (lineWords_eq (h.text t ht).2) w hw
  · exact (split_words (lineWords_eq (h.text t ht).2)).2 w hw

theorem textsEntry_nodup {ρ : Type} {ts : List (Bytes × Bytes)} (h : TextsOk ts) (row : ρ) :
    ((textsEntry ts row).texts.map (·.1)).Nodup := by
  have h1 := h.distinct
  have h2 : ((textsEntry ts row).texts.map (·.1)).map List.length = ts.map fun t => t.1.length := by
    simp only [textsEntry, List.map_map]
    refine List.map_congr_left fun t ht => ?_
    exact (fieldWord_eq (h.name t ht)).2.2
  exact List.Nodup.of_map List.length (h2 ▸ h1)

omit [Build] [Icu] in
theorem set_letters (m : SMap Word WordList) (f : Word) (ws : WordList) (n : DocumentID) :
    lettersIn (MatcherHistory.mentions ((SMap.set Word.lt m f ws).map fun t => ⟨n, t.1, t.2.length, t.2⟩)) ≤
      lettersIn (MatcherHistory.mentions (m.map fun t => ⟨n, t.1, t.2.length, t.2⟩)) + f.length + lettersIn ws := by
  induction m with
  | nil => simp [SMap.set, MatcherHistory.mentions, lettersIn_cons]
  | cons t m ih =>
    obtain ⟨k, v⟩ := t
    rw [SMap.set]
    split
    · simp only [MatcherHistory.mentions, List.map_cons, List.flatMap_cons, lettersIn_append, lettersIn_cons] at ih ⊢
      omega
    · split
      · simp only [MatcherHistory.mentions, List.map_cons, List.flatMap_cons, lettersIn_append, lettersIn_cons]
        omega
      · simp only [MatcherHistory.mentions, List.map_cons, List.flatMap_cons, lettersIn_append, lettersIn_cons]
        omega

omit [Build] [Icu] in
theorem document_letters (n : DocumentID) (h : List (Word × WordList)) :
    lettersIn (corpusTexts [documentOf n h]).mentions ≤ (h.map fun t => t.1.length + lettersIn t.2).sum := by
  induction h using List.reverseRecOn with
  | nil => simp [documentOf, corpusTexts, Document.new, MatcherHistory.mentions, lettersIn]
  | append_singleton h t ih =>
    rw [documentOf_snoc]
    have := set_letters (documentOf n h).texts t.1 t.2 n
    simp only [corpusTexts, List.flatMap_cons, List.flatMap_nil, List.append_nil, documentOf_id, Document.addText, List.map_append,
      List.sum_append, List.map_cons, List.map_nil, List.sum_cons, List.sum_nil] at ih ⊢
    omega

theorem entry_letters {ρ : Type} {ts : List (Bytes × Bytes)} (h : TextsOk ts) (row : ρ) (n : DocumentID) :
    lettersIn (corpusTexts [documentOf n (textsEntry ts row).texts]).mentions ≤ textsLength ts := by
  refine (document_letters n _).trans ?_
  rw [textsEntry, List.map_map, textsLength]
  refine List.sum_le_sum fun t ht => ?_
  have h1 := (fieldWord_eq (h.name t ht)).2.2
  have h2 := split_letters (lineWords_eq (h.text t ht).2)
  simp only [Function.comp]
  omega

theorem docs_letters {ι ρ : Type} {texts : ι → List (Bytes × Bytes)} {row : ι → ρ} (items : List ι) (h : ∀ it ∈ items, TextsOk (texts it)) :
    ∀ n, lettersIn (corpusTexts (docsFrom n (items.map fun it => textsEntry (texts it) (row it)))).mentions ≤
      (items.map fun it => textsLength (texts it)).sum := by
  induction items with
  | nil => intro n; simp [docsFrom, corpusTexts, MatcherHistory.mentions, lettersIn]
  | cons it items ih =>
    intro n
    have h1 := ih (fun it hit => h it (by simp [hit])) (n + 1)
    have h2 := entry_letters (h it (by simp)) (row it) n
    rw [List.map_cons, docsFrom, List.map_cons, List.sum_cons]
    have h3 : ∀ (d : Document) (c : Corpus), lettersIn (corpusTexts (d :: c)).mentions =
        lettersIn (corpusTexts [d]).mentions + lettersIn (corpusTexts c).mentions := by
      intro d c
      simp only [corpusTexts, List.flatMap_cons, List.flatMap_nil, List.append_nil, MatcherHistory.mentions, List.flatMap_append,
        lettersIn_append]
    rw [h3]
    omega

end

section
variable [Build] [Icu] [Runtime] [Fp]

theorem texts_answer {ι ρ : Type} {text : ρ → ρ} {os : Nat → Bool} {m : Matcher} {items : List ι} {row shown : ι → ρ}
    {texts : ι → List (Bytes × Bytes)} (hok : ∀ it ∈ items, TextsOk (texts it)) (hrow : ∀ it ∈ items, text (row it) = shown it)
    (h : Ran os m (corpusTexts (docsFrom 0 (items.map fun it => textsEntry (texts it) (row it)))) []) (he : PresetMade m.e) :
    Answers (searchWith text) ⟨m, items.map row⟩ items shown (AnyClose (PriceWith m.e) texts) ∧
    Indexes os (⟨m, items.map row⟩ : App ρ) items texts := by
  constructor
  · have hr : items.map row = (items.map fun it => textsEntry (texts it) (row it)).map Entry.row := by
      rw [List.map_map]; rfl
    rw [hr]
    refine entries_answer (entry := fun it => textsEntry (texts it) (row it)) (fun it hit => textsEntry_ok (hok it hit) _)
      (fun it hit => textsEntry_nodup (hok it hit) _) hrow ?_ h he
    intro it hit q hq
    constructor
    · rintro ⟨t, ht, x, w, v, h1, h2, h3, h4⟩
      exact ⟨fieldWord t.1, lineWords t.2, w, x, v, List.mem_map.2 ⟨t, ht, rfl⟩,
        (lineWords_mem ((hok it hit).text t ht).2 w).2 h2, h1, h3, h4⟩
    · rintro ⟨f, ws, w, x, v, h1, h2, h3, h4, h5⟩
      obtain ⟨t, ht, e⟩ := List.mem_map.1 h1
      simp only [Prod.mk.injEq] at e
      rw [← e.2] at h2
      exact ⟨t, ht, x, w, v, h3, (lineWords_mem ((hok it hit).text t ht).2 w).1 h2, h4, h5⟩
  · refine ⟨_, h, fun d f w => ?_⟩
    have hnd : ∀ e ∈ items.map fun it => textsEntry (texts it) (row it), (e.texts.map (·.1)).Nodup := by
      intro e he
      obtain ⟨it, hit, rfl⟩ := List.mem_map.1 he
      exact textsEntry_nodup (hok it hit) _
    rw [posting_docs _ hnd 0 d f w]
    constructor
    · rintro ⟨i, e, ws, h1, h2, h3, h4⟩
      have h2 : d = i := h2.trans (Nat.zero_add i)
      subst h2
      rw [List.getElem?_map, Option.map_eq_some_iff] at h1
      obtain ⟨it, hit, rfl⟩ := h1
      have hm := List.mem_of_getElem? hit
      obtain ⟨t, ht, e⟩ := List.mem_map.1 h3
      simp only [Prod.mk.injEq] at e
      rw [← e.2] at h4
      exact ⟨it, hit, t, ht, (fieldWord_iff ((hok it hm).name t ht) f).2 e.1.symm, (lineWords_mem ((hok it hm).text t ht).2 w).1 h4⟩
    · rintro ⟨it, hit, t, ht, h1, h2⟩
      have hm := List.mem_of_getElem? hit
      refine ⟨d, _, lineWords t.2, by rw [List.getElem?_map, hit]; rfl, (Nat.zero_add d).symm, ?_,
        (lineWords_mem ((hok it hm).text t ht).2 w).2 h2⟩
      rw [(fieldWord_iff ((hok it hm).name t ht) f).1 h1]
      exact List.mem_map.2 ⟨t, ht, rfl⟩

omit [Runtime] [Fp] in
/-- Two weights. -/
theorem weighs_two {ρ : Type} {app : App ρ} {a b : Bytes} {va vb : ℚ} (ha : FieldName a) (hb : FieldName b) (hab : a.length ≠ b.length)
    (h : app.m.weights = weightsOf [(fieldWord a, va), (fieldWord b, vb)]) : Weighs app [(a, va), (b, vb)] := by
  have hne : fieldWord a ≠ fieldWord b := by
    intro h
    have := congrArg List.length h
    rw [(fieldWord_eq ha).2.2, (fieldWord_eq hb).2.2] at this
    exact hab this
  intro f
  obtain ⟨h1, h2⟩ := Props.C43_weights [(fieldWord a, va), (fieldWord b, vb)] f
  rw [h]
  constructor
  · intro p hp hl
    simp only [List.mem_cons, List.not_mem_nil, or_false] at hp
    rcases hp with rfl | rfl
    · rw [fieldWord_iff ha] at hl
      subst hl
      exact h1 [] va [(fieldWord b, vb)] rfl (by simpa using hne.symm)
    · rw [fieldWord_iff hb] at hl
      subst hl
      exact h1 [(fieldWord a, va)] vb [] rfl (by simp)
  · intro hn
    refine h2 ?_
    intro p hp
    simp only [List.mem_cons, List.not_mem_nil, or_false] at hp
    rcases hp with rfl | rfl
    · intro he; exact hn (a, va) (by simp) ((fieldWord_iff ha f).2 he.symm)
    · intro he; exact hn (b, vb) (by simp) ((fieldWord_iff hb f).2 he.symm)

end
end Columbus.Apps
