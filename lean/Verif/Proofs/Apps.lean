import Verif.Model.SearchApps
import Verif.Proofs.CApi
import Verif.Proofs.Program
import Verif.Props.Online
/-
The graphical tools: filling the matcher, and reading the results.
-/

namespace Columbus.Apps
open Columbus Spec

section
variable [Build] [Icu] [Runtime] [Fp] {ρ : Type}

/-- What a tool makes of a line: the texts of a document and what is shown for it. -/
structure Entry (ρ : Type) where
  texts : List (Word × WordList)
  row : ρ

/-- Field names and words are usable and not empty. -/
def EntryOk (e : Entry ρ) : Prop := ∀ p ∈ e.texts, (WordOk p.1 ∧ p.1 ≠ []) ∧ ∀ w ∈ p.2, WordOk w ∧ w ≠ []

/-- The documents of some entries, numbered from `n`. -/
def docsFrom (n : Nat) : List (Entry ρ) → Corpus
  | [] => []
  | e :: r => documentOf n e.texts :: docsFrom (n + 1) r

omit [Build] [Icu] [Runtime] [Fp] in
theorem docsFrom_append (n : Nat) (a b : List (Entry ρ)) : docsFrom n (a ++ b) = docsFrom n a ++ docsFrom (n + a.length) b := by
  induction a generalizing n with
  | nil => rfl
  | cons e a ih =>
    rw [List.cons_append, docsFrom, ih, docsFrom, List.cons_append, List.length_cons]
    congr 3; omega

omit [Build] [Icu] [Runtime] [Fp] in
theorem mem_texts {n : DocumentID} {h : List (Word × WordList)} {t : Word × WordList} (ht : t ∈ (documentOf n h).texts) : t ∈ h := by
  have hf := documentOf_find n h t.1
  rw [(SMap.find_some_iff strict_wordLt (documentOf_sorted n h) t.1 t.2).2 ht] at hf
  symm at hf
  rw [lastText, Option.map_eq_some_iff] at hf
  obtain ⟨p, hp, e2⟩ := hf
  have h4 := List.find?_some hp
  simp only [beq_iff_eq] at h4
  have h3 := List.mem_reverse.1 (List.mem_of_find?_eq_some hp)
  have : p = t := Prod.ext h4 e2
  exact this ▸ h3

omit [Build] [Icu] [Runtime] [Fp] in
/-- If no field has two texts, the document has all the texts. -/
theorem texts_mem {n : DocumentID} {h : List (Word × WordList)} (hnd : (h.map (·.1)).Nodup) {t : Word × WordList} (ht : t ∈ h) :
    t ∈ (documentOf n h).texts := by
  rw [← SMap.find_some_iff strict_wordLt (documentOf_sorted n h) t.1 t.2, documentOf_find, lastText, Option.map_eq_some_iff]
  refine ⟨t, ?_, rfl⟩
  cases hf : h.reverse.find? (fun p => p.1 == t.1) with
  | none =>
    rw [List.find?_eq_none] at hf
    exact absurd (hf t (List.mem_reverse.2 ht)) (by simp)
  | some p =>
    have h4 := List.find?_some hf
    simp only [beq_iff_eq] at h4
    have h3 := List.mem_reverse.1 (List.mem_of_find?_eq_some hf)
    rw [List.inj_on_of_nodup_map hnd h3 ht h4]

/-- Documents that can be indexed without an exception. -/
structure GoodDocs (c : Corpus) : Prop where
  ok : ∀ d ∈ c, DocOk d
  full : NoEmpty (corpusTexts c)

omit [Build] [Icu] [Runtime] [Fp] in
theorem corpusTexts_append (a b : Corpus) : corpusTexts (a ++ b) = corpusTexts a ++ corpusTexts b := List.flatMap_append

omit [Build] [Icu] [Runtime] [Fp] in
theorem mentions_append (a b : MatcherHistory) : (a ++ b : MatcherHistory).mentions = a.mentions ++ b.mentions := List.flatMap_append

omit [Build] [Icu] [Runtime] [Fp] in
theorem GoodDocs.append {a b : Corpus} (ha : GoodDocs a) (hb : GoodDocs b) : GoodDocs (a ++ b) := by
  refine ⟨fun d hd => (List.mem_append.1 hd).elim (ha.ok d) (hb.ok d), ?_⟩
  intro x hx
  rw [corpusTexts_append] at hx
  exact (List.mem_append.1 hx).elim (ha.full x) (hb.full x)

omit [Build] [Icu] [Runtime] [Fp] in
theorem goodDocs_nil : GoodDocs [] := ⟨by simp, by intro x hx; cases hx⟩

omit [Build] [Icu] [Runtime] [Fp] in
theorem EntryOk.good {e : Entry ρ} (h : EntryOk e) (n : Nat) : GoodDocs [documentOf n e.texts] := by
  constructor
  · intro d hd
    rw [List.mem_singleton] at hd
    subst hd
    exact ⟨e.texts, by rw [documentOf_id], fun p hp => ⟨(h p hp).1.1, fun w hw => ((h p hp).2 w hw).1⟩⟩
  · intro x hx
    simp only [corpusTexts, List.flatMap_cons, List.flatMap_nil, List.append_nil, List.mem_map] at hx
    obtain ⟨t, ht, rfl⟩ := hx
    have := h t (mem_texts ht)
    exact ⟨this.1.2, fun h0 => (this.2 [] h0).2 rfl⟩

omit [Build] [Icu] [Runtime] [Fp] in
theorem docsFrom_good {es : List (Entry ρ)} (h : ∀ e ∈ es, EntryOk e) : ∀ n, GoodDocs (docsFrom n es) := by
  induction es with
  | nil => intro n; exact goodDocs_nil
  | cons e es ih =>
    intro n
    have := (h e (by simp)).good n
    exact this.append (ih (fun e he => h e (by simp [he])) (n + 1))

/-- The storage for the names and words of a corpus may be refused. -/
def CorpusRefused (os : Nat → Bool) (c : Corpus) : Prop := StorageRefused os (2 * lettersIn (corpusTexts c).mentions)

omit [Build] [Icu] [Runtime] [Fp] in
theorem CorpusRefused.mono {os : Nat → Bool} {a b : Corpus} (h : CorpusRefused os a) : CorpusRefused os (a ++ b) := by
  refine StorageRefused.mono h ?_
  rw [corpusTexts_append, mentions_append, lettersIn_append]; omega

/-- One `index` call. -/
theorem indexed_spec {os : Nat → Bool} {m : Matcher} {D c : Corpus} (h : Ran os m (corpusTexts D) []) (hc : GoodDocs c) :
    (indexed m c = .error .runtimeError ∧ CorpusRefused os (D ++ c)) ∨
    ∃ m', indexed m c = .ok m' ∧ Ran os m' (corpusTexts (D ++ c)) [] ∧ m'.e = m.e ∧ m'.weights = m.weights := by
  cases hi : m.index c with
  | mk m' o =>
    rcases Props.C60_partial h c (corpus_short hc.ok).1 m' o hi with ⟨rfl, hr⟩ | ⟨ho, hran, he, hw⟩
    · left
      refine ⟨by rw [indexed, hi], hr.mono ?_⟩
      have := lettersIn_words (corpusTexts D)
      rw [corpusTexts_append, mentions_append, lettersIn_append]
      have h0 : lettersIn [] = 0 := rfl
      omega
    · right
      rw [if_pos hc.full] at ho
      subst ho
      refine ⟨m', by rw [indexed, hi], ?_, he, hw⟩
      rw [corpusTexts_append]
      rwa [beforeEmpty_self hc.full] at hran

/-- The loop over the lines, if each line is read as an entry or skipped. -/
theorem readLoop_spec {os : Nat → Bool} {read : Nat → Bytes → M (Option (Document × ρ))} {parse : Bytes → Option (Entry ρ)}
    (lines : List Bytes) :
    ∀ (m : Matcher) (D c : Corpus) (source : List ρ), Ran os m (corpusTexts D) [] → GoodDocs c →
    (∀ l ∈ lines, ∀ id, read id l = .ok ((parse l).map fun e => (documentOf id e.texts, e.row))) →
    (∀ e ∈ lines.filterMap parse, EntryOk e) →
    (readLoop read lines m c source = .error .runtimeError ∧
      CorpusRefused os (D ++ c ++ docsFrom source.length (lines.filterMap parse))) ∨
    ∃ m' D' c', readLoop read lines m c source = .ok (m', c', source ++ (lines.filterMap parse).map Entry.row) ∧
      D' ++ c' = D ++ c ++ docsFrom source.length (lines.filterMap parse) ∧ Ran os m' (corpusTexts D') [] ∧ GoodDocs c' ∧
      m'.e = m.e ∧ m'.weights = m.weights := by
  induction lines with
  | nil =>
    intro m D c source h hc _ _
    right
    exact ⟨m, D, c, by simp [readLoop], by simp [docsFrom], h, hc, rfl, rfl⟩
  | cons l lines ih =>
    intro m D c source h hc hread hok
    have hl := hread l (by simp) source.length
    have hread' : ∀ l ∈ lines, ∀ id, read id l = .ok ((parse l).map fun e => (documentOf id e.texts, e.row)) :=
      fun l hl => hread l (by simp [hl])
    cases hp : parse l with
    | none =>
      rw [hp] at hl
      rw [List.filterMap_cons_none hp] at hok ⊢
      rw [readLoop, hl]
      exact ih m D c source h hc hread' hok
    | some e =>
      rw [hp] at hl
      rw [List.filterMap_cons_some hp] at hok ⊢
      have hc' : GoodDocs (c ++ [documentOf source.length e.texts]) := hc.append ((hok e (by simp)).good _)
      have hok' : ∀ e ∈ lines.filterMap parse, EntryOk e := fun e he => hok e (by simp [he])
      have hlen : (source ++ [e.row]).length = source.length + 1 := by simp
      have hrow : source ++ (e :: lines.filterMap parse).map Entry.row =
          source ++ [e.row] ++ (lines.filterMap parse).map Entry.row := by simp
      have hdocs : D ++ c ++ docsFrom source.length (e :: lines.filterMap parse) =
          D ++ (c ++ [documentOf source.length e.texts]) ++ docsFrom (source.length + 1) (lines.filterMap parse) := by
        simp [docsFrom]
      rw [readLoop, hl, hrow, hdocs]
      simp only [Option.map_some, Corpus.addDocument]
      by_cases hb : (source.length + 1) % batchSize = 0
      · rw [if_pos hb]
        rcases indexed_spec h hc' with ⟨e1, hr⟩ | ⟨m1, e1, h1, he1, hw1⟩
        · left; rw [e1]; exact ⟨rfl, hr.mono⟩
        · rw [e1]
          have := ih m1 (D ++ (c ++ [documentOf source.length e.texts])) [] (source ++ [e.row]) h1 goodDocs_nil hread' hok'
          rw [hlen, List.append_nil, he1, hw1] at this
          exact this
      · rw [if_neg hb]
        have := ih m D (c ++ [documentOf source.length e.texts]) (source ++ [e.row]) h hc' hread' hok'
        rw [hlen] at this
        exact this

/-- The whole of reading. -/
theorem readAll_spec {os : Nat → Bool} {read : Nat → Bytes → M (Option (Document × ρ))} {parse : Bytes → Option (Entry ρ)}
    {m : Matcher} {contents : Bytes} {es : List (Entry ρ)} (hes : es = (Host.lines contents).filterMap parse) (h : Ran os m [] [])
    (hread : ∀ l ∈ Host.lines contents, ∀ id, read id l = .ok ((parse l).map fun e => (documentOf id e.texts, e.row)))
    (hok : ∀ e ∈ es, EntryOk e) :
    (readAll read contents m = .error .runtimeError ∧ CorpusRefused os (docsFrom 0 es)) ∨
    ∃ m', readAll read contents m = .ok ⟨m', es.map Entry.row⟩ ∧ Ran os m' (corpusTexts (docsFrom 0 es)) [] ∧
      m'.e = m.e ∧ m'.weights = m.weights := by
  subst hes
  rcases readLoop_spec (Host.lines contents) m [] [] ([] : List ρ) h goodDocs_nil hread hok with ⟨e, hr⟩ | ⟨m1, D, c, e, hD, h1, hc, he, hw⟩
  · left; rw [readAll, e]; exact ⟨rfl, hr⟩
  · rw [List.nil_append, List.nil_append, List.length_nil] at hD
    rcases indexed_spec h1 hc with ⟨e1, hr⟩ | ⟨m2, e1, h2, he2, hw2⟩
    · left
      rw [readAll, e]
      simp only [ok_bind, e1]
      exact ⟨rfl, hD ▸ hr⟩
    · right
      refine ⟨m2, ?_, hD ▸ h2, he2.trans he, hw2.trans hw⟩
      rw [readAll, e]
      simp only [ok_bind, e1, List.nil_append]

omit [Icu] [Runtime] [Fp] in
theorem readLoop_append (read : Nat → Bytes → M (Option (Document × ρ))) (a b : List Bytes) : ∀ m c source,
    readLoop read (a ++ b) m c source = (readLoop read a m c source).bind fun x => readLoop read b x.1 x.2.1 x.2.2 := by
  induction a with
  | nil => intro m c source; rfl
  | cons l a ih =>
    intro m c source
    rw [List.cons_append, readLoop, readLoop]
    split
    · rfl
    · exact ih _ _ _
    · split
      · split
        · rfl
        · exact ih _ _ _
      · exact ih _ _ _

/-- Reading stops at the first line that cannot be read. -/
theorem readAll_stop {os : Nat → Bool} {read : Nat → Bytes → M (Option (Document × ρ))} {parse : Bytes → Option (Entry ρ)}
    {m : Matcher} {contents : Bytes} {pre post : List Bytes} {bad : Bytes} (hlines : Host.lines contents = pre ++ bad :: post)
    (h : Ran os m [] []) (hread : ∀ l ∈ pre, ∀ id, read id l = .ok ((parse l).map fun e => (documentOf id e.texts, e.row)))
    (hok : ∀ e ∈ pre.filterMap parse, EntryOk e) {f : Fault} (hbad : ∀ id, read id bad = .error f) :
    (readAll read contents m = .error .runtimeError ∧ CorpusRefused os (docsFrom 0 (pre.filterMap parse))) ∨
    readAll read contents m = .error f := by
  rw [readAll, hlines, readLoop_append]
  rcases readLoop_spec (os := os) (read := read) pre m [] [] ([] : List ρ) h goodDocs_nil hread hok with ⟨e, hr⟩ | ⟨m1, D, c, e, _⟩
  · left
    rw [e]
    exact ⟨rfl, hr⟩
  · right
    rw [e]
    simp only [Except.bind, readLoop, hbad]
    rfl

omit [Build] [Icu] [Runtime] [Fp] in
/-- What the documents have. -/
theorem posting_docs (es : List (Entry ρ)) (hnd : ∀ e ∈ es, (e.texts.map (·.1)).Nodup) : ∀ (n d : Nat) (f w : Word),
    MatcherHistory.Posting (corpusTexts (docsFrom n es)) d f w ↔
      ∃ i e ws, es[i]? = some e ∧ d = n + i ∧ (f, ws) ∈ e.texts ∧ w ∈ ws := by
  induction es with
  | nil => intro n d f w; simp [docsFrom, corpusTexts, MatcherHistory.Posting]
  | cons e es ih =>
    intro n d f w
    have hsplit : MatcherHistory.Posting (corpusTexts (docsFrom n (e :: es))) d f w ↔
        (d = n ∧ ∃ ws, (f, ws) ∈ e.texts ∧ w ∈ ws) ∨ MatcherHistory.Posting (corpusTexts (docsFrom (n + 1) es)) d f w := by
      rw [docsFrom, corpusTexts, List.flatMap_cons]
      constructor
      · rintro ⟨x, hx, h1, h2, h3⟩
        rcases List.mem_append.1 hx with hx | hx
        · obtain ⟨t, ht, rfl⟩ := List.mem_map.1 hx
          left
          refine ⟨by rw [← h1, documentOf_id], t.2, ?_, h3⟩
          have := mem_texts ht
          simp only at h2
          rw [← h2]; exact this
        · right; exact ⟨x, hx, h1, h2, h3⟩
      · rintro (⟨rfl, ws, h1, h2⟩ | ⟨x, hx, h⟩)
        · exact ⟨_, List.mem_append.2 (Or.inl (List.mem_map.2 ⟨(f, ws), texts_mem (hnd e (by simp)) h1, rfl⟩)), documentOf_id _ _, rfl, h2⟩
        · exact ⟨x, List.mem_append.2 (Or.inr hx), h⟩
    rw [hsplit, ih (fun e he => hnd e (by simp [he]))]
    constructor
    · rintro (⟨rfl, ws, h1, h2⟩ | ⟨i, e', ws, h1, h2, h3, h4⟩)
      · exact ⟨0, e, ws, rfl, rfl, h1, h2⟩
      · exact ⟨i + 1, e', ws, h1, by omega, h3, h4⟩
    · rintro ⟨i, e', ws, h1, h2, h3, h4⟩
      cases i with
      | zero =>
        simp only [List.getElem?_cons_zero, Option.some.injEq] at h1
        subst h1
        exact Or.inl ⟨by omega, ws, h3, h4⟩
      | succ i =>
        right
        exact ⟨i, e', ws, by simpa using h1, by omega, h3, h4⟩

/-! ### Showing results -/

omit [Build] [Icu] [Runtime] [Fp] in
theorem showLoop_eq {text : ρ → ρ} {source : List ρ} {l : List Result} (xs : List Result) : ∀ (r : MatchResults) (is : List Nat) (rows : List (ρ × ℚ)),
    RInv r l → is.map (fun i => (rank l)[i]?) = xs.map some →
    List.Forall₂ (fun x row => (∃ y, source[x.2]? = some y ∧ row.1 = text y) ∧ row.2 = x.1) xs rows →
    showLoop text source r is = .ok rows := by
  induction xs with
  | nil =>
    intro r is rows _ h hf
    rw [List.map_nil, List.map_eq_nil_iff] at h; subst h
    cases hf; rfl
  | cons x xs ih =>
    intro r is rows hr h hf
    cases is with
    | nil => simp at h
    | cons i is =>
      cases hf with
      | cons h1 h2 =>
        rename_i row rows
        simp only [List.map_cons, List.cons.injEq] at h
        have e1 : r.getDocumentID i = .ok (⟨rank l, true⟩, x.2) := by rw [hr.getDocumentID, h.1]
        have e2 : (⟨rank l, true⟩ : MatchResults).getRelevancy i = .ok (⟨rank l, true⟩, x.1) := by
          rw [(rank_inv l).getRelevancy, h.1]
        rw [showLoop, e1]
        obtain ⟨⟨y, hy, h3⟩, h4⟩ := h1
        simp only [ok_bind, hy, e2, ih _ _ _ (rank_inv l) h.2 h2]
        rw [← h4, ← h3]

/-- One search, if every document has its row. -/
theorem searchWith_spec {text : ρ → ρ} {os : Nat → Bool} {app : App ρ} {H : MatcherHistory} (h : Ran os app.m H []) (he : PresetMade app.m.e)
    (hH : ∀ w ∈ H.words, w.length ≤ 10000000) (hrows : ∀ d f w, H.Posting d f w → d < app.source.length)
    {query : Bytes} (hq : CString query) :
    (¬ WellFormed query → searchWith text app query = .ok (app, .failed)) ∧
    ∀ q, splitToWords query = .ok q → ∃ found k rows, searchWith text app query = .ok (app, .rows rows) ∧
      app.m.matchUtf8 query = (app.m, .ok found) ∧ Shows found k ∧
      List.Forall₂ (fun (x : Result) (row : ρ × ℚ) => (∃ y, app.source[x.2]? = some y ∧ row.1 = text y) ∧ row.2 = x.1) k rows ∧ (k.map (·.2)).Nodup ∧
      k.Pairwise RankOrder ∧
      ∀ d, d ∈ k.map (·.2) ↔ ∃ f w x v, H.Posting d f w ∧ x ∈ q ∧ IsEditCost (configured app.m.e x.length) x w v ∧
        v ≤ limit SearchParameters.new x := by
  constructor
  · intro hw
    obtain ⟨ts, hts⟩ := tokens_exists query
    have hw : ¬ ∀ t ∈ ts, WellFormed t := fun h => hw ((wellFormed_tokens hts).2 h)
    rw [searchWith, Matcher.matchUtf8, splitToWords_tokens hts, wordsOf_bad (fun t ht => (tokens_mem hts t ht).2) hw]
  · intro q hs
    have hu := wordOk_split hq hs
    have hsane : Sane app.m.e q H := he.sane (fun x hx => usable_noNul (hu x hx).1) (L := 10000000) (fun x hx => (hu x hx).2) hH (le_refl _)
    obtain ⟨r, k, e, hk, hm⟩ := Props.C44_found h q SearchParameters.new hsane (he.exact q) rfl
    obtain ⟨names, hi, _⟩ := Columbus.Ran.inv h
    obtain ⟨docs, ha, e'⟩ := hi.matchQuery_eq (p := SearchParameters.new) hsane
    rw [filtered_trivial _ rfl, e] at e'
    injection e' with _ e'
    injection e' with e'
    have hsorted : SMap.Sorted ltNat docs := by obtain ⟨P, _, hD⟩ := ha; exact hD.sorted
    have hkd : k = listing docs := Columbus.Shows.unique hk (e' ▸ shows_copied (listing_rank hsorted))
    subst hkd
    obtain ⟨hri, hrk⟩ := copied_inv (listing_rank hsorted)
    obtain ⟨k', hk', hnd, hrank⟩ := Props.C46_ranked _ _ _ _ _ e
    obtain rfl := Columbus.Shows.unique hk hk'
    have hin : ∀ x ∈ listing docs, x.2 < app.source.length := by
      intro x hx
      obtain ⟨f, w, _, _, hp, _⟩ := (hm x.2).1 (List.mem_map_of_mem hx)
      exact hrows _ _ _ hp
    obtain ⟨rows, hfr⟩ : ∃ rows, List.Forall₂ (fun (x : Result) (row : ρ × ℚ) => (∃ y, app.source[x.2]? = some y ∧ row.1 = text y) ∧ row.2 = x.1) (listing docs) rows := by
      clear hk hk' hnd hrank hm e e' hri hrk
      generalize listing docs = l at hin
      induction l with
      | nil => exact ⟨[], .nil⟩
      | cons x l ih =>
        obtain ⟨rows, hr⟩ := ih fun x hx => hin x (by simp [hx])
        exact ⟨(text (app.source[x.2]'(hin x (by simp))), x.1) :: rows, .cons ⟨⟨_, List.getElem?_eq_getElem _, rfl⟩, rfl⟩ hr⟩
    have e2 : app.m.matchUtf8 query = (app.m, .ok r) := by
      rw [Matcher.matchUtf8, hs]; exact e
    refine ⟨r, listing docs, rows, ?_, e2, hk, hfr, hnd, hrank, ?_⟩
    · have hix : (List.range r.size).map (fun i => (rank (listing docs))[i]?) = (listing docs).map some := by
        rw [hrk]
        have : r.size = (listing docs).length := hk.size
        rw [this]
        exact range_map_some _
      rw [searchWith, e2]
      simp only [showLoop_eq (listing docs) r _ rows (e' ▸ hri) hix hfr, ok_bind]
    · intro d
      rw [hm d]
      constructor
      · rintro ⟨f, w, x, v, h1, _, h2, h3, h4⟩; exact ⟨f, w, x, v, h1, h2, h3, h4⟩
      · rintro ⟨f, w, x, v, h1, h2, h3, h4⟩; exact ⟨f, w, x, v, h1, rfl, h2, h3, h4⟩

end

end Columbus.Apps
