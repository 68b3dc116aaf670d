import Verif.Model.CreatePerformance
import Verif.Proofs.AppTexts
/-
test/CreatePerformanceTest.cc: lines as documents, up to a number of them.
-/

namespace Columbus.CreatePerformance
open Columbus Spec Apps

/-- The text of a line, and its field. -/
def lineTexts (l : Bytes) : List (Bytes × Bytes) := [(nameText, beforeNul l)]

/-- The entry of a line. -/
def entryOf [Build] [Icu] (l : Bytes) : Entry Unit := textsEntry (lineTexts l) ()

/-- How many documents the loop still makes at most. -/
def room (maxLines : Int) (i : Nat) : Nat := max 1 (maxLines.toNat - i)

theorem fieldName_name : FieldName nameText := ⟨by unfold nameText IsBlank; simp, by simp [nameText], by simp [nameText]⟩

theorem lineTexts_ok {l : Bytes} (hw : WellFormed (beforeNul l)) (hs : l.length ≤ 10000000) : TextsOk (lineTexts l) := by
  refine ⟨fun t ht => ?_, fun t ht => ?_, by simp [lineTexts]⟩
  · simp only [lineTexts, List.mem_singleton] at ht; subst ht; exact fieldName_name
  · simp only [lineTexts, List.mem_singleton] at ht; subst ht
    exact ⟨⟨(beforeNul_sub l).2.2, (beforeNul_sub l).2.1.trans hs⟩, hw⟩

section
variable [Build] [Icu]

omit [Build] [Icu] in
theorem nonblank_nil (L : List Bytes) : nonblank ([] :: L) = nonblank L := by simp [nonblank]

omit [Build] [Icu] in
theorem nonblank_cons {l : Bytes} (h : l ≠ []) (L : List Bytes) : nonblank (l :: L) = l :: nonblank L := by simp [nonblank, h]

theorem addText_line {l : Bytes} (hw : WellFormed (beforeNul l)) (id : Nat) :
    (Document.new id).addTextUtf8 (fieldWord nameText) (cstr l) = .ok (documentOf id (entryOf l).texts) := by
  rw [Document.addTextUtf8, cstr_eq, lineWords_eq hw]
  rfl

theorem addText_bad {l : Bytes} (hw : ¬ WellFormed (beforeNul l)) (id : Nat) :
    (Document.new id).addTextUtf8 (fieldWord nameText) (cstr l) = .error .runtimeError := by
  obtain ⟨ts, _, _, h2⟩ := Props.C11_split (beforeNul l)
  rw [Document.addTextUtf8, cstr_eq, h2 hw]
  rfl

end

section
variable [Build] [Icu] [Runtime] [Fp]

/-- The loop. -/
theorem buildLoop_spec {os : Nat → Bool} (maxLines : Int) (L : List Bytes) : ∀ (m : Matcher) (D c : Corpus) (i : Nat),
    Ran os m (corpusTexts D) [] → GoodDocs c →
    (∀ l ∈ (nonblank L).take (room maxLines i), WellFormed (beforeNul l) ∧ l.length ≤ 10000000) →
    (buildLoop (fieldWord nameText) maxLines L m c i = .error .runtimeError ∧
      CorpusRefused os (D ++ c ++ docsFrom (i + 1) (((nonblank L).take (room maxLines i)).map entryOf))) ∨
    ∃ m' D' c', buildLoop (fieldWord nameText) maxLines L m c i = .ok (m', c', i + ((nonblank L).take (room maxLines i)).length) ∧
      D' ++ c' = D ++ c ++ docsFrom (i + 1) (((nonblank L).take (room maxLines i)).map entryOf) ∧
      Ran os m' (corpusTexts D') [] ∧ GoodDocs c' := by
  induction L with
  | nil =>
    intro m D c i h hc _
    right
    exact ⟨m, D, c, by simp [buildLoop, nonblank], by simp [docsFrom, nonblank], h, hc⟩
  | cons l L ih =>
    intro m D c i h hc hl
    by_cases hne : l = []
    · subst hne
      rw [nonblank_nil] at hl ⊢
      rw [buildLoop, if_pos List.length_nil]
      exact ih m D c i h hc hl
    · rw [nonblank_cons hne] at hl ⊢
      have hroom : room maxLines i = (room maxLines i - 1) + 1 := by unfold room; omega
      rw [hroom, List.take_succ_cons] at hl ⊢
      obtain ⟨hw, hs⟩ := hl l (by simp)
      have hl' : ∀ l ∈ (nonblank L).take (room maxLines i - 1), WellFormed (beforeNul l) ∧ l.length ≤ 10000000 :=
        fun l h => hl l (by simp [h])
      have hd : D ++ c ++ docsFrom (i + 1) ((l :: (nonblank L).take (room maxLines i - 1)).map entryOf) =
          D ++ (c ++ [documentOf (i + 1) (entryOf l).texts]) ++
            docsFrom (i + 1 + 1) (((nonblank L).take (room maxLines i - 1)).map entryOf) := by
        rw [List.map_cons, docsFrom]; simp
      have hc' : GoodDocs (c ++ [documentOf (i + 1) (entryOf l).texts]) :=
        hc.append ((textsEntry_ok (lineTexts_ok hw hs) ()).good _)
      have hlen : i + (l :: (nonblank L).take (room maxLines i - 1)).length = i + 1 + ((nonblank L).take (room maxLines i - 1)).length := by
        rw [List.length_cons]; omega
      have hnext : ∀ (m : Matcher) (D c' : Corpus), Ran os m (corpusTexts D) [] → GoodDocs c' →
          let r := if ((i + 1 : Nat) : Int) ≥ maxLines then .ok (m, c', i + 1)
            else buildLoop (fieldWord nameText) maxLines L m c' (i + 1)
          (r = .error .runtimeError ∧
            CorpusRefused os (D ++ c' ++ docsFrom (i + 1 + 1) (((nonblank L).take (room maxLines i - 1)).map entryOf))) ∨
          ∃ m' D' c'', r = .ok (m', c'', i + 1 + ((nonblank L).take (room maxLines i - 1)).length) ∧
            D' ++ c'' = D ++ c' ++ docsFrom (i + 1 + 1) (((nonblank L).take (room maxLines i - 1)).map entryOf) ∧
            Ran os m' (corpusTexts D') [] ∧ GoodDocs c'' := by
        intro m D c' hm hc'
        by_cases hstop : ((i + 1 : Nat) : Int) ≥ maxLines
        · have h0 : room maxLines i - 1 = 0 := by unfold room; omega
          rw [if_pos hstop, h0]
          right
          exact ⟨m, D, c', by simp, by simp [docsFrom], hm, hc'⟩
        · have h0 : room maxLines i - 1 = room maxLines (i + 1) := by unfold room; omega
          rw [if_neg hstop, h0]
          exact ih m D c' (i + 1) hm hc' (h0 ▸ hl')
      rw [hd, hlen, buildLoop, if_neg (fun h0 => hne (List.length_eq_zero_iff.1 h0)), addText_line hw]
      simp only [ok_bind, Corpus.addDocument]
      by_cases hb : (i + 1) % batchSize = 0
      · rw [if_pos hb]
        rcases indexed_spec h hc' with ⟨e1, hr⟩ | ⟨m1, e1, h1, _⟩
        · left; rw [e1]; exact ⟨rfl, hr.mono⟩
        · rw [e1]
          have := hnext m1 (D ++ (c ++ [documentOf (i + 1) (entryOf l).texts])) [] h1 goodDocs_nil
          rw [List.append_nil] at this
          exact this
      · rw [if_neg hb]
        exact hnext m D (c ++ [documentOf (i + 1) (entryOf l).texts]) h hc'

/-- A line that is no text among those the loop comes to. -/
theorem buildLoop_bad {os : Nat → Bool} (maxLines : Int) (L : List Bytes) : ∀ (m : Matcher) (D c : Corpus) (i : Nat),
    Ran os m (corpusTexts D) [] → GoodDocs c →
    (∀ l ∈ (nonblank L).take (room maxLines i), l.length ≤ 10000000) →
    (∃ l ∈ (nonblank L).take (room maxLines i), ¬ WellFormed (beforeNul l)) →
    buildLoop (fieldWord nameText) maxLines L m c i = .error .runtimeError := by
  induction L with
  | nil => intro m D c i _ _ _ ⟨l, hl, _⟩; simp [nonblank] at hl
  | cons l L ih =>
    intro m D c i h hc hl hbad
    by_cases hne : l = []
    · subst hne
      rw [nonblank_nil] at hl hbad
      rw [buildLoop, if_pos List.length_nil]
      exact ih m D c i h hc hl hbad
    · rw [nonblank_cons hne] at hl hbad
      have hroom : room maxLines i = (room maxLines i - 1) + 1 := by unfold room; omega
      rw [hroom, List.take_succ_cons] at hl hbad
      rw [buildLoop, if_neg (fun h0 => hne (List.length_eq_zero_iff.1 h0))]
      by_cases hw : WellFormed (beforeNul l)
      · have hbad' : ∃ l ∈ (nonblank L).take (room maxLines i - 1), ¬ WellFormed (beforeNul l) := by
          obtain ⟨x, hx, hxw⟩ := hbad
          rcases List.mem_cons.1 hx with rfl | hx
          · exact absurd hw hxw
          · exact ⟨x, hx, hxw⟩
        have hstop : ¬ ((i + 1 : Nat) : Int) ≥ maxLines := by
          intro hs
          have h0 : room maxLines i - 1 = 0 := by unfold room; omega
          rw [h0] at hbad'
          obtain ⟨x, hx, _⟩ := hbad'
          simp at hx
        have h0 : room maxLines i - 1 = room maxLines (i + 1) := by unfold room; omega
        rw [h0] at hl hbad'
        have hc' : GoodDocs (c ++ [documentOf (i + 1) (entryOf l).texts]) :=
          hc.append ((textsEntry_ok (lineTexts_ok hw (hl l (by simp))) ()).good _)
        rw [addText_line hw]
        simp only [ok_bind, Corpus.addDocument]
        by_cases hb : (i + 1) % batchSize = 0
        · rw [if_pos hb]
          rcases indexed_spec h hc' with ⟨e1, hr⟩ | ⟨m1, e1, h1, _⟩
          · rw [e1]; rfl
          · rw [e1]
            simp only [ok_bind, if_neg hstop]
            exact ih m1 _ [] (i + 1) h1 goodDocs_nil (fun l h => hl l (by simp [h])) hbad'
        · rw [if_neg hb]
          simp only [if_neg hstop]
          exact ih m D _ (i + 1) h hc' (fun l h => hl l (by simp [h])) hbad'
      · rw [addText_bad hw]; rfl

omit [Build] [Icu] [Runtime] [Fp] in
theorem texts_length (ls : List Bytes) (h : ∀ l ∈ ls, l ≠ []) :
    2 * (ls.map fun l => textsLength (lineTexts l)).sum ≤ 5 * (fileOf ls).length := by
  induction ls with
  | nil => simp
  | cons l ls ih =>
    have h1 := ih fun l hl => h l (by simp [hl])
    have h2 := List.length_pos_iff.2 (h l (by simp))
    have h3 := (beforeNul_sub l).2.1
    have h4 : (fileOf (l :: ls)).length = l.length + 1 + (fileOf ls).length := by
      simp only [fileOf, List.flatMap_cons, List.length_append, List.length_singleton]
    have h5 : textsLength (lineTexts l) = 4 + (beforeNul l).length := by simp [textsLength, lineTexts, nameText]
    rw [List.map_cons, List.sum_cons, h4, h5]
    omega

omit [Build] [Icu] [Runtime] [Fp] in
theorem nonblank_ne (L : List Bytes) (k : Nat) : ∀ l ∈ (nonblank L).take k, l ≠ [] := by
  intro l hl
  have := List.mem_of_mem_take hl
  simp only [nonblank, List.mem_filter] at this
  simpa using this.2

omit [Build] [Icu] [Runtime] [Fp] in
theorem lines_nonblank {ls : List Bytes} {last : Bytes} (hn : ∀ l ∈ ls ++ [last], 0x0a ∉ l) :
    nonblank (Host.lines (fileOf ls ++ last)) = nonblank (ls ++ [last]) := by
  have e : Host.lines (fileOf ls ++ last) = ls ++ (if last = [] then [] else [last]) :=
    Props.C71_lines ls (fun l hl => hn l (by simp [hl])) last (hn last (by simp))
  rw [e]
  split
  · rename_i h; subst h; simp [nonblank]
  · rfl

end
end Columbus.CreatePerformance
