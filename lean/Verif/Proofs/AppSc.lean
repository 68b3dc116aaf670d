import Verif.Proofs.AppHud
import Verif.Props.WordText
/-
tools/sctest.cc: desktop files.
-/

namespace Columbus.Apps
open Columbus Spec

theorem key_ascii : nameText = ascii "name" ∧ genericText = ascii "genericname" ∧ commentText = ascii "comment" := by decide +kernel

theorem name_name : FieldName (ascii "name") := by rw [← key_ascii.1]; unfold FieldName nameText IsBlank; simp
theorem name_generic : FieldName (ascii "genericname") := by rw [← key_ascii.2.1]; unfold FieldName genericText IsBlank; simp
theorem name_comment : FieldName (ascii "comment") := by rw [← key_ascii.2.2]; unfold FieldName commentText IsBlank; simp

theorem find_none {c : Nat} {l : Bytes} (h : c ∉ l) : find c l = none := by
  unfold find
  rw [List.findIdx?_eq_none_iff]
  intro x hx
  have : x ≠ c := by rintro rfl; exact h hx
  simpa using this

theorem find_some {c : Nat} {k v : Bytes} (h : c ∉ k) : find c (k ++ c :: v) = some k.length := by
  unfold find
  rw [List.findIdx?_eq_some_iff_getElem]
  refine ⟨by simp, by simp, ?_⟩
  intro j hj
  have : k[j] ≠ c := fun e => h (e ▸ List.getElem_mem _)
  simpa [List.getElem_append_left hj] using this

theorem cut {c : Nat} {l : Bytes} (h : c ∈ l) : ∃ k v, l = k ++ c :: v ∧ c ∉ k := by
  induction l with
  | nil => simp at h
  | cons x l ih =>
    by_cases hx : x = c
    · exact ⟨[], l, by rw [hx]; rfl, by simp⟩
    · obtain ⟨k, v, rfl, hk⟩ := ih (by rcases List.mem_cons.1 h with h | h; exact absurd h.symm hx; exact h)
      refine ⟨x :: k, v, rfl, ?_⟩
      simp only [List.mem_cons, not_or]
      exact ⟨fun e => hx e.symm, hk⟩

theorem cut_unique {c : Nat} {k v k' v' : Bytes} (h : k ++ c :: v = k' ++ c :: v') (hk : c ∉ k) (hk' : c ∉ k') : k = k' ∧ v = v' := by
  have h1 := find_some (v := v) hk
  rw [h, find_some hk'] at h1
  obtain ⟨e1, e2⟩ := List.append_inj h (Option.some.inj h1).symm
  exact ⟨e1, (List.cons.inj e2).2⟩

theorem wf_cut {k v : Bytes} (h : WellFormed (k ++ 0x3d :: v)) : WellFormed k ∧ WellFormed v := by
  obtain ⟨c, hc⟩ := h
  obtain ⟨h1, c2, h2⟩ := utf8_append_ascii hc rfl (by simp)
  refine ⟨h1, ?_⟩
  cases h2 with
  | one _ h => exact ⟨_, h⟩
  | two h _ _ _ _ => omega
  | three h _ _ _ => omega
  | four h _ _ _ _ _ => omega

theorem ascii_utf8 {t : Bytes} (h : ∀ b ∈ t, b ≤ 0x7f) : Spec.Utf8 t t := by
  induction t with
  | nil => exact .nil
  | cons b t ih => exact .one (h b (by simp)) (ih fun b hb => h b (by simp [hb]))

theorem utf8_ascii {t c : Bytes} (h : ∀ b ∈ t, b ≤ 0x7f) : Spec.Utf8 t c ↔ c = t :=
  ⟨fun h' => Utf8.det h' (ascii_utf8 h), fun h' => by subst h'; exact ascii_utf8 h⟩

section
variable [Icu]

theorem lastValue_keep {key : Bytes} {ls : List Bytes} {o : Option Bytes} {l : Bytes} (h : LastValue key ls o) (hl : ∀ v, ¬ Gives key l v) :
    LastValue key (ls ++ [l]) o := by
  cases o with
  | none =>
    intro x hx v
    rcases List.mem_append.1 hx with hx | hx
    · exact h x hx v
    · rw [List.mem_singleton] at hx; subst hx; exact hl v
  | some v =>
    obtain ⟨pre, l0, post, rfl, h1, h2⟩ := h
    refine ⟨pre, l0, post ++ [l], by simp, h1, ?_⟩
    intro x hx v
    rcases List.mem_append.1 hx with hx | hx
    · exact h2 x hx v
    · rw [List.mem_singleton] at hx; subst hx; exact hl v

theorem lastValue_new {key : Bytes} (ls : List Bytes) {l v : Bytes} (hl : Gives key l v) : LastValue key (ls ++ [l]) (some v) :=
  ⟨ls, l, [], rfl, hl, by simp⟩

/-- A value is usable. -/
theorem lastValue_ok {key : Bytes} {ls : List Bytes} {v : Bytes} (h : LastValue key ls (some v)) (hl : ∀ l ∈ ls, DesktopLine l) :
    CString v ∧ WellFormed v ∧ ∃ b ∈ v, ¬ IsBlank b := by
  obtain ⟨pre, l, post, rfl, ⟨k, x, c, rfl, hk, _, _, _, rfl, hb⟩, _⟩ := h
  have := hl (k ++ 0x3d :: x) (by simp)
  have h2 := this.short
  refine ⟨⟨(beforeNul_sub _).2.2, ?_⟩, (this.wellFormed k x rfl hk).2, hb⟩
  have := (beforeNul_sub x).2.1
  simp only [List.length_append, List.length_cons] at h2
  omega

end

section
variable [Build] [Icu]

/-- The words of a value. -/
def valueWords (o : Option Bytes) : WordList :=
  match o with
  | none => []
  | some v => lineWords v

/-- What was read from some lines. -/
def Read (ls : List Bytes) (d : Desktop) : Prop :=
  ∃ n g c, LastValue (ascii "name") ls n ∧ LastValue (ascii "genericname") ls g ∧ LastValue (ascii "comment") ls c ∧
    d = ⟨valueWords n, valueWords g, valueWords c⟩

theorem size_words {v : Bytes} (h : WellFormed v) : 0 < WordList.size (lineWords v) ↔ ∃ b ∈ v, ¬ IsBlank b := by
  have e := no_words h
  have hblank : ∀ b, ([0x20, 0x09, 0x0a, 0x0d].contains b = true) ↔ IsBlank b := by
    intro b; unfold IsBlank; simp
  rw [eq_iff_iff] at e
  rw [Nat.pos_iff_ne_zero, ne_eq, e, not_not, List.any_eq_true]
  refine exists_congr fun b => and_congr_right fun _ => ?_
  rw [← hblank, Bool.not_eq_true', Bool.not_eq_true]

/-- One key. -/
theorem key_step {key : Bytes} (ha : ∀ b ∈ key, b ≤ 0x7f) {ls : List Bytes} {o : Option Bytes} (ho : LastValue key ls o) {k v : Bytes} {n : Word}
    (hk : 0x3d ∉ k) (hn : Word.ofUtf8 (beforeNul k) = .ok n) (hv : ∃ b ∈ beforeNul v, ¬ IsBlank b) :
    ∃ b o', n.beqUtf8 key = .ok b ∧ LastValue key (ls ++ [k ++ 0x3d :: v]) o' ∧
      (if b = true then lineWords (beforeNul v) else valueWords o) = valueWords o' := by
  obtain ⟨hb, cps, hc, rfl⟩ := (ofUtf8_ok_iff (beforeNul k) n).1 hn
  obtain ⟨b, e, _, hbt⟩ := Props.C76_compare_partial (beforeNul k) key cps _ (beforeNul_sub k).2.2 hc hn
  rw [utf8_ascii ha] at hbt
  by_cases h : b = true
  · refine ⟨b, some (beforeNul v), e, lastValue_new ls ⟨k, v, cps, rfl, hk, hc, hb, hbt.1 h, rfl, hv⟩, ?_⟩
    rw [if_pos h]; rfl
  · refine ⟨b, o, e, lastValue_keep ho ?_, by rw [if_neg h]⟩
    rintro v' ⟨k', x', c', e', hk', hc', _, hc2, _⟩
    obtain ⟨rfl, rfl⟩ := cut_unique e' hk hk'
    rw [Utf8.det hc' hc] at hc2
    exact h (hbt.2 hc2)

theorem processLoop_split (ls : List Bytes) (hl : ∀ l ∈ ls, DesktopLine l) (rest : List Bytes) : ∀ ls0 d, Read ls0 d →
    ∃ d', processLoop (ls ++ rest) d = processLoop rest d' ∧ Read (ls0 ++ ls) d' := by
  induction ls with
  | nil => intro ls0 d h; exact ⟨d, rfl, by simpa using h⟩
  | cons l ls ih =>
    intro ls0 d h
    have hd := hl l (by simp)
    have ih := ih fun l h => hl l (by simp [h])
    rw [show ls0 ++ l :: ls = (ls0 ++ [l]) ++ ls by simp, List.cons_append, processLoop]
    have skip : (∀ key v, ¬ Gives key l v) → Read (ls0 ++ [l]) d := by
      intro hno
      obtain ⟨n, g, c, h1, h2, h3, h4⟩ := h
      exact ⟨n, g, c, lastValue_keep h1 (hno _), lastValue_keep h2 (hno _), lastValue_keep h3 (hno _), h4⟩
    by_cases he : 0x3d ∈ l
    · obtain ⟨k, v, rfl, hk⟩ := cut he
      obtain ⟨w1, w2⟩ := hd.wellFormed k v rfl hk
      have e1 : (k ++ 0x3d :: v).drop (k.length + 1) = v := by
        rw [← List.drop_drop]; simp
      have e2 : (k ++ 0x3d :: v).set k.length 0 = k ++ 0 :: v := by simp
      rw [find_some hk]
      simp only [e1, e2, cstr_eq, beforeNul_cut, lineWords_eq w2]
      obtain ⟨cps, hc⟩ := w1
      have hw := ofUtf8_of_utf8 hc
      by_cases hb : ∃ b ∈ beforeNul k, IsBlank b
      · rw [if_pos hb] at hw
        rw [hw]
        refine ih _ _ (skip ?_)
        rintro key v' ⟨k', x', c', e', hk', _, hb', _⟩
        obtain ⟨rfl, rfl⟩ := cut_unique e' hk hk'
        obtain ⟨b, h1, h2⟩ := hb
        exact hb' b h1 h2
      · rw [if_neg hb] at hw
        rw [hw]
        simp only
        by_cases hv : ∃ b ∈ beforeNul v, ¬ IsBlank b
        · rw [if_pos ((size_words w2).2 hv)]
          obtain ⟨n, g, c, h1, h2, h3, rfl⟩ := h
          obtain ⟨b1, o1, f1, g1, i1⟩ := key_step (by decide) h1 hk hw hv
          obtain ⟨b2, o2, f2, g2, i2⟩ := key_step (by decide) h2 hk hw hv
          obtain ⟨b3, o3, f3, g3, i3⟩ := key_step (by decide) h3 hk hw hv
          rw [key_ascii.1, key_ascii.2.1, key_ascii.2.2, f1, f2, f3]
          simp only [ok_bind]
          refine ih _ _ ⟨o1, o2, o3, g1, g2, g3, ?_⟩
          rw [← i1, ← i2, ← i3]
          cases b1 <;> cases b2 <;> cases b3 <;> rfl
        · rw [if_neg fun h => hv ((size_words w2).1 h)]
          refine ih _ _ (skip ?_)
          rintro key v' ⟨k', x', c', e', hk', _, _, _, rfl, hv'⟩
          obtain ⟨rfl, rfl⟩ := cut_unique e' hk hk'
          exact hv hv'
    · rw [find_none he]
      refine ih _ _ (skip ?_)
      rintro key v ⟨k, x, c, rfl, _⟩
      simp at he

theorem processLoop_spec (ls : List Bytes) (hl : ∀ l ∈ ls, DesktopLine l) (ls0 : List Bytes) (d : Desktop) (h : Read ls0 d) :
    ∃ d', processLoop ls d = .ok d' ∧ Read (ls0 ++ ls) d' := by
  obtain ⟨d', e, h⟩ := processLoop_split ls hl [] ls0 d h
  rw [List.append_nil] at e
  exact ⟨d', e, h⟩

theorem read_nil : Read [] ⟨[], [], []⟩ := ⟨none, none, none, by simp [LastValue], by simp [LastValue], by simp [LastValue], rfl⟩

/-- A line with an equals sign of which a part is no text. -/
theorem processLoop_bad {bad k v : Bytes} (he : bad = k ++ 0x3d :: v) (hk : 0x3d ∉ k)
    (hw : ¬ (WellFormed (beforeNul k) ∧ WellFormed (beforeNul v))) (r : List Bytes) (d : Desktop) :
    processLoop (bad :: r) d = .error .runtimeError := by
  subst he
  have e1 : (k ++ 0x3d :: v).drop (k.length + 1) = v := by
    rw [← List.drop_drop]; simp
  have e2 : (k ++ 0x3d :: v).set k.length 0 = k ++ 0 :: v := by simp
  rw [processLoop, find_some hk]
  simp only [e1, e2, cstr_eq, beforeNul_cut]
  by_cases w2 : WellFormed (beforeNul v)
  · have w1 : ¬ WellFormed (beforeNul k) := fun h => hw ⟨h, w2⟩
    rw [lineWords_eq w2, ofUtf8_bad w1]
  · obtain ⟨_, _, _, h⟩ := Props.C11_split (beforeNul v)
    rw [h w2]

theorem processFile_bad {ls : List Bytes} {last : Bytes} (hn : ∀ l ∈ ls ++ [last], 0x0a ∉ l) {pre post : List Bytes} {bad : Bytes}
    (hs : ls ++ [last] = pre ++ bad :: post) (hl : ∀ l ∈ pre, DesktopLine l) {k v : Bytes} (he : bad = k ++ 0x3d :: v) (hk : 0x3d ∉ k)
    (hw : ¬ (WellFormed (beforeNul k) ∧ WellFormed (beforeNul v))) :
    processFile (fileOf ls ++ last) = .error .runtimeError := by
  obtain ⟨post', e⟩ := lines_split hn hs (by rw [he]; simp)
  obtain ⟨d, e2, _⟩ := processLoop_split pre hl (bad :: post') [] _ read_nil
  rw [processFile, e, e2, processLoop_bad he hk hw]

theorem processFile_spec {ls : List Bytes} {last : Bytes} (hl : ∀ l ∈ ls ++ [last], DesktopLine l) :
    ∃ d, processFile (fileOf ls ++ last) = .ok d ∧ Read (ls ++ [last]) d := by
  have hlines : Host.lines (fileOf ls ++ last) = ls ++ (if last = [] then [] else [last]) :=
    Props.C71_lines ls (fun l h => (hl l (by simp [h])).noNewline) last (hl last (by simp)).noNewline
  have h0 := read_nil
  rw [processFile, hlines]
  split
  · rename_i h
    subst h
    obtain ⟨d, e, n, g, c, h1, h2, h3, h4⟩ := processLoop_spec ls (fun l h => hl l (by simp [h])) [] _ h0
    rw [List.append_nil]
    have hno : ∀ key v, ¬ Gives key [] v := by rintro key v ⟨k, x, c, e, _⟩; simp at e
    exact ⟨d, e, n, g, c, lastValue_keep h1 (hno _), lastValue_keep h2 (hno _), lastValue_keep h3 (hno _), h4⟩
  · obtain ⟨d, e, h⟩ := processLoop_spec (ls ++ [last]) hl [] _ h0
    exact ⟨d, e, h⟩

omit [Build] [Icu] in
theorem programTexts_ok {name : Bytes} {generic comment : Option Bytes} (h1 : CString name ∧ WellFormed name)
    (h2 : ∀ v, generic = some v → CString v ∧ WellFormed v) (h3 : ∀ v, comment = some v → CString v ∧ WellFormed v) :
    TextsOk (programTexts name generic comment) := by
  have e1 : (ascii "name").length = 4 ∧ (ascii "genericname").length = 11 ∧ (ascii "comment").length = 7 := by decide
  constructor
  · intro t ht
    simp only [programTexts, List.cons_append, List.mem_cons, List.mem_append, List.mem_map, Option.mem_toList] at ht
    rcases ht with rfl | ⟨v, _, rfl⟩ | ⟨v, _, rfl⟩
    · exact name_name
    · exact name_generic
    · exact name_comment
  · intro t ht
    simp only [programTexts, List.cons_append, List.mem_cons, List.mem_append, List.mem_map, Option.mem_toList] at ht
    rcases ht with rfl | ⟨v, hv, rfl⟩ | ⟨v, hv, rfl⟩
    · exact h1
    · exact h2 v hv
    · exact h3 v hv
  · unfold programTexts
    cases generic <;> cases comment <;> simp [e1]

/-- The entry of a program. -/
def programEntry (p : Bytes × List (Bytes × Bytes)) : Entry Bytes := textsEntry p.2 p.1

theorem program_document {id : Nat} {file n : Bytes} {g cm : Option Bytes}
    (hg : ∀ v, g = some v → WellFormed v ∧ ∃ b ∈ v, ¬ IsBlank b) (hcm : ∀ v, cm = some v → WellFormed v ∧ ∃ b ∈ v, ¬ IsBlank b) :
    (let d := (Document.new id).addText (fieldWord (ascii "name")) (valueWords (some n))
      let d := if 0 < WordList.size (valueWords g) then d.addText (fieldWord (ascii "genericname")) (valueWords g) else d
      if 0 < WordList.size (valueWords cm) then d.addText (fieldWord (ascii "comment")) (valueWords cm) else d) =
      documentOf id (programEntry (file, programTexts n g cm)).texts := by
  have p0 : ¬ 0 < WordList.size (valueWords none) := by simp [valueWords, WordList.size]
  have p1 : ∀ v, (WellFormed v ∧ ∃ b ∈ v, ¬ IsBlank b) → 0 < WordList.size (valueWords (some v)) := fun v h => (size_words h.1).2 h.2
  cases g with
  | none =>
    cases cm with
    | none =>
      simp only [if_neg p0]
      simp only [programEntry, textsEntry, programTexts, Option.toList, List.map_cons, List.map_nil,
        List.append_nil, documentOf, List.foldl_cons, List.foldl_nil, valueWords]
    | some v =>
      simp only [if_neg p0, if_pos (p1 v (hcm v rfl))]
      simp only [programEntry, textsEntry, programTexts, Option.toList, List.map_cons, List.map_nil,
        List.cons_append, List.nil_append, documentOf, List.foldl_cons, List.foldl_nil, valueWords]
  | some u =>
    cases cm with
    | none =>
      simp only [if_neg p0, if_pos (p1 u (hg u rfl))]
      simp only [programEntry, textsEntry, programTexts, Option.toList, List.map_cons, List.map_nil,
        List.append_nil, documentOf, List.foldl_cons, List.foldl_nil, valueWords]
    | some v =>
      simp only [if_pos (p1 u (hg u rfl)), if_pos (p1 v (hcm v rfl))]
      simp only [programEntry, textsEntry, programTexts, Option.toList, List.map_cons,
        List.map_nil, List.cons_append, List.nil_append, documentOf, List.foldl_cons, List.foldl_nil, valueWords]

theorem corpusLoop_split {dir : List (Bytes × Option Bytes)} (hd : ReadableDir dir) : ∃ ps, Programs dir ps ∧ (∀ p ∈ ps, TextsOk p.2) ∧
    (∀ p ∈ ps, ∃ x ∈ dir, x.1 = p.1) ∧
    ∀ rest c names, c.length = names.length →
      corpusLoop (fieldWord (ascii "name")) (fieldWord (ascii "genericname")) (fieldWord (ascii "comment")) (dir ++ rest) c names =
      corpusLoop (fieldWord (ascii "name")) (fieldWord (ascii "genericname")) (fieldWord (ascii "comment")) rest
        (c ++ docsFrom c.length (ps.map programEntry)) (names ++ ps.map (·.1)) := by
  induction dir with
  | nil => exact ⟨[], .nil, by simp, by simp, fun rest c names _ => by simp [docsFrom]⟩
  | cons x dir ih =>
    obtain ⟨file, contents⟩ := x
    obtain ⟨ps, hps, hok, hfile, hloop⟩ := ih fun x hx => hd x (by simp [hx])
    have hfile' : ∀ p ∈ ps, ∃ x ∈ (file, contents) :: dir, x.1 = p.1 := by
      intro p hp
      obtain ⟨x, hx, e⟩ := hfile p hp
      exact ⟨x, by simp [hx], e⟩
    by_cases hh : file.head? = some 0x2e
    · refine ⟨ps, .hidden hh hps, hok, hfile', fun rest c names hc => ?_⟩
      cases contents <;> rw [List.cons_append, corpusLoop, if_pos hh, hloop rest c names hc]
    · rcases hd (file, contents) (by simp) with h | ⟨ls, last, h, hl⟩
      · exact absurd h hh
      · simp only at h
        subst h
        obtain ⟨d, e, n, g, cm, h1, h2, h3, rfl⟩ := processFile_spec hl
        have hnl : ∀ l ∈ ls ++ [last], 0x0a ∉ l := fun l h => (hl l h).noNewline
        cases n with
        | none =>
          refine ⟨ps, .unnamed hh hnl h1 hps, hok, hfile', fun rest c names hc => ?_⟩
          rw [List.cons_append, corpusLoop, if_neg hh]
          simp only [e]
          rw [if_neg (by simp [valueWords, WordList.size]), hloop rest c names hc]
        | some n =>
          obtain ⟨a1, a2, a3⟩ := lastValue_ok h1 hl
          have hg : ∀ v, g = some v → CString v ∧ WellFormed v ∧ ∃ b ∈ v, ¬ IsBlank b := by
            rintro v rfl; exact lastValue_ok h2 hl
          have hcm : ∀ v, cm = some v → CString v ∧ WellFormed v ∧ ∃ b ∈ v, ¬ IsBlank b := by
            rintro v rfl; exact lastValue_ok h3 hl
          refine ⟨(file, programTexts n g cm) :: ps, .program hh hnl h1 h2 h3 hps, ?_, ?_, fun rest c names hc => ?_⟩
          · intro p hp
            rcases List.mem_cons.1 hp with rfl | hp
            · exact programTexts_ok ⟨a1, a2⟩ (fun v h => ⟨(hg v h).1, (hg v h).2.1⟩) fun v h => ⟨(hcm v h).1, (hcm v h).2.1⟩
            · exact hok p hp
          · intro p hp
            rcases List.mem_cons.1 hp with rfl | hp
            · exact ⟨_, List.mem_cons_self, rfl⟩
            · exact hfile' p hp
          · rw [List.cons_append, corpusLoop, if_neg hh]
            simp only [e]
            rw [if_pos (by exact (size_words a2).2 a3)]
            have hdoc := program_document (id := c.length) (file := file) (n := n) (fun v h => (hg v h).2) (fun v h => (hcm v h).2)
            simp only at hdoc
            rw [hdoc, hloop _ _ _ (by simp [Corpus.addDocument, hc])]
            simp only [Corpus.addDocument, List.length_append, List.length_singleton, List.map_cons, docsFrom, List.append_assoc,
              List.singleton_append]

theorem corpusLoop_spec {dir : List (Bytes × Option Bytes)} (hd : ReadableDir dir) : ∃ ps, Programs dir ps ∧ (∀ p ∈ ps, TextsOk p.2) ∧
    (∀ p ∈ ps, ∃ x ∈ dir, x.1 = p.1) ∧
      corpusLoop (fieldWord (ascii "name")) (fieldWord (ascii "genericname")) (fieldWord (ascii "comment")) dir [] [] =
        .ok (.ready (docsFrom 0 (ps.map programEntry), ps.map (·.1))) := by
  obtain ⟨ps, h1, h2, h3, h⟩ := corpusLoop_split hd
  refine ⟨ps, h1, h2, h3, ?_⟩
  have := h [] [] [] rfl
  rw [List.append_nil] at this
  rw [this, corpusLoop]
  simp

/-! The programs of a directory are determined. -/

omit [Build] in
theorem lastValue_unique {key : Bytes} {ls : List Bytes} {o o' : Option Bytes} (h : LastValue key ls o) (h' : LastValue key ls o') : o = o' := by
  have gives : ∀ {l v v'}, Gives key l v → Gives key l v' → v = v' := by
    rintro l v v' ⟨k, x, _, rfl, hk, _, _, _, rfl, _⟩ ⟨k', x', _, e, hk', _, _, _, rfl, _⟩
    rw [(cut_unique e hk hk').2]
  cases o with
  | none =>
    cases o' with
    | none => rfl
    | some v =>
      obtain ⟨pre, l, post, rfl, h1, _⟩ := h'
      exact absurd h1 (h l (by simp) v)
  | some v =>
    cases o' with
    | none =>
      obtain ⟨pre, l, post, rfl, h1, _⟩ := h
      exact absurd h1 (h' l (by simp) v)
    | some v' =>
      obtain ⟨pre, l, post, rfl, h1, h2⟩ := h
      obtain ⟨pre', l', post', e, h1', h2'⟩ := h'
      congr 1
      rcases List.append_eq_append_iff.1 e with ⟨a, ha, hb⟩ | ⟨a, ha, hb⟩
      · cases a with
        | nil =>
          simp only [List.nil_append] at hb
          obtain ⟨rfl, rfl⟩ := List.cons.inj hb
          exact gives h1 h1'
        | cons x a =>
          obtain ⟨rfl, rfl⟩ := List.cons.inj hb
          exact absurd h1' (h2 l' (by simp) v')
      · cases a with
        | nil =>
          simp only [List.nil_append] at hb
          obtain ⟨rfl, rfl⟩ := List.cons.inj hb
          exact gives h1 h1'
        | cons x a =>
          obtain ⟨rfl, rfl⟩ := List.cons.inj hb
          exact absurd h1 (h2' l (by simp) v)

omit [Build] [Icu] in
theorem fileOf_unique {ls ls' : List Bytes} {last last' : Bytes} (h : ∀ l ∈ ls ++ [last], 0x0a ∉ l) (h' : ∀ l ∈ ls' ++ [last'], 0x0a ∉ l)
    (e : fileOf ls ++ last = fileOf ls' ++ last') : ls ++ [last] = ls' ++ [last'] := by
  induction ls generalizing ls' with
  | nil =>
    cases ls' with
    | nil => simpa [fileOf] using e
    | cons l ls' =>
      exfalso
      refine h last (by simp) ?_
      simp only [fileOf, List.flatMap_nil, List.nil_append] at e
      rw [e]
      simp
  | cons l ls ih =>
    cases ls' with
    | nil =>
      exfalso
      refine h' last' (by simp) ?_
      simp only [fileOf, List.flatMap_nil, List.nil_append] at e
      rw [← e]
      simp
    | cons l' ls' =>
      simp only [fileOf, List.flatMap_cons, List.append_assoc, List.cons_append, List.nil_append] at e
      obtain ⟨rfl, e2⟩ := cut_unique e (h l (by simp)) (h' l' (by simp))
      rw [List.cons_append, List.cons_append, ih (fun l hl => h l (by simp at hl ⊢; tauto)) (fun l hl => h' l (by simp at hl ⊢; tauto)) e2]

omit [Build] in
theorem programs_unique {dir : List (Bytes × Option Bytes)} {ps ps' : List (Bytes × List (Bytes × Bytes))} (h : Programs dir ps)
    (h' : Programs dir ps') : ps = ps' := by
  induction h generalizing ps' with
  | nil => cases h'; rfl
  | hidden hh _ ih =>
    cases h' with
    | hidden _ h' => exact ih h'
    | unnamed hn => exact absurd hh hn
    | program hn => exact absurd hh hn
  | unnamed hn hl hv _ ih =>
    rename_i ls last _ _ _
    generalize hc : fileOf ls ++ last = contents at h'
    cases h' with
    | hidden hh => exact absurd hh hn
    | unnamed _ _ _ h' => exact ih h'
    | program _ hl' hv' _ _ h' =>
      rw [fileOf_unique hl hl' hc] at hv
      cases lastValue_unique hv hv'
  | program hn hl h1 h2 h3 _ ih =>
    rename_i ls last _ _ _ _ _ _
    generalize hc : fileOf ls ++ last = contents at h'
    cases h' with
    | hidden hh => exact absurd hh hn
    | unnamed _ hl' hv' _ =>
      rw [fileOf_unique hl hl' hc] at h1
      cases lastValue_unique h1 hv'
    | program _ hl' h1' h2' h3' h' =>
      rw [fileOf_unique hl hl' hc] at h1 h2 h3
      cases lastValue_unique h1 h1'
      rw [lastValue_unique h2 h2', lastValue_unique h3 h3', ih h']

end
end Columbus.Apps
