import Verif.Proofs.AppSc
import Verif.Props.Hud
/-
C84: the graphical tool tools/sctest.cc.
-/

namespace Columbus.Props
open Columbus Columbus.Spec Columbus.Apps ErrorValues

section
variable [Build] [Icu] [Runtime] [Fp]

/-! ### C84 -/

/-- The costs of sctest: the standard errors from the data files, then substring mode. -/
def scErrors (sys : Host) : ErrorValues := afterOps [.addStandardErrors (dataOf sys), .setSubstringMode]

/-- What went wrong with the data files. -/
def scTrouble (sys : Host) : Option Fault := (addStandardErrors (dataOf sys) ErrorValues.new).2

omit [Runtime] [Fp] in
theorem sc_preset (sys : Host) : PresetMade (scErrors sys) := presetMade_afterOps (by
  intro op hop
  rcases List.mem_cons.1 hop with rfl | hop
  · trivial
  · rw [List.mem_singleton] at hop; subst hop; trivial)

omit [Runtime] [Fp] in
theorem sc_standard {sys : Host} (henv : sys.env ≠ some []) :
    (scTrouble sys = none ∧ standard sys ErrorValues.new = .ok (afterOps [.addStandardErrors (dataOf sys)])) ∨
    ∃ f, scTrouble sys = some f ∧ (f = .runtimeError ∨ f = .invalidArgument) ∧ standard sys ErrorValues.new = .error f := by
  obtain ⟨_, hf⟩ := standard_same (dataOf sys) new_inv
  unfold standard scTrouble
  rw [C71_standard_partial sys henv]
  have he : afterOps [.addStandardErrors (dataOf sys)] = (addStandardErrors (dataOf sys) ErrorValues.new).1 := by
    rw [afterOps, List.foldl_cons, List.foldl_nil, ErrOp.run]
  rw [he]
  generalize addStandardErrors (dataOf sys) ErrorValues.new = A at *
  obtain ⟨e, _ | f⟩ := A
  · exact Or.inl ⟨rfl, rfl⟩
  · exact Or.inr ⟨f, rfl, hf f rfl, rfl⟩

omit [Runtime] [Fp] in
theorem sc_fields : Word.ofUtf8 nameText = .ok (fieldWord (ascii "name")) ∧
    Word.ofUtf8 genericText = .ok (fieldWord (ascii "genericname")) ∧ Word.ofUtf8 commentText = .ok (fieldWord (ascii "comment")) := by
  rw [key_ascii.1, key_ascii.2.1, key_ascii.2.2]
  exact ⟨(fieldWord_eq name_name).1, (fieldWord_eq name_generic).1, (fieldWord_eq name_comment).1⟩

omit [Runtime] [Fp] in
theorem sc_errors (sys : Host) : scErrors sys = (afterOps [.addStandardErrors (dataOf sys)]).setSubstringMode := rfl

theorem sc_ran (sys : Host) {os : Nat → Bool} {m : Matcher} {H : MatcherHistory} {K : List Word}
    (h : Ran os m H K) (he : m.e = ErrorValues.new) :
    Ran os { m with
      weights := IndexWeights.setWeight (IndexWeights.setWeight m.weights (fieldWord (ascii "genericname")) genericWeight)
        (fieldWord (ascii "comment")) commentWeight
      e := scErrors sys } H K := by
  have h2 := Ran.errors .setSubstringMode (Ran.errors (.addStandardErrors (dataOf sys)) (Ran.weight (fieldWord (ascii "comment"))
    commentWeight (Ran.weight (fieldWord (ascii "genericname")) genericWeight h)))
  simp only [ErrOp.run, he] at h2
  exact h2

omit [Runtime] [Fp] in
/-- C84. A directory of which all files that are not hidden can be opened and read has exactly one list of programs. -/
theorem C84_programs (dir : List (Bytes × Option Bytes)) (hd : ReadableDir dir) : ∃! ps, Programs dir ps := by
  obtain ⟨ps, h, _⟩ := corpusLoop_spec hd
  exact ⟨ps, h, fun ps' h' => programs_unique h' h⟩

/-- C84, what holds: if all files of the directory that are not hidden can be opened, and their lines with an equals sign are
text before it and after it, and the data files can be used, the tool starts, and shows for each query exactly the file names
of the programs of which the name, generic name or comment has a word within the limit of a word of the query; or it ends
with a failure because storage is refused. Missing from the full claim: an empty environment variable. -/
theorem C84_partial (sys : Host) (os : Nat → Bool) (dir : List (Bytes × Option Bytes)) (hd : ReadableDir dir)
    (h0 : ∀ x ∈ dir, 0 ∉ x.1) (henv : sys.env ≠ some []) (hdata : scTrouble sys = none)
    (ps : List (Bytes × List (Bytes × Bytes))) (hps : Programs dir ps) :
    (sctestStart sys os (some dir) = .ok .failed ∧ StorageRefused os (2 * (ps.map fun p => textsLength p.2).sum)) ∨
    ∃ app, sctestStart sys os (some dir) = .ok (.ready app) ∧
      Answers doSearch app ps Prod.fst (AnyClose (PriceWith (scErrors sys)) Prod.snd) ∧
      Indexes os app ps Prod.snd ∧
      Weighs app [(ascii "genericname", Fp.rnd (6 / 10)), (ascii "comment", Fp.rnd (3 / 10))] := by
  obtain ⟨f1, f2, f3⟩ := sc_fields
  obtain ⟨ps', hps', hok, hfile, hloop⟩ := corpusLoop_spec hd
  obtain rfl := programs_unique hps hps'
  have hent : ∀ e ∈ ps.map programEntry, EntryOk e := by
    intro e he
    obtain ⟨p, hp, rfl⟩ := List.mem_map.1 he
    exact textsEntry_ok (hok p hp) _
  have h4 : (fun p : Bytes × List (Bytes × Bytes) => textsEntry p.2 p.1) = programEntry := rfl
  have hgood := docsFrom_good hent 0
  rcases new_or os (2 * (ps.map fun p => textsLength p.2).sum) with ⟨e2, hr⟩ | ⟨m, e2, hd⟩
  · left
    refine ⟨?_, hr⟩
    simp only [sctestStart, sctestBuild, f1, f2, f3, e2, ok_bind]; rfl
  · obtain ⟨_, e3⟩ | ⟨f, h, _⟩ := sc_standard henv
    · rcases indexed_spec (D := []) (Ran.new e2) hgood with ⟨e4, hr⟩ | ⟨m', e4, hran, he, hw⟩
      · left
        refine ⟨?_, StorageRefused.mono hr ?_⟩
        · simp only [sctestStart, sctestBuild, f1, f2, f3, e2, hloop, e4, ok_bind]; rfl
        · have := docs_letters (texts := Prod.snd) (row := Prod.fst) ps hok 0
          rw [h4] at this
          simp only [List.nil_append]
          omega
      · right
        have hd' : m'.e = ErrorValues.new := he.trans hd
        rw [List.nil_append, ← h4] at hran
        have hran' := sc_ran sys hran hd'
        obtain ⟨ha, hx⟩ := texts_answer (text := cstr) (texts := Prod.snd) (row := Prod.fst) hok (by
            intro p hp
            obtain ⟨x, hx, e⟩ := hfile p hp
            exact cstr_noNul (e ▸ h0 x hx)) hran' (sc_preset sys)
        refine ⟨_, ?_, ha, hx, ?_⟩
        · simp only [sctestStart, sctestBuild, f1, f2, f3, e2, hloop, e4, hd', e3, ok_bind, caught, sc_errors]
        · refine weighs_two name_generic name_comment (by decide) ?_
          have hw : m'.weights = [] := hw.trans (new_weights (m := m) e2)
          simp only [hw, weightsOf, List.foldl_cons, List.foldl_nil, genericWeight, commentWeight]
    · rw [hdata] at h; cases h

omit [Runtime] in
/-- C84. Without the directory the tool ends with a failure. -/
theorem C84_directory (sys : Host) (os : Nat → Bool) : sctestStart sys os none = .ok .failed := by
  obtain ⟨f1, f2, f3⟩ := sc_fields
  rcases new_or os 0 with ⟨e2, _⟩ | ⟨m, e2, hd⟩
  · simp only [sctestStart, sctestBuild, f1, f2, f3, e2, ok_bind]; rfl
  · simp only [sctestStart, sctestBuild, f1, f2, f3, e2, ok_bind]; rfl

omit [Runtime] in
/-- C84. The first file that is not hidden and cannot be opened is reported. -/
theorem C84_noFile (sys : Host) (os : Nat → Bool) (pre post : List (Bytes × Option Bytes)) (hd : ReadableDir pre) (file : Bytes)
    (hf : file.head? ≠ some 0x2e) :
    (sctestStart sys os (some (pre ++ (file, none) :: post)) = .ok .failed ∧ StorageRefused os 0) ∨
    sctestStart sys os (some (pre ++ (file, none) :: post)) = .ok (.noFile file) := by
  obtain ⟨f1, f2, f3⟩ := sc_fields
  obtain ⟨ps, _, _, _, hloop⟩ := corpusLoop_split hd
  rcases new_or os 0 with ⟨e2, hr⟩ | ⟨m, e2, _⟩
  · left
    refine ⟨?_, hr⟩
    simp only [sctestStart, sctestBuild, f1, f2, f3, e2, ok_bind]; rfl
  · right
    simp only [sctestStart, sctestBuild, f1, f2, f3, e2, ok_bind, hloop _ [] [] rfl]
    rw [corpusLoop, if_neg hf]
    rfl

omit [Runtime] in
/-- C84. After usable files and lines, a line with an equals sign that is no text before it or after it ends the tool with a
failure. -/
theorem C84_rejects (sys : Host) (os : Nat → Bool) (pre post : List (Bytes × Option Bytes)) (hd : ReadableDir pre) (file : Bytes)
    (hf : file.head? ≠ some 0x2e) (ls : List Bytes) (last : Bytes) (hn : ∀ l ∈ ls ++ [last], 0x0a ∉ l) (before after : List Bytes)
    (bad : Bytes) (hs : ls ++ [last] = before ++ bad :: after) (hl : ∀ l ∈ before, DesktopLine l) (k v : Bytes)
    (he : bad = k ++ 0x3d :: v) (hk : 0x3d ∉ k) (hw : ¬ (WellFormed (beforeNul k) ∧ WellFormed (beforeNul v))) :
    sctestStart sys os (some (pre ++ (file, some (fileOf ls ++ last)) :: post)) = .ok .failed := by
  obtain ⟨f1, f2, f3⟩ := sc_fields
  obtain ⟨ps, _, _, _, hloop⟩ := corpusLoop_split hd
  rcases new_or os 0 with ⟨e2, hr⟩ | ⟨m, e2, _⟩
  · simp only [sctestStart, sctestBuild, f1, f2, f3, e2, ok_bind]; rfl
  · simp only [sctestStart, sctestBuild, f1, f2, f3, e2, ok_bind, hloop _ [] [] rfl]
    rw [corpusLoop, if_neg hf]
    simp only [processFile_bad hn hs hl he hk hw]
    rfl

/-- What happens after the directory was read. -/
theorem sc_indexed (os : Nat → Bool) (dir : List (Bytes × Option Bytes)) (hd : ReadableDir dir)
    (ps : List (Bytes × List (Bytes × Bytes))) (hps : Programs dir ps) :
    ((∀ sys, sctestStart sys os (some dir) = .ok .failed) ∧ StorageRefused os (2 * (ps.map fun p => textsLength p.2).sum)) ∨
    ∀ sys f, standard sys ErrorValues.new = .error f → sctestStart sys os (some dir) = caught (.error f) := by
  obtain ⟨f1, f2, f3⟩ := sc_fields
  obtain ⟨ps', hps', hok, hfile, hloop⟩ := corpusLoop_spec hd
  obtain rfl := programs_unique hps hps'
  have hent : ∀ e ∈ ps.map programEntry, EntryOk e := by
    intro e he
    obtain ⟨p, hp, rfl⟩ := List.mem_map.1 he
    exact textsEntry_ok (hok p hp) _
  have h4 : (fun p : Bytes × List (Bytes × Bytes) => textsEntry p.2 p.1) = programEntry := rfl
  have hgood := docsFrom_good hent 0
  rcases new_or os (2 * (ps.map fun p => textsLength p.2).sum) with ⟨e2, hr⟩ | ⟨m, e2, hd⟩
  · left
    refine ⟨fun sys => ?_, hr⟩
    simp only [sctestStart, sctestBuild, f1, f2, f3, e2, ok_bind]; rfl
  · rcases indexed_spec (D := []) (Ran.new e2) hgood with ⟨e4, hr⟩ | ⟨m', e4, hran, he, hw⟩
    · left
      refine ⟨fun sys => ?_, StorageRefused.mono hr ?_⟩
      · simp only [sctestStart, sctestBuild, f1, f2, f3, e2, hloop, e4, ok_bind]; rfl
      · have := docs_letters (texts := Prod.snd) (row := Prod.fst) ps hok 0
        rw [h4] at this
        simp only [List.nil_append]
        omega
    · right
      intro sys f e3
      have hd' : m'.e = ErrorValues.new := he.trans hd
      simp only [sctestStart, sctestBuild, f1, f2, f3, e2, hloop, e4, hd', e3, ok_bind]; rfl

/-- C84. If the data files cannot be used, the tool ends with a failure. -/
theorem C84_data (sys : Host) (os : Nat → Bool) (dir : List (Bytes × Option Bytes)) (hd : ReadableDir dir)
    (henv : sys.env ≠ some []) (hdata : scTrouble sys ≠ none) : sctestStart sys os (some dir) = .ok .failed := by
  obtain ⟨ps, hps, _⟩ := corpusLoop_spec hd
  obtain ⟨h, _⟩ | ⟨f, _, h, e3⟩ := sc_standard henv
  · exact absurd h hdata
  · rcases sc_indexed os dir hd ps hps with ⟨h, _⟩ | h2
    · exact h sys
    · rw [h2 sys f e3]
      rcases h with rfl | rfl <;> rfl

/-- C84 is false if the environment variable is empty: the byte before it is read. -/
theorem C84_env_false (sys : Host) (os : Nat → Bool) (dir : List (Bytes × Option Bytes)) (hd : ReadableDir dir)
    (ps : List (Bytes × List (Bytes × Bytes))) (hps : Programs dir ps) (henv : sys.env = some [])
    (hr : ¬ StorageRefused os (2 * (ps.map fun p => textsLength p.2).sum)) :
    sctestStart sys os (some dir) = .error .ub := by
  have e3 : standard sys ErrorValues.new = .error .ub := by
    simp only [standard, Host.addStandardErrors, Host.addAccents, C71_empty sys henv]
  rcases sc_indexed os dir hd ps hps with ⟨_, h⟩ | h
  · exact absurd h hr
  · rw [h sys _ e3]; rfl

end

/-- C84. The data files can be used if no letter is in two of their groups. -/
theorem C84_loads [Build] [Icu] (sys : Host) (latin greek : List Bytes) (gs gs' : List Word)
    (hl : dataOf sys false = some latin) (hg : dataOf sys true = some greek)
    (hlw : List.Forall₂ (fun l g => Word.ofUtf8 (l.takeWhile (· != 0)) = .ok g) latin gs)
    (hgw : List.Forall₂ (fun l g => Word.ofUtf8 (l.takeWhile (· != 0)) = .ok g) greek gs')
    (hdis : (gs ++ gs').Pairwise fun g g' => ∀ l ∈ g, l ∉ g') : scTrouble sys = none := by
  have hlw' : Lines (latin.map fun l => l.takeWhile (· != 0)) gs := by
    rw [Lines, List.forall₂_map_left_iff]; exact hlw
  have hgw' : Lines (greek.map fun l => l.takeWhile (· != 0)) gs' := by
    rw [Lines, List.forall₂_map_left_iff]; exact hgw
  rw [List.pairwise_append] at hdis
  obtain ⟨e1, ev1, p1, i1, s1, m1, c1, o1⟩ := accentLoop_ok hlw' new_inv hdis.1 (fun _ _ _ _ => rfl) (fun _ _ => rfl)
  obtain ⟨e2, ev2, p2, i2, s2, m2, c2, o2⟩ := accentLoop_ok hgw' i1 hdis.2.1 (by
    intro g hg l hl
    rw [Bool.eq_false_iff, ne_eq, m1 l]
    rintro (h | ⟨g0, hg0, h⟩)
    · cases h
    · exact hdis.2.2 g0 hg0 g hg l h hl) s1
  obtain ⟨e3, ev3, p3, rfl, i3, _, t3⟩ := keyboard_inv i2
  rw [scTrouble, addStandardErrors, addAccents, hl]
  simp only [p1]
  rw [addAccents, hg]
  simp only [p2, p3]

theorem one_row [Build] [Icu] [Runtime] [Fp] {ι ρ : Type} {search : App ρ → Bytes → M (App ρ × Shown ρ)} {app : App ρ} {it : ι} {row : ι → ρ}
    {chosen : Bytes → ι → Prop} (h : Answers search app [it] row chosen) {q : Bytes} (hq : CString q) (hw : WellFormed q) (hc : chosen q it) :
    ∃ v, search app q = .ok (app, .rows [(row it, v)]) := by
  obtain ⟨found, k, l, e1, _, _, hfr, hnd, _, hm⟩ := (h q hq).2 hw
  have i0 : 0 ∈ k.map (·.2) := (hm 0).2 ⟨it, rfl, hc⟩
  have i1 : ∀ i ∈ k.map (·.2), i = 0 := by
    intro i hi
    obtain ⟨it, hit, _⟩ := (hm i).1 hi
    match i with
    | 0 => rfl
    | i + 1 => simp at hit
  match k, hnd, i0, i1, hfr with
  | [], _, i0, _, _ => simp at i0
  | [x], _, _, i1, hfr =>
    cases hfr with
    | cons h3 h4 =>
      cases h4
      rename_i r
      have : x.2 = 0 := i1 x.2 (by simp)
      rw [this] at h3
      obtain ⟨⟨it', hit, h6⟩, _⟩ := h3
      obtain rfl : it = it' := by simpa using hit
      exact ⟨r.2, by rw [e1, ← h6]⟩
  | x :: y :: k, hnd, _, i1, _ =>
    exfalso
    have h3 : x.2 = 0 := i1 x.2 (by simp)
    have h4 : y.2 = 0 := i1 y.2 (by simp)
    simp [h3, h4] at hnd

theorem emptyData_sc [Build] [Icu] : scTrouble emptyData = none :=
  C84_loads emptyData [] [] [] [] rfl rfl .nil .nil .nil

/-- "NAME=lasso", "Name=" and "x". -/
def lineLasso : Bytes := [0x4e, 0x41, 0x4d, 0x45, 0x3d, 0x6c, 0x61, 0x73, 0x73, 0x6f]
def lineEmpty : Bytes := [0x4e, 0x61, 0x6d, 0x65, 0x3d]
def lineX : Bytes := [0x4e, 0x61, 0x6d, 0x65, 0x3d, 0x78]

/-- A directory with a hidden file, a file without a name, and a file that gives three values for it. -/
def sampleDir : List (Bytes × Option Bytes) :=
  [([0x2e, 0x61], none), ([0x62], some (fileOf [] ++ lineEmpty)), ([0x63], some (fileOf [lineX, lineLasso] ++ lineEmpty))]

theorem desktopLine_ascii {l : Bytes} (h : ∀ b ∈ l, b ≤ 0x7f) (hn : 0x0a ∉ l) (hs : l.length ≤ 10000000) : DesktopLine l := by
  refine ⟨hn, ?_, hs⟩
  rintro k v rfl _
  exact ⟨wellFormed_ascii fun b hb => h b (by simp [(beforeNul_sub k).1 b hb]),
    wellFormed_ascii fun b hb => h b (by simp [(beforeNul_sub v).1 b hb])⟩

theorem sample_lines : DesktopLine lineLasso ∧ DesktopLine lineEmpty ∧ DesktopLine lineX :=
  ⟨desktopLine_ascii (by decide) (by decide) (by decide), desktopLine_ascii (by decide) (by decide) (by decide),
    desktopLine_ascii (by decide) (by decide) (by decide)⟩

theorem sample_readable : ReadableDir sampleDir := by
  obtain ⟨h1, h2, h3⟩ := sample_lines
  intro x hx
  simp only [sampleDir, List.mem_cons, List.not_mem_nil, or_false] at hx
  rcases hx with rfl | rfl | rfl
  · exact Or.inl rfl
  · exact Or.inr ⟨[], lineEmpty, rfl, by simpa using h2⟩
  · refine Or.inr ⟨[lineX, lineLasso], lineEmpty, rfl, ?_⟩
    simp [h1, h2, h3]

/-- A line with a NUL after its key and in its value: `n`, NUL, `x=v`, NUL, and a byte that is no text. -/
theorem C84_nul [Icu] : DesktopLine [0x6e, 0, 0x78, 0x3d, 0x76, 0, 0xff] ∧
    ∀ {key v'}, Gives key [0x6e, 0, 0x78, 0x3d, 0x76, 0, 0xff] v' → v' = [0x76] := by
  constructor
  · refine ⟨by decide, ?_, by decide⟩
    intro k v e hk
    obtain ⟨rfl, rfl⟩ := cut_unique (k := [0x6e, 0, 0x78]) (v := [0x76, 0, 0xff]) (by rw [← e]; rfl) (by decide) hk
    exact ⟨wellFormed_ascii (by decide), wellFormed_ascii (by decide)⟩
  · rintro key v' ⟨k, x, _, e, hk, _, _, _, rfl, _⟩
    obtain ⟨rfl, rfl⟩ := cut_unique (k := [0x6e, 0, 0x78]) (v := [0x76, 0, 0xff]) (by rw [← e]; rfl) (by decide) hk
    rfl

theorem gives_only [Icu] {key k v l v' : Bytes} (e : l = k ++ 0x3d :: v) (hk : 0x3d ∉ k) (h : Gives key l v') :
    v' = beforeNul v ∧ (∃ b ∈ beforeNul v, ¬ IsBlank b) ∧ ∃ cps, Spec.Utf8 (beforeNul k) cps ∧ cps.map lowerCp = key := by
  obtain ⟨k', x, cps, e', hk', h1, _, h2, rfl, h3⟩ := h
  obtain ⟨rfl, rfl⟩ := cut_unique (e.symm.trans e') hk hk'
  exact ⟨rfl, h3, cps, h1, h2⟩

theorem sample_programs : let _ := Example.icu
    Programs sampleDir [([0x63], programTexts [0x6c, 0x61, 0x73, 0x73, 0x6f] none none)] := by
  intro _
  obtain ⟨h1, h2, h3⟩ := sample_lines
  have noE : ∀ key v, ¬ Gives key lineEmpty v := by
    intro key v h
    obtain ⟨_, ⟨b, hb, _⟩, _⟩ := gives_only (k := [0x4e, 0x61, 0x6d, 0x65]) (v := []) rfl (by decide) h
    cases hb
  have other : ∀ key, key.length ≠ 4 → LastValue key ([lineX, lineLasso] ++ [lineEmpty]) none := by
    intro key hk l hl v h
    simp only [List.cons_append, List.nil_append, List.mem_cons, List.not_mem_nil, or_false] at hl
    rcases hl with rfl | rfl | rfl
    · obtain ⟨_, _, cps, hc, rfl⟩ := gives_only (k := [0x4e, 0x61, 0x6d, 0x65]) (v := [0x78]) rfl (by decide) h
      rw [(utf8_ascii (by decide)).1 hc] at hk
      exact hk rfl
    · obtain ⟨_, _, cps, hc, rfl⟩ := gives_only (k := [0x4e, 0x41, 0x4d, 0x45]) (v := [0x6c, 0x61, 0x73, 0x73, 0x6f]) rfl (by decide) h
      rw [(utf8_ascii (by decide)).1 hc] at hk
      exact hk rfl
    · exact noE _ _ h
  refine .hidden rfl (.unnamed (by decide) ?_ ?_ (.program (by decide) ?_ ?_ (other _ (by decide)) (other _ (by decide)) .nil))
  · simp [h2.noNewline]
  · intro l hl v h
    simp only [List.nil_append, List.mem_singleton] at hl
    subst hl
    exact noE _ _ h
  · simp [h1.noNewline, h2.noNewline, h3.noNewline]
  · refine ⟨[lineX], lineLasso, [lineEmpty], rfl, ?_, ?_⟩
    · exact ⟨[0x4e, 0x41, 0x4d, 0x45], [0x6c, 0x61, 0x73, 0x73, 0x6f], [0x4e, 0x41, 0x4d, 0x45], rfl, by decide, (utf8_ascii (by decide)).2 rfl,
        by unfold IsBlank; decide, by decide +kernel, rfl, 0x6c, by simp, by unfold IsBlank; decide⟩
    · intro l hl v
      rw [List.mem_singleton] at hl
      subst hl
      exact noE _ _

/-- Of this directory the query "lasso" shows the third file, by its last value that is not empty. -/
theorem C84_example [Build] [Runtime] [Fp] : let _ := Example.icu
    ∃ app v, sctestStart emptyData (fun _ => true) (some sampleDir) = .ok (.ready app) ∧
      doSearch app [0x6c, 0x61, 0x73, 0x73, 0x6f] = .ok (app, .rows [([0x63], v)]) := by
  intro _
  rcases C84_partial emptyData (fun _ => true) sampleDir sample_readable (by decide) (by simp [emptyData]) emptyData_sc _ sample_programs with
    ⟨_, hr⟩ | ⟨app, e, ha, _, _⟩
  · exact absurd hr (not_refused _ (by decide))
  · have hq : WellFormed [0x6c, 0x61, 0x73, 0x73, 0x6f] := wellFormed_ascii (by decide)
    obtain ⟨v, h⟩ := one_row ha (q := [0x6c, 0x61, 0x73, 0x73, 0x6f]) ⟨by decide, by decide⟩ hq (by
      refine ⟨(ascii "name", [0x6c, 0x61, 0x73, 0x73, 0x6f]), by simp [programTexts], [0x6c#16, 0x61#16, 0x73#16, 0x73#16, 0x6f#16],
        [0x6c#16, 0x61#16, 0x73#16, 0x73#16, 0x6f#16], 0, ?_, ?_, price_self (sc_preset emptyData) _, by decide⟩
      · rw [← lineWords_mem hq, hud_words.1]; simp
      · rw [← lineWords_mem hq, hud_words.1]; simp)
    exact ⟨app, v, e, h⟩

theorem C84_false [Build] [Icu] [Runtime] [Fp] : ¬ ∀ (sys : Host), ∃ x, sctestStart sys (fun _ => true) (some []) = .ok x := by
  intro h
  obtain ⟨x, hx⟩ := h ⟨some [], [], fun _ => some (some [])⟩
  rw [C84_env_false _ (fun _ => true) [] (by intro x hx; cases hx) [] .nil rfl (not_refused _ (by decide))] at hx
  cases hx

end Columbus.Props
