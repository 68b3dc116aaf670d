import Verif.Proofs.Apps
import Verif.Proofs.ToolRun
import Verif.Spec.Apps
import Verif.Props.DataFile
/-
The graphical tools: lines as documents.
-/

namespace Columbus.Apps
open Columbus Spec

/-! ### Lines -/

theorem reverse_cons2 {l : Bytes} (h : 2 ≤ l.length) : ∃ s a b, l = s ++ [a, b] := by
  obtain ⟨s, b, rfl⟩ := List.eq_nil_or_concat l |>.resolve_left (by rintro rfl; simp at h)
  obtain ⟨s, a, rfl⟩ := List.eq_nil_or_concat s |>.resolve_left (by rintro rfl; simp at h)
  exact ⟨s, a, b, by simp⟩

theorem marked_eq (s : Bytes) (a b : Nat) : marked (s ++ [a, b]) = if a = 0x0d then s ++ [0, b] else s ++ [a, b] := by
  unfold marked
  rw [List.reverse_append]
  simp only [List.reverse_cons, List.reverse_nil, List.nil_append, List.cons_append]
  by_cases h : a = 0x0d
  · subst h; simp
  · rw [if_neg h]; split
    · rename_i heq; simp only [List.cons.injEq] at heq; exact absurd heq.2.1 h
    · rfl

theorem dosLine_eq (s : Bytes) (a b : Nat) : dosLine (s ++ [a, b]) = .ok (if a = 0x0d then s ++ [0, b] else s ++ [a, b]) := by
  have h1 : (s ++ [a, b]).length - 2 = s.length := by simp
  have h2 : (s ++ [a, b])[s.length]? = some a := by simp
  unfold dosLine
  rw [if_neg (by simp), h1, h2]
  simp

theorem cstr_eq (s : Bytes) : cstr s = beforeNul s := rfl

theorem beforeNul_sub (s : Bytes) : (∀ b ∈ beforeNul s, b ∈ s) ∧ (beforeNul s).length ≤ s.length ∧ 0 ∉ beforeNul s := by
  refine ⟨fun b hb => (List.takeWhile_subset _) hb, (List.takeWhile_prefix _).length_le, ?_⟩
  unfold beforeNul
  induction s with
  | nil => simp
  | cons x s ih =>
    rw [List.takeWhile_cons]
    split
    · rename_i hx
      simp only [List.mem_cons, not_or]
      exact ⟨fun h => by rw [← h] at hx; simp at hx, ih⟩
    · simp

theorem marked_length (l : Bytes) : (marked l).length = l.length := by
  by_cases h : 2 ≤ l.length
  · obtain ⟨s, a, b, rfl⟩ := reverse_cons2 h
    rw [marked_eq]; split <;> simp
  · match l, h with
    | [], _ => rfl
    | [_], _ => rfl
    | _ :: _ :: _, h => simp at h

theorem beforeNul_cut (s r : Bytes) : beforeNul (s ++ 0 :: r) = beforeNul s := by
  unfold beforeNul
  induction s with
  | nil => simp
  | cons x s ih => rw [List.cons_append, List.takeWhile_cons, List.takeWhile_cons, ih]

theorem cstr_noNul {s : Bytes} (h : 0 ∉ s) : cstr s = s := by
  unfold cstr
  have := takeWhile_pre (p := (· != 0)) (a := s) (b := []) fun b hb => by
    simp only [bne_iff_ne, ne_eq]
    rintro rfl; exact h hb
  simpa using this

theorem cstr_stop {s r : Bytes} (h : 0 ∉ s) : cstr (s ++ 0 :: r) = s := by
  unfold cstr
  rw [List.takeWhile_append_of_pos]
  · simp
  · intro b hb
    simp only [bne_iff_ne, ne_eq]
    rintro rfl; exact h hb

/-- What is stored for a line, and what is read and shown of it. -/
theorem dosLine_text {l : Bytes} (h : 2 ≤ l.length) : dosLine l = .ok (marked l) := by
  obtain ⟨s, a, b, rfl⟩ := reverse_cons2 h
  rw [dosLine_eq, marked_eq]

theorem textOf_length {l : Bytes} : (textOf l).length ≤ l.length :=
  (beforeNul_sub _).2.1.trans (le_of_eq (marked_length l))

theorem cstring_text {l : Bytes} (hs : l.length ≤ 10000000) : CString (textOf l) :=
  ⟨(beforeNul_sub _).2.2, textOf_length.trans hs⟩

theorem tokens_det {S : Nat → Prop} {s ts ts'} (h : TokensBy S s ts) (h' : TokensBy S s ts') : ts = ts' := by
  classical
  have pre : ∀ {p t r : List Nat}, (∀ b ∈ p, S b) → t ≠ [] → (∀ b ∈ t, ¬ S b) →
      (p ++ t ++ r).takeWhile (fun b => decide (S b)) = p ∧ (p ++ t ++ r).dropWhile (fun b => decide (S b)) = t ++ r := by
    intro p t r hp ht hn
    obtain ⟨x, t, rfl⟩ := List.exists_cons_of_ne_nil ht
    have hx : ∀ y, (x :: t ++ r).head? = some y → decide (S y) = false := by
      intro y hy
      simp only [List.cons_append, List.head?_cons, Option.some.injEq] at hy
      subst hy; simpa using hn x (by simp)
    have hp' : ∀ b ∈ p, decide (S b) = true := fun b hb => by simpa using hp b hb
    rw [List.append_assoc, takeWhile_pre hp', dropWhile_pre hp', dropWhile_stop hx, takeWhile_stop hx, List.append_nil]
    exact ⟨rfl, rfl⟩
  have mid : ∀ {t r : List Nat}, (∀ b ∈ t, ¬ S b) → (∀ b, r.head? = some b → S b) →
      (t ++ r).takeWhile (fun b => !decide (S b)) = t ∧ (t ++ r).dropWhile (fun b => !decide (S b)) = r := by
    intro t r hn hr
    have hn' : ∀ b ∈ t, (!decide (S b)) = true := fun b hb => by simpa using hn b hb
    have hr' : ∀ y, r.head? = some y → (!decide (S y)) = false := fun y hy => by simpa using hr y hy
    rw [takeWhile_pre hn', dropWhile_pre hn', dropWhile_stop hr', takeWhile_stop hr', List.append_nil]
    exact ⟨rfl, rfl⟩
  induction h generalizing ts' with
  | done hp =>
    cases h' with
    | done => rfl
    | tok _ ht hn _ _ =>
      rename_i t _ _ _
      obtain ⟨x, t, rfl⟩ := List.exists_cons_of_ne_nil ht
      exact absurd (hp x (by simp)) (hn x (by simp))
  | tok hp ht hn hr hrest ih =>
    rename_i p t r ts
    generalize hs : p ++ t ++ r = s at h'
    cases h' with
    | done hp' =>
      obtain ⟨x, t, rfl⟩ := List.exists_cons_of_ne_nil ht
      exact absurd (hp' x (by rw [← hs]; simp)) (hn x (by simp))
    | tok hp' ht' hn' hr' hrest' =>
      rename_i p' t' r' ts''
      have a := pre (r := r) hp ht hn
      have b := pre (r := r') hp' ht' hn'
      rw [hs] at a
      have e2 : t ++ r = t' ++ r' := a.2.symm.trans b.2
      have c := mid hn hr
      have d := mid hn' hr'
      rw [e2] at c
      have e3 : t = t' := c.1.symm.trans d.1
      have e4 : r = r' := c.2.symm.trans d.2
      subst e3; subst e4
      rw [ih hrest']

section
variable [Build] [Icu]

theorem ofUtf8_ne_nil {s : Bytes} {w : Word} (h : Word.ofUtf8 s = .ok w) (hs : s ≠ []) : w ≠ [] := by
  rw [ofUtf8_ok_iff] at h
  obtain ⟨_, c, h1, rfl⟩ := h
  intro h2
  have h3 := lettersOf_lowerCp h1
  rw [h2] at h3
  have h4 : c.map lowerCp = [] := Utf16.det h3 .nil
  rw [List.map_eq_nil_iff] at h4
  subst h4
  cases h1; exact hs rfl

theorem split_words {s : Bytes} {ws : List Word} (h : splitToWords s = .ok ws) : (∀ w, w ∈ ws ↔ HasWord s w) ∧ ∀ w ∈ ws, w ≠ [] := by
  obtain ⟨ts, hts⟩ := tokens_exists s
  rw [splitToWords_tokens hts, wordsOf_ok] at h
  have hmem := tokens_mem hts
  have key : ∀ w, w ∈ ws ↔ ∃ t ∈ ts, Word.ofUtf8 t = .ok w := by
    clear hts hmem
    induction h with
    | nil => simp
    | cons hw _ ih =>
      rename_i t w ts ws _
      intro v
      simp only [List.mem_cons, ih v]
      constructor
      · rintro (rfl | ⟨t', h1, h2⟩)
        · exact ⟨t, Or.inl rfl, hw⟩
        · exact ⟨t', Or.inr h1, h2⟩
      · rintro ⟨t', rfl | h1, h2⟩
        · rw [hw] at h2; injection h2 with h2; exact Or.inl h2.symm
        · exact Or.inr ⟨t', h1, h2⟩
  constructor
  · intro w
    rw [key]
    constructor
    · rintro ⟨t, ht, hw⟩
      exact ⟨ts, hts, t, ht, (QueryIndex.lowerLetters_iff (hmem t ht).2 w).2 hw⟩
    · rintro ⟨ts', hts', t, ht, hw⟩
      have := tokens_det hts hts'
      subst this
      exact ⟨t, ht, (QueryIndex.lowerLetters_iff (hmem t ht).2 w).1 hw⟩
  · intro w hw
    obtain ⟨t, ht, hw⟩ := (key w).1 hw
    exact ofUtf8_ne_nil hw (hmem t ht).1

theorem split_letters {s : Bytes} {ws : List Word} (h : splitToWords s = .ok ws) : lettersIn ws ≤ s.length := by
  obtain ⟨ts, hts⟩ := tokens_exists s
  rw [splitToWords_tokens hts, wordsOf_ok] at h
  induction hts generalizing ws with
  | done _ => cases h; simp [lettersIn]
  | tok _ _ _ _ _ ih =>
    cases h with
    | cons h1 h2 =>
      have := length_ofUtf8 h1
      have := ih h2
      simp only [lettersIn_cons, List.length_append] at *
      omega

/-- A field name. -/
theorem field_word {s : Bytes} (h : ∀ b ∈ s, b ≤ 0x7f ∧ b ≠ 0 ∧ ¬ IsBlank b) (hs : s ≠ []) (hlen : s.length ≤ 10000000) :
    ∃ f, Word.ofUtf8 s = .ok f ∧ (WordOk f ∧ f ≠ []) ∧ f.length = s.length := by
  obtain ⟨f, hf⟩ := (Props.C01_accepts s).2 ⟨wellFormed_ascii fun b hb => (h b hb).1, fun b hb => (h b hb).2.2⟩
  refine ⟨f, hf, ⟨wordOk_ofUtf8 ⟨fun h0 => (h 0 h0).2.1 rfl, hlen⟩ hf, ofUtf8_ne_nil hf hs⟩, ?_⟩
  obtain ⟨c, h1, h2⟩ := (QueryIndex.lowerLetters_iff (fun b hb => (h b hb).2.2) f).2 hf
  have h3 : c.length = s.length ∧ ∀ x ∈ c, x < 0x10000 := by
    have h := fun b hb => (h b hb).1
    clear * - h h1
    induction h1 with
    | nil => simp
    | one hx _ ih =>
      rename_i b s cps _
      obtain ⟨h2, h3⟩ := ih fun b hb => h b (by simp [hb])
      refine ⟨by simp [h2], fun x hx' => ?_⟩
      rcases List.mem_cons.1 hx' with rfl | hx'
      · omega
      · exact h3 x hx'
    | two hx => have := h _ List.mem_cons_self; omega
    | three hx => have := h _ List.mem_cons_self; omega
    | four hx => have := h _ List.mem_cons_self; omega
  have h4 : ∀ x ∈ c.map lowerCp, x < 0x10000 := by
    intro x hx
    obtain ⟨y, hy, rfl⟩ := List.mem_map.1 hx
    have := h3.2 y hy
    unfold lowerCp
    rw [if_pos (by omega)]
    exact (Icu.lower _).isLt
  have h5 : f.length = (c.map lowerCp).length := by
    clear * - h2 h4
    generalize c.map lowerCp = d at *
    induction h2 with
    | nil => rfl
    | bmp _ _ ih => simp [ih fun x hx => h4 x (by simp [hx])]
    | pair h5 h6 h7 h8 _ ih => have := h4 _ List.mem_cons_self; omega
  rw [h5, List.length_map, h3.1]

/-! ### Documents of lines -/

/-- The words of a line. -/
def lineWords (s : Bytes) : List Word :=
  match splitToWords s with
  | .ok ws => ws
  | .error _ => []

/-- The stored string of a line. -/
def stored (l : Bytes) : Bytes :=
  match dosLine l with
  | .ok l => l
  | .error _ => l

theorem lineWords_eq {s : Bytes} (h : WellFormed s) : splitToWords s = .ok (lineWords s) := by
  obtain ⟨ts, _, h1, _⟩ := Props.C11_split s
  obtain ⟨ws, e, _⟩ := h1 h
  rw [lineWords, e]

theorem lineWords_mem {s : Bytes} (h : WellFormed s) (w : Word) : w ∈ lineWords s ↔ HasWord s w :=
  (split_words (lineWords_eq h)).1 w

omit [Build] [Icu] in
theorem stored_eq {l : Bytes} (h : ToolLine l) : dosLine l = .ok (stored l) ∧ cstr (stored l) = textOf l := by
  rw [stored, dosLine_text h.long]
  exact ⟨rfl, rfl⟩

/-- The entry of a line. -/
def lineEntry (field : Word) (l : Bytes) : Entry Bytes := ⟨[(field, lineWords (textOf l))], stored l⟩

/-- The entry of a line; none for an empty line. -/
def lineEntry? (field : Word) (l : Bytes) : Option (Entry Bytes) := if l = [] then none else some (lineEntry field l)

/-- The lines that are not empty. -/
def nonblank (ls : List Bytes) : List Bytes := ls.filter fun l => l ≠ []

theorem entries_eq (field : Word) (ls : List Bytes) : ls.filterMap (lineEntry? field) = (nonblank ls).map (lineEntry field) := by
  induction ls with
  | nil => rfl
  | cons l ls ih =>
    by_cases h : l = []
    · subst h
      rw [List.filterMap_cons_none (by simp [lineEntry?]), ih]; simp [nonblank]
    · rw [List.filterMap_cons_some (b := lineEntry field l) (by simp [lineEntry?, h]), ih]; simp [nonblank, h]

theorem readLine_eq (field : Word) {l : Bytes} (h : l = [] ∨ ToolLine l) (id : Nat) :
    readLine field id l = .ok ((lineEntry? field l).map fun e => (documentOf id e.texts, e.row)) := by
  rcases h with rfl | h
  · rfl
  · have h2 := h.long
    obtain ⟨e1, e2⟩ := stored_eq h
    have hne : l ≠ [] := by rintro rfl; simp at h2
    rw [readLine, if_neg (by omega), e1]
    simp only [ok_bind, Document.addTextUtf8, e2, lineWords_eq h.wellFormed, lineEntry?, if_neg hne]
    rfl

theorem lineEntry_ok {field : Word} (hf : WordOk field ∧ field ≠ []) {l : Bytes} (h : ToolLine l) : EntryOk (lineEntry field l) := by
  intro p hp
  simp only [lineEntry, List.mem_singleton] at hp
  subst hp
  refine ⟨hf, fun w hw => ⟨?_, ?_⟩⟩
  · exact wordOk_split (cstring_text h.short) (lineWords_eq h.wellFormed) w hw
  · exact (split_words (lineWords_eq h.wellFormed)).2 w hw

theorem lines_letters {field : Word} (hf : field.length ≤ 4) (ls : List Bytes) (h : ∀ l ∈ ls, ToolLine l) : ∀ n,
    2 * lettersIn (corpusTexts (docsFrom n (ls.map (lineEntry field)))).mentions ≤ 4 * (fileOf ls).length := by
  induction ls with
  | nil => intro n; simp [docsFrom, corpusTexts, MatcherHistory.mentions, lettersIn]
  | cons l ls ih =>
    intro n
    have h1 := ih (fun l hl => h l (by simp [hl])) (n + 1)
    have h2 := (h l (by simp)).long
    have h3 := split_letters (lineWords_eq (h l (by simp)).wellFormed)
    have h4 := textOf_length (l := l)
    have hd : corpusTexts (docsFrom n ((l :: ls).map (lineEntry field))) =
        ⟨n, field, (lineWords (textOf l)).length, lineWords (textOf l)⟩ :: corpusTexts (docsFrom (n + 1) (ls.map (lineEntry field))) := by
      rw [List.map_cons, docsFrom, corpusTexts, List.flatMap_cons]
      rfl
    have hl : (fileOf (l :: ls)).length = l.length + 1 + (fileOf ls).length := by
      simp only [fileOf, List.flatMap_cons, List.length_append, List.length_singleton]
    rw [hd, hl]
    have hm : lettersIn (MatcherHistory.mentions (⟨n, field, (lineWords (textOf l)).length, lineWords (textOf l)⟩ ::
        corpusTexts (docsFrom (n + 1) (ls.map (lineEntry field))))) = field.length + lettersIn (lineWords (textOf l)) +
        lettersIn (corpusTexts (docsFrom (n + 1) (ls.map (lineEntry field)))).mentions := by
      rw [MatcherHistory.mentions, List.flatMap_cons, lettersIn_append, lettersIn_cons]; rfl
    rw [hm]
    omega

omit [Build] [Icu] in
theorem nonblank_length (ls : List Bytes) : (fileOf (nonblank ls)).length ≤ (fileOf ls).length := by
  induction ls with
  | nil => simp [nonblank, fileOf]
  | cons l ls ih =>
    have hl : ∀ l ls, (fileOf (l :: ls)).length = l.length + 1 + (fileOf ls).length := by
      intro l ls; simp only [fileOf, List.flatMap_cons, List.length_append, List.length_singleton]
    rw [hl]
    by_cases h : l = []
    · subst h
      have : nonblank ([] :: ls) = nonblank ls := by simp [nonblank]
      rw [this]; omega
    · have : nonblank (l :: ls) = l :: nonblank ls := by simp [nonblank, h]
      rw [this, hl]; omega

end

/-! ### Searching lines -/

section
variable [Build] [Icu] [Runtime] [Fp]

/-- What an application shows, from what its documents have. -/
theorem entries_answer {ι ρ : Type} {text : ρ → ρ} {os : Nat → Bool} {m : Matcher} {items : List ι} {entry : ι → Entry ρ}
    {row : ι → ρ} {chosen : Bytes → ι → Prop} (hok : ∀ it ∈ items, EntryOk (entry it))
    (hnd : ∀ it ∈ items, ((entry it).texts.map (·.1)).Nodup) (hrow : ∀ it ∈ items, text (entry it).row = row it)
    (hch : ∀ it ∈ items, ∀ q, WellFormed q → (chosen q it ↔ ∃ f ws w x v, (f, ws) ∈ (entry it).texts ∧ w ∈ ws ∧ HasWord q x ∧
      PriceWith m.e x w v ∧ v ≤ if x.length < 2 then 100 else 200))
    (h : Ran os m (corpusTexts (docsFrom 0 (items.map entry))) []) (he : PresetMade m.e) :
    Answers (searchWith text) ⟨m, (items.map entry).map Entry.row⟩ items row chosen := by
  intro q hq
  have hok' : ∀ e ∈ items.map entry, EntryOk e := by
    intro e he
    obtain ⟨l, hl', rfl⟩ := List.mem_map.1 he
    exact hok l hl'
  have hpost := posting_docs (items.map entry) (by
    intro e he
    obtain ⟨l, hl', rfl⟩ := List.mem_map.1 he
    exact hnd l hl')
  obtain ⟨h1, h2⟩ := searchWith_spec (text := text) (app := ⟨m, (items.map entry).map Entry.row⟩) h he
    (corpus_short (docsFrom_good hok' 0).ok).2 (by
      intro d f w hp
      obtain ⟨i, e, ws, h1, h2, _⟩ := (hpost 0 d f w).1 hp
      have := (List.getElem?_eq_some_iff.1 h1).1
      have h2 : d = i := h2.trans (Nat.zero_add i)
      rw [h2]; simpa using this) hq
  refine ⟨h1, fun hw => ?_⟩
  have hs := lineWords_eq hw
  obtain ⟨found, k, rows, e1, e2, hsh, hfr, hnd, hrank, hm⟩ := h2 _ hs
  refine ⟨found, k, rows, e1, e2, hsh, ?_, hnd, hrank, ?_⟩
  · refine hfr.imp ?_
    rintro x r ⟨⟨y, hy, h3⟩, h4⟩
    refine ⟨?_, h4⟩
    rw [List.map_map, List.getElem?_map, Option.map_eq_some_iff] at hy
    obtain ⟨it, hit, rfl⟩ := hy
    exact ⟨it, hit, h3.trans (hrow it (List.mem_of_getElem? hit))⟩
  · intro i
    rw [hm i]
    constructor
    · rintro ⟨f, w, x, v, hp, hx, hv, hlim⟩
      obtain ⟨j, e, ws, h1, h2, h3, h4⟩ := (hpost 0 i f w).1 hp
      have h2 : i = j := h2.trans (Nat.zero_add j)
      subst h2
      rw [List.getElem?_map, Option.map_eq_some_iff] at h1
      obtain ⟨it, hit, rfl⟩ := h1
      refine ⟨it, hit, (hch it (List.mem_of_getElem? hit) q hw).2 ⟨f, ws, w, x, v, h3, h4, (lineWords_mem hw x).1 hx, hv, ?_⟩⟩
      unfold limit at hlim
      simpa [show SearchParameters.new.isDynamic = true from rfl] using hlim
    · rintro ⟨it, hit, hc⟩
      obtain ⟨f, ws, w, x, v, h3, h4, hx, hv, hlim⟩ := (hch it (List.mem_of_getElem? hit) q hw).1 hc
      refine ⟨f, w, x, v, (hpost 0 i f w).2 ⟨i, entry it, ws, by rw [List.getElem?_map, hit]; rfl,
        (Nat.zero_add i).symm, h3, h4⟩, (lineWords_mem hw x).2 hx, hv, ?_⟩
      unfold limit
      simpa [show SearchParameters.new.isDynamic = true from rfl] using hlim

theorem lines_answer {os : Nat → Bool} {m : Matcher} {field : Word} (hf : WordOk field ∧ field ≠ []) {ls : List Bytes}
    (hl : ∀ l ∈ ls, ToolLine l) (h : Ran os m (corpusTexts (docsFrom 0 (ls.map (lineEntry field)))) []) (he : PresetMade m.e) :
    Answers doSearch ⟨m, (ls.map (lineEntry field)).map Entry.row⟩ ls textOf fun q l => Close (PriceWith m.e) q (textOf l) := by
  refine entries_answer (fun l h => lineEntry_ok hf (hl l h)) (fun l _ => by simp [lineEntry]) (fun l h => (stored_eq (hl l h)).2) ?_ h he
  intro l hl' q hq
  have hw := (hl l hl').wellFormed
  constructor
  · rintro ⟨x, w, v, h1, h2, h3, h4⟩
    exact ⟨field, _, w, x, v, by simp [lineEntry], (lineWords_mem hw w).2 h2, h1, h3, h4⟩
  · rintro ⟨f, ws, w, x, v, h1, h2, h3, h4, h5⟩
    simp only [lineEntry, List.mem_singleton, Prod.mk.injEq] at h1
    rw [h1.2] at h2
    exact ⟨x, w, v, h3, (lineWords_mem hw w).1 h2, h4, h5⟩

/-- Reading a file of usable lines. -/
theorem lines_read {os : Nat → Bool} {m : Matcher} (h : Ran os m [] []) (he : PresetMade m.e) {field : Word}
    (hf : WordOk field ∧ field ≠ []) (hf4 : field.length ≤ 4) {ls : List Bytes} {last : Bytes}
    (hl : ∀ l ∈ ls ++ [last], l = [] ∨ ToolLine l) :
    (readAll (readLine field) (fileOf ls ++ last) m = .error .runtimeError ∧
      StorageRefused os (4 * (fileOf (ls ++ [last])).length)) ∨
    ∃ app, readAll (readLine field) (fileOf ls ++ last) m = .ok app ∧
      Answers doSearch app (nonblank (ls ++ [last])) textOf fun q l => Close (PriceWith m.e) q (textOf l) := by
  have hlines : Host.lines (fileOf ls ++ last) = ls ++ (if last = [] then [] else [last]) := by
    refine Props.C71_lines ls ?_ last ?_
    · intro l hl'
      rcases hl l (by simp [hl']) with rfl | h
      · simp
      · exact h.noNewline
    · rcases hl last (by simp) with h | h
      · rw [h]; simp
      · exact h.noNewline
  have hsub : ∀ l ∈ Host.lines (fileOf ls ++ last), l ∈ ls ++ [last] := by
    intro l hl'
    rw [hlines] at hl'
    split at hl'
    · simp at hl'; simp [hl']
    · exact hl'
  have hent : (Host.lines (fileOf ls ++ last)).filterMap (lineEntry? field) = (nonblank (ls ++ [last])).map (lineEntry field) := by
    rw [entries_eq, hlines]
    congr 1
    split
    · rename_i h; subst h; simp [nonblank]
    · rfl
  have hgood : ∀ l ∈ nonblank (ls ++ [last]), ToolLine l := by
    intro l hl'
    simp only [nonblank, List.mem_filter, decide_not, Bool.not_eq_eq_eq_not, Bool.not_true, decide_eq_false_iff_not] at hl'
    exact (hl l hl'.1).resolve_left hl'.2
  have hok : ∀ e ∈ (nonblank (ls ++ [last])).map (lineEntry field), EntryOk e := by
    intro e he
    obtain ⟨l, hl', rfl⟩ := List.mem_map.1 he
    exact lineEntry_ok hf (hgood l hl')
  rcases readAll_spec (read := readLine field) hent.symm h (fun l hl' id => readLine_eq field (hl l (hsub l hl')) id) hok with
    ⟨e, hr⟩ | ⟨m', e, hran, he', _⟩
  · left
    refine ⟨e, StorageRefused.mono hr ?_⟩
    have := lines_letters hf4 _ hgood 0
    have := nonblank_length (ls ++ [last])
    omega
  · right
    refine ⟨_, e, ?_⟩
    rw [← he']
    exact lines_answer hf hgood hran (he' ▸ he)

omit [Build] [Icu] [Runtime] [Fp] in
/-- The lines of a file up to one that is not empty. -/
theorem lines_split {ls : List Bytes} {last : Bytes} (hn : ∀ l ∈ ls ++ [last], 0x0a ∉ l)
    {pre post : List Bytes} {bad : Bytes} (hs : ls ++ [last] = pre ++ bad :: post) (hb : bad ≠ []) :
    ∃ post', Host.lines (fileOf ls ++ last) = pre ++ bad :: post' := by
  have e : Host.lines (fileOf ls ++ last) = ls ++ (if last = [] then [] else [last]) :=
    Props.C71_lines ls (fun l hl => hn l (by simp [hl])) last (hn last (by simp))
  by_cases hlast : last = []
  · subst hlast
    rw [if_pos rfl] at e
    obtain ⟨p, x, rfl⟩ | rfl := (List.eq_nil_or_concat post).symm
    · rw [List.concat_eq_append, ← List.cons_append, ← List.append_assoc] at hs
      exact ⟨p, by rw [e, List.append_nil]; exact List.append_inj_left' hs rfl⟩
    · have := List.append_inj_right' hs rfl
      simp only [List.cons.injEq, and_true] at this
      exact absurd this.symm hb
  · rw [if_neg hlast, hs] at e
    exact ⟨post, e⟩

/-- Reading a file stops at the first line that cannot be read. -/
theorem lines_stop {os : Nat → Bool} {m : Matcher} (h : Ran os m [] []) {field : Word}
    (hf : WordOk field ∧ field ≠ []) (hf4 : field.length ≤ 4) {ls : List Bytes} {last : Bytes} (hn : ∀ l ∈ ls ++ [last], 0x0a ∉ l)
    {pre post : List Bytes} {bad : Bytes} (hs : ls ++ [last] = pre ++ bad :: post) (hl : ∀ l ∈ pre, l = [] ∨ ToolLine l)
    (hb : bad ≠ []) {f : Fault} (hbad : ∀ id, readLine field id bad = .error f) :
    (readAll (readLine field) (fileOf ls ++ last) m = .error .runtimeError ∧ StorageRefused os (4 * (fileOf pre).length)) ∨
    readAll (readLine field) (fileOf ls ++ last) m = .error f := by
  obtain ⟨post', hlines⟩ := lines_split hn hs hb
  have hgood : ∀ l ∈ nonblank pre, ToolLine l := by
    intro l hl'
    simp only [nonblank, List.mem_filter, decide_not, Bool.not_eq_eq_eq_not, Bool.not_true, decide_eq_false_iff_not] at hl'
    exact (hl l hl'.1).resolve_left hl'.2
  have hok : ∀ e ∈ pre.filterMap (lineEntry? field), EntryOk e := by
    intro e he
    rw [entries_eq] at he
    obtain ⟨l, hl', rfl⟩ := List.mem_map.1 he
    exact lineEntry_ok hf (hgood l hl')
  rcases readAll_stop hlines h (fun l hl' id => readLine_eq field (hl l hl') id) hok hbad with ⟨e, hr⟩ | e
  · left
    refine ⟨e, StorageRefused.mono hr ?_⟩
    rw [entries_eq]
    have := lines_letters hf4 _ hgood 0
    have := nonblank_length pre
    omega
  · exact Or.inr e

end
end Columbus.Apps
