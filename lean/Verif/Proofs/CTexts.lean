import Verif.Proofs.AppTexts
import Verif.Proofs.ToolRun
import Verif.Props.CApi
import Verif.Spec.CTexts
/-
The heap of a C program and what the program knows about it.
-/

namespace Columbus.CTexts
open Columbus Spec CApi Apps QueryIndex

theorem forall₂_left {α β : Type} {R : α → β → Prop} {a : List α} {b : List β} (h : List.Forall₂ R a b) {x : α} (hx : x ∈ a) :
    ∃ y ∈ b, R x y := by
  induction h with
  | nil => cases hx
  | cons h1 _ ih =>
    rcases List.mem_cons.1 hx with rfl | hx
    · exact ⟨_, by simp, h1⟩
    · obtain ⟨y, hy, h⟩ := ih hx; exact ⟨y, by simp [hy], h⟩

theorem forall₂_right {α β : Type} {R : α → β → Prop} {a : List α} {b : List β} (h : List.Forall₂ R a b) {y : β} (hy : y ∈ b) :
    ∃ x ∈ a, R x y := forall₂_left h.flip hy

theorem forall₂_split {α β : Type} {R : α → β → Prop} {pre : List α} {x : α} {post : List α} {b : List β}
    (h : List.Forall₂ R (pre ++ x :: post) b) :
    ∃ pre' y post', b = pre' ++ y :: post' ∧ R x y ∧ List.Forall₂ R post post' := by
  induction pre generalizing b with
  | nil => cases h with | cons h1 h2 => exact ⟨[], _, _, rfl, h1, h2⟩
  | cons a pre ih =>
    cases h with
    | cons h1 h2 =>
      obtain ⟨pre', y, post', rfl, h3, h4⟩ := ih h2
      exact ⟨_ :: pre', y, post', rfl, h3, h4⟩

theorem last_iff {V : Type} (h : List (Word × V)) (f : Word) (v : V) :
    (h.reverse.find? fun q => q.1 == f).map (·.2) = some v ↔ ∃ pre post, h = pre ++ (f, v) :: post ∧ ∀ p ∈ post, p.1 ≠ f := by
  induction h using List.reverseRecOn with
  | nil => simp
  | append_singleton h p ih =>
    rw [find_snoc]
    constructor
    · split
      · rename_i e
        rintro ⟨rfl⟩
        exact ⟨h, [], by rw [← e], by simp⟩
      · rename_i e
        intro hh
        obtain ⟨pre, post, rfl, hp⟩ := ih.1 hh
        refine ⟨pre, post ++ [p], by simp, ?_⟩
        intro q hq
        rcases List.mem_append.1 hq with hq | hq
        · exact hp q hq
        · rw [List.mem_singleton.1 hq]; exact e
    · rintro ⟨pre, post, e, hp⟩
      rcases List.eq_nil_or_concat post with rfl | ⟨post, q, rfl⟩
      · have := List.append_inj_right' e rfl
        simp only [List.cons.injEq, and_true] at this
        subst this
        simp
      · rw [List.concat_eq_append] at e hp
        have e1 : h ++ [p] = (pre ++ (f, v) :: post) ++ [q] := by rw [e]; simp
        have e2 := List.append_inj_right' e1 rfl
        have e3 := List.append_inj_left' e1 rfl
        simp only [List.cons.injEq, and_true] at e2
        subst e2
        rw [if_neg (hp p (by simp))]
        exact ih.2 ⟨pre, post, e3, fun q hq => hp q (by simp [hq])⟩

section
variable [Build] [Icu]

/-- The word of a text. -/
def WordRel (w : Word) (t : Bytes) : Prop := CString t ∧ Word.ofUtf8 t = .ok w

/-- An addition to a document. -/
structure TextRel (p : Word × WordList) (t : Bytes × Bytes) : Prop where
  name : WordRel p.1 t.1
  full : t.1 ≠ []
  text : CString t.2
  words : splitToWords t.2 = .ok p.2

def DocRel (d : Document) (D : Described) : Prop := ∃ hist, d = documentOf D.id hist ∧ List.Forall₂ TextRel hist D.texts

theorem lower_of {t : Bytes} {w : Word} (h : Word.ofUtf8 t = .ok w) : LowerLetters t w :=
  (lowerLetters_iff ((ofUtf8_ok_iff t w).1 h).1 w).2 h

theorem text_exists {t : Bytes} {w : Word} (h : Word.ofUtf8 t = .ok w) : ∃ s, TextOf w s ∧ LowerText t s := by
  obtain ⟨_, c, hc, rfl⟩ := (ofUtf8_ok_iff t w).1 h
  have h1 := lettersOf_lowerCp hc
  have h2 : TextOf (lettersOf c) _ := ⟨_, h1, utf8_encodes (Utf16.scalar h1)⟩
  exact ⟨_, h2, (lowerText_iff (lower_of h)).2 h2⟩

theorem sameName_iff {a b : Bytes} {v w : Word} (ha : Word.ofUtf8 a = .ok v) (hb : Word.ofUtf8 b = .ok w) : SameName a b ↔ v = w := by
  constructor
  · rintro ⟨t, h1, h2⟩
    exact TextOf.det ((lowerText_iff (lower_of ha)).1 h1) ((lowerText_iff (lower_of hb)).1 h2)
  · rintro rfl
    obtain ⟨s, h1, h2⟩ := text_exists ha
    exact ⟨s, h2, (lowerText_iff (lower_of hb)).2 h1⟩

theorem ofUtf8_nonempty {t : Bytes} {w : Word} (h : Word.ofUtf8 t = .ok w) (ht : t ≠ []) : w ≠ [] := by
  rintro rfl
  obtain ⟨c, h1, h2⟩ := lower_of h
  generalize hl : c.map lowerCp = l at h2
  cases h2
  rw [List.map_eq_nil_iff] at hl
  subst hl
  cases h1
  exact ht rfl

theorem DocRel.docOk {d : Document} {D : Described} (h : DocRel d D) : DocOk d := by
  obtain ⟨hist, rfl, hf⟩ := h
  refine ⟨hist, by rw [documentOf_id], fun p hp => ?_⟩
  obtain ⟨t, _, ht⟩ := forall₂_left hf hp
  exact ⟨wordOk_ofUtf8 ht.name.1 ht.name.2, wordOk_split ht.text ht.words⟩

theorem DocRel.id {d : Document} {D : Described} (h : DocRel d D) : d.id = D.id := by
  obtain ⟨hist, rfl, _⟩ := h
  exact documentOf_id _ _

theorem DocRel.good {d : Document} {D : Described} (h : DocRel d D) : GoodDocs [d] := by
  refine ⟨fun d' hd => by rw [List.mem_singleton.1 hd]; exact h.docOk, ?_⟩
  obtain ⟨hist, rfl, hf⟩ := h
  intro x hx
  simp only [corpusTexts, List.flatMap_cons, List.flatMap_nil, List.append_nil, List.mem_map] at hx
  obtain ⟨t, ht, rfl⟩ := hx
  obtain ⟨t', _, hr⟩ := forall₂_left hf (mem_texts ht)
  exact ⟨ofUtf8_nonempty hr.name.2 hr.full, fun h0 => (split_words hr.words).2 [] h0 rfl⟩

theorem docs_good {c : Corpus} {ds : List Described} (h : List.Forall₂ DocRel c ds) : GoodDocs c := by
  induction h with
  | nil => exact goodDocs_nil
  | cons h1 _ ih => exact h1.good.append ih

theorem DocRel.has {d : Document} {D : Described} (h : DocRel d D) (w : Word) :
    (∃ f ws, (f, ws) ∈ d.texts ∧ w ∈ ws) ↔ ∃ t, D.Has t ∧ HasWord t w := by
  obtain ⟨hist, rfl, hf⟩ := h
  have key : ∀ f ws, (f, ws) ∈ (documentOf D.id hist).texts ↔ ∃ pre post, hist = pre ++ (f, ws) :: post ∧ ∀ p ∈ post, p.1 ≠ f := by
    intro f ws
    rw [← SMap.find_some_iff strict_wordLt (documentOf_sorted _ _), documentOf_find, lastText]
    exact last_iff hist f ws
  constructor
  · rintro ⟨f, ws, h1, h2⟩
    obtain ⟨pre, post, rfl, hp⟩ := (key f ws).1 h1
    obtain ⟨pre', t, post', e, hr, hpost⟩ := forall₂_split hf
    refine ⟨t.2, ⟨pre', t.1, post', e, ?_⟩, ((split_words hr.words).1 w).1 h2⟩
    intro q hq hs
    obtain ⟨p, hpm, hpr⟩ := forall₂_right hpost hq
    exact hp p hpm ((sameName_iff hpr.name.2 hr.name.2).1 hs)
  · rintro ⟨t, ⟨pre, f, post, e, hp⟩, hw⟩
    have hf' := hf.flip
    rw [e] at hf'
    obtain ⟨pre', p, post', rfl, hr, hpost⟩ := forall₂_split hf'
    have hr : TextRel p (f, t) := hr
    refine ⟨p.1, p.2, (key _ _).2 ⟨pre', post', rfl, ?_⟩, ((split_words hr.words).1 w).2 hw⟩
    intro q hq hs
    obtain ⟨u, hum, hur⟩ := forall₂_right hpost hq
    have hur : TextRel q u := hur
    exact hp u hum ((sameName_iff hur.name.2 hr.name.2).2 hs)

theorem docs_posting {c : Corpus} {ds : List Described} (h : List.Forall₂ DocRel c ds) (i : DocumentID) (w : Word) :
    (∃ f, MatcherHistory.Posting (corpusTexts c) i f w) ↔ ∃ D ∈ ds, D.id = i ∧ ∃ t, D.Has t ∧ HasWord t w := by
  have key : (∃ f, MatcherHistory.Posting (corpusTexts c) i f w) ↔ ∃ d ∈ c, d.id = i ∧ ∃ f ws, (f, ws) ∈ d.texts ∧ w ∈ ws := by
    constructor
    · rintro ⟨f, x, hx, h1, h2, h3⟩
      rw [corpusTexts, List.mem_flatMap] at hx
      obtain ⟨d, hd, hx⟩ := hx
      obtain ⟨t, ht, rfl⟩ := List.mem_map.1 hx
      exact ⟨d, hd, h1, t.1, t.2, ht, h3⟩
    · rintro ⟨d, hd, h1, f, ws, h2, h3⟩
      exact ⟨f, _, List.mem_flatMap.2 ⟨d, hd, List.mem_map.2 ⟨_, h2, rfl⟩⟩, h1, rfl, h3⟩
  rw [key]
  constructor
  · rintro ⟨d, hd, h1, h2⟩
    obtain ⟨D, hD, hr⟩ := forall₂_left h hd
    exact ⟨D, hD, hr.id ▸ h1, (hr.has w).1 h2⟩
  · rintro ⟨D, hD, h1, h2⟩
    obtain ⟨d, hd, hr⟩ := forall₂_right h hD
    exact ⟨d, hd, hr.id.trans h1, (hr.has w).2 h2⟩

theorem hist_letters {hist : List (Word × WordList)} {ts : List (Bytes × Bytes)} (h : List.Forall₂ TextRel hist ts) :
    (hist.map fun t => t.1.length + lettersIn t.2).sum ≤ textsLength ts := by
  induction h with
  | nil => simp [textsLength]
  | cons h1 _ ih =>
    have a := length_ofUtf8 h1.name.2
    have b := split_letters h1.words
    simp only [textsLength, List.map_cons, List.sum_cons] at ih ⊢
    omega

theorem docs_letters {c : Corpus} {ds : List Described} (h : List.Forall₂ DocRel c ds) :
    lettersIn (corpusTexts c).mentions ≤ describedLength ds := by
  induction h with
  | nil => simp [corpusTexts, MatcherHistory.mentions, lettersIn]
  | cons h1 _ ih =>
    rename_i d D c ds _
    obtain ⟨hist, rfl, hf⟩ := h1
    have a := document_letters D.id hist
    have b := hist_letters hf
    have e : corpusTexts (documentOf D.id hist :: c) = corpusTexts [documentOf D.id hist] ++ corpusTexts c :=
      corpusTexts_append [documentOf D.id hist] c
    rw [e, mentions_append, lettersIn_append]
    simp only [describedLength, List.map_cons, List.sum_cons] at ih ⊢
    omega

/-- Weights. -/
theorem weight_is {hw : List (Word × ℚ)} {ws : List (Bytes × ℚ)} (h : List.Forall₂ (fun p t => Word.ofUtf8 t.1 = .ok p.1 ∧ p.2 = t.2) hw ws)
    {f : Word} {t : Bytes} (ht : Word.ofUtf8 t = .ok f) : WeightIs ws t (IndexWeights.getWeight (weightsOf hw) f) := by
  obtain ⟨h1, h2⟩ := Props.C43_weights hw f
  cases hl : lastWeight hw f with
  | some v =>
    obtain ⟨pre, post, rfl, hp⟩ := (last_iff hw f v).1 hl
    rw [h1 pre v post rfl hp]
    obtain ⟨pre', ⟨g, u⟩, post', e, ⟨hr1, hr2⟩, hpost⟩ := forall₂_split h
    simp only at hr2
    subst hr2
    refine Or.inl ⟨pre', g, post', e, (sameName_iff hr1 ht).2 rfl, ?_⟩
    intro q hq hs
    obtain ⟨p, hpm, hpr⟩ := forall₂_right hpost hq
    exact hp p hpm ((sameName_iff hpr.1 ht).1 hs)
  | none =>
    have hn : ∀ p ∈ hw, p.1 ≠ f := by
      intro p hp e
      rw [lastWeight, Option.map_eq_none_iff, List.find?_eq_none] at hl
      exact hl p (List.mem_reverse.2 hp) (by simp [e])
    rw [h2 hn]
    refine Or.inr ⟨rfl, fun q hq hs => ?_⟩
    obtain ⟨p, hpm, hpr⟩ := forall₂_right h hq
    exact hn p hpm ((sameName_iff hpr.1 ht).1 hs)

end

section
variable [Build] [Icu] [Runtime] [Fp]

/-- One search. -/
theorem search_lists {os : Nat → Bool} {m : Matcher} {D : Corpus} {ds : List Described} {ops : List ErrOp} (h : Ran os m (corpusTexts D) [])
    (hd : List.Forall₂ DocRel D ds) (he : m.e = afterOps ops) (hp : ∀ op ∈ ops, op.Preset) {q : Bytes} (hq : CString q) :
    (¬ WellFormed q → m.matchUtf8 q = (m, .error .runtimeError)) ∧
    (WellFormed q → ∃ r l, m.matchUtf8 q = (m, .ok r) ∧ Filled r l ∧ Lists ds ops q ((rank l).map (·.2)) ∧ (rank l).Pairwise RankOrder) := by
  obtain ⟨ts, hts, hgood, hbad⟩ := Props.C11_split q
  have hpm : PresetMade m.e := he ▸ presetMade_afterOps hp
  constructor
  · intro hw; rw [Matcher.matchUtf8, hbad hw]
  · intro hw
    obtain ⟨ws, hs, _⟩ := hgood hw
    have hu := wordOk_split hq hs
    have hsane : Sane m.e ws (corpusTexts D) := hpm.sane (fun x hx => usable_noNul (hu x hx).1) (L := 10000000) (fun x hx => (hu x hx).2)
      (corpus_short (docs_good hd).ok).2 (le_refl _)
    obtain ⟨r, k, e, hk, hm⟩ := Props.C44_found h ws SearchParameters.new hsane (hpm.exact ws) rfl
    obtain ⟨names, hi, _⟩ := Columbus.Ran.inv h
    obtain ⟨docs, ha, e'⟩ := hi.matchQuery_eq (p := SearchParameters.new) hsane
    rw [filtered_trivial _ rfl, e] at e'
    injection e' with _ e'
    injection e' with e'
    have hsorted : SMap.Sorted ltNat docs := by obtain ⟨P, _, hD⟩ := ha; exact hD.sorted
    have hkd : k = listing docs := Columbus.Shows.unique hk (e' ▸ shows_copied (listing_rank hsorted))
    subst hkd
    obtain ⟨k', hk', hnd, hrank⟩ := Props.C46_ranked _ _ _ _ _ e
    obtain rfl := Columbus.Shows.unique hk hk'
    refine ⟨r, listing docs, by rw [Matcher.matchUtf8, hs]; exact e, e' ▸ filled_copied _, ?_⟩
    rw [(copied_inv (listing_rank hsorted)).2]
    refine ⟨⟨hnd, fun i => ?_⟩, hrank⟩
    rw [hm i]
    constructor
    · rintro ⟨f, w, x, v, h1, _, h2, h3, h4⟩
      obtain ⟨D', hD', h5, t, h6, h7⟩ := (docs_posting hd i w).1 ⟨f, h1⟩
      refine ⟨D', hD', h5, t, h6, x, w, v, ((split_words hs).1 x).1 h2, h7, he ▸ h3, ?_⟩
      simpa [limit, SearchParameters.new, SearchParameters.isDynamic] using h4
    · rintro ⟨D', hD', h5, t, h6, x, w, v, h2, h7, h3, h4⟩
      obtain ⟨f, h1⟩ := (docs_posting hd i w).2 ⟨D', hD', h5, t, h6, h7⟩
      refine ⟨f, w, x, v, h1, rfl, ((split_words hs).1 x).2 h2, he ▸ h3, ?_⟩
      simpa [limit, SearchParameters.new, SearchParameters.isDynamic] using h4

/-- A matcher and what is known of it. -/
structure MatcherRel (m : Matcher) (os : Nat → Bool) (ds : List Described) (ops : List ErrOp) (ws : List (Bytes × ℚ)) : Prop where
  docs : ∃ D, List.Forall₂ DocRel D ds ∧ Ran os m (corpusTexts D) []
  e : m.e = afterOps ops
  preset : ∀ op ∈ ops, op.Preset
  weights : ∃ hw, m.weights = weightsOf hw ∧ List.Forall₂ (fun p t => Word.ofUtf8 t.1 = .ok p.1 ∧ p.2 = t.2) hw ws

/-- An object and what is known of it. -/
def ObjRel : Obj → Thing → Prop
  | .word w, .word t => WordRel w t
  | .document d, .document D => DocRel d D
  | .corpus c, .corpus cs => List.Forall₂ DocRel c cs
  | .matcher m, .matcher os ds ops ws => MatcherRel m os ds ops ws
  | .results r, .results ids => ∃ l, Filled r l ∧ (rank l).map (·.2) = ids
  | _, _ => False

/-- The heap and what is known of it. -/
def HeapRel (h : Heap) (k : Known) : Prop := List.Forall₂ (Option.Rel ObjRel) h.cells k

theorem objRel_ok {o : Obj} {t : Thing} (h : ObjRel o t) : ObjOk o := by
  cases o <;> cases t <;> simp only [ObjRel] at h
  · exact wordOk_ofUtf8 h.1 h.2
  · exact h.docOk
  · obtain ⟨D, hD, hr⟩ := h.docs
    exact ⟨_, _, hr, h.e ▸ presetMade_afterOps h.preset, (corpus_short (docs_good hD).ok).2⟩
  · exact ⟨_, h.choose_spec.1⟩
  · intro d hd
    obtain ⟨D, _, hr⟩ := forall₂_left h hd
    exact hr.docOk

theorem HeapRel.ok {h : Heap} {k : Known} (hr : HeapRel h k) : HeapOk h := by
  intro n o hn
  obtain ⟨y, _, hy⟩ := forall₂_left hr (List.mem_of_getElem? hn)
  cases hy with
  | some h => exact objRel_ok h

omit [Build] [Icu] [Runtime] [Fp] in
theorem forall₂_get {α β : Type} {R : α → β → Prop} {a : List α} {b : List β} (h : List.Forall₂ R a b) (n : Nat) :
    Option.Rel R a[n]? b[n]? := by
  induction h generalizing n with
  | nil => simp only [List.getElem?_nil]; exact .none
  | cons h1 _ ih =>
    cases n with
    | zero => exact .some h1
    | succ n => simpa using ih n

omit [Build] [Icu] [Runtime] [Fp] in
theorem forall₂_set {α β : Type} {R : α → β → Prop} {a : List α} {b : List β} (h : List.Forall₂ R a b) (n : Nat) {x : α} {y : β}
    (hx : R x y) : List.Forall₂ R (a.set n x) (b.set n y) := by
  induction h generalizing n with
  | nil => exact .nil
  | cons h1 h2 ih =>
    cases n with
    | zero => exact .cons hx h2
    | succ n => exact .cons h1 (ih n)

theorem HeapRel.is {h : Heap} {k : Known} (hr : HeapRel h k) {x : Handle} {t : Thing} (hx : k.Is x t) :
    ∃ o, Heap.Holds h x o ∧ ObjRel o t := by
  obtain ⟨n, rfl, hn⟩ := hx
  have := forall₂_get hr n
  rw [hn] at this
  generalize hg : h.cells[n]? = o at this
  cases this with
  | some h =>
    cases h with
    | some h => exact ⟨_, ⟨n, rfl, hg⟩, h⟩

theorem HeapRel.word {h : Heap} {k : Known} (hr : HeapRel h k) {x : Handle} {t : Bytes} (hx : k.Is x (.word t)) :
    ∃ w, Heap.Holds h x (.word w) ∧ WordRel w t := by
  obtain ⟨o, h1, h2⟩ := hr.is hx
  cases o <;> simp only [ObjRel] at h2
  exact ⟨_, h1, h2⟩

theorem HeapRel.document {h : Heap} {k : Known} (hr : HeapRel h k) {x : Handle} {D : Described} (hx : k.Is x (.document D)) :
    ∃ d, Heap.Holds h x (.document d) ∧ DocRel d D := by
  obtain ⟨o, h1, h2⟩ := hr.is hx
  cases o <;> simp only [ObjRel] at h2
  exact ⟨_, h1, h2⟩

theorem HeapRel.corpus {h : Heap} {k : Known} (hr : HeapRel h k) {x : Handle} {cs : List Described} (hx : k.Is x (.corpus cs)) :
    ∃ c, Heap.Holds h x (.corpus c) ∧ List.Forall₂ DocRel c cs := by
  obtain ⟨o, h1, h2⟩ := hr.is hx
  cases o <;> simp only [ObjRel] at h2
  exact ⟨_, h1, h2⟩

theorem HeapRel.matcher {h : Heap} {k : Known} (hr : HeapRel h k) {x : Handle} {os ds ops ws} (hx : k.Is x (.matcher os ds ops ws)) :
    ∃ m, Heap.Holds h x (.matcher m) ∧ MatcherRel m os ds ops ws := by
  obtain ⟨o, h1, h2⟩ := hr.is hx
  cases o <;> simp only [ObjRel] at h2
  exact ⟨_, h1, h2⟩

theorem HeapRel.results {h : Heap} {k : Known} (hr : HeapRel h k) {x : Handle} {ids : List DocumentID} (hx : k.Is x (.results ids)) :
    ∃ r l, Heap.Holds h x (.results r) ∧ Filled r l ∧ (rank l).map (·.2) = ids := by
  obtain ⟨o, h1, h2⟩ := hr.is hx
  cases o <;> simp only [ObjRel] at h2
  obtain ⟨l, h2⟩ := h2
  exact ⟨_, l, h1, h2⟩

theorem HeapRel.made {h h' : Heap} {k : Known} (hr : HeapRel h k) {r : CRet} {o : Obj} {t : Thing} (hm : Made h h' r o) (ho : ObjRel o t) :
    ∃ k', k.New k' r t ∧ HeapRel h' k' := by
  obtain ⟨rfl, e⟩ := hm
  refine ⟨_, ⟨by rw [hr.length_eq], rfl⟩, ?_⟩
  rw [HeapRel, e]
  exact List.rel_append hr (.cons (.some ho) .nil)

theorem HeapRel.changed {h h' : Heap} {k : Known} (hr : HeapRel h k) {x : Handle} {o : Obj} {t : Thing} (hm : Changed h h' x o)
    (ho : ObjRel o t) : ∃ k', k.Now k' x t ∧ HeapRel h' k' := by
  obtain ⟨n, rfl, e⟩ := hm
  refine ⟨_, ⟨n, rfl, rfl⟩, ?_⟩
  rw [HeapRel, e]
  exact forall₂_set hr n (.some ho)

omit [Build] [Icu] [Runtime] [Fp] in
theorem now_same {k k' : Known} {x : Handle} {t : Thing} (hx : k.Is x t) (hn : k.Now k' x t) : k' = k := by
  obtain ⟨n, rfl, hn'⟩ := hx
  obtain ⟨_, ⟨⟩, rfl⟩ := hn
  apply List.ext_getElem?
  intro i
  rw [List.getElem?_set]
  split
  · rename_i e; subst e
    split
    · exact hn'.symm
    · rename_i hl; rw [List.getElem?_eq_none (by omega)] at hn'; cases hn'
  · rfl

/-- The object changed, but not what is known of it. -/
theorem HeapRel.same {h h' : Heap} {k : Known} (hr : HeapRel h k) {x : Handle} {o : Obj} {t : Thing} (hx : k.Is x t) (hm : Changed h h' x o)
    (ho : ObjRel o t) : HeapRel h' k := by
  obtain ⟨k', h1, h2⟩ := hr.changed hm ho
  rw [now_same hx h1] at h2
  exact h2

theorem HeapRel.gone {h h' : Heap} {k : Known} (hr : HeapRel h k) {x : Handle} (hm : Deleted h h' x) : ∃ k', k.Gone k' x ∧ HeapRel h' k' := by
  rcases hm with ⟨rfl, rfl⟩ | ⟨n, rfl, e⟩
  · exact ⟨k, Or.inl ⟨rfl, rfl⟩, hr⟩
  · refine ⟨_, Or.inr ⟨n, rfl, rfl⟩, ?_⟩
    rw [HeapRel, e]
    exact forall₂_set hr n .none

omit [Build] [Icu] [Runtime] [Fp] in
theorem holds_same {h : Heap} {x : Handle} {o o' : Obj} (h1 : Heap.Holds h x o) (h2 : Heap.Holds h x o') : o = o' := by
  have := holds_get h1
  rw [holds_get h2] at this
  cases this; rfl

/-- Indexing. -/
theorem index_rel {m : Matcher} {os ds ops ws} (h : MatcherRel m os ds ops ws) {c : Corpus} {cs : List Described} (hc : List.Forall₂ DocRel c cs)
    (hos : ¬ StorageRefused os (2 * describedLength (ds ++ cs))) :
    (m.index c).2 = none ∧ MatcherRel (m.index c).1 os (ds ++ cs) ops ws := by
  obtain ⟨D, hD, hr⟩ := h.docs
  have hDc : List.Forall₂ DocRel (D ++ c) (ds ++ cs) := List.rel_append hD hc
  rcases indexed_spec hr (docs_good hc) with ⟨_, h1⟩ | ⟨m', h1, h2, h3, h4⟩
  · refine absurd (Spec.StorageRefused.mono h1 ?_) hos
    have := docs_letters hDc
    omega
  · rw [indexed] at h1
    rcases hi : m.index c with ⟨m1, o⟩
    rw [hi] at h1
    cases o with
    | some f => cases h1
    | none =>
      cases h1
      exact ⟨rfl, ⟨_, hDc, h2⟩, h3.trans h.e, h.preset, h4 ▸ h.weights⟩

/-- What is allowed is valid. -/
theorem allows_valid {h : Heap} {k : Known} (hr : HeapRel h k) {c : CCall} (hc : k.Allows c) : c.Valid h := by
  cases c with
  | wordNew s => exact hc
  | wordDelete x =>
    rcases hc with rfl | ⟨t, ht⟩
    · exact Or.inl rfl
    · obtain ⟨w, hw, _⟩ := hr.word ht; exact Or.inr ⟨w, hw⟩
  | wordLength x => obtain ⟨t, ht⟩ := hc; obtain ⟨w, hw, _⟩ := hr.word ht; exact ⟨w, hw⟩
  | wordAsUtf8 x n =>
    obtain ⟨t, ht, hn⟩ := hc
    obtain ⟨w, hw, hrel⟩ := hr.word ht
    exact ⟨w, hw, fun cps s h1 h2 => hn s ((lowerText_iff (lower_of hrel.2)).2 ⟨cps, h1, h2⟩)⟩
  | documentNew id => trivial
  | documentDelete x =>
    rcases hc with rfl | ⟨t, ht⟩
    · exact Or.inl rfl
    · obtain ⟨w, hw, _⟩ := hr.document ht; exact Or.inr ⟨w, hw⟩
  | documentGetId x => obtain ⟨t, ht⟩ := hc; obtain ⟨w, hw, _⟩ := hr.document ht; exact ⟨w, hw⟩
  | documentAddText x y s =>
    obtain ⟨⟨D, hD⟩, ⟨t, ht, _⟩, hs⟩ := hc
    obtain ⟨d, hd, _⟩ := hr.document hD
    obtain ⟨w, hw, _⟩ := hr.word ht
    exact ⟨⟨d, hd⟩, ⟨w, hw⟩, hs⟩
  | matcherNew os => trivial
  | matcherDelete x =>
    rcases hc with rfl | ⟨os, ds, ops, ws, ht⟩
    · exact Or.inl rfl
    · obtain ⟨w, hw, _⟩ := hr.matcher ht; exact Or.inr ⟨w, hw⟩
  | matcherIndex x y =>
    obtain ⟨os, ds, ops, ws, cs, h1, h2, h3⟩ := hc
    obtain ⟨m, hm, hmr⟩ := hr.matcher h1
    obtain ⟨c, hc, hcr⟩ := hr.corpus h2
    refine ⟨m, c, hm, hc, ?_⟩
    rw [(index_rel hmr hcr h3).1]
    simp
  | matcherMatch x s =>
    obtain ⟨⟨os, ds, ops, ws, ht⟩, hs⟩ := hc
    obtain ⟨w, hw, _⟩ := hr.matcher ht; exact ⟨⟨w, hw⟩, hs⟩
  | matcherGetErrorValues x => obtain ⟨os, ds, ops, ws, ht⟩ := hc; obtain ⟨w, hw, _⟩ := hr.matcher ht; exact ⟨w, hw⟩
  | matcherGetIndexWeights x => obtain ⟨os, ds, ops, ws, ht⟩ := hc; obtain ⟨w, hw, _⟩ := hr.matcher ht; exact ⟨w, hw⟩
  | matchResultsNew => trivial
  | matchResultsDelete x =>
    rcases hc with rfl | ⟨t, ht⟩
    · exact Or.inl rfl
    · obtain ⟨w, _, hw, _⟩ := hr.results ht; exact Or.inr ⟨w, hw⟩
  | matchResultsSize x => obtain ⟨t, ht⟩ := hc; obtain ⟨w, _, hw, _⟩ := hr.results ht; exact ⟨w, hw⟩
  | matchResultsGetId x i => obtain ⟨t, ht⟩ := hc; obtain ⟨w, _, hw, _⟩ := hr.results ht; exact ⟨w, hw⟩
  | matchResultsGetRelevancy x i => obtain ⟨t, ht⟩ := hc; obtain ⟨w, _, hw, _⟩ := hr.results ht; exact ⟨w, hw⟩
  | corpusNew => trivial
  | corpusDelete x =>
    rcases hc with rfl | ⟨t, ht⟩
    · exact Or.inl rfl
    · obtain ⟨w, hw, _⟩ := hr.corpus ht; exact Or.inr ⟨w, hw⟩
  | corpusAddDocument x y =>
    obtain ⟨⟨cs, h1⟩, D, h2⟩ := hc
    obtain ⟨c, hc, _⟩ := hr.corpus h1
    obtain ⟨d, hd, _⟩ := hr.document h2
    exact ⟨⟨c, hc⟩, d, hd⟩
  | addStandardErrors data x =>
    obtain ⟨n, os, ds, ops, ws, rfl, ht⟩ := hc
    obtain ⟨w, hw, _⟩ := hr.matcher ht; exact ⟨n, w, rfl, hw⟩
  | setSubstringMode x =>
    obtain ⟨n, os, ds, ops, ws, rfl, ht⟩ := hc
    obtain ⟨w, hw, _⟩ := hr.matcher ht; exact ⟨n, w, rfl, hw⟩
  | setWeight x y v =>
    obtain ⟨⟨n, os, ds, ops, ws, rfl, ht⟩, t, h2⟩ := hc
    obtain ⟨m, hm, _⟩ := hr.matcher ht
    obtain ⟨w, hw, _⟩ := hr.word h2
    exact ⟨⟨n, m, rfl, hm⟩, w, hw⟩
  | getWeight x y =>
    obtain ⟨⟨n, os, ds, ops, ws, rfl, ht⟩, t, h2⟩ := hc
    obtain ⟨m, hm, _⟩ := hr.matcher ht
    obtain ⟨w, hw, _⟩ := hr.word h2
    exact ⟨⟨n, m, rfl, hm⟩, w, hw⟩

omit [Runtime] [Fp] in
theorem afterOps_snoc (ops : List ErrOp) (op : ErrOp) : afterOps (ops ++ [op]) = (op.run (afterOps ops)).1 := by
  rw [afterOps, List.foldl_append]; rfl

omit [Icu] [Runtime] [Fp] in
theorem new_facts {os : Nat → Bool} {m : Matcher} (h : Matcher.new os = .ok m) :
    os 1024 = true ∧ m.e = ErrorValues.new ∧ m.weights = [] := by
  rw [Matcher.new] at h
  cases hs : WordStore.new os with
  | error f => rw [hs] at h; cases h
  | ok s =>
    rw [hs] at h
    cases h
    refine ⟨?_, rfl, rfl⟩
    cases ho : os 1024 with
    | true => rfl
    | false => simp [WordStore.new, Trie.new, ho] at hs

/-- The result of an allowed call. -/
theorem learns {h h' : Heap} {k : Known} (hr : HeapRel h k) {c : CCall} (hc : k.Allows c) {r : CRet} (e : c.run h = .ok (h', r)) :
    ∃ k', k.Learns c r k' ∧ HeapRel h' k' := by
  have hv := allows_valid hr hc
  by_cases hrel : c.IsRelevancy
  · cases c <;> simp only [CCall.IsRelevancy] at hrel
    rename_i x i
    obtain ⟨ids, hx⟩ := hc
    obtain ⟨res, l, hh, hf, rfl⟩ := hr.results hx
    simp only [CCall.run, CApi.matchResultsGetRelevancy, holds_results hh, ok_bind, (filled_inv hf).getDocumentID i] at e
    refine ⟨k, ⟨rfl, _, hx, ?_⟩, ?_⟩
    · rw [List.getElem?_map]
      cases hg : (rank l)[i]? with
      | none => rw [hg] at e; cases e; rfl
      | some y => rw [hg] at e; cases e; rfl
    · cases hg : (rank l)[i]? with
      | none => rw [hg] at e; cases e; exact hr
      | some y =>
        rw [hg] at e; cases e
        exact hr.same hx (changed_put hh) ⟨l, .readID (i := i) (d := y.2) hf (by rw [(filled_inv hf).getDocumentID i, hg]), rfl⟩
  have hm := Props.C61_partial h h' c r hv hrel e
  cases c with
  | wordNew s =>
    simp only [CCall.Mirrors] at hm
    have hok : (∃ w, Word.ofUtf8 s = .ok w) ↔ WellFormed s ∧ ∀ b ∈ s, ¬ IsBlank b := by
      constructor
      · rintro ⟨w, hw⟩
        obtain ⟨hb, c, hc, _⟩ := (ofUtf8_ok_iff s w).1 hw
        exact ⟨⟨c, hc⟩, hb⟩
      · rintro ⟨⟨c, hc⟩, hb⟩
        exact ⟨_, (ofUtf8_ok_iff s _).2 ⟨hb, c, hc, rfl⟩⟩
    cases hw : Word.ofUtf8 s with
    | ok w =>
      rw [hw] at hm
      obtain ⟨k', h1, h2⟩ := hr.made hm (t := .word s) ⟨hc, hw⟩
      exact ⟨k', ⟨fun _ => h1, fun hn => absurd (hok.1 ⟨w, hw⟩) hn⟩, h2⟩
    | error f =>
      rw [hw] at hm
      refine ⟨k, ⟨fun hn => ?_, fun _ => ⟨hm.1, rfl⟩⟩, hm.2 ▸ hr⟩
      obtain ⟨w, hw'⟩ := hok.2 hn
      rw [hw] at hw'; cases hw'
  | wordLength x =>
    obtain ⟨t, ht⟩ := hc
    obtain ⟨w, hw, hrel⟩ := hr.word ht
    obtain ⟨rfl, w', hw', rfl⟩ := hm
    cases holds_same hw hw'
    exact ⟨k, ⟨rfl, t, w, ht, lower_of hrel.2, rfl⟩, hr⟩
  | wordAsUtf8 x n =>
    obtain ⟨t, ht, hn⟩ := hc
    obtain ⟨w, hw, hrel⟩ := hr.word ht
    obtain ⟨rfl, w', hw', hm⟩ := hm
    cases holds_same hw hw'
    obtain ⟨s, ⟨cps, h1, h2⟩, h3⟩ := text_exists hrel.2
    obtain ⟨ha, hb, _⟩ := Props.C05_partial w cps s h1 h2 n
    refine ⟨k, ⟨rfl, t, s, ht, h3, ?_⟩, hr⟩
    have := hn s h3
    by_cases hl : s.length < n
    · rw [ha hl] at hm; rw [if_pos hl]; exact hm
    · rw [hb (by omega)] at hm; rw [if_neg hl]; exact hm
  | documentNew id => exact hr.made hm (t := .document ⟨id, []⟩) ⟨[], rfl, .nil⟩
  | documentGetId x =>
    obtain ⟨D, hD⟩ := hc
    obtain ⟨d, hd, hrel⟩ := hr.document hD
    obtain ⟨rfl, d', hd', rfl⟩ := hm
    cases holds_same hd hd'
    exact ⟨k, ⟨rfl, D, hD, by rw [hrel.id]⟩, hr⟩
  | documentAddText x y s =>
    obtain ⟨⟨D, hD⟩, ⟨t, ht, hne⟩, hs⟩ := hc
    obtain ⟨d, hd, hrel⟩ := hr.document hD
    obtain ⟨w, hw, hwr⟩ := hr.word ht
    obtain ⟨rfl, d', w', hd', hw', hm⟩ := hm
    cases holds_same hd hd'
    cases holds_same hw hw'
    obtain ⟨_, _, hgood, hbad⟩ := Props.C11_split s
    by_cases hwf : WellFormed s
    · obtain ⟨ws, hws, _⟩ := hgood hwf
      simp only [Document.addTextUtf8, hws, ok_bind] at hm
      obtain ⟨hist, rfl, hf⟩ := hrel
      obtain ⟨k', h1, h2⟩ := hr.changed hm (t := .document ⟨D.id, D.texts ++ [(t, s)]⟩)
        ⟨hist ++ [(w, ws)], (documentOf_snoc D.id hist (w, ws)).symm, List.rel_append hf (.cons ⟨hwr, hne, hs, hws⟩ .nil)⟩
      exact ⟨k', ⟨rfl, D, t, hD, ht, fun _ => h1, fun h => absurd hwf h⟩, h2⟩
    · simp only [Document.addTextUtf8, hbad hwf, error_bind] at hm
      exact ⟨k, ⟨rfl, D, t, hD, ht, fun h => absurd h hwf, fun _ => rfl⟩, hm ▸ hr⟩
  | matcherNew os =>
    simp only [CCall.Mirrors] at hm
    rcases MInv.new os with ⟨h1, h2⟩ | ⟨m, h1, _⟩
    · rw [h2] at hm
      exact ⟨k, ⟨fun h => absurd (h1.symm.trans h) (by simp), fun _ => ⟨hm.1, rfl⟩⟩, hm.2 ▸ hr⟩
    · rw [h1] at hm
      obtain ⟨h1024, he, hw⟩ := new_facts h1
      obtain ⟨k', h3, h4⟩ := hr.made hm (t := .matcher os [] [] []) ⟨⟨[], .nil, .new h1⟩, he, by simp, [], hw, .nil⟩
      exact ⟨k', ⟨fun _ => h3, fun h => absurd (h1024.symm.trans h) (by simp)⟩, h4⟩
  | matcherIndex x y =>
    obtain ⟨os, ds, ops, ws, cs, h1, h2, h3⟩ := hc
    obtain ⟨m, hm1, hmr⟩ := hr.matcher h1
    obtain ⟨c, hc1, hcr⟩ := hr.corpus h2
    obtain ⟨rfl, m', c', hm', hc', hm⟩ := hm
    cases holds_same hm1 hm'
    cases holds_same hc1 hc'
    obtain ⟨k', h4, h5⟩ := hr.changed hm (t := .matcher os (ds ++ cs) ops ws) (index_rel hmr hcr h3).2
    exact ⟨k', ⟨rfl, os, ds, ops, ws, cs, h1, h2, h4⟩, h5⟩
  | matcherMatch x s =>
    obtain ⟨⟨os, ds, ops, ws, ht⟩, hs⟩ := hc
    obtain ⟨m, hm1, hmr⟩ := hr.matcher ht
    obtain ⟨m', h1, hm', hch, hm⟩ := hm
    cases holds_same hm1 hm'
    obtain ⟨D, hD, hran⟩ := hmr.docs
    obtain ⟨hb, hg⟩ := search_lists hran hD hmr.e hmr.preset hs
    by_cases hwf : WellFormed s
    · obtain ⟨res, l, h2, h3, h4, _⟩ := hg hwf
      rw [h2] at hch hm
      have hr1 := hr.same ht hch hmr
      obtain ⟨k', h5, h6⟩ := hr1.made hm (t := .results ((rank l).map (·.2))) ⟨l, h3, rfl⟩
      exact ⟨k', ⟨os, ds, ops, ws, ht, fun _ => ⟨_, h4, h5⟩, fun h => absurd hwf h⟩, h6⟩
    · rw [hb hwf] at hch hm
      have hr1 := hr.same ht hch hmr
      exact ⟨k, ⟨os, ds, ops, ws, ht, fun h => absurd h hwf, fun _ => ⟨hm.1, rfl⟩⟩, hm.2 ▸ hr1⟩
  | matcherGetErrorValues x => obtain ⟨rfl, n, h1, h2⟩ := hm; exact ⟨k, ⟨rfl, n, h1, h2⟩, hr⟩
  | matcherGetIndexWeights x => obtain ⟨rfl, n, h1, h2⟩ := hm; exact ⟨k, ⟨rfl, n, h1, h2⟩, hr⟩
  | matchResultsNew => exact hr.made hm (t := .results []) ⟨[], .new, by simp [rank]⟩
  | matchResultsSize x =>
    obtain ⟨ids, hx⟩ := hc
    obtain ⟨res, l, hh, hf, rfl⟩ := hr.results hx
    obtain ⟨rfl, res', hh', rfl⟩ := hm
    cases holds_same hh hh'
    refine ⟨k, ⟨rfl, _, hx, ?_⟩, hr⟩
    rw [List.length_map, rank_length, MatchResults.size, (filled_inv hf).length]
  | matchResultsGetId x i =>
    obtain ⟨ids, hx⟩ := hc
    obtain ⟨res, l, hh, hf, rfl⟩ := hr.results hx
    obtain ⟨res', hh', hm⟩ := hm
    cases holds_same hh hh'
    have hget := (filled_inv hf).getDocumentID i
    cases hg : (rank l)[i]? with
    | none =>
      rw [hg] at hget
      rw [hget] at hm
      exact ⟨k, ⟨rfl, _, hx, by rw [List.getElem?_map, hg]; exact hm.1⟩, hm.2 ▸ hr⟩
    | some y =>
      rw [hg] at hget
      rw [hget] at hm
      exact ⟨k, ⟨rfl, _, hx, by rw [List.getElem?_map, hg]; exact hm.1⟩, hr.same hx hm.2 ⟨l, .readID hf hget, rfl⟩⟩
  | matchResultsGetRelevancy x i => exact absurd trivial hrel
  | corpusNew => exact hr.made hm (t := .corpus []) .nil
  | corpusAddDocument x y =>
    obtain ⟨⟨cs, h1⟩, D, h2⟩ := hc
    obtain ⟨c, hc, hcr⟩ := hr.corpus h1
    obtain ⟨d, hd, hdr⟩ := hr.document h2
    obtain ⟨rfl, c', d', hc', hd', hm⟩ := hm
    cases holds_same hc hc'
    cases holds_same hd hd'
    obtain ⟨k', h3, h4⟩ := hr.changed hm (t := .corpus (cs ++ [D])) (List.rel_append hcr (.cons hdr .nil))
    exact ⟨k', ⟨rfl, cs, D, h1, h2, h3⟩, h4⟩
  | addStandardErrors data x =>
    obtain ⟨n, os, ds, ops, ws, rfl, ht⟩ := hc
    obtain ⟨m, hm1, hmr⟩ := hr.matcher ht
    obtain ⟨rfl, n', m', en, hm', hm⟩ := hm
    cases en
    cases holds_same hm1 hm'
    obtain ⟨D, hD, hran⟩ := hmr.docs
    obtain ⟨k', h3, h4⟩ := hr.changed hm (t := .matcher os ds (ops ++ [.addStandardErrors data]) ws)
      ⟨⟨D, hD, .errors (.addStandardErrors data) hran⟩, by rw [afterOps_snoc, ← hmr.e]; rfl,
        fun op hop => (List.mem_append.1 hop).elim (hmr.preset op) fun h => by rw [List.mem_singleton.1 h]; trivial, hmr.weights⟩
    exact ⟨k', ⟨rfl, n, os, ds, ops, ws, rfl, ht, h3⟩, h4⟩
  | setSubstringMode x =>
    obtain ⟨n, os, ds, ops, ws, rfl, ht⟩ := hc
    obtain ⟨m, hm1, hmr⟩ := hr.matcher ht
    obtain ⟨rfl, n', m', en, hm', hm⟩ := hm
    cases en
    cases holds_same hm1 hm'
    obtain ⟨D, hD, hran⟩ := hmr.docs
    obtain ⟨k', h3, h4⟩ := hr.changed hm (t := .matcher os ds (ops ++ [.setSubstringMode]) ws)
      ⟨⟨D, hD, .errors .setSubstringMode hran⟩, by rw [afterOps_snoc, ← hmr.e]; rfl,
        fun op hop => (List.mem_append.1 hop).elim (hmr.preset op) fun h => by rw [List.mem_singleton.1 h]; trivial, hmr.weights⟩
    exact ⟨k', ⟨rfl, n, os, ds, ops, ws, rfl, ht, h3⟩, h4⟩
  | setWeight x y v =>
    obtain ⟨⟨n, os, ds, ops, ws, rfl, ht⟩, t, h2⟩ := hc
    obtain ⟨m, hm1, hmr⟩ := hr.matcher ht
    obtain ⟨w, hw, hwr⟩ := hr.word h2
    obtain ⟨rfl, n', m', w', en, hm', hw', hm⟩ := hm
    cases en
    cases holds_same hm1 hm'
    cases holds_same hw hw'
    obtain ⟨D, hD, hran⟩ := hmr.docs
    obtain ⟨hw0, hwe, hwf⟩ := hmr.weights
    obtain ⟨k', h3, h4⟩ := hr.changed hm (t := .matcher os ds ops (ws ++ [(t, v)]))
      ⟨⟨D, hD, .weight w v hran⟩, hmr.e, hmr.preset, hw0 ++ [(w, v)], by rw [weightsOf, List.foldl_append, ← weightsOf, ← hwe]; rfl,
        List.rel_append hwf (.cons ⟨hwr.2, rfl⟩ .nil)⟩
    exact ⟨k', ⟨rfl, n, os, ds, ops, ws, t, rfl, ht, h2, h3⟩, h4⟩
  | getWeight x y =>
    obtain ⟨⟨n, os, ds, ops, ws, rfl, ht⟩, t, h2⟩ := hc
    obtain ⟨m, hm1, hmr⟩ := hr.matcher ht
    obtain ⟨w, hw, hwr⟩ := hr.word h2
    obtain ⟨rfl, n', m', w', en, hm', hw', hm⟩ := hm
    cases en
    cases holds_same hm1 hm'
    cases holds_same hw hw'
    obtain ⟨hw0, hwe, hwf⟩ := hmr.weights
    exact ⟨k, ⟨rfl, n, os, ds, ops, ws, t, _, rfl, ht, h2, hwe ▸ weight_is hwf hwr.2, hm⟩, hr⟩
  | wordDelete x => obtain ⟨k', h1, h2⟩ := hr.gone hm.2; exact ⟨k', ⟨hm.1, h1⟩, h2⟩
  | documentDelete x => obtain ⟨k', h1, h2⟩ := hr.gone hm.2; exact ⟨k', ⟨hm.1, h1⟩, h2⟩
  | matcherDelete x => obtain ⟨k', h1, h2⟩ := hr.gone hm.2; exact ⟨k', ⟨hm.1, h1⟩, h2⟩
  | matchResultsDelete x => obtain ⟨k', h1, h2⟩ := hr.gone hm.2; exact ⟨k', ⟨hm.1, h1⟩, h2⟩
  | corpusDelete x => obtain ⟨k', h1, h2⟩ := hr.gone hm.2; exact ⟨k', ⟨hm.1, h1⟩, h2⟩

/-! ### Two ways to explain the same program -/

/-- What is known is the same, but for the order of results. -/
def Agree (a b : Thing) : Prop := a = b ∨ ∃ i j, a = .results i ∧ b = .results j ∧ i.Perm j

def KAgree (k k0 : Known) : Prop := List.Forall₂ (Option.Rel Agree) k k0

omit [Build] [Icu] [Runtime] [Fp] in
theorem is_same {k : Known} {x : Handle} {t t' : Thing} (h : k.Is x t) (h' : k.Is x t') : t = t' := by
  obtain ⟨n, rfl, hn⟩ := h
  obtain ⟨_, ⟨⟩, hn'⟩ := h'
  rw [hn] at hn'; cases hn'; rfl

omit [Build] [Icu] [Runtime] [Fp] in
theorem KAgree.is {k k0 : Known} (h : KAgree k k0) {x : Handle} {t : Thing} (hx : k.Is x t) : ∃ t', k0.Is x t' ∧ Agree t t' := by
  obtain ⟨n, rfl, hn⟩ := hx
  have := forall₂_get h n
  rw [hn] at this
  generalize hg : k0[n]? = o at this
  cases this with
  | some h =>
    cases h with
    | some h => exact ⟨_, ⟨n, rfl, hg⟩, h⟩

omit [Build] [Icu] [Runtime] [Fp] in
theorem KAgree.word {k k0 : Known} (h : KAgree k k0) {x : Handle} {t} (hx : k.Is x (.word t)) : k0.Is x (.word t) := by
  obtain ⟨t', h1, rfl | ⟨_, _, h2, _⟩⟩ := h.is hx
  · exact h1
  · cases h2

omit [Build] [Icu] [Runtime] [Fp] in
theorem KAgree.document {k k0 : Known} (h : KAgree k k0) {x : Handle} {t} (hx : k.Is x (.document t)) : k0.Is x (.document t) := by
  obtain ⟨t', h1, rfl | ⟨_, _, h2, _⟩⟩ := h.is hx
  · exact h1
  · cases h2

omit [Build] [Icu] [Runtime] [Fp] in
theorem KAgree.corpus {k k0 : Known} (h : KAgree k k0) {x : Handle} {t} (hx : k.Is x (.corpus t)) : k0.Is x (.corpus t) := by
  obtain ⟨t', h1, rfl | ⟨_, _, h2, _⟩⟩ := h.is hx
  · exact h1
  · cases h2

omit [Build] [Icu] [Runtime] [Fp] in
theorem KAgree.matcher {k k0 : Known} (h : KAgree k k0) {x : Handle} {os ds ops ws} (hx : k.Is x (.matcher os ds ops ws)) :
    k0.Is x (.matcher os ds ops ws) := by
  obtain ⟨t', h1, rfl | ⟨_, _, h2, _⟩⟩ := h.is hx
  · exact h1
  · cases h2

omit [Build] [Icu] [Runtime] [Fp] in
theorem KAgree.results {k k0 : Known} (h : KAgree k k0) {x : Handle} {i} (hx : k.Is x (.results i)) : ∃ j, k0.Is x (.results j) := by
  obtain ⟨t', h1, rfl | ⟨_, _, _, rfl, _⟩⟩ := h.is hx
  · exact ⟨_, h1⟩
  · exact ⟨_, h1⟩

omit [Build] [Runtime] [Fp] in
theorem KAgree.allows {k k0 : Known} (h : KAgree k k0) {c : CCall} (hc : k.Allows c) : k0.Allows c := by
  cases c with
  | wordNew s => exact hc
  | wordDelete x => exact hc.imp id fun ⟨t, ht⟩ => ⟨t, h.word ht⟩
  | wordLength x => obtain ⟨t, ht⟩ := hc; exact ⟨t, h.word ht⟩
  | wordAsUtf8 x n => obtain ⟨t, ht, hn⟩ := hc; exact ⟨t, h.word ht, hn⟩
  | documentNew id => trivial
  | documentDelete x => exact hc.imp id fun ⟨t, ht⟩ => ⟨t, h.document ht⟩
  | documentGetId x => obtain ⟨t, ht⟩ := hc; exact ⟨t, h.document ht⟩
  | documentAddText x y s => obtain ⟨⟨D, hD⟩, ⟨t, ht, h1⟩, hs⟩ := hc; exact ⟨⟨D, h.document hD⟩, ⟨t, h.word ht, h1⟩, hs⟩
  | matcherNew os => trivial
  | matcherDelete x => exact hc.imp id fun ⟨os, ds, ops, ws, ht⟩ => ⟨os, ds, ops, ws, h.matcher ht⟩
  | matcherIndex x y => obtain ⟨os, ds, ops, ws, cs, h1, h2, h3⟩ := hc; exact ⟨os, ds, ops, ws, cs, h.matcher h1, h.corpus h2, h3⟩
  | matcherMatch x s => obtain ⟨⟨os, ds, ops, ws, h1⟩, h2⟩ := hc; exact ⟨⟨os, ds, ops, ws, h.matcher h1⟩, h2⟩
  | matcherGetErrorValues x => obtain ⟨os, ds, ops, ws, h1⟩ := hc; exact ⟨os, ds, ops, ws, h.matcher h1⟩
  | matcherGetIndexWeights x => obtain ⟨os, ds, ops, ws, h1⟩ := hc; exact ⟨os, ds, ops, ws, h.matcher h1⟩
  | matchResultsNew => trivial
  | matchResultsDelete x => exact hc.imp id fun ⟨t, ht⟩ => h.results ht
  | matchResultsSize x => obtain ⟨t, ht⟩ := hc; exact h.results ht
  | matchResultsGetId x i => obtain ⟨t, ht⟩ := hc; exact h.results ht
  | matchResultsGetRelevancy x i => obtain ⟨t, ht⟩ := hc; exact h.results ht
  | corpusNew => trivial
  | corpusDelete x => exact hc.imp id fun ⟨t, ht⟩ => ⟨t, h.corpus ht⟩
  | corpusAddDocument x y => obtain ⟨⟨cs, h1⟩, D, h2⟩ := hc; exact ⟨⟨cs, h.corpus h1⟩, D, h.document h2⟩
  | addStandardErrors data x => obtain ⟨n, os, ds, ops, ws, e, h1⟩ := hc; exact ⟨n, os, ds, ops, ws, e, h.matcher h1⟩
  | setSubstringMode x => obtain ⟨n, os, ds, ops, ws, e, h1⟩ := hc; exact ⟨n, os, ds, ops, ws, e, h.matcher h1⟩
  | setWeight x y v => obtain ⟨⟨n, os, ds, ops, ws, e, h1⟩, t, h2⟩ := hc; exact ⟨⟨n, os, ds, ops, ws, e, h.matcher h1⟩, t, h.word h2⟩
  | getWeight x y => obtain ⟨⟨n, os, ds, ops, ws, e, h1⟩, t, h2⟩ := hc; exact ⟨⟨n, os, ds, ops, ws, e, h.matcher h1⟩, t, h.word h2⟩

omit [Build] [Icu] [Runtime] [Fp] in
theorem KAgree.new {k k0 k' k0' : Known} (h : KAgree k k0) {r r0 : CRet} {t t0 : Thing} (ht : Agree t t0) (h1 : k.New k' r t)
    (h2 : k0.New k0' r0 t0) : KAgree k' k0' := by
  obtain ⟨_, rfl⟩ := h1
  obtain ⟨_, rfl⟩ := h2
  exact List.rel_append h (.cons (.some ht) .nil)

omit [Build] [Icu] [Runtime] [Fp] in
theorem KAgree.now {k k0 k' k0' : Known} (h : KAgree k k0) {x : Handle} {t : Thing} (h1 : k.Now k' x t)
    (h2 : k0.Now k0' x t) : KAgree k' k0' := by
  obtain ⟨n, rfl, rfl⟩ := h1
  obtain ⟨_, ⟨⟩, rfl⟩ := h2
  exact forall₂_set h n (.some (Or.inl rfl))

omit [Build] [Icu] [Runtime] [Fp] in
theorem KAgree.gone {k k0 k' k0' : Known} (h : KAgree k k0) {x : Handle} (h1 : k.Gone k' x) (h2 : k0.Gone k0' x) : KAgree k' k0' := by
  rcases h1 with ⟨rfl, rfl⟩ | ⟨n, rfl, rfl⟩
  · rcases h2 with ⟨_, rfl⟩ | ⟨n, e, _⟩
    · exact h
    · cases e
  · rcases h2 with ⟨e, _⟩ | ⟨_, ⟨⟩, rfl⟩
    · cases e
    · exact forall₂_set h n .none

omit [Runtime] in
theorem KAgree.learns {k k0 k' k0' : Known} (h : KAgree k k0) {c : CCall} {r r0 : CRet} (h1 : k.Learns c r k') (h2 : k0.Learns c r0 k0') :
    KAgree k' k0' := by
  cases c with
  | wordNew s =>
    by_cases hs : WellFormed s ∧ ∀ b ∈ s, ¬ IsBlank b
    · exact h.new (Or.inl rfl) (h1.1 hs) (h2.1 hs)
    · rw [(h1.2 hs).2, (h2.2 hs).2]; exact h
  | wordLength x => rw [h1.1, h2.1]; exact h
  | wordAsUtf8 x n => rw [h1.1, h2.1]; exact h
  | documentNew id => exact h.new (Or.inl rfl) h1 h2
  | documentGetId x => rw [h1.1, h2.1]; exact h
  | documentAddText x y s =>
    obtain ⟨_, d, t, a1, a2, a3, a4⟩ := h1
    obtain ⟨_, d0, t0, b1, b2, b3, b4⟩ := h2
    cases is_same (h.document a1) b1
    cases is_same (h.word a2) b2
    by_cases hs : WellFormed s
    · exact h.now (a3 hs) (b3 hs)
    · rw [a4 hs, b4 hs]; exact h
  | matcherNew os =>
    cases ho : os 1024 with
    | true => exact h.new (Or.inl rfl) (h1.1 ho) (h2.1 ho)
    | false => rw [(h1.2 ho).2, (h2.2 ho).2]; exact h
  | matcherIndex x y =>
    obtain ⟨_, os, ds, ops, ws, cs, a1, a2, a3⟩ := h1
    obtain ⟨_, os0, ds0, ops0, ws0, cs0, b1, b2, b3⟩ := h2
    cases is_same (h.matcher a1) b1
    cases is_same (h.corpus a2) b2
    exact h.now a3 b3
  | matcherMatch x s =>
    obtain ⟨os, ds, ops, ws, a1, a2, a3⟩ := h1
    obtain ⟨os0, ds0, ops0, ws0, b1, b2, b3⟩ := h2
    cases is_same (h.matcher a1) b1
    by_cases hs : WellFormed s
    · obtain ⟨i, hi, ai⟩ := a2 hs
      obtain ⟨j, hj, bj⟩ := b2 hs
      have hp : i.Perm j := (List.perm_ext_iff_of_nodup hi.1 hj.1).2 fun d => (hi.2 d).trans (hj.2 d).symm
      exact h.new (Or.inr ⟨i, j, rfl, rfl, hp⟩) ai bj
    · rw [(a3 hs).2, (b3 hs).2]; exact h
  | matcherGetErrorValues x => rw [h1.1, h2.1]; exact h
  | matcherGetIndexWeights x => rw [h1.1, h2.1]; exact h
  | matchResultsNew => exact h.new (Or.inl rfl) h1 h2
  | matchResultsSize x => rw [h1.1, h2.1]; exact h
  | matchResultsGetId x i => rw [h1.1, h2.1]; exact h
  | matchResultsGetRelevancy x i => rw [h1.1, h2.1]; exact h
  | corpusNew => exact h.new (Or.inl rfl) h1 h2
  | corpusAddDocument x y =>
    obtain ⟨_, cs, d, a1, a2, a3⟩ := h1
    obtain ⟨_, cs0, d0, b1, b2, b3⟩ := h2
    cases is_same (h.corpus a1) b1
    cases is_same (h.document a2) b2
    exact h.now a3 b3
  | addStandardErrors data x =>
    obtain ⟨_, n, os, ds, ops, ws, rfl, a1, a2⟩ := h1
    obtain ⟨_, n0, os0, ds0, ops0, ws0, e0, b1, b2⟩ := h2
    cases e0
    cases is_same (h.matcher a1) b1
    exact h.now a2 b2
  | setSubstringMode x =>
    obtain ⟨_, n, os, ds, ops, ws, rfl, a1, a2⟩ := h1
    obtain ⟨_, n0, os0, ds0, ops0, ws0, e0, b1, b2⟩ := h2
    cases e0
    cases is_same (h.matcher a1) b1
    exact h.now a2 b2
  | setWeight x y v =>
    obtain ⟨_, n, os, ds, ops, ws, t, rfl, a1, a2, a3⟩ := h1
    obtain ⟨_, n0, os0, ds0, ops0, ws0, t0, e0, b1, b2, b3⟩ := h2
    cases e0
    cases is_same (h.matcher a1) b1
    cases is_same (h.word a2) b2
    exact h.now a3 b3
  | getWeight x y => rw [h1.1, h2.1]; exact h
  | wordDelete x => exact h.gone h1.2 h2.2
  | documentDelete x => exact h.gone h1.2 h2.2
  | matcherDelete x => exact h.gone h1.2 h2.2
  | matchResultsDelete x => exact h.gone h1.2 h2.2
  | corpusDelete x => exact h.gone h1.2 h2.2

omit [Runtime] in
theorem explains_snoc {cs : List (CCall × CRet)} {x : CCall × CRet} {k' : Known} (h : Explains (cs ++ [x]) k') :
    ∃ k, Explains cs k ∧ k.Allows x.1 ∧ k.Learns x.1 x.2 k' := by
  generalize hl : cs ++ [x] = l at h
  cases h with
  | start => simp at hl
  | call h1 h2 h3 =>
    have e1 := List.append_inj_left' hl rfl
    have e2 := List.append_inj_right' hl rfl
    simp only [List.cons.injEq, and_true] at e2
    subst e1 e2
    exact ⟨_, h1, h2, h3⟩

omit [Runtime] in
theorem explains_nil {k : Known} (h : Explains [] k) : k = [] := by
  generalize hl : ([] : List (CCall × CRet)) = l at h
  cases h with
  | start => rfl
  | call _ _ _ => simp at hl

omit [Runtime] in
theorem explains_agree {cs : List (CCall × CRet)} {k k0 : Known} (h : Explains cs k) (h0 : Explains cs k0) : KAgree k k0 := by
  induction h generalizing k0 with
  | start => rw [explains_nil h0]; exact .nil
  | call _ _ hl ih =>
    obtain ⟨k1, a1, _, a3⟩ := explains_snoc h0
    exact (ih a1).learns hl a3

/-- An allowed call. -/
theorem step {h : Heap} {k : Known} (hr : HeapRel h k) {c : CCall} (hc : k.Allows c) :
    ∃ h' r k', c.run h = .ok (h', r) ∧ k.Learns c r k' ∧ HeapRel h' k' := by
  obtain ⟨h', r, e, _⟩ := call_ok hr.ok (allows_valid hr hc)
  obtain ⟨k', h1, h2⟩ := learns hr hc e
  exact ⟨h', r, k', e, h1, h2⟩

/-- Among the explanations of a program is one that fits the heap. -/
theorem explained {cs : List (CCall × CRet)} {h : Heap} (ht : Trace cs h) : ∀ {k : Known}, Explains cs k →
    ∃ k0, HeapRel h k0 ∧ Explains cs k0 ∧ KAgree k k0 := by
  induction ht with
  | start =>
    intro k hk
    rw [explains_nil hk]
    exact ⟨[], .nil, .start, .nil⟩
  | call _ e ih =>
    intro k' hk
    obtain ⟨k, h1, h2, h3⟩ := explains_snoc hk
    obtain ⟨k0, a1, a2, a3⟩ := ih h1
    have h4 := a3.allows h2
    obtain ⟨k0', b1, b2⟩ := learns a1 h4 e
    exact ⟨k0', b2, .call a2 h4 b1, a3.learns h3 b1⟩

end
end Columbus.CTexts
