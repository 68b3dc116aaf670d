import Verif.Proofs.CTexts
import Verif.Spec.PyModule
/-
The world of a Python program and what the program knows about it.
-/

namespace Columbus.PyModule
open Columbus.Py Columbus.Spec.Py CTexts Apps QueryIndex
open Columbus.Spec hiding Thing Known Trace Explains Call

/-! ### Texts -/

theorem seen_cut (s : Bytes) : Seen s (cut s) := by
  constructor
  · intro h
    have := List.all_eq_true.1 (List.all_takeWhile (p := (· != 0)) (l := s)) 0 h
    simp at this
  · have e : cut s ++ s.dropWhile (· != 0) = s := List.takeWhile_append_dropWhile
    cases hd : s.dropWhile (· != 0) with
    | nil => rw [hd, List.append_nil] at e; exact Or.inl e.symm
    | cons b u =>
      have hb : (b != 0) = false := by
        have h1 := List.head?_dropWhile_not (· != 0) s
        rw [hd] at h1
        simpa using h1
      simp only [bne_eq_false_iff_eq] at hb
      subst hb
      rw [hd] at e
      exact Or.inr ⟨u, e.symm⟩

theorem seen_eq {s t : Bytes} (h : Seen s t) : t = cut s := by
  obtain ⟨h0, rfl | ⟨u, rfl⟩⟩ := h
  · rw [cut]
    exact (takeWhile_all fun x hx => by simp only [bne_iff_ne, ne_eq]; rintro rfl; exact h0 hx).symm
  · rw [cut, List.takeWhile_append_of_pos (fun x hx => by simp only [bne_iff_ne, ne_eq]; rintro rfl; exact h0 hx)]
    simp

theorem cut_cstring {s : Bytes} (h : ∀ t, Seen s t → Known.Short t) : CString (cut s) := ⟨(seen_cut s).1, h _ (seen_cut s)⟩

/-- A word more. -/
theorem tokens_more {t : Bytes} {ts : List Bytes} (h : Tokens t ts) {u : Bytes} (hu : u ≠ []) (hb : ∀ b ∈ u, ¬ IsBlank b) :
    Tokens (t ++ 0x20 :: u) (ts ++ [u]) := by
  have h20 : IsBlank 0x20 := by decide
  unfold Tokens at *
  induction h with
  | done hp =>
    rename_i p
    have := TokensBy.tok (S := IsBlank) (p := p ++ [0x20]) (t := u) (r := []) (ts := [])
      (fun b hb' => by
        rcases List.mem_append.1 hb' with h | h
        · exact hp b h
        · rw [List.mem_singleton.1 h]; exact h20) hu hb (by simp) (.done (by simp))
    simpa using this
  | tok hp ht hn hr _ ih =>
    rename_i p t r ts _
    have e : p ++ t ++ r ++ 0x20 :: u = p ++ t ++ (r ++ 0x20 :: u) := by simp
    rw [e]
    refine TokensBy.tok hp ht hn ?_ ih
    intro b hb'
    cases r with
    | nil => simp at hb'; rw [← hb']; exact h20
    | cons c r => exact hr b (by simpa using hb')

theorem sorted_eq {V : Type} {a b : SMap Word V} (ha : SMap.Sorted Word.lt a) (hb : SMap.Sorted Word.lt b)
    (h : ∀ k, SMap.find Word.lt a k = SMap.find Word.lt b k) : a = b := by
  have ha' := ha
  have hb' := hb
  unfold SMap.Sorted at ha hb
  rw [List.pairwise_map] at ha hb
  refine eq_of_sorted (r := fun x y : Word × V => Word.lt x.1 y.1 = true) ?_ ?_ ha hb ?_
  · intro x; rw [strict_wordLt.irrefl]; simp
  · intro x y h1 h2
    have := trans_wordLt _ _ _ h1 h2
    rw [strict_wordLt.irrefl] at this; cases this
  · rintro ⟨k, v⟩
    rw [← SMap.find_some_iff strict_wordLt ha', ← SMap.find_some_iff strict_wordLt hb', h]

theorem find_map {V W : Type} (g : V → W) (m : SMap Word V) (f : Word) :
    SMap.find Word.lt (m.map fun p => (p.1, g p.2)) f = (SMap.find Word.lt m f).map g := by
  induction m with
  | nil => rfl
  | cons p m ih =>
    simp only [List.map_cons, SMap.find, ih]
    split <;> rfl

theorem set_map {V W : Type} (g : V → W) (m : SMap Word V) (f : Word) (v : V) :
    (SMap.set Word.lt m f v).map (fun p => (p.1, g p.2)) = SMap.set Word.lt (m.map fun p => (p.1, g p.2)) f (g v) := by
  induction m with
  | nil => rfl
  | cons p m ih =>
    simp only [List.map_cons, SMap.set]
    split
    · simp only [List.map_cons, ih]
    · split <;> rfl

theorem lastText_other {pre post : List (Word × WordList)} {f x : Word} (hx : x ≠ f) (a b : WordList) :
    lastText (pre ++ (f, a) :: post) x = lastText (pre ++ (f, b) :: post) x := by
  have hfx : (f == x) = false := by simpa using fun h : f = x => hx h.symm
  simp only [lastText, List.reverse_append, List.reverse_cons, List.append_assoc, List.find?_append]
  simp [hfx]

section
variable [Build] [Icu]

theorem wordRel_words {t : Bytes} {ts : List Bytes} (ht : Tokens t ts) (hs : CString t) {ws : List Word} (h : splitToWords t = .ok ws) :
    List.Forall₂ WordRel ws ts := by
  rw [splitToWords_tokens ht, wordsOf_ok] at h
  have hsub := tokens_sub ht
  clear ht
  induction h with
  | nil => exact .nil
  | cons h1 _ ih =>
    refine .cons ⟨⟨?_, ?_⟩, h1⟩ (ih fun t ht => hsub t (by simp [ht]))
    · intro h0; exact hs.1 ((hsub _ (by simp)).2 0 h0)
    · exact (hsub _ (by simp)).1.trans hs.2

theorem split_more {t u : Bytes} {ws : List Word} {w : Word} (h : splitToWords t = .ok ws) (hw : Word.ofUtf8 u = .ok w) (hu : u ≠ []) :
    splitToWords (t ++ 0x20 :: u) = .ok (ws ++ [w]) := by
  obtain ⟨ts, ht⟩ := tokens_exists t
  rw [splitToWords_tokens ht, wordsOf_ok] at h
  rw [splitToWords_tokens (tokens_more ht hu ((ofUtf8_ok_iff u w).1 hw).1), wordsOf_ok]
  exact List.rel_append h (.cons hw .nil)

theorem letters_iff {t : Bytes} {w f : Word} (h : Word.ofUtf8 t = .ok w) : LowerLetters t f ↔ w = f := by
  rw [lowerLetters_iff ((ofUtf8_ok_iff t w).1 h).1, h]
  constructor
  · intro e; cases e; rfl
  · rintro rfl; rfl

/-- The text of a field. -/
theorem field_find {d : Document} {D : Described} (h : DocRel d D) {f : Word} {g t : Bytes} (hf : D.Field f g t) :
    ∃ ws, SMap.find Word.lt d.texts f = some ws ∧ splitToWords t = .ok ws ∧ CString t ∧ Word.ofUtf8 g = .ok f := by
  obtain ⟨hist, rfl, hr⟩ := h
  obtain ⟨pre, post, e, hg, hp⟩ := hf
  have hr' := hr.flip
  rw [e] at hr'
  obtain ⟨pre', p, post', rfl, h1, hpost⟩ := forall₂_split hr'
  have h1 : TextRel p (g, t) := h1
  have hpf : p.1 = f := (letters_iff h1.name.2).1 hg
  refine ⟨p.2, ?_, h1.words, h1.text, hpf ▸ h1.name.2⟩
  rw [documentOf_find, lastText, last_iff]
  refine ⟨pre', post', by rw [← hpf], ?_⟩
  intro q hq hqf
  obtain ⟨u, hu, hur⟩ := forall₂_right hpost hq
  have hur : TextRel q u := hur
  exact hp u hu ((letters_iff hur.name.2).2 hqf)

theorem find_field {d : Document} {D : Described} (h : DocRel d D) {f : Word} {ws : WordList} (hf : SMap.find Word.lt d.texts f = some ws) :
    ∃ g t, D.Field f g t := by
  obtain ⟨hist, rfl, hr⟩ := h
  rw [documentOf_find, lastText, last_iff] at hf
  obtain ⟨pre, post, rfl, hp⟩ := hf
  obtain ⟨pre', t, post', e, h1, hpost⟩ := forall₂_split hr
  refine ⟨t.1, t.2, pre', post', e, (letters_iff h1.name.2).2 rfl, ?_⟩
  intro q hq hl
  obtain ⟨p, hpm, hpr⟩ := forall₂_right hpost hq
  exact hp p hpm ((letters_iff hpr.name.2).1 hl)

omit [Build] [Icu] in
theorem forall₂_split' {α β : Type} {R : α → β → Prop} {a : List α} {pre : List β} {x : β} {post : List β}
    (h : List.Forall₂ R a (pre ++ x :: post)) :
    ∃ pre' y post', a = pre' ++ y :: post' ∧ List.Forall₂ R pre' pre ∧ R y x ∧ List.Forall₂ R post' post := by
  induction pre generalizing a with
  | nil => cases h with | cons h1 h2 => exact ⟨[], _, _, rfl, .nil, h1, h2⟩
  | cons b pre ih =>
    cases h with
    | cons h1 h2 =>
      obtain ⟨pre', y, post', rfl, h3, h4, h5⟩ := ih h2
      exact ⟨_ :: pre', y, post', rfl, .cons h1 h3, h4, h5⟩

theorem doc_replaced {d : Document} {D D' : Described} (h : DocRel d D) {f : Word} {t t' : Bytes} (hr : D.Replaced D' f t t')
    {ws : WordList} (hs : splitToWords t' = .ok ws) (hc : CString t') : DocRel ⟨d.id, SMap.set Word.lt d.texts f ws⟩ D' := by
  obtain ⟨hist, rfl, hf⟩ := h
  obtain ⟨pre, g, post, e, hg, hp, rfl⟩ := hr
  rw [e] at hf
  obtain ⟨pre', p, post', rfl, h1, h2, h3⟩ := forall₂_split' hf
  have hpf : p.1 = f := (letters_iff h2.name.2).1 hg
  refine ⟨pre' ++ (f, ws) :: post', ?_, List.rel_append h1 (.cons ⟨hpf ▸ h2.name, h2.full, hc, hs⟩ h3)⟩
  have hn : ∀ q ∈ post', q.1 ≠ f := by
    intro q hq hqf
    obtain ⟨u, hu, hur⟩ := forall₂_left h3 hq
    exact hp u hu ((letters_iff hur.name.2).2 hqf)
  have ht : SMap.set Word.lt (documentOf D.id (pre' ++ p :: post')).texts f ws =
      (documentOf D.id (pre' ++ (f, ws) :: post')).texts := by
    apply sorted_eq (SMap.sorted_set strict_wordLt trans_wordLt (documentOf_sorted _ _) _ _) (documentOf_sorted _ _)
    intro x
    rw [SMap.find_set strict_wordLt, documentOf_find, documentOf_find]
    split
    · rename_i hx
      subst hx
      exact ((last_iff _ _ _).2 ⟨pre', post', rfl, hn⟩).symm
    · rename_i hx
      obtain ⟨p1, p2⟩ := p
      simp only at hpf
      subst hpf
      exact lastText_other (fun h => hx h.symm) _ _
  rw [ht, documentOf_id]
  generalize hd : documentOf D.id (pre' ++ (f, ws) :: post') = d
  have hid := documentOf_id D.id (pre' ++ (f, ws) :: post')
  rw [hd] at hid
  rw [← hid]

theorem field_count {d : Document} {D : Described} (h : DocRel d D) : Known.FieldCount D d.texts.length := by
  have hs : SMap.Sorted Word.lt d.texts := by obtain ⟨hist, rfl, _⟩ := h; exact documentOf_sorted _ _
  refine ⟨d.texts.map (·.1), SMap.sorted_nodup strict_wordLt hs, by simp, fun f => ?_⟩
  constructor
  · intro hf
    obtain ⟨p, hp, rfl⟩ := List.mem_map.1 hf
    exact find_field h ((SMap.find_some_iff strict_wordLt hs _ _).2 hp)
  · rintro ⟨g, t, hf⟩
    obtain ⟨ws, h1, _⟩ := field_find h hf
    exact List.mem_map.2 ⟨_, (SMap.find_some_iff strict_wordLt hs _ _).1 h1, rfl⟩

theorem asUtf8_lower {t : Bytes} {w : Word} (h : WordRel w t) : ∃ s, Word.asUtf8 w = .ok s ∧ LowerText t s := by
  obtain ⟨s, ⟨cps, h1, _⟩, _⟩ := text_exists h.2
  exact ⟨_, asUtf8_ok' h1 (usable_noNul (wordOk_ofUtf8 h.1 h.2).1),
    (lowerText_iff (lower_of h.2)).2 ⟨_, h1, utf8_encodes (Utf16.scalar h1)⟩⟩

end

/-! ### Worlds -/

/-- The object that has the list, and where. -/
def num : ListRef → Nat
  | .obj n => n
  | .text n _ => n

def sub : ListRef → Option Word
  | .obj _ => none
  | .text _ f => some f

theorem ref_eq {a b : ListRef} (h1 : num a = num b) (h2 : sub a = sub b) : a = b := by
  cases a <;> cases b <;> simp_all [num, sub]

/-- The lists of an object. -/
def part : Obj → Option Word → Option Vec
  | .list v, none => some v
  | .document _ texts, some f => SMap.find Word.lt texts f
  | _, _ => none

theorem obj_ok {w : World} {n : Nat} {o : Obj} (h : w.objs[n]? = some o) : w.obj n = .ok o := by simp [World.obj, h]

theorem vec_ok {w : World} {l : ListRef} {o : Obj} {v : Vec} (h : w.objs[num l]? = some o) (hp : part o (sub l) = some v) :
    w.vec l = .ok v := by
  cases l with
  | obj n =>
    simp only [num] at h
    cases o <;> simp only [part, sub] at hp <;> cases hp
    simp only [World.vec, obj_ok h, ok_bind]
  | text n f =>
    simp only [num] at h
    cases o <;> simp only [part, sub] at hp <;> try cases hp
    simp only [World.vec, World.document, obj_ok h, ok_bind, hp]

section
variable [Build] [Icu] [Runtime] [Fp]

/-- An object and what is known of it. -/
def ObjRel : Obj → Thing → Prop
  | .word w, .word t => WordRel w t
  | .list v, .list ts => List.Forall₂ WordRel v.words ts
  | .document id texts, .document D => DocRel (documentValue id texts) D
  | .corpus c, .corpus cs => List.Forall₂ DocRel c cs
  | .results r, .results l => ∃ a, Filled r a ∧ rank a = l
  | .matcher m, .matcher os ds ops ws => MatcherRel m os ds ops ws
  | .errors e, .errors ops => e = afterOps ops ∧ ∀ op ∈ ops, op.Preset
  | .weights x, .weights ws => ∃ hw, x = weightsOf hw ∧ List.Forall₂ (fun p t => Word.ofUtf8 t.1 = .ok p.1 ∧ p.2 = t.2) hw ws
  | _, _ => False

/-- An item and what is known of it. -/
def ItemRel (w : World) (a : ListRef × Nat × Nat) (b : ListRef × Option Bytes) : Prop :=
  a.1 = b.1 ∧ ∀ t, b.2 = some t → ∃ o v x, w.objs[num a.1]? = some o ∧ part o (sub a.1) = some v ∧ v.place = a.2.2 ∧
    v.words[a.2.1]? = some x ∧ WordRel x t

structure Rel (w : World) (k : Known) : Prop where
  objs : List.Forall₂ ObjRel w.objs k.things
  items : List.Forall₂ (ItemRel w) w.items k.items

theorem Rel.is {w : World} {k : Known} (h : Rel w k) {n : Nat} {t : Thing} (ht : k.Is n t) : ∃ o, w.objs[n]? = some o ∧ ObjRel o t := by
  have := forall₂_get h.objs n
  rw [ht] at this
  generalize w.objs[n]? = o at this
  cases this with
  | some h => exact ⟨_, rfl, h⟩

theorem Rel.document {w : World} {k : Known} (h : Rel w k) {n : Nat} {D : Described} (ht : k.Is n (.document D)) :
    ∃ id texts, w.objs[n]? = some (.document id texts) ∧ w.document n = .ok (id, texts) ∧ DocRel (documentValue id texts) D := by
  obtain ⟨o, h1, h2⟩ := h.is ht
  cases o <;> simp only [ObjRel] at h2
  exact ⟨_, _, h1, by simp only [World.document, obj_ok h1, ok_bind], h2⟩

theorem Rel.corpus {w : World} {k : Known} (h : Rel w k) {n : Nat} {cs : List Described} (ht : k.Is n (.corpus cs)) :
    ∃ c, w.objs[n]? = some (.corpus c) ∧ w.corpus n = .ok c ∧ List.Forall₂ DocRel c cs := by
  obtain ⟨o, h1, h2⟩ := h.is ht
  cases o <;> simp only [ObjRel] at h2
  exact ⟨_, h1, by simp only [World.corpus, obj_ok h1, ok_bind], h2⟩

theorem Rel.results {w : World} {k : Known} (h : Rel w k) {n : Nat} {l : List Result} (ht : k.Is n (.results l)) :
    ∃ r a, w.objs[n]? = some (.results r) ∧ w.results n = .ok r ∧ Filled r a ∧ rank a = l := by
  obtain ⟨o, h1, h2⟩ := h.is ht
  cases o <;> simp only [ObjRel] at h2
  obtain ⟨a, h2, h3⟩ := h2
  exact ⟨_, a, h1, by simp only [World.results, obj_ok h1, ok_bind], h2, h3⟩

theorem Rel.matcher {w : World} {k : Known} (h : Rel w k) {n : Nat} {os ds ops ws} (ht : k.Is n (.matcher os ds ops ws)) :
    ∃ m, w.objs[n]? = some (.matcher m) ∧ w.matcher n = .ok m ∧ MatcherRel m os ds ops ws := by
  obtain ⟨o, h1, h2⟩ := h.is ht
  cases o <;> simp only [ObjRel] at h2
  exact ⟨_, h1, by simp only [World.matcher, obj_ok h1, ok_bind], h2⟩

theorem Rel.list {w : World} {k : Known} (h : Rel w k) {n : Nat} {ts : List Bytes} (ht : k.Is n (.list ts)) :
    ∃ v, w.objs[n]? = some (.list v) ∧ w.vec (.obj n) = .ok v ∧ List.Forall₂ WordRel v.words ts := by
  obtain ⟨o, h1, h2⟩ := h.is ht
  cases o <;> simp only [ObjRel] at h2
  exact ⟨_, h1, vec_ok (l := .obj n) h1 rfl, h2⟩

theorem Rel.word {w : World} {k : Known} (h : Rel w k) {r : WordRef} {t : Bytes} (ht : k.Word r t) : ∃ x, w.word r = .ok x ∧ WordRel x t := by
  cases r with
  | obj n =>
    obtain ⟨o, h1, h2⟩ := h.is ht
    cases o <;> simp only [ObjRel] at h2
    exact ⟨_, by simp only [World.word, obj_ok h1, ok_bind], h2⟩
  | item j =>
    obtain ⟨l, hj⟩ := ht
    have := forall₂_get h.items j
    rw [hj] at this
    generalize hg : w.items[j]? = o at this
    cases this with
    | some hi =>
      rename_i a
      obtain ⟨e, hi⟩ := hi
      obtain ⟨o, v, x, h1, h2, h3, h4, h5⟩ := hi t rfl
      refine ⟨x, ?_, h5⟩
      obtain ⟨a1, a2, a3⟩ := a
      simp only [World.word, hg, vec_ok h1 h2, ok_bind, h3, if_true, h4]

/-- The vector of a field of a document. -/
theorem Rel.field {w : World} {k : Known} (h : Rel w k) {n : Nat} {D : Described} (ht : k.Is n (.document D)) {f : Word} {g t : Bytes}
    (hf : D.Field f g t) : ∃ id texts v, w.objs[n]? = some (.document id texts) ∧ w.document n = .ok (id, texts) ∧
      DocRel (documentValue id texts) D ∧ SMap.find Word.lt texts f = some v ∧ splitToWords t = .ok v.words ∧ CString t := by
  obtain ⟨id, texts, h1, h2, h3⟩ := h.document ht
  obtain ⟨ws, h4, h5, h6, _⟩ := field_find h3 hf
  simp only [documentValue] at h4
  rw [find_map] at h4
  cases hv : SMap.find Word.lt texts f with
  | none => rw [hv] at h4; cases h4
  | some v =>
    rw [hv] at h4
    cases h4
    exact ⟨id, texts, v, h1, h2, h3, hv, h5, h6⟩

theorem Rel.words {w : World} {k : Known} (h : Rel w k) {l : ListRef} {ts : List Bytes} (ht : k.Words l ts) :
    ∃ o v, w.objs[num l]? = some o ∧ part o (sub l) = some v ∧ w.vec l = .ok v ∧ List.Forall₂ WordRel v.words ts := by
  cases l with
  | obj n =>
    obtain ⟨v, h1, h2, h3⟩ := h.list ht
    exact ⟨_, v, h1, rfl, h2, h3⟩
  | text n f =>
    obtain ⟨D, g, t, h1, h2, h3⟩ := ht
    obtain ⟨id, texts, v, a1, a2, a3, a4, a5, a6⟩ := h.field h1 h2
    exact ⟨_, v, a1, a4, vec_ok (l := .text n f) a1 a4, wordRel_words h3 a6 a5⟩

theorem Rel.errors {w : World} {k : Known} (h : Rel w k) {p : PartRef} {ops : List ErrOp} (ht : k.Errors p ops) :
    w.errors p = .ok (afterOps ops) ∧ ∀ op ∈ ops, op.Preset := by
  cases p with
  | obj n =>
    obtain ⟨o, h1, h2⟩ := h.is ht
    cases o <;> simp only [ObjRel] at h2
    obtain ⟨rfl, h2⟩ := h2
    exact ⟨by simp only [World.errors, obj_ok h1, ok_bind], h2⟩
  | ofMatcher n =>
    obtain ⟨os, ds, ws, ht⟩ := ht
    obtain ⟨m, h1, h2, h3⟩ := h.matcher ht
    exact ⟨by simp only [World.errors, h2, ok_bind, h3.e], h3.preset⟩

theorem Rel.weights {w : World} {k : Known} (h : Rel w k) {p : PartRef} {ws : List (Bytes × ℚ)} (ht : k.Weights p ws) :
    ∃ hw, w.weights p = .ok (weightsOf hw) ∧ List.Forall₂ (fun p t => Word.ofUtf8 t.1 = .ok p.1 ∧ p.2 = t.2) hw ws := by
  cases p with
  | obj n =>
    obtain ⟨o, h1, h2⟩ := h.is ht
    cases o <;> simp only [ObjRel] at h2
    obtain ⟨hw, rfl, h2⟩ := h2
    exact ⟨hw, by simp only [World.weights, obj_ok h1, ok_bind], h2⟩
  | ofMatcher n =>
    obtain ⟨os, ds, ops, ht⟩ := ht
    obtain ⟨m, h1, h2, h3⟩ := h.matcher ht
    obtain ⟨hw, h4, h5⟩ := h3.weights
    exact ⟨hw, by simp only [World.weights, h2, ok_bind, h4], h5⟩

/-- A new object. -/
theorem Rel.make {w : World} {k : Known} (h : Rel w k) {o : Obj} {t : Thing} (ho : ObjRel o t) :
    ∃ k', k.New k' (w.make o).2 t ∧ Rel (w.make o).1 k' := by
  refine ⟨_, ⟨by rw [World.make, h.objs.length_eq], rfl⟩, List.rel_append h.objs (.cons ho .nil), ?_⟩
  refine h.items.imp fun a b hab => ⟨hab.1, fun t ht => ?_⟩
  obtain ⟨o', v, x, h1, h2⟩ := hab.2 t ht
  refine ⟨o', v, x, ?_, h2⟩
  obtain ⟨hl, _⟩ := List.getElem?_eq_some_iff.1 h1
  simp only [World.make]
  rw [List.getElem?_append_left hl, h1]

/-- An object changed, but for its lists. -/
theorem Rel.put {w : World} {k : Known} (h : Rel w k) {n : Nat} {o0 o : Obj} {t : Thing} (h0 : w.objs[n]? = some o0) (ho : ObjRel o t)
    (hp : ∀ s, part o s = part o0 s) : Rel (w.put n o) { k with things := k.things.set n t } := by
  refine ⟨forall₂_set h.objs n ho, h.items.imp fun a b hab => ⟨hab.1, fun t ht => ?_⟩⟩
  obtain ⟨o', v, x, h1, h2, h3⟩ := hab.2 t ht
  simp only [World.put]
  rw [List.getElem?_set]
  split
  · rename_i hn
    subst hn
    obtain ⟨hl, _⟩ := List.getElem?_eq_some_iff.1 h1
    rw [h0] at h1
    cases h1
    exact ⟨o, v, x, by simp [hl], by rw [hp]; exact h2, h3⟩
  · exact ⟨o', v, x, h1, h2, h3⟩

omit [Build] [Icu] [Runtime] [Fp] in
theorem set_same {k : Known} {n : Nat} {t : Thing} (ht : k.Is n t) : { k with things := k.things.set n t } = k := by
  have : k.things.set n t = k.things := by
    apply List.ext_getElem?
    intro i
    rw [List.getElem?_set]
    split
    · rename_i e; subst e
      split
      · exact ht.symm
      · rename_i hl; rw [Py.Known.Is, List.getElem?_eq_none (by omega)] at ht; cases ht
    · rfl
  rw [this]

/-- The object changed, but not what is known of it. -/
theorem Rel.same {w : World} {k : Known} (h : Rel w k) {n : Nat} {o0 o : Obj} {t : Thing} (h0 : w.objs[n]? = some o0) (ht : k.Is n t)
    (ho : ObjRel o t) (hp : ∀ s, part o s = part o0 s) : Rel (w.put n o) k := by
  have := h.put h0 ho hp
  rwa [set_same ht] at this

/-- One list changed. -/
theorem Rel.change {w : World} {k : Known} (h : Rel w k) {l : ListRef} {o0 o : Obj} {t : Thing} (h0 : w.objs[num l]? = some o0) (ho : ObjRel o t)
    (hp : ∀ s, s ≠ sub l → part o s = part o0 s) :
    Rel (w.put (num l) o) { (k.forget l) with things := k.things.set (num l) t } := by
  refine ⟨forall₂_set h.objs _ ho, ?_⟩
  simp only [World.put, Known.forget]
  rw [List.forall₂_map_right_iff]
  refine h.items.imp fun a b hab => ?_
  split
  · exact ⟨hab.1, fun t ht => by cases ht⟩
  · rename_i hb
    refine ⟨hab.1, fun t ht => ?_⟩
    obtain ⟨o', v, x, h1, h2, h3⟩ := hab.2 t ht
    simp only
    rw [List.getElem?_set]
    split
    · rename_i hn
      have hne : sub a.1 ≠ sub l := fun hs => hb (by rw [← hab.1]; exact ref_eq hn.symm hs)
      rw [← hn] at h1
      obtain ⟨hl, _⟩ := List.getElem?_eq_some_iff.1 h1
      rw [h0] at h1
      cases h1
      exact ⟨o, v, x, by simp [hl], by rw [hp _ hne]; exact h2, h3⟩
    · exact ⟨o', v, x, h1, h2, h3⟩

theorem Rel.setErrors {w : World} {k : Known} (h : Rel w k) {p : PartRef} {ops : List ErrOp} (ht : k.Errors p ops) {op : ErrOp} (hop : op.Preset) :
    ∃ w' k', w.putErrors p (op.run (afterOps ops)).1 = .ok w' ∧ k.NowErrors k' p (ops ++ [op]) ∧ Rel w' k' := by
  have hpre : (∀ o ∈ ops, o.Preset) → ∀ o ∈ ops ++ [op], o.Preset := fun h o ho =>
    (List.mem_append.1 ho).elim (h o) fun h => by rw [List.mem_singleton.1 h]; exact hop
  cases p with
  | obj n =>
    obtain ⟨o, h1, h2⟩ := h.is ht
    cases o <;> simp only [ObjRel] at h2
    refine ⟨_, _, rfl, rfl, h.put h1 (o := .errors _) ⟨(afterOps_snoc ops op).symm, hpre h2.2⟩ fun s => ?_⟩
    cases s <;> rfl
  | ofMatcher n =>
    obtain ⟨os, ds, ws, ht⟩ := ht
    obtain ⟨m, h1, h2, h3⟩ := h.matcher ht
    obtain ⟨D, hD, hran⟩ := h3.docs
    refine ⟨_, _, by simp only [World.putErrors, h2, ok_bind], ⟨os, ds, ops, ws, ht, rfl⟩,
      h.put h1 (o := .matcher { m with e := (op.run (afterOps ops)).1 }) ⟨⟨D, hD, ?_⟩, (afterOps_snoc ops op).symm, hpre h3.preset, h3.weights⟩ fun s => ?_⟩
    · have := Ran.errors op hran
      rwa [h3.e] at this
    · cases s <;> rfl

theorem Rel.setWeights {w : World} {k : Known} (h : Rel w k) {p : PartRef} {ws : List (Bytes × ℚ)} (ht : k.Weights p ws) {f : Word} {t : Bytes}
    (hf : WordRel f t) (v : ℚ) : ∃ x w' k', w.weights p = .ok x ∧ w.putWeights p (IndexWeights.setWeight x f v) = .ok w' ∧
      k.NowWeights k' p (ws ++ [(t, v)]) ∧ Rel w' k' := by
  have snoc : ∀ hw : List (Word × ℚ), IndexWeights.setWeight (weightsOf hw) f v = weightsOf (hw ++ [(f, v)]) := fun hw => by
    rw [weightsOf, weightsOf, List.foldl_append]; rfl
  cases p with
  | obj n =>
    obtain ⟨o, h1, h2⟩ := h.is ht
    cases o <;> simp only [ObjRel] at h2
    obtain ⟨hw, rfl, h2⟩ := h2
    refine ⟨weightsOf hw, _, _, by simp only [World.weights, obj_ok h1, ok_bind], rfl, rfl,
      h.put h1 (o := .weights _) ⟨hw ++ [(f, v)], snoc hw, List.rel_append h2 (.cons ⟨hf.2, rfl⟩ .nil)⟩ fun s => ?_⟩
    cases s <;> rfl
  | ofMatcher n =>
    obtain ⟨os, ds, ops, ht⟩ := ht
    obtain ⟨m, h1, h2, h3⟩ := h.matcher ht
    obtain ⟨hw, h4, h5⟩ := h3.weights
    obtain ⟨D, hD, hran⟩ := h3.docs
    refine ⟨m.weights, _, _, by simp only [World.weights, h2, ok_bind], by simp only [World.putWeights, h2, ok_bind],
      ⟨os, ds, ops, ws, ht, rfl⟩, h.put h1 (o := .matcher _) ⟨⟨D, hD, .weight f v hran⟩, h3.e, h3.preset, hw ++ [(f, v)], ?_,
        List.rel_append h5 (.cons ⟨hf.2, rfl⟩ .nil)⟩ fun s => ?_⟩
    · show IndexWeights.setWeight m.weights f v = _
      rw [h4, snoc]
    · cases s <;> rfl

omit [Build] [Icu] [Runtime] [Fp] in
theorem rank_rank (a b : List Result) : rank (a ++ b) = rank (rank a ++ rank b) := by
  refine rank_congr fun v => ?_
  rw [List.filter_append, List.filter_append, (rank_isRanking a).2, (rank_isRanking b).2]

variable [Python.Growth]

omit [Build] [Icu] [Runtime] [Fp] in
theorem vec_add (v : Vec) (x : Word) : (v.add x).words = v.words ++ [x] := by
  rw [Vec.add]; split <;> rfl

omit [Build] [Icu] [Runtime] [Fp] [Python.Growth] in
theorem vec_assign (v : Vec) (ws : List Word) : (v.assign ws).words = ws := by
  rw [Vec.assign]; split <;> rfl

omit [Build] [Icu] [Runtime] [Fp] [Python.Growth] in
theorem part_set {id : DocumentID} {texts : SMap Word Vec} {f : Word} {v : Vec} (s : Option Word) (hs : s ≠ some f) :
    part (.document id (SMap.set Word.lt texts f v)) s = part (.document id texts) s := by
  cases s with
  | none => rfl
  | some g =>
    simp only [part]
    rw [SMap.find_set strict_wordLt, if_neg]
    rintro rfl; exact hs rfl

/-- An allowed call. -/
theorem step {w : World} {k : Known} (h : Rel w k) {c : Py.Call} (hc : k.Allows c) :
    ∃ w' r k', c.run w = .ok (w', r) ∧ k.Learns c r k' ∧ Rel w' k' := by
  cases c with
  | wordNew s =>
    have hs := cut_cstring hc
    by_cases hw : WellFormed (cut s)
    · obtain ⟨cps, hcps⟩ := hw
      by_cases hb : ∃ b ∈ cut s, IsBlank b
      · refine ⟨w, .valueError, k, ?_, ⟨cut s, seen_cut s, fun hn => ?_, fun hn => absurd ⟨cps, hcps⟩ hn, fun _ => ⟨rfl, rfl⟩⟩, h⟩
        · simp only [Py.Call.run, ofUtf8_of_utf8 hcps, if_pos hb, World.orRaise, raised, ok_bind]
        · obtain ⟨b, h1, h2⟩ := hb; exact absurd h2 (hn.2 b h1)
      · have ho : Word.ofUtf8 (cut s) = .ok (lettersOf cps) := by rw [ofUtf8_of_utf8 hcps, if_neg hb]
        obtain ⟨k', h1, h2⟩ := h.make (o := .word (lettersOf cps)) (t := .word (cut s)) ⟨hs, ho⟩
        refine ⟨_, _, k', ?_, ⟨cut s, seen_cut s, fun _ => h1, fun hn => absurd ⟨cps, hcps⟩ hn, fun hn => absurd hn.2 hb⟩, h2⟩
        simp only [Py.Call.run, ho, World.orRaise]
    · refine ⟨w, .runtimeError, k, ?_, ⟨cut s, seen_cut s, fun hn => absurd hn.1 hw, fun _ => ⟨rfl, rfl⟩, fun hn => absurd hn.1 hw⟩, h⟩
      simp only [Py.Call.run, ofUtf8_bad hw, World.orRaise, raised, ok_bind]
  | wordString r =>
    obtain ⟨t, ht⟩ := hc
    obtain ⟨x, h1, h2⟩ := h.word ht
    obtain ⟨s, h3, h4⟩ := asUtf8_lower h2
    exact ⟨w, .text s, k, by simp only [Py.Call.run, h1, ok_bind, h3, World.orRaise], ⟨rfl, t, s, ht, h4, rfl⟩, h⟩
  | wordLen r =>
    obtain ⟨t, ht⟩ := hc
    obtain ⟨x, h1, h2⟩ := h.word ht
    exact ⟨w, .number x.length, k, by simp only [Py.Call.run, h1, ok_bind], ⟨rfl, t, x, ht, lower_of h2.2, rfl⟩, h⟩
  | listNew =>
    obtain ⟨k', h1, h2⟩ := h.make (o := .list .new) (t := .list []) .nil
    exact ⟨_, _, k', rfl, h1, h2⟩
  | listCopy l =>
    obtain ⟨ts, ht⟩ := hc
    obtain ⟨_, v, _, _, h1, h2⟩ := h.words ht
    obtain ⟨k', h3, h4⟩ := h.make (o := .list (.copy v.words)) (t := .list ts) h2
    exact ⟨_, _, k', by simp only [Py.Call.run, h1, ok_bind], ⟨ts, ht, h3⟩, h4⟩
  | listLen l =>
    obtain ⟨ts, ht⟩ := hc
    obtain ⟨_, v, _, _, h1, h2⟩ := h.words ht
    exact ⟨w, _, k, by simp only [Py.Call.run, h1, ok_bind]; rfl, ⟨rfl, ts, ht, by rw [h2.length_eq]⟩, h⟩
  | listGet l i =>
    obtain ⟨ts, ht⟩ := hc
    obtain ⟨o, v, h0, hp, h1, h2⟩ := h.words ht
    have hg := forall₂_get h2 i
    cases hv : v.words[i]? with
    | none =>
      rw [hv] at hg
      have hn : ts[i]? = none := by generalize ts[i]? = y at hg; cases hg; rfl
      have hi : ¬ i < v.words.length := by rw [List.getElem?_eq_none_iff] at hv; omega
      refine ⟨w, .indexError, k, by simp only [Py.Call.run, h1, ok_bind, if_neg hi], ⟨ts, ht, fun t e => ?_, fun _ => ⟨rfl, rfl⟩⟩, h⟩
      rw [hn] at e; cases e
    | some x =>
      rw [hv] at hg
      have hn : ∃ t, ts[i]? = some t ∧ WordRel x t := by
        generalize ts[i]? = y at hg
        cases hg with | some hg => exact ⟨_, rfl, hg⟩
      obtain ⟨t, hn, hx⟩ := hn
      have hi : i < v.words.length := (List.getElem?_eq_some_iff.1 hv).1
      refine ⟨{ w with items := w.items ++ [(l, i, v.place)] }, _, { k with items := k.items ++ [(l, some t)] }, by simp only [Py.Call.run, h1, ok_bind, if_pos hi]; rfl,
        ⟨ts, ht, fun t' e => ?_, fun e => ?_⟩, h.objs, List.rel_append h.items (.cons ⟨rfl, fun t' e => ?_⟩ .nil)⟩
      · rw [hn] at e; cases e
        exact ⟨by rw [h.items.length_eq], rfl⟩
      · rw [hn] at e; cases e
      · cases e
        exact ⟨o, v, x, h0, hp, rfl, hv, hx⟩
  | listAdd l r =>
    cases l with
    | obj n =>
      obtain ⟨⟨ts, ht⟩, u, hu⟩ := hc
      obtain ⟨v, h0, h1, h2⟩ := h.list ht
      obtain ⟨x, h3, h4⟩ := h.word hu
      refine ⟨_, _, _, by simp only [Py.Call.run, h3, h1, ok_bind, World.putVec]; rfl, ⟨rfl, ts, u, ht, hu, rfl⟩,
        h.change (l := .obj n) h0 (o := .list (v.add x)) (t := .list (ts ++ [u])) ?_ fun s hs => ?_⟩
      · show List.Forall₂ WordRel (v.add x).words _
        rw [vec_add]
        exact List.rel_append h2 (.cons h4 .nil)
      · cases s with
        | none => exact absurd rfl hs
        | some f => rfl
    | text n f =>
      obtain ⟨D, g, t, u, hD, hf, hu, hne, hsh⟩ := hc
      obtain ⟨id, texts, v, h0, h1, h2, h3, h4, h5⟩ := h.field hD hf
      obtain ⟨x, h6, h7⟩ := h.word hu
      obtain ⟨pre, post, e, hg, hp⟩ := hf
      have hrep : D.Replaced ⟨D.id, pre ++ (g, t ++ 0x20 :: u) :: post⟩ f t (t ++ 0x20 :: u) := ⟨pre, g, post, e, hg, hp, rfl⟩
      have hv : w.vec (.text n f) = .ok v := vec_ok (l := .text n f) h0 h3
      have hcs : CString (t ++ 0x20 :: u) := ⟨by
        simp only [List.mem_append, List.mem_cons, not_or]
        exact ⟨h5.1, by decide, h7.1.1⟩, hsh⟩
      refine ⟨_, _, _, by simp only [Py.Call.run, h6, hv, ok_bind, World.putVec, h1]; rfl, ⟨rfl, D, _, t, u, hD, hu, hrep, rfl⟩,
        h.change (l := .text n f) h0 (o := .document id (SMap.set Word.lt texts f (v.add x))) (t := .document _) ?_ fun s hs => part_set s hs⟩
      show DocRel (documentValue id _) _
      have := doc_replaced h2 hrep (split_more h4 h7.2 hne) hcs
      rw [documentValue, set_map, vec_add]
      exact this
  | split s =>
    have hs := cut_cstring hc
    obtain ⟨ts, hts, hgood, hbad⟩ := Props.C11_split (cut s)
    by_cases hw : WellFormed (cut s)
    · obtain ⟨ws, h1, _⟩ := hgood hw
      obtain ⟨k', h2, h3⟩ := h.make (o := .list (.copy ws)) (t := .list ts) (wordRel_words hts hs h1)
      refine ⟨_, _, k', ?_, ⟨cut s, seen_cut s, fun _ => ⟨ts, hts, h2⟩, fun hn => absurd hw hn⟩, h3⟩
      simp only [Py.Call.run, h1, World.orRaise]
    · refine ⟨w, .runtimeError, k, ?_, ⟨cut s, seen_cut s, fun hn => absurd hn hw, fun _ => ⟨rfl, rfl⟩⟩, h⟩
      simp only [Py.Call.run, hbad hw, World.orRaise, raised, ok_bind]
  | documentNew id =>
    obtain ⟨k', h1, h2⟩ := h.make (o := .document id []) (t := .document ⟨id, []⟩) ⟨[], rfl, .nil⟩
    exact ⟨_, _, k', rfl, h1, h2⟩
  | documentCopy n =>
    obtain ⟨D, hD⟩ := hc
    obtain ⟨id, texts, h0, h1, h2⟩ := h.document hD
    obtain ⟨k', h3, h4⟩ := h.make (o := .document id (texts.map fun p => (p.1, .copy p.2.words))) (t := .document D) (by
      show DocRel (documentValue id _) D
      have e : documentValue id (texts.map fun p => (p.1, Vec.copy p.2.words)) = documentValue id texts := by
        rw [documentValue, documentValue, List.map_map]; rfl
      rw [e]; exact h2)
    exact ⟨_, _, k', by simp only [Py.Call.run, h1, ok_bind], ⟨D, hD, h3⟩, h4⟩
  | fieldCount n =>
    obtain ⟨D, hD⟩ := hc
    obtain ⟨id, texts, h0, h1, h2⟩ := h.document hD
    refine ⟨w, _, k, by simp only [Py.Call.run, h1, ok_bind]; rfl, ⟨rfl, D, _, hD, field_count h2, ?_⟩, h⟩
    simp [documentValue]
  | getId n =>
    obtain ⟨D, hD⟩ := hc
    obtain ⟨id, texts, h0, h1, h2⟩ := h.document hD
    exact ⟨w, _, k, by simp only [Py.Call.run, h1, ok_bind]; rfl, ⟨rfl, D, hD, by rw [← h2.id]; rfl⟩, h⟩
  | getText n r =>
    obtain ⟨⟨D, hD⟩, u, hu⟩ := hc
    obtain ⟨id, texts, h0, h1, h2⟩ := h.document hD
    obtain ⟨f, h3, h4⟩ := h.word hu
    cases hf : SMap.find Word.lt texts f with
    | some v =>
      refine ⟨w, .list (.text n f), k, by simp only [Py.Call.run, h1, h3, ok_bind, hf],
        ⟨rfl, D, u, f, hD, hu, lower_of h4.2, fun _ => rfl, fun hn => absurd (find_field h2 (ws := v.words) ?_) hn⟩, h⟩
      simp only [documentValue]
      rw [find_map, hf]; rfl
    | none =>
      refine ⟨w, .valueError, k, by simp only [Py.Call.run, h1, h3, ok_bind, hf],
        ⟨rfl, D, u, f, hD, hu, lower_of h4.2, fun ⟨g, t, hn⟩ => ?_, fun _ => rfl⟩, h⟩
      obtain ⟨ws, h5, _⟩ := field_find h2 hn
      simp only [documentValue] at h5
      rw [find_map, hf] at h5; cases h5
  | addText n r s =>
    obtain ⟨⟨D, hD⟩, ⟨u, hu, hne⟩, hs⟩ := hc
    obtain ⟨id, texts, h0, h1, h2⟩ := h.document hD
    obtain ⟨f, h3, h4⟩ := h.word hu
    have hs := cut_cstring hs
    obtain ⟨_, _, hgood, hbad⟩ := Props.C11_split (cut s)
    by_cases hw : WellFormed (cut s)
    · obtain ⟨ws, h5, _⟩ := hgood hw
      generalize hv : (match SMap.find Word.lt texts f with | some v => v | none => Vec.new) = v
      refine ⟨w.put n (.document id (SMap.set Word.lt texts f (v.assign ws))), .none, _, ?_, ⟨D, u, f, cut s, hD, hu, lower_of h4.2, seen_cut s,
        fun _ => ⟨rfl, rfl⟩, fun hn => absurd hw hn⟩, h.change (l := .text n f) h0 (t := .document _) ?_ fun s hs => part_set s hs⟩
      · simp only [Py.Call.run, h1, h3, ok_bind, h5, World.orRaise]
        subst hv; rfl
      · show DocRel (documentValue id _) _
        rw [documentValue, set_map, vec_assign]
        obtain ⟨hist, e, hf⟩ := h2
        refine ⟨hist ++ [(f, ws)], ?_, List.rel_append hf (.cons ⟨h4, hne, hs, h5⟩ .nil)⟩
        rw [documentOf_snoc, ← e]; rfl
    · refine ⟨w, .runtimeError, k, ?_, ⟨D, u, f, cut s, hD, hu, lower_of h4.2, seen_cut s, fun hn => absurd hn hw, fun _ => ⟨rfl, rfl⟩⟩, h⟩
      simp only [Py.Call.run, h1, h3, ok_bind, hbad hw, World.orRaise, raised]
  | corpusNew =>
    obtain ⟨k', h1, h2⟩ := h.make (o := .corpus []) (t := .corpus []) .nil
    exact ⟨_, _, k', rfl, h1, h2⟩
  | corpusSize n =>
    obtain ⟨ds, hd⟩ := hc
    obtain ⟨c, h0, h1, h2⟩ := h.corpus hd
    exact ⟨w, _, k, by simp only [Py.Call.run, h1, ok_bind]; rfl, ⟨rfl, ds, hd, by rw [h2.length_eq]⟩, h⟩
  | corpusAdd n d =>
    obtain ⟨⟨ds, hd⟩, D, hD⟩ := hc
    obtain ⟨c, h0, h1, h2⟩ := h.corpus hd
    obtain ⟨id, texts, _, h3, h4⟩ := h.document hD
    refine ⟨_, _, _, by simp only [Py.Call.run, h1, h3, ok_bind]; rfl, ⟨rfl, ds, D, hd, hD, rfl⟩,
      h.put h0 (o := .corpus _) (t := .corpus _) (List.rel_append h2 (.cons h4 .nil)) fun s => ?_⟩
    cases s <;> rfl
  | resultsNew =>
    obtain ⟨k', h1, h2⟩ := h.make (o := .results .new) (t := .results []) ⟨[], .new, by simp [rank]⟩
    exact ⟨_, _, k', rfl, h1, h2⟩
  | resultsAdd n j =>
    obtain ⟨hne, ⟨l, hl⟩, l', hl'⟩ := hc
    obtain ⟨r, a, h0, h1, h2, rfl⟩ := h.results hl
    obtain ⟨r', a', h0', h1', h2', rfl⟩ := h.results hl'
    refine ⟨_, _, _, by simp only [Py.Call.run, h1, h1', ok_bind, if_neg hne],
      ⟨rfl, _, _, _, hl, hl', rank_isRanking _, rfl⟩, h.put h0 (o := .results _) (t := .results _) ⟨a ++ a', .addAll h2 h2', rank_rank a a'⟩ fun s => ?_⟩
    cases s <;> rfl
  | resultsId n i =>
    obtain ⟨l, hl⟩ := hc
    obtain ⟨r, a, h0, h1, h2, rfl⟩ := h.results hl
    have hg := (filled_inv h2).getDocumentID i
    cases hi : (rank a)[i]? with
    | none =>
      rw [hi] at hg
      exact ⟨w, .indexError, k, by simp only [Py.Call.run, h1, ok_bind, hg, World.orRaise, raised], ⟨rfl, _, hl, by rw [hi]⟩, h⟩
    | some x =>
      rw [hi] at hg
      refine ⟨_, _, k, by simp only [Py.Call.run, h1, ok_bind, hg, World.orRaise]; rfl, ⟨rfl, _, hl, by rw [hi]⟩,
        h.same h0 hl (o := .results _) ⟨a, .readID h2 hg, rfl⟩ fun s => ?_⟩
      cases s <;> rfl
  | resultsRelevancy n i =>
    obtain ⟨l, hl⟩ := hc
    obtain ⟨r, a, h0, h1, h2, rfl⟩ := h.results hl
    have hg := (filled_inv h2).getRelevancy i
    cases hi : (rank a)[i]? with
    | none =>
      rw [hi] at hg
      exact ⟨w, .indexError, k, by simp only [Py.Call.run, h1, ok_bind, hg, World.orRaise, raised], ⟨rfl, _, hl, by rw [hi]⟩, h⟩
    | some x =>
      rw [hi] at hg
      refine ⟨_, _, k, by simp only [Py.Call.run, h1, ok_bind, hg, World.orRaise]; rfl, ⟨rfl, _, hl, by rw [hi]⟩,
        h.same h0 hl (o := .results _) ⟨a, .readRelevancy h2 hg, rfl⟩ fun s => ?_⟩
      cases s <;> rfl
  | resultsLen n =>
    obtain ⟨l, hl⟩ := hc
    obtain ⟨r, a, h0, h1, h2, rfl⟩ := h.results hl
    refine ⟨w, _, k, by simp only [Py.Call.run, h1, ok_bind]; rfl, ⟨rfl, _, hl, ?_⟩, h⟩
    rw [rank_length, MatchResults.size, (filled_inv h2).length]
  | matcherNew os =>
    rcases MInv.new os with ⟨h1, h2⟩ | ⟨m, h1, _⟩
    · exact ⟨w, .runtimeError, k, by simp only [Py.Call.run, h2, World.orRaise, raised, ok_bind],
        ⟨fun hn => absurd (h1.symm.trans hn) (by simp), fun _ => ⟨rfl, rfl⟩⟩, h⟩
    · obtain ⟨h1024, he, hw⟩ := new_facts h1
      obtain ⟨k', h3, h4⟩ := h.make (o := .matcher m) (t := .matcher os [] [] []) ⟨⟨[], .nil, .new h1⟩, he, by simp, [], hw, .nil⟩
      exact ⟨_, _, k', by simp only [Py.Call.run, h1, World.orRaise], ⟨fun _ => h3, fun hn => absurd (h1024.symm.trans hn) (by simp)⟩, h4⟩
  | index n c =>
    obtain ⟨os, ds, ops, ws, cs, hm, hcs, hst⟩ := hc
    obtain ⟨m, h0, h1, h2⟩ := h.matcher hm
    obtain ⟨c, _, h3, h4⟩ := h.corpus hcs
    obtain ⟨h5, h6⟩ := index_rel h2 h4 hst
    generalize hi : m.index c = x at h5 h6
    obtain ⟨m', o⟩ := x
    simp only at h5 h6
    subst h5
    refine ⟨_, _, _, by simp only [Py.Call.run, h1, h3, ok_bind, hi], ⟨rfl, os, ds, ops, ws, cs, hm, hcs, rfl⟩,
      h.put h0 (o := .matcher m') (t := .matcher _ _ _ _) h6 fun s => ?_⟩
    cases s <;> rfl
  | search n s =>
    obtain ⟨⟨os, ds, ops, ws, hm⟩, hs⟩ := hc
    obtain ⟨m, h0, h1, h2⟩ := h.matcher hm
    obtain ⟨D, hD, hran⟩ := h2.docs
    obtain ⟨hb, hg⟩ := search_lists hran hD h2.e h2.preset (cut_cstring hs)
    have hsame : Rel (w.put n (.matcher m)) k := h.same h0 hm (o := .matcher m) h2 fun s => rfl
    by_cases hw : WellFormed (cut s)
    · obtain ⟨res, l, h3, h4, h5, h6⟩ := hg hw
      obtain ⟨k', h7, h8⟩ := hsame.make (o := .results res) (t := .results (rank l)) ⟨l, h4, rfl⟩
      refine ⟨_, _, k', by simp only [Py.Call.run, h1, ok_bind, h3], ⟨os, ds, ops, ws, cut s, hm, seen_cut s,
        fun _ => ⟨rank l, h5, h6, h7⟩, fun hn => absurd hw hn⟩, h8⟩
    · exact ⟨_, .runtimeError, k, by simp only [Py.Call.run, h1, ok_bind, hb hw, raised], ⟨os, ds, ops, ws, cut s, hm, seen_cut s,
        fun hn => absurd hn hw, fun _ => ⟨rfl, rfl⟩⟩, hsame⟩
  | getErrorvalues n =>
    obtain ⟨os, ds, ops, ws, hm⟩ := hc
    obtain ⟨m, h0, h1, h2⟩ := h.matcher hm
    exact ⟨w, _, k, by simp only [Py.Call.run, h1, ok_bind], ⟨rfl, rfl⟩, h⟩
  | getIndexweights n =>
    obtain ⟨os, ds, ops, ws, hm⟩ := hc
    obtain ⟨m, h0, h1, h2⟩ := h.matcher hm
    exact ⟨w, _, k, by simp only [Py.Call.run, h1, ok_bind], ⟨rfl, rfl⟩, h⟩
  | errorsNew =>
    obtain ⟨k', h1, h2⟩ := h.make (o := .errors .new) (t := .errors []) ⟨rfl, by simp⟩
    exact ⟨_, _, k', rfl, h1, h2⟩
  | addStandardErrors p data =>
    obtain ⟨ops, ho⟩ := hc
    obtain ⟨h1, h2⟩ := h.errors ho
    obtain ⟨w', k', h3, h4, h5⟩ := h.setErrors ho (op := .addStandardErrors data) trivial
    obtain ⟨hist, hi, _⟩ := (presetMade_afterOps h2).inv
    have hf := (standard_same data hi).2
    simp only [ErrOp.run] at h3
    generalize hx : ErrorValues.addStandardErrors data (afterOps ops) = x at h3 hf
    obtain ⟨e', o⟩ := x
    simp only at h3 hf
    cases o with
    | none =>
      exact ⟨w', .none, k', by simp only [Py.Call.run, h1, ok_bind, hx, h3], ⟨ops, ho, h4, Or.inl ⟨by rw [ErrOp.run, hx], rfl⟩⟩, h5⟩
    | some f =>
      rcases hf f rfl with rfl | rfl
      · exact ⟨w', .runtimeError, k', by simp only [Py.Call.run, h1, ok_bind, hx, h3, raised],
          ⟨ops, ho, h4, Or.inr (Or.inl ⟨by rw [ErrOp.run, hx], rfl⟩)⟩, h5⟩
      · exact ⟨w', .valueError, k', by simp only [Py.Call.run, h1, ok_bind, hx, h3, raised],
          ⟨ops, ho, h4, Or.inr (Or.inr ⟨by rw [ErrOp.run, hx], rfl⟩)⟩, h5⟩
  | setSubstringMode p =>
    obtain ⟨ops, ho⟩ := hc
    obtain ⟨h1, _⟩ := h.errors ho
    obtain ⟨w', k', h3, h4, h5⟩ := h.setErrors ho (op := .setSubstringMode) trivial
    exact ⟨w', .none, k', by simp only [Py.Call.run, h1, ok_bind]; simp only [ErrOp.run] at h3; rw [h3]; rfl, ⟨rfl, ops, ho, h4⟩, h5⟩
  | setEndDeletionError p v =>
    obtain ⟨⟨ops, ho⟩, hv⟩ := hc
    obtain ⟨h1, _⟩ := h.errors ho
    obtain ⟨w', k', h3, h4, h5⟩ := h.setErrors ho (op := .setEndDeletionError v) hv
    exact ⟨w', .none, k', by simp only [Py.Call.run, h1, ok_bind]; simp only [ErrOp.run] at h3; rw [h3]; rfl, ⟨rfl, ops, ho, h4⟩, h5⟩
  | setError p a b v =>
    obtain ⟨ops, ho⟩ := hc
    obtain ⟨h1, _⟩ := h.errors ho
    exact ⟨w, _, k, by simp only [Py.Call.run, h1, ok_bind], ⟨rfl, rfl⟩, h⟩
  | getSubstituteError p a b =>
    obtain ⟨ops, ho⟩ := hc
    obtain ⟨h1, _⟩ := h.errors ho
    exact ⟨w, _, k, by simp only [Py.Call.run, h1, ok_bind], ⟨rfl, rfl⟩, h⟩
  | getDefaultError => exact ⟨w, _, k, rfl, ⟨rfl, rfl⟩, h⟩
  | getDefaultEndDeletionError => exact ⟨w, _, k, rfl, ⟨rfl, rfl⟩, h⟩
  | clearErrors p =>
    obtain ⟨ops, ho⟩ := hc
    obtain ⟨h1, _⟩ := h.errors ho
    obtain ⟨w', k', h3, h4, h5⟩ := h.setErrors ho (op := .clearErrors) trivial
    exact ⟨w', .none, k', by simp only [Py.Call.run, h1, ok_bind]; simp only [ErrOp.run] at h3; rw [h3]; rfl, ⟨rfl, ops, ho, h4⟩, h5⟩
  | weightsNew =>
    obtain ⟨k', h1, h2⟩ := h.make (o := .weights []) (t := .weights []) ⟨[], rfl, .nil⟩
    exact ⟨_, _, k', rfl, h1, h2⟩
  | setWeight p r v =>
    obtain ⟨⟨ws, hw⟩, t, ht⟩ := hc
    obtain ⟨f, h1, h2⟩ := h.word ht
    obtain ⟨x, w', k', h3, h4, h5, h6⟩ := h.setWeights hw h2 v
    exact ⟨w', .none, k', by simp only [Py.Call.run, h3, h1, ok_bind, h4], ⟨rfl, ws, t, hw, ht, h5⟩, h6⟩
  | getWeight p r =>
    obtain ⟨⟨ws, hw⟩, t, ht⟩ := hc
    obtain ⟨f, h1, h2⟩ := h.word ht
    obtain ⟨hist, h3, h4⟩ := h.weights hw
    exact ⟨w, _, k, by simp only [Py.Call.run, h3, h1, ok_bind], ⟨rfl, ws, t, _, hw, ht, weight_is h4 h2.2, rfl⟩, h⟩

/-! ### What a program knows follows from what it did -/

omit [Build] [Runtime] [Fp] [Python.Growth] in
theorem letters_det {t : Bytes} {a b : Word} (h : LowerLetters t a) (h' : LowerLetters t b) : a = b := by
  obtain ⟨c, h1, h2⟩ := h
  obtain ⟨c', h1', h2'⟩ := h'
  cases Utf8.det h1 h1'
  rw [Utf16.eq_encodes h2, Utf16.eq_encodes h2']

omit [Build] [Icu] [Runtime] [Fp] [Python.Growth] in
theorem last_det {α : Type} {P : α → Prop} {pre pre' post post' : List α} {x x' : α} (h : pre ++ x :: post = pre' ++ x' :: post')
    (hx : P x) (hx' : P x') (hp : ∀ y ∈ post, ¬ P y) (hp' : ∀ y ∈ post', ¬ P y) : pre = pre' ∧ x = x' ∧ post = post' := by
  induction pre generalizing pre' with
  | nil =>
    cases pre' with
    | nil => simp only [List.nil_append, List.cons.injEq] at h; exact ⟨rfl, h⟩
    | cons a pre' =>
      simp only [List.nil_append, List.cons_append, List.cons.injEq] at h
      exact absurd hx' (hp x' (by rw [h.2]; simp))
  | cons a pre ih =>
    cases pre' with
    | nil =>
      simp only [List.nil_append, List.cons_append, List.cons.injEq] at h
      exact absurd hx (hp' x (by rw [← h.2]; simp))
    | cons b pre' =>
      simp only [List.cons_append, List.cons.injEq] at h
      obtain ⟨e1, e2⟩ := ih h.2
      exact ⟨by rw [h.1, e1], e2⟩

omit [Build] [Runtime] [Fp] [Python.Growth] in
theorem field_det {d : Described} {f : Word} {g g' t t' : Bytes} (h : d.Field f g t) (h' : d.Field f g' t') : t = t' := by
  obtain ⟨pre, post, e, h1, h2⟩ := h
  obtain ⟨pre', post', e', h1', h2'⟩ := h'
  have := (last_det (P := fun p : Bytes × Bytes => LowerLetters p.1 f) (e.symm.trans e') h1 h1' h2 h2').2.1
  cases this; rfl

omit [Build] [Runtime] [Fp] [Python.Growth] in
theorem replaced_det {d d1 d2 : Described} {f : Word} {t t' u : Bytes} (h : d.Replaced d1 f t (t ++ 0x20 :: u))
    (h' : d.Replaced d2 f t' (t' ++ 0x20 :: u)) : d1 = d2 := by
  obtain ⟨pre, g, post, e, h1, h2, rfl⟩ := h
  obtain ⟨pre', g', post', e', h1', h2', rfl⟩ := h'
  obtain ⟨rfl, e, rfl⟩ := last_det (P := fun p : Bytes × Bytes => LowerLetters p.1 f) (e.symm.trans e') h1 h1' h2 h2'
  cases e; rfl

/-- The same, but for the order of results. -/
def Agree (a b : Py.Thing) : Prop := a = b ∨ ∃ i j, a = .results i ∧ b = .results j ∧ (i.map (·.2)).Perm (j.map (·.2))

structure KAgree (k k0 : Py.Known) : Prop where
  things : List.Forall₂ Agree k.things k0.things
  items : k.items = k0.items

omit [Build] [Icu] [Runtime] [Fp] [Python.Growth] in
theorem is_same {k : Py.Known} {n : Nat} {t t' : Py.Thing} (h : k.Is n t) (h' : k.Is n t') : t = t' := by
  rw [Py.Known.Is] at h h'
  rw [h] at h'; cases h'; rfl

omit [Build] [Icu] [Runtime] [Fp] [Python.Growth] in
theorem KAgree.is {k k0 : Py.Known} (h : KAgree k k0) {n : Nat} {t : Py.Thing} (hx : k.Is n t) : ∃ t', k0.Is n t' ∧ Agree t t' := by
  have := forall₂_get h.things n
  rw [show k.things[n]? = some t from hx] at this
  generalize hg : k0.things[n]? = o at this
  cases this with
  | some h => exact ⟨_, hg, h⟩

omit [Build] [Icu] [Runtime] [Fp] [Python.Growth] in
theorem KAgree.eq {k k0 : Py.Known} (h : KAgree k k0) {n : Nat} {t : Py.Thing} (hx : k.Is n t) (ht : ∀ l, t ≠ .results l) : k0.Is n t := by
  obtain ⟨t', h1, rfl | ⟨i, _, rfl, _⟩⟩ := h.is hx
  · exact h1
  · exact absurd rfl (ht i)

omit [Build] [Icu] [Runtime] [Fp] [Python.Growth] in
theorem KAgree.results {k k0 : Py.Known} (h : KAgree k k0) {n : Nat} {l} (hx : k.Is n (.results l)) :
    ∃ l', k0.Is n (.results l') ∧ (l.map (·.2)).Perm (l'.map (·.2)) := by
  obtain ⟨t', h1, rfl | ⟨i, j, e, rfl, hp⟩⟩ := h.is hx
  · exact ⟨_, h1, .refl _⟩
  · cases e; exact ⟨_, h1, hp⟩

omit [Build] [Icu] [Runtime] [Fp] [Python.Growth] in
theorem KAgree.word {k k0 : Py.Known} (h : KAgree k k0) {r : WordRef} {t : Bytes} (hx : k.Word r t) : k0.Word r t := by
  cases r with
  | obj n => exact h.eq hx (by simp)
  | item j =>
    obtain ⟨l, hx⟩ := hx
    exact ⟨l, by rw [← h.items]; exact hx⟩

omit [Build] [Icu] [Runtime] [Fp] [Python.Growth] in
theorem word_same {k : Py.Known} {r : WordRef} {t t' : Bytes} (h : k.Word r t) (h' : k.Word r t') : t = t' := by
  cases r with
  | obj n => cases is_same h h'; rfl
  | item j =>
    obtain ⟨l, h⟩ := h
    obtain ⟨l', h'⟩ := h'
    rw [h] at h'; cases h'; rfl

omit [Build] [Runtime] [Fp] [Python.Growth] in
theorem KAgree.words {k k0 : Py.Known} (h : KAgree k k0) {l : ListRef} {ts : List Bytes} (hx : k.Words l ts) : k0.Words l ts := by
  cases l with
  | obj n => exact h.eq hx (by simp)
  | text n f =>
    obtain ⟨d, g, t, h1, h2⟩ := hx
    exact ⟨d, g, t, h.eq h1 (by simp), h2⟩

omit [Build] [Runtime] [Fp] [Python.Growth] in
theorem words_same {k : Py.Known} {l : ListRef} {ts ts' : List Bytes} (h : k.Words l ts) (h' : k.Words l ts') : ts = ts' := by
  cases l with
  | obj n => cases is_same h h'; rfl
  | text n f =>
    obtain ⟨d, g, t, h1, h2, h3⟩ := h
    obtain ⟨d', g', t', h1', h2', h3'⟩ := h'
    cases is_same h1 h1'
    cases field_det h2 h2'
    exact tokens_det h3 h3'

omit [Build] [Icu] [Runtime] [Fp] [Python.Growth] in
theorem KAgree.errors {k k0 : Py.Known} (h : KAgree k k0) {p : PartRef} {ops : List ErrOp} (hx : k.Errors p ops) : k0.Errors p ops := by
  cases p with
  | obj n => exact h.eq hx (by simp)
  | ofMatcher n =>
    obtain ⟨os, ds, ws, hx⟩ := hx
    exact ⟨os, ds, ws, h.eq hx (by simp)⟩

omit [Build] [Icu] [Runtime] [Fp] [Python.Growth] in
theorem errors_same {k : Py.Known} {p : PartRef} {ops ops' : List ErrOp} (h : k.Errors p ops) (h' : k.Errors p ops') : ops = ops' := by
  cases p with
  | obj n => cases is_same h h'; rfl
  | ofMatcher n =>
    obtain ⟨_, _, _, h⟩ := h
    obtain ⟨_, _, _, h'⟩ := h'
    cases is_same h h'; rfl

omit [Build] [Icu] [Runtime] [Fp] [Python.Growth] in
theorem KAgree.weights {k k0 : Py.Known} (h : KAgree k k0) {p : PartRef} {ws : List (Bytes × ℚ)} (hx : k.Weights p ws) : k0.Weights p ws := by
  cases p with
  | obj n => exact h.eq hx (by simp)
  | ofMatcher n =>
    obtain ⟨os, ds, ops, hx⟩ := hx
    exact ⟨os, ds, ops, h.eq hx (by simp)⟩

omit [Build] [Icu] [Runtime] [Fp] [Python.Growth] in
theorem weights_same {k : Py.Known} {p : PartRef} {ws ws' : List (Bytes × ℚ)} (h : k.Weights p ws) (h' : k.Weights p ws') : ws = ws' := by
  cases p with
  | obj n => cases is_same h h'; rfl
  | ofMatcher n =>
    obtain ⟨_, _, _, h⟩ := h
    obtain ⟨_, _, _, h'⟩ := h'
    cases is_same h h'; rfl

omit [Build] [Runtime] [Fp] [Python.Growth] in
theorem KAgree.allows {k k0 : Py.Known} (h : KAgree k k0) {c : Py.Call} (hc : k.Allows c) : k0.Allows c := by
  have hd : ∀ {n}, (∃ d, k.Is n (.document d)) → ∃ d, k0.Is n (.document d) := fun ⟨d, hd⟩ => ⟨d, h.eq hd (by simp)⟩
  have hco : ∀ {n}, (∃ d, k.Is n (.corpus d)) → ∃ d, k0.Is n (.corpus d) := fun ⟨d, hd⟩ => ⟨d, h.eq hd (by simp)⟩
  have hr : ∀ {n}, (∃ d, k.Is n (.results d)) → ∃ d, k0.Is n (.results d) := fun ⟨d, hd⟩ => let ⟨l, hl, _⟩ := h.results hd; ⟨l, hl⟩
  have hm : ∀ {n}, (∃ os ds ops ws, k.Is n (.matcher os ds ops ws)) → ∃ os ds ops ws, k0.Is n (.matcher os ds ops ws) :=
    fun ⟨os, ds, ops, ws, hd⟩ => ⟨os, ds, ops, ws, h.eq hd (by simp)⟩
  have hw : ∀ {r}, (∃ t, k.Word r t) → ∃ t, k0.Word r t := fun ⟨t, ht⟩ => ⟨t, h.word ht⟩
  have hws : ∀ {r}, (∃ t, k.Words r t) → ∃ t, k0.Words r t := fun ⟨t, ht⟩ => ⟨t, h.words ht⟩
  have he : ∀ {p}, (∃ t, k.Errors p t) → ∃ t, k0.Errors p t := fun ⟨t, ht⟩ => ⟨t, h.errors ht⟩
  have hwe : ∀ {p}, (∃ t, k.Weights p t) → ∃ t, k0.Weights p t := fun ⟨t, ht⟩ => ⟨t, h.weights ht⟩
  cases c with
  | listAdd l w =>
    cases l with
    | obj n => obtain ⟨⟨ts, ht⟩, hu⟩ := hc; exact ⟨⟨ts, h.eq ht (by simp)⟩, hw hu⟩
    | text n f =>
      obtain ⟨d, g, t, u, h1, h2, h3, h4⟩ := hc
      exact ⟨d, g, t, u, h.eq h1 (by simp), h2, h.word h3, h4⟩
  | index n c =>
    obtain ⟨os, ds, ops, ws, cs, h1, h2, h3⟩ := hc
    exact ⟨os, ds, ops, ws, cs, h.eq h1 (by simp), h.eq h2 (by simp), h3⟩
  | addText n w s =>
    obtain ⟨h1, ⟨t, ht, hn⟩, h3⟩ := hc
    exact ⟨hd h1, ⟨t, h.word ht, hn⟩, h3⟩
  | wordNew s => exact hc
  | split s => exact hc
  | wordString w => exact hw hc
  | wordLen w => exact hw hc
  | listCopy l => exact hws hc
  | listLen l => exact hws hc
  | listGet l i => exact hws hc
  | documentCopy n => exact hd hc
  | fieldCount n => exact hd hc
  | getId n => exact hd hc
  | getText n w => exact ⟨hd hc.1, hw hc.2⟩
  | corpusSize n => exact hco hc
  | corpusAdd n d => exact ⟨hco hc.1, hd hc.2⟩
  | resultsAdd n m => exact ⟨hc.1, hr hc.2.1, hr hc.2.2⟩
  | resultsId n i => exact hr hc
  | resultsRelevancy n i => exact hr hc
  | resultsLen n => exact hr hc
  | search n s => exact ⟨hm hc.1, hc.2⟩
  | getErrorvalues n => exact hm hc
  | getIndexweights n => exact hm hc
  | addStandardErrors p data => exact he hc
  | setSubstringMode p => exact he hc
  | clearErrors p => exact he hc
  | setError p a b v => exact he hc
  | getSubstituteError p a b => exact he hc
  | setEndDeletionError p v => exact ⟨he hc.1, hc.2⟩
  | setWeight p w v => exact ⟨hwe hc.1, hw hc.2⟩
  | getWeight p w => exact ⟨hwe hc.1, hw hc.2⟩
  | _ => trivial

omit [Build] [Icu] [Runtime] [Fp] [Python.Growth] in
theorem KAgree.new {k k0 k' k0' : Py.Known} (h : KAgree k k0) {r r0 : Ret} {t t0 : Py.Thing} (ht : Agree t t0) (h1 : k.New k' r t)
    (h2 : k0.New k0' r0 t0) : KAgree k' k0' := by
  obtain ⟨_, rfl⟩ := h1
  obtain ⟨_, rfl⟩ := h2
  exact ⟨List.rel_append h.things (.cons ht .nil), h.items⟩

omit [Build] [Icu] [Runtime] [Fp] [Python.Growth] in
theorem KAgree.now {k k0 k' k0' : Py.Known} (h : KAgree k k0) {n : Nat} {t t0 : Py.Thing} (ht : Agree t t0) (h1 : k.Now k' n t)
    (h2 : k0.Now k0' n t0) : KAgree k' k0' := by
  cases h1
  cases h2
  exact ⟨forall₂_set h.things n ht, h.items⟩

omit [Build] [Icu] [Runtime] [Fp] [Python.Growth] in
theorem KAgree.forget {k k0 : Py.Known} (h : KAgree k k0) (l : ListRef) : KAgree (k.forget l) (k0.forget l) :=
  ⟨h.things, by simp only [Py.Known.forget, h.items]⟩

omit [Build] [Icu] [Runtime] [Fp] [Python.Growth] in
theorem KAgree.nowErrors {k k0 k' k0' : Py.Known} (h : KAgree k k0) {p : PartRef} {ops : List ErrOp} (h1 : k.NowErrors k' p ops)
    (h2 : k0.NowErrors k0' p ops) : KAgree k' k0' := by
  cases p with
  | obj n => exact h.now (Or.inl rfl) h1 h2
  | ofMatcher n =>
    obtain ⟨os, ds, _, ws, h3, h1⟩ := h1
    obtain ⟨os0, ds0, _, ws0, h4, h2⟩ := h2
    cases is_same (h.eq h3 (by simp)) h4
    exact h.now (Or.inl rfl) h1 h2

omit [Build] [Icu] [Runtime] [Fp] [Python.Growth] in
theorem KAgree.nowWeights {k k0 k' k0' : Py.Known} (h : KAgree k k0) {p : PartRef} {ws : List (Bytes × ℚ)} (h1 : k.NowWeights k' p ws)
    (h2 : k0.NowWeights k0' p ws) : KAgree k' k0' := by
  cases p with
  | obj n => exact h.now (Or.inl rfl) h1 h2
  | ofMatcher n =>
    obtain ⟨os, ds, ops, _, h3, h1⟩ := h1
    obtain ⟨os0, ds0, ops0, _, h4, h2⟩ := h2
    cases is_same (h.eq h3 (by simp)) h4
    exact h.now (Or.inl rfl) h1 h2

omit [Runtime] [Python.Growth] in
theorem KAgree.learns {k k0 k' k0' : Py.Known} (h : KAgree k k0) {c : Py.Call} {r r0 : Ret} (h1 : k.Learns c r k') (h2 : k0.Learns c r0 k0') :
    KAgree k' k0' := by
  have keep : k' = k → k0' = k0 → KAgree k' k0' := by rintro rfl rfl; exact h
  cases c with
  | wordNew s =>
    obtain ⟨t, hs, a1, a2, a3⟩ := h1
    obtain ⟨t0, hs0, b1, b2, b3⟩ := h2
    cases (seen_eq hs).trans (seen_eq hs0).symm
    by_cases hw : WellFormed t
    · by_cases hb : ∃ b ∈ t, IsBlank b
      · exact keep (a3 ⟨hw, hb⟩).2 (b3 ⟨hw, hb⟩).2
      · have hb' : ∀ b ∈ t, ¬ IsBlank b := fun b h1 h2 => hb ⟨b, h1, h2⟩
        exact h.new (Or.inl rfl) (a1 ⟨hw, hb'⟩) (b1 ⟨hw, hb'⟩)
    · exact keep (a2 hw).2 (b2 hw).2
  | listCopy l =>
    obtain ⟨ts, a1, a2⟩ := h1
    obtain ⟨ts0, b1, b2⟩ := h2
    cases words_same (h.words a1) b1
    exact h.new (Or.inl rfl) a2 b2
  | listGet l i =>
    obtain ⟨ts, a1, a2, a3⟩ := h1
    obtain ⟨ts0, b1, b2, b3⟩ := h2
    cases words_same (h.words a1) b1
    cases hi : ts[i]? with
    | none => exact keep (a3 hi).2 (b3 hi).2
    | some t =>
      rw [(a2 t hi).2, (b2 t hi).2]
      exact ⟨h.things, by simp only [h.items]⟩
  | listAdd l w =>
    cases l with
    | obj n =>
      obtain ⟨_, ts, u, a1, a2, a3⟩ := h1
      obtain ⟨_, ts0, u0, b1, b2, b3⟩ := h2
      cases is_same (h.eq a1 (by simp)) b1
      cases word_same (h.word a2) b2
      exact (h.forget _).now (Or.inl rfl) a3 b3
    | text n f =>
      obtain ⟨_, d, d', t, u, a1, a2, a3, a4⟩ := h1
      obtain ⟨_, d0, d0', t0, u0, b1, b2, b3, b4⟩ := h2
      cases is_same (h.eq a1 (by simp)) b1
      cases word_same (h.word a2) b2
      cases replaced_det a3 b3
      exact (h.forget _).now (Or.inl rfl) a4 b4
  | split s =>
    obtain ⟨t, hs, a1, a2⟩ := h1
    obtain ⟨t0, hs0, b1, b2⟩ := h2
    cases (seen_eq hs).trans (seen_eq hs0).symm
    by_cases hw : WellFormed t
    · obtain ⟨ts, c1, c2⟩ := a1 hw
      obtain ⟨ts0, d1, d2⟩ := b1 hw
      cases tokens_det c1 d1
      exact h.new (Or.inl rfl) c2 d2
    · exact keep (a2 hw).2 (b2 hw).2
  | documentCopy n =>
    obtain ⟨d, a1, a2⟩ := h1
    obtain ⟨d0, b1, b2⟩ := h2
    cases is_same (h.eq a1 (by simp)) b1
    exact h.new (Or.inl rfl) a2 b2
  | addText n w s =>
    obtain ⟨d, u, f, t, a1, a2, a3, a4, a5, a6⟩ := h1
    obtain ⟨d0, u0, f0, t0, b1, b2, b3, b4, b5, b6⟩ := h2
    cases is_same (h.eq a1 (by simp)) b1
    cases word_same (h.word a2) b2
    cases letters_det a3 b3
    cases (seen_eq a4).trans (seen_eq b4).symm
    by_cases hw : WellFormed t
    · exact (h.forget _).now (Or.inl rfl) (a5 hw).2 (b5 hw).2
    · exact keep (a6 hw).2 (b6 hw).2
  | corpusAdd n d =>
    obtain ⟨_, ds, D, a1, a2, a3⟩ := h1
    obtain ⟨_, ds0, D0, b1, b2, b3⟩ := h2
    cases is_same (h.eq a1 (by simp)) b1
    cases is_same (h.eq a2 (by simp)) b2
    exact h.now (Or.inl rfl) a3 b3
  | resultsAdd n m =>
    obtain ⟨_, a, b, l, a1, a2, a3, a4⟩ := h1
    obtain ⟨_, a0, b0, l0, b1, b2, b3, b4⟩ := h2
    obtain ⟨_, c1, c2⟩ := h.results a1
    obtain ⟨_, d1, d2⟩ := h.results a2
    cases is_same c1 b1
    cases is_same d1 b2
    refine h.now (Or.inr ⟨_, _, rfl, rfl, ?_⟩) a4 b4
    refine (a3.perm.map _).trans (.trans ?_ (b3.perm.map _).symm)
    rw [List.map_append, List.map_append]
    exact c2.append d2
  | matcherNew os =>
    cases ho : os 1024 with
    | true => exact h.new (Or.inl rfl) (h1.1 ho) (h2.1 ho)
    | false => exact keep (h1.2 ho).2 (h2.2 ho).2
  | index n c =>
    obtain ⟨_, os, ds, ops, ws, cs, a1, a2, a3⟩ := h1
    obtain ⟨_, os0, ds0, ops0, ws0, cs0, b1, b2, b3⟩ := h2
    cases is_same (h.eq a1 (by simp)) b1
    cases is_same (h.eq a2 (by simp)) b2
    exact h.now (Or.inl rfl) a3 b3
  | search n s =>
    obtain ⟨os, ds, ops, ws, t, a1, a2, a3, a4⟩ := h1
    obtain ⟨os0, ds0, ops0, ws0, t0, b1, b2, b3, b4⟩ := h2
    cases is_same (h.eq a1 (by simp)) b1
    cases (seen_eq a2).trans (seen_eq b2).symm
    by_cases hw : WellFormed t
    · obtain ⟨i, hi, _, ai⟩ := a3 hw
      obtain ⟨j, hj, _, bj⟩ := b3 hw
      exact h.new (Or.inr ⟨i, j, rfl, rfl, (List.perm_ext_iff_of_nodup hi.1 hj.1).2 fun d => (hi.2 d).trans (hj.2 d).symm⟩) ai bj
    · exact keep (a4 hw).2 (b4 hw).2
  | addStandardErrors p data =>
    obtain ⟨ops, a1, a2, _⟩ := h1
    obtain ⟨ops0, b1, b2, _⟩ := h2
    cases errors_same (h.errors a1) b1
    exact h.nowErrors a2 b2
  | setSubstringMode p =>
    obtain ⟨_, ops, a1, a2⟩ := h1
    obtain ⟨_, ops0, b1, b2⟩ := h2
    cases errors_same (h.errors a1) b1
    exact h.nowErrors a2 b2
  | setEndDeletionError p v =>
    obtain ⟨_, ops, a1, a2⟩ := h1
    obtain ⟨_, ops0, b1, b2⟩ := h2
    cases errors_same (h.errors a1) b1
    exact h.nowErrors a2 b2
  | clearErrors p =>
    obtain ⟨_, ops, a1, a2⟩ := h1
    obtain ⟨_, ops0, b1, b2⟩ := h2
    cases errors_same (h.errors a1) b1
    exact h.nowErrors a2 b2
  | setWeight p w v =>
    obtain ⟨_, ws, t, a1, a2, a3⟩ := h1
    obtain ⟨_, ws0, t0, b1, b2, b3⟩ := h2
    cases weights_same (h.weights a1) b1
    cases word_same (h.word a2) b2
    exact h.nowWeights a3 b3
  | listNew => exact h.new (Or.inl rfl) h1 h2
  | documentNew id => exact h.new (Or.inl rfl) h1 h2
  | corpusNew => exact h.new (Or.inl rfl) h1 h2
  | resultsNew => exact h.new (Or.inl rfl) h1 h2
  | errorsNew => exact h.new (Or.inl rfl) h1 h2
  | weightsNew => exact h.new (Or.inl rfl) h1 h2
  | _ => exact keep h1.1 h2.1

omit [Runtime] [Python.Growth] in
theorem explains_snoc {cs : List (Py.Call × Ret)} {x : Py.Call × Ret} {k' : Py.Known} (h : Py.Explains (cs ++ [x]) k') :
    ∃ k, Py.Explains cs k ∧ k.Allows x.1 ∧ k.Learns x.1 x.2 k' := by
  generalize hl : cs ++ [x] = l at h
  cases h with
  | start => simp at hl
  | call h1 h2 h3 =>
    have e1 := List.append_inj_left' hl rfl
    have e2 := List.append_inj_right' hl rfl
    simp only [List.cons.injEq, and_true] at e2
    subst e1 e2
    exact ⟨_, h1, h2, h3⟩

omit [Runtime] [Python.Growth] in
theorem explains_nil {k : Py.Known} (h : Py.Explains [] k) : k = ⟨[], []⟩ := by
  generalize hl : ([] : List (Py.Call × Ret)) = l at h
  cases h with
  | start => rfl
  | call _ _ _ => simp at hl

omit [Runtime] [Python.Growth] in
theorem explains_agree {cs : List (Py.Call × Ret)} {k k0 : Py.Known} (h : Py.Explains cs k) (h0 : Py.Explains cs k0) : KAgree k k0 := by
  induction h generalizing k0 with
  | start => rw [explains_nil h0]; exact ⟨.nil, rfl⟩
  | call _ _ hl ih =>
    obtain ⟨k1, a1, _, a3⟩ := explains_snoc h0
    exact (ih a1).learns hl a3

/-- Among the explanations of a program is one that fits the world. -/
theorem explained {cs : List (Py.Call × Ret)} {w : World} (ht : Py.Trace cs w) : ∀ {k : Py.Known}, Py.Explains cs k →
    ∃ k0, Rel w k0 ∧ Py.Explains cs k0 ∧ KAgree k k0 := by
  induction ht with
  | start =>
    intro k hk
    rw [explains_nil hk]
    exact ⟨⟨[], []⟩, ⟨.nil, .nil⟩, .start, .nil, rfl⟩
  | call _ e ih =>
    intro k' hk
    obtain ⟨k, h1, h2, h3⟩ := explains_snoc hk
    obtain ⟨k0, a1, a2, a3⟩ := ih h1
    have h4 := a3.allows h2
    obtain ⟨w', r, k0', e', b1, b2⟩ := step a1 h4
    rw [e] at e'; cases e'
    exact ⟨k0', b2, .call a2 h4 b1, a3.learns h3 b1⟩

end
end Columbus.PyModule
