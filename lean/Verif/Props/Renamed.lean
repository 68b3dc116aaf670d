import Verif.Props.Typos
import Verif.Props.Arithmetic
/-
C110: letters, field names and document identifiers are only compared.
-/

namespace Columbus.Props
open Columbus Spec ErrorValues

/-! ### C110 -/

theorem edits_map (g : Letter → Letter) {q w : Word} {n : Nat} (h : Edits q w n) : Edits (q.map g) (w.map g) n := by
  induction h with
  | nil => exact .nil
  | delete a _ ih => rw [List.map_append]; exact ih.delete (g a)
  | insert b _ ih => rw [List.map_append]; exact ih.insert (g b)
  | keep a _ ih => rw [List.map_append, List.map_append]; exact ih.keep (g a)
  | replace a b _ ih => rw [List.map_append, List.map_append]; exact ih.replace (g a) (g b)
  | swap a b _ ih => rw [List.map_append, List.map_append]; exact ih.swap (g a) (g b)

/-- C110, distances: writing two words with other letters, the same for the same and different ones for different ones, does not
change the number of edits between them. -/
theorem C110_distance (g : Letter → Letter) (hg : Function.Injective g) (q w : Word) (n : Nat) :
    IsEditDistance (q.map g) (w.map g) n ↔ IsEditDistance q w n := by
  have back : ∀ {n : Nat}, Edits (q.map g) (w.map g) n → Edits q w n := by
    intro n h
    have := edits_map (Function.invFun g) h
    simpa only [List.map_map, Function.invFun_comp hg, List.map_id] using this
  exact ⟨fun h => ⟨back h.1, fun m hm => h.2 m (edits_map g hm)⟩, fun h => ⟨edits_map g h.1, fun m hm => h.2 m (back hm)⟩⟩

/-- C110, indexes: with the default errors, a search in an index of words written with other letters, for the query written so,
finds the same word identifiers with the same errors. -/
theorem C110_search [Build] [Icu] [Runtime] (os os' : Nat → Bool) (g : Letter → Letter) (hg : Function.Injective g) (h : IndexHistory)
    (ix ix' : LevIndex) (ho : IndexHistory.Ok h) (ho' : IndexHistory.Ok (h.map fun p => (p.1.map g, p.2))) (hb : built os h = .ok ix)
    (hb' : built os' (h.map fun p => (p.1.map g, p.2)) = .ok ix') (hl : ∀ p ∈ h, p.1.length ≤ 10000000) (q : Word)
    (hq : ∀ l ∈ q, l ≠ 0#16 ∧ g l ≠ 0#16) (hql : q.length ≤ 10000000) (T : Int) :
    ∃ r r', ix.findWords q (afterOps []) T [] = .ok r ∧ ix'.findWords (q.map g) (afterOps []) T [] = .ok r' ∧ ∀ x, x ∈ r' ↔ x ∈ r := by
  obtain ⟨r, e, hm⟩ := found_within os h ix ho hb hl q (fun l hl => (hq l hl).1) hql T
  obtain ⟨r', e', hm'⟩ := found_within os' _ ix' ho' hb' (by
    intro p hp
    obtain ⟨x, hx, rfl⟩ := List.mem_map.1 hp
    simpa using hl x hx) (q.map g) (by
    intro l hl
    obtain ⟨a, ha, rfl⟩ := List.mem_map.1 hl
    exact (hq a ha).2) (by simpa using hql) T
  refine ⟨r, r', e, e', fun x => ?_⟩
  rw [hm, hm']
  constructor
  · rintro ⟨w', n, ⟨hw1, hw2⟩, hd, h1, h2⟩
    obtain ⟨p, hp, hpw⟩ := List.mem_map.1 hw2
    injection hpw with p1 p2
    refine ⟨p.1, n, ⟨?_, ?_⟩, ?_, h1, h2⟩
    · intro h0; rw [← p1, h0] at hw1; exact hw1 rfl
    · rw [← p2]; exact hp
    · rw [← p1] at hd; exact (C110_distance g hg _ _ _).1 hd
  · rintro ⟨w, n, ⟨hw1, hw2⟩, hd, h1, h2⟩
    exact ⟨w.map g, n, ⟨by simpa using hw1, List.mem_map.2 ⟨_, hw2, rfl⟩⟩, (C110_distance g hg _ _ _).2 hd, h1, h2⟩

/-- The same texts with other letters, field names and document identifiers. -/
def renamed (g : Letter → Letter) (field : Word → Word) (doc : DocumentID → DocumentID) (H : MatcherHistory) : MatcherHistory :=
  H.map fun x => ⟨doc x.doc, field x.field, x.size, x.words.map (List.map g)⟩

section
variable [Build] [Icu] [Runtime] [Fp] {os os' : Nat → Bool} {m m' : Matcher} {H : MatcherHistory} {K K' : List Word}

/-- C110, matchers: if another matcher has indexed the same texts with other letters, field names and document identifiers, then
a search with the default errors for the query written so lists the same documents under their other identifiers. -/
theorem C110_match (g : Letter → Letter) (field : Word → Word) (doc : DocumentID → DocumentID) (hg : Function.Injective g)
    (hdoc : Function.Injective doc) (h : Ran os m H K) (h' : Ran os' m' (renamed g field doc H) K')
    (hd : m.e = ErrorValues.new) (hd' : m'.e = ErrorValues.new) (q : WordList) (p p' : SearchParameters) (hs : Sane m.e q H)
    (hs' : Sane m'.e (q.map (List.map g)) (renamed g field doc H)) (hf : Unfiltered p) (hf' : Unfiltered p')
    (hdy : p'.isDynamic = p.isDynamic) (hns : ∀ f, p'.isNonsearchingField (field f) = p.isNonsearchingField f) :
    ∃ r k r' k', m.matchQuery q p = (m, .ok r) ∧ Shows r k ∧ m'.matchQuery (q.map (List.map g)) p' = (m', .ok r') ∧ Shows r' k' ∧
      (∀ d, doc d ∈ k'.map (·.2) ↔ d ∈ k.map (·.2)) ∧ ∀ d' ∈ k'.map (·.2), ∃ d ∈ k.map (·.2), doc d = d' := by
  obtain ⟨r, k, e, hk, hm⟩ := C44_default h hd q p hs hf
  obtain ⟨r', k', e', hk', hm'⟩ := C44_default h' hd' (q.map (List.map g)) p' hs' hf'
  have sub : ∀ d' ∈ k'.map (·.2), ∃ d ∈ k.map (·.2), doc d = d' := by
    intro d' hd'
    obtain ⟨f, w, x, n, ⟨y, hy, rfl, rfl, hw⟩, hn, hx, hdist, hle⟩ := (hm' d').1 hd'
    obtain ⟨z, hz, rfl⟩ := List.mem_map.1 hy
    obtain ⟨v, hv, rfl⟩ := List.mem_map.1 hw
    obtain ⟨u, hu, rfl⟩ := List.mem_map.1 hx
    refine ⟨z.doc, (hm _).2 ⟨z.field, v, u, n, ⟨z, hz, rfl, rfl, hv⟩, ?_, hu, (C110_distance g hg _ _ _).1 hdist, ?_⟩, rfl⟩
    · rw [← hns]; exact hn
    · rw [hdy, List.length_map] at hle; exact hle
  refine ⟨r, k, r', k', e, hk, e', hk', fun d => ⟨fun hx => ?_, fun hx => ?_⟩, sub⟩
  · obtain ⟨d2, h2, h3⟩ := sub _ hx
    rwa [← hdoc h3]
  · obtain ⟨f, w, x, n, ⟨y, hy, rfl, rfl, hw⟩, hn, hx, hdist, hle⟩ := (hm d).1 hx
    refine (hm' _).2 ⟨field y.field, w.map g, x.map g, n, ⟨_, List.mem_map.2 ⟨y, hy, rfl⟩, rfl, rfl, List.mem_map.2 ⟨w, hw, rfl⟩⟩,
      ?_, List.mem_map.2 ⟨x, hx, rfl⟩, (C110_distance g hg _ _ _).2 hdist, ?_⟩
    · rw [hns]; exact hn
    · rw [hdy, List.length_map]; exact hle

end

theorem renamed_posting {g : Letter → Letter} {field : Word → Word} {doc : DocumentID → DocumentID} (hdoc : Function.Injective doc)
    (H : MatcherHistory) (d : DocumentID) (f' w' : Word) : (renamed g field doc H).Posting (doc d) f' w' ↔
      ∃ f w, H.Posting d f w ∧ field f = f' ∧ w.map g = w' := by
  constructor
  · rintro ⟨y, hy, h1, rfl, hw⟩
    obtain ⟨z, hz, rfl⟩ := List.mem_map.1 hy
    obtain ⟨v, hv, rfl⟩ := List.mem_map.1 hw
    exact ⟨z.field, v, ⟨z, hz, hdoc h1, rfl, hv⟩, rfl, rfl⟩
  · rintro ⟨f, w, ⟨z, hz, rfl, rfl, hw⟩, rfl, rfl⟩
    exact ⟨_, List.mem_map.2 ⟨z, hz, rfl⟩, rfl, rfl, List.mem_map.2 ⟨w, hw, rfl⟩⟩

theorem renamed_counts {g : Letter → Letter} {field : Word → Word} {doc : DocumentID → DocumentID} (hg : Function.Injective g)
    (hfield : Function.Injective field) (H : MatcherHistory) (f w : Word) :
    (renamed g field doc H).count (field f) (w.map g) = H.count f w ∧ (renamed g field doc H).maxCount (field f) = H.maxCount f := by
  have occ : (renamed g field doc H).occurrences (field f) = (H.occurrences f).map (List.map g) := by
    unfold MatcherHistory.occurrences renamed
    induction H with
    | nil => rfl
    | cons x H ih =>
      rw [List.map_cons, List.filter_cons, List.filter_cons]
      have : (field x.field == field f) = (x.field == f) := by
        rw [Bool.eq_iff_iff, beq_iff_eq, beq_iff_eq]; exact hfield.eq_iff
      simp only [this]
      split
      · rw [List.flatMap_cons, List.flatMap_cons, List.map_append, ih]
      · exact ih
  have hc : ∀ w, (renamed g field doc H).count (field f) (w.map g) = H.count f w := by
    intro w
    unfold MatcherHistory.count
    rw [occ]
    exact List.count_map_of_injective _ _ hg.list_map _
  refine ⟨hc w, ?_⟩
  unfold MatcherHistory.maxCount
  rw [occ, List.map_map]
  congr 1
  exact List.map_congr_left fun w _ => hc w

theorem renamed_close [Build] [Icu] {g : Letter → Letter} (hg : Function.Injective g) {p p' : SearchParameters}
    (hdy : p'.isDynamic = p.isDynamic) (q : WordList) (w : Word) (v : Int) :
    CloseTo ErrorValues.new p' (q.map (List.map g)) (w.map g) v ↔ CloseTo ErrorValues.new p q w v := by
  have cost : ∀ (x : Word) (v : Int), IsEditCost (configured ErrorValues.new (x.map g).length) (x.map g) (w.map g) v ↔
      IsEditCost (configured ErrorValues.new x.length) x w v := by
    intro x v
    rw [new_is_default, configured_default, configured_default, isEditCost_iff, isEditCost_iff]
    obtain ⟨n, hn, hd⟩ := best_unit (q := x) (w := w)
    obtain ⟨n', hn', hd'⟩ := best_unit (q := x.map g) (w := w.map g)
    have hd2 := (C110_distance g hg x w n').1 hd'
    have : n = n' := Nat.le_antisymm (hd.2 _ hd2.1) (hd2.2 _ hd.1)
    rw [hn, hn', this]
  have lim : ∀ x : Word, limit p' (x.map g) = limit p x := by
    intro x; unfold limit; rw [hdy, List.length_map]
  constructor
  · rintro ⟨⟨x, hx, h1, h2⟩, h3⟩
    obtain ⟨y, hy, rfl⟩ := List.mem_map.1 hx
    refine ⟨⟨y, hy, (cost y v).1 h1, by rw [← lim]; exact h2⟩, fun x hx v' h1 h2 => ?_⟩
    exact h3 _ (List.mem_map.2 ⟨x, hx, rfl⟩) v' ((cost x v').2 h1) (by rw [lim]; exact h2)
  · rintro ⟨⟨x, hx, h1, h2⟩, h3⟩
    refine ⟨⟨_, List.mem_map.2 ⟨x, hx, rfl⟩, (cost x v).2 h1, by rw [lim]; exact h2⟩, fun x hx v' h1 h2 => ?_⟩
    obtain ⟨y, hy, rfl⟩ := List.mem_map.1 hx
    exact h3 y hy v' ((cost y v').1 h1) (by rw [← lim]; exact h2)

section
variable [Build] [Icu] [Runtime] {os os' : Nat → Bool} {m m' : Matcher} {H : MatcherHistory} {K K' : List Word}

attribute [local instance] ieee in
/-- C110, relevancies: if the fields have the same weights under their other names, the relevancies of a document under both
identifiers agree up to rounding, with the bound of C74. -/
theorem C110_relevancy (g : Letter → Letter) (field : Word → Word) (doc : DocumentID → DocumentID) (hg : Function.Injective g)
    (hfield : Function.Injective field) (hdoc : Function.Injective doc) (h : Ran os m H K) (h' : Ran os' m' (renamed g field doc H) K')
    (hd : m.e = ErrorValues.new) (hd' : m'.e = ErrorValues.new) (q : WordList) (p p' : SearchParameters) (hs : Sane m.e q H)
    (hs' : Sane m'.e (q.map (List.map g)) (renamed g field doc H)) (hf : Unfiltered p) (hf' : Unfiltered p')
    (hdy : p'.isDynamic = p.isDynamic) (hns : ∀ f, p'.isNonsearchingField (field f) = p.isNonsearchingField f)
    (hW : ∀ f, IndexWeights.getWeight m'.weights (field f) = IndexWeights.getWeight m.weights f)
    (hl : H.words.length < 2^53) (b : ℤ) (hb : -1021 ≤ b)
    (hw : ∀ x ∈ H, 0 ≤ IndexWeights.getWeight m.weights x.field ∧ IndexWeights.getWeight m.weights x.field ≤ 2^b)
    (m1 m1' : Matcher) (r r' : MatchResults) (k k' : List Result) (e : m.matchQuery q p = (m1, .ok r)) (hk : Shows r k)
    (e' : m'.matchQuery (q.map (List.map g)) p' = (m1', .ok r')) (hk' : Shows r' k') :
    ∀ d rel rel', (rel, d) ∈ k → (rel', doc d) ∈ k' → ∃ L : List (Word × Word × Int), L.Nodup ∧
      (∀ f w v, (f, w, v) ∈ L ↔ H.Posting d f w ∧ p.isNonsearchingField f = false ∧ CloseTo m.e p q w v) ∧
      |rel - rel'| ≤ 2 * (L.length * (L.length + 6) * 2^b * 2^(-54 : ℤ)) := by
  intro d rel rel' hx hx'
  have nofilter : ∀ {p : SearchParameters}, Unfiltered p → ∀ w ∈ filterWords p.filter, Usable w := by
    intro p hf w hw
    unfold Unfiltered at hf
    simp [filterWords, hf] at hw
  have words : (renamed g field doc H).words.length = H.words.length := by
    unfold MatcherHistory.words renamed
    induction H with
    | nil => rfl
    | cons x H ih => simp [List.length_flatMap, List.map_map, Function.comp_def]
  obtain ⟨L1, n1, _, t1, a1, _⟩ := C73_accuracy h q p hs (by rw [hd]; exact exact_default _) (nofilter hf) hl b hb hw m1 r k e hk rel d hx
  obtain ⟨L2, n2, _, t2, a2, _⟩ := C73_accuracy h' (q.map (List.map g)) p' hs' (by rw [hd']; exact exact_default _) (nofilter hf')
    (by rw [words]; exact hl) b hb (by
      intro x hx
      obtain ⟨y, hy, rfl⟩ := List.mem_map.1 hx
      simp only [hW]
      exact hw y hy) m1' r' k' e' hk' rel' (doc d) hx'
  refine ⟨L1, n1, t1, ?_⟩
  have inj : Function.Injective fun x : Word × Word × Int => ((field x.1, x.2.1.map g, x.2.2) : Word × Word × Int) := by
    rintro ⟨a, b, c⟩ ⟨a', b', c'⟩ h
    simp only [Prod.mk.injEq] at h
    rw [hfield h.1, hg.list_map h.2.1, h.2.2]
  have hp : (L1.map fun x => ((field x.1, x.2.1.map g, x.2.2) : Word × Word × Int)).Perm L2 := by
    refine (List.perm_ext_iff_of_nodup (n1.map inj) n2).2 ?_
    rintro ⟨f', w', v⟩
    rw [t2, renamed_posting hdoc, List.mem_map]
    constructor
    · rintro ⟨⟨f, w, v2⟩, hy, heq⟩
      simp only [Prod.mk.injEq] at heq
      obtain ⟨rfl, rfl, rfl⟩ := heq
      obtain ⟨b1, b2, b3⟩ := (t1 f w v2).1 hy
      refine ⟨⟨f, w, b1, rfl, rfl⟩, by rw [hns]; exact b2, ?_⟩
      rw [hd'] ; rw [hd] at b3
      exact (renamed_close hg hdy q w v2).2 b3
    · rintro ⟨⟨f, w, b1, rfl, rfl⟩, b2, b3⟩
      refine ⟨(f, w, v), (t1 f w v).2 ⟨b1, by rw [← hns]; exact b2, ?_⟩, rfl⟩
      rw [hd]; rw [hd'] at b3
      exact (renamed_close hg hdy q w v).1 b3
  have hsum : (L1.map fun x => exactContribution m.weights H x.1 x.2.1 x.2.2).sum =
      (L2.map fun x => exactContribution m'.weights (renamed g field doc H) x.1 x.2.1 x.2.2).sum := by
    rw [← (hp.map _).sum_eq, List.map_map]
    congr 1
    refine List.map_congr_left ?_
    rintro ⟨f, w, v⟩ _
    simp only [Function.comp_apply, exactContribution]
    obtain ⟨c1, c2⟩ := renamed_counts (doc := doc) hg hfield H f w
    rw [c1, c2, hW]
  rw [hsum] at a1
  rw [← hp.length_eq, List.length_map] at a2
  rw [abs_le] at *
  constructor <;> linarith [a1.1, a1.2, a2.1, a2.2]

end

/-- Titles of letters inside and outside the table of errors (C32): "12" and the same word with each letter 0x300 further on are both
listed for the same mistake. -/
example [Build] [Icu] [Runtime] [Fp] : ∃ m m' r k r' k',
    Ran Example.os m [⟨1, Example.fieldT, 1, [[0x31#16, 0x32#16]]⟩] [] ∧
    Ran Example.os m' (renamed (· + 0x300#16) id id [⟨1, Example.fieldT, 1, [[0x31#16, 0x32#16]]⟩]) [] ∧
    m.matchQuery [[0x32#16, 0x31#16]] .new = (m, .ok r) ∧ Shows r k ∧
    m'.matchQuery [[0x332#16, 0x331#16]] .new = (m', .ok r') ∧ Shows r' k' ∧ (1 ∈ k'.map (·.2) ↔ 1 ∈ k.map (·.2)) := by
  have v1 : Utf16 [0x31#16, 0x32#16] [0x31, 0x32] :=
    Utf16.bmp (u := 0x31#16) (by decide) (Utf16.bmp (u := 0x32#16) (by decide) .nil)
  have v2 : Utf16 [0x331#16, 0x332#16] [0x331, 0x332] :=
    Utf16.bmp (u := 0x331#16) (by decide) (Utf16.bmp (u := 0x332#16) (by decide) .nil)
  obtain ⟨m, h, he⟩ := one_title [0x31#16, 0x32#16] ⟨by simp, ⟨_, v1⟩, by simp [IsBlank], by simp⟩ (by decide)
  obtain ⟨m', h', he'⟩ := one_title [0x331#16, 0x332#16] ⟨by simp, ⟨_, v2⟩, by simp [IsBlank], by simp⟩ (by decide)
  obtain ⟨r, k, r', k', e, hk, e', hk', hm, _⟩ := C110_match (· + 0x300#16) id id (fun a b hab => by simpa using hab)
    Function.injective_id h h' he he' [[0x32#16, 0x31#16]] .new .new
    (by rw [he]; exact sane_default (L := 100) (by simp) (by simp) (by simp [MatcherHistory.words]) (by norm_num))
    (by rw [he']; exact sane_default (L := 100) (by simp) (by simp) (by simp [MatcherHistory.words, renamed]) (by norm_num))
    rfl rfl rfl (fun _ => rfl)
  exact ⟨m, m', r, k, r', k', h, h', e, hk, e', hk', hm 1⟩

end Columbus.Props
