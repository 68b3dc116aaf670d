import Mathlib.Data.List.Induction
import Verif.Proofs.Store
import Verif.Proofs.LevIndex
import Verif.Proofs.Results
import Verif.Proofs.SearchCosts
import Verif.Spec.Matcher
/-
The invariant of the matcher and its preservation by indexing.
-/

namespace Columbus
open Spec ErrorValues

/-! ### Histories -/

namespace Spec.MatcherHistory
variable {H : MatcherHistory} {d : DocumentID} {f w : Word} {x : Indexed}

theorem occurrences_append (H' : MatcherHistory) : occurrences (H ++ H') f = occurrences H f ++ occurrences H' f := by
  simp [occurrences]

theorem occurrences_single : occurrences [x] f = if x.field = f then x.words else [] := by
  by_cases h : x.field = f <;> simp [occurrences, h]

theorem mem_occurrences : w ∈ occurrences H f ↔ ∃ d, Posting H d f w := by
  simp only [occurrences, List.mem_flatMap, List.mem_filter, beq_iff_eq, Posting]
  constructor
  · rintro ⟨x, ⟨h1, h2⟩, h3⟩; exact ⟨x.doc, x, h1, rfl, h2, h3⟩
  · rintro ⟨_, x, h1, _, h2, h3⟩; exact ⟨x, ⟨h1, h2⟩, h3⟩

theorem posting_append (H' : MatcherHistory) : Posting (H ++ H') d f w ↔ Posting H d f w ∨ Posting H' d f w := by
  simp only [Posting, List.mem_append]
  constructor
  · rintro ⟨x, h | h, r⟩
    · exact Or.inl ⟨x, h, r⟩
    · exact Or.inr ⟨x, h, r⟩
  · rintro (⟨x, h, r⟩ | ⟨x, h, r⟩)
    · exact ⟨x, Or.inl h, r⟩
    · exact ⟨x, Or.inr h, r⟩

theorem posting_single : Posting [x] d f w ↔ x.doc = d ∧ x.field = f ∧ w ∈ x.words := by
  simp [Posting]

theorem size_snoc : size (H ++ [x]) d f = if x.doc = d ∧ x.field = f then some x.size else size H d f := by
  simp only [size, List.reverse_append, List.reverse_singleton, List.singleton_append, List.find?_cons]
  by_cases h : x.doc = d ∧ x.field = f
  · simp [h]
  · rw [if_neg h]
    have : (x.doc == d && x.field == f) = false := by
      rw [← Bool.not_eq_true]; simpa using h
    rw [this]

theorem size_isSome (h : size H d f ≠ none) : ∃ x ∈ H, x.doc = d ∧ x.field = f := by
  rw [size, ne_eq, Option.map_eq_none_iff] at h
  obtain ⟨x, hx⟩ := Option.ne_none_iff_exists'.1 h
  have h1 := List.mem_of_find?_eq_some hx
  have h2 := List.find?_some hx
  simp only [Bool.and_eq_true, beq_iff_eq] at h2
  exact ⟨x, List.mem_reverse.1 h1, h2⟩

theorem size_of_mem (h : ∃ x ∈ H, x.doc = d ∧ x.field = f) : size H d f ≠ none := by
  obtain ⟨x, h1, h2, h3⟩ := h
  rw [size, ne_eq, Option.map_eq_none_iff, List.find?_eq_none]
  intro hc
  exact hc x (List.mem_reverse.2 h1) (by simp [h2, h3])

theorem mem_mentions : w ∈ mentions H ↔ ∃ x ∈ H, w = x.field ∨ w ∈ x.words := by
  simp [mentions]

theorem mentions_field (h : x ∈ H) : x.field ∈ mentions H := mem_mentions.2 ⟨x, h, Or.inl rfl⟩

theorem mentions_word (h : x ∈ H) (hw : w ∈ x.words) : w ∈ mentions H := mem_mentions.2 ⟨x, h, Or.inr hw⟩

theorem Posting.field (h : Posting H d f w) : f ∈ mentions H := by
  obtain ⟨x, h1, _, rfl, _⟩ := h; exact mentions_field h1

theorem Posting.word (h : Posting H d f w) : w ∈ mentions H := by
  obtain ⟨x, h1, _, _, h2⟩ := h; exact mentions_word h1 h2

theorem mentions_append (H' : MatcherHistory) : mentions (H ++ H') = mentions H ++ mentions H' := by simp [mentions]

theorem occurrences_words : ∀ w ∈ occurrences H f, w ∈ words H := by
  intro w hw
  obtain ⟨d, x, h1, _, _, h2⟩ := mem_occurrences.1 hw
  exact List.mem_flatMap.2 ⟨x, h1, h2⟩

theorem occurrences_ne (h : occurrences H f ≠ []) : f ∈ mentions H := by
  obtain ⟨w, hw⟩ := List.exists_mem_of_ne_nil _ h
  obtain ⟨d, hp⟩ := mem_occurrences.1 hw
  exact hp.field

end Spec.MatcherHistory

/-! ### Names -/

theorem lettersIn_append (a b : List Word) : lettersIn (a ++ b) = lettersIn a + lettersIn b := by simp [lettersIn]
theorem lettersIn_cons (w : Word) (b : List Word) : lettersIn (w :: b) = w.length + lettersIn b := by simp [lettersIn]
theorem lettersIn_nil : lettersIn [] = 0 := rfl

theorem Spec.StorageRefused.mono {os : Nat → Bool} {a b : Nat} (h : StorageRefused os a) (hab : a ≤ b) : StorageRefused os b := by
  rcases h with h | h
  · exact Or.inl h
  · right; omega

theorem refusal_storage {t : Trie} {n : Nat} {os : Nat → Bool} (hos : t.os = os) (h : Trie.Refusal t (4 + 32 * (1 + n))) :
    StorageRefused os n := by
  rcases h with h | ⟨s, _, _, _, _, h⟩
  · right; omega
  · left; rw [hos] at h; exact ⟨_, h⟩

/-- Names after asking for the identifier of a word. -/
def note (names : List Word) (w : Word) : List Word := if w ∈ names then names else names ++ [w]

theorem note_prefix (names : List Word) (w : Word) : names <+: note names w := by
  unfold note; split
  · exact List.prefix_refl _
  · exact List.prefix_append _ _

theorem mem_note {names : List Word} {w v : Word} : v ∈ note names w ↔ v ∈ names ∨ v = w := by
  unfold note; split
  · constructor
    · exact Or.inl
    · rintro (h | rfl) <;> assumption
  · simp

theorem lettersIn_note (names : List Word) (w : Word) : lettersIn (note names w) ≤ lettersIn names + w.length := by
  unfold note; split
  · omega
  · rw [lettersIn_append, lettersIn_cons, lettersIn_nil]; omega

/-- The names stored, with their identifiers as positions. -/
structure Names (s : WordStore) (os : Nat → Bool) (names : List Word) : Prop where
  inv : ∃ g, SInv s g names ∧ g.n ≤ 1 + lettersIn names
  good : ∀ w ∈ names, GoodWord w
  os : s.words.os = os

theorem getElem?_idxOf {names : List Word} {w : Word} (h : w ∈ names) : names[names.idxOf w]? = some w := by
  rw [List.getElem?_eq_getElem (List.idxOf_lt_length_of_mem h)]
  simp

theorem idxOf_prefix {a b : List Word} {w : Word} (hp : a <+: b) (h : w ∈ a) : b.idxOf w = a.idxOf w := by
  obtain ⟨c, rfl⟩ := hp
  exact List.idxOf_append_of_mem h

theorem getElem?_prefix {a b : List Word} {w : Word} {i : Nat} (hp : a <+: b) (h : a[i]? = some w) : b[i]? = some w := by
  obtain ⟨c, rfl⟩ := hp
  rw [List.getElem?_append_left (List.getElem?_eq_some_iff.1 h).1]; exact h

namespace Names
variable {s : WordStore} {os : Nat → Bool} {names : List Word}

theorem nodup (h : Names s os names) : names.Nodup := by
  obtain ⟨g, hg, _⟩ := h.inv; exact hg.nodup

theorem idx (h : Names s os names) {i : Nat} {w : Word} (hi : names[i]? = some w) : names.idxOf w = i := by
  obtain ⟨h1, rfl⟩ := List.getElem?_eq_some_iff.1 hi
  exact h.nodup.idxOf_getElem i h1

theorem getWord [Build] (h : Names s os names) {i : Nat} {w : Word} (hi : names[i]? = some w) : s.getWord i = .ok w := by
  obtain ⟨g, hg, _⟩ := h.inv
  exact hg.getWord hi (GoodWord.readable (h.good w (List.mem_of_getElem? hi)))

theorem getWord_iff [Build] (h : Names s os names) {i : Nat} {w : Word} : s.getWord i = .ok w ↔ names[i]? = some w := by
  refine ⟨fun e => ?_, h.getWord⟩
  cases hi : names[i]? with
  | some v => rw [h.getWord hi] at e; injection e with e; rw [e]
  | none =>
    obtain ⟨g, hg, _⟩ := h.inv
    rw [hg.getWord_bad (List.getElem?_eq_none_iff.1 hi)] at e; cases e

theorem hasWord (h : Names s os names) {w : Word} (hw : ∀ l ∈ w, l ≠ 0#16) : s.hasWord w = .ok (decide (w ∈ names)) := by
  obtain ⟨g, hg, _⟩ := h.inv
  exact hg.hasWord hw

theorem getID_old [Build] (h : Names s os names) {w : Word} (hw : w ∈ names) : s.getID w = .ok (s, names.idxOf w) := by
  obtain ⟨g, hg, _⟩ := h.inv
  exact hg.getID_old (h.good w hw).noNul (getElem?_idxOf hw)

theorem lt_invalid (h : Names s os names) {i : Nat} (hi : i < names.length) : i < INVALID_WORDID := by
  obtain ⟨g, hg, _⟩ := h.inv
  have h1 := hg.len_le
  have h2 := hg.trie.bound
  show i < 4294967295
  omega

theorem getID_empty [Build] (h : Names s os names) : s.getID [] = .error .outOfRange := by
  have h1 : s.words.hasWord [] = .ok false := by
    have := h.hasWord (w := []) (by simp)
    rw [decide_eq_false (fun hm => (h.good [] hm).nonempty rfl)] at this
    exact this
  rw [WordStore.getID, h1]
  rfl

/-- Asking for the identifier of a usable word. -/
theorem getID [Build] (h : Names s os names) {w : Word} (hu : Usable w) :
    (w = [] ∧ s.getID w = .error .outOfRange) ∨
    (w ≠ [] ∧ s.getID w = .error .runtimeError ∧ StorageRefused os (lettersIn names + w.length)) ∨
    (w ≠ [] ∧ ∃ s', s.getID w = .ok (s', (note names w).idxOf w) ∧ Names s' os (note names w)) := by
  rcases hu with rfl | hw
  · exact Or.inl ⟨rfl, h.getID_empty⟩
  · right
    by_cases hm : w ∈ names
    · right
      refine ⟨hw.nonempty, s, ?_, ?_⟩
      · rw [note, if_pos hm]; exact h.getID_old hm
      · rw [note, if_pos hm]; exact h
    · obtain ⟨g, hg, hn⟩ := h.inv
      rcases hg.getID_new (GoodWord.storable hw) hm with ⟨e, hr⟩ | ⟨s', g', e, hg', hn', hos, _⟩
      · left
        refine ⟨hw.nonempty, e, refusal_storage h.os (hr.mono rfl (Nat.le_refl _) (by omega))⟩
      · right
        refine ⟨hw.nonempty, s', ?_, ?_⟩
        · rw [note, if_neg hm, e, List.idxOf_append_of_notMem hm]; simp
        · rw [note, if_neg hm]
          refine ⟨⟨g', hg', ?_⟩, ?_, by rw [hos, h.os]⟩
          · rw [lettersIn_append, lettersIn_cons, lettersIn_nil]; omega
          · intro v hv
            rcases List.mem_append.1 hv with hv | hv
            · exact h.good v hv
            · simp only [List.mem_singleton] at hv; subst hv; exact hw

end Names

/-! ### Field indexes -/

/-- The insertions made in the index of a field. -/
def fieldHistory (names : List Word) (H : MatcherHistory) (f : Word) : IndexHistory :=
  (H.occurrences f).map fun w => (w, names.idxOf w)

theorem history_ok {s : WordStore} {os : Nat → Bool} {names : List Word} (h : Names s os names) {ws : List Word}
    (hm : ∀ w ∈ ws, w ∈ names) : IndexHistory.Ok (ws.map fun w => (w, names.idxOf w)) := by
  constructor
  · intro p hp
    obtain ⟨w, hw, rfl⟩ := List.mem_map.1 hp
    exact (h.good w (hm w hw)).noNul
  · intro p hp
    obtain ⟨w, hw, rfl⟩ := List.mem_map.1 hp
    exact (GoodWord.storable (h.good w (hm w hw))).2.2
  · intro p hp
    obtain ⟨w, hw, rfl⟩ := List.mem_map.1 hp
    exact h.lt_invalid (List.idxOf_lt_length_of_mem (hm w hw))
  · intro p hp r hr _ _
    obtain ⟨w, hw, rfl⟩ := List.mem_map.1 hp
    obtain ⟨v, hv, rfl⟩ := List.mem_map.1 hr
    constructor
    · intro e; dsimp only at e ⊢; rw [e]
    · intro e
      have h1 := getElem?_idxOf (hm w hw)
      have h2 := getElem?_idxOf (hm v hv)
      dsimp only at e
      rw [e, h2] at h1
      injection h1 with h1
      exact h1.symm

theorem fieldHistory_prefix {names names' : List Word} (hp : names <+: names') {H : MatcherHistory}
    (hk : ∀ w ∈ H.mentions, w ∈ names) (f : Word) : fieldHistory names' H f = fieldHistory names H f := by
  unfold fieldHistory
  apply List.map_congr_left
  intro w hw
  obtain ⟨d, hd⟩ := MatcherHistory.mem_occurrences.1 hw
  rw [idxOf_prefix hp (hk w hd.word)]

/-- Documents recorded for identifiers. -/
def docsOf (ri : ReverseIndex) (i j : WordID) : List DocumentID := (HMap.find ri (i, j)).getD []

/-- The index of a field. -/
def IxInv (os : Nat → Bool) (names : List Word) (H : MatcherHistory) (f : Word) (ix : LevIndex) : Prop :=
  ∃ g, LInv ix g (fieldHistory names H f) ∧ g.n ≤ 1 + lettersIn (H.occurrences f) ∧ ix.trie.os = os

/-- The matcher stands for the history; `names` are the names it knows. -/
structure MInv [Build] [Icu] (m : Matcher) (H : MatcherHistory) (names : List Word) : Prop where
  store : Names m.store m.os names
  known : ∀ w ∈ H.mentions, w ∈ names
  ixs : ∀ i ix, HMap.find m.indexes i = some ix → ∃ f, names[i]? = some f ∧ H.occurrences f ≠ [] ∧ IxInv m.os names H f ix
  has : ∀ i f, names[i]? = some f → H.occurrences f ≠ [] → HMap.find m.indexes i ≠ none
  keys : (m.indexes.map (·.1)).Nodup
  post : ∀ i j d, d ∈ docsOf m.reverseIndex i j ↔ ∃ f w, names[i]? = some f ∧ names[j]? = some w ∧ H.Posting d f w
  docs : ∀ i j, (docsOf m.reverseIndex i j).Nodup
  sizes : ∀ d i, SMap.find Matcher.ltDW m.originalSizes (d, i) = names[i]?.bind (H.size d)
  e : ∃ ops, m.e = afterOps ops
  stats : ∀ i, m.stats.getTotalWordCount i = names[i]?.elim 0 fun w => H.words.count w

/-- What is left of a matcher after an `index` call that was refused memory: the store or one index has no mapping; the
rest is as after the texts `H0`, which are between `H` and `T`. -/
def MLost [Build] [Icu] (e : ErrorValues) (os : Nat → Bool) (H T : MatcherHistory) (m' : Matcher) : Prop :=
  ∃ m0 H0 names0, MInv m0 H0 names0 ∧ m0.e = e ∧ m'.e = e ∧ (∀ w ∈ H.words, w ∈ H0.words) ∧ (∀ w ∈ H0.words, w ∈ T.words) ∧
    (os 1024 = false ∨ (m'.store = m0.store.after .runtimeError ∧ m'.indexes = m0.indexes) ∨
      (m'.store = m0.store ∧ ∃ i ix, i < names0.length ∧ ix.trie.mapped = 0 ∧ m'.indexes = HMap.set m0.indexes i ix))

theorem MLost.mono [Build] [Icu] {e : ErrorValues} {os : Nat → Bool} {H T H' T' : MatcherHistory} {m' : Matcher}
    (h : MLost e os H T m') (hH : ∀ w ∈ H'.words, w ∈ H.words) (hT : ∀ w ∈ T.words, w ∈ T'.words) : MLost e os H' T' m' := by
  obtain ⟨m0, H0, names0, h1, h2, h3, h4, h5, h6⟩ := h
  exact ⟨m0, H0, names0, h1, h2, h3, fun w hw => h4 w (hH w hw), fun w hw => hT w (h5 w hw), h6⟩

theorem HMap.set_set {K V : Type} [DecidableEq K] (m : HMap K V) (k : K) (v v' : V) :
    HMap.set (HMap.set m k v) k v' = HMap.set m k v' := by
  induction m with
  | nil => simp [HMap.set]
  | cons p r ih =>
    obtain ⟨a, b⟩ := p
    by_cases h : a = k
    · simp [HMap.set, h]
    · simp [HMap.set, h, ih]

theorem HMap.mem_keys_set {K V : Type} [DecidableEq K] (m : HMap K V) (k : K) (v : V) (x : K) :
    x ∈ (HMap.set m k v).map (·.1) ↔ x = k ∨ x ∈ m.map (·.1) := by
  induction m with
  | nil => simp [HMap.set]
  | cons p r ih =>
    obtain ⟨k', v'⟩ := p
    rw [HMap.set]
    split
    · rename_i e; subst e; simp
    · simp only [List.map_cons, List.mem_cons, ih]
      constructor
      · rintro (h | h | h)
        · exact Or.inr (Or.inl h)
        · exact Or.inl h
        · exact Or.inr (Or.inr h)
      · rintro (h | h | h)
        · exact Or.inr (Or.inl h)
        · exact Or.inl h
        · exact Or.inr (Or.inr h)

theorem HMap.nodup_set {K V : Type} [DecidableEq K] {m : HMap K V} (h : (m.map (·.1)).Nodup) (k : K) (v : V) :
    ((HMap.set m k v).map (·.1)).Nodup := by
  induction m with
  | nil => simp [HMap.set]
  | cons p r ih =>
    obtain ⟨k', v'⟩ := p
    rw [HMap.set]
    simp only [List.map_cons, List.nodup_cons] at h
    split
    · simpa using h
    · rename_i hne
      simp only [List.map_cons, List.nodup_cons]
      refine ⟨?_, ih h.2⟩
      intro hc
      rw [HMap.mem_keys_set] at hc
      rcases hc with hc | hc
      · exact hne hc
      · exact h.1 hc

theorem HMap.find_none_iff {K V : Type} [DecidableEq K] (m : HMap K V) (k : K) :
    HMap.find m k = none ↔ k ∉ m.map (·.1) := by
  induction m with
  | nil => simp [HMap.find]
  | cons p r ih =>
    obtain ⟨k', v'⟩ := p
    rw [HMap.find]
    by_cases e : k' = k
    · subst e; simp
    · rw [if_neg e, ih]
      simp [Ne.symm e]

theorem docsOf_add (ri : ReverseIndex) (w i : WordID) (d : DocumentID) (i' w' : WordID) :
    docsOf (ReverseIndex.add ri w i d) i' w' =
      if i = i' ∧ w = w' then hsetInsert (docsOf ri i w) d else docsOf ri i' w' := by
  have key : ReverseIndex.add ri w i d = HMap.set ri (i, w) (hsetInsert (docsOf ri i w) d) := by
    unfold ReverseIndex.add docsOf
    cases HMap.find ri (i, w) <;> rfl
  rw [key, docsOf, HMap.find_set]
  simp only [Prod.mk.injEq]
  split
  · rfl
  · rfl

theorem mem_hsetInsert {K : Type} [DecidableEq K] {s : List K} {k x : K} : x ∈ hsetInsert s k ↔ x ∈ s ∨ x = k := by
  unfold hsetInsert; split
  · constructor
    · exact Or.inl
    · rintro (h | rfl) <;> assumption
  · simp

theorem nodup_hsetInsert {K : Type} [DecidableEq K] {s : List K} (h : s.Nodup) (k : K) : (hsetInsert s k).Nodup := by
  unfold hsetInsert; split
  · exact h
  · rename_i hk
    rw [List.nodup_append]
    exact ⟨h, by simp, by rintro a ha b hb rfl; simp only [List.mem_singleton] at hb; subst hb; exact hk ha⟩

theorem wordProcessed_count (s : MatcherStatistics) (w i : WordID) :
    (s.wordProcessed w).getTotalWordCount i = s.getTotalWordCount i + if w = i then 1 else 0 := by
  have key : s.wordProcessed w = HMap.set s w (s.getTotalWordCount w + 1) := by
    unfold MatcherStatistics.wordProcessed MatcherStatistics.getTotalWordCount
    cases HMap.find s w <;> rfl
  rw [key, MatcherStatistics.getTotalWordCount, HMap.find_set]
  by_cases h : w = i
  · subst h; simp
  · rw [if_neg h, if_neg h]; rfl

theorem strict_ltDW : Strict Matcher.ltDW := strict_ltPair strict_ltNat strict_ltNat

namespace MInv
variable [Build] [Icu] {m : Matcher} {H : MatcherHistory} {names : List Word}

/-- New names change nothing else. -/
theorem noted (h : MInv m H names) {w : Word} {s : WordStore} (hs : Names s m.os (note names w)) :
    MInv { m with store := s } H (note names w) := by
  have hp := note_prefix names w
  have old : ∀ {i : Nat} {v : Word}, (note names w)[i]? = some v → v ∈ names → names[i]? = some v := by
    intro i v hi hv
    have h1 := getElem?_prefix hp (getElem?_idxOf hv)
    have h2 := hs.idx hi
    have h3 := hs.idx h1
    rw [← h2, h3]; exact getElem?_idxOf hv
  refine ⟨hs, fun v hv => mem_note.2 (Or.inl (h.known v hv)), ?_, ?_, h.keys, ?_, h.docs, ?_, h.e, ?_⟩
  · intro i ix hi
    obtain ⟨f, h1, h2, g, h3, h4⟩ := h.ixs i ix hi
    refine ⟨f, getElem?_prefix hp h1, h2, g, ?_, h4⟩
    rw [fieldHistory_prefix hp h.known]; exact h3
  · intro i f hi hne
    exact h.has i f (old hi (h.known _ (MatcherHistory.occurrences_ne hne))) hne
  · intro i j d
    rw [h.post]
    constructor
    · rintro ⟨f, v, h1, h2, h3⟩; exact ⟨f, v, getElem?_prefix hp h1, getElem?_prefix hp h2, h3⟩
    · rintro ⟨f, v, h1, h2, h3⟩; exact ⟨f, v, old h1 (h.known _ h3.field), old h2 (h.known _ h3.word), h3⟩
  · intro d i
    show SMap.find Matcher.ltDW m.originalSizes (d, i) = _
    rw [h.sizes]
    cases hi : (note names w)[i]? with
    | none =>
      have : names[i]? = none := by
        rw [List.getElem?_eq_none_iff] at hi ⊢
        exact Nat.le_trans hp.length_le hi
      rw [this]
    | some v =>
      cases hn : names[i]? with
      | some v' =>
        have := getElem?_prefix hp hn
        rw [hi] at this; injection this with this; rw [this]
      | none =>
        by_cases hz : H.size d v = none
        · simp [hz]
        · obtain ⟨x, hx, _, rfl⟩ := MatcherHistory.size_isSome hz
          rw [old hi (h.known _ (MatcherHistory.mentions_field hx))] at hn; cases hn
  · intro i
    show m.stats.getTotalWordCount i = _
    rw [h.stats]
    cases hi : (note names w)[i]? with
    | none =>
      have : names[i]? = none := by
        rw [List.getElem?_eq_none_iff] at hi ⊢
        exact Nat.le_trans hp.length_le hi
      rw [this]
    | some v =>
      cases hn : names[i]? with
      | some v' =>
        have := getElem?_prefix hp hn
        rw [hi] at this; injection this with this; rw [this]
      | none =>
        have : v ∉ H.words := by
          intro hv
          have hm : v ∈ H.mentions := by
            obtain ⟨x, hx, hv⟩ := List.mem_flatMap.1 hv
            exact MatcherHistory.mem_mentions.2 ⟨x, hx, Or.inr hv⟩
          rw [old hi (h.known _ hm)] at hn; cases hn
        exact (List.count_eq_zero.2 this).symm

/-- Recording the size of a text. -/
theorem start (h : MInv m H names) {f : Word} (hf : f ∈ names) (d : DocumentID) (n : Nat) :
    MInv { m with originalSizes := SMap.set Matcher.ltDW m.originalSizes (d, names.idxOf f) n } (H ++ [⟨d, f, n, []⟩]) names := by
  have ho : ∀ f', MatcherHistory.occurrences (H ++ [⟨d, f, n, []⟩]) f' = H.occurrences f' := by
    intro f'
    rw [MatcherHistory.occurrences_append, MatcherHistory.occurrences_single]; simp
  have hfh : ∀ f', fieldHistory names (H ++ [⟨d, f, n, []⟩]) f' = fieldHistory names H f' := by
    intro f'; unfold fieldHistory; rw [ho]
  have hpo : ∀ d' f' w, MatcherHistory.Posting (H ++ [⟨d, f, n, []⟩]) d' f' w ↔ H.Posting d' f' w := by
    intro d' f' w
    rw [MatcherHistory.posting_append, MatcherHistory.posting_single]; simp
  refine ⟨h.store, ?_, ?_, ?_, h.keys, ?_, h.docs, ?_, h.e, ?_⟩
  · intro w hw
    rw [MatcherHistory.mentions_append, List.mem_append] at hw
    rcases hw with hw | hw
    · exact h.known w hw
    · simp [MatcherHistory.mentions] at hw; rw [hw]; exact hf
  · intro i ix hi
    obtain ⟨f', h1, h2, g, h3, h4, h5⟩ := h.ixs i ix hi
    exact ⟨f', h1, by rw [ho]; exact h2, g, by rw [hfh]; exact h3, by rw [ho]; exact h4, h5⟩
  · intro i f' hi hne
    rw [ho] at hne
    exact h.has i f' hi hne
  · intro i j d'
    simp only [hpo]
    exact h.post i j d'
  · intro d' i
    show SMap.find Matcher.ltDW (SMap.set Matcher.ltDW m.originalSizes (d, names.idxOf f) n) (d', i) = _
    rw [SMap.find_set strict_ltDW, h.sizes]
    by_cases e : (d, names.idxOf f) = (d', i)
    · rw [if_pos e]
      injection e with e1 e2
      subst e1; subst e2
      rw [getElem?_idxOf hf]
      simp [MatcherHistory.size_snoc]
    · rw [if_neg e]
      cases hi : names[i]? with
      | none => rfl
      | some v =>
        simp only [Option.bind_some, MatcherHistory.size_snoc]
        rw [if_neg]
        rintro ⟨rfl, rfl⟩
        exact e (by rw [h.store.idx hi])
  · intro i
    have : MatcherHistory.words (H ++ [⟨d, f, n, []⟩]) = H.words := by simp [MatcherHistory.words]
    rw [this]
    exact h.stats i

/-- Indexing one more word of a text. -/
theorem addToIndex {d : DocumentID} {f : Word} {n : Nat} {done : WordList}
    (h : MInv m (H ++ [⟨d, f, n, done⟩]) names) {w : Word} (hw : w ∈ names) (st : MatcherStatistics) :
    (∃ m', { m with stats := st }.addToIndex w (names.idxOf w) (names.idxOf f) = (m', some .runtimeError) ∧
      MLost m.e m.os (H ++ [⟨d, f, n, done⟩]) (H ++ [⟨d, f, n, done⟩]) m' ∧
      StorageRefused m.os (lettersIn (H.words) + lettersIn done + w.length)) ∨
    ∃ ixs' ix', { m with stats := st }.addToIndex w (names.idxOf w) (names.idxOf f) =
        ({ m with indexes := ixs', stats := st }, none) ∧
      (ixs'.map (·.1)).Nodup ∧ (∀ k, HMap.find ixs' k = if names.idxOf f = k then some ix' else HMap.find m.indexes k) ∧
      IxInv m.os names (H ++ [⟨d, f, n, done ++ [w]⟩]) f ix' := by
  have hf : f ∈ names := h.known f (MatcherHistory.mem_mentions.2 ⟨⟨d, f, n, done⟩, by simp, Or.inl rfl⟩)
  have hocc : MatcherHistory.occurrences (H ++ [⟨d, f, n, done⟩]) f = H.occurrences f ++ done := by
    rw [MatcherHistory.occurrences_append, MatcherHistory.occurrences_single]; simp
  have hocc' : MatcherHistory.occurrences (H ++ [⟨d, f, n, done ++ [w]⟩]) f = H.occurrences f ++ done ++ [w] := by
    rw [MatcherHistory.occurrences_append, MatcherHistory.occurrences_single]; simp
  have hle : lettersIn (H.occurrences f) ≤ lettersIn H.words := by
    unfold MatcherHistory.occurrences MatcherHistory.words
    clear h hocc hocc'
    induction H with
    | nil => simp [lettersIn]
    | cons x H ih =>
      rw [List.filter_cons, List.flatMap_cons, lettersIn_append]
      split
      · rw [List.flatMap_cons, lettersIn_append]; omega
      · omega
  have hok : IndexHistory.Ok ((MatcherHistory.occurrences (H ++ [⟨d, f, n, done ++ [w]⟩]) f).map fun w => (w, names.idxOf w)) := by
    apply history_ok h.store
    intro v hv
    rw [hocc', List.mem_append] at hv
    rcases hv with hv | hv
    · rw [← hocc] at hv
      obtain ⟨d', hp⟩ := MatcherHistory.mem_occurrences.1 hv
      exact h.known v hp.word
    · simp only [List.mem_singleton] at hv; rw [hv]; exact hw
  have hfh : fieldHistory names (H ++ [⟨d, f, n, done ++ [w]⟩]) f =
      fieldHistory names (H ++ [⟨d, f, n, done⟩]) f ++ [(w, names.idxOf w)] := by
    unfold fieldHistory; rw [hocc, hocc']; simp
  have step : ∀ (ix : LevIndex) (g : Ghost), LInv ix g (fieldHistory names (H ++ [⟨d, f, n, done⟩]) f) →
      g.n ≤ 1 + lettersIn (H.occurrences f ++ done) → ix.trie.os = m.os →
      (ix.insertWord w (names.idxOf w) = .error .runtimeError ∧
        StorageRefused m.os (lettersIn H.words + lettersIn done + w.length)) ∨
      ∃ ix', ix.insertWord w (names.idxOf w) = .ok ix' ∧ IxInv m.os names (H ++ [⟨d, f, n, done ++ [w]⟩]) f ix' := by
    intro ix g hi hn hos
    rw [lettersIn_append] at hn
    rcases hi.insert (w := w) (id := names.idxOf w) (by rw [← hfh]; exact hok) with ⟨e, hr⟩ | ⟨ix', g', e, hi', hn', hos', _⟩
    · left
      refine ⟨e, refusal_storage hos (hr.mono rfl (Nat.le_refl _) (by omega))⟩
    · right
      refine ⟨ix', e, g', by rw [hfh]; exact hi', ?_, by rw [hos', hos]⟩
      rw [hocc', lettersIn_append, lettersIn_append, lettersIn_cons, lettersIn_nil]; omega
  unfold Matcher.addToIndex
  cases hix : HMap.find m.indexes (names.idxOf f) with
  | some ix =>
    obtain ⟨f', h1, h2, g, h3, h4, h5⟩ := h.ixs _ ix hix
    have : f' = f := by
      have := getElem?_idxOf hf
      rw [h1] at this; injection this
    subst this
    rw [hocc] at h4
    rcases step ix g h3 h4 h5 with ⟨e, hr⟩ | ⟨ix', e, hi'⟩
    · left
      refine ⟨{ m with indexes := HMap.set m.indexes (names.idxOf f') (ix.after .runtimeError), stats := st }, by simp only [e],
        ⟨m, _, names, h, rfl, rfl, fun _ hw => hw, fun _ hw => hw, Or.inr (Or.inr ⟨rfl, _, _,
        List.idxOf_lt_length_of_mem hf, ?_, rfl⟩)⟩, hr⟩
      rfl
    · right
      refine ⟨HMap.set m.indexes (names.idxOf f') ix', ix', ?_, HMap.nodup_set h.keys _ _, ?_, hi'⟩
      · simp only [e]
      · intro k; rw [HMap.find_set]
  | none =>
    have hnil : MatcherHistory.occurrences (H ++ [⟨d, f, n, done⟩]) f = [] := by
      by_contra hc
      exact h.has _ f (getElem?_idxOf hf) hc hix
    rcases LInv.new m.os with ⟨e1, e2⟩ | ⟨ix, e, hi, hos, _⟩
    · left
      refine ⟨{ m with stats := st }, ?_, ⟨m, _, names, h, rfl, rfl, fun _ hw => hw, fun _ hw => hw, Or.inl e1⟩, Or.inl ⟨_, e1⟩⟩
      simp only [e2]
    · have h3 : fieldHistory names (H ++ [⟨d, f, n, done⟩]) f = [] := by unfold fieldHistory; rw [hnil]; rfl
      rcases step ix Ghost.init (by rw [h3]; exact hi) (by show 1 ≤ _; omega) hos with ⟨e', hr⟩ | ⟨ix', e', hi'⟩
      · left
        refine ⟨{ m with indexes := HMap.set (HMap.set m.indexes (names.idxOf f) ix) (names.idxOf f) (ix.after .runtimeError), stats := st },
          by simp only [e, e'], ⟨m, _, names, h, rfl, rfl, fun _ hw => hw, fun _ hw => hw, Or.inr (Or.inr ⟨rfl, _, _,
          List.idxOf_lt_length_of_mem hf, ?_, HMap.set_set _ _ _ _⟩)⟩, hr⟩
        rfl
      · right
        refine ⟨HMap.set (HMap.set m.indexes (names.idxOf f) ix) (names.idxOf f) ix', ix', ?_,
          HMap.nodup_set (HMap.nodup_set h.keys _ _) _ _, ?_, hi'⟩
        · simp only [e, e']
        · intro k
          rw [HMap.find_set]
          split
          · rfl
          · rename_i hk; rw [HMap.find_set, if_neg hk]

theorem word {d : DocumentID} {f : Word} {n : Nat} {done : WordList}
    (h : MInv m (H ++ [⟨d, f, n, done⟩]) names) {w : Word} (hw : w ∈ names) {ixs' : HMap WordID LevIndex} {ix' : LevIndex}
    (hk : (ixs'.map (·.1)).Nodup)
    (hfind : ∀ k, HMap.find ixs' k = if names.idxOf f = k then some ix' else HMap.find m.indexes k)
    (hix : IxInv m.os names (H ++ [⟨d, f, n, done ++ [w]⟩]) f ix') :
    MInv { m with indexes := ixs', reverseIndex := ReverseIndex.add m.reverseIndex (names.idxOf w) (names.idxOf f) d,
                  stats := m.stats.wordProcessed (names.idxOf w) }
      (H ++ [⟨d, f, n, done ++ [w]⟩]) names := by
  have hf : f ∈ names := h.known f (MatcherHistory.mem_mentions.2 ⟨⟨d, f, n, done⟩, by simp, Or.inl rfl⟩)
  have hother : ∀ f', f' ≠ f → MatcherHistory.occurrences (H ++ [⟨d, f, n, done ++ [w]⟩]) f' =
      MatcherHistory.occurrences (H ++ [⟨d, f, n, done⟩]) f' := by
    intro f' hne
    rw [MatcherHistory.occurrences_append, MatcherHistory.occurrences_append, MatcherHistory.occurrences_single,
      MatcherHistory.occurrences_single, if_neg (Ne.symm hne), if_neg (Ne.symm hne)]
  have hown : MatcherHistory.occurrences (H ++ [⟨d, f, n, done ++ [w]⟩]) f ≠ [] := by
    rw [MatcherHistory.occurrences_append, MatcherHistory.occurrences_single]; simp
  refine ⟨h.store, ?_, ?_, ?_, hk, ?_, ?_, ?_, h.e, ?_⟩
  · intro v hv
    rw [MatcherHistory.mentions_append, List.mem_append] at hv
    rcases hv with hv | hv
    · exact h.known v (by rw [MatcherHistory.mentions_append]; exact List.mem_append_left _ hv)
    · simp [MatcherHistory.mentions] at hv
      rcases hv with rfl | hv | rfl
      · exact hf
      · exact h.known v (MatcherHistory.mem_mentions.2 ⟨⟨d, f, n, done⟩, by simp, Or.inr hv⟩)
      · exact hw
  · intro i ix hi
    dsimp only at hi
    rw [hfind] at hi
    split at hi
    · rename_i hk; injection hi with hi; subst hi; subst hk
      exact ⟨f, getElem?_idxOf hf, hown, hix⟩
    · rename_i hk
      obtain ⟨f', h1, h2, g, h3, h4, h5⟩ := h.ixs i ix hi
      have hne : f' ≠ f := by rintro rfl; exact hk (h.store.idx h1)
      refine ⟨f', h1, by rw [hother f' hne]; exact h2, g, ?_, by rw [hother f' hne]; exact h4, h5⟩
      unfold fieldHistory; rw [hother f' hne]; exact h3
  · intro i f' hi hne
    dsimp only
    rw [hfind]
    split
    · simp
    · rename_i hk
      have hff : f' ≠ f := by rintro rfl; exact hk (h.store.idx hi)
      rw [hother f' hff] at hne
      exact h.has i f' hi hne
  · intro i j d'
    dsimp only
    rw [docsOf_add]
    have hpo : ∀ f' v, MatcherHistory.Posting (H ++ [⟨d, f, n, done ++ [w]⟩]) d' f' v ↔
        MatcherHistory.Posting (H ++ [⟨d, f, n, done⟩]) d' f' v ∨ (d = d' ∧ f = f' ∧ v = w) := by
      intro f' v
      rw [MatcherHistory.posting_append, MatcherHistory.posting_append, MatcherHistory.posting_single,
        MatcherHistory.posting_single]
      simp only [List.mem_append, List.mem_singleton]
      constructor
      · rintro (a | ⟨a, b, c | c⟩)
        · exact Or.inl (Or.inl a)
        · exact Or.inl (Or.inr ⟨a, b, c⟩)
        · exact Or.inr ⟨a, b, c⟩
      · rintro ((a | ⟨a, b, c⟩) | ⟨a, b, c⟩)
        · exact Or.inl a
        · exact Or.inr ⟨a, b, Or.inl c⟩
        · exact Or.inr ⟨a, b, Or.inr c⟩
    simp only [hpo]
    split
    · rename_i hij
      obtain ⟨rfl, rfl⟩ := hij
      rw [mem_hsetInsert, h.post]
      constructor
      · rintro (⟨f', v, a, b, c⟩ | rfl)
        · exact ⟨f', v, a, b, Or.inl c⟩
        · exact ⟨f, w, getElem?_idxOf hf, getElem?_idxOf hw, Or.inr ⟨rfl, rfl, rfl⟩⟩
      · rintro ⟨f', v, a, b, c | ⟨rfl, _, _⟩⟩
        · exact Or.inl ⟨f', v, a, b, c⟩
        · exact Or.inr rfl
    · rename_i hij
      rw [h.post]
      constructor
      · rintro ⟨f', v, a, b, c⟩; exact ⟨f', v, a, b, Or.inl c⟩
      · rintro ⟨f', v, a, b, c | ⟨_, rfl, rfl⟩⟩
        · exact ⟨f', v, a, b, c⟩
        · exact absurd ⟨h.store.idx a, h.store.idx b⟩ hij
  · intro i j
    dsimp only
    rw [docsOf_add]
    split
    · exact nodup_hsetInsert (h.docs _ _) d
    · exact h.docs i j
  · intro d' i
    have : ∀ f', MatcherHistory.size (H ++ [⟨d, f, n, done ++ [w]⟩]) d' f' =
        MatcherHistory.size (H ++ [⟨d, f, n, done⟩]) d' f' := by
      intro f'; rw [MatcherHistory.size_snoc, MatcherHistory.size_snoc]
    have h2 := h.sizes d' i
    dsimp only
    rw [h2]
    congr 1
    funext f'
    exact (this f').symm
  · intro i
    have hws : MatcherHistory.words (H ++ [⟨d, f, n, done ++ [w]⟩]) = MatcherHistory.words (H ++ [⟨d, f, n, done⟩]) ++ [w] := by
      simp [MatcherHistory.words]
    dsimp only
    rw [wordProcessed_count, h.stats, hws]
    by_cases hi : names.idxOf w = i
    · subst hi
      rw [getElem?_idxOf hw]
      simp
    · rw [if_neg hi]
      cases hn : names[i]? with
      | none => rfl
      | some v =>
        have : v ≠ w := by rintro rfl; exact hi (h.store.idx hn)
        simp [List.count_append, List.count_singleton, Ne.symm this]

end MInv
end Columbus
