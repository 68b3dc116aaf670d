import Verif.Proofs.MatcherInv
import Mathlib.Data.List.Sort
import Mathlib.Tactic.Linarith
import Mathlib.Tactic.Positivity
/-
Searching: the best errors per field and word, and the documents.
-/

namespace Columbus
open Spec ErrorValues

/-! ### Least errors -/

def Least (R : Int → Prop) (v : Int) : Prop := R v ∧ ∀ v', R v' → v ≤ v'

theorem Least.unique {R : Int → Prop} {v v' : Int} (h : Least R v) (h' : Least R v') : v = v' :=
  le_antisymm (h.2 v' h'.1) (h'.2 v h.1)

theorem Least.congr {R S : Int → Prop} (h : ∀ v, R v ↔ S v) {v : Int} : Least R v ↔ Least S v := by
  unfold Least; simp only [h]

/-- `best` holds the least errors of the relation. -/
structure EInv (best : MatchErrorMap) (R : WordID → Int → Prop) : Prop where
  sorted : SMap.Sorted ltNat best
  some_iff : ∀ j v, SMap.find ltNat best j = some v ↔ Least (R j) v
  none_of : ∀ j, SMap.find ltNat best j = none → ∀ v, ¬ R j v

theorem EInv.step {best : MatchErrorMap} {R : WordID → Int → Prop} (h : EInv best R) (d : MatchData)
    (hn : ∀ old, SMap.find ltNat best d.matchedWord = some old → d.error < old) :
    EInv (SMap.set ltNat best d.matchedWord d.error) (fun j v => R j v ∨ (d.matchedWord = j ∧ d.error = v)) := by
  refine ⟨SMap.sorted_set strict_ltNat trans_ltNat h.sorted _ _, ?_, ?_⟩
  · intro j v
    rw [SMap.find_set strict_ltNat]
    by_cases e : d.matchedWord = j
    · rw [if_pos e]
      subst e
      constructor
      · intro hv; injection hv with hv; subst hv
        refine ⟨Or.inr ⟨rfl, rfl⟩, ?_⟩
        rintro v' (hv' | ⟨_, rfl⟩)
        · cases ho : SMap.find ltNat best d.matchedWord with
          | none => exact absurd hv' (h.none_of _ ho v')
          | some old =>
            have h1 := hn old ho
            have h2 := ((h.some_iff _ _).1 ho).2 v' hv'
            omega
        · omega
      · rintro ⟨h1, h2⟩
        congr 1
        have h3 := h2 d.error (Or.inr ⟨rfl, rfl⟩)
        rcases h1 with h1 | ⟨_, h1⟩
        · cases ho : SMap.find ltNat best d.matchedWord with
          | none => exact absurd h1 (h.none_of _ ho v)
          | some old =>
            have h4 := hn old ho
            have h5 := ((h.some_iff _ _).1 ho).2 v h1
            omega
        · exact h1
    · rw [if_neg e, h.some_iff]
      exact Least.congr fun v => by simp [e]
  · intro j hj v hv
    rw [SMap.find_set strict_ltNat] at hj
    split at hj
    · cases hj
    · rename_i e
      rcases hv with hv | ⟨hv, _⟩
      · exact h.none_of j hj v hv
      · exact e hv

theorem EInv.skip {best : MatchErrorMap} {R : WordID → Int → Prop} (h : EInv best R) (d : MatchData) {old : Int}
    (ho : SMap.find ltNat best d.matchedWord = some old) (hn : ¬ d.error < old) :
    EInv best (fun j v => R j v ∨ (d.matchedWord = j ∧ d.error = v)) := by
  refine ⟨h.sorted, ?_, ?_⟩
  · intro j v
    rw [h.some_iff]
    by_cases e : d.matchedWord = j
    · subst e
      have hl := (h.some_iff _ _).1 ho
      constructor
      · intro hv
        have := hl.unique hv; subst this
        exact ⟨Or.inl hl.1, by rintro v' (h1 | ⟨_, rfl⟩) <;> [exact hl.2 v' h1; omega]⟩
      · rintro ⟨h1, h2⟩
        have h3 := h2 old (Or.inl hl.1)
        have h4 : old ≤ v := by
          rcases h1 with h1 | ⟨_, h1⟩
          · exact hl.2 v h1
          · omega
        have : v = old := by omega
        rw [this]; exact hl
    · exact Least.congr fun v => by simp [e]
  · intro j hj v hv
    rcases hv with hv | ⟨rfl, _⟩
    · exact h.none_of j hj v hv
    · rw [ho] at hj; cases hj

theorem EInv.congr {best : MatchErrorMap} {R S : WordID → Int → Prop} (h : EInv best R) (hrs : ∀ j v, R j v ↔ S j v) : EInv best S := by
  have : R = S := by funext j v; exact propext (hrs j v)
  rw [← this]; exact h

theorem addMatchLoop_inv (ms : IndexMatches) : ∀ (best : MatchErrorMap) (R : WordID → Int → Prop), EInv best R →
    EInv (Matcher.addMatchLoop best ms) (fun j v => R j v ∨ ⟨j, v⟩ ∈ ms) := by
  induction ms with
  | nil => intro best R h; exact h.congr (by simp)
  | cons d ms ih =>
    intro best R h
    have key : EInv (if ∃ old, SMap.find ltNat best d.matchedWord = some old ∧ ¬ d.error < old then best
        else SMap.set ltNat best d.matchedWord d.error) (fun j v => R j v ∨ (d.matchedWord = j ∧ d.error = v)) := by
      split
      · rename_i hc; obtain ⟨old, h1, h2⟩ := hc; exact h.skip d h1 h2
      · rename_i hc
        apply h.step d
        intro old ho
        by_contra hlt
        exact hc ⟨old, ho, hlt⟩
    have e : Matcher.addMatchLoop best (d :: ms) = Matcher.addMatchLoop
        (if ∃ old, SMap.find ltNat best d.matchedWord = some old ∧ ¬ d.error < old then best
        else SMap.set ltNat best d.matchedWord d.error) ms := by
      rw [Matcher.addMatchLoop]
      cases ho : SMap.find ltNat best d.matchedWord with
      | none => simp
      | some old =>
        by_cases hlt : d.error < old
        · simp [hlt, Int.not_le.2 hlt]
        · simp [hlt, Int.not_lt.1 hlt]
    rw [e]
    apply (ih _ _ key).congr
    intro j v
    rw [List.mem_cons]
    have : ((⟨j, v⟩ : MatchData) = d) ↔ (d.matchedWord = j ∧ d.error = v) := by
      constructor
      · rintro rfl; exact ⟨rfl, rfl⟩
      · rintro ⟨rfl, rfl⟩; rfl
    rw [this]; tauto

/-- `best` holds, per field and word, the least errors of the relation. -/
structure BInv (best : BestIndexMatches) (R : WordID → WordID → Int → Prop) : Prop where
  sorted : SMap.Sorted ltNat best
  inner : ∀ i x, SMap.find ltNat best i = some x → EInv x (R i)
  none_of : ∀ i, SMap.find ltNat best i = none → ∀ j v, ¬ R i j v

theorem BInv.congr {best : BestIndexMatches} {R S : WordID → WordID → Int → Prop} (h : BInv best R)
    (hrs : ∀ i j v, R i j v ↔ S i j v) : BInv best S := by
  have : R = S := by funext i j v; exact propext (hrs i j v)
  rw [← this]; exact h

theorem BInv.empty : BInv [] (fun _ _ _ => False) :=
  ⟨List.Pairwise.nil, fun i x h => (by cases h), fun _ _ _ _ h => h⟩

theorem EInv.empty {R : WordID → Int → Prop} (h : ∀ j v, ¬ R j v) : EInv [] R :=
  ⟨List.Pairwise.nil, fun j v => ⟨fun h => (by cases h), fun hl => absurd hl.1 (h j v)⟩, fun j _ v => h j v⟩

theorem addMatches_inv {best : BestIndexMatches} {R : WordID → WordID → Int → Prop} (h : BInv best R) (i0 : WordID)
    (ms : IndexMatches) : BInv (Matcher.addMatches best i0 ms) (fun i j v => R i j v ∨ (i = i0 ∧ ⟨j, v⟩ ∈ ms)) := by
  have hcur : EInv (match SMap.find ltNat best i0 with | none => [] | some x => x) (R i0) := by
    cases hf : SMap.find ltNat best i0 with
    | none => exact .empty (h.none_of i0 hf)
    | some x => exact h.inner i0 x hf
  refine ⟨SMap.sorted_set strict_ltNat trans_ltNat h.sorted _ _, ?_, ?_⟩
  · intro i x hx
    rw [Matcher.addMatches, SMap.find_set strict_ltNat] at hx
    split at hx
    · rename_i e; subst e; injection hx with hx; subst hx
      exact (addMatchLoop_inv ms _ _ hcur).congr (by simp)
    · rename_i e
      exact (h.inner i x hx).congr fun j v => by simp [Ne.symm e]
  · intro i hi j v hv
    rw [Matcher.addMatches, SMap.find_set strict_ltNat] at hi
    split at hi
    · cases hi
    · rename_i e
      rcases hv with hv | ⟨hv, _⟩
      · exact h.none_of i hi j v hv
      · exact e hv.symm

/-! ### What a search of a field index sees -/

/-- The search for `q` reports the word (if it is in the index). -/
def SeenBy (c : EditCosts) (q : Word) (T : Int) (w : Word) : Prop :=
  best c q w ≤ T ∧ ∀ r, r ≠ [] → r <+: w → r ≠ w → RowOk c q T r

/-- The query word hits the word number `j` of field number `i` with error `v`. -/
def Hits (e : ErrorValues) (p : SearchParameters) (H : MatcherHistory) (names : List Word) (q : Word) (i j : WordID) (v : Int) :
    Prop :=
  ∃ f w, names[i]? = some f ∧ names[j]? = some w ∧ p.isNonsearchingField f = false ∧ w ∈ H.occurrences f ∧
    SeenBy (charged e q.length) q (limit p q) w ∧ v = best (charged e q.length) q w

theorem wordMaxError_eq (p : SearchParameters) (q : Word) : Matcher.wordMaxError p q 0 = limit p q := by
  unfold Matcher.wordMaxError limit SearchParameters.getDynamicError
  by_cases h : p.isDynamic = true
  · by_cases h2 : q.length < 2 <;> simp [h, h2]
  · simp [h]

section
variable [Build] [Icu] {m : Matcher} {H : MatcherHistory} {names : List Word}

theorem MInv.findWords [Runtime] (h : MInv m H names) {i : WordID} {ix : LevIndex} (hix : HMap.find m.indexes i = some ix)
    {f : Word} (hf : names[i]? = some f) {query : WordList} (hs : Sane m.e query H) {q : Word} (hq : q ∈ query) (T : Int) :
    ∃ ms, ix.findWords q m.e T [] = .ok ms ∧ ∀ j v, ⟨j, v⟩ ∈ ms ↔ ∃ w, names[j]? = some w ∧ w ∈ H.occurrences f ∧
      SeenBy (charged m.e q.length) q T w ∧ v = best (charged m.e q.length) q w := by
  obtain ⟨f', h1, h2, g, hi, _, _⟩ := h.ixs i ix hix
  rw [hf] at h1; injection h1 with h1; subst h1
  obtain ⟨ops, hops⟩ := h.e
  have hmod : Moderate (configured m.e q.length) q (fieldHistory names H f) := by
    obtain ⟨B, L, a, b, c⟩ := hs.moderate q hq
    refine ⟨B, L, a, ?_, c⟩
    intro p hp
    obtain ⟨w, hw, rfl⟩ := List.mem_map.1 hp
    exact b (w, 0) (List.mem_map.2 ⟨w, MatcherHistory.occurrences_words w hw, rfl⟩)
  obtain ⟨B, hfit⟩ := moderate_fits hi hmod
  have hp : Priced m.e (charged m.e q.length) q.length := by rw [hops]; exact charged_priced ops _
  have ha : RowAssertOk (charged m.e q.length) q := by
    rcases hs.assertion with ha | ha
    · exact Or.inl ha
    · exact Or.inr (Or.inr ha.symm)
  obtain ⟨added, e, _, hmem⟩ := findWords_added hi hp hfit (hs.noNul q hq) ha T []
  refine ⟨_, e, ?_⟩
  intro j v
  rw [IndexMatches.sort, (Runtime.sortMatches_perm _).mem_iff, List.nil_append, hmem]
  constructor
  · rintro ⟨w, ⟨_, hw⟩, h3, h4⟩
    obtain ⟨w', hw', e'⟩ := List.mem_map.1 hw
    simp only [Prod.mk.injEq] at e'
    obtain ⟨rfl, rfl⟩ := e'
    obtain ⟨d, hd⟩ := MatcherHistory.mem_occurrences.1 hw'
    exact ⟨w', getElem?_idxOf (h.known _ hd.word), hw', h4, h3⟩
  · rintro ⟨w, h3, h4, h5, h6⟩
    refine ⟨w, ⟨?_, ?_⟩, h6, h5⟩
    · exact (h.store.good w (List.mem_of_getElem? h3)).nonempty
    · exact List.mem_map.2 ⟨w, h4, by rw [h.store.idx h3]⟩

theorem MInv.indexLoop [Runtime] (h : MInv m H names) {p : SearchParameters} {query : WordList} (hs : Sane m.e query H)
    {q : Word} (hq : q ∈ query) (ks : List WordID) : ∀ (best : BestIndexMatches) (R : WordID → WordID → Int → Prop),
    BInv best R → (∀ k ∈ ks, k ∈ m.indexes.map (·.1)) →
    ∃ best', Matcher.indexLoop m p q (limit p q) best ks = .ok best' ∧
      BInv best' (fun i j v => R i j v ∨ (i ∈ ks ∧ Hits m.e p H names q i j v)) := by
  induction ks with
  | nil => intro best R hb _; exact ⟨best, rfl, hb.congr (by simp)⟩
  | cons k ks ih =>
    intro best R hb hk
    have hfind : HMap.find m.indexes k ≠ none := by
      rw [ne_eq, HMap.find_none_iff]; exact not_not.2 (hk k (by simp))
    obtain ⟨ix, hix⟩ := Option.ne_none_iff_exists'.1 hfind
    obtain ⟨f, hf, _⟩ := h.ixs k ix hix
    rw [Matcher.indexLoop]
    simp only [h.store.getWord hf, ok_bind]
    by_cases hx : p.isNonsearchingField f = true
    · simp only [hx, if_true]
      obtain ⟨best', e, hb'⟩ := ih best R hb (fun x hx => hk x (by simp [hx]))
      refine ⟨best', e, hb'.congr ?_⟩
      intro i j v
      constructor
      · rintro (a | ⟨a, b⟩)
        · exact Or.inl a
        · exact Or.inr ⟨by simp [a], b⟩
      · rintro (a | ⟨a, b⟩)
        · exact Or.inl a
        · right
          refine ⟨?_, b⟩
          rcases List.mem_cons.1 a with rfl | a
          · obtain ⟨f', w, b1, _, b3, _⟩ := b
            rw [hf] at b1; injection b1 with b1; subst b1
            rw [hx] at b3; cases b3
          · exact a
    · simp only [hx, Bool.false_eq_true, if_false, hix]
      obtain ⟨ms, e, hms⟩ := h.findWords hix hf hs hq (limit p q)
      simp only [e, ok_bind]
      obtain ⟨best', e', hb'⟩ := ih _ _ (addMatches_inv hb k ms) (fun x hx => hk x (by simp [hx]))
      refine ⟨best', e', hb'.congr ?_⟩
      intro i j v
      have hhit : (⟨j, v⟩ : MatchData) ∈ ms ↔ Hits m.e p H names q k j v := by
        rw [hms]
        constructor
        · rintro ⟨w, a, b, c, d⟩; exact ⟨f, w, hf, a, by simpa using hx, b, c, d⟩
        · rintro ⟨f', w, z, a, _, b, c, d⟩
          rw [hf] at z; injection z with z; subst z
          exact ⟨w, a, b, c, d⟩
      rw [List.mem_cons]
      constructor
      · rintro ((a | ⟨rfl, b⟩) | ⟨a, b⟩)
        · exact Or.inl a
        · exact Or.inr ⟨Or.inl rfl, hhit.1 b⟩
        · exact Or.inr ⟨Or.inr a, b⟩
      · rintro (a | ⟨rfl | a, b⟩)
        · exact Or.inl (Or.inl a)
        · exact Or.inl (Or.inr ⟨rfl, hhit.2 b⟩)
        · exact Or.inr ⟨a, b⟩

theorem MInv.hit_key (h : MInv m H names) {e : ErrorValues} {p : SearchParameters} {q : Word} {i j : WordID} {v : Int}
    (hh : Hits e p H names q i j v) : i ∈ m.indexes.map (·.1) := by
  obtain ⟨f, w, h1, _, _, h2, _⟩ := hh
  have := h.has i f h1 (List.ne_nil_of_mem h2)
  rw [ne_eq, HMap.find_none_iff, not_not] at this
  exact this

theorem MInv.matchIndexes [Runtime] (h : MInv m H names) {p : SearchParameters} {query : WordList} (hs : Sane m.e query H)
    (ws : WordList) : ∀ (best : BestIndexMatches) (R : WordID → WordID → Int → Prop), BInv best R → (∀ w ∈ ws, w ∈ query) →
    ∃ best', Matcher.matchIndexes m p 0 best ws = .ok best' ∧
      BInv best' (fun i j v => R i j v ∨ ∃ q ∈ ws, Hits m.e p H names q i j v) := by
  induction ws with
  | nil => intro best R hb _; exact ⟨best, rfl, hb.congr (by simp)⟩
  | cons q ws ih =>
    intro best R hb hw
    rw [Matcher.matchIndexes, wordMaxError_eq]
    obtain ⟨b1, e1, hb1⟩ := h.indexLoop (p := p) hs (hw q (by simp)) (Runtime.iterIndexes (m.indexes.map (·.1))) best R hb
      (fun k hk => (Runtime.iterIndexes_perm _).mem_iff.1 hk)
    obtain ⟨b2, e2, hb2⟩ := ih b1 _ hb1 (fun w h => hw w (by simp [h]))
    simp only [e1, ok_bind]
    refine ⟨b2, e2, hb2.congr ?_⟩
    intro i j v
    simp only [List.mem_cons, exists_eq_or_imp]
    constructor
    · rintro ((a | ⟨_, b⟩) | a)
      · exact Or.inl a
      · exact Or.inr (Or.inl b)
      · exact Or.inr (Or.inr a)
    · rintro (a | a | a)
      · exact Or.inl (Or.inl a)
      · exact Or.inl (Or.inr ⟨(Runtime.iterIndexes_perm _).mem_iff.2 (h.hit_key a), a⟩)
      · exact Or.inr a

end

/-! ### The matched words as one list -/

/-- Fields, words and errors in ascending order. -/
def flat (best : BestIndexMatches) : List (WordID × WordID × Int) :=
  best.flatMap fun p => p.2.map fun r => (p.1, r.1, r.2)

/-- Before in the order of identifiers. -/
def Before (a b : WordID × WordID × Int) : Prop := a.1 < b.1 ∨ (a.1 = b.1 ∧ a.2.1 < b.2.1)

/-- The list of least errors, in order. -/
structure IsPairs (R : WordID → WordID → Int → Prop) (P : List (WordID × WordID × Int)) : Prop where
  sorted : P.Pairwise Before
  mem : ∀ i j v, (i, j, v) ∈ P ↔ Least (R i j) v

theorem flat_pairs {best : BestIndexMatches} {R : WordID → WordID → Int → Prop} (h : BInv best R) : IsPairs R (flat best) := by
  have hin : ∀ p ∈ best, EInv p.2 (R p.1) := by
    intro p hp
    exact h.inner p.1 p.2 ((SMap.find_some_iff strict_ltNat h.sorted _ _).2 hp)
  constructor
  · unfold flat
    rw [List.pairwise_flatMap]
    constructor
    · intro p hp
      rw [List.pairwise_map]
      have := (hin p hp).sorted
      unfold SMap.Sorted at this
      rw [List.pairwise_map] at this
      refine this.imp ?_
      intro a b hab
      exact Or.inr ⟨rfl, by simpa [ltNat] using hab⟩
    · have := h.sorted
      unfold SMap.Sorted at this
      rw [List.pairwise_map] at this
      refine this.imp ?_
      intro a b hab x hx y hy
      obtain ⟨r, _, rfl⟩ := List.mem_map.1 hx
      obtain ⟨s, _, rfl⟩ := List.mem_map.1 hy
      exact Or.inl (by simpa [ltNat] using hab)
  · intro i j v
    unfold flat
    rw [List.mem_flatMap]
    constructor
    · rintro ⟨p, hp, hx⟩
      obtain ⟨r, hr, e⟩ := List.mem_map.1 hx
      simp only [Prod.mk.injEq] at e
      obtain ⟨rfl, rfl, rfl⟩ := e
      exact ((hin p hp).some_iff _ _).1 ((SMap.find_some_iff strict_ltNat (hin p hp).sorted _ _).2 hr)
    · intro hl
      cases hi : SMap.find ltNat best i with
      | none => exact absurd hl.1 (h.none_of i hi j v)
      | some x =>
        refine ⟨(i, x), SMap.mem_find strict_ltNat hi, List.mem_map.2 ⟨(j, v), ?_, rfl⟩⟩
        exact SMap.mem_find strict_ltNat (((h.inner i x hi).some_iff j v).2 hl)

theorem eq_of_sorted {α : Type} {r : α → α → Prop} (hirr : ∀ a, ¬ r a a) (has : ∀ a b, r a b → ¬ r b a) :
    ∀ {a b : List α}, a.Pairwise r → b.Pairwise r → (∀ x, x ∈ a ↔ x ∈ b) → a = b := by
  intro a
  induction a with
  | nil =>
    intro b _ _ h
    cases b with
    | nil => rfl
    | cons y b => exact absurd ((h y).2 (by simp)) (by simp)
  | cons x a ih =>
    intro b ha hb h
    cases b with
    | nil => exact absurd ((h x).1 (by simp)) (by simp)
    | cons y b =>
      rw [List.pairwise_cons] at ha hb
      have hxy : x = y := by
        rcases List.mem_cons.1 ((h x).1 (by simp)) with e | e
        · exact e
        · rcases List.mem_cons.1 ((h y).2 (by simp)) with e' | e'
          · exact e'.symm
          · exact absurd (ha.1 y e') (has y x (hb.1 x e))
      subst hxy
      congr 1
      apply ih ha.2 hb.2
      intro z
      constructor
      · intro hz
        rcases List.mem_cons.1 ((h z).1 (by simp [hz])) with rfl | e
        · exact absurd (ha.1 z hz) (hirr z)
        · exact e
      · intro hz
        rcases List.mem_cons.1 ((h z).2 (by simp [hz])) with rfl | e
        · exact absurd (hb.1 z hz) (hirr z)
        · exact e

theorem IsPairs.unique {R S : WordID → WordID → Int → Prop} {P Q : List (WordID × WordID × Int)} (hp : IsPairs R P)
    (hq : IsPairs S Q) (h : ∀ i j v, R i j v ↔ S i j v) : P = Q := by
  apply eq_of_sorted (r := Before) ?_ ?_ hp.sorted hq.sorted
  · rintro ⟨i, j, v⟩
    rw [hp.mem, hq.mem]
    exact Least.congr (h i j)
  · rintro a (h | ⟨_, h⟩) <;> exact Nat.lt_irrefl _ h
  · rintro a b (h | ⟨h1, h⟩) (h' | ⟨h1', h'⟩)
    · exact Nat.lt_asymm h h'
    · exact Nat.lt_irrefl _ (h1' ▸ h)
    · exact Nat.lt_irrefl _ (h1 ▸ h')
    · exact Nat.lt_asymm h h'

/-! ### Gathering documents -/

/-- Adding a contribution to a relevancy that may not be there yet. -/
def accum [Fp] : Option ℚ → ℚ → Option ℚ
  | none, x => some x
  | some y, x => some (fadd y x)

section
variable [Build] [Runtime] [Fp] {m : Matcher}

/-- Gathering over the list of matched words. -/
def gatherList (m : Matcher) (docs : SMap DocumentID ℚ) : List (WordID × WordID × Int) → M (SMap DocumentID ℚ)
  | [] => .ok docs
  | p :: r => do
    let docs ← Matcher.gatherDocs m p.2.1 p.1 p.2.2 docs (ReverseIndex.findDocuments m.reverseIndex p.2.1 p.1)
    gatherList m docs r

theorem gatherList_append (a b : List (WordID × WordID × Int)) (docs : SMap DocumentID ℚ) :
    gatherList m docs (a ++ b) = gatherList m docs a >>= fun d => gatherList m d b := by
  induction a generalizing docs with
  | nil => rfl
  | cons p a ih =>
    simp only [List.cons_append, gatherList]
    cases h : Matcher.gatherDocs m p.2.1 p.1 p.2.2 docs (ReverseIndex.findDocuments m.reverseIndex p.2.1 p.1) with
    | error e => rfl
    | ok d => simp only [ok_bind]; exact ih d

theorem gatherWords_eq (i : WordID) (ws : MatchErrorMap) : ∀ docs : SMap DocumentID ℚ,
    Matcher.gatherWords m i docs ws = gatherList m docs (ws.map fun r => (i, r.1, r.2)) := by
  induction ws with
  | nil => intro docs; rfl
  | cons p ws ih =>
    intro docs
    obtain ⟨j, v⟩ := p
    rw [Matcher.gatherWords, List.map_cons, gatherList]
    cases h : Matcher.gatherDocs m j i v docs (ReverseIndex.findDocuments m.reverseIndex j i) with
    | error e => rfl
    | ok d => simp only [ok_bind]; exact ih d

theorem gatherMatched_eq (best : BestIndexMatches) : ∀ docs : SMap DocumentID ℚ,
    Matcher.gatherMatchedDocuments m docs best = gatherList m docs (flat best) := by
  induction best with
  | nil => intro docs; rfl
  | cons p best ih =>
    intro docs
    obtain ⟨i, ws⟩ := p
    rw [Matcher.gatherMatchedDocuments, gatherWords_eq]
    rw [show flat ((i, ws) :: best) = (ws.map fun r => (i, r.1, r.2)) ++ flat best from rfl, gatherList_append]
    congr 1
    funext d
    exact ih d

omit [Runtime] in
theorem gatherDocs_eq {i j : WordID} {v : Int} {r : ℚ} (hr : m.calculateRelevancy j i v = .ok r) (ds : List DocumentID) :
    ∀ docs : SMap DocumentID ℚ, SMap.Sorted ltNat docs → ds.Nodup →
    ∃ docs', Matcher.gatherDocs m j i v docs ds = .ok docs' ∧ SMap.Sorted ltNat docs' ∧
      ∀ d, SMap.find ltNat docs' d = if d ∈ ds then accum (SMap.find ltNat docs d) r else SMap.find ltNat docs d := by
  induction ds with
  | nil => intro docs hs _; exact ⟨docs, rfl, hs, by simp⟩
  | cons x ds ih =>
    intro docs hs hnd
    rw [List.nodup_cons] at hnd
    have step : Matcher.gatherDocs m j i v docs (x :: ds) =
        Matcher.gatherDocs m j i v (SMap.set ltNat docs x (match SMap.find ltNat docs x with
          | none => r
          | some y => fadd y r)) ds := by
      rw [Matcher.gatherDocs, hr]
      simp only [ok_bind]
      cases SMap.find ltNat docs x <;> rfl
    rw [step]
    obtain ⟨docs', e, h1, h2⟩ := ih _ (SMap.sorted_set strict_ltNat trans_ltNat hs x _) hnd.2
    refine ⟨docs', e, h1, ?_⟩
    intro d
    rw [h2, SMap.find_set strict_ltNat]
    by_cases e : x = d
    · subst e
      rw [if_neg hnd.1, if_pos rfl, if_pos (by simp)]
      cases SMap.find ltNat docs x <;> rfl
    · have : (d ∈ x :: ds) ↔ d ∈ ds := by simp [Ne.symm e]
      simp only [this, if_neg e]

omit [Build] [Fp] in
theorem findDocuments_perm (ri : ReverseIndex) (i j : WordID) : (ReverseIndex.findDocuments ri j i).Perm (docsOf ri i j) := by
  unfold ReverseIndex.findDocuments docsOf
  cases HMap.find ri (i, j) with
  | none => exact List.Perm.refl _
  | some s => exact Runtime.iterDocs_perm s

/-- The documents and their relevancies, given the contributions of the matched words. -/
structure IsDocs (ri : ReverseIndex) (val : WordID × WordID × Int → ℚ) (P : List (WordID × WordID × Int))
    (docs : SMap DocumentID ℚ) : Prop where
  sorted : SMap.Sorted ltNat docs
  find : ∀ d, SMap.find ltNat docs d = (P.filter fun p => decide (d ∈ docsOf ri p.1 p.2.1)).foldl (fun o p => accum o (val p)) none

theorem gatherList_eq {val : WordID × WordID × Int → ℚ} (hnd : ∀ i j, (docsOf m.reverseIndex i j).Nodup)
    (P : List (WordID × WordID × Int)) (hv : ∀ p ∈ P, m.calculateRelevancy p.2.1 p.1 p.2.2 = .ok (val p)) :
    ∀ docs : SMap DocumentID ℚ, SMap.Sorted ltNat docs →
    ∃ docs', gatherList m docs P = .ok docs' ∧ SMap.Sorted ltNat docs' ∧
      ∀ d, SMap.find ltNat docs' d = (P.filter fun p => decide (d ∈ docsOf m.reverseIndex p.1 p.2.1)).foldl
        (fun o p => accum o (val p)) (SMap.find ltNat docs d) := by
  induction P with
  | nil => intro docs hs; exact ⟨docs, rfl, hs, fun _ => rfl⟩
  | cons p P ih =>
    intro docs hs
    have hperm := findDocuments_perm m.reverseIndex p.1 p.2.1
    obtain ⟨d1, e1, hs1, h1⟩ := gatherDocs_eq (hv p (by simp)) (ReverseIndex.findDocuments m.reverseIndex p.2.1 p.1) docs hs
      (hperm.nodup_iff.2 (hnd _ _))
    obtain ⟨d2, e2, hs2, h2⟩ := ih (fun q hq => hv q (by simp [hq])) d1 hs1
    refine ⟨d2, by rw [gatherList, e1]; exact e2, hs2, ?_⟩
    intro d
    rw [h2, h1, List.filter_cons]
    simp only [hperm.mem_iff, decide_eq_true_eq]
    split <;> rfl

end

theorem SMap.eq_of_find {V : Type} {a b : SMap Nat V} (ha : SMap.Sorted ltNat a) (hb : SMap.Sorted ltNat b)
    (h : ∀ k, SMap.find ltNat a k = SMap.find ltNat b k) : a = b := by
  unfold SMap.Sorted at ha hb
  rw [List.pairwise_map] at ha hb
  refine eq_of_sorted (r := fun x y : Nat × V => ltNat x.1 y.1 = true) ?_ ?_ ha hb ?_
  · intro x; simp [ltNat]
  · intro x y; simp [ltNat]; omega
  · rintro ⟨k, v⟩
    have hsa : SMap.Sorted ltNat a := by unfold SMap.Sorted; rw [List.pairwise_map]; exact ha
    have hsb : SMap.Sorted ltNat b := by unfold SMap.Sorted; rw [List.pairwise_map]; exact hb
    rw [← SMap.find_some_iff strict_ltNat hsa, ← SMap.find_some_iff strict_ltNat hsb, h]

theorem IsDocs.unique [Fp] {ri : ReverseIndex} {val : WordID × WordID × Int → ℚ} {P : List (WordID × WordID × Int)}
    {docs docs' : SMap DocumentID ℚ} (h : IsDocs ri val P docs) (h' : IsDocs ri val P docs') : docs = docs' :=
  SMap.eq_of_find h.sorted h'.sorted fun k => by rw [h.find, h'.find]

end Columbus
