import Verif.Proofs.MatcherMatch
import Verif.Proofs.MatcherIndex
/-
A matcher that was refused memory: searching it reads a mapping that is gone.
-/

namespace Columbus
open Spec ErrorValues

theorem leftColumn_cases (first d : Int) (n : Nat) :
    (∃ v, ErrorMatrix.leftColumn first d n = .ok v) ∨ ErrorMatrix.leftColumn first d n = .error .ub := by
  induction n with
  | zero => exact Or.inl ⟨first, rfl⟩
  | succ n ih =>
    rw [ErrorMatrix.leftColumn]
    rcases ih with ⟨v, e⟩ | e
    · rw [e]
      simp only [ok_bind, chk]
      split
      · exact Or.inl ⟨_, rfl⟩
      · exact Or.inr rfl
    · rw [e]; exact Or.inr rfl

/-- Searching an index without a mapping. -/
theorem findWords_lost [Build] [Runtime] {ix : LevIndex} (h0 : ix.trie.mapped = 0) (q : Word) (e : ErrorValues)
    (hd : -2^31 ≤ e.getDeletionError ∧ e.getDeletionError < 2^31)
    (ha : Build.asserts = false ∨ e.getInsertionError = e.getDeletionError) (T : Int) (ms : IndexMatches) :
    ix.findWords q e T ms = .error .ub := by
  have hw : wrap32 (((0 : Nat) : Int) * e.getDeletionError) = 0 := by simp [wrap32]
  have hx : cassert (decide (True)) = .ok () := cassert_ok (by simp)
  have hs : ix.trie.getSiblingList ix.trie.getRoot = .error .ub := by
    rw [Trie.getSiblingList, Trie.rd32, if_neg (by omega)]
  unfold LevIndex.findWords ErrorMatrix.new
  rcases leftColumn_cases (wrap32 (((0 : Nat) : Int) * e.getDeletionError)) (e.getStartInsertionError q.length)
    (ix.longestWordLength + 1) with ⟨v, el⟩ | el <;> rw [hw] at el
  · have h1 : wrap32 (((1 : Nat) : Int) * e.getDeletionError) = e.getDeletionError := by
      rw [wrap32_eq (by omega) (by omega)]; omega
    have hc : cassert (decide (e.getDeletionError = e.getInsertionError)) = .ok () := by
      rcases ha with ha | ha
      · unfold cassert; simp [ha]
      · exact cassert_ok (by simp [ha])
    by_cases hq : 0 < q.length
    · simp only [el, ok_bind, ErrorMatrix.get, Nat.zero_le, and_self, if_true, hw, hx, if_pos hq, h1, hc, hs, error_bind,
        show 1 ≤ q.length + 1 from by omega]
    · simp only [el, ok_bind, ErrorMatrix.get, Nat.zero_le, and_self, if_true, hw, hx, if_neg hq, hs, error_bind]
  · simp only [hw, el, error_bind]

/-- Reading a word from a store without a mapping. -/
theorem Names.getWord_lost [Build] {s : WordStore} {os : Nat → Bool} {names : List Word} (h : Names s os names) {i : Nat}
    (hi : i < names.length) : (s.after .runtimeError).getWord i = .error .ub := by
  obtain ⟨g, hg, _⟩ := h.inv
  obtain ⟨k, hk, _, _, hx⟩ := hg.node i names[i] (List.getElem?_eq_getElem hi)
  have hlt : i < s.wordIndex.length := by rw [hg.len]; exact hi
  rw [WordStore.getWord, WordStore.hasWordID]
  simp only [WordStore.after, if_true, hlt, decide_true, Bool.true_eq_false, if_false, hx]
  rw [Trie.getWord, if_neg (addr_ne_zero k), Trie.getParent, Trie.rd32, if_neg (by simp [Trie.lost])]
  rfl

theorem Spec.Sane.sub [Build] {e : ErrorValues} {q : WordList} {H T : MatcherHistory} (h : Sane e q T)
    (hs : ∀ w ∈ H.words, w ∈ T.words) : Sane e q H := by
  refine ⟨h.noNul, h.nonNeg, ?_, h.assertion⟩
  intro x hx
  obtain ⟨B, L, a, b, c⟩ := h.moderate x hx
  refine ⟨B, L, a, ?_, c⟩
  intro p hp
  obtain ⟨w, hw, rfl⟩ := List.mem_map.1 hp
  exact b (w, 0) (List.mem_map.2 ⟨w, hs w hw, rfl⟩)

section
variable [Build] [Icu] {m : Matcher} {H : MatcherHistory} {names : List Word}

omit [Icu] in
theorem Spec.Sane.deletion {e : ErrorValues} {q : WordList} (h : Sane e q H) (hq : q ≠ []) :
    -2^31 ≤ e.getDeletionError ∧ e.getDeletionError < 2^31 := by
  obtain ⟨x, hx⟩ := List.exists_mem_of_ne_nil q hq
  obtain ⟨B, L, hw, _, hs⟩ := h.moderate x hx
  have hf : Fits (configured e x.length) x L B := ⟨hw, hs⟩
  have hd : (configured e x.length).del = e.getDeletionError := rfl
  obtain ⟨w1, w2, w3, w4, w5, w6, w7⟩ := hw
  have := hf.mul_bound (n := 1) (by omega) (v := e.getDeletionError) (by omega) (by omega)
  omega

/-- The loop over the indexes reaches the one without a mapping. -/
theorem indexLoop_lost [Runtime] {m' : Matcher} (h : MInv m H names) {p : SearchParameters}
    (hp : ∀ f, p.isNonsearchingField f = false) {query : WordList} (hs : Sane m.e query H) {q : Word} (hq : q ∈ query)
    {i : WordID} {ix : LevIndex} (hi : i < names.length) (h0 : ix.trie.mapped = 0) (he : m'.e = m.e) (hst : m'.store = m.store)
    (hix : m'.indexes = HMap.set m.indexes i ix) (T : Int) (ks : List WordID) : ∀ (best : BestIndexMatches), i ∈ ks →
    (∀ k ∈ ks, k ∈ m'.indexes.map (·.1)) → Matcher.indexLoop m' p q T best ks = .error .ub := by
  induction ks with
  | nil => intro _ hm; simp at hm
  | cons k ks ih =>
    intro best hm hk
    rw [Matcher.indexLoop]
    by_cases hki : k = i
    · subst hki
      rw [hst, h.store.getWord (List.getElem?_eq_getElem hi), hix, HMap.find_set]
      simp only [ok_bind, hp, Bool.false_eq_true, if_false, if_true, he]
      rw [findWords_lost h0 q m.e (hs.deletion (List.ne_nil_of_mem hq)) hs.assertion]
      rfl
    · have hk' : k ∈ m.indexes.map (·.1) := by
        have := hk k (by simp)
        rw [hix, HMap.mem_keys_set] at this
        exact this.resolve_left hki
      have hfind : HMap.find m.indexes k ≠ none := by
        rw [ne_eq, HMap.find_none_iff]; exact not_not.2 hk'
      obtain ⟨ix', hix'⟩ := Option.ne_none_iff_exists'.1 hfind
      obtain ⟨f, hf, _⟩ := h.ixs k ix' hix'
      obtain ⟨ms, e, _⟩ := h.findWords hix' hf hs hq T
      rw [hst, h.store.getWord hf, hix, HMap.find_set]
      simp only [ok_bind, hp, Bool.false_eq_true, if_false, if_neg (Ne.symm hki), hix', he, e]
      refine ih _ ?_ (fun x hx => hk x (by simp [hx]))
      exact (List.mem_cons.1 hm).resolve_left (Ne.symm hki)

/-- A search of a matcher that was refused memory, if there is something to search. -/
theorem MLost.matchQuery [Runtime] [Fp] {e : ErrorValues} {os : Nat → Bool} {T : MatcherHistory} {m' : Matcher}
    (h : MLost e os H T m') (hos : os 1024 = true) (hne : m'.indexes ≠ []) {q : WordList} (hq : q ≠ []) (hs : Sane e q T)
    {p : SearchParameters} (hp : ∀ f, p.isNonsearchingField f = false) : m'.matchQuery q p = (m', .error .ub) := by
  obtain ⟨m0, H0, names0, hi, he0, he', _, hT, hcase⟩ := h
  cases q with
  | nil => exact absurd rfl hq
  | cons x xs =>
    have hs0 : Sane m0.e (x :: xs) H0 := by rw [he0]; exact hs.sub hT
    have hmem : ∀ k, k ∈ Runtime.iterIndexes (m'.indexes.map (·.1)) ↔ k ∈ m'.indexes.map (·.1) := fun k =>
      (Runtime.iterIndexes_perm _).mem_iff
    have key : ∀ T best, Matcher.indexLoop m' p x T best (Runtime.iterIndexes (m'.indexes.map (·.1))) = .error .ub := by
      intro T best
      rcases hcase with hc | ⟨hst, hix⟩ | ⟨hst, i, ix, hin, h0, hix⟩
      · rw [hos] at hc; cases hc
      · cases hl : Runtime.iterIndexes (m'.indexes.map (·.1)) with
        | nil =>
          exfalso
          have hp := Runtime.iterIndexes_perm (m'.indexes.map (·.1))
          rw [hl] at hp
          exact hne (List.map_eq_nil_iff.1 hp.symm.eq_nil)
        | cons k ks =>
          have hk : k ∈ m0.indexes.map (·.1) := by rw [← hix, ← hmem, hl]; simp
          have hfind : HMap.find m0.indexes k ≠ none := by
            rw [ne_eq, HMap.find_none_iff]; exact not_not.2 hk
          obtain ⟨ix', hix'⟩ := Option.ne_none_iff_exists'.1 hfind
          obtain ⟨f, hf, _⟩ := hi.ixs k ix' hix'
          rw [Matcher.indexLoop, hst, hi.store.getWord_lost (List.getElem?_eq_some_iff.1 hf).1]
          rfl
      · exact indexLoop_lost hi hp hs0 (by simp) hin h0 (he'.trans he0.symm) hst hix T _ best
          ((hmem i).2 (by rw [hix, HMap.mem_keys_set]; exact Or.inl rfl)) (fun k hk => (hmem k).1 hk)
    rw [Matcher.matchQuery, if_neg (by simp)]
    simp only [Matcher.maxIterations, Matcher.matchLoop, Matcher.relevancyMatch, Matcher.matchIndexes, key, error_bind]

theorem MLost.indexes_ne {e : ErrorValues} {os : Nat → Bool} {T : MatcherHistory} {m' : Matcher} (h : MLost e os H T m')
    (hos : os 1024 = true) {w : Word} (hw : w ∈ H.words) : m'.indexes ≠ [] := by
  obtain ⟨m0, H0, names0, hi, _, _, hH, _, hcase⟩ := h
  rcases hcase with hc | ⟨_, hix⟩ | ⟨_, i, ix, _, _, hix⟩
  · rw [hos] at hc; cases hc
  · obtain ⟨x, hx, hwx⟩ := List.mem_flatMap.1 (hH w hw)
    have hf : x.field ∈ names0 := hi.known _ (MatcherHistory.mem_mentions.2 ⟨x, hx, Or.inl rfl⟩)
    have hocc : H0.occurrences x.field ≠ [] :=
      List.ne_nil_of_mem (MatcherHistory.mem_occurrences.2 ⟨x.doc, x, hx, rfl, rfl, hwx⟩)
    have := hi.has _ _ (getElem?_idxOf hf) hocc
    rw [hix]
    rintro he
    rw [he] at this
    exact this rfl
  · rw [hix]
    intro he
    have := (HMap.mem_keys_set m0.indexes i ix i).2 (Or.inl rfl)
    rw [he] at this
    cases this

end

end Columbus
