import Verif.Proofs.TrieOps
import Verif.Proofs.Containers
import Verif.Spec.Index
/-
The word index represents the history of its insertions.
-/

namespace Columbus
open Spec

/-- The index after the insertions `h`. -/
structure LInv (ix : LevIndex) (g : Ghost) (h : IndexHistory) : Prop where
  tinv : TInv ix.trie g
  ok : IndexHistory.Ok h
  has : ∀ v i, g.Has v i ↔ IndexHistory.Has h v i
  counts : ∀ i, HMap.find ix.wordCounts i = if IndexHistory.count h i = 0 then none else some (IndexHistory.count h i)
  max_le : ∀ i, IndexHistory.count h i ≤ ix.maxCount
  max_eq : ix.maxCount = 0 ∨ ∃ i, IndexHistory.count h i = ix.maxCount
  long_le : ∀ p ∈ h, p.1.length ≤ ix.longestWordLength
  long_eq : ix.longestWordLength = 0 ∨ ∃ p ∈ h, p.1.length = ix.longestWordLength
  pre : ∀ k, 1 ≤ k → k < g.n → ∃ p ∈ h, g.path k <+: p.1

theorem Spec.IndexHistory.Ok.sub {h h' : IndexHistory} (hs : ∀ p ∈ h', p ∈ h) (ho : IndexHistory.Ok h) : IndexHistory.Ok h' :=
  ⟨fun p hp => ho.noNul p (hs p hp), fun p hp => ho.start p (hs p hp), fun p hp => ho.valid p (hs p hp),
    fun p hp r hr => ho.consistent p (hs p hp) r (hs r hr)⟩

theorem count_snoc (h : IndexHistory) (w : Word) (id i : WordID) :
    IndexHistory.count (h ++ [(w, id)]) i = IndexHistory.count h i + if w ≠ [] ∧ id = i then 1 else 0 := by
  unfold IndexHistory.count
  rw [List.countP_append, List.countP_cons, List.countP_nil]
  congr 1
  simp

namespace LInv
variable {ix : LevIndex} {g : Ghost} {h : IndexHistory}

theorem new [Build] (os : Nat → Bool) :
    (os 1024 = false ∧ LevIndex.new os = .error .runtimeError) ∨
    ∃ ix, LevIndex.new os = .ok ix ∧ LInv ix Ghost.init [] ∧ ix.trie.os = os ∧ 1024 ≤ ix.trie.mapped := by
  rcases new_spec os with ⟨h1, h2⟩ | ⟨t, h1, h2, h3, h4⟩
  · left; exact ⟨h1, by rw [LevIndex.new, h2]; rfl⟩
  · right
    refine ⟨⟨[], 0, 0, t⟩, by rw [LevIndex.new, h1]; rfl, ?_, h3, h4⟩
    refine ⟨h2, ⟨by simp, by simp, by simp, by simp⟩, ?_, ?_, ?_, Or.inl rfl, by simp, Or.inl rfl, ?_⟩
    · intro v i
      constructor
      · intro hh; exact absurd hh (init_has v i)
      · rintro ⟨_, hh⟩; cases hh
    · intro i; rfl
    · intro i; exact Nat.le_refl 0
    · intro k h1 h2
      have : k < 1 := h2
      omega

/-- Insertion of a non-empty word. -/
theorem insert [Build] (hi : LInv ix g h) {w : Word} {id : WordID} (ho : IndexHistory.Ok (h ++ [(w, id)])) :
    (ix.insertWord w id = .error .runtimeError ∧ Trie.Refusal ix.trie (4 + 32 * (g.n + w.length))) ∨
    ∃ ix' g', ix.insertWord w id = .ok ix' ∧ LInv ix' g' (h ++ [(w, id)]) ∧ g'.n ≤ g.n + w.length ∧
      ix'.trie.os = ix.trie.os ∧ ix.trie.mapped ≤ ix'.trie.mapped := by
  have hmem : ((w, id) : Word × WordID) ∈ h ++ [(w, id)] := by simp
  by_cases hw : w = []
  · subst hw
    right
    refine ⟨ix, g, by rw [LevIndex.insertWord, if_pos List.length_nil], ?_, by simp, rfl, Nat.le_refl _⟩
    have hc : ∀ i, IndexHistory.count (h ++ [(([] : Word), id)]) i = IndexHistory.count h i := by
      intro i; rw [count_snoc]; simp
    refine ⟨hi.tinv, ho, ?_, ?_, ?_, ?_, ?_, ?_, ?_⟩
    · intro v i
      rw [hi.has]
      unfold IndexHistory.Has
      constructor
      · rintro ⟨h1, h2⟩; exact ⟨h1, by simp [h2]⟩
      · rintro ⟨h1, h2⟩
        refine ⟨h1, ?_⟩
        simp only [List.mem_append, List.mem_singleton, Prod.mk.injEq] at h2
        rcases h2 with h2 | ⟨h2, _⟩
        · exact h2
        · exact absurd h2 h1
    · intro i; rw [hc]; exact hi.counts i
    · intro i; rw [hc]; exact hi.max_le i
    · rcases hi.max_eq with e | ⟨i, e⟩
      · exact Or.inl e
      · exact Or.inr ⟨i, by rw [hc]; exact e⟩
    · intro p hp
      simp only [List.mem_append, List.mem_singleton] at hp
      rcases hp with hp | rfl
      · exact hi.long_le p hp
      · simp
    · rcases hi.long_eq with e | ⟨p, hp, e⟩
      · exact Or.inl e
      · exact Or.inr ⟨p, by simp [hp], e⟩
    · intro k h1 h2
      obtain ⟨p, hp, e⟩ := hi.pre k h1 h2
      exact ⟨p, by simp [hp], e⟩
  · have hlen : ¬ w.length = 0 := by rw [List.length_eq_zero_iff]; exact hw
    have hst : Storable w := ⟨hw, ho.noNul _ hmem, ho.start _ hmem⟩
    have hid : id < INVALID_WORDID := ho.valid _ hmem
    have hsame : ∀ i, g.Has w i → i = id := by
      intro i hh
      rw [hi.has] at hh
      exact (ho.consistent (w, i) (by simp [hh.2]) (w, id) hmem hw hw).1 rfl
    rcases insertWord_spec hi.tinv hst hid hsame with ⟨e, hr⟩ | ⟨t', g', k, e, ht', hins, hos, hm⟩
    · left
      refine ⟨?_, hr⟩
      rw [LevIndex.insertWord, if_neg hlen, e]; rfl
    · right
      have hnew : ix.insertWord w id = .ok
          { wordCounts := HMap.set ix.wordCounts id (IndexHistory.count h id + 1)
            maxCount := if ix.maxCount < IndexHistory.count h id + 1 then IndexHistory.count h id + 1 else ix.maxCount
            longestWordLength := if w.length > ix.longestWordLength then w.length else ix.longestWordLength
            trie := t' } := by
        have hc := hi.counts id
        rw [LevIndex.insertWord, if_neg hlen, e]
        by_cases h0 : IndexHistory.count h id = 0
        · rw [if_pos h0] at hc
          simp only [hc, ok_bind, h0]
        · rw [if_neg h0] at hc
          simp only [hc, ok_bind]
      refine ⟨_, g', hnew, ?_, hins.n_le', hos, hm⟩
      have hne : id ≠ INVALID_WORDID := Nat.ne_of_lt hid
      refine ⟨ht', ho, ?_, ?_, ?_, ?_, ?_, ?_, ?_⟩
      · intro v i
        rw [hins.has ht' hne, hi.has]
        unfold IndexHistory.Has
        simp only [List.mem_append, List.mem_singleton, Prod.mk.injEq]
        constructor
        · rintro (⟨rfl, rfl⟩ | ⟨h1, h2, h3⟩)
          · exact ⟨hw, Or.inr ⟨rfl, rfl⟩⟩
          · exact ⟨h2, Or.inl h3⟩
        · rintro ⟨h1, h2 | ⟨rfl, rfl⟩⟩
          · by_cases hvw : v = w
            · subst hvw
              exact Or.inl ⟨rfl, hsame i ((hi.has v i).2 ⟨h1, h2⟩)⟩
            · exact Or.inr ⟨hvw, h1, h2⟩
          · exact Or.inl ⟨rfl, rfl⟩
      · intro i
        show HMap.find (HMap.set ix.wordCounts id _) i = _
        rw [HMap.find_set, count_snoc]
        by_cases hii : id = i
        · subst hii
          simp [hw]
        · have hx : ¬ (w ≠ [] ∧ id = i) := fun hx => hii hx.2
          simp only [if_neg hx, if_neg hii, Nat.add_zero]; exact hi.counts i
      · intro i
        show _ ≤ if ix.maxCount < _ then _ else ix.maxCount
        rw [count_snoc]
        have := hi.max_le i
        by_cases hii : id = i
        · subst hii
          rw [if_pos ⟨hw, rfl⟩]; split <;> omega
        · rw [if_neg (fun hx => hii hx.2)]; split <;> omega
      · show (if ix.maxCount < _ then _ else ix.maxCount) = 0 ∨ ∃ i, _ = if ix.maxCount < _ then _ else ix.maxCount
        have hmid := hi.max_le id
        right
        by_cases hlt : ix.maxCount < IndexHistory.count h id + 1
        · rw [if_pos hlt]
          exact ⟨id, by rw [count_snoc, if_pos ⟨hw, rfl⟩]⟩
        · rw [if_neg hlt]
          rcases hi.max_eq with e | ⟨i, e⟩
          · omega
          · refine ⟨i, ?_⟩
            rw [count_snoc]
            by_cases hii : id = i
            · subst hii; omega
            · rw [if_neg (fun hx => hii hx.2)]; omega
      · intro p hp
        show _ ≤ if w.length > ix.longestWordLength then w.length else ix.longestWordLength
        simp only [List.mem_append, List.mem_singleton] at hp
        rcases hp with hp | rfl
        · have := hi.long_le p hp
          split <;> omega
        · show w.length ≤ _
          split <;> omega
      · show (if w.length > ix.longestWordLength then w.length else ix.longestWordLength) = 0 ∨
          ∃ p ∈ h ++ [(w, id)], p.1.length = if w.length > ix.longestWordLength then w.length else ix.longestWordLength
        by_cases hl : w.length > ix.longestWordLength
        · rw [if_pos hl]; exact Or.inr ⟨(w, id), hmem, rfl⟩
        · rw [if_neg hl]
          rcases hi.long_eq with e | ⟨p, hp, e⟩
          · exact Or.inl e
          · exact Or.inr ⟨p, by simp [hp], e⟩
      · intro j h1 h2
        rcases Nat.lt_or_ge j g.n with hj | hj
        · obtain ⟨p, hp, e⟩ := hi.pre j h1 hj
          exact ⟨p, by simp [hp], by rw [hins.path j hj]; exact e⟩
        · obtain ⟨_, r, _, hr, e⟩ := hins.new j hj h2
          exact ⟨(w, id), hmem, by rw [e]; exact hr⟩

/-- Paths are closed under prefixes. -/
theorem _root_.Columbus.TInv.prefix_path {t : Trie} {g : Ghost} (hi : TInv t g) : ∀ k, k < g.n → ∀ r, r <+: g.path k →
    ∃ j, j ≤ k ∧ g.path j = r := by
  intro k
  induction k using Nat.strongRecOn with
  | _ k ih =>
    intro hk r hr
    by_cases hk0 : k = 0
    · subst hk0
      rw [hi.path0] at hr
      exact ⟨0, Nat.le_refl _, by rw [hi.path0]; exact (List.prefix_nil.1 hr).symm⟩
    · rw [hi.path_eq k (by omega) hk, List.prefix_concat_iff] at hr
      rcases hr with rfl | hr
      · exact ⟨k, Nat.le_refl _, by rw [hi.path_eq k (by omega) hk]⟩
      · have hp := hi.par_lt k (by omega) hk
        obtain ⟨j, hj, e⟩ := ih (g.par k) hp (by omega) r hr
        exact ⟨j, by omega, e⟩

theorem length_path {t : Trie} {g : Ghost} (hi : TInv t g) {k : Nat} (h1 : 1 ≤ k) (hk : k < g.n) :
    (g.path k).length = (g.path (g.par k)).length + 1 := by
  rw [hi.path_eq k h1 hk]; simp

/-- The paths are the prefixes of the inserted words. -/
theorem paths (hi : LInv ix g h) (r : Word) :
    (∃ k, k < g.n ∧ g.path k = r) ↔ r = [] ∨ ∃ p ∈ h, r <+: p.1 := by
  constructor
  · rintro ⟨k, hk, rfl⟩
    by_cases hk0 : k = 0
    · subst hk0; exact Or.inl hi.tinv.path0
    · exact Or.inr (hi.pre k (by omega) hk)
  · rintro (rfl | ⟨p, hp, hr⟩)
    · exact ⟨0, hi.tinv.pos, hi.tinv.path0⟩
    · by_cases hp0 : p.1 = []
      · rw [hp0] at hr
        exact ⟨0, hi.tinv.pos, by rw [hi.tinv.path0]; exact (List.prefix_nil.1 hr).symm⟩
      · obtain ⟨k, hk, e, _⟩ := (hi.has p.1 p.2).2 ⟨hp0, hp⟩
        rw [← e] at hr
        obtain ⟨j, hj, e⟩ := hi.tinv.prefix_path k hk r hr
        exact ⟨j, by omega, e⟩

theorem length_le (hi : LInv ix g h) {k : Nat} (hk : k < g.n) : (g.path k).length ≤ ix.longestWordLength := by
  by_cases hk0 : k = 0
  · subst hk0; rw [hi.tinv.path0]; exact Nat.zero_le _
  · obtain ⟨p, hp, e⟩ := hi.pre k (by omega) hk
    exact Nat.le_trans e.length_le (hi.long_le p hp)

end LInv

theorem insertAll_inv [Build] : ∀ (more : IndexHistory) {h : IndexHistory} {ix : LevIndex} {g : Ghost}, LInv ix g h →
    IndexHistory.Ok (h ++ more) →
    (insertAll ix more = .error .runtimeError ∧
      Trie.Refusal ix.trie (4 + 32 * (g.n + (more.map fun p => p.1.length).sum))) ∨
    ∃ ix' g', insertAll ix more = .ok ix' ∧ LInv ix' g' (h ++ more) := by
  intro more
  induction more with
  | nil => intro h ix g hi _; right; exact ⟨ix, g, rfl, by simpa using hi⟩
  | cons p more ih =>
    intro h ix g hi ho
    obtain ⟨w, id⟩ := p
    have e : h ++ (w, id) :: more = h ++ [(w, id)] ++ more := by simp
    rw [e] at ho
    rcases hi.insert (w := w) (id := id) (ho.sub (by intro p hp; simp only [List.mem_append] at hp ⊢; exact Or.inl hp))
      with ⟨e1, hr⟩ | ⟨ix1, g1, e1, h1, hn, hos, hm⟩
    · left
      refine ⟨by rw [insertAll]; simp only [e1, error_bind], hr.mono rfl (Nat.le_refl _) ?_⟩
      simp only [List.map_cons, List.sum_cons]; omega
    · rcases ih h1 ho with ⟨e2, hr⟩ | ⟨ix2, g2, e2, h2⟩
      · left
        refine ⟨by rw [insertAll]; simp only [e1, ok_bind, e2], hr.mono hos hm ?_⟩
        simp only [List.map_cons, List.sum_cons]; omega
      · right
        refine ⟨ix2, g2, by rw [insertAll]; simp only [e1, ok_bind, e2], ?_⟩
        rw [e]; exact h2

theorem built_inv [Build] {os : Nat → Bool} {h : IndexHistory} {ix : LevIndex} (ho : IndexHistory.Ok h)
    (hb : built os h = .ok ix) : ∃ g, LInv ix g h := by
  unfold built at hb
  rcases LInv.new os with ⟨_, e⟩ | ⟨ix0, e, hi, _⟩
  · rw [e] at hb; cases hb
  · rw [e, ok_bind] at hb
    rcases insertAll_inv h hi (by simpa using ho) with ⟨e1, _⟩ | ⟨ix1, g1, e1, h1⟩
    · rw [e1] at hb; cases hb
    · rw [e1] at hb; cases hb
      exact ⟨g1, by simpa using h1⟩

end Columbus
