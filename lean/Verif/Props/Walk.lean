import Verif.Proofs.Walk
import Verif.Props.Example
/-
C98: walking through a trie with its public functions.
-/

namespace Columbus.Props
open Columbus Spec

theorem filled_inv [Build] {os : Nat → Bool} {h : IndexHistory} {t : Trie} (hu : TrieUse h) (ht : filled os h = .ok t) :
    ∃ g, WInv t g h := by
  unfold filled at ht
  rcases new_spec os with ⟨_, e⟩ | ⟨t0, e, hi, _⟩
  · rw [e] at ht; cases ht
  · rw [e, ok_bind] at ht
    rcases insertAllTrie_inv h (winv_init hi) (by simpa using hu) with ⟨e1, _⟩ | ⟨t1, g1, e1, h1⟩
    · rw [e1] at ht; cases ht
    · rw [e1] at ht
      cases ht
      exact ⟨g1, by simpa using h1⟩

/-- C98. Filling a trie succeeds or ends in `runtime_error`, the latter only if storage is refused. -/
theorem C98_filled [Build] (os : Nat → Bool) (h : IndexHistory) (hu : TrieUse h) :
    (∃ t, filled os h = .ok t) ∨ (filled os h = .error .runtimeError ∧
      ((∃ n, os n = false) ∨ 2^31 ≤ 36 + 32 * (h.map fun p => p.1.length).sum)) := by
  unfold filled
  rcases new_spec os with ⟨h1, e⟩ | ⟨t0, e, hi, hos, _⟩
  · right; rw [e]; exact ⟨rfl, Or.inl ⟨_, h1⟩⟩
  · rw [e, ok_bind]
    rcases insertAllTrie_inv h (winv_init hi) (by simpa using hu) with ⟨e1, hr⟩ | ⟨t1, g1, e1, h1⟩
    · right
      refine ⟨e1, ?_⟩
      have hn : Ghost.init.n = 1 := rfl
      rw [hn] at hr
      rcases hr with hr | ⟨sz, _, _, _, _, h4⟩
      · right; omega
      · left; rw [hos] at h4; exact ⟨_, h4⟩
    · left; exact ⟨t1, e1⟩

/-- C98. Walking down from the root, exactly the beginnings of the words inserted can be spelled, each at one node, and no two
at the same node. -/
theorem C98_nodes [Build] (os : Nat → Bool) (h : IndexHistory) (hu : TrieUse h) (t : Trie) (ht : filled os h = .ok t) :
    (∀ p, (∃ n, Spells t n p) ↔ p = [] ∨ ∃ q ∈ h, p <+: q.1) ∧
    (∀ p n n', Spells t n p → Spells t n' p → n = n') ∧ (∀ n p p', Spells t n p → Spells t n p' → p = p') := by
  obtain ⟨g, hi⟩ := filled_inv hu ht
  simp only [spells_iff hi.tinv]
  refine ⟨?_, ?_, ?_⟩
  · intro p
    rw [← hi.paths]
    constructor
    · rintro ⟨_, k, hk, _, e⟩; exact ⟨k, hk, e⟩
    · rintro ⟨k, hk, e⟩; exact ⟨_, k, hk, rfl, e⟩
  · rintro p n n' ⟨k, hk, rfl, rfl⟩ ⟨k', hk', rfl, e⟩
    rw [hi.tinv.path_inj k' k hk' hk e]
  · rintro n p p' ⟨k, hk, rfl, rfl⟩ ⟨k', hk', e, rfl⟩
    rw [addr_inj e]

/-- C98. The records of a node lead to the letters by which the words go on, each once, in the order of their first use. From
the child at a record `getParent` and `getSiblingTo` lead back, and `hasSibling` says whether another record follows. -/
theorem C98_records [Build] (os : Nat → Bool) (h : IndexHistory) (hu : TrieUse h) (t : Trie) (ht : filled os h = .ok t)
    (n : Nat) (p : Word) (hs : Spells t n p) :
    ∃ s ss, t.getSiblingList n = .ok s ∧ Records t s ss ∧
      List.Forall₂ (fun x l => t.getLetter x = .ok l ∧ ∃ c, t.getChild x = .ok c ∧ Spells t c (p ++ [l]) ∧
        t.getParent c = .ok n ∧ t.getSiblingTo n c = .ok x) ss (goOn h p).eraseDups ∧
      ∀ a x b, ss = a ++ x :: b → t.hasSibling x = .ok (!b.isEmpty) := by
  obtain ⟨g, hi⟩ := filled_inv hu ht
  obtain ⟨k, hk, rfl, rfl⟩ := (spells_iff hi.tinv n p).1 hs
  obtain ⟨s, e, hr⟩ := records_node hi.tinv hk
  refine ⟨s, _, e, hr, ?_, ?_⟩
  · rw [← hi.order k hk]
    rw [List.forall₂_map_left_iff, List.forall₂_map_right_iff, List.forall₂_same]
    intro i hmi
    obtain ⟨h1, h2, h3⟩ := Ghost.mem_kids.1 hmi
    obtain ⟨e1, e2⟩ := rd_child hi.tinv h1 h2
    refine ⟨e1, addr i, e2, (spells_iff hi.tinv _ _).2 ⟨i, h2, rfl, by rw [hi.tinv.path_eq i h1 h2, h3]⟩, ?_, ?_⟩
    · rw [rd_parent hi.tinv h2, if_neg (by omega), h3]
    · rw [← h3]; exact getSiblingTo_spec hi.tinv h1 h2
  · revert hr
    generalize ((g.kids k).map fun i => addr i + 20) = ss
    clear e
    intro hr a
    induction hr generalizing a with
    | nil => intro x b e; simp at e
    | @cons s s' r h0 h1 h2 ih =>
      intro x b e
      cases a with
      | nil =>
        simp only [List.nil_append, List.cons.injEq] at e
        obtain ⟨rfl, rfl⟩ := e
        have h1' : t.rd32 (s + 8) = .ok s' := h1
        rw [Trie.hasSibling, h1', ok_bind]
        cases h2 with
        | nil => rfl
        | cons h _ _ => simp [h]
      | cons y a =>
        simp only [List.cons_append, List.cons.injEq] at e
        exact ih a x b e.2

/-- C98. At a node are the identifier of the word that ends there, and none if no word does; `findWord` leads to the node, and
`getWord` gives its letters back if the words inserted are well-formed and have no blanks. -/
theorem C98_words [Build] (os : Nat → Bool) (h : IndexHistory) (hu : TrieUse h) (t : Trie) (ht : filled os h = .ok t)
    (n : Nat) (p : Word) (hs : Spells t n p) :
    (∀ i, (p, i) ∈ h → t.getWordID n = .ok i) ∧ ((∀ i, (p, i) ∉ h) → t.getWordID n = .ok INVALID_WORDID) ∧
    t.findWord p = .ok n ∧
    ((∀ q ∈ h, (∃ cps, Utf16 q.1 cps) ∧ ∀ l ∈ q.1, ¬ IsBlank l.toNat) → t.getWord n = .ok p) := by
  obtain ⟨g, hi⟩ := filled_inv hu ht
  have hp := (C98_nodes os h hu t ht).1 p |>.1 ⟨n, hs⟩
  obtain ⟨k, hk, rfl, rfl⟩ := (spells_iff hi.tinv n p).1 hs
  refine ⟨?_, ?_, ?_, ?_⟩
  · intro i hmem
    obtain ⟨j, hj, e1, e2, _⟩ := (hi.has _ i).2 hmem
    have := hi.tinv.path_inj j k hj hk e1
    subst this
    rw [Trie.getWordID, rd_word hi.tinv hj, e2]
  · intro hno
    rw [Trie.getWordID, rd_word hi.tinv hk]
    by_contra hne
    exact hno (g.word k) ((hi.has _ _).1 ⟨k, hk, rfl, rfl, fun e => hne (by rw [e])⟩)
  · have hnz : ∀ l ∈ g.path k, l ≠ 0#16 := by
      rcases hp with hp | ⟨q, hq, hp⟩
      · rw [hp]; simp
      · exact fun l hl => hu.noNul q hq l (hp.subset hl)
    rcases findWord_spec hi.tinv (g.path k) hnz with ⟨j, hj, e2, e1⟩ | ⟨hno, _⟩
    · rw [e1, hi.tinv.path_inj j k hj hk e2]
    · exact absurd rfl (hno k hk)
  · intro hw
    apply getWord_spec hi.tinv hk
    rcases hp with hp | ⟨q, hq, hp⟩
    · rw [hp]; exact readable_utf16 ⟨_, .nil⟩ (by simp)
    · exact readable_prefix (hw q hq).1 (hw q hq).2 hp

/-- C98. What is no beginning of a word inserted is not found. -/
theorem C98_other [Build] (os : Nat → Bool) (h : IndexHistory) (hu : TrieUse h) (t : Trie) (ht : filled os h = .ok t)
    (p : Word) (hp : ∀ l ∈ p, l ≠ 0#16) (hno : ¬ ∃ n, Spells t n p) : t.findWord p = .ok 0 := by
  obtain ⟨g, hi⟩ := filled_inv hu ht
  rcases findWord_spec hi.tinv p hp with ⟨j, hj, e2, e1⟩ | ⟨_, e⟩
  · exact absurd ⟨_, (spells_iff hi.tinv _ _).2 ⟨j, hj, rfl, e2⟩⟩ hno
  · exact e

theorem insertLoop_found [Build] {t : Trie} : ∀ (w : List Letter) {a n : Nat}, t.findLoop a w = .ok n → n ≠ 0 →
    t.insertLoop a w = .ok (t, n) := by
  intro w
  induction w with
  | nil => intro a n h _; cases h; rfl
  | cons l w ih =>
    intro a n h hn
    rw [Trie.findLoop] at h
    rw [Trie.insertLoop]
    rcases hw : t.walk l (t.mapped + 1) (a + sizeofNode) with e | s
    · rw [hw] at h; cases h
    · rw [hw] at h
      simp only [ok_bind] at h ⊢
      rcases hl : t.rdLetter s with e | c
      · rw [hl] at h; cases h
      · rw [hl] at h
        simp only [ok_bind] at h ⊢
        by_cases hc : c = l
        · rw [if_neg (by simpa using hc)] at h
          rw [if_pos hc]
          rcases hr : t.rd32 (s + 4) with e | c'
          · rw [hr] at h; cases h
          · rw [hr] at h
            simp only [ok_bind] at h ⊢
            exact ih h hn
        · rw [if_pos hc] at h
          cases h
          exact absurd rfl hn

/-- C98. To insert a word again changes nothing, whatever identifier is given; but a debug build is aborted if it is not the one
of the word. -/
theorem C98_again [Build] (os : Nat → Bool) (h : IndexHistory) (hu : TrieUse h) (t : Trie) (ht : filled os h = .ok t)
    (w : Word) (i id : WordID) (hw : (w, i) ∈ h) (hid : id < 2^32) :
    ∃ n, Spells t n w ∧ t.insertWord w id = if Build.asserts = true ∧ id ≠ i then .error .assertion else .ok (t, n) := by
  obtain ⟨n, hs⟩ := (C98_nodes os h hu t ht).1 w |>.2 (Or.inr ⟨_, hw, List.prefix_rfl⟩)
  obtain ⟨h1, _, h3, _⟩ := C98_words os h hu t ht n w hs
  obtain ⟨g, hi⟩ := filled_inv hu ht
  obtain ⟨k, hk, rfl, rfl⟩ := (spells_iff hi.tinv n w).1 hs
  refine ⟨_, hs, ?_⟩
  have h4 := insertLoop_found _ h3 (addr_ne_zero k)
  have h5 : t.rd32 (addr k) = .ok i := h1 i hw
  have h6 := hu.valid _ hw
  have h7 : i ≠ INVALID_WORDID := Nat.ne_of_lt h6
  obtain ⟨l, r, el⟩ := List.exists_cons_of_ne_nil (hu.notEmpty _ hw)
  have el : g.path k = l :: r := el
  have h8 := hu.start _ hw l (by show (g.path k).head? = _; rw [el]; rfl)
  have h9 : Word.at (g.path k) 0 = .ok l := by rw [el]; rfl
  have hsur : (isSurrogate l && !isHighSurrogate l) = false := by simp [isSurrogate, h8]
  unfold Trie.insertWord
  rw [h9]
  simp only [ok_bind, hsur, h4, h5, if_neg h7]
  rw [Nat.mod_eq_of_lt hid]
  unfold cassert
  by_cases e : i = id
  · simp [e]
  · cases Build.asserts
    · simp
    · simp [e, Ne.symm e]

theorem forall₂_mem_left {α β : Type} {R : α → β → Prop} {as : List α} {bs : List β} (h : List.Forall₂ R as bs) {a : α} (ha : a ∈ as) :
    ∃ b ∈ bs, R a b := by
  induction h with
  | nil => cases ha
  | cons h1 _ ih =>
    rcases List.mem_cons.1 ha with rfl | ha
    · exact ⟨_, by simp, h1⟩
    · obtain ⟨b, hb, h⟩ := ih ha
      exact ⟨b, by simp [hb], h⟩

/-- C98. `getSiblingTo` tells a stranger, unless the node has no children. -/
theorem C98_stranger [Build] (os : Nat → Bool) (h : IndexHistory) (hu : TrieUse h) (t : Trie) (ht : filled os h = .ok t)
    (n : Nat) (p : Word) (hs : Spells t n p) (hc : goOn h p ≠ []) (c : Nat) (hno : ¬ ∃ l, Spells t c (p ++ [l])) :
    t.getSiblingTo n c = .error .runtimeError := by
  obtain ⟨g, hi⟩ := filled_inv hu ht
  obtain ⟨s, ss, e, hr, hf, hsib⟩ := C98_records os h hu t ht n p hs
  clear hsib
  have hne : ss ≠ [] := by
    rintro rfl
    have := hf.length_eq
    obtain ⟨l, hl⟩ := List.exists_mem_of_ne_nil _ hc
    have := List.length_pos_of_mem (List.mem_eraseDups.2 hl)
    simp only [List.length_nil] at *
    omega
  have hch : ∀ x ∈ ss, ∃ c', t.getChild x = .ok c' ∧ c' ≠ c := by
    intro x hx
    obtain ⟨l, _, _, c', e1, e2, _⟩ := forall₂_mem_left hf hx
    exact ⟨c', e1, fun e => hno ⟨l, e ▸ e2⟩⟩
  have hlen : ss.length < t.mapped := by
    obtain ⟨k, hk, rfl, rfl⟩ := (spells_iff hi.tinv n p).1 hs
    obtain ⟨s', e', hr'⟩ := records_node hi.tinv hk
    rw [e] at e'
    cases e'
    rw [hr.unique hr', List.length_map]
    have : (g.kids k).length ≤ g.n := by
      unfold Ghost.kids
      exact Nat.le_trans (List.length_filter_le _ _) (by simp)
    have := hi.tinv.bound
    omega
  rw [Trie.getSiblingTo, e, ok_bind]
  revert hlen
  generalize t.mapped = fuel
  intro hlen
  clear hf e hs
  induction hr generalizing fuel with
  | nil => exact absurd rfl hne
  | @cons s s' r h0 h1 h2 ih =>
    cases fuel with
    | zero => simp at hlen
    | succ fuel =>
      obtain ⟨c', e1, e2⟩ := hch s (by simp)
      rw [Trie.siblingToLoop, e1]
      simp only [ok_bind]
      rw [if_pos e2, h1]
      simp only [ok_bind]
      cases h2 with
      | nil => rw [if_pos rfl]
      | cons q1 q2 q3 =>
        rw [if_neg q1]
        refine ih (by simp) (fun x hx => hch x (List.mem_cons_of_mem _ hx)) fuel (by simpa using hlen)

/-! ### An example -/

/-- `cat` as word 5, `car` as word 3, `dog` as word 0, `cat` again. -/
def walkHistory : IndexHistory :=
  [([0x63#16, 0x61#16, 0x74#16], 5), ([0x63#16, 0x61#16, 0x72#16], 3), ([0x64#16, 0x6f#16, 0x67#16], 0), ([0x63#16, 0x61#16, 0x74#16], 5)]

theorem walkHistory_ok : TrieUse walkHistory := by
  refine ⟨?_, ?_, ?_, ?_, ?_⟩
  · simp [walkHistory]
  · simp [walkHistory]
  · intro p hp l hl
    simp only [walkHistory, List.mem_cons, List.not_mem_nil, or_false] at hp
    rcases hp with rfl | rfl | rfl | rfl <;> cases hl <;> decide
  · simp [walkHistory, INVALID_WORDID]
  · simp [walkHistory]

theorem C98_example [Build] : ∃ t n s ss, filled (fun _ => true) walkHistory = .ok t ∧ Spells t n [0x63#16, 0x61#16] ∧
    t.getSiblingList n = .ok s ∧ Records t s ss ∧ List.Forall₂ (fun x l => t.getLetter x = .ok l) ss [0x74#16, 0x72#16] ∧
    t.getWordID n = .ok INVALID_WORDID ∧ (∃ c, Spells t c [0x63#16, 0x61#16, 0x72#16] ∧ t.getWordID c = .ok 3) ∧
    ¬ ∃ c, Spells t c [0x61#16] := by
  rcases C98_filled (fun _ => true) walkHistory walkHistory_ok with ⟨t, ht⟩ | ⟨_, ⟨n, hn⟩ | hn⟩
  · obtain ⟨hn, _⟩ := C98_nodes _ _ walkHistory_ok t ht
    obtain ⟨n, hs⟩ := (hn [0x63#16, 0x61#16]).2 (Or.inr ⟨([0x63#16, 0x61#16, 0x74#16], 5), by simp [walkHistory], by simp⟩)
    obtain ⟨c, hc⟩ := (hn [0x63#16, 0x61#16, 0x72#16]).2 (Or.inr ⟨([0x63#16, 0x61#16, 0x72#16], 3), by simp [walkHistory], by simp⟩)
    obtain ⟨s, ss, e, hr, hf, _⟩ := C98_records _ _ walkHistory_ok t ht n _ hs
    have eo : (goOn walkHistory [0x63#16, 0x61#16]).eraseDups = [0x74#16, 0x72#16] := by
      simp [goOn, walkHistory, List.eraseDups_cons]
    rw [eo] at hf
    refine ⟨t, n, s, ss, ht, hs, e, hr, hf.imp (fun _ _ h => h.1), (C98_words _ _ walkHistory_ok t ht n _ hs).2.1 ?_,
      ⟨c, hc, (C98_words _ _ walkHistory_ok t ht c _ hc).1 3 (by simp [walkHistory])⟩, ?_⟩
    · intro i hi
      simp [walkHistory] at hi
    · rw [hn]
      simp [walkHistory]
  · cases hn
  · simp [walkHistory] at hn

end Columbus.Props
