import Verif.Proofs.FindWords
/-
Whatever the prices, a search that returns reports each word at most once.
-/

namespace Columbus
open Spec

/-- `ms'` is `ms` followed by matches for different nodes with words, each satisfying `S`. -/
def Shape (g : Ghost) (S : Nat → Prop) (ms ms' : IndexMatches) : Prop :=
  ∃ (added : IndexMatches) (js : List Nat), ms' = ms ++ added ∧ added.map MatchData.matchedWord = js.map g.word ∧ js.Nodup ∧
    ∀ j, j ∈ js → j < g.n ∧ g.word j ≠ INVALID_WORDID ∧ S j

variable {e : ErrorValues} {q : Word}

theorem search_shape {t : Trie} {g : Ghost} (h : TInv t g) (T : Int) : ∀ fuel : Nat,
    (∀ (k : Nat) (l p : Letter) (d : Nat) (em : ErrorMatrix) (ms : IndexMatches) (em' : ErrorMatrix) (ms' : IndexMatches), k < g.n →
      LevIndex.searchRecursive t q e T fuel (addr k) l p d em ms = .ok (em', ms') →
      Shape g (fun j => g.path k <+: g.path j) ms ms') ∧
    (∀ (p k : Nat) (l : Letter) (d : Nat) (em : ErrorMatrix) (ms : IndexMatches) (em' : ErrorMatrix) (ms' : IndexMatches), p < g.n →
      (k ≠ 0 → g.Child p k) →
      LevIndex.searchSiblings t q e T fuel (link k) l d em ms = .ok (em', ms') →
      Shape g (fun j => k ≠ 0 ∧ ∃ i, g.Child p i ∧ k ≤ i ∧ g.path i <+: g.path j) ms ms') := by
  intro fuel
  induction fuel with
  | zero =>
    constructor
    · intro k l p d em ms em' ms' _ he
      rw [LevIndex.searchRecursive] at he; cases he
    · intro p k l d em ms em' ms' _ _ he
      rw [LevIndex.searchSiblings] at he; cases he
  | succ fuel ih =>
    obtain ⟨ihr, ihs⟩ := ih
    constructor
    · intro k l p d em ms em' ms' hk he
      rw [LevIndex.searchRecursive] at he
      obtain ⟨em1, _, he⟩ := bind_eq_ok.1 he
      obtain ⟨total, _, he⟩ := bind_eq_ok.1 he
      obtain ⟨w, hw, he⟩ := bind_eq_ok.1 he
      obtain ⟨mn, _, he⟩ := bind_eq_ok.1 he
      have hw' : w = g.word k := by
        rw [Trie.getWordID, rd_word h hk] at hw; cases hw; rfl
      subst hw'
      have hself : Shape g (fun j => j = k) ms (if total ≤ T ∧ g.word k ≠ INVALID_WORDID then
          IndexMatches.addMatch ms (g.word k) total else ms) := by
        by_cases hc : total ≤ T ∧ g.word k ≠ INVALID_WORDID
        · rw [if_pos hc]
          refine ⟨[⟨g.word k, total⟩], [k], rfl, rfl, by simp, ?_⟩
          intro j hj
          have : j = k := by simpa using hj
          subst this
          exact ⟨hk, hc.2, rfl⟩
        · rw [if_neg hc]; exact ⟨[], [], by simp, rfl, List.nodup_nil, by simp⟩
      obtain ⟨a1, js1, e1, m1, n1, p1⟩ := hself
      rw [e1] at he
      by_cases hmn : mn ≤ T
      · simp only [if_pos hmn] at he
        obtain ⟨sib, hsib, he⟩ := bind_eq_ok.1 he
        obtain ⟨j, hj, elink⟩ := h.rd_link hk (Or.inl rfl : g.IsCell k k)
        have hs : sib = link j := by
          rw [cell_self] at elink
          have : t.getSiblingList (addr k) = .ok (link j) := elink
          rw [this] at hsib; cases hsib; rfl
        subst hs
        have hchild : j ≠ 0 → g.Child k j := by
          intro hj0
          rcases hj with ⟨hx, _⟩ | ⟨a, b, c, _⟩
          · exact absurd hx hj0
          · exact ⟨a, b, c⟩
        obtain ⟨a2, js2, e2, m2, n2, p2⟩ := ihs k j _ _ _ _ _ _ hk hchild he
        refine ⟨a1 ++ a2, js1 ++ js2, by rw [e2, List.append_assoc], by rw [List.map_append, List.map_append, m1, m2], ?_, ?_⟩
        · rw [List.nodup_append]
          refine ⟨n1, n2, ?_⟩
          intro a ha b hb hab
          subst hab
          have h1 := (p1 a ha).2.2
          subst h1
          obtain ⟨_, _, _, i, hi, _, hpre⟩ := p2 a hb
          have := hpre.length_le
          rw [hi.path h] at this
          simp at this
          omega
        · intro x hx
          rcases List.mem_append.1 hx with hx | hx
          · obtain ⟨h1, h2, h3⟩ := p1 x hx
            subst h3
            exact ⟨h1, h2, List.prefix_refl _⟩
          · obtain ⟨h1, h2, _, i, hi, _, hpre⟩ := p2 x hx
            refine ⟨h1, h2, List.IsPrefix.trans ?_ hpre⟩
            rw [hi.path h]; exact List.prefix_append _ _
      · simp only [if_neg hmn] at he
        cases he
        refine ⟨a1, js1, rfl, m1, n1, ?_⟩
        intro x hx
        obtain ⟨h1, h2, h3⟩ := p1 x hx
        subst h3
        exact ⟨h1, h2, List.prefix_refl _⟩
    · intro p k l d em ms em' ms' hp hkc he
      rw [LevIndex.searchSiblings] at he
      by_cases hk0 : k = 0
      · subst hk0
        rw [if_pos (link_eq_zero.2 rfl)] at he
        cases he
        exact ⟨[], [], by simp, rfl, List.nodup_nil, by simp⟩
      · have hch := hkc hk0
        have hcell : g.IsCell p k := Or.inr hch
        obtain ⟨hpk, hkn, hpar⟩ := hch
        rw [if_neg (fun hx => hk0 (link_eq_zero.1 hx))] at he
        have hlc : link k = cell p k := by rw [link, if_neg hk0, cell, if_neg (by omega)]
        have echild : t.getChild (link k) = .ok (addr k) := by
          rw [Trie.getChild, link, if_neg hk0]
          have hm := h.bound
          have := addr_cases k
          rw [Trie.rd32_ok (by omega), h.mchild k (by omega) hkn]
        obtain ⟨j, hj, elink⟩ := h.rd_link hp hcell
        have enext : t.getNextSibling (link k) = .ok (link j) := by rw [hlc]; exact elink
        obtain ⟨l', _, he⟩ := bind_eq_ok.1 he
        rw [echild, ok_bind] at he
        obtain ⟨⟨em1, ms1⟩, hrec, he⟩ := bind_eq_ok.1 he
        simp only [enext, ok_bind] at he
        obtain ⟨a1, js1, e1, m1, n1, p1⟩ := ihr k _ _ _ _ _ _ _ hkn hrec
        have hchild : j ≠ 0 → g.Child p j ∧ k < j := by
          intro hj0
          rcases hj with ⟨hx, _⟩ | ⟨a, b, c, _⟩
          · exact absurd hx hj0
          · exact ⟨⟨by omega, b, c⟩, a⟩
        obtain ⟨a2, js2, e2, m2, n2, p2⟩ := ihs p j _ _ _ _ _ _ hp (fun hx => (hchild hx).1) he
        refine ⟨a1 ++ a2, js1 ++ js2, by rw [e2, e1, List.append_assoc], by rw [List.map_append, List.map_append, m1, m2], ?_, ?_⟩
        · rw [List.nodup_append]
          refine ⟨n1, n2, ?_⟩
          intro a ha b hb hab
          subst hab
          have hpre := (p1 a ha).2.2
          obtain ⟨_, _, hj0, i, hi, hji, hpre2⟩ := p2 a hb
          have := child_unique h ⟨hpk, hkn, hpar⟩ hi hpre hpre2
          have := (hchild hj0).2
          omega
        · intro x hx
          rcases List.mem_append.1 hx with hx | hx
          · obtain ⟨h1, h2, h3⟩ := p1 x hx
            exact ⟨h1, h2, hk0, k, ⟨hpk, hkn, hpar⟩, Nat.le_refl _, h3⟩
          · obtain ⟨h1, h2, hj0, i, hi, hji, hpre⟩ := p2 x hx
            have := (hchild hj0).2
            exact ⟨h1, h2, hk0, i, hi, by omega, hpre⟩

theorem findWords_shape [Build] [Runtime] {ix : LevIndex} {g : Ghost} {h : IndexHistory} (hi : LInv ix g h) {T : Int}
    {ms0 result : IndexMatches} (he : ix.findWords q e T ms0 = .ok result) :
    ∃ added, result = IndexMatches.sort (ms0 ++ added) ∧ (added.map MatchData.matchedWord).Nodup ∧
      ∀ m ∈ added, ∃ w, IndexHistory.Has h w m.matchedWord := by
  unfold LevIndex.findWords at he
  obtain ⟨em, _, he⟩ := bind_eq_ok.1 he
  obtain ⟨e00, _, he⟩ := bind_eq_ok.1 he
  obtain ⟨_, _, he⟩ := bind_eq_ok.1 he
  have he' : (do
      let sibling ← ix.trie.getSiblingList ix.trie.getRoot
      let (_, ms) ← LevIndex.searchSiblings ix.trie q e T ix.trie.mapped sibling 0#16 1 em ms0
      .ok (IndexMatches.sort ms)) = .ok result := by
    by_cases hq : 0 < q.length
    · simp only [if_pos hq] at he
      obtain ⟨e01, _, he⟩ := bind_eq_ok.1 he
      obtain ⟨_, _, he⟩ := bind_eq_ok.1 he
      exact he
    · simp only [if_neg hq] at he
      exact he
  obtain ⟨sib, hsib, he⟩ := bind_eq_ok.1 he'
  obtain ⟨⟨em', ms'⟩, hs, he⟩ := bind_eq_ok.1 he
  cases he
  have ht := hi.tinv
  obtain ⟨j, hj, elink⟩ := ht.rd_link ht.pos (Or.inl rfl : g.IsCell 0 0)
  have hsl : sib = link j := by
    rw [cell_self] at elink
    have : ix.trie.getSiblingList ix.trie.getRoot = .ok (link j) := by
      rw [Trie.getSiblingList, Trie.getRoot, ht.root]; exact elink
    rw [this] at hsib; cases hsib; rfl
  subst hsl
  have hchild : j ≠ 0 → g.Child 0 j := by
    intro hj0
    rcases hj with ⟨hx, _⟩ | ⟨a, b, c, _⟩
    · exact absurd hx hj0
    · exact ⟨a, b, c⟩
  obtain ⟨added, js, e1, m1, n1, p1⟩ := (search_shape ht T ix.trie.mapped).2 0 j _ _ _ _ _ _ ht.pos hchild hs
  have hasj : ∀ j, j ∈ js → j < g.n ∧ g.Has (g.path j) (g.word j) := by
    intro j hj
    obtain ⟨h1, h2, _⟩ := p1 j hj
    exact ⟨h1, j, h1, rfl, rfl, h2⟩
  refine ⟨added, by rw [e1], ?_, ?_⟩
  · rw [m1]
    apply List.Nodup.map_on _ n1
    intro a ha b hb heq
    obtain ⟨ha1, ha2⟩ := hasj a ha
    obtain ⟨hb1, hb2⟩ := hasj b hb
    rw [hi.has] at ha2 hb2
    exact ht.path_inj a b ha1 hb1 ((hi.ok.consistent _ ha2.2 _ hb2.2 ha2.1 hb2.1).2 heq)
  · intro m hm
    have : m.matchedWord ∈ js.map g.word := by rw [← m1]; exact List.mem_map_of_mem hm
    obtain ⟨j, hj, e2⟩ := List.mem_map.1 this
    have := (hasj j hj).2
    rw [hi.has, e2] at this
    exact ⟨_, this⟩

end Columbus
