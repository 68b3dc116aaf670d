import Verif.Proofs.LevIndex
import Verif.Spec.Walk
/-
Walks through a trie: the lists of records are the children of the ghost tree, in the order of insertion.
-/

namespace Columbus
open Spec

/-- The children of a node, in the order of their creation. -/
def Ghost.kids (g : Ghost) (k : Nat) : List Nat := (List.range g.n).filter fun j => decide (1 ≤ j) && decide (g.par j = k)

theorem Ghost.mem_kids {g : Ghost} {k j : Nat} : j ∈ g.kids k ↔ 1 ≤ j ∧ j < g.n ∧ g.par j = k := by
  simp [Ghost.kids]; tauto

/-- The trie has the words of `h`, and only nodes for them. -/
structure WInv (t : Trie) (g : Ghost) (h : IndexHistory) : Prop where
  tinv : TInv t g
  has : ∀ w i, g.Has w i ↔ (w, i) ∈ h
  pre : ∀ j, 1 ≤ j → j < g.n → ∃ p ∈ h, g.path j <+: p.1
  order : ∀ k, k < g.n → (g.kids k).map g.letter = (goOn h (g.path k)).eraseDups

theorem goOn_snoc (h : IndexHistory) (w : Word) (id : WordID) (p : Word) :
    goOn (h ++ [(w, id)]) p = goOn h p ++ (if p <+: w then ((w.drop p.length).head?).toList else []) := by
  unfold goOn
  rw [List.filterMap_append]
  congr 1
  by_cases hp : p <+: w
  · rw [if_pos hp]
    simp only [List.filterMap_cons, List.filterMap_nil, if_pos hp]
    cases (w.drop p.length).head? <;> rfl
  · simp [hp]

theorem mem_goOn {h : IndexHistory} {p : Word} {l : Letter} : l ∈ goOn h p ↔ ∃ q ∈ h, p ++ [l] <+: q.1 := by
  unfold goOn
  rw [List.mem_filterMap]
  constructor
  · rintro ⟨q, hq, e⟩
    split at e
    · rename_i hp
      obtain ⟨r, hr⟩ := hp
      rw [← hr, List.drop_left] at e
      cases r with
      | nil => simp at e
      | cons x r =>
        simp only [List.head?_cons, Option.some.injEq] at e
        subst e
        exact ⟨q, hq, r, by rw [← hr]; simp⟩
    · cases e
  · rintro ⟨q, hq, r, hr⟩
    refine ⟨q, hq, ?_⟩
    rw [if_pos ⟨l :: r, by rw [← hr]; simp⟩, ← hr]
    simp

theorem eraseDups_snoc (l : List Letter) (x : Letter) :
    (l ++ [x]).eraseDups = if x ∈ l then l.eraseDups else l.eraseDups ++ [x] := by
  rw [List.eraseDups_append]
  by_cases h : x ∈ l
  · simp [h, List.removeAll]
  · simp [h, List.removeAll, List.eraseDups_cons]

namespace WInv
variable {t : Trie} {g : Ghost} {h : IndexHistory}

/-- The paths are the prefixes of the inserted words. -/
theorem paths (hi : WInv t g h) (r : Word) : (∃ k, k < g.n ∧ g.path k = r) ↔ r = [] ∨ ∃ p ∈ h, r <+: p.1 := by
  constructor
  · rintro ⟨k, hk, rfl⟩
    by_cases hk0 : k = 0
    · subst hk0; exact Or.inl hi.tinv.path0
    · exact Or.inr (hi.pre k (by omega) hk)
  · rintro (rfl | ⟨p, hp, hr⟩)
    · exact ⟨0, hi.tinv.pos, hi.tinv.path0⟩
    · obtain ⟨k, hk, e, _⟩ := (hi.has p.1 p.2).2 hp
      rw [← e] at hr
      obtain ⟨j, hj, e⟩ := hi.tinv.prefix_path k hk r hr
      exact ⟨j, by omega, e⟩

/-- A node is a child exactly if its path is one letter longer. -/
theorem _root_.Columbus.TInv.par_iff {t : Trie} {g : Ghost} (hi : TInv t g) {j k : Nat} (h1 : 1 ≤ j) (hj : j < g.n) (hk : k < g.n) :
    g.par j = k ↔ ∃ l, g.path j = g.path k ++ [l] := by
  constructor
  · rintro rfl; exact ⟨_, hi.path_eq j h1 hj⟩
  · rintro ⟨l, e⟩
    rw [hi.path_eq j h1 hj] at e
    have := hi.par_lt j h1 hj
    exact hi.path_inj _ _ (by omega) hk (List.append_inj_left' e rfl)

/-- The children of a node after an insertion: those before it, and perhaps one more. -/
theorem kids_insert {t' : Trie} {g' : Ghost} {w : Word} {id k0 : Nat} (hi : WInv t g h) (hi' : TInv t' g')
    (hins : Inserted g g' w id k0) (k : Nat) (hk : k < g'.n) :
    (g'.kids k).map g'.letter = (goOn (h ++ [(w, id)]) (g'.path k)).eraseDups := by
  have hn := hins.n_le
  -- the children before
  have hold : ((List.range g.n).filter fun j => decide (1 ≤ j) && decide (g'.par j = k)).map g'.letter =
      (goOn h (g'.path k)).eraseDups := by
    rcases Nat.lt_or_ge k g.n with hkn | hkn
    · rw [hins.path k hkn, ← hi.order k hkn, Ghost.kids]
      have e : ((List.range g.n).filter fun j => decide (1 ≤ j) && decide (g'.par j = k)) =
          (List.range g.n).filter fun j => decide (1 ≤ j) && decide (g.par j = k) := by
        apply List.filter_congr
        intro j hj
        rw [hins.par j (List.mem_range.1 hj)]
      rw [e]
      apply List.map_congr_left
      intro j hj
      rw [List.mem_filter, List.mem_range] at hj
      exact hins.letter j hj.1
    · have e1 : ((List.range g.n).filter fun j => decide (1 ≤ j) && decide (g'.par j = k)) = [] := by
        rw [List.filter_eq_nil_iff]
        intro j hj
        rw [List.mem_range] at hj
        rintro hb
        simp only [Bool.and_eq_true, decide_eq_true_eq] at hb
        have := hi'.par_lt j hb.1 (by omega)
        omega
      have e2 : goOn h (g'.path k) = [] := by
        rw [List.eq_nil_iff_forall_not_mem]
        intro l hl
        obtain ⟨q, hq, hp⟩ := mem_goOn.1 hl
        obtain ⟨j, hj, e⟩ := (hi.paths (g'.path k)).2 (Or.inr ⟨q, hq, (List.prefix_append _ _).trans hp⟩)
        have := hi'.path_inj j k (by omega) hk (by rw [hins.path j hj, e])
        omega
      rw [e1, e2]; rfl
  -- the new child
  obtain ⟨m, hm⟩ : ∃ m, g'.n = g.n + m := ⟨g'.n - g.n, by omega⟩
  have hsplit : (g'.kids k).map g'.letter = (goOn h (g'.path k)).eraseDups ++
      (((List.range m).map (g.n + ·)).filter fun j => decide (1 ≤ j) && decide (g'.par j = k)).map g'.letter := by
    rw [Ghost.kids, hm, List.range_add, List.filter_append, List.map_append, hold]
  rw [hsplit, goOn_snoc]
  have hmemnew : ∀ j, j ∈ (((List.range m).map (g.n + ·)).filter fun j => decide (1 ≤ j) && decide (g'.par j = k)) ↔
      g.n ≤ j ∧ j < g'.n ∧ g'.par j = k := by
    intro j
    have := hi.tinv.pos
    simp only [List.mem_filter, List.mem_map, List.mem_range, Bool.and_eq_true, decide_eq_true_eq]
    constructor
    · rintro ⟨⟨a, ha, rfl⟩, h1, h2⟩; exact ⟨by omega, by omega, h2⟩
    · rintro ⟨h1, h2, h3⟩; exact ⟨⟨j - g.n, by omega, by omega⟩, by omega, h3⟩
  have hnd : (((List.range m).map (g.n + ·)).filter fun j => decide (1 ≤ j) && decide (g'.par j = k)).Nodup :=
    List.Pairwise.filter _ (List.Pairwise.map _ (fun a b e => by simpa using e) (List.nodup_range (n := m)))
  revert hmemnew hnd
  generalize (((List.range m).map (g.n + ·)).filter fun j => decide (1 ≤ j) && decide (g'.par j = k)) = new
  intro hmemnew hnd
  -- new children spell beginnings of the word
  have hpos := hi.tinv.pos
  have hnewpath : ∀ j ∈ new, g'.path k ++ [g'.letter j] <+: w ∧ g'.letter j ∉ goOn h (g'.path k) := by
    intro j hj
    obtain ⟨h1, h2, h3⟩ := (hmemnew j).1 hj
    have e := hi'.path_eq j (by omega) h2
    rw [h3] at e
    constructor
    · obtain ⟨_, r, _, hr, er⟩ := hins.new j h1 h2
      rw [← e, er]; exact hr
    · intro hl
      obtain ⟨q, hq, hp⟩ := mem_goOn.1 hl
      obtain ⟨i, hi1, e1⟩ := (hi.paths _).2 (Or.inr ⟨q, hq, hp⟩)
      have := hi'.path_inj i j (by omega) h2 (by rw [hins.path i hi1, e1, e])
      omega
  by_cases hgo : ∃ l, g'.path k ++ [l] <+: w
  · obtain ⟨l, hl⟩ := hgo
    have hhead : (if g'.path k <+: w then ((w.drop (g'.path k).length).head?).toList else []) = [l] := by
      rw [if_pos ((List.prefix_append _ _).trans hl)]
      obtain ⟨r, hr⟩ := hl
      rw [← hr]; simp
    have hlet : ∀ {l'}, g'.path k ++ [l'] <+: w → l' = l := by
      intro l' h'
      rcases List.prefix_or_prefix_of_prefix h' hl with h | h
      · have := h.eq_of_length (by simp)
        simpa using this
      · have := h.eq_of_length (by simp)
        simpa using this.symm
    rw [hhead, eraseDups_snoc]
    by_cases hmem : l ∈ goOn h (g'.path k)
    · rw [if_pos hmem]
      have : new = [] := by
        rw [List.eq_nil_iff_forall_not_mem]
        intro j hj
        obtain ⟨h1, h2⟩ := hnewpath j hj
        rw [hlet h1] at h2
        exact h2 hmem
      rw [this]; simp
    · rw [if_neg hmem]
      congr 1
      have hw : w = g'.path k0 := hins.path_k.symm
      obtain ⟨j, hj, e⟩ := hi'.prefix_path k0 hins.lt (g'.path k ++ [l]) (hw ▸ hl)
      have hjn : j < g'.n := by have := hins.lt; omega
      have hj0 : j ≠ 0 := by rintro rfl; rw [hi'.path0] at e; simp at e
      have hpar : g'.par j = k := (hi'.par_iff (by omega) hjn hk).2 ⟨l, e⟩
      have hlj : g'.letter j = l := by
        have := hi'.path_eq j (by omega) hjn
        rw [e, hpar] at this
        simpa using this.symm
      have hjg : g.n ≤ j := by
        by_contra hlt
        have hlt : j < g.n := by omega
        have hp' := (hi.paths (g'.path k ++ [l])).1 ⟨j, hlt, by rw [← hins.path j hlt, e]⟩
        rcases hp' with hp' | ⟨q, hq, hp'⟩
        · simp at hp'
        · exact hmem (mem_goOn.2 ⟨q, hq, hp'⟩)
      have hone : ∀ i ∈ new, i = j := by
        intro i hmi
        obtain ⟨h1, h2, h3⟩ := (hmemnew i).1 hmi
        apply hi'.path_inj i j h2 hjn
        rw [hi'.path_eq i (by omega) h2, h3, hlet (hnewpath i hmi).1, e]
      have : new = [j] := by
        match new, hmemnew, hnd, hone with
        | [], hm, _, _ => exact absurd ((hm j).2 ⟨hjg, hjn, hpar⟩) (by simp)
        | [a], _, _, ho => rw [ho a (by simp)]
        | a :: b :: r, _, hnd, ho =>
          have := ho a (by simp)
          have := ho b (by simp)
          subst_vars
          simp at hnd
      rw [this]; simp [hlj]
  · have hnew : new = [] := by
      rw [List.eq_nil_iff_forall_not_mem]
      intro j hj
      exact hgo ⟨_, (hnewpath j hj).1⟩
    have hnil : (if g'.path k <+: w then ((w.drop (g'.path k).length).head?).toList else []) = [] := by
      split
      · rename_i hp
        obtain ⟨r, hr⟩ := hp
        rw [← hr, List.drop_left]
        cases r with
        | nil => rfl
        | cons x r => exact absurd ⟨x, r, by rw [← hr]; simp⟩ hgo
      · rfl
    rw [hnil, hnew]; simp

theorem insert [Build] (hi : WInv t g h) {w : Word} {id : Nat} (hu : TrieUse (h ++ [(w, id)])) :
    (t.insertWord w id = .error .runtimeError ∧ Trie.Refusal t (4 + 32 * (g.n + w.length))) ∨
    ∃ t' g' k, t.insertWord w id = .ok (t', addr k) ∧ WInv t' g' (h ++ [(w, id)]) ∧ t'.os = t.os ∧ t.mapped ≤ t'.mapped ∧
      g'.n ≤ g.n + w.length := by
  have hmem : (w, id) ∈ h ++ [(w, id)] := by simp
  have hid := hu.valid _ hmem
  rcases insertWord_spec hi.tinv (w := w) ⟨hu.notEmpty _ hmem, hu.noNul _ hmem, hu.start _ hmem⟩ (id := id) hid
    (by intro i hh; exact hu.same (w, i) (by simp [(hi.has w i).1 hh]) _ hmem rfl) with hr | ⟨t', g', k, e, h', hins, hos, hm⟩
  · exact Or.inl hr
  · right
    refine ⟨t', g', k, e, ⟨h', ?_, ?_, fun j hj => hi.kids_insert h' hins j hj⟩, hos, hm, hins.n_le'⟩
    · intro v i
      rw [hins.has h' (Nat.ne_of_lt hid), hi.has]
      simp only [List.mem_append, List.mem_singleton, Prod.mk.injEq]
      constructor
      · rintro (h | h)
        · exact Or.inr h
        · exact Or.inl h.2
      · rintro (hh | hh)
        · by_cases hv : v = w
          · subst hv
            exact Or.inl ⟨rfl, hu.same (v, i) (by simp [hh]) _ hmem rfl⟩
          · exact Or.inr ⟨hv, hh⟩
        · exact Or.inl hh
    · intro j h1 h2
      rcases Nat.lt_or_ge j g.n with hj | hj
      · obtain ⟨p, hp, e⟩ := hi.pre j h1 hj
        exact ⟨p, by simp [hp], by rw [hins.path j hj]; exact e⟩
      · obtain ⟨_, r, _, hr, e⟩ := hins.new j hj h2
        exact ⟨(w, id), hmem, by rw [e]; exact hr⟩

end WInv

theorem TrieUse.sub {h h' : IndexHistory} (hu : TrieUse h) (hs : ∀ p ∈ h', p ∈ h) : TrieUse h' :=
  ⟨fun p hp => hu.notEmpty p (hs p hp), fun p hp => hu.noNul p (hs p hp), fun p hp => hu.start p (hs p hp),
    fun p hp => hu.valid p (hs p hp), fun p hp r hr => hu.same p (hs p hp) r (hs r hr)⟩

theorem winv_init {t : Trie} (h : TInv t Ghost.init) : WInv t Ghost.init [] := by
  refine ⟨h, fun w i => by simp [init_has], ?_, ?_⟩
  · intro j h1 h2
    have : j < 1 := h2
    omega
  · intro k hk
    have : Ghost.init.kids k = [] := by
      rw [List.eq_nil_iff_forall_not_mem]
      intro j hj
      obtain ⟨h1, h2, _⟩ := Ghost.mem_kids.1 hj
      have : j < 1 := h2
      omega
    rw [this]; rfl

theorem insertAllTrie_inv [Build] : ∀ (more : IndexHistory) {h : IndexHistory} {t : Trie} {g : Ghost}, WInv t g h →
    TrieUse (h ++ more) →
    (Res.insertAllTrie t more = .error .runtimeError ∧
      Trie.Refusal t (4 + 32 * (g.n + (more.map fun p => p.1.length).sum))) ∨
    ∃ t' g', Res.insertAllTrie t more = .ok t' ∧ WInv t' g' (h ++ more) := by
  intro more
  induction more with
  | nil => intro h t g hi _; right; exact ⟨t, g, rfl, by simpa using hi⟩
  | cons p more ih =>
    intro h t g hi ho
    obtain ⟨w, id⟩ := p
    have e : h ++ (w, id) :: more = h ++ [(w, id)] ++ more := by simp
    rw [e] at ho
    rcases hi.insert (w := w) (id := id) (TrieUse.sub ho (by intro p hp; simp only [List.mem_append] at hp ⊢; exact Or.inl hp))
      with ⟨e1, hr⟩ | ⟨t1, g1, k, e1, h1, hos, hm, hn⟩
    · left
      refine ⟨by rw [Res.insertAllTrie]; simp only [e1, error_bind], hr.mono rfl (Nat.le_refl _) ?_⟩
      simp only [List.map_cons, List.sum_cons]; omega
    · rcases ih h1 ho with ⟨e2, hr⟩ | ⟨t2, g2, e2, h2⟩
      · left
        refine ⟨by rw [Res.insertAllTrie]; simp only [e1, ok_bind, e2], hr.mono hos hm ?_⟩
        simp only [List.map_cons, List.sum_cons]; omega
      · right
        refine ⟨t2, g2, by rw [Res.insertAllTrie]; simp only [e1, ok_bind, e2], ?_⟩
        rw [e]; exact h2

/-! ### Lists of records -/

theorem Spec.Records.unique {t : Trie} {s : Nat} {a b : List Nat} (ha : Records t s a) (hb : Records t s b) : a = b := by
  induction ha generalizing b with
  | nil =>
    cases hb with
    | nil => rfl
    | cons h _ _ => exact absurd rfl h
  | cons h1 h2 _ ih =>
    cases hb with
    | nil => exact absurd rfl h1
    | cons _ h2' h3' =>
      rw [h2] at h2'
      cases h2'
      rw [ih h3']

/-- The children created after `k`. -/
def Ghost.kidsAfter (g : Ghost) (p k : Nat) : List Nat := (g.kids p).filter fun j => decide (k < j)

theorem Ghost.kids_sorted (g : Ghost) (p : Nat) : (g.kids p).Pairwise (· < ·) := List.pairwise_lt_range.filter _

/-- What follows `k`: the next child, and what follows it. -/
theorem Ghost.kidsAfter_next {g : Ghost} {p k j : Nat} (h : g.NextKid p k j) :
    (j = 0 ∧ g.kidsAfter p k = []) ∨ (j ≠ 0 ∧ g.kidsAfter p k = j :: g.kidsAfter p j) := by
  rcases h with ⟨rfl, h⟩ | ⟨h1, h2, h3, h4⟩
  · left
    refine ⟨rfl, ?_⟩
    rw [Ghost.kidsAfter, List.filter_eq_nil_iff]
    intro i hi
    obtain ⟨_, hi2, hi3⟩ := Ghost.mem_kids.1 hi
    simp only [decide_eq_true_eq]
    intro hk
    exact h i hk hi2 hi3
  · right
    refine ⟨by omega, ?_⟩
    have hs : (g.kidsAfter p k).Pairwise (· < ·) := (g.kids_sorted p).filter _
    have hs' : (j :: g.kidsAfter p j).Pairwise (· < ·) := by
      rw [List.pairwise_cons]
      refine ⟨?_, (g.kids_sorted p).filter _⟩
      intro i hi
      rw [Ghost.kidsAfter, List.mem_filter] at hi
      simpa using hi.2
    refine List.Perm.eq_of_pairwise (le := (· < ·)) (fun a b _ _ h1 h2 => by omega) hs hs' ?_
    rw [List.perm_ext_iff_of_nodup (hs.imp (fun h => by omega)) (hs'.imp (fun h => by omega))]
    intro i
    simp only [Ghost.kidsAfter, List.mem_cons, List.mem_filter, Ghost.mem_kids, decide_eq_true_eq]
    constructor
    · rintro ⟨⟨a1, a2, a3⟩, a4⟩
      by_cases hij : i = j
      · exact Or.inl hij
      · right
        refine ⟨⟨a1, a2, a3⟩, ?_⟩
        by_contra hlt
        exact h4 i a4 (by omega) a3
    · rintro (rfl | ⟨⟨a1, a2, a3⟩, a4⟩)
      · exact ⟨⟨by omega, h2, h3⟩, h1⟩
      · exact ⟨⟨a1, a2, a3⟩, by omega⟩

theorem records_from {t : Trie} {g : Ghost} (h : TInv t g) {p : Nat} (hp : p < g.n) : ∀ m k j, g.n - k ≤ m → g.IsCell p k → g.NextKid p k j →
    Records t (link j) ((g.kidsAfter p k).map fun i => addr i + 20) := by
  intro m
  induction m with
  | zero =>
    intro k j hm hc _
    have := (TInv.IsCell.bound h hp hc).1
    omega
  | succ m ih =>
    intro k j hm hc hj
    have hb := TInv.IsCell.bound h hp hc
    rcases Ghost.kidsAfter_next hj with ⟨rfl, e⟩ | ⟨hj0, e⟩
    · rw [e]; exact .nil
    · rw [e, List.map_cons]
      obtain ⟨hc', hkj, el⟩ := hj.isCell hb.2.1 hj0
      obtain ⟨j', hj', er⟩ := h.rd_link hp hc'
      have : cell p j = addr j + 20 := by rw [← el, link, if_neg hj0]
      rw [el, this]
      rw [this] at er
      exact .cons (by omega) er (ih j j' (by omega) hc' hj')

/-- The records of a node. -/
theorem records_node {t : Trie} {g : Ghost} (h : TInv t g) {p : Nat} (hp : p < g.n) :
    ∃ s, t.getSiblingList (addr p) = .ok s ∧ Records t s ((g.kids p).map fun i => addr i + 20) := by
  obtain ⟨j, hj, e⟩ := h.rd_link (p := p) (k := p) hp (Or.inl rfl)
  rw [cell_self] at e
  refine ⟨link j, ?_, ?_⟩
  · rw [Trie.getSiblingList, show addr p + sizeofNode + 8 = addr p + 8 + 8 from rfl]; exact e
  · have := records_from h hp g.n p j (by omega) (Or.inl rfl) hj
    have e' : g.kidsAfter p p = g.kids p := by
      rw [Ghost.kidsAfter, List.filter_eq_self]
      intro i hi
      obtain ⟨h1, h2, rfl⟩ := Ghost.mem_kids.1 hi
      simpa using h.par_lt i h1 h2
    rwa [e'] at this

theorem rd_child {t : Trie} {g : Ghost} (h : TInv t g) {k : Nat} (h1 : 1 ≤ k) (hk : k < g.n) :
    t.getLetter (addr k + 20) = .ok (g.letter k) ∧ t.getChild (addr k + 20) = .ok (addr k) := by
  have hm := h.bound
  have := addr_cases k
  constructor
  · rw [Trie.getLetter, Trie.rdLetter_ok (by omega), h.mletter k h1 hk, BitVec.ofNat_toNat, BitVec.setWidth_eq]
  · rw [Trie.getChild, Trie.rd32_ok (by omega), show addr k + 20 + 4 = addr k + 24 from rfl, h.mchild k h1 hk]

/-- The nodes of a walk are the nodes of the tree. -/
theorem spells_iff {t : Trie} {g : Ghost} (h : TInv t g) (n : Nat) (p : Word) :
    Spells t n p ↔ ∃ k, k < g.n ∧ n = addr k ∧ g.path k = p := by
  constructor
  · intro hs
    induction hs with
    | root => exact ⟨0, h.pos, by rw [Trie.getRoot, h.root]; rfl, h.path0⟩
    | down _ hl hr hx hlt hc ih =>
      obtain ⟨k, hk, rfl, rfl⟩ := ih
      obtain ⟨s, e, hr'⟩ := records_node h hk
      rw [hl] at e
      cases e
      rw [hr.unique hr'] at hx
      obtain ⟨i, hi, rfl⟩ := List.mem_map.1 hx
      obtain ⟨h1, h2, h3⟩ := Ghost.mem_kids.1 hi
      obtain ⟨e1, e2⟩ := rd_child h h1 h2
      rw [e1] at hlt; cases hlt
      rw [e2] at hc; cases hc
      exact ⟨i, h2, rfl, by rw [h.path_eq i h1 h2, h3]⟩
  · rintro ⟨k, hk, rfl, rfl⟩
    induction k using Nat.strongRecOn with
    | _ k ih =>
      by_cases hk0 : k = 0
      · subst hk0
        rw [h.path0, show addr 0 = t.getRoot from h.root.symm]
        exact .root
      · have hp := h.par_lt k (by omega) hk
        rw [h.path_eq k (by omega) hk]
        obtain ⟨s, e, hr⟩ := records_node h (p := g.par k) (by omega)
        obtain ⟨e1, e2⟩ := rd_child h (by omega) hk
        exact .down (ih _ hp (by omega)) e hr (List.mem_map.2 ⟨k, Ghost.mem_kids.2 ⟨by omega, hk, rfl⟩, rfl⟩) e1 e2

/-! ### Beginnings of words come back from storage -/

theorem prefix_utf16 {w : List Letter} {cps : List Nat} (h : Utf16 w cps) : ∀ p, p <+: w →
    (∃ c, Utf16 p c) ∨ ∃ q c u, Utf16 q c ∧ HighUnit u ∧ p = q ++ [u] := by
  induction h with
  | nil => intro p hp; left; rw [List.prefix_nil.1 hp]; exact ⟨_, .nil⟩
  | bmp hu _ ih =>
    intro p hp
    rw [List.prefix_cons_iff] at hp
    rcases hp with rfl | ⟨r, rfl, hr⟩
    · exact Or.inl ⟨_, .nil⟩
    · rcases ih r hr with ⟨c, hc⟩ | ⟨q, c, v, hc, hv, rfl⟩
      · exact Or.inl ⟨_, .bmp hu hc⟩
      · exact Or.inr ⟨_ :: q, _, v, .bmp hu hc, hv, rfl⟩
  | pair h1 h2 h3 h4 _ ih =>
    intro p hp
    rw [List.prefix_cons_iff] at hp
    rcases hp with rfl | ⟨r, rfl, hr⟩
    · exact Or.inl ⟨_, .nil⟩
    · rw [List.prefix_cons_iff] at hr
      rcases hr with rfl | ⟨r', rfl, hr⟩
      · exact Or.inr ⟨[], _, _, .nil, ⟨h1, h2⟩, rfl⟩
      · rcases ih r' hr with ⟨c, hc⟩ | ⟨q, c, v, hc, hv, rfl⟩
        · exact Or.inl ⟨_, .pair h1 h2 h3 h4 hc⟩
        · exact Or.inr ⟨_ :: _ :: q, _, v, .pair h1 h2 h3 h4 hc, hv, rfl⟩

theorem readable_prefix [Build] {w p : Word} (hw : ∃ cps, Utf16 w cps) (hb : ∀ l ∈ w, ¬ IsBlank l.toNat) (hp : p <+: w) : Readable p := by
  obtain ⟨c, hc⟩ := hw
  have hb' : ∀ l ∈ p, ¬ IsBlank l.toNat := fun l hl => hb l (hp.subset hl)
  rcases prefix_utf16 hc p hp with h | ⟨q, c, u, hq, hu, rfl⟩
  · exact readable_utf16 h hb'
  · have e := brokenLoop_end hq hu
    simp only [Readable, Word.ofLetters, List.getLast?_append, List.getLast?_singleton, Option.some_or, if_true,
      List.dropLast_concat, (hasWhitespace_false_iff _).2 hb', Bool.false_eq_true, if_false, hasBrokenSurrogates, e, ok_bind]

end Columbus
