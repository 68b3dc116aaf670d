import Verif.Proofs.Refused
/-
The tree in a file with lost bytes: as Proofs/Trie.lean and Proofs/TrieOps.lean, but the nodes are at addresses `ad 0 < ad 1 < …`
with gaps between them.
-/

namespace Columbus.Res
open Act

/-- Address of the record of cell `k` of `p`. -/
def cellA (ad : Nat → Nat) (p k : Nat) : Nat := if k = p then ad p + 8 else ad k + 20

theorem cellA_cases (ad : Nat → Nat) (p k : Nat) : (k = p ∧ cellA ad p k = ad k + 8) ∨ (k ≠ p ∧ cellA ad p k = ad k + 20) := by
  unfold cellA; split
  · rename_i h; left; exact ⟨h, by rw [h]⟩
  · right; constructor
    · assumption
    · rfl

/-- Link to the record of node `j`. -/
def linkA (ad : Nat → Nat) (j : Nat) : Nat := if j = 0 then 0 else ad j + 20

theorem linkA_eq_zero {ad : Nat → Nat} {j : Nat} : linkA ad j = 0 ↔ j = 0 := by
  unfold linkA; split
  · simp_all
  · constructor
    · intro h; omega
    · intro h; contradiction

/-- The memory of `t` represents `g`, with node `k` at `ad k`. -/
structure GInv (t : Trie) (g : Ghost) (ad : Nat → Nat) (free : Nat) : Prop where
  hdr : Trie.Hdr t free
  root : t.root = 16
  pos : 1 ≤ g.n
  ad0 : ad 0 = 16
  free0 : 36 ≤ free
  ad1 : ∀ k, 1 ≤ k → k < g.n → 36 ≤ ad k ∧ ad k + 32 ≤ free
  ad2 : ∀ i j, 1 ≤ i → i < j → j < g.n → ad i + 32 ≤ ad j
  mnodes : 20 * t.mem.get32 12 ≤ free
  mcount : t.mem.get32 8 = g.count
  count_lt : g.n ≤ t.mem.get32 12
  path0 : g.path 0 = []
  par_lt : ∀ k, 1 ≤ k → k < g.n → g.par k < k
  path_eq : ∀ k, 1 ≤ k → k < g.n → g.path k = g.path (g.par k) ++ [g.letter k]
  path_inj : ∀ i j, i < g.n → j < g.n → g.path i = g.path j → i = j
  word_lt : ∀ k, k < g.n → g.word k < 2^32
  mword : ∀ k, k < g.n → t.mem.get32 (ad k) = g.word k
  mdummy : ∀ k, k < g.n → t.mem.get16 (ad k + 8) = 0
  mletter : ∀ k, 1 ≤ k → k < g.n → t.mem.get16 (ad k + 20) = (g.letter k).toNat
  mchild : ∀ k, 1 ≤ k → k < g.n → t.mem.get32 (ad k + 24) = ad k
  mlink : ∀ p k, p < g.n → g.IsCell p k → ∃ j, g.NextKid p k j ∧ t.mem.get32 (cellA ad p k + 8) = linkA ad j

namespace GInv
variable {t : Trie} {g : Ghost} {ad : Nat → Nat} {free : Nat}

theorem bound (h : GInv t g ad free) : free < t.mapped ∧ t.mapped ≤ 2^31 ∧ g.n ≤ free := by
  have h1 := h.hdr.lt
  have h2 := h.hdr.size.bounds.2
  have h3 := h.mnodes
  have h4 := h.count_lt
  omega

/-- Where node `k` lies. -/
theorem at_ (h : GInv t g ad free) {k : Nat} (hk : k < g.n) : (k = 0 ∧ ad k = 16) ∨ (0 < k ∧ 36 ≤ ad k ∧ ad k + 32 ≤ free) := by
  rcases Nat.eq_zero_or_pos k with rfl | h1
  · exact Or.inl ⟨rfl, h.ad0⟩
  · exact Or.inr ⟨h1, h.ad1 k h1 hk⟩

/-- Two nodes lie apart. -/
theorem apart (h : GInv t g ad free) {i k : Nat} (hi : i < g.n) (hk : k < g.n) : (i = k ∧ ad i = ad k) ∨
    (i < k ∧ ad i + 20 ≤ ad k ∧ (0 < i → ad i + 32 ≤ ad k)) ∨ (k < i ∧ ad k + 20 ≤ ad i ∧ (0 < k → ad k + 32 ≤ ad i)) := by
  have key : ∀ {i k}, i < k → k < g.n → ad i + 20 ≤ ad k ∧ (0 < i → ad i + 32 ≤ ad k) := by
    intro i k hik hk
    have h1 := h.ad1 k (by omega) hk
    rcases Nat.eq_zero_or_pos i with rfl | hi
    · rw [h.ad0]; exact ⟨by omega, by omega⟩
    · have := h.ad2 i k hi hik hk
      exact ⟨by omega, fun _ => this⟩
  rcases Nat.lt_trichotomy i k with hlt | rfl | hlt
  · exact Or.inr (Or.inl ⟨hlt, key hlt hk⟩)
  · exact Or.inl ⟨rfl, rfl⟩
  · exact Or.inr (Or.inr ⟨hlt, key hlt hi⟩)

theorem ne_zero (h : GInv t g ad free) {k : Nat} (hk : k < g.n) : ad k ≠ 0 := by
  have := h.at_ hk
  omega

theorem cell_bound (h : GInv t g ad free) {p k : Nat} (hp : p < g.n) (hc : g.IsCell p k) :
    k < g.n ∧ p ≤ k ∧ cellA ad p k + 12 ≤ free ∧ 16 ≤ cellA ad p k := by
  have h0 := h.free0
  have hk : k < g.n ∧ p ≤ k := by rcases hc with rfl | ⟨h1, h2, _⟩ <;> omega
  have := h.at_ hp
  have := h.at_ hk.1
  have := cellA_cases ad p k
  omega

theorem rd_cellLetter (h : GInv t g ad free) {p k : Nat} (hp : p < g.n) (hc : g.IsCell p k) :
    t.rdLetter (cellA ad p k) = .ok (g.cellLetter p k) := by
  have hb := h.cell_bound hp hc
  have hm := h.bound
  rw [Trie.rdLetter_ok (by omega)]
  congr 1
  rcases hc with rfl | ⟨h1, h2, _⟩
  · rw [show cellA ad k k = ad k + 8 from if_pos rfl, h.mdummy k hp, Ghost.cellLetter, if_pos rfl]
  · rw [show cellA ad p k = ad k + 20 from if_neg (by omega), h.mletter k (by omega) h2, Ghost.cellLetter,
      if_neg (by omega), BitVec.ofNat_toNat, BitVec.setWidth_eq]

theorem rd_link (h : GInv t g ad free) {p k : Nat} (hp : p < g.n) (hc : g.IsCell p k) :
    ∃ j, g.NextKid p k j ∧ t.rd32 (cellA ad p k + 8) = .ok (linkA ad j) := by
  have hb := h.cell_bound hp hc
  have hm := h.bound
  obtain ⟨j, h1, h2⟩ := h.mlink p k hp hc
  exact ⟨j, h1, by rw [Trie.rd32_ok (by omega), h2]⟩

theorem walk_spec (h : GInv t g ad free) {p : Nat} (hp : p < g.n) {l : Letter} :
    ∀ (fuel k : Nat), g.IsCell p k → g.n - k < fuel →
    ∃ j, g.IsCell p j ∧ t.walk l fuel (cellA ad p k) = .ok (cellA ad p j) ∧
      (g.cellLetter p j = l ∨
        (g.NextKid p j 0 ∧ g.cellLetter p j ≠ l ∧ ∀ i, k ≤ i → g.IsCell p i → g.cellLetter p i ≠ l)) := by
  intro fuel
  induction fuel with
  | zero => intro k _ hf; omega
  | succ fuel ih =>
    intro k hc hf
    have hb := h.cell_bound hp hc
    obtain ⟨j, hj, e⟩ := h.rd_link hp hc
    rw [Trie.walk, e, h.rd_cellLetter hp hc]
    simp only [ok_bind]
    by_cases hl : g.cellLetter p k = l
    · rw [if_neg (by simp [hl])]
      exact ⟨k, hc, rfl, Or.inl hl⟩
    · by_cases hj0 : j = 0
      · subst hj0
        rw [if_neg (by simp [linkA_eq_zero])]
        refine ⟨k, hc, rfl, Or.inr ⟨hj, hl, ?_⟩⟩
        intro i hi hci
        rcases Nat.eq_or_lt_of_le hi with rfl | hi
        · exact hl
        · rcases hci with rfl | ⟨h1, h2, h3⟩
          · omega
          · rcases hj with ⟨_, hj⟩ | ⟨hj, _⟩
            · exact absurd h3 (hj i hi h2)
            · omega
      · obtain ⟨hcj, hkj, _⟩ := hj.isCell hb.2.1 hj0
        have hlj : linkA ad j = cellA ad p j := by
          rw [linkA, if_neg hj0, cellA, if_neg (by omega)]
        rw [if_pos ⟨by rw [ne_eq, linkA_eq_zero]; exact hj0, hl⟩, hlj]
        have hbj := h.cell_bound hp hcj
        obtain ⟨j', h1, h2, h3⟩ := ih j hcj (by omega)
        refine ⟨j', h1, h2, ?_⟩
        rcases h3 with h3 | ⟨h3, h4, h5⟩
        · exact Or.inl h3
        · refine Or.inr ⟨h3, h4, ?_⟩
          intro i hi hci
          rcases Nat.lt_or_ge i j with hij | hij
          · rcases Nat.eq_or_lt_of_le hi with rfl | hi
            · exact hl
            · rcases hci with rfl | ⟨g1, g2, g3⟩
              · omega
              · rcases hj with ⟨hj, _⟩ | ⟨_, _, _, hj⟩
                · exact absurd hj hj0
                · exact absurd g3 (hj i hi hij)
          · exact h5 i hij hci

theorem walk_node (h : GInv t g ad free) {k : Nat} (hk : k < g.n) {l : Letter} (hl : l ≠ 0#16) :
    (∃ j, j < g.n ∧ g.path j = g.path k ++ [l] ∧ t.walk l (t.mapped + 1) (ad k + sizeofNode) = .ok (ad j + 20) ∧
      t.rdLetter (ad j + 20) = .ok l ∧ t.rd32 (ad j + 20 + 4) = .ok (ad j)) ∨
    ((∀ j, j < g.n → g.path j ≠ g.path k ++ [l]) ∧
      ∃ j c, g.IsCell k j ∧ g.NextKid k j 0 ∧ t.walk l (t.mapped + 1) (ad k + sizeofNode) = .ok (cellA ad k j) ∧
        t.rdLetter (cellA ad k j) = .ok c ∧ c ≠ l) := by
  have hm := h.bound
  obtain ⟨j, hc, hw, hj⟩ := h.walk_spec hk (l := l) (t.mapped + 1) k (Or.inl rfl) (by omega)
  rw [show cellA ad k k = ad k + 8 from if_pos rfl] at hw
  have hb := h.cell_bound hk hc
  rcases hj with hj | ⟨h1, h2, h3⟩
  · left
    have hjk : j ≠ k := by
      rintro rfl
      rw [Ghost.cellLetter, if_pos rfl] at hj
      exact hl hj.symm
    rcases hc with rfl | ⟨g1, g2, g3⟩
    · exact absurd rfl hjk
    · have hcl := h.rd_cellLetter hk (Or.inr ⟨g1, g2, g3⟩ : g.IsCell k j)
      rw [hj] at hcl
      have hcell : cellA ad k j = ad j + 20 := if_neg hjk
      rw [hcell] at hw hcl
      have hl' : g.letter j = l := by rw [← hj, Ghost.cellLetter, if_neg hjk]
      refine ⟨j, g2, ?_, hw, hcl, ?_⟩
      · rw [h.path_eq j (by omega) g2, g3, hl']
      · have := h.at_ g2
        rw [Trie.rd32_ok (by omega), h.mchild j (by omega) g2]
  · right
    refine ⟨?_, j, _, hc, h1, hw, h.rd_cellLetter hk hc, h2⟩
    intro i hi hpi
    have hi1 : 1 ≤ i := by
      rcases Nat.eq_zero_or_pos i with rfl | hi
      · rw [h.path0] at hpi; simp at hpi
      · exact hi
    have hpe := h.path_eq i hi1 hi
    rw [hpi] at hpe
    have hpl := h.par_lt i hi1 hi
    obtain ⟨e1, e2⟩ := List.append_inj' hpe rfl
    have hpar : g.par i = k := (h.path_inj _ _ hk (by omega) e1).symm
    have : g.IsCell k i := Or.inr ⟨by omega, hi, hpar⟩
    have h4 := h3 i (by omega) this
    rw [Ghost.cellLetter, if_neg (by omega)] at h4
    simp only [List.cons.injEq, and_true] at e2
    exact h4 e2.symm

theorem findLoop_spec (h : GInv t g ad free) (w : List Letter) (hw : ∀ l ∈ w, l ≠ 0#16) :
    ∀ k, k < g.n → (∃ j, j < g.n ∧ g.path j = g.path k ++ w ∧ t.findLoop (ad k) w = .ok (ad j)) ∨
      ((∀ j, j < g.n → g.path j ≠ g.path k ++ w) ∧ t.findLoop (ad k) w = .ok 0) := by
  induction w with
  | nil => intro k hk; left; exact ⟨k, hk, by simp, rfl⟩
  | cons l w ih =>
    intro k hk
    rcases h.walk_node hk (hw l (by simp)) with ⟨j, hj, hp, e1, e2, e3⟩ | ⟨hno, j, c, _, _, e1, e2, hc⟩
    · rw [Trie.findLoop, e1]
      simp only [ok_bind]
      rw [e2]
      simp only [ok_bind, ne_eq, not_true_eq_false, if_false]
      rw [e3]
      simp only [ok_bind]
      rcases ih (fun x hx => hw x (by simp [hx])) j hj with ⟨i, hi, hpi, e⟩ | ⟨hno, e⟩
      · left; exact ⟨i, hi, by rw [hpi, hp]; simp, e⟩
      · right
        refine ⟨?_, e⟩
        intro i hi he
        exact hno i hi (by rw [he, hp]; simp)
    · right
      constructor
      · intro i hi he
        have : ∀ (w : List Letter) (i : Nat), i < g.n → g.path i = g.path k ++ l :: w →
            ∃ j, j < g.n ∧ g.path j = g.path k ++ [l] := by
          intro w
          induction w using List.reverseRecOn with
          | nil => intro i hi he; exact ⟨i, hi, he⟩
          | append_singleton w x ihw =>
            intro i hi he
            have hi1 : 1 ≤ i := by
              rcases Nat.eq_zero_or_pos i with rfl | hi
              · rw [h.path0] at he; simp at he
              · exact hi
            have hpe := h.path_eq i hi1 hi
            have hpl := h.par_lt i hi1 hi
            rw [he, ← List.cons_append, ← List.append_assoc] at hpe
            obtain ⟨e1, _⟩ := List.append_inj' hpe rfl
            exact ihw (g.par i) (by omega) e1.symm
        obtain ⟨j, hj, hpj⟩ := this w i hi he
        exact hno j hj hpj
      · rw [Trie.findLoop, e1]
        simp only [ok_bind]
        rw [e2]
        simp only [ok_bind]
        rw [if_pos hc]

theorem rd_word (h : GInv t g ad free) {k : Nat} (hk : k < g.n) : t.rd32 (ad k) = .ok (g.word k) := by
  have hm := h.bound
  have := h.at_ hk
  have := h.free0
  rw [Trie.rd32_ok (by omega), h.mword k hk]

theorem hasWord_spec (h : GInv t g ad free) (w : List Letter) (hw : ∀ l ∈ w, l ≠ 0#16) :
    ∃ b, t.hasWord w = .ok b ∧ (b = true ↔ ∃ id, g.Has w id) := by
  have hfw : (∃ j, j < g.n ∧ g.path j = w ∧ t.findWord w = .ok (ad j)) ∨
      ((∀ j, j < g.n → g.path j ≠ w) ∧ t.findWord w = .ok 0) := by
    have := h.findLoop_spec w hw 0 h.pos
    rw [h.path0, h.ad0] at this
    rw [Trie.findWord, h.root]
    exact this
  rcases hfw with ⟨j, hj, hp, e⟩ | ⟨hno, e⟩
  · rw [Trie.hasWord, e]
    simp only [ok_bind]
    rw [if_neg (h.ne_zero hj), h.rd_word hj]
    refine ⟨_, rfl, ?_⟩
    simp only [ne_eq, decide_not, Bool.not_eq_true', decide_eq_false_iff_not]
    constructor
    · intro hne; exact ⟨_, j, hj, hp, rfl, hne⟩
    · rintro ⟨id, k, hk, hpk, rfl, hne⟩
      rw [h.path_inj j k hj hk (hp.trans hpk.symm)]; exact hne
  · rw [Trie.hasWord, e]
    simp only [ok_bind, if_true]
    refine ⟨false, rfl, ?_⟩
    simp only [Bool.false_eq_true, false_iff, not_exists]
    rintro id ⟨k, hk, hpk, _⟩
    exact hno k hk hpk

/-- A tree built without refusals is one. -/
theorem of_tinv (h : TInv t g) : GInv t g addr (4 + 32 * g.n) where
  hdr := h.hdr
  root := h.root
  pos := h.pos
  ad0 := rfl
  free0 := by have := h.pos; omega
  ad1 k h1 h2 := by have := addr_cases k; omega
  ad2 i j h1 h2 h3 := by have := addr_cases i; have := addr_cases j; omega
  mnodes := by rw [h.mnodes]; omega
  mcount := h.mcount
  count_lt := by rw [h.mnodes]
  path0 := h.path0
  par_lt := h.par_lt
  path_eq := h.path_eq
  path_inj := h.path_inj
  word_lt := h.word_lt
  mword := h.mword
  mdummy := h.mdummy
  mletter := h.mletter
  mchild := h.mchild
  mlink := h.mlink

/-- What a failed insertion of a node leaves is the same tree. -/
theorem left (h : GInv t g ad free) {t' : Trie} {free' : Nat} (hl : Left t t' free free') : GInv t' g ad free' := by
  have h0 := h.free0
  have hge := hl.ge
  have hn := hl.nodes
  have hn' := hl.nodes'
  have hmn := h.mnodes
  have hcl := h.count_lt
  have keep32 : ∀ a, 16 ≤ a → a + 4 ≤ free → t'.mem.get32 a = t.mem.get32 a := by
    intro a h1 h2
    apply Mem.get32_congr
    intro x hx1 hx2
    exact hl.keep x (by omega) (by omega) (by omega)
  have keep16 : ∀ a, 16 ≤ a → a + 2 ≤ free → t'.mem.get16 a = t.mem.get16 a := by
    intro a h1 h2
    apply Mem.get16_congr
    intro x hx1 hx2
    exact hl.keep x (by omega) (by omega) (by omega)
  refine ⟨hl.hdr, hl.root.trans h.root, h.pos, h.ad0, by omega, ?_, h.ad2, by omega, ?_, by omega, h.path0, h.par_lt,
    h.path_eq, h.path_inj, h.word_lt, ?_, ?_, ?_, ?_, ?_⟩
  · intro k h1 h2; have := h.ad1 k h1 h2; omega
  · rw [← h.mcount]
    apply Mem.get32_congr
    intro x hx1 hx2
    exact hl.keep x (by omega) (by omega) (by omega)
  · intro k hk; have := h.at_ hk; rw [keep32 _ (by omega) (by omega)]; exact h.mword k hk
  · intro k hk; have := h.at_ hk; rw [keep16 _ (by omega) (by omega)]; exact h.mdummy k hk
  · intro k h1 hk; have := h.at_ hk; rw [keep16 _ (by omega) (by omega)]; exact h.mletter k h1 hk
  · intro k h1 hk; have := h.at_ hk; rw [keep32 _ (by omega) (by omega)]; exact h.mchild k h1 hk
  · intro p k hp hc
    obtain ⟨j, hj, e⟩ := h.mlink p k hp hc
    have := h.cell_bound hp hc
    exact ⟨j, hj, by rw [keep32 _ (by omega) (by omega)]; exact e⟩

end GInv

/-- The addresses with one node more. -/
def place (ad : Nat → Nat) (n a : Nat) : Nat → Nat := fun k => if k = n then a else ad k

theorem GInv.add [Build] {t : Trie} {g : Ghost} {ad : Nat → Nat} {free : Nat} (h : GInv t g ad free) {p k : Nat} (hp : p < g.n)
    (hc : g.IsCell p k) (hn : g.NextKid p k 0) {l : Letter} (hnew : ∀ j, j < g.n → g.path j ≠ g.path p ++ [l]) :
    t.mem.get32 (cellA ad p k + 8) = 0 ∧
    ∀ t', t.addNewSibling (ad p) (cellA ad p k) l = .ok (t', free) → GInv t' (g.add p l) (place ad g.n free) (free + 32) := by
  have hm := h.bound
  have hb := h.cell_bound hp hc
  have hpos := h.pos
  have hf0 := h.free0
  have hmn := h.mnodes
  have hcl := h.count_lt
  have hap := h.at_ hp
  have hz : t.mem.get32 (cellA ad p k + 8) = 0 := by
    obtain ⟨j, hj, e⟩ := h.mlink p k hp hc
    have : j = 0 := by
      by_contra hj0
      obtain ⟨hcj, hkj, _⟩ := hj.isCell hb.2.1 hj0
      rcases hn with ⟨_, hn⟩ | ⟨hn, _⟩
      · rcases hcj with rfl | ⟨g1, g2, g3⟩
        · omega
        · exact hn j hkj g2 g3
      · omega
    rw [e, this]; rfl
  refine ⟨hz, ?_⟩
  intro t' et
  rcases Trie.addNewSibling_spec (node := ad p) (s := cellA ad p k) (l := l) h.hdr (by omega)
    (by omega) (by omega) (by omega) hz with
    ⟨e, hr⟩ | ⟨t2, e, hh, hroot, hos, hmap, hkeep, hnodes, hw, hpa, hd, _, hsib, hlet, hch, hnx, hlk⟩
  · rw [et] at e; cases e
  rw [et] at e
  obtain rfl : t' = t2 := by cases e; rfl
  have addn : (g.add p l).n = g.n + 1 := rfl
  have keep32 : ∀ a, 16 ≤ a → a + 4 ≤ free → (a + 4 ≤ cellA ad p k + 8 ∨ cellA ad p k + 12 ≤ a) →
      t'.mem.get32 a = t.mem.get32 a := by
    intro a h1 h2 h3
    apply Mem.get32_congr
    intro x hx1 hx2
    exact hkeep x (by omega) (by omega) (by omega) (by omega)
  have keep16 : ∀ a, 16 ≤ a → a + 2 ≤ free → (a + 2 ≤ cellA ad p k + 8 ∨ cellA ad p k + 12 ≤ a) →
      t'.mem.get16 a = t.mem.get16 a := by
    intro a h1 h2 h3
    apply Mem.get16_congr
    intro x hx1 hx2
    exact hkeep x (by omega) (by omega) (by omega) (by omega)
  have hcc := cellA_cases ad p k
  have hak := h.at_ hb.1
  have old_ad : ∀ i, i < g.n → place ad g.n free i = ad i := fun i hi => if_neg (by omega)
  have new_ad : place ad g.n free g.n = free := if_pos rfl
  have old_par : ∀ i, i < g.n → (g.add p l).par i = g.par i := fun i hi => if_neg (by omega)
  have old_let : ∀ i, i < g.n → (g.add p l).letter i = g.letter i := fun i hi => if_neg (by omega)
  have old_path : ∀ i, i < g.n → (g.add p l).path i = g.path i := fun i hi => if_neg (by omega)
  have old_word : ∀ i, i < g.n → (g.add p l).word i = g.word i := fun i hi => if_neg (by omega)
  have new_par : (g.add p l).par g.n = p := if_pos rfl
  have new_let : (g.add p l).letter g.n = l := if_pos rfl
  have new_path : (g.add p l).path g.n = g.path p ++ [l] := if_pos rfl
  have new_word : (g.add p l).word g.n = INVALID_WORDID := if_pos rfl
  have split : ∀ i, i < g.n + 1 → i < g.n ∨ i = g.n := by intro i hi; omega
  constructor
  · exact hh
  · rw [hroot, h.root]
  · rw [addn]; omega
  · rw [old_ad 0 (by omega), h.ad0]
  · omega
  · intro i h1 h2
    rcases split i h2 with hi | rfl
    · rw [old_ad i hi]; have := h.ad1 i h1 hi; omega
    · rw [new_ad]; omega
  · intro i j h1 h2 h3
    rcases split j h3 with hj | rfl
    · rw [old_ad i (by omega), old_ad j hj]; exact h.ad2 i j h1 h2 hj
    · rw [old_ad i (by omega), new_ad]; have := h.ad1 i h1 h2; omega
  · rw [hnodes]; omega
  · rw [Ghost.count_add, ← h.mcount]
    apply Mem.get32_congr
    intro x hx1 hx2
    exact hkeep x (by omega) (by omega) (by omega) (by omega)
  · rw [hnodes, addn]; omega
  · rw [old_path 0 (by omega), h.path0]
  · intro i h1 h2
    rcases split i h2 with hi | rfl
    · rw [old_par i hi]; exact h.par_lt i h1 hi
    · rw [new_par]; exact hp
  · intro i h1 h2
    rcases split i h2 with hi | rfl
    · have := h.par_lt i h1 hi
      rw [old_path i hi, old_par i hi, old_let i hi, old_path _ (by omega)]; exact h.path_eq i h1 hi
    · rw [new_path, new_par, new_let, old_path p hp]
  · intro i j h1 h2 he
    rcases split i h1 with hi | rfl <;> rcases split j h2 with hj | rfl
    · rw [old_path i hi, old_path j hj] at he; exact h.path_inj i j hi hj he
    · rw [old_path i hi, new_path] at he; exact absurd he (hnew i hi)
    · rw [old_path j hj, new_path] at he; exact absurd he.symm (hnew j hj)
    · rfl
  · intro i h1
    rcases split i h1 with hi | rfl
    · rw [old_word i hi]; exact h.word_lt i hi
    · rw [new_word]; decide
  · intro i h1
    rcases split i h1 with hi | rfl
    · have := h.at_ hi
      have := h.apart hi hb.1
      rw [old_word i hi, old_ad i hi, ← h.mword i hi]
      exact keep32 _ (by omega) (by omega) (by omega)
    · rw [new_word, new_ad, hw]
  · intro i h1
    rcases split i h1 with hi | rfl
    · have := h.at_ hi
      have := h.apart hi hb.1
      rw [old_ad i hi, ← h.mdummy i hi]
      exact keep16 _ (by omega) (by omega) (by omega)
    · rw [new_ad, hd]
  · intro i h1 h2
    rcases split i h2 with hi | rfl
    · have := h.at_ hi
      have := h.apart hi hb.1
      rw [old_let i hi, old_ad i hi, ← h.mletter i h1 hi]
      exact keep16 _ (by omega) (by omega) (by omega)
    · rw [new_let, new_ad, hlet]
  · intro i h1 h2
    rcases split i h2 with hi | rfl
    · have := h.at_ hi
      have := h.apart hi hb.1
      rw [old_ad i hi]
      refine Eq.trans ?_ (h.mchild i h1 hi)
      exact keep32 _ (by omega) (by omega) (by omega)
    · rw [new_ad, hch]
  · intro p' k' hp' hc'
    have hlink : ∀ j, j < g.n → linkA (place ad g.n free) j = linkA ad j := by
      intro j hj; unfold linkA; rw [old_ad j hj]
    have hlinkn : linkA (place ad g.n free) g.n = free + 20 := by
      rw [linkA, if_neg (by omega), new_ad]
    -- the record of an old cell
    have old : ∀ p' k', p' < g.n → g.IsCell p' k' → ∃ j, (g.add p l).NextKid p' k' j ∧
        t'.mem.get32 (cellA ad p' k' + 8) = linkA (place ad g.n free) j := by
      intro p' k' hp1 hck
      obtain ⟨j, hj, e'⟩ := h.mlink p' k' hp1 hck
      have hbk := h.cell_bound hp1 hck
      have hjn : j < g.n := by rcases hj with ⟨rfl, _⟩ | ⟨_, hj, _⟩ <;> omega
      by_cases hpk : p' = p ∧ j = 0
      · obtain ⟨rfl, rfl⟩ := hpk
        have : k = k' := TInv.last_unique hc hck hn hj
        subst this
        refine ⟨g.n, Or.inr ⟨by omega, by omega, new_par, ?_⟩, ?_⟩
        · intro i hi1 hi2
          rw [old_par i hi2]
          rcases hj with ⟨_, hj⟩ | ⟨hj, _⟩
          · exact hj i hi1 hi2
          · omega
        · rw [hlk, hlinkn]
      · have hne : cellA ad p' k' + 12 ≤ cellA ad p k + 8 ∨ cellA ad p k + 12 ≤ cellA ad p' k' + 8 := by
          have hcc' := cellA_cases ad p' k'
          have hak' := h.at_ hbk.1
          have hap' := h.at_ hp1
          have hkk := h.apart hbk.1 hb.1
          by_cases hsame : k' = k ∧ (k' = p' ↔ k = p)
          · exfalso
            obtain ⟨rfl, hiff⟩ := hsame
            have hpp : p' = p := by
              by_cases hx : k' = p'
              · exact hx.symm.trans (hiff.1 hx)
              · rcases hck with rfl | ⟨_, _, q1⟩
                · exact absurd rfl hx
                · rcases hc with rfl | ⟨_, _, q2⟩
                  · exact absurd (hiff.2 rfl) hx
                  · exact q1.symm.trans q2
            subst hpp
            apply hpk
            refine ⟨rfl, ?_⟩
            by_contra hj0
            obtain ⟨hcj, hkj, _⟩ := hj.isCell hbk.2.1 hj0
            rcases hn with ⟨_, hn⟩ | ⟨hn, _⟩
            · rcases hcj with rfl | ⟨q1, q2, q3⟩
              · omega
              · exact hn j hkj q2 q3
            · omega
          · omega
        refine ⟨j, ?_, ?_⟩
        · rcases hj with ⟨rfl, hj⟩ | ⟨j1, j2, j3, j4⟩
          · refine Or.inl ⟨rfl, ?_⟩
            intro i hi1 hi2
            rcases split i hi2 with hi | rfl
            · rw [old_par i hi]; exact hj i hi1 hi
            · rw [new_par]; rintro rfl; exact hpk ⟨rfl, rfl⟩
          · refine Or.inr ⟨j1, by omega, by rw [old_par j j2]; exact j3, ?_⟩
            intro i hi1 hi2
            rw [old_par i (by omega)]; exact j4 i hi1 hi2
        · rw [hlink j hjn, ← e']
          exact keep32 _ (by omega) (by omega) (by omega)
    rcases hc' with rfl | ⟨g1, g2, g3⟩
    · rcases split k' hp' with hk | rfl
      · obtain ⟨j, h1, h2⟩ := old k' k' hk (Or.inl rfl)
        refine ⟨j, h1, ?_⟩
        rw [← h2, cellA, cellA, if_pos rfl, if_pos rfl, old_ad k' hk]
      · refine ⟨0, Or.inl ⟨rfl, ?_⟩, ?_⟩
        · intro i hi1 hi2; rw [addn] at hi2; omega
        · rw [cellA, if_pos rfl, new_ad, hsib]; rfl
    · rcases split k' g2 with hk | rfl
      · rw [old_par k' hk] at g3
        obtain ⟨j, h1, h2⟩ := old p' k' (by omega) (Or.inr ⟨g1, hk, g3⟩)
        refine ⟨j, h1, ?_⟩
        rw [← h2, cellA, cellA, if_neg (by omega), if_neg (by omega), old_ad k' hk]
      · refine ⟨0, Or.inl ⟨rfl, ?_⟩, ?_⟩
        · intro i hi1 hi2; rw [addn] at hi2; omega
        · rw [cellA, if_neg (by omega), new_ad, hnx]; rfl

theorem GInv.setWord {t : Trie} {g : Ghost} {ad : Nat → Nat} {free : Nat} (h : GInv t g ad free) {k id : Nat} (hk : k < g.n)
    (hw : g.word k = INVALID_WORDID) (hid : id < INVALID_WORDID) :
    GInv { t with mem := (t.mem.put (ad k) (bytes32 id)).put 8 (bytes32 (g.count + 1)) } (g.setWord k id) ad free := by
  have hm := h.bound
  have hcnt := g.count_le
  have hak := h.at_ hk
  have hf0 := h.free0
  have hid' : id < 2^32 := Nat.lt_trans hid (by decide)
  generalize hmm : (t.mem.put (ad k) (bytes32 id)).put 8 (bytes32 (g.count + 1)) = m
  have keep : ∀ x, ¬ (ad k ≤ x ∧ x < ad k + 4) → ¬ (8 ≤ x ∧ x < 12) → m x = t.mem x := by
    intro x h1 h2
    rw [← hmm, Mem.put_out (by simp; omega), Mem.put_out (by simp; omega)]
  have keep32 : ∀ a, (a + 4 ≤ ad k ∨ ad k + 4 ≤ a) → (a + 4 ≤ 8 ∨ 12 ≤ a) → m.get32 a = t.mem.get32 a := by
    intro a h1 h2
    apply Mem.get32_congr
    intro x h3 h4; exact keep x (by omega) (by omega)
  have keep16 : ∀ a, (a + 2 ≤ ad k ∨ ad k + 4 ≤ a) → (a + 2 ≤ 8 ∨ 12 ≤ a) → m.get16 a = t.mem.get16 a := by
    intro a h1 h2
    apply Mem.get16_congr
    intro x h3 h4; exact keep x (by omega) (by omega)
  have k12 : m.get32 12 = t.mem.get32 12 := keep32 12 (by omega) (by omega)
  refine ⟨⟨h.hdr.size, ?_, ?_, h.hdr.lt, h.hdr.ge⟩, h.root, h.pos, h.ad0, hf0, h.ad1, h.ad2, ?_, ?_, ?_, h.path0, h.par_lt,
    h.path_eq, h.path_inj, ?_, ?_, ?_, ?_, ?_, ?_⟩
  · show m.get32 0 = _
    rw [keep32 0 (by omega) (by omega)]; exact h.hdr.total
  · show m.get32 4 = _
    rw [keep32 4 (by omega) (by omega)]; exact h.hdr.free_eq
  · show 20 * m.get32 12 ≤ _
    rw [k12]; exact h.mnodes
  · show m.get32 8 = _
    rw [← hmm, Mem.get32_put (by omega)]
    unfold Ghost.count
    have e := countP_update (fun i => g.word i != INVALID_WORDID) (fun i => (g.setWord k id).word i != INVALID_WORDID) k
      (by simp [hw]) (by simp only [Ghost.setWord, if_true, bne_iff_ne, ne_eq]; omega)
      (by intro i hi; simp only [Ghost.setWord, if_neg hi]) g.n
    rw [if_pos hk] at e
    exact e.symm
  · show g.n ≤ m.get32 12
    rw [k12]; exact h.count_lt
  · intro i hi
    simp only [Ghost.setWord]
    split
    · exact hid'
    · exact h.word_lt i hi
  · intro i hi
    show m.get32 (ad i) = _
    simp only [Ghost.setWord]
    by_cases hik : i = k
    · subst hik
      rw [if_pos rfl]
      have e : m.get32 (ad i) = (t.mem.put (ad i) (bytes32 id)).get32 (ad i) := by
        apply Mem.get32_congr
        intro x h1 h2; rw [← hmm]; exact Mem.put_out (by simp; omega)
      rw [e, Mem.get32_put hid']
    · have hi' : i < g.n := hi
      have := h.at_ hi'
      have := h.apart hi' hk
      rw [if_neg hik, keep32 _ (by omega) (by omega)]; exact h.mword i hi
  · intro i hi
    have hi' : i < g.n := hi
    have := h.at_ hi'
    have := h.apart hi' hk
    show m.get16 _ = _
    rw [keep16 _ (by omega) (by omega)]; exact h.mdummy i hi
  · intro i h1 hi
    have hi' : i < g.n := hi
    have := h.at_ hi'
    have := h.apart hi' hk
    show m.get16 _ = _
    rw [keep16 _ (by omega) (by omega)]; exact h.mletter i h1 hi
  · intro i h1 hi
    have hi' : i < g.n := hi
    have := h.at_ hi'
    have := h.apart hi' hk
    show m.get32 _ = _
    rw [keep32 _ (by omega) (by omega)]; exact h.mchild i h1 hi
  · intro p i hp hc
    have hp' : p < g.n := hp
    obtain ⟨j, hj, e⟩ := h.mlink p i hp' hc
    refine ⟨j, hj, ?_⟩
    have hb := h.cell_bound hp' hc
    have := h.at_ hb.1
    have := h.apart hb.1 hk
    have := cellA_cases ad p i
    show m.get32 _ = _
    rw [keep32 _ (by omega) (by omega)]; exact e

/-! ### Insertion -/

/-- No words but those of `g`. -/
theorem has_ext {g g' : Ghost} (h : g.Ext g') (hn : ∀ j, g.n ≤ j → j < g'.n → g'.word j = INVALID_WORDID) (v : Word) (i : Nat) :
    g'.Has v i ↔ g.Has v i := by
  have hle := h.n_le
  constructor
  · rintro ⟨k, hk, hp, hw, hne⟩
    rcases Nat.lt_or_ge k g.n with hkn | hkn
    · exact ⟨k, hkn, by rw [← h.path k hkn]; exact hp, by rw [← h.word k hkn]; exact hw, hne⟩
    · exact absurd (hw.symm.trans (hn k hkn hk)) hne
  · rintro ⟨k, hk, hp, hw, hne⟩
    exact ⟨k, by omega, by rw [h.path k hk]; exact hp, by rw [h.word k hk]; exact hw, hne⟩

theorem insertLoop_cases [Build] (w : List Letter) (hw : ∀ l ∈ w, l ≠ 0#16) : ∀ (o : Obj) (g : Ghost) (ad : Nat → Nat) (free k : Nat),
    GInv (vw o) g ad free → 0 < o.calls → k < g.n →
    (∃ o' g' ad' free' k', insertLoop (ad k) w o = (o', .ok (ad' k')) ∧ GInv (vw o') g' ad' free' ∧ g.Ext g' ∧ k' < g'.n ∧
      g'.path k' = g.path k ++ w ∧ (∀ j, g.n ≤ j → j < g'.n → g'.word j = INVALID_WORDID) ∧ free' ≤ free + 32 * w.length ∧
      Fate o o' 0) ∨
    (∃ o' g' ad' free', insertLoop (ad k) w o = (o', .error .runtimeError) ∧ GInv (vw o') g' ad' free' ∧ g.Ext g' ∧
      (∀ j, g.n ≤ j → j < g'.n → g'.word j = INVALID_WORDID) ∧ free' ≤ free + 32 * w.length ∧ Fate o o' 1) ∨
    (∃ o', insertLoop (ad k) w o = (o', .error .runtimeError) ∧ o'.map = .gone ∧ (Bad o.sys ∨ 2^31 ≤ free + 32 * w.length)) := by
  induction w with
  | nil =>
    intro o g ad free k h hc hk
    left
    exact ⟨o, g, ad, free, k, rfl, h, .refl g, hk, by simp, fun j h1 h2 => by omega, by simp, Fate.refl hc⟩
  | cons l w ih =>
    intro o g ad free k h hc hk
    have ihw := ih (fun x hx => hw x (by simp [hx]))
    have hvw : ∀ a, (fun t : Trie => t.walk l (t.mapped + 1) a) (o.view fun _ => false) = (vw o).walk l ((vw o).mapped + 1) a :=
      fun a => walk_os (t := o.view fun _ => false) (t' := vw o) rfl rfl l _ _
    rcases h.walk_node hk (hw l (by simp)) with ⟨j, hj, hp, e1, e2, e3⟩ | ⟨hno, j, c, hcell, hlast, e1, e2, hcl⟩
    · have e : insertLoop (ad k) (l :: w) o = insertLoop (ad j) w o := by
        rw [insertLoop, bind_ok (Prod.ext rfl ((hvw _).trans e1) : read (fun t => t.walk l (t.mapped + 1) (ad k + sizeofNode)) o = (o, .ok (ad j + 20)))]
        rw [bind_ok (Prod.ext rfl e2 : read (fun t => t.rdLetter (ad j + 20)) o = (o, .ok l)), if_pos rfl]
        rw [bind_ok (Prod.ext rfl e3 : Act.rd32 (ad j + 20 + 4) o = (o, .ok (ad j)))]
      rw [e]
      rcases ihw o g ad free j h hc hj with ⟨o', g', ad', free', k', e, h', hext, hk', hp', hnew, hf, fate⟩ |
        ⟨o', g', ad', free', e, h', hext, hnew, hf, fate⟩ | ⟨o', e, hg, hb⟩
      · left
        exact ⟨o', g', ad', free', k', e, h', hext, hk', by rw [hp', hp]; simp, hnew, by simp only [List.length_cons]; omega, fate⟩
      · right; left
        exact ⟨o', g', ad', free', e, h', hext, hnew, by simp only [List.length_cons]; omega, fate⟩
      · right; right
        refine ⟨o', e, hg, ?_⟩
        rcases hb with hb | hb
        · exact Or.inl hb
        · right; simp only [List.length_cons]; omega
    · have e : insertLoop (ad k) (l :: w) o = (addNewSibling (ad k) (cellA ad k j) l >>= fun x => insertLoop x w) o := by
        rw [insertLoop, bind_ok (Prod.ext rfl ((hvw _).trans e1) : read (fun t => t.walk l (t.mapped + 1) (ad k + sizeofNode)) o = (o, .ok (cellA ad k j)))]
        rw [bind_ok (Prod.ext rfl e2 : read (fun t => t.rdLetter (cellA ad k j)) o = (o, .ok c)), if_neg hcl]
      rw [e]
      have hb := h.cell_bound hk hcell
      have hbd := h.bound
      have hak := h.at_ hk
      have hmn := h.mnodes
      have hmn' : 20 * o.mem.get32 12 ≤ free := hmn
      obtain ⟨hz, hadd⟩ := GInv.add h hk hcell hlast hno
      rcases addNewSibling_cases (node := ad k) (l := l) h.hdr hc (by have := h.free0; omega) (by omega) hb.2.2.2 hb.2.2.1 hz with
        ⟨o1, e1, t1, f1⟩ | ⟨o', free', e, hl, hf⟩ | ⟨o', e, hg, hb⟩
      · rw [bind_ok e1]
        have h1 := hadd _ t1
        have hext1 := Ghost.Ext.add g k l
        have hn1 : (g.add k l).n = g.n + 1 := rfl
        have hp1 : (g.add k l).path g.n = g.path k ++ [l] := if_pos rfl
        have hw1 : (g.add k l).word g.n = INVALID_WORDID := if_pos rfl
        have hnew1 : ∀ g', (g.add k l).Ext g' → (∀ j, (g.add k l).n ≤ j → j < g'.n → g'.word j = INVALID_WORDID) →
            ∀ j, g.n ≤ j → j < g'.n → g'.word j = INVALID_WORDID := by
          intro g' hx hn i hi1 hi2
          rcases Nat.eq_or_lt_of_le hi1 with rfl | hi1
          · rw [hx.word _ (by omega), hw1]
          · exact hn i (by omega) hi2
        have had : place ad g.n free g.n = free := if_pos rfl
        have ihk := ihw o1 (g.add k l) (place ad g.n free) (free + 32) g.n h1 f1.pos (by omega)
        rw [had] at ihk
        rcases ihk with ⟨o', g', ad', free', k', e, h', hext, hk', hp', hnew, hf, fate⟩ |
          ⟨o', g', ad', free', e, h', hext, hnew, hf, fate⟩ | ⟨o', e, hg, hb⟩
        · left
          exact ⟨o', g', ad', free', k', e, h', hext1.trans hext, hk', by rw [hp', hp1]; simp, hnew1 g' hext hnew,
            by simp only [List.length_cons]; omega, f1.trans fate⟩
        · right; left
          refine ⟨o', g', ad', free', e, h', hext1.trans hext, hnew1 g' hext hnew, by simp only [List.length_cons]; omega, ?_⟩
          have := f1.trans fate
          rwa [Nat.zero_add] at this
        · right; right
          refine ⟨o', e, hg, ?_⟩
          rw [f1.sys] at hb
          rcases hb with hb | hb
          · exact Or.inl hb
          · right; simp only [List.length_cons]; omega
      · right; left
        rw [bind_error e]
        have hle := hl.le
        exact ⟨o', g, ad, free', rfl, h.left hl, .refl g, fun j h1 h2 => by omega, by simp only [List.length_cons]; omega, hf⟩
      · right; right
        rw [bind_error e]
        refine ⟨o', rfl, hg, ?_⟩
        rcases hb with hb | hb
        · exact Or.inl hb
        · right; simp only [List.length_cons]; omega

theorem insertWord_cases [Build] {o : Obj} {g : Ghost} {ad : Nat → Nat} {free : Nat} (h : GInv (vw o) g ad free) (hc : 0 < o.calls)
    {w : Word} (hw : Storable w) {id : Nat} (hid : id < INVALID_WORDID) (hsame : ∀ i, g.Has w i → i = id) :
    (∃ o' g' ad' free' a, insertWord w id o = (o', .ok a) ∧ GInv (vw o') g' ad' free' ∧
      (∀ v i, g'.Has v i ↔ (v = w ∧ i = id) ∨ g.Has v i) ∧ free' ≤ free + 32 * w.length ∧ Fate o o' 0) ∨
    (∃ o' g' ad' free', insertWord w id o = (o', .error .runtimeError) ∧ GInv (vw o') g' ad' free' ∧
      (∀ v i, g'.Has v i ↔ g.Has v i) ∧ free' ≤ free + 32 * w.length ∧ Fate o o' 1) ∨
    (∃ o', insertWord w id o = (o', .error .runtimeError) ∧ o'.map = .gone ∧ (Bad o.sys ∨ 2^31 ≤ free + 32 * w.length)) := by
  obtain ⟨hne, hnz, hlow⟩ := hw
  obtain ⟨l, r, rfl⟩ := List.exists_cons_of_ne_nil hne
  have hsur : (isSurrogate l && !isHighSurrogate l) = false := by
    have := hlow l rfl
    simp [isSurrogate, this]
  have hid' : id < 2^32 := Nat.lt_trans hid (by decide)
  have hroot : o.root = ad 0 := h.root.trans h.ad0.symm
  have hunf : insertWord (l :: r) id o = (insertLoop (ad 0) (l :: r) >>= fun node => (do
      let w ← Act.rd32 node
      if w = INVALID_WORDID then do
        wr node (bytes32 id)
        let n ← Act.rd32 8
        wr 8 (bytes32 (n + 1))
        let w' ← Act.rd32 node
        Act.assert (decide (w' = id % 2^32))
        pure node
      else do
        Act.assert (decide (w = id % 2^32))
        pure node : Act Nat)) o := by
    unfold insertWord
    rw [bind_ok (show read (fun _ => Word.at (l :: r) 0) o = (o, .ok l) from rfl), hsur]
    simp only [Bool.false_eq_true, if_false]
    rw [← hroot]
    rfl
  rw [hunf]
  rcases insertLoop_cases (l :: r) hnz o g ad free 0 h hc h.pos with
    ⟨o1, g1, ad1, free1, k, e, h1, hext, hk, hp, hnew, hf, fate⟩ | ⟨o', g', ad', free', e, h', hext, hnew, hf, fate⟩ | ⟨o', e, hg, hb⟩
  · left
    rw [bind_ok e]
    rw [h.path0, List.nil_append] at hp
    have hb := h1.bound
    have hf0 := h1.free0
    have hak := h1.at_ hk
    have hrd : Act.rd32 (ad1 k) o1 = (o1, .ok (g1.word k)) := Prod.ext rfl (h1.rd_word hk)
    rw [bind_ok hrd]
    by_cases hwk : g1.word k = INVALID_WORDID
    · rw [if_pos hwk]
      have ecount : (o1.mem.put (ad1 k) (bytes32 id)).get32 8 = g1.count := by
        rw [← h1.mcount]
        apply Mem.get32_congr
        intro x hx1 hx2; exact Mem.put_out (by simp; omega)
      rw [bind_ok (wr_eq (by simp; omega)), bind_ok (rd_ok (by show 8 + 4 ≤ (vw o1).mapped; omega))]
      dsimp only
      rw [ecount, bind_ok (wr_eq (by show 8 + 4 ≤ (vw o1).mapped; omega))]
      dsimp only
      have hinv := GInv.setWord h1 hk hwk hid
      have hrd2 : Act.rd32 (ad1 k) { o1 with mem := (o1.mem.put (ad1 k) (bytes32 id)).put 8 (bytes32 (g1.count + 1)) } =
          ({ o1 with mem := (o1.mem.put (ad1 k) (bytes32 id)).put 8 (bytes32 (g1.count + 1)) }, .ok id) := by
        have := hinv.rd_word (k := k) hk
        rw [show (g1.setWord k id).word k = id from if_pos rfl] at this
        exact Prod.ext rfl this
      rw [bind_ok hrd2, bind_ok (assert_eq (by simp; omega))]
      refine ⟨_, g1.setWord k id, ad1, free1, ad1 k, rfl, hinv, ?_, hf, fate.mem _⟩
      intro v i
      rw [← has_ext hext hnew v i]
      constructor
      · rintro ⟨j, hj, hpj, hwj, hni⟩
        by_cases hjk : j = k
        · subst hjk
          left
          have hwj' : id = i := by rw [← hwj]; exact (if_pos rfl).symm
          exact ⟨hpj.symm.trans hp, hwj'.symm⟩
        · right
          have hwj' : g1.word j = i := by rw [← hwj]; exact (if_neg hjk).symm
          exact ⟨j, hj, hpj, hwj', hni⟩
      · rintro (⟨rfl, rfl⟩ | ⟨j, hj, hpj, hwj, hni⟩)
        · exact ⟨k, hk, hp, if_pos rfl, by omega⟩
        · have hjk : j ≠ k := by
            rintro rfl
            exact hni (hwj.symm.trans hwk)
          exact ⟨j, hj, hpj, (if_neg hjk).trans hwj, hni⟩
    · rw [if_neg hwk]
      have hhas : g1.Has (l :: r) (g1.word k) := ⟨k, hk, hp, rfl, hwk⟩
      have hid2 : g1.word k = id := hsame _ ((has_ext hext hnew _ _).1 hhas)
      rw [bind_ok (assert_eq (by rw [hid2]; simp; omega))]
      refine ⟨o1, g1, ad1, free1, ad1 k, rfl, h1, ?_, hf, fate⟩
      intro v i
      rw [has_ext hext hnew v i]
      constructor
      · exact Or.inr
      · rintro (⟨rfl, rfl⟩ | hx)
        · rw [← hid2]; exact (has_ext hext hnew _ _).1 hhas
        · exact hx
  · right; left
    rw [bind_error e]
    exact ⟨o', g', ad', free', rfl, h', has_ext hext hnew, hf, fate⟩
  · right; right
    rw [bind_error e]
    exact ⟨o', rfl, hg, hb⟩

/-- Without a mapping. -/
theorem insertWord_gone [Build] {o : Obj} (h : o.map = .gone) {w : Word} (hne : w ≠ [])
    (hlow : ∀ l, w.head? = some l → isLowSurrogate l = false) (id : WordID) : insertWord w id o = (o, .error .ub) := by
  obtain ⟨l, r, rfl⟩ := List.exists_cons_of_ne_nil hne
  have hsur : (isSurrogate l && !isHighSurrogate l) = false := by
    have := hlow l rfl
    simp [isSurrogate, this]
  have hlen : o.map.len = 0 := by rw [h]; rfl
  unfold insertWord
  rw [bind_ok (show read (fun _ => Word.at (l :: r) 0) o = (o, .ok l) from rfl), hsur]
  simp only [Bool.false_eq_true, if_false]
  have hw : (o.view fun _ => false).walk l ((o.view fun _ => false).mapped + 1) (o.root + sizeofNode) = .error .ub := by
    have hm : (o.view fun _ => false).mapped = 0 := hlen
    rw [Trie.walk, Trie.rd32, if_neg (by omega)]
    rfl
  have hl : insertLoop o.root (l :: r) o = (o, .error .ub) := by
    rw [insertLoop, bind_error (Prod.ext rfl hw : read (fun t => t.walk l (t.mapped + 1) (o.root + sizeofNode)) o = (o, .error .ub))]
  rw [bind_ok (show Act.get o = (o, .ok o) from rfl), bind_error hl]

theorem hasWord_gone {o : Obj} (h : o.map = .gone) {w : Word} (hne : w ≠ []) : (o.view fun _ => false).hasWord w = .error .ub := by
  obtain ⟨l, r, rfl⟩ := List.exists_cons_of_ne_nil hne
  have hm : (o.view fun _ => false).mapped = 0 := by show o.map.len = 0; rw [h]; rfl
  rw [Trie.hasWord, Trie.findWord, Trie.findLoop, Trie.walk, Trie.rd32, if_neg (by omega)]
  rfl

/-- All insertions, with exceptions caught. -/
theorem tryAll_cases [Build] : ∀ (h : Spec.IndexHistory) (o : Obj) (g : Ghost) (ad : Nat → Nat) (free : Nat) (done : Spec.IndexHistory),
    GInv (vw o) g ad free → 0 < o.calls → (∀ v i, g.Has v i ↔ (v, i) ∈ done) → Spec.IndexHistory.Ok (done ++ h) → (∀ p ∈ done ++ h, p.1 ≠ []) →
    (∃ o' bs g' ad' free', tryAll h o = (o', .ok bs) ∧ bs.length = h.length ∧ GInv (vw o') g' ad' free' ∧
      (∀ v i, g'.Has v i ↔ (v, i) ∈ done ∨ ((v, i), true) ∈ h.zip bs) ∧ denied o' = denied o + bs.count false ∧ o'.sys = o.sys) ∨
    (∃ o', (tryAll h o).1 = o' ∧ o'.map = .gone ∧ (Bad o.sys ∨ 2^31 ≤ free + 32 * (h.map fun p => p.1.length).sum) ∧
      ((tryAll h o).2 = .error .ub ∨ ∃ bs, (tryAll h o).2 = .ok bs ∧ bs.getLast? = some false))
  | [], o, g, ad, free, done, hg, _, hd, _, _ =>
    Or.inl ⟨o, [], g, ad, free, rfl, rfl, hg, by intro v i; rw [hd]; simp, rfl, rfl⟩
  | (w, id) :: r, o, g, ad, free, done, hg, hc, hd, ho, hne => by
    have hmem : (w, id) ∈ done ++ (w, id) :: r := by simp
    have hst : Storable w := ⟨hne _ hmem, ho.noNul _ hmem, ho.start _ hmem⟩
    have hsame : ∀ i, g.Has w i → i = id := by
      intro i hi
      have hx : (w, i) ∈ done ++ (w, id) :: r := List.mem_append_left _ ((hd w i).1 hi)
      exact (ho.consistent _ hx _ hmem (hne _ hx) (hne _ hmem)).1 rfl
    have hsub : ∀ l : Spec.IndexHistory, (∀ p ∈ l, p ∈ done ++ (w, id) :: r) → Spec.IndexHistory.Ok l := fun l hl =>
      ⟨fun p hp => ho.noNul p (hl p hp), fun p hp => ho.start p (hl p hp), fun p hp => ho.valid p (hl p hp),
        fun p hp q hq => ho.consistent p (hl p hp) q (hl q hq)⟩
    rcases insertWord_cases hg hc hst (ho.valid _ hmem) hsame with
      ⟨o1, g1, ad1, free1, a, e, h1, hh, hf, fate⟩ | ⟨o1, g1, ad1, free1, e, h1, hh, hf, fate⟩ | ⟨o1, e, hgone, hb⟩
    · have hin : ∀ p ∈ (done ++ [(w, id)]) ++ r, p ∈ done ++ (w, id) :: r := by intro p hp; simpa using hp
      have hd1 : ∀ v i, g1.Has v i ↔ (v, i) ∈ done ++ [(w, id)] := by
        intro v i
        rw [hh, hd]
        simp only [List.mem_append, List.mem_singleton, Prod.mk.injEq]
        exact or_comm
      rcases tryAll_cases r o1 g1 ad1 free1 (done ++ [(w, id)]) h1 fate.pos hd1 (hsub _ hin) (fun p hp => hne p (hin p hp)) with
        ⟨o', bs, g', ad', free', e', hl, h', hh', hden, hs'⟩ | ⟨o', ho', hgone, hb, hres⟩
      · left
        refine ⟨o', true :: bs, g', ad', free', ?_, by simp [hl], h', ?_, ?_, hs'.trans fate.sys⟩
        · rw [tryAll, e]; dsimp only; rw [e']
        · intro v i
          rw [hh']
          simp only [List.mem_append, List.zip_cons_cons, List.mem_cons, Prod.mk.injEq, and_true, List.not_mem_nil, or_false]
          exact or_assoc
        · rw [hden, fate.denied]; simp
      · right
        rw [tryAll, e]
        dsimp only
        rw [fate.sys] at hb
        have hb' : Bad o.sys ∨ 2^31 ≤ free + 32 * (((w, id) :: r).map fun p => p.1.length).sum := by
          rcases hb with hb | hb
          · exact Or.inl hb
          · right; simp only [List.map_cons, List.sum_cons]; omega
        rcases hx : tryAll r o1 with ⟨o2, er | bs⟩
        · rw [hx] at hres ho'
          have ho2 : o2 = o' := ho'
          rcases hres with hres | ⟨_, hres, _⟩
          · exact ⟨o', ho2, hgone, hb', Or.inl hres⟩
          · cases hres
        · rw [hx] at hres ho'
          have ho2 : o2 = o' := ho'
          rcases hres with hres | ⟨bs', hres, hlast⟩
          · cases hres
          · cases hres
            refine ⟨o', ho2, hgone, hb', Or.inr ⟨true :: bs, rfl, ?_⟩⟩
            rw [List.getLast?_cons, hlast]; rfl
    · have hin : ∀ p ∈ done ++ r, p ∈ done ++ (w, id) :: r := by
        intro p hp
        rcases List.mem_append.1 hp with hp | hp
        · exact List.mem_append_left _ hp
        · exact List.mem_append_right _ (List.mem_cons_of_mem _ hp)
      have hd1 : ∀ v i, g1.Has v i ↔ (v, i) ∈ done := fun v i => (hh v i).trans (hd v i)
      rcases tryAll_cases r o1 g1 ad1 free1 done h1 fate.pos hd1 (hsub _ hin) (fun p hp => hne p (hin p hp)) with
        ⟨o', bs, g', ad', free', e', hl, h', hh', hden, hs'⟩ | ⟨o', ho', hgone, hb, hres⟩
      · left
        refine ⟨o', false :: bs, g', ad', free', ?_, by simp [hl], h', ?_, ?_, hs'.trans fate.sys⟩
        · rw [tryAll, e]; dsimp only; rw [e']
        · intro v i
          rw [hh']
          simp
        · rw [hden, fate.denied]
          simp only [List.count_cons_self]
          omega
      · right
        rw [tryAll, e]
        dsimp only
        rw [fate.sys] at hb
        have hb' : Bad o.sys ∨ 2^31 ≤ free + 32 * (((w, id) :: r).map fun p => p.1.length).sum := by
          rcases hb with hb | hb
          · exact Or.inl hb
          · right; simp only [List.map_cons, List.sum_cons]; omega
        rcases hx : tryAll r o1 with ⟨o2, er | bs⟩
        · rw [hx] at hres ho'
          have ho2 : o2 = o' := ho'
          rcases hres with hres | ⟨_, hres, _⟩
          · exact ⟨o', ho2, hgone, hb', Or.inl hres⟩
          · cases hres
        · rw [hx] at hres ho'
          have ho2 : o2 = o' := ho'
          rcases hres with hres | ⟨bs', hres, hlast⟩
          · cases hres
          · cases hres
            refine ⟨o', ho2, hgone, hb', Or.inr ⟨false :: bs, rfl, ?_⟩⟩
            rw [List.getLast?_cons, hlast]; rfl
    · right
      have hb' : Bad o.sys ∨ 2^31 ≤ free + 32 * (((w, id) :: r).map fun p => p.1.length).sum := by
        rcases hb with hb | hb
        · exact Or.inl hb
        · right; simp only [List.map_cons, List.sum_cons]; omega
      rw [tryAll, e]
      dsimp only
      cases r with
      | nil => exact ⟨o1, rfl, hgone, hb', Or.inr ⟨[false], rfl, rfl⟩⟩
      | cons q r =>
        have hq : q ∈ done ++ (w, id) :: q :: r := by simp
        have hx : tryAll (q :: r) o1 = (o1, .error .ub) := by
          rw [tryAll, insertWord_gone hgone (hne _ hq) (ho.start _ hq)]
        rw [hx]
        exact ⟨o1, rfl, hgone, hb', Or.inl rfl⟩

/-- A trie just made. -/
theorem start_inv [Build] {sys : System} {o : Obj} (h : construct (blank sys) = (o, .ok ())) :
    GInv (vw o) Ghost.init addr 36 ∧ 0 < o.calls ∧ denied o = 0 ∧ o.sys = sys := by
  obtain ⟨os, hl⟩ := like_exists sys
  rcases sim_construct hl with ⟨_, e⟩ | ⟨_, _, o1, e, _⟩ | ⟨_, _, o1, t, e, ht, ha, _, _, hs, _⟩
  · rw [h] at e; cases e
  · rw [h] at e; cases e
  · rw [h] at e
    obtain rfl : o = o1 := by cases e; rfl
    rcases new_spec os with ⟨_, e⟩ | ⟨t', e, hi, _, _⟩
    · rw [ht] at e; cases e
    · rw [ht] at e
      obtain rfl : t = t' := by cases e; rfl
      have hg := GInv.of_tinv hi
      have hv : vw o = { t with os := fun _ => true } := by
        unfold vw Obj.view
        rw [ha.mem, ha.map, ha.root]
        rfl
      have hg' : GInv { t with os := fun _ => true } Ghost.init addr 36 :=
        ⟨⟨hg.hdr.size, hg.hdr.total, hg.hdr.free_eq, hg.hdr.lt, hg.hdr.ge⟩, hg.root, hg.pos, hg.ad0, hg.free0, hg.ad1, hg.ad2, hg.mnodes, hg.mcount,
          hg.count_lt, hg.path0, hg.par_lt, hg.path_eq, hg.path_inj, hg.word_lt, hg.mword, hg.mdummy, hg.mletter, hg.mchild, hg.mlink⟩
      obtain ⟨j, hj, hcalls⟩ := ha.calls
      have hm36 : 4 + 32 * Ghost.init.n = 36 := rfl
      refine ⟨by rw [hv]; exact hg', by omega, ?_, hs⟩
      have hsn := hi.snug
      have hfr : t.mem.get32 4 = 36 := hi.hdr.free_eq
      have h1024 : t.mapped = 1024 := by
        unfold Snug at hsn
        rw [hfr] at hsn
        have := hi.hdr.size.bounds
        omega
      have hj0 : j = 0 := by
        rcases Nat.eq_zero_or_pos j with h0 | h0
        · exact h0
        · have : 2^1 ≤ 2^j := Nat.pow_le_pow_right (by decide) h0
          omega
      unfold denied
      rw [hcalls, hj0]
      rfl

namespace GInv
variable {t : Trie} {g : Ghost} {ad : Nat → Nat} {free : Nat}

theorem depth (h : GInv t g ad free) : ∀ k, k < g.n → (g.path k).length ≤ k := by
  intro k
  induction k using Nat.strongRecOn with
  | _ k ih =>
    intro hk
    rcases Nat.eq_zero_or_pos k with rfl | h1
    · rw [h.path0]; simp
    · have hp := h.par_lt k h1 hk
      have := ih _ hp (by omega)
      rw [h.path_eq k h1 hk, List.length_append, List.length_singleton]
      omega

theorem ad_ge (h : GInv t g ad free) : ∀ k, 1 ≤ k → k < g.n → 4 + 32 * k ≤ ad k := by
  intro k
  induction k with
  | zero => intro h1; omega
  | succ k ih =>
    intro _ hk
    rcases Nat.eq_zero_or_pos k with rfl | h1
    · exact (h.ad1 1 (by omega) hk).1
    · have := ih h1 (by omega)
      have := h.ad2 k (k + 1) h1 (by omega) hk
      omega

/-- A word in the tree takes its room. -/
theorem room (h : GInv t g ad free) {w : Word} (hne : w ≠ []) {i : Nat} (hw : g.Has w i) : 36 + 32 * w.length < t.mapped := by
  obtain ⟨k, hk, hp, _, _⟩ := hw
  have hd := h.depth k hk
  rw [hp] at hd
  have hl : 0 < w.length := List.length_pos_iff.2 hne
  have := h.ad_ge k (by omega) hk
  have := h.ad1 k (by omega) hk
  have := h.bound
  omega

theorem numWords (h : GInv t g ad free) : t.numWords = .ok g.count := by
  have := h.bound
  have := h.free0
  rw [Trie.numWords, Trie.rd32_ok (by omega), h.mcount]

/-- The words of the tree, one by one. -/
theorem words (h : GInv t g ad free) : ∃ l : List Word, l.Nodup ∧ (∀ w, w ∈ l ↔ ∃ i, g.Has w i) ∧ g.count = l.length := by
  refine ⟨((List.range g.n).filter fun k => g.word k != INVALID_WORDID).map g.path, ?_, ?_, ?_⟩
  · apply List.Nodup.map_on _ (List.nodup_range.filter _)
    intro a ha b hb hab
    exact h.path_inj a b (List.mem_range.1 (List.mem_filter.1 ha).1) (List.mem_range.1 (List.mem_filter.1 hb).1) hab
  · intro w
    rw [List.mem_map]
    simp only [List.mem_filter, List.mem_range, bne_iff_ne]
    constructor
    · rintro ⟨k, ⟨hk, hne⟩, rfl⟩
      exact ⟨_, k, hk, rfl, rfl, hne⟩
    · rintro ⟨i, k, hk, hpk, hwk, hne⟩
      exact ⟨k, ⟨hk, by rw [hwk]; exact hne⟩, hpk⟩
  · rw [Ghost.count, List.countP_eq_length_filter, List.length_map]

end GInv

end Columbus.Res
