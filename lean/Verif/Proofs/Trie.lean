import Mathlib.Data.List.Induction
import Verif.Proofs.Mem
import Verif.Proofs.TrieSize
/-
The trie in memory represents a prefix tree.

Node 0, the root, is at address 16 and takes 20 bytes (node and dummy record). Node `k ≥ 1` is at `4 + 32 k`: node,
dummy record, and the record that links it into its parent's list.
-/

namespace Columbus

/-- The prefix tree kept in the file, as ghost state: nodes `0 … n-1` in order of creation. -/
structure Ghost where
  n : Nat
  par : Nat → Nat
  letter : Nat → Letter
  path : Nat → List Letter
  word : Nat → Nat

namespace Ghost

/-- Node `n` with parent `p` and letter `l`. -/
def add (g : Ghost) (p : Nat) (l : Letter) : Ghost where
  n := g.n + 1
  par k := if k = g.n then p else g.par k
  letter k := if k = g.n then l else g.letter k
  path k := if k = g.n then g.path p ++ [l] else g.path k
  word k := if k = g.n then INVALID_WORDID else g.word k

/-- Word identifier `w` stored at node `k`. -/
def setWord (g : Ghost) (k w : Nat) : Ghost := { g with word := fun i => if i = k then w else g.word i }

/-- Number of nodes carrying a word. -/
def count (g : Ghost) : Nat := (List.range g.n).countP fun k => g.word k != INVALID_WORDID

/-- `k` is the parent `p` itself (its dummy record) or a child of `p`. -/
def IsCell (g : Ghost) (p k : Nat) : Prop := k = p ∨ (p < k ∧ k < g.n ∧ g.par k = p)

/-- `j` is the first child of `p` created after `k`, or 0 if there is none. -/
def NextKid (g : Ghost) (p k j : Nat) : Prop :=
  (j = 0 ∧ ∀ i, k < i → i < g.n → g.par i ≠ p) ∨
  (k < j ∧ j < g.n ∧ g.par j = p ∧ ∀ i, k < i → i < j → g.par i ≠ p)

/-- Letter found in the record of cell `k` of `p`. -/
def cellLetter (g : Ghost) (p k : Nat) : Letter := if k = p then 0#16 else g.letter k

end Ghost

/-- Address of a node. -/
def addr (k : Nat) : Nat := if k = 0 then 16 else 4 + 32 * k

theorem addr_cases (k : Nat) : (k = 0 ∧ addr k = 16) ∨ (0 < k ∧ addr k = 4 + 32 * k) := by
  unfold addr; split <;> omega

theorem addr_ne_zero (k : Nat) : addr k ≠ 0 := by have := addr_cases k; omega

theorem addr_inj {j k : Nat} (h : addr j = addr k) : j = k := by
  have := addr_cases j; have := addr_cases k; omega

/-- Address of the record of cell `k` of `p`. -/
def cell (p k : Nat) : Nat := if k = p then addr p + 8 else addr k + 20

theorem cell_cases (p k : Nat) : (k = p ∧ cell p k = addr p + 8) ∨ (k ≠ p ∧ cell p k = addr k + 20) := by
  unfold cell; split
  · left; exact ⟨by assumption, rfl⟩
  · right; constructor
    · assumption
    · rfl

/-- Link to the record of node `j`. -/
def link (j : Nat) : Nat := if j = 0 then 0 else addr j + 20

/-- The memory of `t` represents `g`. -/
structure TInv (t : Trie) (g : Ghost) : Prop where
  hdr : Trie.Hdr t (4 + 32 * g.n)
  snug : Snug t
  root : t.root = 16
  pos : 1 ≤ g.n
  mnodes : t.mem.get32 12 = g.n
  mcount : t.mem.get32 8 = g.count
  path0 : g.path 0 = []
  par_lt : ∀ k, 1 ≤ k → k < g.n → g.par k < k
  letter_ne : ∀ k, 1 ≤ k → k < g.n → g.letter k ≠ 0#16
  path_eq : ∀ k, 1 ≤ k → k < g.n → g.path k = g.path (g.par k) ++ [g.letter k]
  path_inj : ∀ i j, i < g.n → j < g.n → g.path i = g.path j → i = j
  word_lt : ∀ k, k < g.n → g.word k < 2^32
  mword : ∀ k, k < g.n → t.mem.get32 (addr k) = g.word k
  mpar0 : t.mem.get32 20 = 0
  mpar : ∀ k, 1 ≤ k → k < g.n → t.mem.get32 (addr k + 4) = addr (g.par k)
  mdummy : ∀ k, k < g.n → t.mem.get16 (addr k + 8) = 0
  mdchild : ∀ k, k < g.n → t.mem.get32 (addr k + 12) = 0
  mletter : ∀ k, 1 ≤ k → k < g.n → t.mem.get16 (addr k + 20) = (g.letter k).toNat
  mchild : ∀ k, 1 ≤ k → k < g.n → t.mem.get32 (addr k + 24) = addr k
  mlink : ∀ p k, p < g.n → g.IsCell p k → ∃ j, g.NextKid p k j ∧ t.mem.get32 (cell p k + 8) = link j

namespace TInv
variable {t : Trie} {g : Ghost}

theorem bound (h : TInv t g) : 4 + 32 * g.n < t.mapped ∧ t.mapped ≤ 2^31 ∧ g.n < 2^26 := by
  have h1 := h.hdr.lt
  have h2 := h.hdr.size.bounds.2
  omega

theorem IsCell.bound (h : TInv t g) {p k : Nat} (hp : p < g.n) (hc : g.IsCell p k) : k < g.n ∧ p ≤ k ∧ cell p k + 12 ≤ 4 + 32 * g.n ∧ 16 ≤ cell p k := by
  have hn := h.pos
  have := addr_cases p
  have := addr_cases k
  have := cell_cases p k
  rcases hc with rfl | ⟨h1, h2, _⟩ <;> omega

theorem rd_cellLetter (h : TInv t g) {p k : Nat} (hp : p < g.n) (hc : g.IsCell p k) :
    t.rdLetter (cell p k) = .ok (g.cellLetter p k) := by
  have hb := IsCell.bound h hp hc
  have hm := h.bound
  rw [Trie.rdLetter_ok (by omega)]
  congr 1
  rcases hc with rfl | ⟨h1, h2, _⟩
  · rw [show cell k k = addr k + 8 from if_pos rfl, h.mdummy k hp, Ghost.cellLetter, if_pos rfl]
  · rw [show cell p k = addr k + 20 from if_neg (by omega), h.mletter k (by omega) h2, Ghost.cellLetter,
      if_neg (by omega), BitVec.ofNat_toNat, BitVec.setWidth_eq]

theorem rd_link (h : TInv t g) {p k : Nat} (hp : p < g.n) (hc : g.IsCell p k) :
    ∃ j, g.NextKid p k j ∧ t.rd32 (cell p k + 8) = .ok (link j) := by
  have hb := IsCell.bound h hp hc
  have hm := h.bound
  obtain ⟨j, h1, h2⟩ := h.mlink p k hp hc
  exact ⟨j, h1, by rw [Trie.rd32_ok (by omega), h2]⟩

end TInv

theorem Ghost.NextKid.isCell {g : Ghost} {p k j : Nat} (hpk : p ≤ k) (h : g.NextKid p k j) (hj : j ≠ 0) :
    g.IsCell p j ∧ k < j ∧ link j = cell p j := by
  rcases h with ⟨h, _⟩ | ⟨h1, h2, h3, _⟩
  · exact absurd h hj
  · refine ⟨Or.inr ⟨by omega, h2, h3⟩, h1, ?_⟩
    rw [link, if_neg hj, cell, if_neg (by omega)]

theorem link_eq_zero {j : Nat} : link j = 0 ↔ j = 0 := by
  unfold link; split
  · simp_all
  · simp only [Nat.add_eq_zero_iff]
    constructor
    · rintro ⟨_, h⟩; omega
    · intro h; contradiction

theorem walk_spec {t : Trie} {g : Ghost} (h : TInv t g) {p : Nat} (hp : p < g.n) {l : Letter} :
    ∀ (fuel k : Nat), g.IsCell p k → g.n - k < fuel →
    ∃ j, g.IsCell p j ∧ t.walk l fuel (cell p k) = .ok (cell p j) ∧
      (g.cellLetter p j = l ∨
        (g.NextKid p j 0 ∧ g.cellLetter p j ≠ l ∧ ∀ i, k ≤ i → g.IsCell p i → g.cellLetter p i ≠ l)) := by
  intro fuel
  induction fuel with
  | zero => intro k _ hf; omega
  | succ fuel ih =>
    intro k hc hf
    have hb := TInv.IsCell.bound h hp hc
    obtain ⟨j, hj, e⟩ := h.rd_link hp hc
    rw [Trie.walk, e, h.rd_cellLetter hp hc]
    simp only [ok_bind]
    by_cases hl : g.cellLetter p k = l
    · rw [if_neg (by simp [hl])]
      exact ⟨k, hc, rfl, Or.inl hl⟩
    · by_cases hj0 : j = 0
      · subst hj0
        rw [if_neg (by simp [link_eq_zero])]
        refine ⟨k, hc, rfl, Or.inr ⟨hj, hl, ?_⟩⟩
        intro i hi hci
        rcases Nat.eq_or_lt_of_le hi with rfl | hi
        · exact hl
        · rcases hci with rfl | ⟨h1, h2, h3⟩
          · omega
          · rcases hj with ⟨_, hj⟩ | ⟨hj, _⟩
            · exact absurd h3 (hj i hi h2)
            · omega
      · obtain ⟨hcj, hkj, hlj⟩ := hj.isCell hb.2.1 hj0
        rw [if_pos ⟨by rw [ne_eq, link_eq_zero]; exact hj0, hl⟩, hlj]
        have hbj := TInv.IsCell.bound h hp hcj
        obtain ⟨j', h1, h2, h3⟩ := ih j hcj (by omega)
        refine ⟨j', h1, h2, ?_⟩
        rcases h3 with h3 | ⟨h3, h4, h5⟩
        · exact Or.inl h3
        · refine Or.inr ⟨h3, h4, ?_⟩
          intro i hi hci
          rcases Nat.lt_or_ge i j with hij | hij
          · rcases Nat.eq_or_lt_of_le hi with rfl | hi
            · exact hl
            · rcases hci with rfl | ⟨g1, g2, g3⟩
              · omega
              · rcases hj with ⟨hj, _⟩ | ⟨_, _, _, hj⟩
                · exact absurd hj hj0
                · exact absurd g3 (hj i hi hij)
          · exact h5 i hij hci

theorem cell_self (k : Nat) : cell k k = addr k + 8 := if_pos rfl

/-- Walking the children of `k` for letter `l`: either the child is found, or there is none. -/
theorem walk_node {t : Trie} {g : Ghost} (h : TInv t g) {k : Nat} (hk : k < g.n) {l : Letter} (hl : l ≠ 0#16) :
    (∃ j, j < g.n ∧ g.path j = g.path k ++ [l] ∧ t.walk l (t.mapped + 1) (addr k + sizeofNode) = .ok (addr j + 20) ∧
      t.rdLetter (addr j + 20) = .ok l ∧ t.rd32 (addr j + 20 + 4) = .ok (addr j)) ∨
    ((∀ j, j < g.n → g.path j ≠ g.path k ++ [l]) ∧
      ∃ j c, g.IsCell k j ∧ g.NextKid k j 0 ∧ t.walk l (t.mapped + 1) (addr k + sizeofNode) = .ok (cell k j) ∧
        t.rdLetter (cell k j) = .ok c ∧ c ≠ l) := by
  have hm := h.bound
  obtain ⟨j, hc, hw, hj⟩ := walk_spec h hk (l := l) (t.mapped + 1) k (Or.inl rfl) (by omega)
  rw [cell_self] at hw
  have hb := TInv.IsCell.bound h hk hc
  rcases hj with hj | ⟨h1, h2, h3⟩
  · left
    have hjk : j ≠ k := by
      rintro rfl
      rw [Ghost.cellLetter, if_pos rfl] at hj
      exact hl hj.symm
    rcases hc with rfl | ⟨g1, g2, g3⟩
    · exact absurd rfl hjk
    · have hcl := h.rd_cellLetter hk (Or.inr ⟨g1, g2, g3⟩ : g.IsCell k j)
      rw [hj] at hcl
      have hcell : cell k j = addr j + 20 := if_neg hjk
      rw [hcell] at hw hcl
      have hl' : g.letter j = l := by rw [← hj, Ghost.cellLetter, if_neg hjk]
      refine ⟨j, g2, ?_, hw, hcl, ?_⟩
      · rw [h.path_eq j (by omega) g2, g3, hl']
      · have := addr_cases j
        rw [Trie.rd32_ok (by omega), h.mchild j (by omega) g2]
  · right
    refine ⟨?_, j, _, hc, h1, hw, h.rd_cellLetter hk hc, h2⟩
    intro i hi hpi
    have hi1 : 1 ≤ i := by
      rcases Nat.eq_zero_or_pos i with rfl | hi
      · rw [h.path0] at hpi; simp at hpi
      · exact hi
    have hpe := h.path_eq i hi1 hi
    rw [hpi] at hpe
    have hpl := h.par_lt i hi1 hi
    obtain ⟨e1, e2⟩ := List.append_inj' hpe rfl
    have hpar : g.par i = k := (h.path_inj _ _ hk (by omega) e1).symm
    have : g.IsCell k i := Or.inr ⟨by omega, hi, hpar⟩
    have h4 := h3 i (by omega) this
    rw [Ghost.cellLetter, if_neg (by omega)] at h4
    simp only [List.cons.injEq, and_true] at e2
    exact h4 e2.symm

/-! ### Look-up -/

theorem findLoop_spec {t : Trie} {g : Ghost} (h : TInv t g) (w : List Letter) (hw : ∀ l ∈ w, l ≠ 0#16) :
    ∀ k, k < g.n → (∃ j, j < g.n ∧ g.path j = g.path k ++ w ∧ t.findLoop (addr k) w = .ok (addr j)) ∨
      ((∀ j, j < g.n → g.path j ≠ g.path k ++ w) ∧ t.findLoop (addr k) w = .ok 0) := by
  induction w with
  | nil => intro k hk; left; exact ⟨k, hk, by simp, rfl⟩
  | cons l w ih =>
    intro k hk
    rcases walk_node h hk (hw l (by simp)) with ⟨j, hj, hp, e1, e2, e3⟩ | ⟨hno, j, c, _, _, e1, e2, hc⟩
    · rw [Trie.findLoop, e1]
      simp only [ok_bind]
      rw [e2]
      simp only [ok_bind, ne_eq, not_true_eq_false, if_false]
      rw [e3]
      simp only [ok_bind]
      rcases ih (fun x hx => hw x (by simp [hx])) j hj with ⟨i, hi, hpi, e⟩ | ⟨hno, e⟩
      · left; exact ⟨i, hi, by rw [hpi, hp]; simp, e⟩
      · right
        refine ⟨?_, e⟩
        intro i hi he
        exact hno i hi (by rw [he, hp]; simp)
    · right
      constructor
      · intro i hi he
        -- the prefix of length |path k| + 1 would be a node
        have : ∀ (w : List Letter) (i : Nat), i < g.n → g.path i = g.path k ++ l :: w →
            ∃ j, j < g.n ∧ g.path j = g.path k ++ [l] := by
          intro w
          induction w using List.reverseRecOn with
          | nil => intro i hi he; exact ⟨i, hi, he⟩
          | append_singleton w x ihw =>
            intro i hi he
            have hi1 : 1 ≤ i := by
              rcases Nat.eq_zero_or_pos i with rfl | hi
              · rw [h.path0] at he; simp at he
              · exact hi
            have hpe := h.path_eq i hi1 hi
            have hpl := h.par_lt i hi1 hi
            rw [he, ← List.cons_append, ← List.append_assoc] at hpe
            obtain ⟨e1, _⟩ := List.append_inj' hpe rfl
            exact ihw (g.par i) (by omega) e1.symm
        obtain ⟨j, hj, hpj⟩ := this w i hi he
        exact hno j hj hpj
      · rw [Trie.findLoop, e1]
        simp only [ok_bind]
        rw [e2]
        simp only [ok_bind]
        rw [if_pos hc]

theorem findWord_spec {t : Trie} {g : Ghost} (h : TInv t g) (w : List Letter) (hw : ∀ l ∈ w, l ≠ 0#16) :
    (∃ j, j < g.n ∧ g.path j = w ∧ t.findWord w = .ok (addr j)) ∨
      ((∀ j, j < g.n → g.path j ≠ w) ∧ t.findWord w = .ok 0) := by
  have := findLoop_spec h w hw 0 h.pos
  rw [h.path0] at this
  rw [Trie.findWord, h.root]
  exact this

/-- `w` is stored with identifier `id`. -/
def Ghost.Has (g : Ghost) (w : List Letter) (id : Nat) : Prop :=
  ∃ k, k < g.n ∧ g.path k = w ∧ g.word k = id ∧ id ≠ INVALID_WORDID

theorem Ghost.Has.inj {t : Trie} {g : Ghost} (h : TInv t g) {w : List Letter} {i j : Nat} (hi : g.Has w i) (hj : g.Has w j) : i = j := by
  obtain ⟨k, hk, hpk, rfl, _⟩ := hi
  obtain ⟨k', hk', hpk', rfl, _⟩ := hj
  rw [h.path_inj k k' hk hk' (hpk.trans hpk'.symm)]

theorem rd_word {t : Trie} {g : Ghost} (h : TInv t g) {k : Nat} (hk : k < g.n) : t.rd32 (addr k) = .ok (g.word k) := by
  have hm := h.bound
  have := addr_cases k
  rw [Trie.rd32_ok (by omega), h.mword k hk]

theorem hasWord_spec {t : Trie} {g : Ghost} (h : TInv t g) (w : List Letter) (hw : ∀ l ∈ w, l ≠ 0#16) :
    ∃ b, t.hasWord w = .ok b ∧ (b = true ↔ ∃ id, g.Has w id) := by
  rcases findWord_spec h w hw with ⟨j, hj, hp, e⟩ | ⟨hno, e⟩
  · rw [Trie.hasWord, e]
    simp only [ok_bind]
    rw [if_neg (addr_ne_zero j), rd_word h hj]
    refine ⟨_, rfl, ?_⟩
    simp only [ne_eq, decide_not, Bool.not_eq_true', decide_eq_false_iff_not]
    constructor
    · intro hne; exact ⟨_, j, hj, hp, rfl, hne⟩
    · rintro ⟨id, k, hk, hpk, rfl, hne⟩
      rw [h.path_inj j k hj hk (hp.trans hpk.symm)]; exact hne
  · rw [Trie.hasWord, e]
    simp only [ok_bind, if_true]
    refine ⟨false, rfl, ?_⟩
    simp only [Bool.false_eq_true, false_iff, not_exists]
    rintro id ⟨k, hk, hpk, _⟩
    exact hno k hk hpk

theorem findWord_has {t : Trie} {g : Ghost} (h : TInv t g) (w : List Letter) (hw : ∀ l ∈ w, l ≠ 0#16) {id : Nat}
    (hh : g.Has w id) : ∃ a, t.findWord w = .ok a ∧ a ≠ 0 ∧ t.getWordID a = .ok id := by
  obtain ⟨k, hk, hpk, rfl, hne⟩ := hh
  rcases findWord_spec h w hw with ⟨j, hj, hp, e⟩ | ⟨hno, e⟩
  · refine ⟨_, e, addr_ne_zero j, ?_⟩
    rw [Trie.getWordID, rd_word h hj, h.path_inj j k hj hk (hp.trans hpk.symm)]
  · exact absurd hpk (hno k hk)

/-! ### Adding a node -/

theorem Ghost.count_add (g : Ghost) (p : Nat) (l : Letter) : (g.add p l).count = g.count := by
  have e : (List.range g.n).countP (fun k => (g.add p l).word k != INVALID_WORDID) = g.count := by
    apply List.countP_congr
    intro x hx
    have : x < g.n := List.mem_range.1 hx
    simp only [Ghost.add]
    rw [if_neg (by omega)]
  unfold Ghost.count at *
  show (List.range (g.n + 1)).countP (fun k => (g.add p l).word k != INVALID_WORDID) = _
  rw [List.range_succ, List.countP_append, e]
  simp [Ghost.add]

theorem TInv.last_unique {g : Ghost} {p k k' : Nat} (hc : g.IsCell p k) (hc' : g.IsCell p k')
    (hn : g.NextKid p k 0) (hn' : g.NextKid p k' 0) : k = k' := by
  have key : ∀ {k k'}, g.IsCell p k → g.IsCell p k' → g.NextKid p k 0 → ¬ k < k' := by
    intro k k' hc hc' hn hlt
    have hpk : p ≤ k := by rcases hc with rfl | ⟨h, _⟩ <;> omega
    rcases hc' with rfl | ⟨h1, h2, h3⟩
    · omega
    · rcases hn with ⟨_, hn⟩ | ⟨hn, _⟩
      · exact hn k' hlt h2 h3
      · omega
  have := key hc hc' hn
  have := key hc' hc hn'
  omega

theorem addNewSibling_inv [Build] {t : Trie} {g : Ghost} (h : TInv t g) {p k : Nat} (hp : p < g.n)
    (hc : g.IsCell p k) (hn : g.NextKid p k 0) {l : Letter} (hl : l ≠ 0#16)
    (hnew : ∀ j, j < g.n → g.path j ≠ g.path p ++ [l]) :
    (t.addNewSibling (addr p) (cell p k) l = .error .runtimeError ∧ Trie.Refusal t (4 + 32 * (g.n + 1))) ∨
    ∃ t', t.addNewSibling (addr p) (cell p k) l = .ok (t', addr g.n) ∧ TInv t' (g.add p l) ∧ t'.os = t.os ∧
      t.mapped ≤ t'.mapped := by
  have hm := h.bound
  have hb := TInv.IsCell.bound h hp hc
  have hpos := h.pos
  have hap := addr_cases p
  have han : addr g.n = 4 + 32 * g.n := by have := addr_cases g.n; omega
  have hz : t.mem.get32 (cell p k + 8) = 0 := by
    obtain ⟨j, hj, e⟩ := h.mlink p k hp hc
    have : j = 0 := by
      by_contra hj0
      obtain ⟨hcj, hkj, _⟩ := hj.isCell hb.2.1 hj0
      rcases hn with ⟨_, hn⟩ | ⟨hn, _⟩
      · rcases hcj with rfl | ⟨g1, g2, g3⟩
        · omega
        · exact hn j hkj g2 g3
      · omega
    rw [e, this]; rfl
  rcases Trie.addNewSibling_spec (node := addr p) (s := cell p k) (l := l) h.hdr (by omega)
    (by rw [h.mnodes]; omega) (by omega) (by omega) hz with
    ⟨e, hr⟩ | ⟨t', e, hh, hroot, hos, hmap, hkeep, hnodes, hw, hpa, hd, hdc, hsib, hlet, hch, hnx, hlk⟩
  · left; exact ⟨e, by rw [show 4 + 32 * (g.n + 1) = 4 + 32 * g.n + 32 from by omega]; exact hr⟩
  · right
    refine ⟨t', by rw [e, han], ?_, hos, hmap⟩
    have addn : (g.add p l).n = g.n + 1 := rfl
    have keep32 : ∀ a, 16 ≤ a → a + 4 ≤ 4 + 32 * g.n → (a + 4 ≤ cell p k + 8 ∨ cell p k + 12 ≤ a) →
        t'.mem.get32 a = t.mem.get32 a := by
      intro a h1 h2 h3
      apply Mem.get32_congr
      intro x hx1 hx2
      exact hkeep x (by omega) (by omega) (by omega) (by omega)
    have keep16 : ∀ a, 16 ≤ a → a + 2 ≤ 4 + 32 * g.n → (a + 2 ≤ cell p k + 8 ∨ cell p k + 12 ≤ a) →
        t'.mem.get16 a = t.mem.get16 a := by
      intro a h1 h2 h3
      apply Mem.get16_congr
      intro x hx1 hx2
      exact hkeep x (by omega) (by omega) (by omega) (by omega)
    have hcc := cell_cases p k
    have hak := addr_cases k
    have old_par : ∀ i, i < g.n → (g.add p l).par i = g.par i := fun i hi => if_neg (by omega)
    have old_let : ∀ i, i < g.n → (g.add p l).letter i = g.letter i := fun i hi => if_neg (by omega)
    have old_path : ∀ i, i < g.n → (g.add p l).path i = g.path i := fun i hi => if_neg (by omega)
    have old_word : ∀ i, i < g.n → (g.add p l).word i = g.word i := fun i hi => if_neg (by omega)
    have new_par : (g.add p l).par g.n = p := if_pos rfl
    have new_let : (g.add p l).letter g.n = l := if_pos rfl
    have new_path : (g.add p l).path g.n = g.path p ++ [l] := if_pos rfl
    have new_word : (g.add p l).word g.n = INVALID_WORDID := if_pos rfl
    have split : ∀ i, i < g.n + 1 → i < g.n ∨ i = g.n := by intro i hi; omega
    constructor
    · rw [addn, show 4 + 32 * (g.n + 1) = 4 + 32 * g.n + 32 from by omega]; exact hh
    · exact addNewSibling_snug h.hdr h.snug (by omega) (by rw [h.mnodes]; omega) e
    · rw [hroot, h.root]
    · rw [addn]; omega
    · rw [hnodes, h.mnodes, addn]
    · rw [Ghost.count_add, ← h.mcount]
      apply Mem.get32_congr
      intro x hx1 hx2
      exact hkeep x (by omega) (by omega) (by omega) (by omega)
    · rw [old_path 0 (by omega), h.path0]
    · intro i h1 h2
      rcases split i h2 with hi | rfl
      · rw [old_par i hi]; exact h.par_lt i h1 hi
      · rw [new_par]; exact hp
    · intro i h1 h2
      rcases split i h2 with hi | rfl
      · rw [old_let i hi]; exact h.letter_ne i h1 hi
      · rw [new_let]; exact hl
    · intro i h1 h2
      rcases split i h2 with hi | rfl
      · have := h.par_lt i h1 hi
        rw [old_path i hi, old_par i hi, old_let i hi, old_path _ (by omega)]; exact h.path_eq i h1 hi
      · rw [new_path, new_par, new_let, old_path p hp]
    · intro i j h1 h2 he
      rcases split i h1 with hi | rfl <;> rcases split j h2 with hj | rfl
      · rw [old_path i hi, old_path j hj] at he; exact h.path_inj i j hi hj he
      · rw [old_path i hi, new_path] at he; exact absurd he (hnew i hi)
      · rw [old_path j hj, new_path] at he; exact absurd he.symm (hnew j hj)
      · rfl
    · intro i h1
      rcases split i h1 with hi | rfl
      · rw [old_word i hi]; exact h.word_lt i hi
      · rw [new_word]; decide
    · intro i h1
      rcases split i h1 with hi | rfl
      · have := addr_cases i
        rw [old_word i hi, ← h.mword i hi]
        exact keep32 _ (by omega) (by omega) (by omega)
      · rw [new_word, han, hw]
    · rw [← h.mpar0]; exact keep32 _ (by omega) (by omega) (by omega)
    · intro i h1 h2
      rcases split i h2 with hi | rfl
      · have := addr_cases i
        rw [old_par i hi, ← h.mpar i h1 hi]
        exact keep32 _ (by omega) (by omega) (by omega)
      · rw [new_par, han, hpa]
    · intro i h1
      rcases split i h1 with hi | rfl
      · have := addr_cases i
        rw [← h.mdummy i hi]
        exact keep16 _ (by omega) (by omega) (by omega)
      · rw [han, hd]
    · intro i h1
      rcases split i h1 with hi | rfl
      · have := addr_cases i
        rw [← h.mdchild i hi]
        exact keep32 _ (by omega) (by omega) (by omega)
      · rw [han, hdc]
    · intro i h1 h2
      rcases split i h2 with hi | rfl
      · have := addr_cases i
        rw [old_let i hi, ← h.mletter i h1 hi]
        exact keep16 _ (by omega) (by omega) (by omega)
      · rw [new_let, han, hlet]
    · intro i h1 h2
      rcases split i h2 with hi | rfl
      · have := addr_cases i
        refine Eq.trans ?_ (h.mchild i h1 hi)
        exact keep32 _ (by omega) (by omega) (by omega)
      · rw [han, hch]
    · intro p' k' hp' hc'
      rcases hc' with rfl | ⟨g1, g2, g3⟩
      · -- a dummy record
        rw [cell_self]
        rcases split k' hp' with hk | rfl
        · have hck : g.IsCell k' k' := Or.inl rfl
          obtain ⟨j, hj, e'⟩ := h.mlink k' k' hk hck
          rw [cell_self] at e'
          have := addr_cases k'
          by_cases hpk : k' = p ∧ j = 0
          · obtain ⟨rfl, rfl⟩ := hpk
            have : k = k' := TInv.last_unique hc hck hn hj
            subst this
            refine ⟨g.n, Or.inr ⟨by omega, by omega, new_par, ?_⟩, ?_⟩
            · intro i hi1 hi2
              rw [old_par i hi2]
              rcases hj with ⟨_, hj⟩ | ⟨hj, _⟩
              · exact hj i hi1 hi2
              · omega
            · rw [cell_self] at hlk
              rw [hlk, link, if_neg (by omega), han]
          · have hne : addr k' + 8 ≠ cell p k := by
              intro hq
              rcases hcc with ⟨rfl, hcc⟩ | ⟨_, hcc⟩
              · have : k' = k := by omega
                subst this
                apply hpk
                refine ⟨rfl, ?_⟩
                by_contra hj0
                obtain ⟨hcj, hkj, _⟩ := hj.isCell (Nat.le_refl _) hj0
                rcases hn with ⟨_, hn⟩ | ⟨hn, _⟩
                · rcases hcj with rfl | ⟨q1, q2, q3⟩
                  · omega
                  · exact hn j hkj q2 q3
                · omega
              · omega
            refine ⟨j, ?_, ?_⟩
            · rcases hj with ⟨rfl, hj⟩ | ⟨j1, j2, j3, j4⟩
              · refine Or.inl ⟨rfl, ?_⟩
                intro i hi1 hi2
                rcases split i hi2 with hi | rfl
                · rw [old_par i hi]; exact hj i hi1 hi
                · rw [new_par]; rintro rfl; exact hpk ⟨rfl, rfl⟩
              · refine Or.inr ⟨j1, by omega, by rw [old_par j j2]; exact j3, ?_⟩
                intro i hi1 hi2
                rw [old_par i (by omega)]; exact j4 i hi1 hi2
            · rw [← e']
              exact keep32 _ (by omega) (by omega) (by omega)
        · refine ⟨0, Or.inl ⟨rfl, ?_⟩, ?_⟩
          · intro i hi1 hi2; rw [addn] at hi2; omega
          · rw [han, hsib]; rfl
      · -- a child's record
        rw [show cell p' k' = addr k' + 20 from if_neg (by omega)]
        rcases split k' g2 with hk | rfl
        · rw [old_par k' hk] at g3
          have hck : g.IsCell p' k' := Or.inr ⟨g1, hk, g3⟩
          obtain ⟨j, hj, e'⟩ := h.mlink p' k' (by omega) hck
          rw [show cell p' k' = addr k' + 20 from if_neg (by omega)] at e'
          have := addr_cases k'
          by_cases hpk : p' = p ∧ j = 0
          · obtain ⟨rfl, rfl⟩ := hpk
            have : k = k' := TInv.last_unique hc hck hn hj
            subst this
            refine ⟨g.n, Or.inr ⟨by omega, by omega, new_par, ?_⟩, ?_⟩
            · intro i hi1 hi2
              rw [old_par i hi2]
              rcases hj with ⟨_, hj⟩ | ⟨hj, _⟩
              · exact hj i hi1 hi2
              · omega
            · rw [show cell p' k = addr k + 20 from if_neg (by omega)] at hlk
              rw [hlk, link, if_neg (by omega), han]
          · have hne : addr k' + 20 ≠ cell p k := by
              intro hq
              rcases hcc with ⟨rfl, hcc⟩ | ⟨hkp, hcc⟩
              · omega
              · have : k' = k := by omega
                subst this
                rcases hc with rfl | ⟨_, _, hq⟩
                · omega
                · apply hpk
                  refine ⟨by omega, ?_⟩
                  have hpp : p' = p := by omega
                  subst hpp
                  by_contra hj0
                  obtain ⟨hcj, hkj, _⟩ := hj.isCell (by omega) hj0
                  rcases hn with ⟨_, hn⟩ | ⟨hn, _⟩
                  · rcases hcj with rfl | ⟨q1, q2, q3⟩
                    · omega
                    · exact hn j hkj q2 q3
                  · omega
            refine ⟨j, ?_, ?_⟩
            · rcases hj with ⟨rfl, hj⟩ | ⟨j1, j2, j3, j4⟩
              · refine Or.inl ⟨rfl, ?_⟩
                intro i hi1 hi2
                rcases split i hi2 with hi | rfl
                · rw [old_par i hi]; exact hj i hi1 hi
                · rw [new_par]; rintro rfl; exact hpk ⟨rfl, rfl⟩
              · refine Or.inr ⟨j1, by omega, by rw [old_par j j2]; exact j3, ?_⟩
                intro i hi1 hi2
                rw [old_par i (by omega)]; exact j4 i hi1 hi2
            · rw [← e']
              exact keep32 _ (by omega) (by omega) (by omega)
        · refine ⟨0, Or.inl ⟨rfl, ?_⟩, ?_⟩
          · intro i hi1 hi2; rw [addn] at hi2; omega
          · rw [han, hnx]; rfl

end Columbus
