import Verif.Proofs.Store
import Verif.Proofs.LevIndex
import Verif.Spec.NulWords
/-
Words with NUL letters in a trie. The dummy record of a node has the letter 0 and the child 0, so such a letter leads to
the header of the file, which is then read as a node.
-/

namespace Columbus

variable {t : Trie} {g : Ghost}

theorem get16_of_get32 (m : Mem) (a : Nat) : BitVec.ofNat 16 (m.get16 a) = BitVec.ofNat 16 (m.get32 a) := by
  apply BitVec.eq_of_toNat_eq
  simp only [BitVec.toNat_ofNat, Mem.get16, Mem.get32]
  omega

/-- A NUL letter leads from every node to the header. -/
theorem nul_step (h : TInv t g) {k : Nat} (hk : k < g.n) :
    t.walk 0#16 (t.mapped + 1) (addr k + sizeofNode) = .ok (addr k + 8) ∧ t.rdLetter (addr k + 8) = .ok 0#16 ∧
      t.rd32 (addr k + 8 + 4) = .ok 0 := by
  have hb := h.bound
  have hak := addr_cases k
  have hpos := h.pos
  have e1 : t.rdLetter (addr k + 8) = .ok 0#16 := by rw [Trie.rdLetter_ok (by omega), h.mdummy k hk]
  refine ⟨?_, e1, by rw [Trie.rd32_ok (by omega), h.mdchild k hk]⟩
  show t.walk 0#16 (t.mapped + 1) (addr k + 8) = _
  rw [Trie.walk, Trie.rd32_ok (by omega)]
  simp only [ok_bind, e1, ne_eq, not_true_eq_false, and_false, if_false]

theorem findLoop_nul (h : TInv t g) {k : Nat} (hk : k < g.n) (r : List Letter) :
    t.findLoop (addr k) (0#16 :: r) = t.findLoop 0 r := by
  obtain ⟨e1, e2, e3⟩ := nul_step h hk
  rw [Trie.findLoop, e1]
  simp only [ok_bind, e2, ne_eq, not_true_eq_false, if_false, e3]

theorem insertLoop_nul [Build] (h : TInv t g) {k : Nat} (hk : k < g.n) (r : List Letter) :
    t.insertLoop (addr k) (0#16 :: r) = t.insertLoop 0 r := by
  obtain ⟨e1, e2, e3⟩ := nul_step h hk
  rw [Trie.insertLoop, e1]
  simp only [ok_bind, e2, if_true, e3]

/-- Looking for a letter in the header leaves the mapping, unless it is the number of words. -/
theorem walk_header (h : TInv t g) (h0 : g.word 0 = INVALID_WORDID) {l : Letter} (hl : l ≠ BitVec.ofNat 16 g.count) :
    t.walk l (t.mapped + 1) (0 + sizeofNode) = .error .ub := by
  have hb := h.bound
  have hpos := h.pos
  have e : t.rd32 16 = .ok INVALID_WORDID := by rw [← h0]; exact rd_word h h.pos
  have ec : t.rdLetter 8 = .ok (BitVec.ofNat 16 g.count) := by
    rw [Trie.rdLetter_ok (by omega), get16_of_get32, h.mcount]
  show t.walk l (t.mapped + 1) 8 = _
  rw [Trie.walk]
  simp only [Nat.reduceAdd, e, ok_bind, ec]
  rw [if_pos ⟨by decide, fun hx => hl hx.symm⟩]
  obtain ⟨n, hn⟩ := Nat.exists_eq_succ_of_ne_zero (n := t.mapped) (by omega)
  rw [hn, Trie.walk, Trie.rd32, if_neg (by show ¬ 4294967295 + 8 + 4 ≤ t.mapped; omega), error_bind]

theorem findLoop_header (h : TInv t g) (h0 : g.word 0 = INVALID_WORDID) {l : Letter} (hl : l ≠ BitVec.ofNat 16 g.count)
    (r : List Letter) : t.findLoop 0 (l :: r) = .error .ub := by
  rw [Trie.findLoop, walk_header h h0 hl, error_bind]

theorem insertLoop_header [Build] (h : TInv t g) (h0 : g.word 0 = INVALID_WORDID) {l : Letter}
    (hl : l ≠ BitVec.ofNat 16 g.count) (r : List Letter) : t.insertLoop 0 (l :: r) = .error .ub := by
  rw [Trie.insertLoop, walk_header h h0 hl, error_bind]

theorem findLoop_append (h : TInv t g) (u : List Letter) (hu : ∀ l ∈ u, l ≠ 0#16) (r : List Letter) :
    ∀ k, k < g.n → (∃ j, j < g.n ∧ g.path j = g.path k ++ u ∧ t.findLoop (addr k) (u ++ r) = t.findLoop (addr j) r) ∨
      ((∀ j, j < g.n → g.path j ≠ g.path k ++ u) ∧ t.findLoop (addr k) (u ++ r) = .ok 0) := by
  have key : ∀ (u : List Letter), (∀ l ∈ u, l ≠ 0#16) → ∀ k, k < g.n →
      (t.findLoop (addr k) u = .ok 0 → t.findLoop (addr k) (u ++ r) = .ok 0) ∧
      (∀ j, t.findLoop (addr k) u = .ok (addr j) → t.findLoop (addr k) (u ++ r) = t.findLoop (addr j) r) := by
    intro u
    induction u with
    | nil =>
      intro _ k _
      refine ⟨fun e => ?_, fun j e => ?_⟩
      · injection e with e; exact absurd e (addr_ne_zero k)
      · injection e with e; rw [addr_inj e]; rfl
    | cons l u ih =>
      intro hu k hk
      rcases walk_node h hk (hu l (by simp)) with ⟨j, hj, hp, e1, e2, e3⟩ | ⟨hno, j, c, _, _, e1, e2, hc⟩
      · have e : ∀ v, t.findLoop (addr k) (l :: v) = t.findLoop (addr j) v := by
          intro v
          rw [Trie.findLoop, e1]
          simp only [ok_bind]
          rw [e2]
          simp only [ok_bind, ne_eq, not_true_eq_false, if_false]
          rw [e3]; rfl
        rw [List.cons_append, e, e]
        exact ih (fun x hx => hu x (by simp [hx])) j hj
      · have e : ∀ v, t.findLoop (addr k) (l :: v) = .ok 0 := by
          intro v
          rw [Trie.findLoop, e1]
          simp only [ok_bind]
          rw [e2]
          simp only [ok_bind]
          rw [if_pos hc]
        rw [List.cons_append, e, e]
        refine ⟨fun _ => rfl, fun j e => ?_⟩
        injection e with e; exact absurd e.symm (addr_ne_zero j)
  intro k hk
  rcases findLoop_spec h u hu k hk with ⟨j, hj, hp, e⟩ | ⟨hno, e⟩
  · left; exact ⟨j, hj, hp, (key u hu k hk).2 j e⟩
  · right; exact ⟨hno, (key u hu k hk).1 e⟩

theorem insertLoop_append [Build] (u r : List Letter) : ∀ (t : Trie) (a : Nat),
    t.insertLoop a (u ++ r) = (t.insertLoop a u >>= fun x => x.1.insertLoop x.2 r) := by
  induction u with
  | nil => intro t a; rfl
  | cons l u ih =>
    intro t a
    rw [List.cons_append, Trie.insertLoop, Trie.insertLoop]
    cases t.walk l (t.mapped + 1) (a + sizeofNode) with
    | error f => rfl
    | ok s =>
      simp only [ok_bind]
      cases t.rdLetter s with
      | error f => rfl
      | ok c =>
        simp only [ok_bind]
        split
        · cases t.rd32 (s + 4) with
          | error f => rfl
          | ok a' => simp only [ok_bind]; exact ih t a'
        · cases t.addNewSibling a s l with
          | error f => rfl
          | ok x => simp only [ok_bind]; exact ih x.1 x.2

/-- Looking up a word whose first NUL letter is its last. -/
theorem hasWord_nul_end (h : TInv t g) {u : List Letter} (hu : ∀ l ∈ u, l ≠ 0#16) :
    t.hasWord (u ++ [0#16]) = .ok false := by
  have hf : t.findWord (u ++ [0#16]) = .ok 0 := by
    rw [Trie.findWord, h.root]
    change t.findLoop (addr 0) _ = _
    rcases findLoop_append h u hu [0#16] 0 h.pos with ⟨j, hj, _, e⟩ | ⟨_, e⟩
    · rw [e, findLoop_nul h hj]; rfl
    · exact e
  rw [Trie.hasWord, hf]; rfl

/-- Looking up a word with more letters after its first NUL letter. -/
theorem hasWord_nul_inside (h : TInv t g) (h0 : g.word 0 = INVALID_WORDID) {u : List Letter} (hu : ∀ l ∈ u, l ≠ 0#16)
    {l : Letter} (hl : l ≠ BitVec.ofNat 16 g.count) (r : List Letter) :
    ((∃ j, j < g.n ∧ g.path j = u) ∧ t.hasWord (u ++ 0#16 :: l :: r) = .error .ub) ∨
      ((∀ j, j < g.n → g.path j ≠ u) ∧ t.hasWord (u ++ 0#16 :: l :: r) = .ok false) := by
  have hf := findLoop_append h u hu (0#16 :: l :: r) 0 h.pos
  rw [h.path0, List.nil_append] at hf
  have hw : t.findWord (u ++ 0#16 :: l :: r) = t.findLoop (addr 0) (u ++ 0#16 :: l :: r) := by rw [Trie.findWord, h.root]; rfl
  rcases hf with ⟨j, hj, hp, e⟩ | ⟨hno, e⟩
  · left
    rw [findLoop_nul h hj, findLoop_header h h0 hl] at e
    exact ⟨⟨j, hj, hp⟩, by rw [Trie.hasWord, hw, e, error_bind]⟩
  · right
    exact ⟨hno, by rw [Trie.hasWord, hw, e]; rfl⟩

theorem Ghost.Ext.count {g g' : Ghost} (he : g.Ext g') (hnew : ∀ j, g.n ≤ j → j < g'.n → g'.word j = INVALID_WORDID) :
    g'.count = g.count := by
  have key : ∀ d, g.n + d ≤ g'.n → (List.range (g.n + d)).countP (fun k => g'.word k != INVALID_WORDID) = g.count := by
    intro d
    induction d with
    | zero =>
      intro _
      apply List.countP_congr
      intro k hk
      rw [he.word k (List.mem_range.1 hk)]
    | succ d ih =>
      intro hd
      rw [show g.n + (d + 1) = (g.n + d) + 1 from rfl, List.range_succ, List.countP_append, ih (by omega)]
      simp [hnew (g.n + d) (by omega) (by omega)]
  have hle := he.n_le
  have := key (g'.n - g.n) (by omega)
  rw [show g.n + (g'.n - g.n) = g'.n by omega] at this
  exact this

theorem Ghost.Ext.has {g g' : Ghost} (he : g.Ext g') (hnew : ∀ j, g.n ≤ j → j < g'.n → g'.word j = INVALID_WORDID)
    (w : List Letter) (i : Nat) : g'.Has w i ↔ g.Has w i := by
  have hle := he.n_le
  constructor
  · rintro ⟨k, hk, hp, hw, hne⟩
    rcases Nat.lt_or_ge k g.n with hlt | hge
    · exact ⟨k, hlt, by rw [← he.path k hlt]; exact hp, by rw [← he.word k hlt]; exact hw, hne⟩
    · exact absurd (hw.symm.trans (hnew k hge hk)) hne
  · rintro ⟨k, hk, hp, hw, hne⟩
    exact ⟨k, by omega, by rw [he.path k hk]; exact hp, by rw [he.word k hk]; exact hw, hne⟩

theorem insertWord_unfold [Build] (t : Trie) {w : Word} (hne : w ≠ []) (hlow : ∀ l, w.head? = some l → isLowSurrogate l = false)
    (id : WordID) {x : M (Trie × Nat)} (hx : t.insertLoop t.root w = x) : t.insertWord w id = (do
      let (t1, node) ← x
      let w ← t1.rd32 node
      if w = INVALID_WORDID then
        let t2 ← t1.wr node (bytes32 id)
        let n ← t2.rd32 8
        let t3 ← t2.wr 8 (bytes32 (n + 1))
        let w' ← t3.rd32 node
        cassert (decide (w' = id % 2^32))
        .ok (t3, node)
      else
        cassert (decide (w = id % 2^32))
        .ok (t1, node)) := by
  obtain ⟨l, r, rfl⟩ := List.exists_cons_of_ne_nil hne
  have e0 : Word.at (l :: r) 0 = .ok l := rfl
  have hsur : (isSurrogate l && !isHighSurrogate l) = false := by
    have := hlow l rfl
    simp [isSurrogate, this]
  unfold Trie.insertWord
  rw [e0]
  simp only [ok_bind, hsur, hx]
  rfl

/-- Inserting a word whose first NUL letter is its last: the letters before it get nodes, and the identifier is compared
with the size of the file. -/
theorem insertWord_nul_end [Build] (h : TInv t g) {u : List Letter} (hu : ∀ l ∈ u, l ≠ 0#16)
    (hlow : ∀ l, u.head? = some l → isLowSurrogate l = false) {id : Nat} (hid : id < 2^32) :
    (t.insertWord (u ++ [0#16]) id = .error .runtimeError ∧ Trie.Refusal t (4 + 32 * (g.n + u.length))) ∨
    ∃ t' g', t.insertWord (u ++ [0#16]) id = (cassert (decide (t'.mapped = id)) >>= fun _ => .ok (t', 0)) ∧ TInv t' g' ∧
      g.Ext g' ∧ (∀ j, g.n ≤ j → j < g'.n → g'.word j = INVALID_WORDID) ∧ g'.n ≤ g.n + u.length ∧ t'.os = t.os ∧
      t.mapped ≤ t'.mapped := by
  have hl' : ∀ l, (u ++ [0#16]).head? = some l → isLowSurrogate l = false := by
    intro l hl
    cases u with
    | nil => injection hl with hl; subst hl; decide
    | cons a u => exact hlow l hl
  have e0 : t.insertLoop t.root (u ++ [0#16]) = (t.insertLoop (addr 0) u >>= fun x => x.1.insertLoop x.2 [0#16]) := by
    rw [h.root, insertLoop_append]; rfl
  rw [insertWord_unfold t (by simp) hl' id e0]
  rcases insertLoop_spec u hu t g 0 h h.pos with ⟨e, hr⟩ | ⟨t1, g1, k, e, h1, hext, hk, _, hos, hm, hn, hnew⟩
  · left; rw [e]; exact ⟨rfl, hr⟩
  · right
    refine ⟨t1, g1, ?_, h1, hext, fun j a b => (hnew j a b).1, hn, hos, hm⟩
    have hb := h1.bound
    rw [e]
    simp only [ok_bind]
    rw [insertLoop_nul h1 hk, Trie.insertLoop]
    simp only [ok_bind]
    rw [Trie.rd32_ok (by omega)]
    simp only [ok_bind]
    rw [h1.hdr.total, if_neg (by show ¬ t1.mapped = 4294967295; omega), Nat.mod_eq_of_lt hid]

/-- Inserting a word with more letters after its first NUL letter. -/
theorem insertWord_nul_inside [Build] (h : TInv t g) (h0 : g.word 0 = INVALID_WORDID) {u : List Letter}
    (hu : ∀ l ∈ u, l ≠ 0#16) (hlow : ∀ l, u.head? = some l → isLowSurrogate l = false) {l : Letter}
    (hl : l ≠ BitVec.ofNat 16 g.count) (r : List Letter) (id : Nat) :
    (t.insertWord (u ++ 0#16 :: l :: r) id = .error .runtimeError ∧ Trie.Refusal t (4 + 32 * (g.n + u.length))) ∨
    t.insertWord (u ++ 0#16 :: l :: r) id = .error .ub := by
  have hl' : ∀ x, (u ++ 0#16 :: l :: r).head? = some x → isLowSurrogate x = false := by
    intro x hx
    cases u with
    | nil => injection hx with hx; subst hx; decide
    | cons a u => exact hlow x hx
  have e0 : t.insertLoop t.root (u ++ 0#16 :: l :: r) =
      (t.insertLoop (addr 0) u >>= fun x => x.1.insertLoop x.2 (0#16 :: l :: r)) := by
    rw [h.root, insertLoop_append]; rfl
  rw [insertWord_unfold t (by simp) hl' id e0]
  rcases insertLoop_spec u hu t g 0 h h.pos with ⟨e, hr⟩ | ⟨t1, g1, k, e, h1, hext, hk, _, hos, hm, hn, hnew⟩
  · left; rw [e]; exact ⟨rfl, hr⟩
  · right
    have hc := hext.count (fun j a b => (hnew j a b).1)
    rw [e]
    simp only [ok_bind]
    rw [insertLoop_nul h1 hk, insertLoop_header h1 (by rw [hext.word 0 h.pos]; exact h0) (by rw [hc]; exact hl)]
    rfl

/-! ### The store -/

theorem cassert_release [Build] (hb : Build.asserts = false) (c : Bool) : cassert c = .ok () := by simp [cassert, hb]

theorem SInv.count {s : WordStore} {g : Ghost} {ws : List Word} (h : SInv s g ws) : g.count = ws.length := by
  have hp : (((List.range g.n).filter fun k => g.word k != INVALID_WORDID).map g.word).Perm (List.range ws.length) := by
    rw [List.perm_ext_iff_of_nodup _ List.nodup_range]
    · intro i
      rw [List.mem_map, List.mem_range]
      constructor
      · rintro ⟨k, hk, rfl⟩
        rw [List.mem_filter, List.mem_range, bne_iff_ne] at hk
        exact (List.getElem?_eq_some_iff.1 (h.back k hk.1 hk.2)).1
      · intro hi
        obtain ⟨k, hk, _, hw, hne⟩ := (h.has ws[i] i).2 (List.getElem?_eq_getElem hi)
        exact ⟨k, by rw [List.mem_filter, List.mem_range, bne_iff_ne, hw]; exact ⟨hk, hne⟩, hw⟩
    · apply List.Nodup.map_on _ (List.nodup_range.filter _)
      intro a ha b hb hab
      rw [List.mem_filter, List.mem_range, bne_iff_ne] at ha hb
      have h1 := h.back a ha.1 ha.2
      have h2 := h.back b hb.1 hb.2
      rw [hab, h2, Option.some.injEq] at h1
      exact h.trie.path_inj a b ha.1 hb.1 h1.symm
  have := hp.length_eq
  rw [List.length_map, List.length_range, ← List.countP_eq_length_filter] at this
  exact this

theorem SInv.word0 {s : WordStore} {g : Ghost} {ws : List Word} (h : SInv s g ws) (hne : [] ∉ ws) :
    g.word 0 = INVALID_WORDID := by
  by_contra hc
  have := h.back 0 h.trie.pos hc
  rw [h.trie.path0] at this
  exact hne (List.mem_of_getElem? this)

theorem TInv.path_ne_zero (h : TInv t g) : ∀ {k : Nat}, k < g.n → 0#16 ∉ g.path k := by
  intro k
  induction k using Nat.strongRecOn with
  | _ k ih =>
    intro hk
    rcases Nat.eq_zero_or_pos k with rfl | h1
    · rw [h.path0]; simp
    · have hlt := h.par_lt k h1 hk
      rw [h.path_eq k h1 hk, List.mem_append, List.mem_singleton]
      rintro (hc | hc)
      · exact ih _ hlt (by omega) hc
      · exact h.letter_ne k h1 hk hc.symm

/-- The paths are the prefixes of the words. -/
theorem SInv.path_iff {s : WordStore} {g : Ghost} {ws : List Word} (h : SInv s g ws) (u : Word) :
    (∃ j, j < g.n ∧ g.path j = u) ↔ u = [] ∨ ∃ w ∈ ws, u <+: w := by
  constructor
  · rintro ⟨j, hj, rfl⟩
    rcases Nat.eq_zero_or_pos j with rfl | h1
    · left; exact h.trie.path0
    · right; exact h.pre j h1 hj
  · rintro (rfl | ⟨w, hw, hp⟩)
    · exact ⟨0, h.trie.pos, h.trie.path0⟩
    · obtain ⟨i, hi⟩ := List.mem_iff_getElem?.1 hw
      obtain ⟨k, hk, rfl, _⟩ := h.node i w hi
      obtain ⟨j, hj, e⟩ := h.trie.prefix_path k hk u hp
      exact ⟨j, by omega, e⟩

open Spec in
/-- The store has these entries. -/
structure NInv (s : WordStore) (g : Ghost) (es : Entries) : Prop where
  trie : TInv s.words g
  len : s.wordIndex.length = es.length
  has : ∀ w i, g.Has w i ↔ es[i]? = some (some w)
  idx : ∀ (i : Nat) w, es[i]? = some (some w) → ∃ k, k < g.n ∧ g.path k = w ∧ s.wordIndex[i]? = some (addr k)
  nul : ∀ i : Nat, es[i]? = some none → s.wordIndex[i]? = some 0

namespace NInv
open Spec
variable {s : WordStore} {es : Entries}

theorem hasWord (h : NInv s g es) {w : Word} (hw : ∀ l ∈ w, l ≠ 0#16) : s.words.hasWord w = .ok (decide (some w ∈ es)) := by
  obtain ⟨b, e, hb⟩ := hasWord_spec h.trie w hw
  rw [e]
  congr 1
  rw [Bool.eq_iff_iff, hb, decide_eq_true_eq, List.mem_iff_getElem?]
  exact exists_congr fun i => h.has w i

theorem unique (h : NInv s g es) {w : Word} {i j : Nat} (hi : es[i]? = some (some w)) (hj : es[j]? = some (some w)) : i = j :=
  Ghost.Has.inj h.trie ((h.has w i).2 hi) ((h.has w j).2 hj)

theorem getID_old [Build] (h : NInv s g es) {w : Word} (hw : ∀ l ∈ w, l ≠ 0#16) (hm : some w ∈ es) :
    s.getID w = .ok (s, List.idxOf (some w) es) := by
  have hlt : List.idxOf (some w) es < es.length := List.idxOf_lt_length_iff.2 hm
  have hh : g.Has w (List.idxOf (some w) es) := by
    rw [h.has, List.getElem?_eq_getElem hlt, List.getElem_idxOf hlt]
  obtain ⟨a, e1, _, e2⟩ := findWord_has h.trie w hw hh
  rw [WordStore.getID, h.hasWord hw, decide_eq_true hm]
  simp only [ok_bind, if_true, e1, e2]

theorem getID_new [Build] (h : NInv s g es) (hl : es.length < INVALID_WORDID) {w : Word} (hw : Storable w) (hnew : some w ∉ es) :
    (s.getID w = .error .runtimeError ∧ Trie.Refusal s.words (4 + 32 * (g.n + w.length))) ∨
    ∃ s' g', s.getID w = .ok (s', es.length) ∧ NInv s' g' (es ++ [some w]) ∧ g'.n ≤ g.n + w.length ∧
      s'.words.os = s.words.os ∧ s.words.mapped ≤ s'.words.mapped := by
  have hnot : ∀ i, ¬ g.Has w i := fun i hi => hnew (List.mem_of_getElem? ((h.has w i).1 hi))
  have hlt : es.length < 2^32 := Nat.lt_trans hl (by decide)
  have hmod : s.wordIndex.length % 2^32 = es.length := by rw [h.len]; exact Nat.mod_eq_of_lt hlt
  rw [WordStore.getID, h.hasWord hw.2.1, decide_eq_false hnew]
  simp only [ok_bind, Bool.false_eq_true, if_false, hmod]
  rcases insertWord_spec h.trie hw hl (fun i hi => absurd hi (hnot i)) with ⟨e, hr⟩ | ⟨t', g', k, e, h', hins, hos, hm⟩
  · left; rw [e]; exact ⟨rfl, hr⟩
  · right
    rw [e]
    simp only [ok_bind]
    refine ⟨⟨t', s.wordIndex ++ [addr k]⟩, g', ?_, ?_, hins.n_le', hos, hm⟩
    · congr 2
      simp only [List.length_append, List.length_singleton, Nat.add_sub_cancel]
      exact hmod
    · have hle := hins.n_le
      refine ⟨h', by simp [h.len], ?_, ?_, ?_⟩
      · intro v i
        rw [hins.has h' (Nat.ne_of_lt hl), h.has]
        rcases Nat.lt_trichotomy i es.length with hi | rfl | hi
        · rw [List.getElem?_append_left hi]
          constructor
          · rintro (⟨_, rfl⟩ | ⟨_, h2⟩)
            · omega
            · exact h2
          · intro h2
            right
            exact ⟨fun hv => hnew (hv ▸ List.mem_of_getElem? h2), h2⟩
        · rw [List.getElem?_append_right (Nat.le_refl _), Nat.sub_self]
          simp only [List.getElem?_cons_zero, Option.some.injEq, List.getElem?_eq_none (Nat.le_refl _), reduceCtorEq, and_false,
            or_false, and_true]
          exact eq_comm
        · rw [List.getElem?_eq_none (by omega), List.getElem?_eq_none (by simp; omega)]
          simp only [reduceCtorEq, and_false, or_false, iff_false]
          omega
      · intro i v hi
        rcases Nat.lt_or_ge i es.length with hlt | hge
        · rw [List.getElem?_append_left hlt] at hi
          obtain ⟨j, hj, hp, hx⟩ := h.idx i v hi
          exact ⟨j, by omega, by rw [hins.path j hj]; exact hp, by rw [List.getElem?_append_left (by rw [h.len]; exact hlt)]; exact hx⟩
        · rw [List.getElem?_append_right hge] at hi
          have hi0 : i - es.length = 0 := by
            have := List.getElem?_eq_some_iff.1 hi
            simpa using this.1
          rw [hi0] at hi
          simp only [List.getElem?_cons_zero, Option.some.injEq] at hi
          subst hi
          exact ⟨k, hins.lt, hins.path_k, by rw [List.getElem?_append_right (by rw [h.len]; exact hge), h.len, hi0]; rfl⟩
      · intro i hi
        rcases Nat.lt_or_ge i es.length with hlt | hge
        · rw [List.getElem?_append_left hlt] at hi
          rw [List.getElem?_append_left (by rw [h.len]; exact hlt)]
          exact h.nul i hi
        · rw [List.getElem?_append_right hge] at hi
          have hi0 : i - es.length = 0 := by
            have := List.getElem?_eq_some_iff.1 hi
            simpa using this.1
          rw [hi0] at hi
          cases hi

theorem getID_nul [Build] (hb : Build.asserts = false) (h : NInv s g es) (hl : es.length < INVALID_WORDID) {u : List Letter}
    (hu : ∀ l ∈ u, l ≠ 0#16) (hlow : ∀ l, u.head? = some l → isLowSurrogate l = false) :
    (s.getID (u ++ [0#16]) = .error .runtimeError ∧ Trie.Refusal s.words (4 + 32 * (g.n + u.length))) ∨
    ∃ s' g', s.getID (u ++ [0#16]) = .ok (s', es.length) ∧ NInv s' g' (es ++ [none]) ∧ g'.n ≤ g.n + u.length ∧
      s'.words.os = s.words.os ∧ s.words.mapped ≤ s'.words.mapped := by
  have hlt : es.length < 2^32 := Nat.lt_trans hl (by decide)
  have hmod : s.wordIndex.length % 2^32 = es.length := by rw [h.len]; exact Nat.mod_eq_of_lt hlt
  rw [WordStore.getID, hasWord_nul_end h.trie hu]
  simp only [ok_bind, Bool.false_eq_true, if_false, hmod]
  rcases insertWord_nul_end h.trie hu hlow hlt with ⟨e, hr⟩ | ⟨t', g', e, h', hext, hnew, hn, hos, hm⟩
  · left; rw [e]; exact ⟨rfl, hr⟩
  · right
    rw [e, cassert_release hb]
    simp only [ok_bind]
    refine ⟨⟨t', s.wordIndex ++ [0]⟩, g', ?_, ?_, hn, hos, hm⟩
    · congr 2
      simp only [List.length_append, List.length_singleton, Nat.add_sub_cancel]
      exact hmod
    · have hle := hext.n_le
      have hsplit : ∀ (i : Nat) (x : Option Word), (es ++ [none])[i]? = some x → (i < es.length ∧ es[i]? = some x) ∨
          (i = es.length ∧ x = none) := by
        intro i x hi
        rcases Nat.lt_or_ge i es.length with hlt | hge
        · rw [List.getElem?_append_left hlt] at hi; exact Or.inl ⟨hlt, hi⟩
        · rw [List.getElem?_append_right hge] at hi
          have hi0 : i - es.length = 0 := by
            have := List.getElem?_eq_some_iff.1 hi
            simpa using this.1
          rw [hi0] at hi
          simp only [List.getElem?_cons_zero, Option.some.injEq] at hi
          exact Or.inr ⟨by omega, hi.symm⟩
      refine ⟨h', by simp [h.len], ?_, ?_, ?_⟩
      · intro v i
        rw [hext.has hnew, h.has]
        constructor
        · intro hi
          rw [List.getElem?_append_left (List.getElem?_eq_some_iff.1 hi).1]; exact hi
        · intro hi
          rcases hsplit i _ hi with ⟨_, h2⟩ | ⟨_, h2⟩
          · exact h2
          · cases h2
      · intro i v hi
        rcases hsplit i _ hi with ⟨h1, h2⟩ | ⟨_, h2⟩
        · obtain ⟨j, hj, hp, hx⟩ := h.idx i v h2
          exact ⟨j, by omega, by rw [hext.path j hj]; exact hp, by rw [List.getElem?_append_left (by rw [h.len]; exact h1)]; exact hx⟩
        · cases h2
      · intro i hi
        rcases hsplit i _ hi with ⟨h1, h2⟩ | ⟨h1, _⟩
        · rw [List.getElem?_append_left (by rw [h.len]; exact h1)]; exact h.nul i h2
        · rw [h1, ← h.len, List.getElem?_append_right (Nat.le_refl _), Nat.sub_self]; rfl

theorem getWord [Build] (h : NInv s g es) {i : Nat} {w : Word} (hi : es[i]? = some (some w)) (hr : Readable w) :
    s.getWord i = .ok w := by
  obtain ⟨k, hk, hp, hx⟩ := h.idx i w hi
  have hlt : i < s.wordIndex.length := by rw [List.getElem?_eq_some_iff] at hx; exact hx.1
  rw [WordStore.getWord, WordStore.hasWordID]
  simp only [hlt, decide_true, Bool.true_eq_false, if_false, hx]
  subst hp
  exact getWord_spec h.trie hk hr

theorem getWord_nul [Build] (h : NInv s g es) {i : Nat} (hi : es[i]? = some none) : s.getWord i = .ok [] := by
  have hx := h.nul i hi
  have hlt : i < s.wordIndex.length := by rw [List.getElem?_eq_some_iff] at hx; exact hx.1
  rw [WordStore.getWord, WordStore.hasWordID]
  simp only [hlt, decide_true, Bool.true_eq_false, if_false, hx]
  rfl

theorem of_new {os : Nat → Bool} [Build] :
    (os 1024 = false ∧ WordStore.new os = .error .runtimeError) ∨
    ∃ s, WordStore.new os = .ok s ∧ NInv s Ghost.init [] ∧ s.words.os = os ∧ 1024 ≤ s.words.mapped := by
  rcases SInv.new os with h | ⟨s, e, h, h1, h2⟩
  · exact Or.inl h
  · exact Or.inr ⟨s, e, ⟨h.trie, h.len, fun w i => by simp [init_has], by simp, by simp⟩, h1, h2⟩

end NInv

end Columbus
