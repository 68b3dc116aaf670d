import Verif.Proofs.Trie
import Verif.Proofs.Word
/-
Insertion into the trie and reading words back.
-/

namespace Columbus
open Spec

/-- `g'` extends `g` with further nodes. -/
structure Ghost.Ext (g g' : Ghost) : Prop where
  n_le : g.n ≤ g'.n
  par : ∀ k, k < g.n → g'.par k = g.par k
  letter : ∀ k, k < g.n → g'.letter k = g.letter k
  path : ∀ k, k < g.n → g'.path k = g.path k
  word : ∀ k, k < g.n → g'.word k = g.word k

theorem Ghost.Ext.refl (g : Ghost) : g.Ext g := ⟨Nat.le_refl _, fun _ _ => rfl, fun _ _ => rfl, fun _ _ => rfl, fun _ _ => rfl⟩

theorem Ghost.Ext.trans {a b c : Ghost} (h1 : a.Ext b) (h2 : b.Ext c) : a.Ext c := by
  have := h1.n_le
  have := h2.n_le
  refine ⟨by omega, ?_, ?_, ?_, ?_⟩
  · intro k hk; rw [h2.par k (by omega), h1.par k hk]
  · intro k hk; rw [h2.letter k (by omega), h1.letter k hk]
  · intro k hk; rw [h2.path k (by omega), h1.path k hk]
  · intro k hk; rw [h2.word k (by omega), h1.word k hk]

theorem Ghost.Ext.add (g : Ghost) (p : Nat) (l : Letter) : g.Ext (g.add p l) := by
  refine ⟨Nat.le_succ _, ?_, ?_, ?_, ?_⟩ <;> intro k hk <;> exact if_neg (by omega)

/-- The outer loop of the insertion. -/
theorem insertLoop_spec [Build] (w : List Letter) (hw : ∀ l ∈ w, l ≠ 0#16) :
    ∀ (t : Trie) (g : Ghost) (k : Nat), TInv t g → k < g.n →
    (t.insertLoop (addr k) w = .error .runtimeError ∧ Trie.Refusal t (4 + 32 * (g.n + w.length))) ∨
    ∃ t' g' k', t.insertLoop (addr k) w = .ok (t', addr k') ∧ TInv t' g' ∧ g.Ext g' ∧ k' < g'.n ∧
      g'.path k' = g.path k ++ w ∧ t'.os = t.os ∧ t.mapped ≤ t'.mapped ∧ g'.n ≤ g.n + w.length ∧
      (∀ j, g.n ≤ j → j < g'.n → g'.word j = INVALID_WORDID ∧ ∃ r, r ≠ [] ∧ r <+: w ∧ g'.path j = g.path k ++ r) := by
  induction w with
  | nil =>
    intro t g k h hk
    right
    exact ⟨t, g, k, rfl, h, .refl g, hk, by simp, rfl, Nat.le_refl _, by simp, fun j h1 h2 => by omega⟩
  | cons l w ih =>
    intro t g k h hk
    have ihw := ih (fun x hx => hw x (by simp [hx]))
    rcases walk_node h hk (hw l (by simp)) with ⟨j, hj, hp, e1, e2, e3⟩ | ⟨hno, j, c, hcell, hlast, e1, e2, hc⟩
    · have e : t.insertLoop (addr k) (l :: w) = t.insertLoop (addr j) w := by
        rw [Trie.insertLoop, e1]
        simp only [ok_bind]
        rw [e2]
        simp only [ok_bind, if_true]
        rw [e3]; rfl
      rw [e]
      rcases ihw t g j h hj with ⟨e, hr⟩ | ⟨t', g', k', e, h', hext, hk', hp', hos, hm, hn, hnew⟩
      · left; exact ⟨e, hr.mono rfl (Nat.le_refl _) (by simp only [List.length_cons]; omega)⟩
      · right
        refine ⟨t', g', k', e, h', hext, hk', by rw [hp', hp]; simp, hos, hm, by simp only [List.length_cons]; omega, ?_⟩
        intro i h1 h2
        obtain ⟨hw', r, hr, hrw, hpr⟩ := hnew i h1 h2
        exact ⟨hw', l :: r, by simp, List.cons_prefix_cons.2 ⟨rfl, hrw⟩, by rw [hpr, hp]; simp⟩
    · have e : t.insertLoop (addr k) (l :: w) = (t.addNewSibling (addr k) (cell k j) l >>= fun x => x.1.insertLoop x.2 w) := by
        rw [Trie.insertLoop, e1]
        simp only [ok_bind]
        rw [e2]
        simp only [ok_bind]
        rw [if_neg hc]
      rw [e]
      rcases addNewSibling_inv h hk hcell hlast (hw l (by simp)) hno with ⟨e, hr⟩ | ⟨t1, e1, h1, hos1, hm1⟩
      · left; rw [e]; exact ⟨rfl, hr.mono rfl (Nat.le_refl _) (by simp only [List.length_cons]; omega)⟩
      · rw [e1]
        simp only [ok_bind]
        have hext1 := Ghost.Ext.add g k l
        have hn1 : (g.add k l).n = g.n + 1 := rfl
        have hp1 : (g.add k l).path g.n = g.path k ++ [l] := if_pos rfl
        have hw1 : (g.add k l).word g.n = INVALID_WORDID := if_pos rfl
        rcases ihw t1 (g.add k l) g.n h1 (by omega) with ⟨e, hr⟩ | ⟨t', g', k', e, h', hext, hk', hp', hos, hm, hn, hnew⟩
        · left; exact ⟨e, hr.mono hos1 hm1 (by simp only [List.length_cons]; omega)⟩
        · right
          refine ⟨t', g', k', e, h', hext1.trans hext, hk', by rw [hp', hp1]; simp, hos.trans hos1, Nat.le_trans hm1 hm,
            by simp only [List.length_cons]; omega, ?_⟩
          intro i hi1 hi2
          rcases Nat.eq_or_lt_of_le hi1 with rfl | hi1
          · have hlt : g.n < (g.add k l).n := by omega
            refine ⟨by rw [hext.word _ hlt, hw1], [l], by simp, ⟨w, rfl⟩, by rw [hext.path _ hlt, hp1]⟩
          · obtain ⟨hw', r, hr, hrw, hpr⟩ := hnew i (by omega) hi2
            exact ⟨hw', l :: r, by simp, List.cons_prefix_cons.2 ⟨rfl, hrw⟩, by rw [hpr, hp1]; simp⟩

/-! ### Storing the identifier -/

theorem countP_update (f f' : Nat → Bool) (k : Nat) (hk : f k = false) (hk' : f' k = true) (ho : ∀ i, i ≠ k → f' i = f i) :
    ∀ n, (List.range n).countP f' = (List.range n).countP f + if k < n then 1 else 0 := by
  intro n
  induction n with
  | zero => rfl
  | succ n ih =>
    rw [List.range_succ, List.countP_append, List.countP_append, ih]
    by_cases h : n = k
    · subst h
      rw [if_neg (by omega), if_pos (by omega)]
      simp [hk, hk']
    · simp only [List.countP_singleton, ho n h]
      by_cases hkn : k < n
      · have : k < n + 1 := by omega
        simp only [hkn, this, if_true]; omega
      · have : ¬ k < n + 1 := by omega
        simp only [hkn, this, if_false]; omega

theorem Ghost.count_le (g : Ghost) : g.count ≤ g.n := by
  unfold Ghost.count
  have := List.countP_le_length (l := List.range g.n) (p := fun k => g.word k != INVALID_WORDID)
  simpa using this

/-- Writing the word identifier and the counter. -/
theorem setWord_inv {t : Trie} {g : Ghost} (h : TInv t g) {k id : Nat} (hk : k < g.n)
    (hw : g.word k = INVALID_WORDID) (hid : id < INVALID_WORDID) :
    TInv { t with mem := (t.mem.put (addr k) (bytes32 id)).put 8 (bytes32 (g.count + 1)) } (g.setWord k id) := by
  have hm := h.bound
  have hcnt := g.count_le
  have hak := addr_cases k
  have hid' : id < 2^32 := Nat.lt_trans hid (by decide)
  have keep : ∀ x, ¬ (addr k ≤ x ∧ x < addr k + 4) → ¬ (8 ≤ x ∧ x < 12) →
      ((t.mem.put (addr k) (bytes32 id)).put 8 (bytes32 (g.count + 1))) x = t.mem x := by
    intro x h1 h2
    rw [Mem.put_out (by simp; omega), Mem.put_out (by simp; omega)]
  have keep32 : ∀ a, (a + 4 ≤ addr k ∨ addr k + 4 ≤ a) → (a + 4 ≤ 8 ∨ 12 ≤ a) →
      ((t.mem.put (addr k) (bytes32 id)).put 8 (bytes32 (g.count + 1))).get32 a = t.mem.get32 a := by
    intro a h1 h2
    apply Mem.get32_congr
    intro x h3 h4; exact keep x (by omega) (by omega)
  have keep16 : ∀ a, (a + 2 ≤ addr k ∨ addr k + 4 ≤ a) → (a + 2 ≤ 8 ∨ 12 ≤ a) →
      ((t.mem.put (addr k) (bytes32 id)).put 8 (bytes32 (g.count + 1))).get16 a = t.mem.get16 a := by
    intro a h1 h2
    apply Mem.get16_congr
    intro x h3 h4; exact keep x (by omega) (by omega)
  have hsn : (g.setWord k id).n = g.n := rfl
  constructor
  · refine ⟨h.hdr.size, ?_, ?_, h.hdr.lt, h.hdr.ge⟩
    · show ((t.mem.put (addr k) (bytes32 id)).put 8 (bytes32 (g.count + 1))).get32 0 = _
      rw [keep32 0 (by omega) (by omega)]; exact h.hdr.total
    · show ((t.mem.put (addr k) (bytes32 id)).put 8 (bytes32 (g.count + 1))).get32 4 = _
      rw [keep32 4 (by omega) (by omega)]; exact h.hdr.free_eq
  · exact snug_put (t := { t with mem := t.mem.put (addr k) (bytes32 id) }) (by omega)
      (snug_put (by omega) h.snug)
  · exact h.root
  · exact h.pos
  · show ((t.mem.put (addr k) (bytes32 id)).put 8 (bytes32 (g.count + 1))).get32 12 = _
    rw [keep32 12 (by omega) (by omega)]; exact h.mnodes
  · show ((t.mem.put (addr k) (bytes32 id)).put 8 (bytes32 (g.count + 1))).get32 8 = _
    rw [Mem.get32_put (by omega)]
    unfold Ghost.count
    have e := countP_update (fun i => g.word i != INVALID_WORDID) (fun i => (g.setWord k id).word i != INVALID_WORDID) k
      (by simp [hw]) (by simp only [Ghost.setWord, if_true, bne_iff_ne, ne_eq]; omega)
      (by intro i hi; simp only [Ghost.setWord, if_neg hi]) g.n
    rw [if_pos hk] at e
    exact e.symm
  · exact h.path0
  · exact h.par_lt
  · exact h.letter_ne
  · exact h.path_eq
  · exact h.path_inj
  · intro i hi
    simp only [Ghost.setWord]
    split
    · exact hid'
    · exact h.word_lt i hi
  · intro i hi
    simp only [Ghost.setWord]
    by_cases hik : i = k
    · subst hik
      rw [if_pos rfl]
      have e : ((t.mem.put (addr i) (bytes32 id)).put 8 (bytes32 (g.count + 1))).get32 (addr i) =
          (t.mem.put (addr i) (bytes32 id)).get32 (addr i) := by
        apply Mem.get32_congr
        intro x h1 h2; exact Mem.put_out (by simp; omega)
      rw [e, Mem.get32_put hid']
    · have := addr_cases i
      rw [if_neg hik, keep32 _ (by omega) (by omega)]; exact h.mword i hi
  · show ((t.mem.put (addr k) (bytes32 id)).put 8 (bytes32 (g.count + 1))).get32 20 = _
    rw [keep32 _ (by omega) (by omega)]; exact h.mpar0
  · intro i h1 h2
    have := addr_cases i
    show ((t.mem.put (addr k) (bytes32 id)).put 8 (bytes32 (g.count + 1))).get32 _ = _
    rw [keep32 _ (by omega) (by omega)]; exact h.mpar i h1 h2
  · intro i h2
    have := addr_cases i
    show ((t.mem.put (addr k) (bytes32 id)).put 8 (bytes32 (g.count + 1))).get16 _ = _
    rw [keep16 _ (by omega) (by omega)]; exact h.mdummy i h2
  · intro i h2
    have := addr_cases i
    show ((t.mem.put (addr k) (bytes32 id)).put 8 (bytes32 (g.count + 1))).get32 _ = _
    rw [keep32 _ (by omega) (by omega)]; exact h.mdchild i h2
  · intro i h1 h2
    have := addr_cases i
    show ((t.mem.put (addr k) (bytes32 id)).put 8 (bytes32 (g.count + 1))).get16 _ = _
    rw [keep16 _ (by omega) (by omega)]; exact h.mletter i h1 h2
  · intro i h1 h2
    have := addr_cases i
    show ((t.mem.put (addr k) (bytes32 id)).put 8 (bytes32 (g.count + 1))).get32 _ = _
    rw [keep32 _ (by omega) (by omega)]; exact h.mchild i h1 h2
  · intro p i hp hc
    obtain ⟨j, hj, e⟩ := h.mlink p i hp hc
    refine ⟨j, hj, ?_⟩
    have := addr_cases i
    have := addr_cases p
    have := cell_cases p i
    show ((t.mem.put (addr k) (bytes32 id)).put 8 (bytes32 (g.count + 1))).get32 _ = _
    rw [keep32 _ (by omega) (by omega)]; exact e

/-- The word may be stored in a trie: no NUL letters, not starting with a low surrogate. -/
def Storable (w : Word) : Prop := w ≠ [] ∧ (∀ l ∈ w, l ≠ 0#16) ∧ ∀ l, w.head? = some l → isLowSurrogate l = false

/-- How an insertion changes the ghost state. -/
structure Inserted (g g' : Ghost) (w : Word) (id : Nat) (k : Nat) : Prop where
  n_le : g.n ≤ g'.n
  n_le' : g'.n ≤ g.n + w.length
  par : ∀ j, j < g.n → g'.par j = g.par j
  letter : ∀ j, j < g.n → g'.letter j = g.letter j
  path : ∀ j, j < g.n → g'.path j = g.path j
  word : ∀ j, j < g.n → j ≠ k → g'.word j = g.word j
  lt : k < g'.n
  path_k : g'.path k = w
  word_k : g'.word k = id
  new : ∀ j, g.n ≤ j → j < g'.n → (j ≠ k → g'.word j = INVALID_WORDID) ∧ ∃ r, r ≠ [] ∧ r <+: w ∧ g'.path j = r

theorem insertWord_spec [Build] {t : Trie} {g : Ghost} (h : TInv t g) {w : Word} (hw : Storable w) {id : Nat}
    (hid : id < INVALID_WORDID) (hsame : ∀ i, g.Has w i → i = id) :
    (t.insertWord w id = .error .runtimeError ∧ Trie.Refusal t (4 + 32 * (g.n + w.length))) ∨
    ∃ t' g' k, t.insertWord w id = .ok (t', addr k) ∧ TInv t' g' ∧ Inserted g g' w id k ∧ t'.os = t.os ∧
      t.mapped ≤ t'.mapped := by
  obtain ⟨hne, hnz, hlow⟩ := hw
  obtain ⟨l, r, rfl⟩ := List.exists_cons_of_ne_nil hne
  have e0 : Word.at (l :: r) 0 = .ok l := rfl
  have hsur : (isSurrogate l && !isHighSurrogate l) = false := by
    have := hlow l rfl
    simp [isSurrogate, this]
  have hid' : id < 2^32 := Nat.lt_trans hid (by decide)
  rcases insertLoop_spec (l :: r) hnz t g 0 h h.pos with ⟨e, hr⟩ | ⟨t1, g1, k, e, h1, hext, hk, hp, hos, hm, hn, hnew⟩
  · left
    unfold Trie.insertWord
    rw [e0]
    simp only [ok_bind, hsur, h.root]
    rw [show (16 : Nat) = addr 0 from rfl, e]
    exact ⟨rfl, hr⟩
  · right
    rw [h.path0, List.nil_append] at hp
    have hb := h1.bound
    have hak := addr_cases k
    have hcnt := g1.count_le
    have hunf : t.insertWord (l :: r) id = (do
        let w ← t1.rd32 (addr k)
        if w = INVALID_WORDID then
          let t2 ← t1.wr (addr k) (bytes32 id)
          let n ← t2.rd32 8
          let t3 ← t2.wr 8 (bytes32 (n + 1))
          let w' ← t3.rd32 (addr k)
          cassert (decide (w' = id % 2^32))
          .ok (t3, addr k)
        else
          cassert (decide (w = id % 2^32))
          .ok (t1, addr k)) := by
      unfold Trie.insertWord
      rw [e0]
      simp only [ok_bind, hsur, h.root]
      rw [show (16 : Nat) = addr 0 from rfl, e]
      rfl
    rw [hunf, rd_word h1 hk]
    simp only [ok_bind]
    by_cases hwk : g1.word k = INVALID_WORDID
    · rw [if_pos hwk, Trie.wr_ok (by simp; omega)]
      simp only [ok_bind]
      rw [Trie.rd32_ok (by simp; omega)]
      simp only [ok_bind]
      have ecount : (t1.mem.put (addr k) (bytes32 id)).get32 8 = g1.count := by
        rw [← h1.mcount]
        apply Mem.get32_congr
        intro x hx1 hx2; exact Mem.put_out (by simp; omega)
      rw [ecount, Trie.wr_ok (by simp; omega)]
      simp only [ok_bind]
      have hinv := setWord_inv h1 hk hwk hid
      have hrd := rd_word hinv (k := k) hk
      rw [hrd]
      simp only [ok_bind]
      rw [cassert_ok (by simp [Ghost.setWord]; omega)]
      refine ⟨_, g1.setWord k id, k, rfl, hinv, ?_, hos, hm⟩
      refine ⟨hext.n_le, hn, hext.par, hext.letter, hext.path, ?_, hk, hp, if_pos rfl, ?_⟩
      · intro j hj hjk
        show (if j = k then id else g1.word j) = _
        rw [if_neg hjk]; exact hext.word j hj
      · intro j h1 h2
        obtain ⟨q1, r', q2, q3, q4⟩ := hnew j h1 h2
        rw [h.path0, List.nil_append] at q4
        refine ⟨?_, r', q2, q3, q4⟩
        intro hjk
        show (if j = k then id else g1.word j) = _
        rw [if_neg hjk]; exact q1
    · rw [if_neg hwk]
      have hkn : k < g.n := by
        rcases Nat.lt_or_ge k g.n with hkn | hkn
        · exact hkn
        · exact absurd (hnew k hkn hk).1 hwk
      have hid2 : g1.word k = id := by
        apply hsame
        refine ⟨k, hkn, by rw [← hext.path k hkn, hp], by rw [hext.word k hkn], hwk⟩
      rw [cassert_ok (by rw [hid2]; simp; omega)]
      refine ⟨t1, g1, k, rfl, h1, ?_, hos, hm⟩
      refine ⟨hext.n_le, hn, hext.par, hext.letter, hext.path, fun j hj _ => hext.word j hj, hk, hp, hid2, ?_⟩
      intro j h1 h2
      obtain ⟨q1, r', q2, q3, q4⟩ := hnew j h1 h2
      rw [h.path0, List.nil_append] at q4
      exact ⟨fun _ => q1, r', q2, q3, q4⟩

/-- The words stored after an insertion. -/
theorem Inserted.has {t' : Trie} {g g' : Ghost} {w : Word} {id k : Nat} (h' : TInv t' g')
    (hi : Inserted g g' w id k) (hid : id ≠ INVALID_WORDID) (v : Word) (i : Nat) :
    g'.Has v i ↔ (v = w ∧ i = id) ∨ (v ≠ w ∧ g.Has v i) := by
  constructor
  · rintro ⟨j, hj, hpj, hwj, hne⟩
    by_cases hjk : j = k
    · subst hjk
      left; exact ⟨hpj.symm.trans hi.path_k, hwj.symm.trans hi.word_k⟩
    · right
      have hvw : v ≠ w := by
        rintro rfl
        exact hjk (h'.path_inj j k hj hi.lt (hpj.trans hi.path_k.symm))
      refine ⟨hvw, ?_⟩
      rcases Nat.lt_or_ge j g.n with hjn | hjn
      · exact ⟨j, hjn, by rw [← hi.path j hjn]; exact hpj, by rw [← hi.word j hjn hjk]; exact hwj, hne⟩
      · have := (hi.new j hjn hj).1 hjk
        exact absurd (hwj.symm.trans this) hne
  · rintro (⟨rfl, rfl⟩ | ⟨hvw, j, hj, hpj, hwj, hne⟩)
    · exact ⟨k, hi.lt, hi.path_k, hi.word_k, hid⟩
    · have hle := hi.n_le
      have hjk : j ≠ k := by
        rintro rfl
        have := hi.path_k
        rw [hi.path j hj] at this
        exact hvw (hpj.symm.trans this)
      exact ⟨j, by omega, by rw [hi.path j hj]; exact hpj, by rw [hi.word j hj hjk]; exact hwj, hne⟩

/-! ### The empty trie -/

/-- Only the root. -/
def Ghost.init : Ghost := ⟨1, fun _ => 0, fun _ => 0#16, fun _ => [], fun _ => INVALID_WORDID⟩

theorem new_spec [Build] (os : Nat → Bool) :
    (os 1024 = false ∧ Trie.new os = .error .runtimeError) ∨
    ∃ t, Trie.new os = .ok t ∧ TInv t Ghost.init ∧ t.os = os ∧ 1024 ≤ t.mapped := by
  cases hos : os 1024 with
  | false => left; exact ⟨rfl, by simp [Trie.new, hos]⟩
  | true =>
    right
    unfold Trie.new
    rw [hos]
    simp only [Bool.true_eq_false, if_false]
    rw [Trie.wr_ok (by simp)]
    simp only [ok_bind]
    rw [Trie.rd32_ok (by simp), Trie.rd32_ok (by simp)]
    simp only [ok_bind]
    have e0 : (Mem.put (fun _ => 0) 0 (bytes32 1024)).get32 0 = 1024 := Mem.get32_put (by decide)
    have e4 : (Mem.put (fun _ => 0) 0 (bytes32 1024)).get32 4 = 0 := by decide
    rw [e0, e4, cassert_ok (by decide)]
    simp only [ok_bind]
    rw [Trie.wr_ok (by simp)]
    simp only [ok_bind]
    rw [Trie.rd32_ok (by simp)]
    simp only [ok_bind]
    have er : ((Mem.put (fun _ => 0) 0 (bytes32 1024)).put 4 (bytes32 sizeofHeader)).get32 4 = 16 :=
      Mem.get32_put (by decide)
    rw [er, Trie.wr_ok (by simp)]
    simp only [ok_bind]
    generalize hm : ((Mem.put (fun _ => 0) 0 (bytes32 1024)).put 4 (bytes32 sizeofHeader)).put 8 (bytes32 0) = m
    have hh : Trie.Hdr ⟨m, 1024, 16, os⟩ 16 := by
      refine ⟨⟨0, by omega, by simp⟩, ?_, ?_, by simp, by simp⟩
      · show m.get32 0 = 1024; rw [← hm]; decide
      · show m.get32 4 = 16; rw [← hm]; decide
    have h12 : m.get32 12 = 0 := by rw [← hm]; decide
    have h8 : m.get32 8 = 0 := by rw [← hm]; decide
    rcases Trie.addNewNode_spec (parent := 0) hh (by decide) (by simp [h12]) with ⟨_, hr⟩ |
      ⟨t', e, hh', hroot, hos', hm', hk, hn, hw, hp, hd, hc, hs⟩
    · rcases hr with hr | ⟨s, _, hr1, _, hr2, _⟩
      · omega
      · simp only at hr1; omega
    · rw [e]
      simp only [ok_bind]
      refine ⟨t', rfl, ?_, hos', hm'⟩
      have hlt : ∀ k, k < Ghost.init.n → k = 0 := by
        intro k hk
        have : Ghost.init.n = 1 := rfl
        omega
      have hlt' : ∀ k, 1 ≤ k → k < Ghost.init.n → False := by
        intro k h1 hk
        have := hlt k hk
        omega
      constructor
      · exact hh'
      · exact addNewNode_snug hh (Or.inl rfl) e
      · exact hroot
      · exact Nat.le_refl 1
      · rw [hn]; simp only [h12]; rfl
      · have e8 : t'.mem.get32 8 = m.get32 8 := by
          apply Mem.get32_congr
          intro x h1 h2; exact hk x h1 (by omega) (by omega)
        rw [e8, h8]; decide
      · rfl
      · intro k h1 h2; exact (hlt' k h1 h2).elim
      · intro k h1 h2; exact (hlt' k h1 h2).elim
      · intro k h1 h2; exact (hlt' k h1 h2).elim
      · intro i j h1 h2 _; rw [hlt i h1, hlt j h2]
      · intro k _; exact (by decide : INVALID_WORDID < 2^32)
      · intro k h1; rw [hlt k h1]; exact hw
      · exact hp
      · intro k h1 h2; exact (hlt' k h1 h2).elim
      · intro k h1; rw [hlt k h1]; exact hd
      · intro k h1; rw [hlt k h1]; exact hc
      · intro k h1 h2; exact (hlt' k h1 h2).elim
      · intro k h1 h2; exact (hlt' k h1 h2).elim
      · intro p k hp' hc'
        obtain rfl := hlt p hp'
        have hk0 : k = 0 := by
          rcases hc' with rfl | ⟨_, h2, _⟩
          · rfl
          · exact hlt k h2
        subst hk0
        refine ⟨0, Or.inl ⟨rfl, ?_⟩, hs⟩
        intro i h1 h2; exact (hlt' i h1 h2).elim

theorem init_has (w : Word) (id : Nat) : ¬ Ghost.init.Has w id := by
  rintro ⟨k, _, _, hw, hne⟩
  exact hne hw.symm

/-! ### Reading a word back -/

theorem siblingToLoop_spec {t : Trie} {g : Ghost} (h : TInv t g) {p k : Nat} (hpk : p < k) (hk : k < g.n)
    (hpar : g.par k = p) : ∀ fuel j, p < j → j ≤ k → g.par j = p → g.n - j < fuel →
    t.siblingToLoop (addr k) fuel (addr j + 20) = .ok (addr k + 20) := by
  intro fuel
  induction fuel with
  | zero => intro j _ _ _ hf; omega
  | succ fuel ih =>
    intro j h1 h2 h3 hf
    have hm := h.bound
    have haj := addr_cases j
    rw [Trie.siblingToLoop, Trie.getChild, Trie.rd32_ok (by omega), show addr j + 20 + 4 = addr j + 24 from rfl,
      h.mchild j (by omega) (by omega)]
    simp only [ok_bind]
    by_cases hjk : j = k
    · subst hjk; rw [if_neg (by simp)]
    · rw [if_pos (fun e => hjk (addr_inj e))]
      have hc : g.IsCell p j := Or.inr ⟨h1, by omega, h3⟩
      obtain ⟨j', hj', e⟩ := h.rd_link (by omega) hc
      rw [show cell p j = addr j + 20 from if_neg (by omega)] at e
      rw [Trie.getNextSibling, e]
      simp only [ok_bind]
      rcases hj' with ⟨_, hj'⟩ | ⟨q1, q2, q3, q4⟩
      · exact absurd hpar (hj' k (by omega) hk)
      · rw [if_neg (by rw [link_eq_zero]; omega), link, if_neg (by omega)]
        apply ih j' (by omega) ?_ q3 (by omega)
        by_contra hlt
        exact q4 k (by omega) (by omega) hpar

theorem getSiblingTo_spec {t : Trie} {g : Ghost} (h : TInv t g) {k : Nat} (h1 : 1 ≤ k) (hk : k < g.n) :
    t.getSiblingTo (addr (g.par k)) (addr k) = .ok (addr k + 20) := by
  have hp := h.par_lt k h1 hk
  have hm := h.bound
  obtain ⟨j, hj, e⟩ := h.rd_link (p := g.par k) (k := g.par k) (by omega) (Or.inl rfl)
  rw [cell_self] at e
  rw [Trie.getSiblingTo, Trie.getSiblingList]
  rw [show addr (g.par k) + sizeofNode + 8 = addr (g.par k) + 8 + 8 from rfl, e]
  simp only [ok_bind]
  rcases hj with ⟨_, hj⟩ | ⟨q1, q2, q3, q4⟩
  · exact absurd rfl (hj k (by omega) hk)
  · rw [link, if_neg (by omega)]
    apply siblingToLoop_spec h hp hk rfl _ j q1 ?_ q3 (by omega)
    by_contra hlt
    exact q4 k (by omega) (by omega) rfl

theorem rd_parent {t : Trie} {g : Ghost} (h : TInv t g) {k : Nat} (hk : k < g.n) :
    t.getParent (addr k) = .ok (if k = 0 then 0 else addr (g.par k)) := by
  have hm := h.bound
  have := addr_cases k
  rw [Trie.getParent, Trie.rd32_ok (by omega)]
  split
  · rename_i h0; subst h0; rw [show addr 0 + 4 = 20 from rfl, h.mpar0]
  · rw [h.mpar k (by omega) hk]

theorem lettersLoop_spec {t : Trie} {g : Ghost} (h : TInv t g) : ∀ fuel k acc, k < g.n → k < fuel →
    t.lettersLoop fuel (addr k) (if k = 0 then 0 else addr (g.par k)) acc = .ok (acc ++ (g.path k).reverse) := by
  intro fuel
  induction fuel with
  | zero => intro k _ _ hf; omega
  | succ fuel ih =>
    intro k acc hk hf
    rw [Trie.lettersLoop]
    by_cases hk0 : k = 0
    · subst hk0; simp [h.path0]
    · have hp := h.par_lt k (by omega) hk
      have hm := h.bound
      have hak := addr_cases k
      rw [if_neg hk0, if_neg (addr_ne_zero _), getSiblingTo_spec h (by omega) hk]
      simp only [ok_bind]
      rw [Trie.getLetter, Trie.rdLetter_ok (by omega), h.mletter k (by omega) hk]
      simp only [ok_bind]
      rw [rd_parent h (by omega)]
      simp only [ok_bind]
      rw [ih _ _ (by omega) (by omega), h.path_eq k (by omega) hk]
      simp

/-- Letters of a word that comes back from storage unchanged. -/
def Readable [Build] (w : Word) : Prop := Word.ofLetters (w ++ [0#16]) = .ok w

theorem readable_utf16 [Build] {w : Word} (hw : ∃ cps, Utf16 w cps) (hb : ∀ l ∈ w, ¬ IsBlank l.toNat) : Readable w := by
  obtain ⟨c, hc⟩ := hw
  simp [Readable, Word.ofLetters, (hasWhitespace_false_iff _).2 hb, hasBrokenSurrogates_utf16 hc]

theorem getWord_spec [Build] {t : Trie} {g : Ghost} (h : TInv t g) {k : Nat} (hk : k < g.n) (hr : Readable (g.path k)) :
    t.getWord (addr k) = .ok (g.path k) := by
  have hm := h.bound
  rw [Trie.getWord, if_neg (addr_ne_zero k), rd_parent h hk]
  simp only [ok_bind]
  rw [lettersLoop_spec h _ k _ hk (by omega)]
  simp only [ok_bind, List.reverse_append, List.reverse_reverse, List.reverse_singleton]
  exact hr

theorem numWords_spec {t : Trie} {g : Ghost} (h : TInv t g) : t.numWords = .ok g.count := by
  have hm := h.bound
  have hp := h.pos
  rw [Trie.numWords, Trie.rd32_ok (by omega), h.mcount]

theorem numNodes_spec {t : Trie} {g : Ghost} (h : TInv t g) : t.numNodes = .ok g.n := by
  have hm := h.bound
  have hp := h.pos
  rw [Trie.numNodes, Trie.rd32_ok (by omega), h.mnodes]

end Columbus
