import Verif.Proofs.Basic
import Verif.Model.Trie
/-
Byte-level memory and the growth of the trie file.
-/

namespace Columbus

theorem Mem.get32_congr {m m' : Mem} {a : Nat} (h : ∀ x, a ≤ x → x < a + 4 → m' x = m x) : m'.get32 a = m.get32 a := by
  unfold Mem.get32
  rw [h a (by omega) (by omega), h (a+1) (by omega) (by omega), h (a+2) (by omega) (by omega),
    h (a+3) (by omega) (by omega)]

theorem Mem.get16_congr {m m' : Mem} {a : Nat} (h : ∀ x, a ≤ x → x < a + 2 → m' x = m x) : m'.get16 a = m.get16 a := by
  unfold Mem.get16
  rw [h a (by omega) (by omega), h (a+1) (by omega) (by omega)]

theorem Mem.put_out {m : Mem} {a : Nat} {bs : List Nat} {x : Nat} (h : x < a ∨ a + bs.length ≤ x) :
    (m.put a bs) x = m x := by
  unfold Mem.put; rw [if_neg (by omega)]

theorem Mem.put_in {m : Mem} {a : Nat} {bs : List Nat} {i : Nat} (h : i < bs.length) :
    (m.put a bs) (a + i) = bs.getD i 0 := by
  unfold Mem.put; rw [if_pos (by omega), Nat.add_sub_cancel_left]

theorem Mem.put_in0 {m : Mem} {a : Nat} {bs : List Nat} (h : 0 < bs.length) :
    (m.put a bs) a = bs.getD 0 0 := Mem.put_in (m := m) (a := a) (i := 0) h

@[simp] theorem bytes32_length (v : Nat) : (bytes32 v).length = 4 := rfl
@[simp] theorem nodeBytes_length (v w : Nat) : (nodeBytes v w).length = 8 := rfl
@[simp] theorem ptrsBytes_length (l : Letter) (v w : Nat) : (ptrsBytes l v w).length = 12 := rfl

theorem sum32 {v : Nat} (h : v < 2^32) :
    v % 256 + 256 * (v / 256 % 256) + 65536 * (v / 65536 % 256) + 16777216 * (v / 16777216 % 256) = v := by
  have : v < 4294967296 := h
  omega

theorem Mem.get32_put {m : Mem} {a v : Nat} (h : v < 2^32) : (m.put a (bytes32 v)).get32 a = v := by
  unfold Mem.get32
  rw [Mem.put_in0 (by simp), Mem.put_in (by simp), Mem.put_in (by simp), Mem.put_in (by simp)]
  exact sum32 h

theorem Mem.get32_put_node {m : Mem} {a v w : Nat} (hv : v < 2^32) (hw : w < 2^32) :
    (m.put a (nodeBytes v w)).get32 a = v ∧ (m.put a (nodeBytes v w)).get32 (a + 4) = w := by
  constructor
  · unfold Mem.get32
    rw [Mem.put_in0 (by simp), Mem.put_in (by simp), Mem.put_in (by simp), Mem.put_in (by simp)]
    exact sum32 hv
  · unfold Mem.get32
    simp only [Nat.add_assoc a]
    rw [Mem.put_in (by simp), Mem.put_in (by simp), Mem.put_in (by simp), Mem.put_in (by simp)]
    exact sum32 hw

theorem Mem.get_put_ptrs {m : Mem} {a : Nat} {l : Letter} {v w : Nat} (hv : v < 2^32) (hw : w < 2^32) :
    (m.put a (ptrsBytes l v w)).get16 a = l.toNat ∧ (m.put a (ptrsBytes l v w)).get32 (a + 4) = v ∧
    (m.put a (ptrsBytes l v w)).get32 (a + 8) = w := by
  refine ⟨?_, ?_, ?_⟩
  · unfold Mem.get16
    rw [Mem.put_in0 (by simp), Mem.put_in (by simp)]
    have := l.isLt
    show l.toNat % 256 + 256 * (l.toNat / 256 % 256) = l.toNat
    omega
  · unfold Mem.get32
    simp only [Nat.add_assoc a]
    rw [Mem.put_in (by simp), Mem.put_in (by simp), Mem.put_in (by simp), Mem.put_in (by simp)]
    exact sum32 hv
  · unfold Mem.get32
    simp only [Nat.add_assoc a]
    rw [Mem.put_in (by simp), Mem.put_in (by simp), Mem.put_in (by simp), Mem.put_in (by simp)]
    exact sum32 hw

namespace Trie

theorem rd32_ok {t : Trie} {a : Nat} (h : a + 4 ≤ t.mapped) : t.rd32 a = .ok (t.mem.get32 a) := by
  unfold rd32; rw [if_pos h]

theorem rdLetter_ok {t : Trie} {a : Nat} (h : a + 2 ≤ t.mapped) :
    t.rdLetter a = .ok (BitVec.ofNat 16 (t.mem.get16 a)) := by
  unfold rdLetter; rw [if_pos h]

theorem wr_ok {t : Trie} {a : Nat} {bs : List Nat} (h : a + bs.length ≤ t.mapped) :
    t.wr a bs = .ok { t with mem := t.mem.put a bs } := by
  unfold wr; rw [if_pos h]

/-- A file size reached by doubling from 1024 within 32 bits. -/
def IsSize (s : Nat) : Prop := ∃ j, j ≤ 21 ∧ s = 1024 * 2^j

theorem IsSize.bounds {s : Nat} (h : IsSize s) : 1024 ≤ s ∧ s ≤ 2^31 := by
  obtain ⟨j, hj, rfl⟩ := h
  have h1 : 1 ≤ 2^j := Nat.one_le_two_pow
  have h2 : 2^j ≤ 2^21 := Nat.pow_le_pow_right (by omega) hj
  have : (2:Nat)^21 = 2097152 := by decide
  have : (2:Nat)^31 = 2147483648 := by decide
  omega

theorem IsSize.double {s : Nat} (h : IsSize s) (hs : s ≠ 2^31) : IsSize (2 * s) := by
  obtain ⟨j, hj, rfl⟩ := h
  have : j ≠ 21 := by rintro rfl; exact hs (by decide)
  exact ⟨j + 1, by omega, by rw [Nat.pow_succ]; omega⟩

/-- The header is consistent and the first free byte is `free`. -/
structure Hdr (t : Trie) (free : Nat) : Prop where
  size : IsSize t.mapped
  total : t.mem.get32 0 = t.mapped
  free_eq : t.mem.get32 4 = free
  lt : free < t.mapped
  ge : 16 ≤ free

/-- What an allocation keeps: everything but the first two header words, below `free`. -/
structure Grown (t t' : Trie) (free : Nat) : Prop where
  root : t'.root = t.root
  os : t'.os = t.os
  mapped : t.mapped ≤ t'.mapped
  keep : ∀ x, 8 ≤ x → x < free → t'.mem x = t.mem x

/-- The reasons for which an allocation of `size` bytes at `free` can fail. -/
def Refused (t : Trie) (free : Nat) : Prop :=
  t.mapped ≤ free + 12 ∧ (t.mapped = 2^31 ∨ (t.mapped < 2^31 ∧ t.os (2 * t.mapped) = false))

theorem expand_fail [Build] {t : Trie} {free : Nat} (h : Hdr t free)
    (hr : t.mapped = 2^31 ∨ (t.mapped < 2^31 ∧ t.os (2 * t.mapped) = false)) : t.expand = .error .runtimeError := by
  have hb := h.size.bounds
  unfold expand
  rw [rd32_ok (by omega), h.total]
  simp only [ok_bind]
  rw [if_pos]
  rcases hr with hr | ⟨hr, ho⟩
  · left; rw [hr]
  · right; rw [Nat.mul_comm, Nat.mod_eq_of_lt (by omega)]; exact ho

theorem expand_ok [Build] {t : Trie} {free : Nat} (h : Hdr t free) (h1 : t.mapped ≠ 2^31)
    (h2 : t.os (2 * t.mapped) = true) :
    ∃ t', t.expand = .ok t' ∧ Hdr t' free ∧ Grown t t' free ∧ t'.mapped = 2 * t.mapped := by
  have hb := h.size.bounds
  have hlt := h.lt
  have hge := h.ge
  unfold expand
  rw [rd32_ok (by omega), h.total]
  simp only [ok_bind]
  have e : t.mapped * 2 % 2^32 = 2 * t.mapped := by rw [Nat.mul_comm, Nat.mod_eq_of_lt (by omega)]
  rw [e, if_neg (by rw [h2]; simp; omega), wr_ok (by simp; omega)]
  simp only [ok_bind]
  rw [rd32_ok (by simp; omega), rd32_ok (by simp; omega)]
  simp only [ok_bind]
  generalize hm : (Mem.put (fun x => if x < t.mapped then t.mem x else 0) 0 (bytes32 (2 * t.mapped))) = m
  have k : ∀ x, 4 ≤ x → x < t.mapped → m x = t.mem x := by
    intro x hx1 hx2
    rw [← hm, Mem.put_out (by simp; omega), if_pos hx2]
  have k0 : m.get32 0 = 2 * t.mapped := by rw [← hm]; exact Mem.get32_put (by omega)
  have k4 : m.get32 4 = free := by
    rw [Mem.get32_congr (m := t.mem) (fun x h1 h2 => k x h1 (by omega)), h.free_eq]
  rw [k0, k4, cassert_ok (by simp; omega)]
  refine ⟨_, rfl, ⟨h.size.double h1, k0, k4, by simp; omega, h.ge⟩, ⟨rfl, rfl, by simp; omega, ?_⟩, rfl⟩
  intro x hx1 hx2
  exact k x (by omega) (by omega)

theorem growLoop_spec [Build] {t : Trie} {free size fuel : Nat} (h : Hdr t free) (hs : size ≤ 12) :
    (t.growLoop size (fuel + 2) = .error .runtimeError ∧ Refused t free) ∨
    ∃ t', t.growLoop size (fuel + 2) = .ok t' ∧ Hdr t' free ∧ Grown t t' free ∧ free + size < t'.mapped := by
  have hb := h.size.bounds
  have hlt := h.lt
  have hge := h.ge
  rw [growLoop, rd32_ok (by omega), rd32_ok (by omega), h.total, h.free_eq]
  simp only [ok_bind]
  rw [Nat.mod_eq_of_lt (by omega)]
  by_cases hfit : free + size ≥ t.mapped
  · rw [if_pos hfit]
    by_cases h1 : t.mapped = 2^31
    · left; rw [expand_fail h (Or.inl h1)]; exact ⟨rfl, by omega, Or.inl h1⟩
    · cases h2 : t.os (2 * t.mapped) with
      | false =>
        left
        have : t.mapped < 2^31 := by omega
        rw [expand_fail h (Or.inr ⟨this, h2⟩)]; exact ⟨rfl, by omega, Or.inr ⟨this, h2⟩⟩
      | true =>
        right
        obtain ⟨t', e, hh, hg, hm⟩ := expand_ok h h1 h2
        have hb' := hh.size.bounds
        refine ⟨t', ?_, hh, hg, by omega⟩
        rw [e]
        simp only [ok_bind]
        rw [growLoop, rd32_ok (by omega), rd32_ok (by omega), hh.total, hh.free_eq]
        simp only [ok_bind]
        rw [Nat.mod_eq_of_lt (by omega), if_neg (by omega)]
  · right
    rw [if_neg hfit]
    exact ⟨t, rfl, h, ⟨rfl, rfl, Nat.le_refl _, fun _ _ _ => rfl⟩, by omega⟩

/-- Appending a record: it lands at `free`, and everything below stays. -/
theorem append_spec [Build] {t : Trie} {free : Nat} {data : List Nat} (h : Hdr t free) (hs : data.length ≤ 12) :
    (t.append data = .error .runtimeError ∧ Refused t free) ∨
    ∃ t', t.append data = .ok (t', free) ∧ Hdr t' (free + data.length) ∧ Grown t t' free ∧
      (∀ x, free ≤ x → x < free + data.length → t'.mem x = (t.mem.put free data) x) := by
  have hb := h.size.bounds
  have hlt := h.lt
  have hge := h.ge
  unfold append
  rw [rd32_ok (by omega), rd32_ok (by omega), h.total, h.free_eq]
  simp only [ok_bind]
  rw [cassert_ok (by simp; omega)]
  simp only [ok_bind]
  rcases growLoop_spec (fuel := 31) h hs with ⟨e, hr⟩ | ⟨t1, e, hh, hg, hfit⟩
  · left; rw [e]; exact ⟨rfl, hr⟩
  · right
    have hb' := hh.size.bounds
    rw [e]
    simp only [ok_bind]
    rw [rd32_ok (by omega), hh.free_eq]
    simp only [ok_bind]
    rw [wr_ok (by omega)]
    simp only [ok_bind]
    rw [wr_ok (by simp; omega)]
    simp only [ok_bind]
    rw [rd32_ok (by simp; omega), rd32_ok (by simp; omega)]
    simp only [ok_bind]
    have k4 : ((t1.mem.put free data).put 4 (bytes32 (free + data.length))).get32 4 = free + data.length :=
      Mem.get32_put (by omega)
    have k0 : ((t1.mem.put free data).put 4 (bytes32 (free + data.length))).get32 0 = t1.mapped := by
      rw [← hh.total]
      apply Mem.get32_congr
      intro x _ hx
      rw [Mem.put_out (by omega), Mem.put_out (by omega)]
    rw [k0, k4, cassert_ok (by simp; omega)]
    refine ⟨_, rfl, ⟨hh.size, k0, k4, hfit, by omega⟩, ⟨hg.root, hg.os, hg.mapped, ?_⟩, ?_⟩
    · intro x hx1 hx2
      show ((t1.mem.put free data).put 4 (bytes32 (free + data.length))) x = _
      rw [Mem.put_out (by simp; omega), Mem.put_out (by omega), hg.keep x hx1 hx2]
    · intro x hx1 hx2
      show ((t1.mem.put free data).put 4 (bytes32 (free + data.length))) x = _
      rw [Mem.put_out (by simp; omega)]
      unfold Mem.put
      rw [if_pos (by omega), if_pos (by omega)]

/-- Refusals at a later point of the same operation are refusals for some size at or above the present one. -/
def Refusal (t : Trie) (free : Nat) : Prop :=
  2^31 ≤ free ∨ ∃ s, IsSize s ∧ t.mapped ≤ s ∧ s < 2^31 ∧ s ≤ free ∧ t.os (2 * s) = false

theorem Refused.refusal {t t' : Trie} {free free' : Nat} (h : Hdr t' free) (hr : Refused t' free) (hos : t'.os = t.os)
    (hm : t.mapped ≤ t'.mapped) (hf : free + 12 ≤ free') : Refusal t free' := by
  obtain ⟨hr, h2 | ⟨h1, h2⟩⟩ := hr
  · left; omega
  · right; exact ⟨t'.mapped, h.size, hm, h1, by omega, by rw [← hos]; exact h2⟩

theorem Refusal.mono {t t' : Trie} {free free' : Nat} (h : Refusal t' free) (hos : t'.os = t.os)
    (hm : t.mapped ≤ t'.mapped) (hf : free ≤ free') : Refusal t free' := by
  rcases h with h | ⟨s, h1, h2, h3, h4, h5⟩
  · left; omega
  · right; exact ⟨s, h1, by omega, h3, by omega, by rw [← hos]; exact h5⟩

/-- Adding an empty node: 20 bytes. -/
theorem addNewNode_spec [Build] {t : Trie} {free parent : Nat} (h : Hdr t free) (hp : parent < 2^32) (hn : t.mem.get32 12 + 1 < 2^32) :
    (t.addNewNode parent = .error .runtimeError ∧ Refusal t (free + 20)) ∨
    ∃ t', t.addNewNode parent = .ok (t', free) ∧ Hdr t' (free + 20) ∧ t'.root = t.root ∧ t'.os = t.os ∧
      t.mapped ≤ t'.mapped ∧ (∀ x, 8 ≤ x → x < free → ¬ (12 ≤ x ∧ x < 16) → t'.mem x = t.mem x) ∧
      t'.mem.get32 12 = t.mem.get32 12 + 1 ∧ t'.mem.get32 free = INVALID_WORDID ∧ t'.mem.get32 (free + 4) = parent ∧
      t'.mem.get16 (free + 8) = 0 ∧ t'.mem.get32 (free + 12) = 0 ∧ t'.mem.get32 (free + 16) = 0 := by
  have hge := h.ge
  unfold addNewNode
  rcases append_spec (data := nodeBytes INVALID_WORDID parent) h (by simp) with ⟨e, hr⟩ | ⟨t1, e1, hh1, hg1, hd1⟩
  · left; rw [e]; exact ⟨rfl, hr.refusal h rfl (Nat.le_refl _) (by omega)⟩
  · rw [e1]
    simp only [ok_bind]
    simp only [nodeBytes_length] at hh1 hd1
    rcases append_spec (data := ptrsBytes 0#16 0 0) hh1 (by simp) with ⟨e, hr⟩ | ⟨t2, e2, hh2, hg2, hd2⟩
    · left; rw [e]; exact ⟨rfl, hr.refusal hh1 hg1.os hg1.mapped (by omega)⟩
    · right
      rw [e2]
      simp only [ok_bind]
      simp only [ptrsBytes_length] at hh2 hd2
      have hb := hh2.size.bounds
      have hlt := hh2.lt
      rw [rd32_ok (by omega)]
      simp only [ok_bind]
      rw [wr_ok (by simp; omega)]
      simp only [ok_bind]
      have k12 : t2.mem.get32 12 = t.mem.get32 12 := by
        apply Mem.get32_congr
        intro x h1 h2
        rw [hg2.keep x (by omega) (by omega), hg1.keep x (by omega) (by omega)]
      have hout : ∀ x, ¬ (12 ≤ x ∧ x < 16) → (t2.mem.put 12 (bytes32 (t2.mem.get32 12 + 1))) x = t2.mem x := by
        intro x hx; exact Mem.put_out (by simp; omega)
      have hnode := Mem.get32_put_node (m := t.mem) (a := free) (v := INVALID_WORDID) (w := parent) (by decide) hp
      have hptrs := Mem.get_put_ptrs (m := t1.mem) (a := free + 8) (l := 0#16) (v := 0) (w := 0) (by decide) (by decide)
      refine ⟨_, rfl, ⟨hh2.size, ?_, ?_, hh2.lt, hh2.ge⟩, ?_, ?_, ?_, ?_, ?_, ?_, ?_, ?_, ?_, ?_⟩
      · rw [← hh2.total]; exact Mem.get32_congr fun x h1 h2 => hout x (by omega)
      · rw [← hh2.free_eq]; exact Mem.get32_congr fun x h1 h2 => hout x (by omega)
      · exact hg2.root.trans hg1.root
      · exact hg2.os.trans hg1.os
      · exact Nat.le_trans hg1.mapped hg2.mapped
      · intro x h1 h2 h3
        show (t2.mem.put 12 (bytes32 (t2.mem.get32 12 + 1))) x = _
        rw [hout x h3, hg2.keep x h1 (by omega), hg1.keep x h1 h2]
      · rw [k12]; exact Mem.get32_put hn
      · rw [← hnode.1]
        apply Mem.get32_congr
        intro x h1 h2
        show (t2.mem.put 12 (bytes32 (t2.mem.get32 12 + 1))) x = _
        rw [hout x (by omega), hg2.keep x (by omega) (by omega), hd1 x (by omega) (by omega)]
      · rw [← hnode.2]
        apply Mem.get32_congr
        intro x h1 h2
        show (t2.mem.put 12 (bytes32 (t2.mem.get32 12 + 1))) x = _
        rw [hout x (by omega), hg2.keep x (by omega) (by omega), hd1 x (by omega) (by omega)]
      · have := hptrs.1
        rw [show (0#16).toNat = 0 from rfl] at this
        rw [← this]
        apply Mem.get16_congr
        intro x h1 h2
        show (t2.mem.put 12 (bytes32 (t2.mem.get32 12 + 1))) x = _
        rw [hout x (by omega), hd2 x (by omega) (by omega)]
      · have := hptrs.2.1
        rw [← this]
        apply Mem.get32_congr
        intro x h1 h2
        show (t2.mem.put 12 (bytes32 (t2.mem.get32 12 + 1))) x = _
        rw [hout x (by omega), hd2 x (by omega) (by omega)]
      · have := hptrs.2.2
        rw [← this]
        apply Mem.get32_congr
        intro x h1 h2
        show (t2.mem.put 12 (bytes32 (t2.mem.get32 12 + 1))) x = _
        rw [hout x (by omega), hd2 x (by omega) (by omega)]

/-- Adding a child: 32 bytes, and one link changed. -/
theorem addNewSibling_spec [Build] {t : Trie} {free node s : Nat} {l : Letter} (h : Hdr t free) (hp : node < 2^32)
    (hn : t.mem.get32 12 + 1 < 2^32) (hs : 16 ≤ s) (hs2 : s + 12 ≤ free) (hz : t.mem.get32 (s + 8) = 0) :
    (t.addNewSibling node s l = .error .runtimeError ∧ Refusal t (free + 32)) ∨
    ∃ t', t.addNewSibling node s l = .ok (t', free) ∧ Hdr t' (free + 32) ∧ t'.root = t.root ∧ t'.os = t.os ∧
      t.mapped ≤ t'.mapped ∧
      (∀ x, 8 ≤ x → x < free → ¬ (12 ≤ x ∧ x < 16) → ¬ (s + 8 ≤ x ∧ x < s + 12) → t'.mem x = t.mem x) ∧
      t'.mem.get32 12 = t.mem.get32 12 + 1 ∧ t'.mem.get32 free = INVALID_WORDID ∧ t'.mem.get32 (free + 4) = node ∧
      t'.mem.get16 (free + 8) = 0 ∧ t'.mem.get32 (free + 12) = 0 ∧ t'.mem.get32 (free + 16) = 0 ∧
      t'.mem.get16 (free + 20) = l.toNat ∧ t'.mem.get32 (free + 24) = free ∧ t'.mem.get32 (free + 28) = 0 ∧
      t'.mem.get32 (s + 8) = free + 20 := by
  have hge := h.ge
  unfold addNewSibling
  rcases addNewNode_spec (parent := node) h hp hn with ⟨e, hr⟩ |
    ⟨t1, e1, hh1, hroot1, hos1, hm1, hk1, hn1, hw1, hp1, hl1, hc1, hs1⟩
  · left
    rw [e]
    exact ⟨rfl, hr.mono rfl (Nat.le_refl _) (by omega)⟩
  · rw [e1]
    simp only [ok_bind]
    rcases append_spec (data := ptrsBytes l free 0) hh1 (by simp) with ⟨e, hr⟩ | ⟨t2, e2, hh2, hg2, hd2⟩
    · left; rw [e]; exact ⟨rfl, hr.refusal hh1 hos1 hm1 (by omega)⟩
    · right
      rw [e2]
      simp only [ok_bind]
      simp only [ptrsBytes_length] at hh2 hd2
      have hb := hh2.size.bounds
      have hlt := hh2.lt
      have k8 : t2.mem.get32 (s + 8) = 0 := by
        rw [← hz]
        apply Mem.get32_congr
        intro x h1 h2
        rw [hg2.keep x (by omega) (by omega), hk1 x (by omega) (by omega) (by omega)]
      rw [rd32_ok (by omega), k8]
      simp only [ok_bind]
      rw [cassert_ok (by simp)]
      simp only [ok_bind]
      rw [wr_ok (by simp; omega)]
      simp only [ok_bind]
      have hout : ∀ x, ¬ (s + 8 ≤ x ∧ x < s + 12) → (t2.mem.put (s + 8) (bytes32 (free + 20))) x = t2.mem x := by
        intro x hx; exact Mem.put_out (by simp; omega)
      have hptrs := Mem.get_put_ptrs (m := t1.mem) (a := free + 20) (l := l) (v := free) (w := 0) (by omega) (by decide)
      have hkk : ∀ x, 8 ≤ x → x < free + 20 → ¬ (s + 8 ≤ x ∧ x < s + 12) →
          (t2.mem.put (s + 8) (bytes32 (free + 20))) x = t1.mem x := by
        intro x h1 h2 h3
        rw [hout x h3, hg2.keep x h1 h2]
      refine ⟨_, rfl, ⟨hh2.size, ?_, ?_, by simpa using hlt, by omega⟩, ?_, ?_, ?_, ?_, ?_, ?_, ?_, ?_, ?_, ?_, ?_, ?_, ?_, ?_⟩
      · rw [← hh2.total]; exact Mem.get32_congr fun x h1 h2 => hout x (by omega)
      · have := hh2.free_eq
        rw [show free + 32 = free + 20 + 12 from by omega, ← this]
        exact Mem.get32_congr fun x h1 h2 => hout x (by omega)
      · exact hg2.root.trans hroot1
      · exact hg2.os.trans hos1
      · exact Nat.le_trans hm1 hg2.mapped
      · intro x h1 h2 h3 h4
        show (t2.mem.put (s + 8) (bytes32 (free + 20))) x = _
        rw [hkk x h1 (by omega) h4, hk1 x h1 h2 h3]
      · rw [← hn1]; exact Mem.get32_congr fun x h1 h2 => hkk x (by omega) (by omega) (by omega)
      · rw [← hw1]; exact Mem.get32_congr fun x h1 h2 => hkk x (by omega) (by omega) (by omega)
      · rw [← hp1]; exact Mem.get32_congr fun x h1 h2 => hkk x (by omega) (by omega) (by omega)
      · rw [← hl1]; exact Mem.get16_congr fun x h1 h2 => hkk x (by omega) (by omega) (by omega)
      · rw [← hc1]; exact Mem.get32_congr fun x h1 h2 => hkk x (by omega) (by omega) (by omega)
      · rw [← hs1]; exact Mem.get32_congr fun x h1 h2 => hkk x (by omega) (by omega) (by omega)
      · rw [← hptrs.1]
        apply Mem.get16_congr
        intro x h1 h2
        show (t2.mem.put (s + 8) (bytes32 (free + 20))) x = _
        rw [hout x (by omega), hd2 x (by omega) (by omega)]
      · have := hptrs.2.1
        rw [Nat.add_assoc] at this
        refine Eq.trans ?_ this
        apply Mem.get32_congr
        intro x h1 h2
        show (t2.mem.put (s + 8) (bytes32 (free + 20))) x = _
        rw [hout x (by omega), hd2 x (by omega) (by omega)]
      · have := hptrs.2.2
        rw [Nat.add_assoc] at this
        refine Eq.trans ?_ this
        apply Mem.get32_congr
        intro x h1 h2
        show (t2.mem.put (s + 8) (bytes32 (free + 20))) x = _
        rw [hout x (by omega), hd2 x (by omega) (by omega)]
      · exact Mem.get32_put (by omega)

end Trie
end Columbus
