import Verif.Proofs.Resources
import Verif.Spec.Refused
/-
A trie whose `munmap` is sometimes refused: bytes are lost in the file, but the tree in it stays whole.
-/

namespace Columbus.Res
open Act

/-- The object as a trie on a system that grants everything. -/
def vw (o : Obj) : Trie := o.view fun _ => true

/-- The `ftruncate` or `mmap` of some call is refused. -/
def Bad (sys : System) : Prop := ∃ k, (sys.expand k).truncate = false ∨ (sys.expand k).map = false

/-- From `o` to `o'` there were `d` refused `munmap`s. -/
structure Fate (o o' : Obj) (d : Nat) : Prop where
  sys : o'.sys = o.sys
  pos : 0 < o'.calls
  denied : denied o' = denied o + d

theorem Fate.refl {o : Obj} (h : 0 < o.calls) : Fate o o 0 := ⟨rfl, h, rfl⟩

theorem Fate.trans {a b c : Obj} {d e : Nat} (h : Fate a b d) (h' : Fate b c e) : Fate a c (d + e) :=
  ⟨h'.sys.trans h.sys, h'.pos, by rw [h'.denied, h.denied]; omega⟩

theorem Fate.mem {o o' : Obj} {d : Nat} (h : Fate o o' d) (m : Mem) : Fate o { o' with mem := m } d := ⟨h.sys, h.pos, h.denied⟩

theorem denied_succ (o : Obj) (m : Map) (mem : Mem) (h : 0 < o.calls) :
    denied { o with calls := o.calls + 1, map := m, mem := mem } = denied o + if (o.sys.expand o.calls).unmap = false then 1 else 0 := by
  unfold denied
  show (List.range (o.calls + 1)).countP (fun k => decide (0 < k) && !(o.sys.expand k).unmap) = _
  rw [List.range_succ, List.countP_append, List.countP_singleton]
  cases (o.sys.expand o.calls).unmap <;> simp [h]

theorem rd_ok {o : Obj} {a : Nat} (h : a + 4 ≤ (vw o).mapped) : Act.rd32 a o = (o, .ok (o.mem.get32 a)) :=
  Prod.ext rfl (Trie.rd32_ok (t := o.view fun _ => false) h)

theorem wr_eq {o : Obj} {a : Nat} {bs : List Nat} (h : a + bs.length ≤ (vw o).mapped) :
    Act.wr a bs o = ({ o with mem := o.mem.put a bs }, .ok ()) := by
  unfold Act.wr
  have h' : a + bs.length ≤ o.map.len := h
  rw [if_pos h']

theorem assert_eq [Build] {o : Obj} {b : Bool} (h : b = true) : Act.assert b o = (o, .ok ()) :=
  Prod.ext rfl (cassert_ok h)

theorem live_of_hdr {o : Obj} {free : Nat} (h : Trie.Hdr (vw o) free) : o.map = .live (vw o).mapped := by
  have hb := h.size.bounds
  have e : (vw o).mapped = o.map.len := rfl
  rw [e] at hb ⊢
  generalize o.map = m at *
  cases m with
  | live n => rfl
  | null => exact absurd hb.1 (by decide)
  | gone => exact absurd hb.1 (by decide)

theorem expand_cases [Build] {o : Obj} {free : Nat} (h : Trie.Hdr (vw o) free) (hc : 0 < o.calls) :
    (∃ o', expand o = (o', .ok ()) ∧ (vw o).expand = .ok (vw o') ∧ Fate o o' 0) ∨
    (∃ o', expand o = (o', .error .runtimeError) ∧ vw o' = vw o ∧ Fate o o' 1) ∨
    (∃ o', expand o = (o', .error .runtimeError) ∧ o'.map = .gone ∧ (Bad o.sys ∨ (vw o).mapped = 2^31)) := by
  have hb := h.size.bounds
  have hlt := h.lt
  have hge := h.ge
  have hm := live_of_hdr h
  have h0 : o.mem.get32 0 = (vw o).mapped := h.total
  generalize hn : (vw o).mapped = n at *
  have he := expand_live hm (by omega) h0
  cases hu : (o.sys.expand o.calls).unmap with
  | false =>
    right; left
    rw [hu, if_pos rfl] at he
    refine ⟨_, he, rfl, rfl, Nat.succ_pos _, ?_⟩
    have := denied_succ o o.map o.mem hc
    rw [hu, if_pos rfl] at this
    exact this
  | true =>
    rw [hu, if_neg (by simp)] at he
    obtain ⟨_, _, g3, g4, _⟩ := grow_spec (o.sys.expand o.calls) n (n * 2 % 2^32) { o with calls := o.calls + 1, map := .gone }
    cases ht : (o.sys.expand o.calls).truncate with
    | false =>
      right; right
      exact ⟨_, he.trans (Prod.ext rfl (g3 ht).2), (g3 ht).1, Or.inl ⟨_, Or.inl ht⟩⟩
    | true =>
      cases hp : (o.sys.expand o.calls).map with
      | false =>
        right; right
        exact ⟨_, he.trans (Prod.ext rfl (g4 ht (Or.inr hp)).2), (g4 ht (Or.inr hp)).1, Or.inl ⟨_, Or.inr hp⟩⟩
      | true =>
        by_cases h31 : n = 2^31
        · right; right
          have hz : n * 2 % 2^32 = 0 := by omega
          exact ⟨_, he.trans (Prod.ext rfl (g4 ht (Or.inl hz)).2), (g4 ht (Or.inl hz)).1, Or.inr h31⟩
        · left
          have e2 : n * 2 % 2^32 = 2 * n := by rw [Nat.mul_comm, Nat.mod_eq_of_lt (by omega)]
          obtain ⟨t', et, _, _, _⟩ := Trie.expand_ok h (by rw [hn]; exact h31) rfl
          have et0 := et
          unfold Trie.expand at et
          rw [Trie.rd32_ok (by omega), h.total, hn] at et
          simp only [ok_bind] at et
          rw [e2, if_neg (by show ¬ (2 * n = 0 ∨ true = false); simp; omega), Trie.wr_ok (by simp; omega)] at et
          simp only [ok_bind] at et
          unfold grow at he
          rw [if_neg (by rw [ht]; simp), e2, if_neg (by rw [hp]; simp; omega)] at he
          rw [bind_ok (show modify _ _ = (_, .ok ()) from rfl)] at he
          rw [bind_ok (wr_eq (by show 0 + 4 ≤ 2 * n; omega))] at he
          rw [bind_ok (rd_ok (by show 0 + 4 ≤ 2 * n; omega)), bind_ok (rd_ok (by show 4 + 4 ≤ 2 * n; omega))] at he
          rw [Trie.rd32_ok (by simp; omega), Trie.rd32_ok (by simp; omega)] at et
          simp only [ok_bind] at et
          have hmem : (vw o).mem = o.mem := rfl
          rw [hmem] at et
          generalize hmm : (Mem.put (fun x => if x < n then o.mem x else 0) 0 (bytes32 (2 * n))) = m at *
          rcases hq : cassert (decide (m.get32 4 < m.get32 0)) with e | u
          · rw [hq] at et; cases et
          · rw [hq] at et
            simp only [ok_bind] at et
            refine ⟨_, he.trans (Prod.ext rfl hq), ?_, ⟨rfl, ?_, ?_⟩⟩
            · rw [et0, ← et]; rfl
            · show 0 < o.calls + 1; omega
            · have := denied_succ o (.live (2 * n)) m hc
              rw [hu, if_neg (by simp)] at this
              exact this

theorem growLoop_cases [Build] {o : Obj} {free size fuel : Nat} (h : Trie.Hdr (vw o) free) (hc : 0 < o.calls) (hs : size ≤ 12) :
    (∃ o', growLoop size (fuel + 2) o = (o', .ok ()) ∧ (vw o).growLoop size (fuel + 2) = .ok (vw o') ∧ Fate o o' 0) ∨
    (∃ o', growLoop size (fuel + 2) o = (o', .error .runtimeError) ∧ vw o' = vw o ∧ Fate o o' 1) ∨
    (∃ o', growLoop size (fuel + 2) o = (o', .error .runtimeError) ∧ o'.map = .gone ∧ (Bad o.sys ∨ 2^31 ≤ free + 12)) := by
  have hb := h.size.bounds
  have hlt := h.lt
  have hge := h.ge
  have h4 : o.mem.get32 4 = free := h.free_eq
  have h0 : o.mem.get32 0 = (vw o).mapped := h.total
  have hT := h
  rw [Trie.growLoop, Trie.rd32_ok (by omega), Trie.rd32_ok (by omega), h.total, h.free_eq]
  simp only [ok_bind]
  rw [growLoop, bind_ok (rd_ok (by omega)), bind_ok (rd_ok (by omega)), h4, h0, Nat.mod_eq_of_lt (by omega)]
  by_cases hfit : free + size ≥ (vw o).mapped
  · rw [if_pos hfit, if_pos hfit]
    rcases expand_cases h hc with ⟨o', e, et, hf⟩ | ⟨o', e, hv, hf⟩ | ⟨o', e, hg, hw⟩
    · left
      have h31 : (vw o).mapped ≠ 2^31 := by
        intro hx
        rw [Trie.expand_fail h (Or.inl hx)] at et
        cases et
      obtain ⟨t', et', hh, _, hm2⟩ := Trie.expand_ok h h31 rfl
      rw [et] at et'
      obtain rfl : vw o' = t' := by cases et'; rfl
      have hb' := hh.size.bounds
      rw [bind_ok e, et]
      simp only [ok_bind]
      rw [Trie.growLoop, Trie.rd32_ok (by omega), Trie.rd32_ok (by omega), hh.total, hh.free_eq]
      simp only [ok_bind]
      have h4' : o'.mem.get32 4 = free := hh.free_eq
      have h0' : o'.mem.get32 0 = (vw o').mapped := hh.total
      rw [growLoop, bind_ok (rd_ok (by omega)), bind_ok (rd_ok (by omega)), h4', h0', Nat.mod_eq_of_lt (by omega),
        if_neg (by omega), if_neg (by omega)]
      exact ⟨o', rfl, rfl, hf⟩
    · right; left
      rw [bind_error e]
      exact ⟨o', rfl, hv, hf⟩
    · right; right
      rw [bind_error e]
      refine ⟨o', rfl, hg, ?_⟩
      rcases hw with hw | hw
      · exact Or.inl hw
      · exact Or.inr (by omega)
  · left
    rw [if_neg hfit, if_neg hfit]
    exact ⟨o, rfl, rfl, Fate.refl hc⟩

theorem append_cases [Build] {o : Obj} {free : Nat} {data : List Nat} (h : Trie.Hdr (vw o) free) (hc : 0 < o.calls)
    (hs : data.length ≤ 12) :
    (∃ o', append data o = (o', .ok free) ∧ (vw o).append data = .ok (vw o', free) ∧ Fate o o' 0) ∨
    (∃ o', append data o = (o', .error .runtimeError) ∧ vw o' = vw o ∧ Fate o o' 1) ∨
    (∃ o', append data o = (o', .error .runtimeError) ∧ o'.map = .gone ∧ (Bad o.sys ∨ 2^31 ≤ free + 12)) := by
  have hb := h.size.bounds
  have hlt := h.lt
  have hge := h.ge
  have h4 : o.mem.get32 4 = free := h.free_eq
  have h0 : o.mem.get32 0 = (vw o).mapped := h.total
  unfold append
  rw [bind_ok (rd_ok (by omega)), bind_ok (rd_ok (by omega)), h4, h0, bind_ok (assert_eq (by simp; omega))]
  rcases growLoop_cases (fuel := 31) h hc hs with ⟨o1, e, et, hf⟩ | ⟨o', e, hv, hf⟩ | ⟨o', e, hg, hw⟩
  · left
    rcases Trie.growLoop_spec (fuel := 31) h hs with ⟨e', _⟩ | ⟨t1, e', hh, _, hfit⟩
    · rw [et] at e'; cases e'
    rw [et] at e'
    obtain rfl : vw o1 = t1 := by cases e'; rfl
    have hb1 := hh.size.bounds
    have h41 : o1.mem.get32 4 = free := hh.free_eq
    rcases Trie.append_spec h hs with ⟨ea, _⟩ | ⟨t', ea, hh', _, _⟩
    · exfalso
      unfold Trie.append at ea
      rw [Trie.rd32_ok (by omega), Trie.rd32_ok (by omega), h.total, h.free_eq] at ea
      simp only [ok_bind] at ea
      rw [cassert_ok (by simp; omega)] at ea
      simp only [ok_bind] at ea
      rw [show 33 = 31 + 2 from rfl, et] at ea
      simp only [ok_bind] at ea
      rw [Trie.rd32_ok (by omega), hh.free_eq] at ea
      simp only [ok_bind] at ea
      rw [Trie.wr_ok (by omega)] at ea
      simp only [ok_bind] at ea
      rw [Trie.wr_ok (by simp; omega)] at ea
      simp only [ok_bind] at ea
      rw [Trie.rd32_ok (by simp; omega), Trie.rd32_ok (by simp; omega)] at ea
      simp only [ok_bind] at ea
      unfold cassert at ea
      split at ea <;> cases ea
    · have ea' := ea
      unfold Trie.append at ea
      rw [Trie.rd32_ok (by omega), Trie.rd32_ok (by omega), h.total, h.free_eq] at ea
      simp only [ok_bind] at ea
      rw [cassert_ok (by simp; omega)] at ea
      simp only [ok_bind] at ea
      rw [show 33 = 31 + 2 from rfl, et] at ea
      simp only [ok_bind] at ea
      rw [Trie.rd32_ok (by omega), hh.free_eq] at ea
      simp only [ok_bind] at ea
      rw [Trie.wr_ok (by omega)] at ea
      simp only [ok_bind] at ea
      rw [Trie.wr_ok (by simp; omega)] at ea
      simp only [ok_bind] at ea
      rw [Trie.rd32_ok (by simp; omega), Trie.rd32_ok (by simp; omega)] at ea
      simp only [ok_bind] at ea
      have hmem : (vw o1).mem = o1.mem := rfl
      rw [hmem] at ea
      rw [show 33 = 31 + 2 from rfl, bind_ok e, bind_ok (rd_ok (by omega)), h41, bind_ok (wr_eq (by omega)),
        bind_ok (wr_eq (by show 4 + 4 ≤ (vw o1).mapped; omega)), bind_ok (rd_ok (by show 0 + 4 ≤ (vw o1).mapped; omega)),
        bind_ok (rd_ok (by show 4 + 4 ≤ (vw o1).mapped; omega))]
      dsimp only
      generalize hmm : (o1.mem.put free data).put 4 (bytes32 (free + data.length)) = m at *
      rcases hq : cassert (decide (m.get32 4 < m.get32 0)) with x | u
      · rw [hq] at ea; cases ea
      · rw [hq] at ea
        simp only [ok_bind] at ea
        refine ⟨{ o1 with mem := m }, ?_, ?_, hf.mem m⟩
        · rw [bind_ok (Prod.ext rfl hq : Act.assert (decide (m.get32 4 < m.get32 0)) { o1 with mem := m } = ({ o1 with mem := m }, .ok u))]
          rfl
        · rw [ea', ← ea]; rfl
  · right; left
    rw [show 33 = 31 + 2 from rfl, bind_error e]
    exact ⟨o', rfl, hv, hf⟩
  · right; right
    rw [show 33 = 31 + 2 from rfl, bind_error e]
    exact ⟨o', rfl, hg, hw⟩

/-- What a failed insertion of a node leaves: up to 20 bytes beyond `free` are taken, the node may be counted, the rest
stays. -/
structure Left (t t' : Trie) (free free' : Nat) : Prop where
  hdr : Trie.Hdr t' free'
  ge : free ≤ free'
  le : free' ≤ free + 20
  root : t'.root = t.root
  keep : ∀ x, 8 ≤ x → x < free → ¬ (12 ≤ x ∧ x < 16) → t'.mem x = t.mem x
  nodes : 20 * t'.mem.get32 12 + free ≤ 20 * t.mem.get32 12 + free'
  nodes' : t.mem.get32 12 ≤ t'.mem.get32 12

theorem Left.refl {t : Trie} {free : Nat} (h : Trie.Hdr t free) : Left t t free free :=
  ⟨h, Nat.le_refl _, by omega, rfl, fun _ _ _ _ => rfl, Nat.le_refl _, Nat.le_refl _⟩

theorem addNewNode_cases [Build] {o : Obj} {free parent : Nat} (h : Trie.Hdr (vw o) free) (hc : 0 < o.calls) :
    (∃ o', addNewNode parent o = (o', .ok free) ∧ (vw o).addNewNode parent = .ok (vw o', free) ∧ Fate o o' 0) ∨
    (∃ o' free', addNewNode parent o = (o', .error .runtimeError) ∧ Left (vw o) (vw o') free free' ∧ Fate o o' 1) ∨
    (∃ o', addNewNode parent o = (o', .error .runtimeError) ∧ o'.map = .gone ∧ (Bad o.sys ∨ 2^31 ≤ free + 20)) := by
  have hge := h.ge
  unfold addNewNode
  rcases append_cases (data := nodeBytes INVALID_WORDID parent) h hc (by simp) with ⟨o1, e1, t1, f1⟩ | ⟨o', e, hv, hf⟩ | ⟨o', e, hg, hw⟩
  · rcases Trie.append_spec (data := nodeBytes INVALID_WORDID parent) h (by simp) with ⟨x, _⟩ | ⟨t', x, hh1, hg1, hd1⟩
    · rw [t1] at x; cases x
    rw [t1] at x
    obtain rfl : vw o1 = t' := by cases x; rfl
    simp only [nodeBytes_length] at hh1
    rw [bind_ok e1]
    rcases append_cases (data := ptrsBytes 0#16 0 0) hh1 f1.pos (by simp) with ⟨o2, e2, t2, f2⟩ | ⟨o', e, hv, hf⟩ | ⟨o', e, hg, hw⟩
    · left
      rcases Trie.append_spec (data := ptrsBytes 0#16 0 0) hh1 (by simp) with ⟨x, _⟩ | ⟨t', x, hh2, hg2, hd2⟩
      · rw [t2] at x; cases x
      rw [t2] at x
      obtain rfl : vw o2 = t' := by cases x; rfl
      have hb := hh2.size.bounds
      rw [bind_ok e2, bind_ok (rd_ok (by omega)), bind_ok (wr_eq (by show 12 + 4 ≤ _; omega))]
      refine ⟨_, rfl, ?_, (f1.trans f2).mem _⟩
      unfold Trie.addNewNode
      rw [t1]
      simp only [ok_bind]
      rw [t2]
      simp only [ok_bind]
      rw [Trie.rd32_ok (by omega)]
      simp only [ok_bind]
      rw [Trie.wr_ok (by simp; omega)]
      rfl
    · right; left
      rw [bind_error e]
      have k12 : (vw o').mem.get32 12 = (vw o).mem.get32 12 := by
        rw [hv]
        apply Mem.get32_congr
        intro x h1 h2
        exact hg1.keep x (by omega) (by omega)
      refine ⟨o', free + 8, rfl, ⟨by rw [hv]; exact hh1, by omega, by omega, by rw [hv]; exact hg1.root, ?_, by rw [k12]; omega,
        by rw [k12]⟩, ?_⟩
      · intro x h1 h2 _
        rw [hv]; exact hg1.keep x h1 h2
      · have := f1.trans hf
        rwa [Nat.zero_add] at this
    · right; right
      rw [bind_error e]
      refine ⟨o', rfl, hg, ?_⟩
      rw [f1.sys] at hw
      rcases hw with hw | hw
      · exact Or.inl hw
      · exact Or.inr (by omega)
  · right; left
    rw [bind_error e]
    exact ⟨o', free, rfl, by rw [hv]; exact Left.refl h, hf⟩
  · right; right
    rw [bind_error e]
    refine ⟨o', rfl, hg, ?_⟩
    rcases hw with hw | hw
    · exact Or.inl hw
    · exact Or.inr (by omega)

theorem addNewSibling_cases [Build] {o : Obj} {free node s : Nat} {l : Letter} (h : Trie.Hdr (vw o) free) (hc : 0 < o.calls)
    (hp : node < 2^32) (hn : o.mem.get32 12 + 1 < 2^32) (hs : 16 ≤ s) (hs2 : s + 12 ≤ free) (hz : o.mem.get32 (s + 8) = 0) :
    (∃ o', addNewSibling node s l o = (o', .ok free) ∧ (vw o).addNewSibling node s l = .ok (vw o', free) ∧ Fate o o' 0) ∨
    (∃ o' free', addNewSibling node s l o = (o', .error .runtimeError) ∧ Left (vw o) (vw o') free free' ∧ Fate o o' 1) ∨
    (∃ o', addNewSibling node s l o = (o', .error .runtimeError) ∧ o'.map = .gone ∧ (Bad o.sys ∨ 2^31 ≤ free + 32)) := by
  have hge := h.ge
  unfold addNewSibling
  rcases addNewNode_cases (parent := node) h hc with ⟨o1, e1, t1, f1⟩ | ⟨o', free', e, hv, hf⟩ | ⟨o', e, hg, hw⟩
  · rcases Trie.addNewNode_spec (parent := node) h hp hn with ⟨x, _⟩ |
      ⟨t', x, hh1, hroot1, hos1, hm1, hk1, hn1, hw1, hp1, hl1, hc1, hs1⟩
    · rw [t1] at x; cases x
    rw [t1] at x
    obtain rfl : vw o1 = t' := by cases x; rfl
    rw [bind_ok e1]
    rcases append_cases (data := ptrsBytes l free 0) hh1 f1.pos (by simp) with ⟨o2, e2, t2, f2⟩ | ⟨o', e, hv, hf⟩ | ⟨o', e, hg, hw⟩
    · left
      rcases Trie.append_spec (data := ptrsBytes l free 0) hh1 (by simp) with ⟨x, _⟩ | ⟨t', x, hh2, hg2, hd2⟩
      · rw [t2] at x; cases x
      rw [t2] at x
      obtain rfl : vw o2 = t' := by cases x; rfl
      simp only [ptrsBytes_length] at hh2
      have hb := hh2.size.bounds
      have hlt := hh2.lt
      have k8 : o2.mem.get32 (s + 8) = 0 := by
        rw [← hz]
        apply Mem.get32_congr
        intro x h1 h2
        exact (hg2.keep x (by omega) (by omega)).trans (hk1 x (by omega) (by omega) (by omega))
      rw [bind_ok e2, bind_ok (rd_ok (by omega)), k8, bind_ok (assert_eq (by simp)), bind_ok (wr_eq (by simp; omega))]
      refine ⟨_, rfl, ?_, (f1.trans f2).mem _⟩
      unfold Trie.addNewSibling
      rw [t1]
      simp only [ok_bind]
      rw [t2]
      simp only [ok_bind]
      have k8' : (vw o2).mem.get32 (s + 8) = 0 := k8
      rw [Trie.rd32_ok (by omega), k8']
      simp only [ok_bind]
      rw [cassert_ok (by simp)]
      simp only [ok_bind]
      rw [Trie.wr_ok (by simp; omega)]
      rfl
    · right; left
      rw [bind_error e]
      refine ⟨o', free + 20, rfl, ⟨by rw [hv]; exact hh1, by omega, by omega, by rw [hv]; exact hroot1, ?_, by rw [hv, hn1]; omega,
        by rw [hv, hn1]; omega⟩, ?_⟩
      · intro x h1 h2 h3
        rw [hv]; exact hk1 x h1 h2 h3
      · have := f1.trans hf
        rwa [Nat.zero_add] at this
    · right; right
      rw [bind_error e]
      refine ⟨o', rfl, hg, ?_⟩
      rw [f1.sys] at hw
      rcases hw with hw | hw
      · exact Or.inl hw
      · exact Or.inr (by omega)
  · right; left
    rw [bind_error e]
    exact ⟨o', free', rfl, hv, hf⟩
  · right; right
    rw [bind_error e]
    refine ⟨o', rfl, hg, ?_⟩
    rcases hw with hw | hw
    · exact Or.inl hw
    · exact Or.inr (by omega)

end Columbus.Res
