import Verif.Proofs.Mem
/-
The file of a trie grows no further than needed: once grown, at least half of it is full.
-/

namespace Columbus

/-- The file has its first size, or half of it is full. -/
def Snug (t : Trie) : Prop := t.mapped = 1024 ∨ t.mapped ≤ 2 * t.mem.get32 4

theorem growLoop_half [Build] {size free : Nat} (hs : size ≤ 12) : ∀ fuel {t t' : Trie}, Trie.Hdr t free →
    t.growLoop size fuel = .ok t' → t'.mapped = t.mapped ∨ t'.mapped ≤ 2 * (free + size)
  | 0, _, _, _, e => by cases e
  | fuel + 1, t, t', hh, e => by
    have hb := hh.size.bounds
    have hlt := hh.lt
    unfold Trie.growLoop at e
    rw [Trie.rd32_ok (by omega), Trie.rd32_ok (by omega), hh.total, hh.free_eq] at e
    simp only [ok_bind] at e
    rw [Nat.mod_eq_of_lt (by omega)] at e
    split at e
    · rename_i hge
      by_cases hr : t.mapped = 2^31 ∨ (t.mapped < 2^31 ∧ t.os (2 * t.mapped) = false)
      · rw [Trie.expand_fail hh hr] at e; cases e
      · obtain ⟨t1, e1, hh1, _, hm⟩ := Trie.expand_ok hh (fun h => hr (Or.inl h)) (by
          cases hx : t.os (2 * t.mapped) with
          | true => rfl
          | false => exact absurd (Or.inr ⟨by have : t.mapped ≠ 2^31 := fun h => hr (Or.inl h); omega, hx⟩) hr)
        rw [e1, ok_bind] at e
        rcases growLoop_half hs fuel hh1 e with h | h
        · right; omega
        · right; exact h
    · cases e; exact Or.inl rfl

theorem append_snug [Build] {t t' : Trie} {free a : Nat} {data : List Nat} (hh : Trie.Hdr t free) (hs : data.length ≤ 12)
    (hn : Snug t) (e : t.append data = .ok (t', a)) : Snug t' := by
  have hb := hh.size.bounds
  have hlt := hh.lt
  rcases Trie.append_spec hh hs with ⟨e', _⟩ | ⟨t1, e', hh1, _⟩
  · rw [e'] at e; cases e
  · rw [e] at e'
    cases e'
    have hmap : t'.mapped = t.mapped ∨ t'.mapped ≤ 2 * (free + data.length) := by
      unfold Trie.append at e
      rw [Trie.rd32_ok (by omega), Trie.rd32_ok (by omega), hh.total, hh.free_eq] at e
      simp only [ok_bind] at e
      rw [cassert_ok (by simp; omega)] at e
      simp only [ok_bind] at e
      rcases hg : t.growLoop data.length 33 with e1 | t1
      · rw [hg] at e; cases e
      · have hm : t'.mapped = t1.mapped := by
          rcases Trie.growLoop_spec (fuel := 31) hh hs with ⟨e1, _⟩ | ⟨t2, e1, hh2, _, hfit⟩
          · rw [hg] at e1; cases e1
          · rw [hg] at e1
            cases e1
            have hb2 := hh2.size.bounds
            rw [hg, ok_bind, Trie.rd32_ok (by omega), hh2.free_eq, ok_bind, Trie.wr_ok (by omega), ok_bind, Trie.wr_ok (by simp; omega), ok_bind,
              Trie.rd32_ok (by simp; omega), ok_bind, Trie.rd32_ok (by simp; omega), ok_bind] at e
            generalize cassert _ = y at e
            rcases y with e' | u
            · cases e
            · cases e; rfl
        rw [hm]
        exact growLoop_half hs 33 hh hg
    unfold Snug
    rw [hh1.free_eq]
    rcases hmap with h | h
    · rcases hn with hn | hn
      · left; omega
      · right; rw [hh.free_eq] at hn; omega
    · right; exact h

theorem snug_put {t : Trie} {a : Nat} {bs : List Nat} (ha : 8 ≤ a) (h : Snug t) : Snug { t with mem := t.mem.put a bs } := by
  unfold Snug at *
  rw [show (t.mem.put a bs).get32 4 = t.mem.get32 4 from Mem.get32_congr fun x _ h2 => Mem.put_out (by omega)]
  exact h

theorem addNewNode_snug [Build] {t t' : Trie} {free parent a : Nat} (hh : Trie.Hdr t free) (hn : Snug t)
    (e : t.addNewNode parent = .ok (t', a)) : Snug t' := by
  unfold Trie.addNewNode at e
  rcases Trie.append_spec (data := nodeBytes INVALID_WORDID parent) hh (by simp) with ⟨e1, _⟩ | ⟨t1, e1, hh1, _⟩
  · rw [e1] at e; cases e
  · have h1 := append_snug hh (by simp) hn e1
    rw [e1] at e
    simp only [ok_bind] at e
    rcases Trie.append_spec (data := ptrsBytes 0#16 0 0) hh1 (by simp) with ⟨e2, _⟩ | ⟨t2, e2, hh2, _⟩
    · rw [e2] at e; cases e
    · have h2 := append_snug hh1 (by simp) h1 e2
      have hb := hh2.size.bounds
      rw [e2] at e
      simp only [ok_bind] at e
      rw [Trie.rd32_ok (by omega), ok_bind, Trie.wr_ok (by simp; omega), ok_bind] at e
      cases e
      exact snug_put (by omega) h2

theorem addNewSibling_snug [Build] {t t' : Trie} {free node s a : Nat} {l : Letter} (hh : Trie.Hdr t free) (hn : Snug t)
    (hp : node < 2^32) (hc : t.mem.get32 12 + 1 < 2^32)
    (e : t.addNewSibling node s l = .ok (t', a)) : Snug t' := by
  unfold Trie.addNewSibling at e
  rcases Trie.addNewNode_spec (parent := node) hh hp hc with ⟨e1, _⟩ | ⟨t1, e1, hh1, _⟩
  · rw [e1] at e; cases e
  · have h1 := addNewNode_snug hh hn e1
    rw [e1] at e
    simp only [ok_bind] at e
    rcases Trie.append_spec (data := ptrsBytes l free 0) hh1 (by simp) with ⟨e2, _⟩ | ⟨t2, e2, hh2, _⟩
    · rw [e2] at e; cases e
    · have h2 := append_snug hh1 (by simp) h1 e2
      rw [e2] at e
      simp only [ok_bind] at e
      generalize t2.rd32 (s + 8) = y at e
      rcases y with e' | v
      · cases e
      · rw [ok_bind] at e
        generalize cassert _ = y at e
        rcases y with e' | u
        · cases e
        · rw [ok_bind] at e
          unfold Trie.wr at e
          split at e
          · cases e; exact snug_put (by omega) h2
          · cases e

theorem new_snug [Build] {os : Nat → Bool} {t : Trie} (e : Trie.new os = .ok t) : Snug t := by
  unfold Trie.new at e
  cases hos : os 1024 with
  | false => simp only [hos, if_true] at e; cases e
  | true =>
    simp only [hos, Bool.true_eq_false, if_false] at e
    rw [Trie.wr_ok (by simp)] at e
    simp only [ok_bind] at e
    rw [Trie.rd32_ok (by simp), Trie.rd32_ok (by simp)] at e
    simp only [ok_bind] at e
    have e0 : (Mem.put (fun _ => 0) 0 (bytes32 1024)).get32 0 = 1024 := Mem.get32_put (by decide)
    have e4 : (Mem.put (fun _ => 0) 0 (bytes32 1024)).get32 4 = 0 := by decide
    rw [e0, e4, cassert_ok (by decide)] at e
    simp only [ok_bind] at e
    rw [Trie.wr_ok (by simp)] at e
    simp only [ok_bind] at e
    rw [Trie.rd32_ok (by simp)] at e
    simp only [ok_bind] at e
    have er : ((Mem.put (fun _ => 0) 0 (bytes32 1024)).put 4 (bytes32 sizeofHeader)).get32 4 = 16 :=
      Mem.get32_put (by decide)
    rw [er, Trie.wr_ok (by simp)] at e
    simp only [ok_bind] at e
    generalize hm : ((Mem.put (fun _ => 0) 0 (bytes32 1024)).put 4 (bytes32 sizeofHeader)).put 8 (bytes32 0) = m at e
    have hh : Trie.Hdr ⟨m, 1024, 16, os⟩ 16 := by
      refine ⟨⟨0, by omega, by simp⟩, ?_, ?_, by simp, by simp⟩
      · show m.get32 0 = 1024; rw [← hm]; decide
      · show m.get32 4 = 16; rw [← hm]; decide
    rcases hx : (⟨m, 1024, 16, os⟩ : Trie).addNewNode 0 with e' | ⟨t4, a⟩
    · rw [hx] at e; cases e
    · rw [hx] at e
      cases e
      exact addNewNode_snug hh (Or.inl rfl) hx

end Columbus
