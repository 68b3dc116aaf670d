import Verif.Spec.Resources
import Verif.Proofs.Store
import Verif.Proofs.LevIndex
/-
Helpers for C86: which resources each call of Model/Resources.lean keeps, and its agreement with Model/Trie.lean.
-/

namespace Columbus.Res

open Act

/-! ### The calls, run -/

theorem bind_ok {α β : Type} {x : Act α} {f : α → Act β} {o o' : Obj} {a : α} (h : x o = (o', .ok a)) :
    (x >>= f) o = f a o' := by
  show (match x o with | (o', .ok a) => f a o' | (o', .error e) => (o', .error e)) = _
  rw [h]

theorem bind_error {α β : Type} {x : Act α} {f : α → Act β} {o o' : Obj} {e : Fault} (h : x o = (o', .error e)) :
    (x >>= f) o = (o', .error e) := by
  show (match x o with | (o', .ok a) => f a o' | (o', .error e) => (o', .error e)) = _
  rw [h]

theorem grants_succ (sys : System) (c : Nat) : grants sys (c + 1) = grants sys c + if granted sys c then 1 else 0 := by
  unfold grants
  rw [List.range_succ, List.countP_append]
  simp [List.countP_cons]

/-- The mapping of a constructed object: one of the size reached by doubling, or it is lost. -/
def Sized (o : Obj) : Prop :=
  (∃ j, j ≤ 21 ∧ grants o.sys o.calls = j + 1 ∧ 0 < o.calls ∧ o.map = .live (1024 * 2^j)) ∨ (o.map = .gone ∧ Lost o)

/-- Two objects with the same private part, file and system. -/
def Same (o o' : Obj) : Prop := o'.priv = o.priv ∧ o'.file = o.file ∧ o'.sys = o.sys

theorem Same.refl (o : Obj) : Same o o := ⟨rfl, rfl, rfl⟩

theorem Same.trans {a b c : Obj} (h : Same a b) (h' : Same b c) : Same a c :=
  ⟨h'.1.trans h.1, h'.2.1.trans h.2.1, h'.2.2.trans h.2.2⟩

/-- A call that keeps the private part and the file and at most replaces the mapping. -/
def Keeps {α : Type} (x : Act α) : Prop := ∀ o, Sized o → Sized (x o).1 ∧ Same o (x o).1

theorem Keeps.bind {α β : Type} {x : Act α} {f : α → Act β} (hx : Keeps x) (hf : ∀ a, Keeps (f a)) : Keeps (x >>= f) := by
  intro o ho
  obtain ⟨h1, h2⟩ := hx o ho
  rcases h : x o with ⟨o', a | a⟩
  · rw [bind_error h]; rw [h] at h1 h2; exact ⟨h1, h2⟩
  · rw [bind_ok h]; rw [h] at h1 h2
    obtain ⟨h3, h4⟩ := hf a o' h1
    exact ⟨h3, h2.trans h4⟩

theorem Keeps.pure {α : Type} (a : α) : Keeps (pure a : Act α) := fun o h => ⟨h, Same.refl o⟩
theorem Keeps.throw {α : Type} (e : Fault) : Keeps (throw e : Act α) := fun o h => ⟨h, Same.refl o⟩
theorem Keeps.read {α : Type} (f : Trie → M α) : Keeps (read f) := fun o h => ⟨h, Same.refl o⟩
theorem Keeps.get : Keeps get := fun o h => ⟨h, Same.refl o⟩
theorem Keeps.rd32 (a : Nat) : Keeps (rd32 a) := Keeps.read _
theorem Keeps.assert [Build] (b : Bool) : Keeps (assert b) := Keeps.read _

theorem Keeps.wr (a : Nat) (bs : List Nat) : Keeps (wr a bs) := by
  intro o h
  unfold Act.wr
  split
  · exact ⟨h, rfl, rfl, rfl⟩
  · exact ⟨h, Same.refl o⟩

/-- The tail of `expand` after a granted mapping keeps. -/
theorem grow_spec [Build] (a : Answers) (keep n : Nat) (o : Obj) :
    Same o (grow a keep n o).1 ∧ (grow a keep n o).1.calls = o.calls ∧
      (a.truncate = false → (grow a keep n o).1.map = o.map ∧ (grow a keep n o).2 = .error .runtimeError) ∧
      (a.truncate = true → (n = 0 ∨ a.map = false) → (grow a keep n o).1.map = .gone ∧ (grow a keep n o).2 = .error .runtimeError) ∧
      (a.truncate = true → n ≠ 0 → a.map = true → (grow a keep n o).1.map = .live n) := by
  have key : ∀ (m : Mem) (o' : Obj), o'.map = .live n →
      ∀ x, x = (do wr 0 (bytes32 n); let total ← Act.rd32 0; let free ← Act.rd32 4; assert (decide (free < total)) : Act Unit) o' →
      Same o' x.1 ∧ x.1.calls = o'.calls ∧ x.1.map = .live n := by
    intro m o' hm x hx
    subst hx
    rcases hw : Act.wr 0 (bytes32 n) o' with ⟨o1, e | u⟩
    · rw [bind_error hw]
      unfold Act.wr at hw
      split at hw <;> cases hw
      exact ⟨Same.refl _, rfl, hm⟩
    · rw [bind_ok hw]
      unfold Act.wr at hw
      split at hw <;> cases hw
      have hk : ∀ o1 : Obj, ((do let total ← Act.rd32 0; let free ← Act.rd32 4; assert (decide (free < total)) : Act Unit) o1).1 = o1 := by
        intro o1
        rcases h0 : Act.rd32 0 o1 with ⟨o2, e | a0⟩
        · rw [bind_error h0]; exact (congrArg Prod.fst h0).symm
        · rw [bind_ok h0]
          cases (show o1 = o2 from congrArg Prod.fst h0)
          rcases h4 : Act.rd32 4 o1 with ⟨o2, e | a4⟩
          · rw [bind_error h4]; exact (congrArg Prod.fst h4).symm
          · rw [bind_ok h4]
            cases (show o1 = o2 from congrArg Prod.fst h4)
            rfl
      rw [hk]
      exact ⟨⟨rfl, rfl, rfl⟩, rfl, hm⟩
  unfold grow
  by_cases h1 : a.truncate = false
  · rw [if_pos h1]
    exact ⟨Same.refl _, rfl, fun _ => ⟨rfl, rfl⟩, fun h => absurd (h1.symm.trans h) (by simp), fun h => absurd (h1.symm.trans h) (by simp)⟩
  · rw [if_neg h1]
    by_cases h2 : n = 0 ∨ a.map = false
    · rw [if_pos h2]
      exact ⟨⟨rfl, rfl, rfl⟩, rfl, fun h => absurd h h1, fun _ _ => ⟨rfl, rfl⟩,
        fun _ h3 h4 => by rcases h2 with h2 | h2; exact absurd h2 h3; rw [h2] at h4; cases h4⟩
    · rw [if_neg h2]
      have hb := key o.mem { o with map := .live n, mem := fun x => if x < keep then o.mem x else 0 } rfl _ rfl
      refine ⟨hb.1, hb.2.1, fun h => absurd h h1, fun _ h => absurd h h2, fun _ _ _ => hb.2.2⟩

theorem size_double {j : Nat} (hj : j < 21) : 1024 * 2^j * 2 % 2^32 = 1024 * 2^(j+1) := by
  have h2 : 2^j ≤ 2^20 := Nat.pow_le_pow_right (by omega) (by omega)
  have : (2:Nat)^20 = 1048576 := by decide
  rw [Nat.pow_succ, Nat.mod_eq_of_lt (by omega)]
  omega

/-- `expand` on a mapping of the length that the header says. -/
theorem expand_live [Build] {o : Obj} {n : Nat} (hm : o.map = .live n) (hn : 4 ≤ n) (h0 : o.mem.get32 0 = n) :
    expand o = (if (o.sys.expand o.calls).unmap = false then ({ o with calls := o.calls + 1 }, .error .runtimeError)
      else grow (o.sys.expand o.calls) n (n * 2 % 2^32) { o with calls := o.calls + 1, map := .gone }) := by
  unfold expand
  rw [bind_ok (show Act.get o = (o, .ok o) from rfl)]
  have hr : Act.rd32 0 o = (o, .ok n) := by
    unfold Act.rd32 Act.read Trie.rd32
    have hv : (o.view fun _ => false).mapped = n := by show o.map.len = _; rw [hm]; rfl
    have hv' : (o.view fun _ => false).mem = o.mem := rfl
    dsimp only
    rw [if_pos (by omega), hv', h0]
  simp only [hm]
  rw [bind_ok hr, if_neg (by simp [Map.len])]
  rw [bind_ok (show modify (fun o => { o with calls := o.calls + 1 }) o = ({ o with calls := o.calls + 1 }, .ok ()) from rfl)]
  split
  · rw [← hm]; rfl
  · rfl

/-- In all other cases `expand` on a constructed object is undefined behaviour and changes nothing. -/
theorem expand_ub [Build] {o : Obj} (h : o.map ≠ .null) (hn : ¬ (∃ n, o.map = .live n ∧ 4 ≤ n ∧ o.mem.get32 0 = n)) :
    expand o = (o, .error .ub) := by
  have key : ((do
      let oldSize ← Act.rd32 0
      if oldSize ≠ o.map.len then Act.throw .ub
      else do
        modify fun o => { o with calls := o.calls + 1 }
        if (o.sys.expand o.calls).unmap = false then Act.throw .runtimeError
        else do
          modify fun o => { o with map := .gone }
          grow (o.sys.expand o.calls) oldSize (oldSize * 2 % 2^32) : Act Unit)) o = (o, .error .ub) := by
    by_cases h4 : 4 ≤ o.map.len
    · have hr : Act.rd32 0 o = (o, .ok (o.mem.get32 0)) := by
        unfold Act.rd32 Act.read Trie.rd32
        have hv : (o.view fun _ => false).mapped = o.map.len := rfl
        dsimp only
        rw [if_pos (by omega)]
        rfl
      rw [bind_ok hr, if_pos]
      · rfl
      · intro e
        apply hn
        generalize o.map = mp at *
        cases mp with
        | null => exact absurd rfl h
        | gone => exact absurd h4 (by decide)
        | live n => exact ⟨n, rfl, h4, e⟩
    · have hr : Act.rd32 0 o = (o, .error .ub) := by
        unfold Act.rd32 Act.read Trie.rd32
        have hv : (o.view fun _ => false).mapped = o.map.len := rfl
        dsimp only
        rw [if_neg (by omega)]
      rw [bind_error hr]
  unfold expand
  rw [bind_ok (show Act.get o = (o, .ok o) from rfl)]
  generalize ha : o.sys.expand o.calls = a at *
  rcases hm : o.map with _ | n | _
  · exact absurd hm h
  · rw [hm] at key; exact key
  · rw [hm] at key; exact key

theorem keeps_expand [Build] : Keeps expand := by
  intro o ho
  by_cases hn : ∃ n, o.map = .live n ∧ 4 ≤ n ∧ o.mem.get32 0 = n
  · obtain ⟨n, hm, h4, h0⟩ := hn
    rw [expand_live hm h4 h0]
    obtain ⟨j, hj, hg, hc, hm'⟩ | ⟨hm', hl⟩ := ho
    · rw [hm] at hm'
      cases hm'
      have hp : 1 ≤ 2^j := Nat.one_le_two_pow
      generalize ha : o.sys.expand o.calls = a
      by_cases hu : a.unmap = false
      · rw [if_pos hu]
        refine ⟨Or.inl ⟨j, hj, ?_, Nat.succ_pos _, hm⟩, rfl, rfl, rfl⟩
        show grants o.sys (o.calls + 1) = _
        rw [grants_succ, hg, if_neg]
        unfold granted
        rw [ha, hu]; simp; omega
      · rw [if_neg hu]
        have hu' : a.unmap = true := by simpa using hu
        generalize ho1 : ({ o with calls := o.calls + 1, map := .gone } : Obj) = o1
        have hs1 : Same o o1 := by subst ho1; exact ⟨rfl, rfl, rfl⟩
        have hc1 : o1.calls = o.calls + 1 := by subst ho1; rfl
        have hm1 : o1.map = .gone := by subst ho1; rfl
        obtain ⟨g1, g2, g3, g4, g5⟩ := grow_spec a (1024 * 2^j) (1024 * 2^j * 2 % 2^32) o1
        generalize grow a (1024 * 2^j) (1024 * 2^j * 2 % 2^32) o1 = x at *
        refine ⟨?_, hs1.trans g1⟩
        have hsys : x.1.sys = o.sys := (hs1.trans g1).2.2
        have hcalls : x.1.calls = o.calls + 1 := g2.trans hc1
        cases ht : a.truncate with
        | false =>
          refine Or.inr ⟨(g3 ht).1.trans hm1, o.calls, hcalls, Or.inr (by rw [hsys, ha]; exact hu'), Or.inl (by rw [hsys, ha]; exact ht)⟩
        | true =>
          cases hmp : a.map with
          | false =>
            refine Or.inr ⟨(g4 ht (Or.inr hmp)).1, o.calls, hcalls, Or.inr (by rw [hsys, ha]; exact hu'), Or.inr (Or.inl (by rw [hsys, ha]; exact hmp))⟩
          | true =>
            by_cases hj' : j = 21
            · subst hj'
              refine Or.inr ⟨(g4 ht (Or.inl (by decide))).1, o.calls, hcalls, Or.inr (by rw [hsys, ha]; exact hu'), Or.inr (Or.inr (by rw [hsys, hg]))⟩
            · have hp' : 1 ≤ 2^(j+1) := Nat.one_le_two_pow
              have e := size_double (j := j) (by omega)
              rw [e] at g5
              refine Or.inl ⟨j + 1, by omega, ?_, by omega, g5 ht (by omega) hmp⟩
              rw [hsys, hcalls, grants_succ, hg, if_pos]
              unfold granted
              rw [ha, hu', ht, hmp]; simp
    · rw [hm] at hm'; cases hm'
  · have hne : o.map ≠ .null := by
      obtain ⟨j, hj, hg, hc, hm⟩ | ⟨hm, hl⟩ := ho
      · rw [hm]; simp
      · rw [hm]; simp
    rw [expand_ub hne hn]
    exact ⟨ho, Same.refl o⟩

theorem keeps_growLoop [Build] (size : Nat) : ∀ fuel, Keeps (growLoop size fuel)
  | 0 => Keeps.throw _
  | fuel + 1 => by
    unfold growLoop
    refine (Keeps.rd32 _).bind fun free => (Keeps.rd32 _).bind fun total => ?_
    split
    · exact keeps_expand.bind fun _ => keeps_growLoop size fuel
    · exact Keeps.pure _

theorem keeps_append [Build] (data : List Nat) : Keeps (append data) := by
  unfold append
  exact (Keeps.rd32 _).bind fun _ => (Keeps.rd32 _).bind fun _ => (Keeps.assert _).bind fun _ => (keeps_growLoop _ _).bind fun _ =>
    (Keeps.rd32 _).bind fun _ => (Keeps.wr _ _).bind fun _ => (Keeps.wr _ _).bind fun _ => (Keeps.rd32 _).bind fun _ =>
    (Keeps.rd32 _).bind fun _ => (Keeps.assert _).bind fun _ => Keeps.pure _

theorem keeps_addNewNode [Build] (parent : Nat) : Keeps (addNewNode parent) := by
  unfold addNewNode
  exact (keeps_append _).bind fun _ => (keeps_append _).bind fun _ => (Keeps.rd32 _).bind fun _ => (Keeps.wr _ _).bind fun _ =>
    Keeps.pure _

theorem keeps_addNewSibling [Build] (node s : Nat) (l : Letter) : Keeps (addNewSibling node s l) := by
  unfold addNewSibling
  exact (keeps_addNewNode _).bind fun _ => (keeps_append _).bind fun _ => (Keeps.rd32 _).bind fun _ => (Keeps.assert _).bind fun _ =>
    (Keeps.wr _ _).bind fun _ => Keeps.pure _

theorem keeps_insertLoop [Build] : ∀ (w : List Letter) (node : Nat), Keeps (insertLoop node w)
  | [], _ => Keeps.pure _
  | l :: rest, node => by
    unfold insertLoop
    refine (Keeps.read _).bind fun _ => (Keeps.read _).bind fun _ => ?_
    split
    · exact (Keeps.rd32 _).bind fun _ => keeps_insertLoop rest _
    · exact (keeps_addNewSibling _ _ _).bind fun _ => keeps_insertLoop rest _

theorem keeps_insertWord [Build] (w : Word) (id : WordID) : Keeps (insertWord w id) := by
  unfold insertWord
  refine (Keeps.read _).bind fun lw => ?_
  have tail : Keeps (do
      let o ← Act.get
      let node ← insertLoop o.root w
      let x ← Act.rd32 node
      if x = INVALID_WORDID then do
        Act.wr node (bytes32 id)
        let n ← Act.rd32 8
        Act.wr 8 (bytes32 (n + 1))
        let w' ← Act.rd32 node
        Act.assert (decide (w' = id % 2^32))
        pure node
      else do
        Act.assert (decide (x = id % 2^32))
        pure node : Act Nat) := by
    refine Keeps.get.bind fun _ => (keeps_insertLoop _ _).bind fun _ => (Keeps.rd32 _).bind fun _ => ?_
    split
    · exact (Keeps.wr _ _).bind fun _ => (Keeps.rd32 _).bind fun _ => (Keeps.wr _ _).bind fun _ => (Keeps.rd32 _).bind fun _ =>
        (Keeps.assert _).bind fun _ => Keeps.pure _
    · exact (Keeps.assert _).bind fun _ => Keeps.pure _
  split
  · exact (Keeps.assert _).bind fun _ => tail
  · exact tail

/-! ### Agreement with Model/Trie.lean -/

/-- The mapping was taken away, or the last `munmap` was refused. -/
def Dropped (o : Obj) : Prop := o.map = .gone ∨ ∃ k, o.calls = k + 1 ∧ 0 < k ∧ (o.sys.expand k).unmap = false

/-- The object is that trie, with its mapping. -/
structure Agree (o : Obj) (t : Trie) : Prop where
  mem : o.mem = t.mem
  map : o.map = .live t.mapped
  root : o.root = t.root
  like : Like o.sys t.os
  calls : ∃ j, t.mapped = 1024 * 2^j ∧ o.calls = j + 1

theorem Agree.view {o : Obj} {t : Trie} (h : Agree o t) : o.view t.os = t := by
  unfold Obj.view
  rw [h.mem, h.map, h.root]
  rfl

/-- A call that has done what the trie does. -/
def Sim {α : Type} (r : Obj × M α) (s : M (Trie × α)) : Prop :=
  match s with
  | .ok (t, a) => r.2 = .ok a ∧ Agree r.1 t
  | .error e => r.2 = .error e ∧ (e = .runtimeError → Dropped r.1)

/-- The same for calls without a result. -/
def SimU (r : Obj × M Unit) (s : M Trie) : Prop :=
  match s with
  | .ok t => r.2 = .ok () ∧ Agree r.1 t
  | .error e => r.2 = .error e ∧ (e = .runtimeError → Dropped r.1)

theorem Sim.bind {α β : Type} {x : Act α} {f : α → Act β} {o : Obj} {y : M (Trie × α)} {g : Trie × α → M (Trie × β)}
    (h : Sim (x o) y) (hk : ∀ o' t' a, y = .ok (t', a) → Agree o' t' → Sim (f a o') (g (t', a))) :
    Sim ((x >>= f) o) (y >>= g) := by
  rcases y with e | ⟨t', a⟩
  · rw [bind_error (show x o = ((x o).1, .error e) from Prod.ext rfl h.1)]
    exact ⟨rfl, h.2⟩
  · rw [bind_ok (show x o = ((x o).1, .ok a) from Prod.ext rfl h.1)]
    exact hk _ _ _ rfl h.2

theorem SimU.bind {β : Type} {x : Act Unit} {f : Unit → Act β} {o : Obj} {y : M Trie} {g : Trie → M (Trie × β)}
    (h : SimU (x o) y) (hk : ∀ o' t', y = .ok t' → Agree o' t' → Sim (f () o') (g t')) :
    Sim ((x >>= f) o) (y >>= g) := by
  rcases y with e | t'
  · rw [bind_error (show x o = ((x o).1, .error e) from Prod.ext rfl h.1)]
    exact ⟨rfl, h.2⟩
  · rw [bind_ok (show x o = ((x o).1, .ok ()) from Prod.ext rfl h.1)]
    exact hk _ _ rfl h.2

theorem SimU.bindU {x : Act Unit} {f : Unit → Act Unit} {o : Obj} {y : M Trie} {g : Trie → M Trie}
    (h : SimU (x o) y) (hk : ∀ o' t', y = .ok t' → Agree o' t' → SimU (f () o') (g t')) :
    SimU ((x >>= f) o) (y >>= g) := by
  rcases y with e | t'
  · rw [bind_error (show x o = ((x o).1, .error e) from Prod.ext rfl h.1)]
    exact ⟨rfl, h.2⟩
  · rw [bind_ok (show x o = ((x o).1, .ok ()) from Prod.ext rfl h.1)]
    exact hk _ _ rfl h.2

/-- A read that never throws `runtime_error`. -/
theorem sim_read {α β : Type} {φ : Trie → M α} {f : α → Act β} {o : Obj} {y : M α} {g : α → M (Trie × β)}
    (h : φ (o.view fun _ => false) = y) (hr : y ≠ .error .runtimeError) (hk : ∀ a, y = .ok a → Sim (f a o) (g a)) :
    Sim ((read φ >>= f) o) (y >>= g) := by
  rcases y with e | a
  · rw [bind_error (show read φ o = (o, .error e) from Prod.ext rfl h)]
    exact ⟨rfl, fun h => absurd (congrArg Except.error h) hr⟩
  · rw [bind_ok (show read φ o = (o, .ok a) from Prod.ext rfl h)]
    exact hk _ rfl

theorem simU_read {α : Type} {φ : Trie → M α} {f : α → Act Unit} {o : Obj} {y : M α} {g : α → M Trie}
    (h : φ (o.view fun _ => false) = y) (hr : y ≠ .error .runtimeError) (hk : ∀ a, y = .ok a → SimU (f a o) (g a)) :
    SimU ((read φ >>= f) o) (y >>= g) := by
  rcases y with e | a
  · rw [bind_error (show read φ o = (o, .error e) from Prod.ext rfl h)]
    exact ⟨rfl, fun h => absurd (congrArg Except.error h) hr⟩
  · rw [bind_ok (show read φ o = (o, .ok a) from Prod.ext rfl h)]
    exact hk _ rfl

theorem rd32_ne (t : Trie) (a : Nat) : t.rd32 a ≠ .error .runtimeError := by
  unfold Trie.rd32; split <;> simp

theorem rdLetter_ne (t : Trie) (a : Nat) : t.rdLetter a ≠ .error .runtimeError := by
  unfold Trie.rdLetter; split <;> simp

theorem cassert_ne [Build] (b : Bool) : cassert b ≠ .error .runtimeError := by
  unfold cassert; split <;> simp

theorem walk_ne (t : Trie) (l : Letter) : ∀ fuel a, t.walk l fuel a ≠ .error .runtimeError
  | 0, _ => by simp [Trie.walk]
  | fuel + 1, a => by
    unfold Trie.walk
    rcases h : t.rd32 (a + 8) with e | s
    · simp only [error_bind]; intro h'; exact rd32_ne t (a + 8) (by rw [h]; exact h')
    · simp only [ok_bind]
      rcases h : t.rdLetter a with e | c
      · simp only [error_bind]; intro h'; exact rdLetter_ne t a (by rw [h]; cases h'; rfl)
      · simp only [ok_bind]
        split
        · exact walk_ne t l fuel s
        · simp

theorem walk_os {t t' : Trie} (hm : t.mem = t'.mem) (hl : t.mapped = t'.mapped) (l : Letter) : ∀ fuel a, t.walk l fuel a = t'.walk l fuel a
  | 0, _ => rfl
  | fuel + 1, a => by
    unfold Trie.walk
    have h1 : t.rd32 (a + 8) = t'.rd32 (a + 8) := by unfold Trie.rd32; rw [hm, hl]
    have h2 : t.rdLetter a = t'.rdLetter a := by unfold Trie.rdLetter; rw [hm, hl]
    rw [h1, h2]
    congr 1; funext s; congr 1; funext c
    split
    · exact walk_os hm hl l fuel s
    · rfl

theorem Agree.rd32 {o : Obj} {t : Trie} (h : Agree o t) (a : Nat) : (o.view fun _ => false).rd32 a = t.rd32 a := by
  rw [← h.view]; rfl

theorem Agree.rdLetter {o : Obj} {t : Trie} (h : Agree o t) (a : Nat) : (o.view fun _ => false).rdLetter a = t.rdLetter a := by
  rw [← h.view]; rfl

theorem sim_wr {o : Obj} {t : Trie} (h : Agree o t) (a : Nat) (bs : List Nat) : SimU (wr a bs o) (t.wr a bs) := by
  have hl : o.map.len = t.mapped := by rw [h.map]; rfl
  unfold Act.wr Trie.wr
  rw [hl]
  split
  · exact ⟨rfl, by show o.mem.put a bs = t.mem.put a bs; rw [h.mem], h.map, h.root, h.like, h.calls⟩
  · exact ⟨rfl, fun h => by cases h⟩

theorem sim_expand [Build] {o : Obj} {t : Trie} {free : Nat} (hh : Trie.Hdr t free) (h : Agree o t) :
    SimU (expand o) t.expand := by
  obtain ⟨j, hj, hc⟩ := h.calls
  have hb := hh.size.bounds
  rw [expand_live h.map (by omega) (by rw [h.mem, hh.total])]
  have hos : t.os (2 * t.mapped) = ((o.sys.expand o.calls).unmap && (o.sys.expand o.calls).truncate && (o.sys.expand o.calls).map) := by
    have hl := h.like o.calls
    unfold granted at hl
    rw [hc] at hl ⊢
    simp only [Nat.add_eq_zero_iff, Nat.one_ne_zero, and_false, beq_false_of_ne, ne_eq, not_false_eq_true,
      Bool.false_or] at hl
    rw [← hl, hj, Nat.pow_succ]; congr 1; omega
  have hcp : 0 < o.calls := by omega
  generalize ha : o.sys.expand o.calls = a at *
  by_cases hr : t.mapped = 2^31 ∨ (t.mapped < 2^31 ∧ t.os (2 * t.mapped) = false)
  · rw [Trie.expand_fail hh hr]
    by_cases h0 : a.unmap = false
    · rw [if_pos h0]; exact ⟨rfl, fun _ => Or.inr ⟨o.calls, rfl, hcp, by show (o.sys.expand o.calls).unmap = false; rw [ha]; exact h0⟩⟩
    · rw [if_neg h0]
      unfold grow
      by_cases h1 : a.truncate = false
      · rw [if_pos h1]; exact ⟨rfl, fun _ => Or.inl rfl⟩
      · rw [if_neg h1, if_pos]
        · exact ⟨rfl, fun _ => Or.inl rfl⟩
        · rcases hr with hr | hr
          · left; rw [hr]; rfl
          · right
            rw [hos] at hr
            simpa [h0, h1] using hr.2
  · have h31 : t.mapped < 2^31 := by
      rcases Nat.lt_or_ge t.mapped (2^31) with h | h
      · exact h
      · exact absurd (Or.inl (by omega)) hr
    have ho : t.os (2 * t.mapped) = true := by
      cases hx : t.os (2 * t.mapped) with
      | true => rfl
      | false => exact absurd (Or.inr ⟨h31, hx⟩) hr
    have ho' := ho
    rw [hos, Bool.and_eq_true, Bool.and_eq_true] at ho'
    obtain ⟨⟨hu, ht⟩, hmp⟩ := ho'
    have e : t.mapped * 2 % 2^32 = 2 * t.mapped := by rw [Nat.mul_comm, Nat.mod_eq_of_lt (by omega)]
    unfold grow
    rw [if_neg (by rw [hu]; simp), if_neg (by rw [ht]; simp), if_neg (by rw [hmp, e]; simp; omega)]
    unfold Trie.expand
    rw [Trie.rd32_ok (by omega), hh.total, e]
    simp only [ok_bind, e]
    rw [if_neg (by rw [ho]; simp; omega)]
    rw [bind_ok (show modify _ _ = (_, .ok ()) from rfl)]
    have hag : Agree { o with calls := o.calls + 1, map := .live (2 * t.mapped), mem := fun x => if x < t.mapped then o.mem x else 0 }
        ⟨fun x => if x < t.mapped then t.mem x else 0, 2 * t.mapped, t.root, t.os⟩ := by
      refine ⟨?_, rfl, h.root, h.like, j + 1, ?_, ?_⟩
      · show (fun x => if x < t.mapped then o.mem x else 0) = _
        rw [h.mem]
      · show 2 * t.mapped = _
        rw [hj, Nat.pow_succ]; omega
      · show o.calls + 1 = _
        omega
    refine SimU.bindU (sim_wr hag _ _) fun o' t' _ ha => ?_
    · refine simU_read (ha.rd32 0) (rd32_ne _ _) fun total _ => simU_read (ha.rd32 4) (rd32_ne _ _) fun fr _ => ?_
      rcases hx : cassert (decide (fr < total)) with e | u
      · refine ⟨hx, fun h => ?_⟩
        subst h; exact absurd hx (cassert_ne _)
      · exact ⟨hx, ha⟩

theorem sim_growLoop [Build] {size free : Nat} : ∀ fuel {o : Obj} {t : Trie}, Trie.Hdr t free → Agree o t →
    SimU (growLoop size fuel o) (t.growLoop size fuel)
  | 0, _, _, _, _ => ⟨rfl, fun h => by cases h⟩
  | fuel + 1, o, t, hh, h => by
    unfold growLoop Trie.growLoop
    refine simU_read (h.rd32 4) (rd32_ne _ _) fun fr _ => simU_read (h.rd32 0) (rd32_ne _ _) fun total _ => ?_
    split
    · refine SimU.bindU (sim_expand hh h) fun o' t' e ha => sim_growLoop (free := free) fuel ?_ ha
      by_cases hr : t.mapped = 2^31 ∨ (t.mapped < 2^31 ∧ t.os (2 * t.mapped) = false)
      · rw [Trie.expand_fail hh hr] at e; cases e
      · have hb := hh.size.bounds
        obtain ⟨t'', e', hh', _⟩ := Trie.expand_ok hh (fun h => hr (Or.inl h)) (by
          cases hx : t.os (2 * t.mapped) with
          | true => rfl
          | false => exact absurd (Or.inr ⟨by have : t.mapped ≠ 2^31 := fun h => hr (Or.inl h); omega, hx⟩) hr)
        rw [e] at e'
        cases e'
        exact hh'
    · exact ⟨rfl, h⟩

theorem sim_append [Build] {o : Obj} {t : Trie} {free : Nat} (hh : Trie.Hdr t free) (h : Agree o t) (data : List Nat) :
    Sim (append data o) (t.append data) := by
  unfold append Trie.append
  refine sim_read (h.rd32 0) (rd32_ne _ _) fun total _ => sim_read (h.rd32 4) (rd32_ne _ _) fun fr _ =>
    sim_read rfl (cassert_ne _) fun _ _ => ?_
  refine SimU.bind (sim_growLoop 33 hh h) fun o1 t1 _ h1 => sim_read (h1.rd32 4) (rd32_ne _ _) fun fr _ => ?_
  refine SimU.bind (sim_wr h1 _ _) fun o2 t2 _ h2 => SimU.bind (sim_wr h2 _ _) fun o3 t3 _ h3 => ?_
  refine sim_read (h3.rd32 0) (rd32_ne _ _) fun total _ => sim_read (h3.rd32 4) (rd32_ne _ _) fun fr _ =>
    sim_read rfl (cassert_ne _) fun _ _ => ?_
  exact ⟨rfl, h3⟩

theorem sim_addNewNode [Build] {o : Obj} {t : Trie} {free : Nat} (hh : Trie.Hdr t free) (h : Agree o t) (parent : Nat) :
    Sim (addNewNode parent o) (t.addNewNode parent) := by
  unfold addNewNode Trie.addNewNode
  refine Sim.bind (sim_append hh h _) fun o1 t1 a e1 h1 => ?_
  rcases Trie.append_spec (data := nodeBytes INVALID_WORDID parent) hh (by simp) with ⟨e, _⟩ | ⟨t1', e, hh1, _⟩
  · rw [e] at e1; cases e1
  · rw [e] at e1
    cases e1
    refine Sim.bind (sim_append hh1 h1 _) fun o2 t2 _ _ h2 => sim_read (h2.rd32 12) (rd32_ne _ _) fun n _ => ?_
    exact SimU.bind (sim_wr h2 _ _) fun o3 t3 _ h3 => ⟨rfl, h3⟩

theorem sim_addNewSibling [Build] {o : Obj} {t : Trie} {free : Nat} (hh : Trie.Hdr t free) (h : Agree o t) {node s : Nat} {l : Letter}
    (hp : node < 2^32) (hn : t.mem.get32 12 + 1 < 2^32) :
    Sim (addNewSibling node s l o) (t.addNewSibling node s l) := by
  unfold addNewSibling Trie.addNewSibling
  refine Sim.bind (sim_addNewNode hh h _) fun o1 t1 a e1 h1 => ?_
  rcases Trie.addNewNode_spec (parent := node) hh hp hn with ⟨e, _⟩ | ⟨t1', e, hh1, _⟩
  · rw [e] at e1; cases e1
  · rw [e] at e1
    cases e1
    refine Sim.bind (sim_append hh1 h1 _) fun o2 t2 _ _ h2 => sim_read (h2.rd32 _) (rd32_ne _ _) fun n _ =>
      sim_read rfl (cassert_ne _) fun _ _ => ?_
    exact SimU.bind (sim_wr h2 _ _) fun o3 t3 _ h3 => ⟨rfl, h3⟩

theorem sim_insertLoop [Build] (w : List Letter) (hw : ∀ l ∈ w, l ≠ 0#16) : ∀ (t : Trie) (g : Ghost) (k : Nat) (o : Obj),
    TInv t g → k < g.n → Agree o t → Sim (insertLoop (addr k) w o) (t.insertLoop (addr k) w) := by
  induction w with
  | nil => intro t g k o _ _ h; exact ⟨rfl, h⟩
  | cons l w ih =>
    intro t g k o ht hk h
    have ihw := ih (fun x hx => hw x (by simp [hx]))
    have hb := ht.bound
    unfold insertLoop Trie.insertLoop
    have hwalk : ∀ a, (fun t : Trie => t.walk l (t.mapped + 1) a) (o.view fun _ => false) = t.walk l (t.mapped + 1) a := by
      intro a
      have hv : (o.view fun _ => false).mapped = t.mapped := by show o.map.len = _; rw [h.map]; rfl
      show (o.view fun _ => false).walk l ((o.view fun _ => false).mapped + 1) a = _
      rw [hv]
      exact walk_os h.mem hv l _ _
    refine sim_read (hwalk _) (walk_ne _ _ _ _) fun sibl es => sim_read (h.rdLetter _) (rdLetter_ne _ _) fun c ec => ?_
    rcases walk_node ht hk (hw l (by simp)) with ⟨j, hj, hp, e1, e2, e3⟩ | ⟨hno, j, c', hcell, hlast, e1, e2, hc⟩
    · rw [e1] at es
      cases es
      rw [e2] at ec
      cases ec
      rw [if_pos rfl, if_pos rfl]
      refine sim_read (h.rd32 _) (rd32_ne _ _) fun child e => ?_
      rw [e3] at e
      cases e
      exact ihw t g j o ht hj h
    · rw [e1] at es
      cases es
      rw [e2] at ec
      cases ec
      rw [if_neg hc, if_neg hc]
      have hak := addr_cases k
      refine Sim.bind (sim_addNewSibling ht.hdr h (by omega) (by rw [ht.mnodes]; omega)) fun o1 t1 a e1 h1 => ?_
      rcases addNewSibling_inv ht hk hcell hlast (hw l (by simp)) hno with ⟨e, _⟩ | ⟨t1', e, ht1, _⟩
      · rw [e] at e1; cases e1
      · rw [e] at e1
        cases e1
        exact ihw _ (g.add k l) g.n o1 ht1 (Nat.lt_succ_self _) h1

theorem sim_insertWord [Build] {t : Trie} {g : Ghost} {o : Obj} (ht : TInv t g) (h : Agree o t) {w : Word}
    (hw : ∀ l ∈ w, l ≠ 0#16) (id : WordID) : Sim (insertWord w id o) (t.insertWord w id) := by
  unfold insertWord Trie.insertWord
  have hat : Word.at w 0 ≠ .error .runtimeError := by
    unfold Word.at; split <;> simp
  refine sim_read rfl hat fun lw _ => ?_
  have tail : Sim ((do
      let o ← Act.get
      let node ← insertLoop o.root w
      let x ← Act.rd32 node
      if x = INVALID_WORDID then do
        Act.wr node (bytes32 id)
        let n ← Act.rd32 8
        Act.wr 8 (bytes32 (n + 1))
        let w' ← Act.rd32 node
        Act.assert (decide (w' = id % 2^32))
        pure node
      else do
        Act.assert (decide (x = id % 2^32))
        pure node : Act Nat) o) (do
      let (t1, node) ← t.insertLoop t.root w
      let x ← t1.rd32 node
      if x = INVALID_WORDID then
        let t2 ← t1.wr node (bytes32 id)
        let n ← t2.rd32 8
        let t3 ← t2.wr 8 (bytes32 (n + 1))
        let w' ← t3.rd32 node
        cassert (decide (w' = id % 2^32))
        .ok (t3, node)
      else
        cassert (decide (x = id % 2^32))
        .ok (t1, node)) := by
    rw [bind_ok (show Act.get o = (o, .ok o) from rfl), h.root, ht.root]
    refine Sim.bind (sim_insertLoop w hw t g 0 o ht ht.pos h) fun o1 t1 node _ h1 => ?_
    refine sim_read (h1.rd32 _) (rd32_ne _ _) fun x _ => ?_
    split
    · refine SimU.bind (sim_wr h1 _ _) fun o2 t2 _ h2 => sim_read (h2.rd32 _) (rd32_ne _ _) fun n _ => ?_
      refine SimU.bind (sim_wr h2 _ _) fun o3 t3 _ h3 => sim_read (h3.rd32 _) (rd32_ne _ _) fun w' _ => ?_
      exact sim_read rfl (cassert_ne _) fun _ _ => ⟨rfl, h3⟩
    · exact sim_read rfl (cassert_ne _) fun _ _ => ⟨rfl, h1⟩
  split
  · exact sim_read rfl (cassert_ne _) fun _ _ => tail
  · exact tail

theorem like_exists (sys : System) : ∃ os, Like sys os := by
  refine ⟨fun n => granted sys (Nat.log2 (n / 1024)), fun k => ?_⟩
  show granted sys (Nat.log2 (1024 * 2^k / 1024)) = _
  rw [Nat.mul_div_cancel_left _ (by decide), Nat.log2_two_pow]

/-- The constructor: refused the file, refused the first mapping, or done. -/
theorem sim_construct [Build] {sys : System} {os : Nat → Bool} (hl : Like sys os) :
    (sys.tmpfile = false ∧ construct (blank sys) = ({ blank sys with priv := true }, .error .runtimeError)) ∨
    (sys.tmpfile = true ∧ granted sys 0 = false ∧ ∃ o, construct (blank sys) = (o, .error .runtimeError) ∧
      o.priv = true ∧ o.file = true ∧ (∀ n, o.map ≠ .live n) ∧ o.sys = sys) ∨
    (sys.tmpfile = true ∧ granted sys 0 = true ∧ ∃ o t, construct (blank sys) = (o, .ok ()) ∧ Trie.new os = .ok t ∧
      Agree o t ∧ o.priv = true ∧ o.file = true ∧ o.sys = sys ∧ Sized o) := by
  have h1024 : os 1024 = granted sys 0 := hl 0
  unfold construct
  rw [bind_ok (show Act.get (blank sys) = (blank sys, .ok (blank sys)) from rfl)]
  rw [bind_ok (show modify (fun o => { o with priv := true }) (blank sys) = ({ blank sys with priv := true }, .ok ()) from rfl)]
  cases ht : sys.tmpfile with
  | false =>
    left
    rw [if_pos (show (blank sys).sys.tmpfile = false from ht)]
    exact ⟨rfl, rfl⟩
  | true =>
    right
    rw [if_neg (show ¬ (blank sys).sys.tmpfile = false by show ¬ sys.tmpfile = false; rw [ht]; simp)]
    rw [bind_ok (show modify (fun o : Obj => { o with file := true, map := .null }) { blank sys with priv := true } =
      ({ blank sys with priv := true, file := true, map := .null }, .ok ()) from rfl)]
    generalize ho : ({ blank sys with priv := true, file := true, map := .null } : Obj) = o0
    have hex : expand o0 = grow (sys.expand 0) 0 1024 { o0 with calls := 1 } := by subst ho; rfl
    cases hg : granted sys 0 with
    | false =>
      left
      obtain ⟨g1, g2, g3, g4, g5⟩ := grow_spec (sys.expand 0) 0 1024 { o0 with calls := 1 }
      rw [← hex] at g1 g2 g3 g4
      have hfail : (expand o0).2 = .error .runtimeError ∧ ∀ n, (expand o0).1.map ≠ .live n := by
        cases hx : (sys.expand 0).truncate with
        | false =>
          refine ⟨(g3 hx).2, fun n => ?_⟩
          rw [(g3 hx).1]
          subst ho
          show Map.null ≠ _
          simp
        | true =>
          cases hy : (sys.expand 0).map with
          | false =>
            refine ⟨(g4 hx (Or.inr hy)).2, fun n => ?_⟩
            rw [(g4 hx (Or.inr hy)).1]; simp
          | true => unfold granted at hg; rw [hx, hy] at hg; simp at hg
      refine ⟨rfl, rfl, (expand o0).1, ?_, ?_, ?_, hfail.2, ?_⟩
      · exact bind_error (Prod.ext rfl hfail.1)
      · rw [g1.1]; subst ho; rfl
      · rw [g1.2.1]; subst ho; rfl
      · rw [g1.2.2]; subst ho; rfl
    | true =>
      right
      refine ⟨rfl, rfl, ?_⟩
      have hg' := hg
      unfold granted at hg'
      simp only [BEq.rfl, Bool.true_or, Bool.true_and, Bool.and_eq_true] at hg'
      -- what is kept is known by structure; the outcome by the trie
      let post : Act Unit := do
        wr 4 (bytes32 sizeofHeader)
        let root ← Act.rd32 4
        modify fun o => { o with root := root }
        wr 8 (bytes32 0)
        let _ ← addNewNode 0
        pure ()
      have hkeep : Keeps post := (Keeps.wr _ _).bind fun _ => (Keeps.rd32 _).bind fun _ =>
        Keeps.bind (x := modify _) (fun o h => ⟨h, rfl, rfl, rfl⟩) fun _ => (Keeps.wr _ _).bind fun _ =>
          (keeps_addNewNode _).bind fun _ => Keeps.pure _
      obtain ⟨g1, g2, _, _, g5⟩ := grow_spec (sys.expand 0) 0 1024 { o0 with calls := 1 }
      rw [← hex] at g1 g2 g5
      have hs0 : o0.sys = sys ∧ o0.priv = true ∧ o0.file = true ∧ o0.mem = (fun _ => 0) ∧ o0.root = 0 := by
        subst ho; exact ⟨rfl, rfl, rfl, rfl, rfl⟩
      have hsized : Sized (expand o0).1 := by
        refine Or.inl ⟨0, by omega, ?_, ?_, g5 hg'.1 (by decide) hg'.2⟩
        · rw [g1.2.2, g2, hs0.1]
          show (List.range 1).countP (granted sys) = 1
          simp [List.range_one, hg]
        · rw [g2]; exact Nat.one_pos
      -- the same steps on the trie
      have hsim1 : SimU (expand o0) (do
          let t1 ← (⟨fun _ => 0, 1024, 0, os⟩ : Trie).wr 0 (bytes32 1024)
          let total ← t1.rd32 0
          let free ← t1.rd32 4
          cassert (decide (free < total))
          .ok t1) := by
        rw [hex]
        unfold grow
        rw [if_neg (by rw [hg'.1]; simp), if_neg (by rw [hg'.2]; simp)]
        rw [bind_ok (show modify _ _ = (_, .ok ()) from rfl)]
        have hag : Agree { o0 with calls := 1, map := .live 1024, mem := fun x => if x < 0 then o0.mem x else 0 }
            ⟨fun _ => 0, 1024, 0, os⟩ := by
          refine ⟨?_, rfl, hs0.2.2.2.2, by show Like o0.sys os; rw [hs0.1]; exact hl, 0, rfl, rfl⟩
          funext x
          show (if x < 0 then o0.mem x else 0) = 0
          exact if_neg (Nat.not_lt_zero x)
        refine SimU.bindU (sim_wr hag _ _) fun o' t' _ ha => ?_
        refine simU_read (ha.rd32 0) (rd32_ne _ _) fun total _ => simU_read (ha.rd32 4) (rd32_ne _ _) fun fr _ => ?_
        rcases hx : cassert (decide (fr < total)) with e | u
        · refine ⟨hx, fun h => ?_⟩
          subst h; exact absurd hx (cassert_ne _)
        · exact ⟨hx, ha⟩
      have hnew : Trie.new os = ((do
          let t1 ← (⟨fun _ => 0, 1024, 0, os⟩ : Trie).wr 0 (bytes32 1024)
          let total ← t1.rd32 0
          let free ← t1.rd32 4
          cassert (decide (free < total))
          .ok t1 : M Trie) >>= fun t1 => do
            let t2 ← t1.wr 4 (bytes32 sizeofHeader)
            let root ← t2.rd32 4
            let t3 ← ({ t2 with root := root } : Trie).wr 8 (bytes32 0)
            let (t4, _) ← t3.addNewNode 0
            .ok t4) := by
        unfold Trie.new
        rw [h1024, hg]
        simp only [Bool.true_eq_false, if_false, bind_assoc, ok_bind]
      have hall : SimU ((expand >>= fun _ => post) o0) (Trie.new os) := by
        rw [hnew]
        refine SimU.bindU hsim1 fun o1 t1 e1 h1 => SimU.bindU (sim_wr h1 _ _) fun o2 t2 e2 h2 =>
          simU_read (h2.rd32 4) (rd32_ne _ _) fun root er => ?_
        rw [bind_ok (show modify _ _ = (_, .ok ()) from rfl)]
        have h2' : Agree { o2 with root := root } { t2 with root := root } := ⟨h2.mem, h2.map, rfl, h2.like, h2.calls⟩
        refine SimU.bindU (sim_wr h2' _ _) fun o3 t3 e3 h3 => ?_
        rw [Trie.wr_ok (by simp)] at e1
        simp only [ok_bind] at e1
        rw [Trie.rd32_ok (by simp), Trie.rd32_ok (by simp)] at e1
        simp only [ok_bind] at e1
        have v0 : (Mem.put (fun _ => 0) 0 (bytes32 1024)).get32 0 = 1024 := Mem.get32_put (by decide)
        have v4 : (Mem.put (fun _ => 0) 0 (bytes32 1024)).get32 4 = 0 := by decide
        rw [v0, v4, cassert_ok (by decide)] at e1
        cases e1
        rw [Trie.wr_ok (by simp)] at e2
        cases e2
        rw [Trie.rd32_ok (by simp)] at er
        have vr : ((Mem.put (fun _ => 0) 0 (bytes32 1024)).put 4 (bytes32 sizeofHeader)).get32 4 = 16 :=
          Mem.get32_put (by decide)
        rw [vr] at er
        cases er
        rw [Trie.wr_ok (by simp)] at e3
        cases e3
        generalize hm : ((Mem.put (fun _ => 0) 0 (bytes32 1024)).put 4 (bytes32 sizeofHeader)).put 8 (bytes32 0) = m at *
        have hh : Trie.Hdr ⟨m, 1024, 16, os⟩ 16 := by
          refine ⟨⟨0, by omega, by simp⟩, ?_, ?_, by simp, by simp⟩
          · show m.get32 0 = 1024; rw [← hm]; decide
          · show m.get32 4 = 16; rw [← hm]; decide
        have hs := sim_addNewNode hh h3 0
        generalize (⟨m, 1024, 16, os⟩ : Trie).addNewNode 0 = y at *
        rcases y with e | ⟨t4, a⟩
        · rw [bind_error (Prod.ext rfl hs.1 : addNewNode 0 o3 = ((addNewNode 0 o3).1, .error e))]
          exact ⟨rfl, hs.2⟩
        · rw [bind_ok (Prod.ext rfl hs.1 : addNewNode 0 o3 = ((addNewNode 0 o3).1, .ok a))]
          exact ⟨rfl, hs.2⟩
      rcases new_spec os with ⟨h, _⟩ | ⟨t, ht, _, _, _⟩
      · rw [h1024, hg] at h; cases h
      · rw [ht] at hall
        obtain ⟨hk1, hk2⟩ := hkeep _ hsized
        have hfst : ((expand >>= fun _ => post) o0).1 = (post (expand o0).1).1 := by
          rcases hx : expand o0 with ⟨o', e | a⟩
          · rw [bind_error hx] at hall; cases hall.1
          · rw [bind_ok hx]
        rw [← hfst] at hk1 hk2
        have hsame := g1.trans hk2
        exact ⟨_, t, Prod.ext rfl hall.1, ht, hall.2, hsame.1.trans hs0.2.1, hsame.2.1.trans hs0.2.2.1, hsame.2.2.trans hs0.1, hk1⟩

/-! ### The file grows no further than needed -/

theorem insertLoop_snug [Build] (w : List Letter) (hw : ∀ l ∈ w, l ≠ 0#16) : ∀ (t : Trie) (g : Ghost) (k : Nat) (t' : Trie) (a : Nat),
    TInv t g → k < g.n → Snug t → t.insertLoop (addr k) w = .ok (t', a) → Snug t' := by
  induction w with
  | nil => intro t g k t' a _ _ h e; cases e; exact h
  | cons l w ih =>
    intro t g k t' a ht hk h e
    have ihw := ih (fun x hx => hw x (by simp [hx]))
    have hb := ht.bound
    unfold Trie.insertLoop at e
    rcases walk_node ht hk (hw l (by simp)) with ⟨j, hj, hp, e1, e2, e3⟩ | ⟨hno, j, c', hcell, hlast, e1, e2, hc⟩
    · rw [e1, ok_bind, e2, ok_bind, if_pos rfl, e3, ok_bind] at e
      exact ihw t g j t' a ht hj h e
    · rw [e1, ok_bind, e2, ok_bind, if_neg hc] at e
      have hak := addr_cases k
      rcases addNewSibling_inv ht hk hcell hlast (hw l (by simp)) hno with ⟨e4, _⟩ | ⟨t1, e4, ht1, _⟩
      · rw [e4] at e; cases e
      · have h1 := addNewSibling_snug ht.hdr h (by omega) (by rw [ht.mnodes]; omega) e4
        rw [e4] at e
        exact ihw t1 (g.add k l) g.n t' a ht1 (Nat.lt_succ_self _) h1 e

theorem insertWord_snug [Build] {t t' : Trie} {g : Ghost} {w : Word} {id a : Nat} (ht : TInv t g) (hw : ∀ l ∈ w, l ≠ 0#16) (h : Snug t)
    (e : t.insertWord w id = .ok (t', a)) : Snug t' := by
  have tail : ∀ y : M (Trie × Nat), y = (do
      let (t1, node) ← t.insertLoop t.root w
      let x ← t1.rd32 node
      if x = INVALID_WORDID then
        let t2 ← t1.wr node (bytes32 id)
        let n ← t2.rd32 8
        let t3 ← t2.wr 8 (bytes32 (n + 1))
        let w' ← t3.rd32 node
        cassert (decide (w' = id % 2^32))
        .ok (t3, node)
      else
        cassert (decide (x = id % 2^32))
        .ok (t1, node)) → y = .ok (t', a) → Snug t' := by
    intro y hy e
    subst hy
    rw [ht.root] at e
    rcases insertLoop_spec w hw t g 0 ht ht.pos with ⟨e1, _⟩ | ⟨t1, g1, k, e1, h1, _, hk, _⟩
    · rw [show (16 : Nat) = addr 0 from rfl, e1] at e; cases e
    · have hs := insertLoop_snug w hw t g 0 t1 _ ht ht.pos h e1
      rw [show (16 : Nat) = addr 0 from rfl, e1] at e
      have hak := addr_cases k
      have hb := h1.bound
      simp only [ok_bind] at e
      rw [rd_word h1 hk, ok_bind] at e
      split at e
      · rw [Trie.wr_ok (by simp; omega), ok_bind, Trie.rd32_ok (by simp; omega), ok_bind, Trie.wr_ok (by simp; omega), ok_bind,
          Trie.rd32_ok (by simp; omega), ok_bind] at e
        generalize cassert _ = y at e
        rcases y with e' | u
        · cases e
        · cases e
          exact snug_put (Nat.le_refl 8) (snug_put (by omega) hs)
      · generalize cassert _ = y at e
        rcases y with e' | u
        · cases e
        · cases e
          exact hs
  unfold Trie.insertWord at e
  generalize Word.at w 0 = y at e
  rcases y with e' | lw
  · cases e
  · rw [ok_bind] at e
    by_cases hc : (isSurrogate lw && !isHighSurrogate lw) = true
    · rw [if_pos hc] at e
      generalize cassert false = y at e
      rcases y with e' | u
      · cases e
      · exact tail _ rfl e
    · rw [if_neg hc] at e
      exact tail _ rfl e

/-! ### Programs -/

/-- What is held for each trie ever made. -/
def Entry (x : Life × Obj) : Prop :=
  match x.1 with
  | .failed => x.2.priv = true ∧ x.2.file = x.2.sys.tmpfile ∧ (∀ n, x.2.map ≠ .live n) ∧
      ¬ (x.2.sys.tmpfile = true ∧ granted x.2.sys 0 = true)
  | .alive => x.2.priv = true ∧ x.2.file = true ∧ Sized x.2 ∧ x.2.sys.tmpfile = true ∧ granted x.2.sys 0 = true
  | .ended => x.2.priv = false ∧ x.2.file = false ∧ Sized x.2 ∧ x.2.sys.tmpfile = true ∧ granted x.2.sys 0 = true

theorem entry_insert [Build] {o : Obj} (h : Entry (.alive, o)) (w : Word) (id : WordID) : Entry (.alive, (insertWord w id o).1) := by
  obtain ⟨h1, h2, h3, h4, h5⟩ := h
  obtain ⟨k1, k2, k3, k4⟩ := keeps_insertWord w id o h3
  exact ⟨k2.trans h1, k3.trans h2, k1, by show (insertWord w id o).1.sys.tmpfile = true; rw [k4]; exact h4,
    by show granted (insertWord w id o).1.sys 0 = true; rw [k4]; exact h5⟩

theorem entry_make [Build] (sys : System) :
    (∃ o, construct (blank sys) = (o, .ok ()) ∧ Entry (.alive, o)) ∨
    (∃ o, construct (blank sys) = (o, .error .runtimeError) ∧ Entry (.failed, o)) := by
  obtain ⟨os, hl⟩ := like_exists sys
  rcases sim_construct hl with ⟨h1, h2⟩ | ⟨h1, h2, o, h3, h4, h5, h6, h7⟩ | ⟨h1, h2, o, t, h3, _, _, h4, h5, h6, h7⟩
  · right
    refine ⟨_, h2, rfl, ?_, ?_, ?_⟩
    · show false = sys.tmpfile; rw [h1]
    · intro n; show Map.gone ≠ _; simp
    · show ¬ (sys.tmpfile = true ∧ _); rw [h1]; simp
  · right
    refine ⟨o, h3, h4, ?_, h6, ?_⟩
    · show o.file = o.sys.tmpfile; rw [h7, h1, h5]
    · show ¬ (_ ∧ granted o.sys 0 = true); rw [h7, h2]; simp
  · left
    refine ⟨o, h3, h4, h5, h7, ?_, ?_⟩
    · show o.sys.tmpfile = true; rw [h6]; exact h1
    · show granted o.sys 0 = true; rw [h6]; exact h2

theorem entry_step [Build] {p p' : Proc} {op : Op} (hp : ∀ x ∈ p, Entry x) (h : step p op = .ok p') : ∀ x ∈ p', Entry x := by
  have hset : ∀ (i : Nat) (y : Life × Obj), Entry y → ∀ x ∈ p.set i y, Entry x := by
    intro i y hy x hx
    rcases List.mem_or_eq_of_mem_set hx with hx | rfl
    · exact hp x hx
    · exact hy
  cases op with
  | make sys =>
    rcases entry_make sys with ⟨o, e, ho⟩ | ⟨o, e, ho⟩
    · simp only [step, e] at h
      cases h
      intro x hx
      simp only [List.mem_append, List.mem_singleton] at hx
      rcases hx with hx | rfl
      · exact hp x hx
      · exact ho
    · simp only [step, e, caught, if_true] at h
      cases h
      intro x hx
      simp only [List.mem_append, List.mem_singleton] at hx
      rcases hx with hx | rfl
      · exact hp x hx
      · exact ho
  | insert i w id =>
    rcases hi : p[i]? with _ | ⟨_ | _ | _, o⟩
    · simp only [step, hi] at h; cases h
    · simp only [step, hi] at h; cases h
    · simp only [step, hi] at h
      have ho := entry_insert (hp _ (List.mem_of_getElem? hi)) w id
      rcases hx : insertWord w id o with ⟨o', e | a⟩
      · simp only [hx] at h ho
        split at h
        · cases h; exact hset i _ ho
        · cases h
      · simp only [hx] at h ho
        cases h; exact hset i _ ho
    · simp only [step, hi] at h; cases h
  | find i w =>
    rcases hi : p[i]? with _ | ⟨_ | _ | _, o⟩
    · simp only [step, hi] at h; cases h
    · simp only [step, hi] at h; cases h
    · simp only [step, hi] at h
      split at h
      · cases h; exact hp
      · cases h
    · simp only [step, hi] at h; cases h
  | destroy i =>
    rcases hi : p[i]? with _ | ⟨_ | _ | _, o⟩
    · simp only [step, hi] at h; cases h
    · simp only [step, hi] at h; cases h
    · simp only [step, hi] at h
      have ho := hp _ (List.mem_of_getElem? hi)
      cases h
      obtain ⟨_, _, h3, h4, h5⟩ := ho
      exact hset i _ ⟨rfl, rfl, h3, h4, h5⟩
    · simp only [step, hi] at h; cases h

theorem entry_run [Build] : ∀ {ops : List Op} {p p' : Proc}, (∀ x ∈ p, Entry x) → run ops p = .ok p' → ∀ x ∈ p', Entry x
  | [], p, p', hp, h => by cases h; exact hp
  | op :: ops, p, p', hp, h => by
    unfold run at h
    rcases hs : step p op with e | p1
    · rw [hs] at h; cases h
    · rw [hs] at h
      exact entry_run (entry_step hp hs) h

end Columbus.Res
