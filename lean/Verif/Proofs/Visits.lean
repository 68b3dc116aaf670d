import Verif.Proofs.SearchShape
import Verif.Proofs.EditFacts
import Verif.Model.Visits
/-
Facts about the nodes a search looks at.
-/

namespace Columbus
open Spec

variable {e : ErrorValues} {c : EditCosts} {q : Word} {L : Nat} {B : Int}

/-! ### The record changes nothing -/

theorem map_bind {α β γ : Type} (m : M α) (f : α → M β) (g : β → γ) :
    Except.map g (m >>= f) = m >>= fun x => Except.map g (f x) := by
  cases m <;> rfl

theorem bind_congr_ok {α β : Type} {m : M α} {f g : α → M β} (h : ∀ x, m = .ok x → f x = g x) : (m >>= f) = m >>= g := by
  cases m with
  | error f => rfl
  | ok x => exact h x rfl

/-- What is left without the record. -/
def forget (r : ErrorMatrix × IndexMatches × List Word) : ErrorMatrix × IndexMatches := (r.1, r.2.1)

theorem visit_forget (t : Trie) (T : Int) : ∀ fuel : Nat,
    (∀ node l p d path em ms seen, Except.map forget (LevIndex.visitRecursive t q e T fuel node l p d path em ms seen) =
      LevIndex.searchRecursive t q e T fuel node l p d em ms) ∧
    (∀ sib l d path em ms seen, Except.map forget (LevIndex.visitSiblings t q e T fuel sib l d path em ms seen) =
      LevIndex.searchSiblings t q e T fuel sib l d em ms) := by
  intro fuel
  induction fuel with
  | zero =>
    exact ⟨fun _ _ _ _ _ _ _ _ => by rw [LevIndex.visitRecursive, LevIndex.searchRecursive]; rfl,
      fun _ _ _ _ _ _ _ => by rw [LevIndex.visitSiblings, LevIndex.searchSiblings]; rfl⟩
  | succ fuel ih =>
    obtain ⟨ihr, ihs⟩ := ih
    constructor
    · intro node l p d path em ms seen
      rw [LevIndex.visitRecursive, LevIndex.searchRecursive]
      simp only [map_bind]
      refine bind_congr_ok fun em1 _ => bind_congr_ok fun tot _ => bind_congr_ok fun w _ => bind_congr_ok fun mn _ => ?_
      by_cases hmn : mn ≤ T
      · simp only [if_pos hmn, map_bind]
        exact bind_congr_ok fun s _ => ihs _ _ _ _ _ _ _
      · simp only [if_neg hmn]; rfl
    · intro sib l d path em ms seen
      rw [LevIndex.visitSiblings, LevIndex.searchSiblings]
      by_cases h0 : sib = 0
      · simp only [if_pos h0]; rfl
      · simp only [if_neg h0, map_bind]
        refine bind_congr_ok fun l' _ => bind_congr_ok fun nx _ => ?_
        rw [← ihr nx l' l d (path ++ [l']) em ms seen]
        cases hv : LevIndex.visitRecursive t q e T fuel nx l' l d (path ++ [l']) em ms seen with
        | error f => rfl
        | ok r =>
          obtain ⟨em1, ms1, seen1⟩ := r
          simp only [Except.map, forget, ok_bind]
          exact bind_congr_ok fun s _ => ihs _ _ _ _ _ _ _

theorem visitWords_forget [Build] [Runtime] (ix : LevIndex) (T : Int) (ms0 : IndexMatches) :
    Except.map Prod.fst (ix.visitWords q e T ms0) = ix.findWords q e T ms0 := by
  have key : ∀ (em : ErrorMatrix) (sib : Nat),
      Except.map Prod.fst (do
        let (_, ms, seen) ← LevIndex.visitSiblings ix.trie q e T ix.trie.mapped sib 0#16 1 [] em ms0 []
        (.ok (IndexMatches.sort ms, seen) : M (IndexMatches × List Word))) =
      (do
        let (_, ms) ← LevIndex.searchSiblings ix.trie q e T ix.trie.mapped sib 0#16 1 em ms0
        (.ok (IndexMatches.sort ms) : M IndexMatches)) := by
    intro em sib
    rw [← (visit_forget ix.trie T ix.trie.mapped).2 sib 0#16 1 [] em ms0 []]
    cases LevIndex.visitSiblings ix.trie q e T ix.trie.mapped sib 0#16 1 [] em ms0 [] with
    | error f => rfl
    | ok r => rfl
  unfold LevIndex.visitWords LevIndex.findWords
  simp only [map_bind]
  refine bind_congr_ok fun em _ => bind_congr_ok fun e00 _ => bind_congr_ok fun _ _ => ?_
  by_cases hq : 0 < q.length
  · simp only [if_pos hq, map_bind]
    exact bind_congr_ok fun e01 _ => bind_congr_ok fun _ _ => bind_congr_ok fun sib _ => by rw [← map_bind]; exact key em sib
  · simp only [if_neg hq, map_bind]
    exact bind_congr_ok fun sib _ => by rw [← map_bind]; exact key em sib

/-! ### Whatever the settings -/

/-- What was recorded are the paths of different nodes in `S`. -/
def Saw (g : Ghost) (S : Nat → Prop) (seen seen' : List Word) : Prop :=
  ∃ js : List Nat, seen' = seen ++ js.map g.path ∧ js.Nodup ∧ ∀ j, j ∈ js → 1 ≤ j ∧ j < g.n ∧ S j

theorem visit_shape {t : Trie} {g : Ghost} (h : TInv t g) (T : Int) : ∀ fuel : Nat,
    (∀ (k : Nat) (l p : Letter) (d : Nat) (em : ErrorMatrix) (ms : IndexMatches) (seen : List Word) (em' : ErrorMatrix)
      (ms' : IndexMatches) (seen' : List Word), 1 ≤ k → k < g.n →
      LevIndex.visitRecursive t q e T fuel (addr k) l p d (g.path k) em ms seen = .ok (em', ms', seen') →
      Saw g (fun j => g.path k <+: g.path j) seen seen') ∧
    (∀ (p k : Nat) (l : Letter) (d : Nat) (em : ErrorMatrix) (ms : IndexMatches) (seen : List Word) (em' : ErrorMatrix)
      (ms' : IndexMatches) (seen' : List Word), p < g.n → (k ≠ 0 → g.Child p k) →
      LevIndex.visitSiblings t q e T fuel (link k) l d (g.path p) em ms seen = .ok (em', ms', seen') →
      Saw g (fun j => k ≠ 0 ∧ ∃ i, g.Child p i ∧ k ≤ i ∧ g.path i <+: g.path j) seen seen') := by
  intro fuel
  induction fuel with
  | zero =>
    constructor
    · intro k l p d em ms seen em' ms' seen' _ _ he
      rw [LevIndex.visitRecursive] at he; cases he
    · intro p k l d em ms seen em' ms' seen' _ _ he
      rw [LevIndex.visitSiblings] at he; cases he
  | succ fuel ih =>
    obtain ⟨ihr, ihs⟩ := ih
    constructor
    · intro k l p d em ms seen em' ms' seen' hk1 hk he
      rw [LevIndex.visitRecursive] at he
      obtain ⟨em1, _, he⟩ := bind_eq_ok.1 he
      obtain ⟨total, _, he⟩ := bind_eq_ok.1 he
      obtain ⟨w, hw, he⟩ := bind_eq_ok.1 he
      obtain ⟨mn, _, he⟩ := bind_eq_ok.1 he
      by_cases hmn : mn ≤ T
      · simp only [if_pos hmn] at he
        obtain ⟨sib, hsib, he⟩ := bind_eq_ok.1 he
        obtain ⟨j, hj, elink⟩ := h.rd_link hk (Or.inl rfl : g.IsCell k k)
        have hs : sib = link j := by
          rw [cell_self] at elink
          have : t.getSiblingList (addr k) = .ok (link j) := elink
          rw [this] at hsib; cases hsib; rfl
        subst hs
        have hchild : j ≠ 0 → g.Child k j := by
          intro hj0
          rcases hj with ⟨hx, _⟩ | ⟨a, b, c, _⟩
          · exact absurd hx hj0
          · exact ⟨a, b, c⟩
        obtain ⟨js2, e2, n2, p2⟩ := ihs k j _ _ _ _ _ _ _ _ hk hchild he
        refine ⟨k :: js2, by rw [e2]; simp, List.nodup_cons.2 ⟨?_, n2⟩, ?_⟩
        · intro hx
          obtain ⟨_, _, _, i, hi, _, hpre⟩ := p2 k hx
          have := hpre.length_le
          rw [hi.path h] at this
          simp at this
          omega
        · intro x hx
          rcases List.mem_cons.1 hx with rfl | hx
          · exact ⟨hk1, hk, List.prefix_refl _⟩
          · obtain ⟨h1, h2, _, i, hi, _, hpre⟩ := p2 x hx
            refine ⟨h1, h2, List.IsPrefix.trans ?_ hpre⟩
            rw [hi.path h]; exact List.prefix_append _ _
      · simp only [if_neg hmn] at he
        cases he
        refine ⟨[k], rfl, by simp, ?_⟩
        intro x hx
        rw [List.mem_singleton] at hx
        subst hx
        exact ⟨hk1, hk, List.prefix_refl _⟩
    · intro p k l d em ms seen em' ms' seen' hp hkc he
      rw [LevIndex.visitSiblings] at he
      by_cases hk0 : k = 0
      · subst hk0
        rw [if_pos (link_eq_zero.2 rfl)] at he
        cases he
        exact ⟨[], by simp, List.nodup_nil, by simp⟩
      · have hch := hkc hk0
        have hcell : g.IsCell p k := Or.inr hch
        have hpk' := hch.path h
        obtain ⟨hpk, hkn, hpar⟩ := hch
        rw [if_neg (fun hx => hk0 (link_eq_zero.1 hx))] at he
        have hlc : link k = cell p k := by rw [link, if_neg hk0, cell, if_neg (by omega)]
        have elet : t.getLetter (link k) = .ok (g.letter k) := by
          rw [hlc, Trie.getLetter, h.rd_cellLetter hp hcell, Ghost.cellLetter, if_neg (by omega)]
        have echild : t.getChild (link k) = .ok (addr k) := by
          rw [Trie.getChild, link, if_neg hk0]
          have hm := h.bound
          have := addr_cases k
          rw [Trie.rd32_ok (by omega), h.mchild k (by omega) hkn]
        obtain ⟨j, hj, elink⟩ := h.rd_link hp hcell
        have enext : t.getNextSibling (link k) = .ok (link j) := by rw [hlc]; exact elink
        rw [elet, ok_bind, echild, ok_bind] at he
        obtain ⟨⟨em1, ms1, seen1⟩, hrec, he⟩ := bind_eq_ok.1 he
        simp only [enext, ok_bind] at he
        rw [← hpk'] at hrec
        obtain ⟨js1, e1, n1, p1⟩ := ihr k _ _ _ _ _ _ _ _ _ (by omega) hkn hrec
        have hchild : j ≠ 0 → g.Child p j ∧ k < j := by
          intro hj0
          rcases hj with ⟨hx, _⟩ | ⟨a, b, c, _⟩
          · exact absurd hx hj0
          · exact ⟨⟨by omega, b, c⟩, a⟩
        obtain ⟨js2, e2, n2, p2⟩ := ihs p j _ _ _ _ _ _ _ _ hp (fun hx => (hchild hx).1) he
        refine ⟨js1 ++ js2, by rw [e2, e1, List.map_append, List.append_assoc], ?_, ?_⟩
        · rw [List.nodup_append]
          refine ⟨n1, n2, ?_⟩
          intro a ha b hb hab
          subst hab
          have hpre := (p1 a ha).2.2
          obtain ⟨_, _, hj0, i, hi, hji, hpre2⟩ := p2 a hb
          have := child_unique h ⟨hpk, hkn, hpar⟩ hi hpre hpre2
          have := (hchild hj0).2
          omega
        · intro x hx
          rcases List.mem_append.1 hx with hx | hx
          · obtain ⟨h1, h2, h3⟩ := p1 x hx
            exact ⟨h1, h2, hk0, k, ⟨hpk, hkn, hpar⟩, Nat.le_refl _, h3⟩
          · obtain ⟨h1, h2, hj0, i, hi, hji, hpre⟩ := p2 x hx
            have := (hchild hj0).2
            exact ⟨h1, h2, hk0, i, hi, by omega, hpre⟩

/-- The parts of a successful search. -/
theorem visitWords_parts [Build] [Runtime] {ix : LevIndex} {T : Int} {ms0 result : IndexMatches} {seen : List Word}
    (he : ix.visitWords q e T ms0 = .ok (result, seen)) : ∃ em em' ms' sib, ix.trie.getSiblingList ix.trie.getRoot = .ok sib ∧
      LevIndex.visitSiblings ix.trie q e T ix.trie.mapped sib 0#16 1 [] em ms0 [] = .ok (em', ms', seen) := by
  unfold LevIndex.visitWords at he
  obtain ⟨em, _, he⟩ := bind_eq_ok.1 he
  obtain ⟨e00, _, he⟩ := bind_eq_ok.1 he
  obtain ⟨_, _, he⟩ := bind_eq_ok.1 he
  have he' : (do
      let sibling ← ix.trie.getSiblingList ix.trie.getRoot
      let (_, ms, seen) ← LevIndex.visitSiblings ix.trie q e T ix.trie.mapped sibling 0#16 1 [] em ms0 []
      (.ok (IndexMatches.sort ms, seen) : M (IndexMatches × List Word))) = .ok (result, seen) := by
    by_cases hq : 0 < q.length
    · simp only [if_pos hq] at he
      obtain ⟨e01, _, he⟩ := bind_eq_ok.1 he
      obtain ⟨_, _, he⟩ := bind_eq_ok.1 he
      exact he
    · simp only [if_neg hq] at he
      exact he
  obtain ⟨sib, hsib, he⟩ := bind_eq_ok.1 he'
  obtain ⟨⟨em', ms', seen1⟩, hs, he⟩ := bind_eq_ok.1 he
  cases he
  exact ⟨em, em', ms', sib, hsib, hs⟩

theorem visitWords_shape [Build] [Runtime] {ix : LevIndex} {g : Ghost} {h : IndexHistory} (hi : LInv ix g h) {T : Int}
    {ms0 result : IndexMatches} {seen : List Word} (he : ix.visitWords q e T ms0 = .ok (result, seen)) :
    ∃ js : List Nat, seen = js.map g.path ∧ js.Nodup ∧ ∀ j ∈ js, 1 ≤ j ∧ j < g.n := by
  obtain ⟨em, em', ms', sib, hsib, hs⟩ := visitWords_parts he
  have ht := hi.tinv
  obtain ⟨j, hj, elink⟩ := ht.rd_link ht.pos (Or.inl rfl : g.IsCell 0 0)
  have hsl : sib = link j := by
    rw [cell_self] at elink
    have : ix.trie.getSiblingList ix.trie.getRoot = .ok (link j) := by
      rw [Trie.getSiblingList, Trie.getRoot, ht.root]; exact elink
    rw [this] at hsib; cases hsib; rfl
  subst hsl
  have hchild : j ≠ 0 → g.Child 0 j := by
    intro hj0
    rcases hj with ⟨hx, _⟩ | ⟨a, b, c, _⟩
    · exact absurd hx hj0
    · exact ⟨a, b, c⟩
  obtain ⟨js, e1, n1, p1⟩ := (visit_shape ht T ix.trie.mapped).2 0 j _ _ _ _ _ _ _ _ ht.pos hchild (by rw [ht.path0]; exact hs)
  exact ⟨js, by simpa using e1, n1, fun j hj => ⟨(p1 j hj).1, (p1 j hj).2.1⟩⟩

/-! ### Which nodes, exactly -/

/-- The nodes `S`, each once. -/
def SawAll (g : Ghost) (S : Nat → Prop) (seen seen' : List Word) : Prop :=
  ∃ js : List Nat, seen' = seen ++ js.map g.path ∧ ∀ j, j ∈ js ↔ S j

theorem visit_spec {t : Trie} {g : Ghost} (h : TInv t g) (hp : Priced e c q.length) (hf : Fits c q L B)
    (hq : ∀ l ∈ q, l ≠ 0#16) (hL : ∀ k, k < g.n → (g.path k).length ≤ L) (T : Int) : ∀ fuel : Nat,
    (∀ (k : Nat) (em : ErrorMatrix) (ms : IndexMatches) (seen : List Word), 1 ≤ k → k < g.n → 2 * (g.n - k) + 1 ≤ fuel →
      EmOk em c q (g.path (g.par k)) L (g.path (g.par k)).length →
      ∃ em' ms' seen', LevIndex.visitRecursive t q e T fuel (addr k) (g.letter k)
          (if g.par k = 0 then 0#16 else g.letter (g.par k)) ((g.path (g.par k)).length + 1) (g.path k) em ms seen =
            .ok (em', ms', seen') ∧
        EmOk em' c q (g.path (g.par k)) L (g.path (g.par k)).length ∧ SawAll g (Reach g c q T k) seen seen') ∧
    (∀ (p k : Nat) (em : ErrorMatrix) (ms : IndexMatches) (seen : List Word), p < g.n →
      (k ≠ 0 → g.Child p k ∧ 2 * (g.n - k) + 2 ≤ fuel) →
      1 ≤ fuel → EmOk em c q (g.path p) L (g.path p).length →
      ∃ em' ms' seen', LevIndex.visitSiblings t q e T fuel (link k) (if p = 0 then 0#16 else g.letter p)
          ((g.path p).length + 1) (g.path p) em ms seen = .ok (em', ms', seen') ∧
        EmOk em' c q (g.path p) L (g.path p).length ∧
        SawAll g (fun j => k ≠ 0 ∧ ∃ i, g.Child p i ∧ k ≤ i ∧ Reach g c q T i j) seen seen') := by
  intro fuel
  induction fuel with
  | zero =>
    refine ⟨fun k em ms seen _ _ h => absurd h (by omega), fun p k em ms seen _ _ h => absurd h (by omega)⟩
  | succ fuel ih =>
    obtain ⟨ihr, ihs⟩ := ih
    constructor
    · intro k em ms seen h1 hk hfuel hem
      have hpl := h.par_lt k h1 hk
      have hpath := h.path_eq k h1 hk
      have hlen : (g.path k).length = (g.path (g.par k)).length + 1 := by rw [hpath]; simp
      have hLk := hL k hk
      have hem1 : EmOk em c q (g.path k) L (g.path (g.par k)).length := by rw [hpath]; exact hem.extend (Nat.le_refl _)
      obtain ⟨em1, e1, hok1⟩ := fillRow_spec hp hf hq hlen (by omega) hem1
      have hlet : (g.path k).getD (g.path (g.par k)).length 0 = g.letter k := by
        rw [hpath, List.getD_eq_getElem?_getD]; simp
      rw [hlet] at e1
      have hprev := prevLetter_path h (show g.par k < g.n by omega) (g.letter k)
      rw [← hpath] at hprev
      rw [← hprev] at e1
      rw [← hlen] at e1 hok1
      rw [← hlen]
      have etot : em1.totalError (g.path k).length = .ok (best c q (g.path k)) := by
        unfold ErrorMatrix.totalError
        rw [hok1.columns, idxSub_ok (by omega), Nat.add_sub_cancel]
        simp only [ok_bind]
        exact get_ok (by rw [hok1.rows]; omega) (by rw [hok1.columns]; omega) (hok1.row _ _ (Nat.le_refl _) (Nat.le_refl _))
      obtain ⟨mn, emn, hmn⟩ := minError_eq hok1 hLk T
      have ewd : t.getWordID (addr k) = .ok (g.word k) := rd_word h hk
      rw [LevIndex.visitRecursive, e1]
      simp only [ok_bind]
      rw [etot, ewd, emn]
      simp only [ok_bind]
      by_cases hro : RowOk c q T (g.path k)
      · rw [if_pos (hmn.1 hro)]
        obtain ⟨j, hj, elink⟩ := h.rd_link hk (Or.inl rfl : g.IsCell k k)
        have esib : t.getSiblingList (addr k) = .ok (link j) := by
          rw [cell_self] at elink; exact elink
        rw [esib]
        simp only [ok_bind]
        have hk0 : k ≠ 0 := by omega
        have hchild : j ≠ 0 → g.Child k j := by
          intro hj0
          rcases hj with ⟨hx, _⟩ | ⟨a, b, c, _⟩
          · exact absurd hx hj0
          · exact ⟨a, b, c⟩
        obtain ⟨em2, ms2, seen2, e2, hok2, js, es, hmem⟩ := ihs k j em1
            (if best c q (g.path k) ≤ T ∧ g.word k ≠ INVALID_WORDID then
              IndexMatches.addMatch ms (g.word k) (best c q (g.path k)) else ms) (seen ++ [g.path k]) hk
            (fun hj0 => ⟨hchild hj0, by have := hchild hj0; unfold Ghost.Child at this; omega⟩) (by omega) hok1
        rw [if_neg hk0] at e2
        refine ⟨em2, ms2, seen2, e2, ?_, k :: js, by rw [es]; simp, ?_⟩
        · rw [hpath] at hok2
          exact hok2.restrict (by simp) (Nat.le_refl _)
        · intro x
          rw [List.mem_cons, hmem, reach_iff h hk]
          refine or_congr_right ?_
          constructor
          · rintro ⟨_, i, hi, _, hr⟩; exact ⟨hro, i, hi, hr⟩
          · rintro ⟨_, i, hi, hr⟩
            rcases hj with ⟨_, hx⟩ | ⟨_, _, _, hx⟩
            · exact absurd hi.2.2 (hx i hi.1 hi.2.1)
            · refine ⟨by omega, i, hi, ?_, hr⟩
              rcases Nat.lt_or_ge i j with hij | hij
              · exact absurd hi.2.2 (hx i hi.1 hij)
              · exact hij
      · rw [if_neg (fun hx => hro (hmn.2 hx))]
        refine ⟨em1, _, _, rfl, ?_, [k], rfl, ?_⟩
        · rw [hpath] at hok1
          exact hok1.restrict (by simp) (Nat.le_refl _)
        · intro x
          rw [List.mem_singleton, reach_iff h hk]
          exact ⟨Or.inl, fun hx => hx.resolve_right fun hy => hro hy.1⟩
    · intro p k em ms seen hpn hkc _ hem
      rw [LevIndex.visitSiblings]
      by_cases hk0 : k = 0
      · subst hk0
        rw [if_pos (link_eq_zero.2 rfl)]
        exact ⟨em, ms, seen, rfl, hem, [], by simp, fun j => ⟨fun hx => (List.not_mem_nil hx).elim, fun hx => absurd rfl hx.1⟩⟩
      · obtain ⟨hch, hfuel⟩ := hkc hk0
        have hcell : g.IsCell p k := Or.inr hch
        have hpk' := hch.path h
        obtain ⟨hpk, hkn, hpar⟩ := hch
        rw [if_neg (fun hx => hk0 (link_eq_zero.1 hx))]
        have hlc : link k = cell p k := by rw [link, if_neg hk0, cell, if_neg (by omega)]
        have elet : t.getLetter (link k) = .ok (g.letter k) := by
          rw [hlc, Trie.getLetter, h.rd_cellLetter hpn hcell, Ghost.cellLetter, if_neg (by omega)]
        have echild : t.getChild (link k) = .ok (addr k) := by
          rw [Trie.getChild, link, if_neg hk0]
          have hm := h.bound
          have := addr_cases k
          rw [Trie.rd32_ok (by omega), h.mchild k (by omega) hkn]
        obtain ⟨j, hj, elink⟩ := h.rd_link hpn hcell
        have enext : t.getNextSibling (link k) = .ok (link j) := by rw [hlc]; exact elink
        rw [elet, echild]
        simp only [ok_bind]
        obtain ⟨em1, ms1, seen1, e1, hok1, js1, es1, hm1⟩ := ihr k em ms seen (by omega) hkn (by omega) (by rw [hpar]; exact hem)
        rw [hpar, hpk'] at e1
        rw [hpar] at hok1
        rw [e1]
        simp only [ok_bind]
        rw [enext]
        simp only [ok_bind]
        have hchild : j ≠ 0 → g.Child p j ∧ k < j := by
          intro hj0
          rcases hj with ⟨hx, _⟩ | ⟨a, b, c, _⟩
          · exact absurd hx hj0
          · exact ⟨⟨by omega, b, c⟩, a⟩
        obtain ⟨em2, ms2, seen2, e2, hok2, js2, es2, hm2⟩ := ihs p j em1 ms1 seen1 hpn
          (fun hj0 => ⟨(hchild hj0).1, by have := hchild hj0; unfold Ghost.Child at this; omega⟩) (by omega) hok1
        refine ⟨em2, ms2, seen2, e2, hok2, js1 ++ js2, by rw [es2, es1, List.map_append, List.append_assoc], ?_⟩
        intro x
        rw [List.mem_append, hm1, hm2]
        constructor
        · rintro (hr | ⟨hj0, i, hi, hji, hr⟩)
          · exact ⟨hk0, k, ⟨hpk, hkn, hpar⟩, Nat.le_refl _, hr⟩
          · have := (hchild hj0).2
            exact ⟨hk0, i, hi, by omega, hr⟩
        · rintro ⟨_, i, hi, hki, hr⟩
          by_cases hik : i = k
          · subst hik; exact Or.inl hr
          · right
            rcases hj with ⟨_, hx⟩ | ⟨_, _, _, hx⟩
            · exact absurd hi.2.2 (hx i (by omega) hi.2.1)
            · refine ⟨by omega, i, hi, ?_, hr⟩
              rcases Nat.lt_or_ge i j with hij | hij
              · exact absurd hi.2.2 (hx i (by omega) hij)
              · exact hij

/-- The nodes a search looks at. -/
theorem visitWords_seen [Build] [Runtime] {ix : LevIndex} {g : Ghost} {h : IndexHistory} (hi : LInv ix g h)
    (hp : Priced e c q.length) (hf : Fits c q ix.longestWordLength B) (hq : ∀ l ∈ q, l ≠ 0#16)
    {T : Int} {ms0 result : IndexMatches} {seen : List Word} (he : ix.visitWords q e T ms0 = .ok (result, seen)) (r : Word) :
    r ∈ seen ↔ r ≠ [] ∧ (∃ p ∈ h, r <+: p.1) ∧ ∀ s, s ≠ [] → s <+: r → s ≠ r → RowOk c q T s := by
  have ht := hi.tinv
  have hpaths : ∀ k, k < g.n → (1 ≤ k ↔ g.path k ≠ []) := by
    intro k hk
    constructor
    · intro h1 h2
      rw [ht.path_eq k h1 hk] at h2
      simp at h2
    · intro h1
      rcases Nat.eq_zero_or_pos k with rfl | h2
      · exact absurd ht.path0 h1
      · exact h2
  obtain ⟨j, hj, elink⟩ := ht.rd_link ht.pos (Or.inl rfl : g.IsCell 0 0)
  have esib : ix.trie.getSiblingList ix.trie.getRoot = .ok (link j) := by
    rw [cell_self] at elink
    rw [Trie.getSiblingList, Trie.getRoot, ht.root]; exact elink
  have hchild : j ≠ 0 → g.Child 0 j := by
    intro hj0
    rcases hj with ⟨hx, _⟩ | ⟨a, b, c, _⟩
    · exact absurd hx hj0
    · exact ⟨a, b, c⟩
  have hbd := ht.bound
  obtain ⟨em, e1, hem, _⟩ := matrix_new hp hf
  obtain ⟨em2, ms2, seen2, e2, _, js, es, hmem⟩ := (visit_spec ht hp hf hq (fun k hk => hi.length_le hk) T ix.trie.mapped).2 0 j em ms0
    [] ht.pos (fun hj0 => ⟨hchild hj0, by omega⟩) (by omega) (by rw [ht.path0]; exact hem)
  rw [ht.path0, if_pos rfl] at e2
  have hseen : seen = js.map g.path := by
    unfold LevIndex.visitWords at he
    rw [e1] at he
    simp only [ok_bind] at he
    obtain ⟨e00, _, he⟩ := bind_eq_ok.1 he
    obtain ⟨_, _, he⟩ := bind_eq_ok.1 he
    have he' : (do
        let (_, ms, seen) ← LevIndex.visitSiblings ix.trie q e T ix.trie.mapped (link j) 0#16 1 [] em ms0 []
        (.ok (IndexMatches.sort ms, seen) : M (IndexMatches × List Word))) = .ok (result, seen) := by
      by_cases hq : 0 < q.length
      · simp only [if_pos hq, esib] at he
        obtain ⟨e01, _, he⟩ := bind_eq_ok.1 he
        obtain ⟨_, _, he⟩ := bind_eq_ok.1 he
        exact he
      · simp only [if_neg hq, esib] at he
        exact he
    rw [show (1 : Nat) = ([] : List Letter).length + 1 from rfl, e2] at he'
    injection he' with he'
    have h2 := (Prod.mk.inj he').2
    rw [← h2, es]; simp
  have hmem' : ∀ x, x ∈ js ↔ ∃ i, g.Child 0 i ∧ Reach g c q T i x := by
    intro x
    rw [hmem]
    constructor
    · rintro ⟨_, i, hi, _, hr⟩; exact ⟨i, hi, hr⟩
    · rintro ⟨i, hi, hr⟩
      rcases hj with ⟨_, hx⟩ | ⟨_, _, _, hx⟩
      · exact absurd hi.2.2 (hx i hi.1 hi.2.1)
      · refine ⟨by omega, i, hi, ?_, hr⟩
        rcases Nat.lt_or_ge i j with hij | hij
        · exact absurd hi.2.2 (hx i hi.1 hij)
        · exact hij
  rw [hseen, List.mem_map]
  constructor
  · rintro ⟨x, hx, rfl⟩
    obtain ⟨i, hch, hr⟩ := (hmem' x).1 hx
    have hlen : 1 ≤ (g.path x).length := by
      have := hr.2.1.length_le
      rw [hch.path ht] at this
      simp at this
      omega
    have hne : g.path x ≠ [] := by
      intro h0; rw [h0] at hlen; simp at hlen
    refine ⟨hne, hi.pre x ((hpaths x hr.1).2 hne) hr.1, ?_⟩
    intro s hs1 hs2 hs3
    refine hr.2.2 s ?_ hs2 hs3
    apply List.prefix_of_prefix_length_le hr.2.1 hs2
    rw [hch.path ht, ht.path0]
    cases s with
    | nil => exact absurd rfl hs1
    | cons => simp
  · rintro ⟨hr1, hr2, hr3⟩
    obtain ⟨x, hx, ex⟩ := (hi.paths r).2 (Or.inr hr2)
    refine ⟨x, (hmem' x).2 ?_, ex⟩
    obtain ⟨i, hij, ei⟩ := ht.prefix_path x hx _ (List.take_prefix 1 (g.path x))
    have hw1 : 1 ≤ (g.path x).length := by
      rw [ex]
      cases r with
      | nil => exact absurd rfl hr1
      | cons => simp
    have hleni : (g.path i).length = 1 := by rw [ei, List.length_take]; omega
    have hi1 : 1 ≤ i := by
      rcases Nat.eq_zero_or_pos i with hx | hx
      · subst hx; rw [ht.path0] at hleni; simp at hleni
      · exact hx
    have hin : i < g.n := by omega
    have hpar : g.par i = 0 := by
      have h2 := ht.par_lt i hi1 hin
      apply ht.path_inj _ _ (by omega) ht.pos
      rw [ht.path0]
      have h3 := ht.path_eq i hi1 hin
      rw [h3] at hleni
      simp at hleni
      exact hleni
    refine ⟨i, ⟨by omega, hin, hpar⟩, hx, by rw [ei]; exact List.take_prefix _ _, ?_⟩
    intro s h1 h2 h3
    rw [ex] at h2 h3
    refine hr3 s ?_ h2 h3
    rintro rfl
    have := h1.length_le
    simp at this
    rw [this] at hleni; simp at hleni

/-! ### How deep -/

/-- Each letter of the word beyond those of the query costs at least `m`. -/
theorem script_depth {w : Word} {m : Int} (hn : c.NonNeg) (hm : 0 ≤ m) (h1 : m ≤ c.startIns) (h2 : m ≤ c.endDel) (h3 : m ≤ c.del)
    {d i : Nat} {v : Int} (h : Script c q w d i v) : ((d : Int) - i) * m ≤ v := by
  obtain ⟨n1, n2, n3, n4, n5, n6, n7⟩ := hn
  induction h with
  | start => simp
  | @extra d i v _ _ ih =>
    have : ((d : Int) - ((i + 1 : Nat) : Int)) * m = ((d : Int) - i) * m - m := by push_cast; rw [← Int.sub_sub, Int.sub_mul, Int.one_mul]
    rw [this]
    split <;> omega
  | @missing d i v _ _ ih =>
    have : (((d + 1 : Nat) : Int) - i) * m = ((d : Int) - i) * m + m := by
      push_cast; rw [show (d : Int) + 1 - i = (d - i) + 1 by omega, Int.add_mul, Int.one_mul]
    rw [this]
    repeat' split
    all_goals omega
  | @subst d i v a b _ _ _ ih =>
    have : (((d + 1 : Nat) : Int) - ((i + 1 : Nat) : Int)) = (d : Int) - i := by push_cast; omega
    rw [this]
    have := n7 a b
    omega
  | @swap d i v a b _ _ _ _ _ ih =>
    have : (((d + 2 : Nat) : Int) - ((i + 2 : Nat) : Int)) = (d : Int) - i := by push_cast; omega
    rw [this]
    omega

end Columbus
