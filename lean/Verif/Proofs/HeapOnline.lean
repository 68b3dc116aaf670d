import Verif.Model.HeapOnline
import Verif.Proofs.HeapSearch
import Verif.Proofs.MatcherOnline
/-
`onlineMatch` when memory may be refused: what the loops of `Verif.Model.HeapOnline` leave.
-/

namespace Columbus
open Spec
variable [Build] [Runtime] {heap : Heap}

/-- A call that leaves `s` as it is and ends as without refusals, with `out'`, or for want of memory of its own. -/
def Keeps {σ α : Type} (refused : Prop) (s : σ) (out : σ × Except SearchStop (α × Nat)) (out' : M α) : Prop :=
  (∃ a k, out = (s, .ok (a, k)) ∧ out' = .ok a) ∨ (∃ f, out = (s, .error (.fault f)) ∧ out' = .error f) ∨
  (out = (s, .error .work) ∧ refused)

theorem termLoopHeap_new (ri : ReverseIndex) (id : DocumentID) (k : Nat) (s : WordStore) :
    Matcher.termLoopHeap heap ri SearchParameters.new.filter id k s (List.range SearchParameters.new.filter.numTerms) =
      (s, .ok (true, k)) := rfl

theorem termLoop_new (ri : ReverseIndex) (id : DocumentID) (s : WordStore) :
    Matcher.termLoop ri SearchParameters.new.filter id s (List.range SearchParameters.new.filter.numTerms) =
      (s, .ok true) := rfl

theorem filterLoopHeap_new (ri : ReverseIndex) (l : List Nat) : ∀ (k : Nat) (s : WordStore) (all matched : MatchResults),
    ∃ r', Matcher.filterLoop ri SearchParameters.new.filter s all matched l = (s, r') ∧
      Keeps (∃ n, heap n = false) s (Matcher.filterLoopHeap heap ri SearchParameters.new.filter k s all matched l) r' := by
  induction l with
  | nil => intro k s all matched; exact ⟨_, rfl, Or.inl ⟨_, _, rfl, rfl⟩⟩
  | cons i is ih =>
    intro k s all matched
    unfold Matcher.filterLoopHeap Matcher.filterLoop
    cases all.getDocumentID i with
    | error f => exact ⟨_, rfl, Or.inr (Or.inl ⟨_, rfl, rfl⟩)⟩
    | ok x =>
      obtain ⟨all1, id⟩ := x
      simp only [termLoopHeap_new, termLoop_new]
      cases matched.copyResult all1 i with
      | error f => exact ⟨_, rfl, Or.inr (Or.inl ⟨_, rfl, rfl⟩)⟩
      | ok m1 =>
        dsimp only
        obtain ⟨r', e, hk⟩ := ih (k + 1) s all1 m1
        refine ⟨r', e, ?_⟩
        by_cases h : heap k = true
        · rw [if_pos h]; exact hk
        · rw [if_neg h]; exact Or.inr (Or.inr ⟨rfl, k, by simpa using h⟩)

variable [Fp]

theorem matchHeap_new (m : Matcher) (working : Bool) (k : Nat) (q : WordList) :
    ∃ r', m.matchDefault q = (m, r') ∧
      Keeps (working = false ∨ ∃ n, heap n = false) m (Matcher.matchHeap working heap k m q SearchParameters.new) r' := by
  unfold Matcher.matchDefault Matcher.matchHeap Matcher.matchQuery
  by_cases hq : q.length = 0
  · refine ⟨_, if_pos hq, ?_⟩
    cases working
    · exact Or.inr (Or.inr ⟨rfl, Or.inl rfl⟩)
    · exact Or.inl ⟨MatchResults.new, k, by simp [hq], rfl⟩
  simp only [hq, if_false]
  cases Matcher.matchLoop m q SearchParameters.new MatchResults.new 0 Matcher.maxIterations with
  | error f =>
    refine ⟨_, rfl, ?_⟩
    cases working
    · exact Or.inr (Or.inr ⟨rfl, Or.inl rfl⟩)
    · exact Or.inr (Or.inl ⟨_, rfl, rfl⟩)
  | ok all =>
    dsimp only
    obtain ⟨r', e, hk⟩ := filterLoopHeap_new (heap := heap) m.reverseIndex (List.range all.size) k m.store all MatchResults.new
    rw [e]
    refine ⟨_, rfl, ?_⟩
    cases working
    · exact Or.inr (Or.inr ⟨rfl, Or.inl rfl⟩)
    · rcases hk with ⟨a, k', e1, e2⟩ | ⟨f, e1, e2⟩ | ⟨e1, hr⟩
      · exact Or.inl ⟨a, k', by simp [e1], e2⟩
      · exact Or.inr (Or.inl ⟨f, by simp [e1], e2⟩)
      · exact Or.inr (Or.inr ⟨by simp [e1], Or.inr hr⟩)

omit [Build] [Runtime] in
theorem exactLoopHeap_known {querySize : Nat} {i : WordID} {sizes : SMap (DocumentID × WordID) Nat} (l : SMap DocumentID Nat) :
    ∀ (k : Nat) (acc : SMap DocumentID ℚ), (∀ x ∈ l, SMap.find Matcher.ltDW sizes (x.1, i) ≠ none) →
    ∃ acc', Matcher.exactLoop querySize i sizes acc l = (sizes, acc') ∧
      Keeps (∃ n, heap n = false) sizes (Matcher.exactLoopHeap heap querySize i k sizes acc l) (.ok acc') := by
  induction l with
  | nil => intro k acc _; exact ⟨acc, rfl, Or.inl ⟨_, _, rfl, rfl⟩⟩
  | cons x l ih =>
    intro k acc hsz
    obtain ⟨id, n⟩ := x
    obtain ⟨sz, hs⟩ := Option.ne_none_iff_exists'.1 (hsz (id, n) (by simp))
    dsimp only at hs
    have hsz' : ∀ x ∈ l, SMap.find Matcher.ltDW sizes (x.1, i) ≠ none := fun x hx => hsz x (by simp [hx])
    unfold Matcher.exactLoop Matcher.exactLoopHeap
    simp only [hs]
    by_cases hk : heap k = false
    · have hall : ∀ acc, ∃ acc', Matcher.exactLoop querySize i sizes acc l = (sizes, acc') := fun acc => by
        obtain ⟨a, e, _⟩ := ih k acc hsz'; exact ⟨a, e⟩
      simp only [hk, if_true]
      split
      · split
        · obtain ⟨a, e⟩ := hall (SMap.set ltNat acc id (fadd (ofInt (2 * (n : Int))) 100))
          exact ⟨a, e, Or.inr (Or.inr ⟨rfl, k, hk⟩)⟩
        · obtain ⟨a, e⟩ := hall (SMap.set ltNat acc id (ofInt (2 * (n : Int))))
          exact ⟨a, e, Or.inr (Or.inr ⟨rfl, k, hk⟩)⟩
      · obtain ⟨a, e⟩ := hall (SMap.set ltNat acc id (ofInt (2 * (n : Int))))
        exact ⟨a, e, Or.inr (Or.inr ⟨rfl, k, hk⟩)⟩
    · simp only [hk]
      split
      · split
        · exact ih _ _ hsz'
        · exact ih _ _ hsz'
      · exact ih _ _ hsz'

section
variable [Icu] {m : Matcher} {H : MatcherHistory} {names : List Word}

omit [Runtime] [Fp] in
theorem MInv.getIDHeap_old (h : MInv m H names) {w : Word} (hw : w ∈ names) (k : Nat) :
    m.store.getIDHeap heap k w = (m.store, .ok (names.idxOf w, k)) := by
  unfold WordStore.getIDHeap
  rw [h.store.getID_old hw]
  simp

omit [Fp] in
theorem MInv.countExactsHeap (h : MInv m H names) {i : WordID} (ws : WordList) :
    ∀ (k : Nat) (c : SMap DocumentID Nat), (∀ w ∈ ws, ∀ l ∈ w, l ≠ 0#16) →
    ∃ c', Matcher.countExacts m.reverseIndex i m.store c ws = .ok (m.store, c') ∧
      Keeps (∃ n, heap n = false) m.store (Matcher.countExactsHeap heap m.reverseIndex i k m.store c ws) (.ok c') := by
  induction ws with
  | nil => intro k c _; exact ⟨c, rfl, Or.inl ⟨_, _, rfl, rfl⟩⟩
  | cons w ws ih =>
    intro k c hu
    have hu' : ∀ w ∈ ws, ∀ l ∈ w, l ≠ 0#16 := fun v hv => hu v (by simp [hv])
    unfold Matcher.countExacts Matcher.countExactsHeap
    by_cases h0 : w.length = 0
    · rw [if_pos h0, if_pos h0]; exact ih k c hu'
    · rw [if_neg h0, if_neg h0, h.store.hasWord (hu w (by simp))]
      simp only [ok_bind]
      by_cases hn : w ∈ names
      · simp only [hn, decide_true, Bool.true_eq_false, if_false]
        rw [h.store.getID_old hn, h.getIDHeap_old hn]
        simp only [ok_bind]
        obtain ⟨c', e, hk⟩ := ih (k + 1) (Matcher.countDocs c (ReverseIndex.findDocuments m.reverseIndex (names.idxOf w) i)) hu'
        refine ⟨c', e, ?_⟩
        by_cases hk' : heap k = false
        · rw [if_pos hk']; exact Or.inr (Or.inr ⟨rfl, k, hk'⟩)
        · rw [if_neg hk']; exact hk
      · simp only [hn, decide_false, if_true]
        exact ih k c hu'

omit [Fp] in
/-- A document with exact words of a field has a size there. -/
theorem MInv.counted (h : MInv m H names) {f : Word} (hf : f ∈ names) {q : WordList} (hq : ∀ w ∈ q, ∀ l ∈ w, l ≠ 0#16)
    {c : SMap DocumentID Nat}
    (e : Matcher.countExacts m.reverseIndex (names.idxOf f) m.store [] q = .ok (m.store, c)) :
    ∀ x ∈ c, SMap.find Matcher.ltDW m.originalSizes (x.1, names.idxOf f) ≠ none := by
  obtain ⟨c', e1, hc, hcount⟩ := h.countExacts (getElem?_idxOf hf) q [] ⟨List.Pairwise.nil, by intro d n h; cases h⟩ hq
  rw [e] at e1
  injection e1 with e1; injection e1 with _ e1; subst e1
  rintro ⟨d, n⟩ hx
  have h1 := (SMap.find_some_iff strict_ltNat hc.sorted d n).2 hx
  rw [hc.find, hcount] at h1
  have h2 : exacts H q f d ≠ 0 := by
    intro h0; rw [h0] at h1; simp [countOf, SMap.find] at h1
  dsimp only
  rw [h.sizes, getElem?_idxOf hf]
  have h3 : 0 < exacts H q f d := Nat.pos_of_ne_zero h2
  rw [exacts, List.countP_pos_iff] at h3
  obtain ⟨w, _, hp⟩ := h3
  obtain ⟨x, hx1, hx2, hx3, _⟩ := of_decide_eq_true hp
  exact MatcherHistory.size_of_mem ⟨x, hx1, hx2, hx3⟩

theorem MInv.onlineMatchHeap (h : MInv m H names) (working : Bool) (k : Nat) {f : Word} (hf : Usable f) {q : WordList}
    (hq : ∀ w ∈ q, ∀ l ∈ w, l ≠ 0#16) :
    ∃ r', m.onlineMatch q f = (m, r') ∧
      Keeps (working = false ∨ ∃ n, heap n = false) m (Matcher.onlineMatchHeap working heap k m q f) r' := by
  unfold Matcher.onlineMatch Matcher.onlineMatchHeap
  rw [h.store.hasWord (usable_noNul hf)]
  by_cases hm : f ∈ names
  · simp only [hm, decide_true, h.store.getID_old hm, h.getIDHeap_old hm]
    obtain ⟨c, e1, k1⟩ := h.countExactsHeap (heap := heap) (i := names.idxOf f) q k [] hq
    have hc := h.counted hm hq e1
    obtain ⟨acc0, e2, -⟩ := exactLoopHeap_known (heap := heap) (querySize := q.length) c k [] hc
    obtain ⟨r0, e3, -⟩ := matchHeap_new (heap := heap) m working k q
    have hfull : ∃ r', (match m.matchDefault q with
        | (m, .error f) => (m, .error f)
        | (m, .ok fuzzy) =>
          match Matcher.mergeLoop fuzzy acc0 (List.range fuzzy.size) with
          | .error f => (m, .error f)
          | .ok acc => (m, .ok (Matcher.addAll MatchResults.new acc)) : Matcher × M MatchResults) = (m, r') := by
      rw [e3]
      cases r0 with
      | error f => exact ⟨_, rfl⟩
      | ok fuzzy =>
        dsimp only
        cases Matcher.mergeLoop fuzzy acc0 (List.range fuzzy.size) <;> exact ⟨_, rfl⟩
    obtain ⟨r', e4⟩ := hfull
    simp only [e1, e2]
    refine ⟨r', e4, ?_⟩
    rcases k1 with ⟨c', k', x1, x2⟩ | ⟨_, _, x2⟩ | ⟨x1, x2⟩
    · injection x2 with x2; subst x2
      rw [x1]
      dsimp only
      obtain ⟨acc, e2', k2⟩ := exactLoopHeap_known (heap := heap) (querySize := q.length) c k' [] hc
      rw [e2] at e2'; injection e2' with _ e2'; subst e2'
      rcases k2 with ⟨a, k'', x3, x4⟩ | ⟨_, _, x4⟩ | ⟨x3, x4⟩
      · injection x4 with x4; subst x4
        rw [x3]
        dsimp only
        obtain ⟨r1, e5, k3⟩ := matchHeap_new (heap := heap) m working k'' q
        rw [e5] at e4
        rcases k3 with ⟨b, k3, x5, rfl⟩ | ⟨x, x5, rfl⟩ | ⟨x5, x6⟩
        · rw [x5]
          dsimp only at e4 ⊢
          by_cases hk : heap k3 = false
          · rw [if_pos hk]; exact Or.inr (Or.inr ⟨rfl, Or.inr ⟨_, hk⟩⟩)
          · rw [if_neg hk]
            cases hl : Matcher.mergeLoop b acc0 (List.range b.size) with
            | error x =>
              rw [hl] at e4; injection e4 with _ e4; subst e4
              exact Or.inr (Or.inl ⟨_, rfl, rfl⟩)
            | ok a =>
              rw [hl] at e4; injection e4 with _ e4; subst e4
              exact Or.inl ⟨_, _, rfl, rfl⟩
        · rw [x5]
          injection e4 with _ e4; subst e4
          exact Or.inr (Or.inl ⟨_, rfl, rfl⟩)
        · rw [x5]; exact Or.inr (Or.inr ⟨rfl, x6⟩)
      · cases x4
      · rw [x3]; exact Or.inr (Or.inr ⟨rfl, Or.inr x4⟩)
    · cases x2
    · rw [x1]; exact Or.inr (Or.inr ⟨rfl, Or.inr x2⟩)
  · obtain ⟨u, e⟩ := usable_asUtf8 hf
    simp only [hm, decide_false, e]
    refine ⟨_, rfl, ?_⟩
    by_cases hk : heap k = false
    · rw [if_pos hk]; exact Or.inr (Or.inr ⟨rfl, Or.inr ⟨_, hk⟩⟩)
    · rw [if_neg hk]; exact Or.inr (Or.inl ⟨_, rfl, rfl⟩)

end
end Columbus
