import Mathlib.Data.List.Nodup
import Verif.Proofs.Search
/-
`findWords` in terms of the insertions.
-/

namespace Columbus
open Spec

variable {e : ErrorValues} {c : EditCosts} {q : Word} {B : Int}

theorem Fits.mul_bound {L : Nat} (hf : Fits c q L B) {n : Nat} {v : Int} (hn : n ≤ L + q.length + 4) (h1 : -B ≤ v) (h2 : v ≤ B) :
    -2147473648 < (n : Int) * v ∧ (n : Int) * v < 2147473648 := by
  have h0 : 0 ≤ B := by omega
  have hs := hf.sum
  have a1 : (n : Int) * v ≤ n * B := Int.mul_le_mul_of_nonneg_left h2 (by omega)
  have a2 : (n : Int) * -B ≤ n * v := Int.mul_le_mul_of_nonneg_left h1 (by omega)
  have a3 : (n : Int) * B ≤ ((L + q.length + 4 : Nat) : Int) * B := Int.mul_le_mul_of_nonneg_right (by omega) h0
  rw [Int.mul_neg] at a2
  omega

theorem leftColumn_eq {d : Int} : ∀ n : Nat, (∀ m : Nat, m ≤ n → -2147483648 ≤ (m : Int) * d ∧ (m : Int) * d < 2147483648) →
    ErrorMatrix.leftColumn 0 d n = .ok (n * d) := by
  intro n
  induction n with
  | zero => intro _; simp [ErrorMatrix.leftColumn]
  | succ n ih =>
    intro hb
    rw [ErrorMatrix.leftColumn, ih (fun m hm => hb m (by omega))]
    simp only [ok_bind]
    have e1 : (n : Int) * d + d = ((n + 1 : Nat) : Int) * d := by rw [Int.natCast_add, Int.add_mul]; simp
    rw [e1, chk_ok (hb (n + 1) (Nat.le_refl _)).1 (hb (n + 1) (Nat.le_refl _)).2]

theorem matrix_new {L : Nat} (hp : Priced e c q.length) (hf : Fits c q L B) :
    ∃ em, ErrorMatrix.new (L + 1) (q.length + 1) e.getDeletionError (e.getStartInsertionError q.length) = .ok em ∧
      EmOk em c q [] L 0 ∧ (∀ i, em.m 0 i = some (wrap32 (i * c.lead))) := by
  obtain ⟨w1, w2, w3, w4, w5, w6, w7⟩ := hf.within
  have hw : wrap32 (((0 : Nat) : Int) * c.lead) = 0 := by simp [wrap32]
  rw [← hp.startIns, ← hp.lead]
  unfold ErrorMatrix.new
  have hl := leftColumn_eq (d := c.startIns) (L + 1) (fun m hm => by
    have := hf.mul_bound (n := m) (by omega) w3.1 w3.2; omega)
  simp only [hw, hl, ok_bind]
  refine ⟨_, rfl, ⟨rfl, rfl, ?_, ?_⟩, fun i => by simp only [if_true]⟩
  · intro r i hr hi
    have : r = 0 := by omega
    subst this
    have hb := hf.mul_bound (n := i) (by omega) w1.1 w1.2
    simp only [if_true, D_zero]
    rw [wrap32_eq (by omega) (by omega)]
  · intro r
    by_cases hr : r = 0
    · subst hr; simp [wrap32]
    · simp [hr]

/-- The assertion about the first row. -/
def RowAssertOk [Build] (c : EditCosts) (q : Word) : Prop := Build.asserts = false ∨ q = [] ∨ c.lead = c.ins

theorem findWords_spec [Build] [Runtime] {ix : LevIndex} {g : Ghost} {h : IndexHistory} (hi : LInv ix g h)
    (hp : Priced e c q.length) (hf : Fits c q ix.longestWordLength B) (hq : ∀ l ∈ q, l ≠ 0#16) (ha : RowAssertOk c q)
    (T : Int) (ms0 : IndexMatches) :
    ∃ js, ix.findWords q e T ms0 = .ok (IndexMatches.sort (ms0 ++ js.map (md g c q))) ∧
      Found g c q T (fun j => ∃ i, g.Child 0 i ∧ Reach g c q T i j) js := by
  obtain ⟨w1, w2, w3, w4, w5, w6, w7⟩ := hf.within
  obtain ⟨em, e1, hem, hrow⟩ := matrix_new hp hf
  have h0 : em.get 0 0 = .ok 0 := by
    rw [get_ok (Nat.zero_le _) (Nat.zero_le _) (hrow 0)]; simp [wrap32]
  have h1 : 0 < q.length → em.get 0 1 = .ok c.lead := by
    intro hq0
    have hb := hf.mul_bound (n := 1) (by omega) w1.1 w1.2
    rw [get_ok (Nat.zero_le _) (by rw [hem.columns]; omega) (hrow 1)]
    have : ((1 : Nat) : Int) * c.lead = c.lead := by simp
    rw [this] at hb ⊢
    rw [wrap32_eq (by omega) (by omega)]
  have hassert : 0 < q.length → cassert (decide (c.lead = e.getInsertionError)) = .ok () := by
    intro hq0
    rcases ha with ha | ha | ha
    · unfold cassert; rw [ha]; simp
    · subst ha; simp at hq0
    · rw [← hp.ins]; exact cassert_ok (by simpa using ha)
  obtain ⟨j, hj, elink⟩ := hi.tinv.rd_link hi.tinv.pos (Or.inl rfl : g.IsCell 0 0)
  have esib : ix.trie.getSiblingList ix.trie.getRoot = .ok (link j) := by
    rw [cell_self] at elink
    rw [Trie.getSiblingList, Trie.getRoot, hi.tinv.root]; exact elink
  have hbd := hi.tinv.bound
  have hchild : j ≠ 0 → g.Child 0 j := by
    intro hj0
    rcases hj with ⟨hx, _⟩ | ⟨a, b, c, _⟩
    · exact absurd hx hj0
    · exact ⟨a, b, c⟩
  obtain ⟨em2, js, e2, _, hfound⟩ := (search_spec hi.tinv hp hf hq (fun k hk => hi.length_le hk) T ix.trie.mapped).2 0 j em ms0
    hi.tinv.pos (fun hj0 => ⟨hchild hj0, by omega⟩) (by omega) (by rw [hi.tinv.path0]; exact hem)
  rw [hi.tinv.path0, if_pos rfl] at e2
  refine ⟨js, ?_, hfound.1, ?_⟩
  · unfold LevIndex.findWords
    by_cases hq0 : 0 < q.length
    · have hx : cassert (decide True) = .ok () := cassert_ok (by simp)
      rw [e1]
      simp only [ok_bind, h0, hx, if_pos hq0, h1 hq0, hassert hq0, esib]
      rw [show 1 = ([] : List Letter).length + 1 from rfl, e2]
      rfl
    · have hx : cassert (decide True) = .ok () := cassert_ok (by simp)
      rw [e1]
      simp only [ok_bind, h0, hx, if_neg hq0, esib]
      rw [show 1 = ([] : List Letter).length + 1 from rfl, e2]
      rfl
  · intro x
    rw [hfound.2]
    refine and_congr_right fun _ => ?_
    constructor
    · rintro ⟨_, i, hi, _, hr⟩; exact ⟨i, hi, hr⟩
    · rintro ⟨i, hi, hr⟩
      rcases hj with ⟨_, hx⟩ | ⟨_, _, _, hx⟩
      · exact absurd hi.2.2 (hx i hi.1 hi.2.1)
      · refine ⟨by omega, i, hi, ?_, hr⟩
        rcases Nat.lt_or_ge i j with hij | hij
        · exact absurd hi.2.2 (hx i hi.1 hij)
        · exact hij

/-- With assertions, unequal first row and insertion price stop the program. -/
theorem assert_fails [Build] [Runtime] {ix : LevIndex} (hp : Priced e c q.length) (hf : Fits c q ix.longestWordLength B)
    (hq : q ≠ []) (hne : c.lead ≠ c.ins) (ha : Build.asserts = true) (T : Int) (ms0 : IndexMatches) :
    ix.findWords q e T ms0 = .error .assertion := by
  obtain ⟨w1, w2, w3, w4, w5, w6, w7⟩ := hf.within
  obtain ⟨em, e1, hem, hrow⟩ := matrix_new hp hf
  have h0 : em.get 0 0 = .ok 0 := by
    rw [get_ok (Nat.zero_le _) (Nat.zero_le _) (hrow 0)]; simp [wrap32]
  have hq0 : 0 < q.length := List.length_pos_iff.2 hq
  have h1 : em.get 0 1 = .ok c.lead := by
    have hb := hf.mul_bound (n := 1) (by omega) w1.1 w1.2
    rw [get_ok (Nat.zero_le _) (by rw [hem.columns]; omega) (hrow 1)]
    have : ((1 : Nat) : Int) * c.lead = c.lead := by simp
    rw [this] at hb ⊢
    rw [wrap32_eq (by omega) (by omega)]
  have h2 : cassert (decide (c.lead = e.getInsertionError)) = .error .assertion := by
    rw [← hp.ins]; unfold cassert; rw [ha]; simp [hne]
  have hx : cassert (decide True) = .ok () := cassert_ok (by simp)
  unfold LevIndex.findWords
  rw [e1]
  simp only [ok_bind, h0, hx, if_pos hq0, h1, h2, error_bind]

/-- What a search adds: the words within the limit whose proper prefixes all have a cell within the limit. -/
def Added (h : IndexHistory) (c : EditCosts) (q : Word) (T : Int) (m : MatchData) : Prop :=
  ∃ w, IndexHistory.Has h w m.matchedWord ∧ m.error = best c q w ∧ best c q w ≤ T ∧
    ∀ r, r ≠ [] → r <+: w → r ≠ w → RowOk c q T r

theorem findWords_added [Build] [Runtime] {ix : LevIndex} {g : Ghost} {h : IndexHistory} (hi : LInv ix g h)
    (hp : Priced e c q.length) (hf : Fits c q ix.longestWordLength B) (hq : ∀ l ∈ q, l ≠ 0#16) (ha : RowAssertOk c q)
    (T : Int) (ms0 : IndexMatches) :
    ∃ added, ix.findWords q e T ms0 = .ok (IndexMatches.sort (ms0 ++ added)) ∧
      (added.map MatchData.matchedWord).Nodup ∧ ∀ m, m ∈ added ↔ Added h c q T m := by
  obtain ⟨js, e1, hnd, hmem⟩ := findWords_spec hi hp hf hq ha T ms0
  have ht := hi.tinv
  have hasj : ∀ j, j ∈ js → j < g.n ∧ g.Has (g.path j) (g.word j) := by
    intro j hj
    obtain ⟨⟨h1, _⟩, _, _, hr⟩ := (hmem j).1 hj
    exact ⟨hr.1, j, hr.1, rfl, rfl, h1⟩
  refine ⟨js.map (md g c q), e1, ?_, ?_⟩
  · rw [List.map_map]
    apply List.Nodup.map_on _ hnd
    intro a ha' b hb heq
    obtain ⟨ha1, ha2⟩ := hasj a ha'
    obtain ⟨hb1, hb2⟩ := hasj b hb
    have heq' : g.word a = g.word b := heq
    rw [hi.has] at ha2 hb2
    apply ht.path_inj a b ha1 hb1
    exact (hi.ok.consistent _ ha2.2 _ hb2.2 ha2.1 hb2.1).2 heq'
  · intro m
    rw [List.mem_map]
    constructor
    · rintro ⟨j, hj, rfl⟩
      obtain ⟨⟨h1, h2⟩, i, hch, hr⟩ := (hmem j).1 hj
      have hh := (hasj j hj).2
      rw [hi.has] at hh
      refine ⟨g.path j, hh, rfl, h2, ?_⟩
      have hroot : Reach g c q T 0 j ∨ ¬ RowOk c q T (g.path 0) := by
        by_cases hx : RowOk c q T (g.path 0)
        · exact Or.inl ((reach_iff ht ht.pos).2 (Or.inr ⟨hx, i, hch, hr⟩))
        · exact Or.inr hx
      intro r hr1 hr2 hr3
      refine hr.2.2 r ?_ hr2 hr3
      apply List.prefix_of_prefix_length_le hr.2.1 hr2
      rw [hch.path ht, ht.path0]
      simp
      cases r with
      | nil => exact absurd rfl hr1
      | cons => simp
    · rintro ⟨w, hh, herr, hle, hpre⟩
      obtain ⟨j, hj, hpj, hwj, hne⟩ := (hi.has _ _).2 hh
      refine ⟨j, ?_, ?_⟩
      · rw [hmem]
        refine ⟨⟨by rw [hwj]; exact hne, by rw [hpj]; exact hle⟩, ?_⟩
        have hj0 : j ≠ 0 := by
          rintro rfl
          rw [ht.path0] at hpj
          exact hh.1 hpj.symm
        -- the first letter of the word
        obtain ⟨i, hij, ei⟩ := ht.prefix_path j hj _ (List.take_prefix 1 (g.path j))
        have hw1 : 1 ≤ (g.path j).length := by
          rw [hpj]
          cases hw : w with
          | nil => exact absurd hw hh.1
          | cons => simp
        have hleni : (g.path i).length = 1 := by rw [ei, List.length_take]; omega
        have hi1 : 1 ≤ i := by
          rcases Nat.eq_zero_or_pos i with hx | hx
          · subst hx; rw [ht.path0] at hleni; simp at hleni
          · exact hx
        have hin : i < g.n := by omega
        have hpar : g.par i = 0 := by
          have h2 := ht.par_lt i hi1 hin
          apply ht.path_inj _ _ (by omega) ht.pos
          rw [ht.path0]
          have h3 := ht.path_eq i hi1 hin
          rw [h3] at hleni
          simp at hleni
          exact hleni
        refine ⟨i, ⟨by omega, hin, hpar⟩, hj, by rw [ei]; exact List.take_prefix _ _, ?_⟩
        intro r h1 h2 h3
        rw [hpj] at h2 h3
        refine hpre r ?_ h2 h3
        rintro rfl
        have := h1.length_le
        simp at this
        rw [this] at hleni; simp at hleni
      · cases m with
        | mk mw me => simp only [md, hwj, hpj]; rw [show me = best c q w from herr]

end Columbus
