import Verif.Proofs.Visits
import Verif.Proofs.SearchCosts
import Verif.Props.Example
/-
C92: the work of a search. Also the exact answer of a search for C20.
-/

namespace Columbus.Props
open Columbus Spec ErrorValues

/-- The first row is charged at the deletion price (C28). -/
def leading (c : EditCosts) : EditCosts := { c with lead := c.del }

/-- Some price of turning letters of the query into the beginning `s` of a word is within the limit. -/
def Promising (c : EditCosts) (q s : Word) (T : Int) : Prop := ∃ i v, Script c q s s.length i v ∧ v ≤ T

theorem promising_iff {c : EditCosts} {q s : Word} {T : Int} : RowOk c q T s ↔ Promising c q s T := by
  constructor
  · rintro ⟨i, hi, hv⟩; exact ⟨i, _, D_script _ _ (Nat.le_refl _) hi, hv⟩
  · rintro ⟨i, v, hs, hv⟩; exact rowOk_of_script (List.prefix_refl s) hs hv

/-- C20, what holds whatever the prices: a word is reported exactly if its least price and some price for each of its
beginnings are within the limit. Missing from the full claim: words with a beginning for which there is none. -/
theorem C20_exact_partial [Build] [Icu] [Runtime] (os : Nat → Bool) (h : IndexHistory) (ix : LevIndex) (ho : IndexHistory.Ok h)
    (hb : built os h = .ok ix) (ops : List ErrOp) (q : Word) (hq : ∀ l ∈ q, l ≠ 0#16)
    (hm : Moderate (configured (afterOps ops) q.length) q h)
    (T : Int) (ms0 result : IndexMatches) (he : ix.findWords q (afterOps ops) T ms0 = .ok result) :
    ∃ added, result.Perm (ms0 ++ added) ∧ (added.map MatchData.matchedWord).Nodup ∧ ∀ m, m ∈ added ↔
      ∃ w, IndexHistory.Has h w m.matchedWord ∧ IsEditCost (leading (configured (afterOps ops) q.length)) q w m.error ∧ m.error ≤ T ∧
        ∀ s, s ≠ [] → s <+: w → s ≠ w → Promising (leading (configured (afterOps ops) q.length)) q s T := by
  have ha : Build.asserts = false ∨ q = [] ∨ (afterOps ops).getInsertionError = (afterOps ops).getDeletionError := by
    by_cases hx : (afterOps ops).getInsertionError = (afterOps ops).getDeletionError
    · exact Or.inr (Or.inr hx)
    · by_cases hq0 : q = []
      · exact Or.inr (Or.inl hq0)
      · left
        by_contra hc
        obtain ⟨g, hi⟩ := built_inv ho hb
        obtain ⟨B, hf⟩ := moderate_fits hi hm
        rw [Bool.not_eq_false] at hc
        have := assert_fails (charged_priced ops q.length) hf hq0 (fun hy => hx hy.symm) hc (ix := ix) T ms0
        rw [this] at he; cases he
  obtain ⟨added, e, hnd, hmem⟩ := search ho hb ops hq hm ha T ms0
  rw [e] at he; cases he
  refine ⟨added, Runtime.sortMatches_perm _, hnd, ?_⟩
  intro m
  rw [hmem]
  show (∃ w, _ ∧ _ ∧ _ ∧ _) ↔ _
  refine exists_congr fun w => ?_
  rw [isEditCost_iff]
  refine and_congr_right fun _ => ?_
  constructor
  · rintro ⟨h1, h2, h3⟩
    exact ⟨h1, by rw [h1]; exact h2, fun s a b c => promising_iff.1 (h3 s a b c)⟩
  · rintro ⟨h1, h2, h3⟩
    exact ⟨h1, by rw [h1] at h2; exact h2, fun s a b c => promising_iff.2 (h3 s a b c)⟩

/-! ### C92 -/

/-- C92. The search that records what it looks at is the search: same matches, same exceptions and failures. -/
theorem C92_agrees [Build] [Runtime] (ix : LevIndex) (e : ErrorValues) (q : Word) (T : Int) (ms0 : IndexMatches) :
    (ix.visitWords q e T ms0).map Prod.fst = ix.findWords q e T ms0 := visitWords_forget ix T ms0

/-- C92. Whatever the settings and the query, a search looks at no node twice and at nothing but the beginnings of the words
inserted: less often than there are nodes. -/
theorem C92_once [Build] [Runtime] (os : Nat → Bool) (h : IndexHistory) (ix : LevIndex) (ho : IndexHistory.Ok h)
    (hb : built os h = .ok ix) (e : ErrorValues) (q : Word) (T : Int) (ms0 result : IndexMatches) (seen : List Word)
    (he : ix.visitWords q e T ms0 = .ok (result, seen)) :
    seen.Nodup ∧ (∀ r ∈ seen, r ≠ [] ∧ ∃ p ∈ h, r <+: p.1) ∧ ∃ n, ix.numNodes = .ok n ∧ seen.length < n := by
  obtain ⟨g, hi⟩ := built_inv ho hb
  obtain ⟨js, es, hnd, hj⟩ := visitWords_shape hi he
  have ht := hi.tinv
  subst es
  refine ⟨?_, ?_, g.n, ?_, ?_⟩
  · apply List.Nodup.map_on _ hnd
    intro a ha b hb' hab
    exact ht.path_inj a b (hj a ha).2 (hj b hb').2 hab
  · intro r hr
    obtain ⟨j, hjm, rfl⟩ := List.mem_map.1 hr
    obtain ⟨h1, h2⟩ := hj j hjm
    refine ⟨?_, hi.pre j h1 h2⟩
    rw [ht.path_eq j h1 h2]
    simp
  · rw [LevIndex.numNodes, numNodes_spec ht]
  · have hsub : js ⊆ (List.range g.n).tail := by
      intro j hjm
      obtain ⟨h1, h2⟩ := hj j hjm
      rw [List.range_eq_range', List.tail_range', List.mem_range'_1]
      omega
    have := (List.subperm_of_subset hnd hsub).length_le
    have h0 := ht.pos
    simp at this ⊢
    omega

/-- C92. The nodes a search looks at are exactly the beginnings of inserted words of which every shorter beginning is
promising. -/
theorem C92_exact [Build] [Icu] [Runtime] (os : Nat → Bool) (h : IndexHistory) (ix : LevIndex) (ho : IndexHistory.Ok h)
    (hb : built os h = .ok ix) (ops : List ErrOp) (q : Word) (hq : ∀ l ∈ q, l ≠ 0#16)
    (hm : Moderate (configured (afterOps ops) q.length) q h) (T : Int) (ms0 result : IndexMatches) (seen : List Word)
    (he : ix.visitWords q (afterOps ops) T ms0 = .ok (result, seen)) (r : Word) :
    r ∈ seen ↔ r ≠ [] ∧ (∃ p ∈ h, r <+: p.1) ∧
      ∀ s, s ≠ [] → s <+: r → s ≠ r → Promising (leading (configured (afterOps ops) q.length)) q s T := by
  obtain ⟨g, hi⟩ := built_inv ho hb
  obtain ⟨B, hf⟩ := moderate_fits hi hm
  rw [visitWords_seen hi (charged_priced ops q.length) hf hq he r]
  refine and_congr_right fun _ => and_congr_right fun _ => ?_
  exact forall_congr' fun s => imp_congr_right fun _ => imp_congr_right fun _ => imp_congr_right fun _ => promising_iff

/-- C92. If a letter that the query does not have costs at least `m`, a search goes no deeper than the length of the query
and one letter more for each `m` of the limit, and one; with a negative limit it stops at the first letters. -/
theorem C92_depth [Build] [Icu] [Runtime] (os : Nat → Bool) (h : IndexHistory) (ix : LevIndex) (ho : IndexHistory.Ok h)
    (hb : built os h = .ok ix) (ops : List ErrOp) (q : Word) (hq : ∀ l ∈ q, l ≠ 0#16)
    (hm : Moderate (configured (afterOps ops) q.length) q h) (hn : (configured (afterOps ops) q.length).NonNeg)
    (m : Int) (hm0 : 0 ≤ m) (h1 : m ≤ (afterOps ops).getStartInsertionError q.length) (h2 : m ≤ (afterOps ops).getEndDeletionError)
    (h3 : m ≤ (afterOps ops).getDeletionError) (T : Int) (ms0 result : IndexMatches) (seen : List Word)
    (he : ix.visitWords q (afterOps ops) T ms0 = .ok (result, seen)) (r : Word) (hr : r ∈ seen) :
    r.length = 1 ∨ 0 ≤ T ∧ ((r.length : Int) - 1 - q.length) * m ≤ T := by
  obtain ⟨hr1, _, hr3⟩ := (C92_exact os h ix ho hb ops q hq hm T ms0 result seen he r).1 hr
  by_cases hl : r.length = 1
  · exact Or.inl hl
  · right
    have hpos : 2 ≤ r.length := by
      have := List.length_pos_iff.2 hr1
      omega
    obtain ⟨i, v, hs, hv⟩ := hr3 (r.take (r.length - 1)) (by
        intro h0
        have := congrArg List.length h0
        rw [List.length_take] at this
        simp at this
        omega) (List.take_prefix _ _) (by
        intro h0
        have := congrArg List.length h0
        rw [List.length_take] at this
        omega)
    have hn' : (leading (configured (afterOps ops) q.length)).NonNeg := by
      obtain ⟨a1, a2, a3, a4, a5, a6, a7⟩ := hn
      exact ⟨a5, a2, a3, a4, a5, a6, a7⟩
    have hd := script_depth hn' hm0 (show m ≤ (leading (configured (afterOps ops) q.length)).startIns from h1) h2 h3 hs
    have h0 := script_nonneg hn' hs
    have hi := (script_bounds hs).1
    have hlen : (r.take (r.length - 1)).length = r.length - 1 := by rw [List.length_take]; omega
    rw [hlen] at hd
    refine ⟨by omega, ?_⟩
    have hle : ((r.length : Int) - 1 - q.length) * m ≤ (((r.length - 1 : Nat) : Int) - i) * m :=
      Int.mul_le_mul_of_nonneg_right (by omega) hm0
    omega

/-- C92. With default settings a search for words within `n` edits goes at most `n + 1` letters beyond the length of the
query, whatever the words in the index. -/
theorem C92_default [Build] [Icu] [Runtime] (os : Nat → Bool) (h : IndexHistory) (ix : LevIndex) (ho : IndexHistory.Ok h)
    (hb : built os h = .ok ix) (q : Word) (hq : ∀ l ∈ q, l ≠ 0#16) (hm : Moderate (configured (afterOps []) q.length) q h)
    (n : Nat) (ms0 result : IndexMatches) (seen : List Word)
    (he : ix.visitWords q (afterOps []) (100 * n) ms0 = .ok (result, seen)) (r : Word) (hr : r ∈ seen) :
    r.length ≤ q.length + n + 1 := by
  rcases C92_depth os h ix ho hb [] q hq hm (by rw [configured_default]; exact unit_nonneg) 100 (by decide)
      (Int.le_refl _) (Int.le_refl _) (Int.le_refl _) (100 * n) ms0 result seen he r hr with h1 | ⟨_, h1⟩ <;> omega

/-- Words "abc", "bcd", "b" and the query "a" within one edit: the nodes looked at. The bound of C92_default is reached by
"abc"; "bcd" is not looked at. -/
theorem C92_example :
    (@built Example.debug (fun _ => true) [([0x61, 0x62, 0x63], 0), ([0x62, 0x63, 0x64], 1), ([0x62], 2)] >>= fun ix =>
      @LevIndex.visitWords Example.debug Example.runtime ix [0x61] (@afterOps Example.debug Example.icu []) 100 []) =
    .ok ([⟨2, 100⟩], [[0x61], [0x61, 0x62], [0x61, 0x62, 0x63], [0x62], [0x62, 0x63]]) := by
  decide +kernel

end Columbus.Props
