import Verif.Proofs.MatcherFacts
/-
Searching more: a search that hits more words does not lower relevancies.
-/

namespace Columbus
open Spec

section
variable [Fp]

theorem sumUp_zero {l : List ℚ} (h : ∀ x ∈ l, Fp.rnd x = x) : sumUp l = l.foldl fadd 0 := by
  cases l with
  | nil => rfl
  | cons x l => simp only [sumUp, List.foldl_cons, fadd, zero_add, h x (by simp)]

theorem contribution_rnd (W : IndexWeights) (H : MatcherHistory) (f w : Word) (v : Int) :
    Fp.rnd (contribution W H f w v) = contribution W H f w v := Fp.rnd_idem _

theorem contribution_antitone {W : IndexWeights} {H : MatcherHistory} {f w : Word} {v v' : Int} (hv : 0 ≤ v') (hle : v' ≤ v)
    (hw : 0 ≤ IndexWeights.getWeight W f) : contribution W H f w v ≤ contribution W H f w v' := by
  have d1 := denominator (v := v') hv
  have d2 : fadd 100 (ofInt v') ≤ fadd 100 (ofInt v) := fadd_mono (le_refl _) (Fp.rnd_mono _ _ (by exact_mod_cast hle))
  have d3 : (1 : ℚ) ≤ ofInt ((H.maxCount f : Int) + 1) := ofInt_one_le (by omega)
  have n3 : 0 ≤ ofInt (H.count f w : Int) := ofInt_nonneg (by omega)
  have le3 : ofInt (H.count f w : Int) ≤ ofInt ((H.maxCount f : Int) + 1) := by
    apply Fp.rnd_mono
    have := MatcherHistory.count_le_max H f w
    exact_mod_cast (by omega : (H.count f w : Int) ≤ (H.maxCount f : Int) + 1)
  have b1 : Fp.rnd (ofInt (H.count f w : Int) / ofInt ((H.maxCount f : Int) + 1)) ≤ 1 :=
    rnd_le_one (by rw [div_le_one (by linarith)]; exact le3)
  have c0 : 0 ≤ fsub 1 (Fp.rnd (ofInt (H.count f w : Int) / ofInt ((H.maxCount f : Int) + 1))) := rnd_nonneg (by linarith)
  have a : Fp.rnd (100 / fadd 100 (ofInt v)) ≤ Fp.rnd (100 / fadd 100 (ofInt v')) :=
    Fp.rnd_mono _ _ (div_le_div_of_nonneg_left (by norm_num) (by linarith) d2)
  exact Fp.rnd_mono _ _ (mul_le_mul_of_nonneg_right (Fp.rnd_mono _ _ (mul_le_mul_of_nonneg_right a c0)) hw)

omit [Fp] in
theorem Before.irrefl (a : WordID × WordID × Int) {i j : WordID} {v : Int} (h : Before a (i, j, v)) (e : a.1 = i) (e' : a.2.1 = j) : False := by
  rcases h with h | ⟨_, h⟩
  · exact absurd h (by rw [e]; exact lt_irrefl _)
  · exact absurd h (by rw [e']; exact lt_irrefl _)

/-- A list of hits that is covered by another one has no larger sum. -/
theorem foldl_more (val : WordID × WordID × Int → ℚ) (Q' : List (WordID × WordID × Int)) :
    ∀ (Q : List (WordID × WordID × Int)) (a a' : ℚ), Q.Pairwise Before → Q'.Pairwise Before →
      (∀ i j v, (i, j, v) ∈ Q → ∃ v', (i, j, v') ∈ Q' ∧ val (i, j, v) ≤ val (i, j, v')) → (∀ x ∈ Q', 0 ≤ val x) →
      a ≤ a' → Fp.rnd a' = a' → (Q.map val).foldl fadd a ≤ (Q'.map val).foldl fadd a' := by
  induction Q' with
  | nil =>
    intro Q a a' _ _ h _ hle _
    cases Q with
    | nil => exact hle
    | cons x Q => obtain ⟨v', hv, _⟩ := h x.1 x.2.1 x.2.2 (by simp); cases hv
  | cons y Q' ih =>
    intro Q a a' hs hs' h h0 hle hr
    rw [List.pairwise_cons] at hs'
    obtain ⟨i', j', v'⟩ := y
    simp only [List.map_cons, List.foldl_cons]
    -- entries of Q with another key are matched in the rest
    have rest : ∀ i j v, (i, j, v) ∈ Q → ¬ (i = i' ∧ j = j') → ∃ u, (i, j, u) ∈ Q' ∧ val (i, j, v) ≤ val (i, j, u) := by
      intro i j v hx hne
      obtain ⟨u, hu, hle⟩ := h i j v hx
      rcases List.mem_cons.1 hu with e | hu
      · injection e with e1 e2; injection e2 with e2 e3; exact absurd ⟨e1, e2⟩ hne
      · exact ⟨u, hu, hle⟩
    have skip : Fp.rnd (fadd a' (val (i', j', v'))) = fadd a' (val (i', j', v')) := Fp.rnd_idem _
    have grow : a' ≤ fadd a' (val (i', j', v')) := by
      have : a' ≤ a' + val (i', j', v') := by have := h0 _ (List.mem_cons_self ..); linarith
      have := Fp.rnd_mono _ _ this
      rwa [hr] at this
    by_cases hk : ∃ v, (i', j', v) ∈ Q
    · cases Q with
      | nil => obtain ⟨v, hv⟩ := hk; cases hv
      | cons x Q =>
        obtain ⟨i, j, v⟩ := x
        rw [List.pairwise_cons] at hs
        -- the head is the one
        have hx : i = i' ∧ j = j' := by
          by_contra hne
          obtain ⟨u, hu⟩ := hk
          rcases List.mem_cons.1 hu with e | hu
          · injection e with e1 e2; injection e2 with e2 _; exact hne ⟨e1.symm, e2.symm⟩
          · have b1 := hs.1 _ hu
            obtain ⟨w, hw, _⟩ := rest i j v (by simp) hne
            have b2 := hs'.1 _ hw
            simp only [Before] at b1 b2
            rcases b1 with b1 | ⟨b1, b1'⟩ <;> rcases b2 with b2 | ⟨b2, b2'⟩
            · exact absurd (lt_trans b1 b2) (lt_irrefl _)
            · rw [b2] at b1; exact lt_irrefl _ b1
            · rw [b1] at b2; exact lt_irrefl _ b2
            · exact absurd (lt_trans b1' b2') (lt_irrefl _)
        obtain ⟨rfl, rfl⟩ := hx
        simp only [List.map_cons, List.foldl_cons]
        have hval : val (i, j, v) ≤ val (i, j, v') := by
          obtain ⟨u, hu, hle⟩ := h i j v (by simp)
          rcases List.mem_cons.1 hu with e | hu
          · injection e with _ e; injection e with _ e; rw [← e]; exact hle
          · exact (Before.irrefl _ (hs'.1 _ hu) rfl rfl).elim
        refine ih Q _ _ hs.2 hs'.2 ?_ (fun x hx => h0 x (by simp [hx])) (fadd_mono hle hval) skip
        intro i1 j1 v1 hx
        refine rest i1 j1 v1 (by simp [hx]) ?_
        rintro ⟨rfl, rfl⟩
        exact Before.irrefl _ (hs.1 _ hx) rfl rfl
    · refine ih Q _ _ hs hs'.2 ?_ (fun x hx => h0 x (by simp [hx])) (le_trans hle grow) skip
      intro i j v hx
      refine rest i j v hx ?_
      rintro ⟨rfl, rfl⟩
      exact hk ⟨v, hx⟩

end

section
variable [Fp] {m : Matcher} {H : MatcherHistory} {names : List Word} {p p' : SearchParameters} {q q' : WordList}
  {docs docs' : SMap DocumentID ℚ}

/-- A search that hits all that another one hits, with no higher error, perhaps with other settings, lists its documents with no lower
relevancy. -/
theorem answer_closer {e' : ErrorValues} (hn : ∀ x ∈ q', (configured e' x.length).NonNeg)
    (hw : ∀ f, 0 ≤ IndexWeights.getWeight m.weights f)
    (hm : ∀ i j v, QueryHits m.e p H names q i j v → ∃ v' ≤ v, QueryHits e' p' H names q' i j v') (ha : IsAnswer m H names p q docs)
    (ha' : IsAnswer { m with e := e' } H names p' q' docs') {d : DocumentID} {r : ℚ} (hd : (d, r) ∈ docs) : ∃ r', (d, r') ∈ docs' ∧ r ≤ r' := by
  obtain ⟨P, hP, hD⟩ := ha
  obtain ⟨P', hP', hD'⟩ := ha'
  have hf := (SMap.find_some_iff strict_ltNat hD.sorted d r).2 hd
  have hf' := hD'.find d
  rw [hD.find] at hf
  set Q := P.filter fun p => decide (d ∈ docsOf m.reverseIndex p.1 p.2.1)
  set Q' := P'.filter fun p => decide (d ∈ docsOf m.reverseIndex p.1 p.2.1) with hQ'
  have nonneg : ∀ i j v, QueryHits e' p' H names q' i j v → 0 ≤ v := by
    rintro i j v ⟨x, hx, _, _, _, _, _, _, _, rfl⟩
    exact best_nonneg (charged_nonneg (hn x hx))
  have cover : ∀ i j v, (i, j, v) ∈ Q → ∃ v', (i, j, v') ∈ Q' ∧ 0 ≤ v' ∧ v' ≤ v := by
    intro i j v hx
    obtain ⟨h1, h2⟩ := List.mem_filter.1 hx
    have h3 := (hP.mem i j v).1 h1
    obtain ⟨u, hu, h5⟩ := hm i j v h3.1
    obtain ⟨v', h4⟩ := least_of_hit hn h5
    exact ⟨v', List.mem_filter.2 ⟨(hP'.mem i j v').2 h4, h2⟩, nonneg _ _ _ h4.1, le_trans (h4.2 u h5) hu⟩
  have hne : Q ≠ [] := by intro h0; rw [h0] at hf; cases hf
  have hne' : Q' ≠ [] := by
    obtain ⟨⟨i, j, v⟩, hx⟩ := List.exists_mem_of_ne_nil _ hne
    obtain ⟨v', h1, _⟩ := cover i j v hx
    exact List.ne_nil_of_mem h1
  rw [accum_sumUp _ _ hne] at hf
  rw [accum_sumUp _ _ hne'] at hf'
  injection hf with hf
  refine ⟨_, (SMap.find_some_iff strict_ltNat hD'.sorted _ _).1 hf', ?_⟩
  rw [← hf, sumUp_zero, sumUp_zero]
  · refine foldl_more _ Q' Q 0 0 (hP.sorted.filter _) (hP'.sorted.filter _) ?_ ?_ (le_refl _) ?_
    · intro i j v hx
      obtain ⟨v', h1, h2, h3⟩ := cover i j v hx
      exact ⟨v', h1, contribution_antitone h2 h3 (hw _)⟩
    · rintro ⟨i, j, v⟩ hx
      exact contribution_nonneg (nonneg _ _ _ ((hP'.mem i j v).1 (List.mem_filter.1 hx).1).1) (hw _)
    · have := Fp.rnd_exact 0 0 (by norm_num) (by norm_num)
      simpa using this
  · intro x hx
    obtain ⟨_, _, rfl⟩ := List.mem_map.1 hx
    exact contribution_rnd ..
  · intro x hx
    obtain ⟨_, _, rfl⟩ := List.mem_map.1 hx
    exact contribution_rnd ..

theorem answer_more (hn : ∀ x ∈ q', (configured m.e x.length).NonNeg) (hw : ∀ f, 0 ≤ IndexWeights.getWeight m.weights f)
    (hm : ∀ i j v, QueryHits m.e p H names q i j v → QueryHits m.e p' H names q' i j v) (ha : IsAnswer m H names p q docs)
    (ha' : IsAnswer m H names p' q' docs') {d : DocumentID} {r : ℚ} (hd : (d, r) ∈ docs) : ∃ r', (d, r') ∈ docs' ∧ r ≤ r' :=
  answer_closer hn hw (fun i j v h => ⟨v, le_refl _, hm i j v h⟩) ha ha' hd

end

/-- More query words, fewer excluded fields and higher limits hit more. -/
theorem QueryHits.more {e : ErrorValues} {H : MatcherHistory} {names : List Word} {p p' : SearchParameters} {q q' : WordList}
    (hq : ∀ x ∈ q, x ∈ q') (hx : ∀ f, p'.isNonsearchingField f = true → p.isNonsearchingField f = true)
    (hl : ∀ x ∈ q, limit p x ≤ limit p' x) {i j : WordID} {v : Int} (h : QueryHits e p H names q i j v) :
    QueryHits e p' H names q' i j v := by
  obtain ⟨x, hxq, f, w, a, b, c, d, s, rfl⟩ := h
  refine ⟨x, hq x hxq, f, w, a, b, ?_, d, s.mono (hl x hxq), rfl⟩
  cases hc : p'.isNonsearchingField f
  · rfl
  · rw [hx f hc] at c; cases c

end Columbus
