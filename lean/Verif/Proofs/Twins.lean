import Verif.Proofs.MatcherMore
import Verif.Proofs.MatcherOnline
/-
Helpers for C122, C123 and C124: documents with the same texts, fields of weight 0, other weights.
-/

namespace Columbus
open Spec

section
variable [Build] [Icu] [Fp] {m : Matcher} {H : MatcherHistory} {names : List Word} {p p' : SearchParameters} {q : WordList}
  {docs docs' : SMap DocumentID ℚ} {d d' : DocumentID}

/-- Documents with the same words in the same fields have the same relevancy, or none. -/
theorem MInv.answer_twins (h : MInv m H names) (ha : IsAnswer m H names p q docs) (ht : ∀ f w, H.Posting d f w ↔ H.Posting d' f w) (r : ℚ) :
    (d, r) ∈ docs ↔ (d', r) ∈ docs := by
  obtain ⟨P, _, hD⟩ := ha
  rw [← SMap.find_some_iff strict_ltNat hD.sorted, ← SMap.find_some_iff strict_ltNat hD.sorted, hD.find, hD.find]
  have : (P.filter fun p => decide (d ∈ docsOf m.reverseIndex p.1 p.2.1)) = P.filter fun p => decide (d' ∈ docsOf m.reverseIndex p.1 p.2.1) := by
    apply List.filter_congr
    intro x _
    rw [decide_eq_decide, h.post, h.post]
    simp only [ht]
  rw [this]

omit [Build] [Icu] in
/-- Zeros in a sum. -/
theorem foldl_zeros {α : Type} (val : α → ℚ) (c : α → Bool) (l : List α) : ∀ a : ℚ, Fp.rnd a = a → (∀ x ∈ l, c x = false → val x = 0) →
    (l.map val).foldl fadd a = ((l.filter c).map val).foldl fadd a := by
  induction l with
  | nil => intro a _ _; rfl
  | cons x l ih =>
    intro a ha h
    cases hc : c x with
    | true =>
      rw [List.filter_cons_of_pos hc, List.map_cons, List.map_cons, List.foldl_cons, List.foldl_cons]
      exact ih _ (Fp.rnd_idem _) (fun y hy => h y (List.mem_cons_of_mem _ hy))
    | false =>
      rw [List.filter_cons_of_neg (by simp [hc]), List.map_cons, List.foldl_cons, h x List.mem_cons_self hc]
      rw [show fadd a 0 = a by rw [fadd, add_zero, ha]]
      exact ih _ ha (fun y hy => h y (List.mem_cons_of_mem _ hy))

omit [Build] [Icu] in
theorem contribution_zero {W : IndexWeights} {f : Word} (h : IndexWeights.getWeight W f = 0) (H : MatcherHistory) (w : Word) (v : Int) :
    contribution W H f w v = 0 := by
  rw [contribution_eq, h, fmul, mul_zero, rnd_zero]

omit [Build] [Icu] in
/-- Excluding a field of weight 0: the documents that remain keep their relevancy, the others had 0. -/
theorem answer_zero {g : Word} (h0 : IndexWeights.getWeight m.weights g = 0)
    (hx : ∀ f, p'.isNonsearchingField f = (decide (f = g) || p.isNonsearchingField f)) (hl : ∀ x, limit p' x = limit p x)
    (ha : IsAnswer m H names p q docs) (ha' : IsAnswer m H names p' q docs') (d : DocumentID) :
    (∀ r, (d, r) ∈ docs' → (d, r) ∈ docs) ∧ (∀ r, (d, r) ∈ docs → (d, r) ∈ docs' ∨ (r = 0 ∧ d ∉ docs'.map (·.1))) := by
  obtain ⟨P, hP, hD⟩ := ha
  obtain ⟨P', hP', hD'⟩ := ha'
  let c : WordID × WordID × Int → Bool := fun x => decide (names[x.1]? ≠ some g)
  have hits : ∀ i j v, QueryHits m.e p' H names q i j v ↔ names[i]? ≠ some g ∧ QueryHits m.e p H names q i j v := by
    intro i j v
    constructor
    · rintro ⟨x, hxq, f, w, a, b, hf, o, s, rfl⟩
      rw [hx, Bool.or_eq_false_iff, decide_eq_false_iff_not] at hf
      rw [hl] at s
      exact ⟨by rw [a]; intro h; injection h with h; exact hf.1 h, x, hxq, f, w, a, b, hf.2, o, s, rfl⟩
    · rintro ⟨hne, x, hxq, f, w, a, b, hf, o, s, rfl⟩
      refine ⟨x, hxq, f, w, a, b, ?_, o, by rw [hl]; exact s, rfl⟩
      rw [hx, hf, Bool.or_false, decide_eq_false_iff_not]
      rintro rfl
      exact hne a
  have hPP : P' = P.filter c := by
    refine hP'.unique (S := QueryHits m.e p' H names q) ⟨hP.sorted.filter _, ?_⟩ (fun _ _ _ => Iff.rfl)
    intro i j v
    rw [List.mem_filter, hP.mem]
    show _ ∧ decide (names[i]? ≠ some g) = true ↔ _
    rw [decide_eq_true_eq]
    constructor
    · rintro ⟨⟨a, b⟩, hne⟩
      exact ⟨(hits i j v).2 ⟨hne, a⟩, fun u hu => b u ((hits i j u).1 hu).2⟩
    · rintro ⟨a, b⟩
      have ha := (hits i j v).1 a
      exact ⟨⟨ha.2, fun u hu => b u ((hits i j u).2 ⟨ha.1, hu⟩)⟩, ha.1⟩
  subst hPP
  set Q := P.filter fun p => decide (d ∈ docsOf m.reverseIndex p.1 p.2.1) with hQ
  have hQ' : ((P.filter c).filter fun p => decide (d ∈ docsOf m.reverseIndex p.1 p.2.1)) = Q.filter c := by
    rw [hQ, List.filter_filter, List.filter_filter]
    congr 1
    funext x
    exact Bool.and_comm _ _
  have hf := hD.find d
  have hf' := hD'.find d
  rw [hQ'] at hf'
  rw [← hQ] at hf
  have hz : ∀ x ∈ Q, c x = false → valueOf m.weights H names x = 0 := by
    rintro x _ hc
    have hc : names[x.1]? = some g := by simpa [c] using hc
    rw [valueOf, List.getD_eq_getElem?_getD, hc]
    exact contribution_zero h0 ..
  have hsum : sumUp (Q.map (valueOf m.weights H names)) = sumUp ((Q.filter c).map (valueOf m.weights H names)) := by
    rw [sumUp_zero, sumUp_zero]
    · exact foldl_zeros _ c Q 0 rnd_zero hz
    · intro x hx; obtain ⟨_, _, rfl⟩ := List.mem_map.1 hx; exact contribution_rnd ..
    · intro x hx; obtain ⟨_, _, rfl⟩ := List.mem_map.1 hx; exact contribution_rnd ..
  simp only [← SMap.find_some_iff strict_ltNat hD.sorted, ← SMap.find_some_iff strict_ltNat hD'.sorted]
  by_cases he : Q.filter c = []
  · rw [he] at hf' hsum
    constructor
    · intro r hr; rw [hf'] at hr; cases hr
    · intro r hr
      right
      have hne : Q ≠ [] := by intro h1; rw [hf, h1] at hr; cases hr
      rw [hf, accum_sumUp _ _ hne] at hr
      injection hr with hr
      exact ⟨by rw [← hr, hsum]; rfl, (SMap.find_none_iff strict_ltNat _ _).1 hf'⟩
  · have hne : Q ≠ [] := by rintro h1; rw [h1] at he; exact he rfl
    rw [accum_sumUp _ _ hne, hsum] at hf
    rw [accum_sumUp _ _ he] at hf'
    rw [hf, hf']
    exact ⟨fun _ h => h, fun _ h => Or.inl h⟩

/-- With weights that agree on the fields by which a document was found, it has the same relevancy. -/
theorem MInv.answer_weights (h : MInv m H names) {W : IndexWeights}
    (hw : ∀ f w x, H.Posting d f w → p.isNonsearchingField f = false → x ∈ q → SeenBy (charged m.e x.length) x (limit p x) w →
      IndexWeights.getWeight m.weights f = IndexWeights.getWeight W f)
    (ha : IsAnswer m H names p q docs) (ha' : IsAnswer { m with weights := W } H names p q docs') (r : ℚ) :
    (d, r) ∈ docs ↔ (d, r) ∈ docs' := by
  obtain ⟨P, hP, hD⟩ := ha
  obtain ⟨P', hP', hD'⟩ := ha'
  have := hP.unique hP' (fun _ _ _ => Iff.rfl)
  subst this
  have hf' := hD'.find d
  dsimp only at hf'
  rw [← SMap.find_some_iff strict_ltNat hD.sorted, ← SMap.find_some_iff strict_ltNat hD'.sorted, hf', hD.find]
  set Q := P.filter fun p => decide (d ∈ docsOf m.reverseIndex p.1 p.2.1) with hQ
  have hval : Q.map (valueOf m.weights H names) = Q.map (valueOf W H names) := by
    apply List.map_congr_left
    rintro ⟨i, j, v⟩ hx
    obtain ⟨h1, h2⟩ := List.mem_filter.1 hx
    obtain ⟨⟨x, hxq, f, w, a, b, c, _, s, _⟩, _⟩ := (hP.mem i j v).1 h1
    obtain ⟨f', w', a', b', hpost⟩ := (h.post i j d).1 (of_decide_eq_true h2)
    rw [a] at a'; rw [b] at b'; injection a' with a'; injection b' with b'; subst a'; subst b'
    have hfw := hw f w x hpost c hxq s
    simp only [valueOf, List.getD_eq_getElem?_getD, a, Option.getD_some]
    rw [contribution_eq, contribution_eq, hfw]
  by_cases hne : Q = []
  · rw [hne]; rfl
  · rw [accum_sumUp _ _ hne, accum_sumUp _ _ hne, hval]

end
end Columbus
