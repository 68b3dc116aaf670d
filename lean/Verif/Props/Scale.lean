import Verif.Proofs.Scale
import Verif.Props.Arithmetic
import Mathlib.Algebra.BigOperators.Ring.List
/-
C112: only the proportion of the weights matters.
-/

namespace Columbus.Props
open Columbus Spec

section
attribute [local instance] ieee
variable [Build] [Icu] [Runtime] {os : Nat → Bool} {m : Matcher} {H : MatcherHistory} {K : List Word}

/-! ### C112 -/

/-- The documents listed do not depend on the weights. -/
theorem weights_documents (h : Ran os m H K) (q : WordList) (p : SearchParameters) (hs : Sane m.e q H)
    (hu : ∀ w ∈ filterWords p.filter, Usable w) (W : IndexWeights) (m1 m2 : Matcher) (r r' : MatchResults) (k k' : List Result)
    (e : m.matchQuery q p = (m1, .ok r)) (hk : Shows r k) (e' : { m with weights := W }.matchQuery q p = (m2, .ok r'))
    (hk' : Shows r' k') : ∀ d, d ∈ k'.map (·.2) ↔ d ∈ k.map (·.2) := by
  obtain ⟨names, hi, _⟩ := Ran.start h
  have hi' : MInv { m with weights := W } H names :=
    ⟨hi.store, hi.known, hi.ixs, hi.has, hi.keys, hi.post, hi.docs, hi.sizes, hi.e, hi.stats⟩
  obtain ⟨docs, ha, _, rfl⟩ := answer_shows hi hs hu e hk
  obtain ⟨docs', ha', _, rfl⟩ := answer_shows hi' hs hu e' hk'
  intro d
  have key : ∀ docs : SMap DocumentID ℚ, d ∈ ((listing docs).filter fun x => decide (Satisfies H p.filter x.2)).map (·.2) ↔
      d ∈ docs.map (·.1) ∧ Satisfies H p.filter d := by
    intro docs
    rw [← mem_listing_docs]
    simp only [List.mem_map, List.mem_filter, decide_eq_true_eq]
    constructor
    · rintro ⟨x, ⟨h1, h2⟩, rfl⟩; exact ⟨⟨x, h1, rfl⟩, h2⟩
    · rintro ⟨⟨x, h1, rfl⟩, h2⟩; exact ⟨x, ⟨h1, h2⟩, rfl⟩
  rw [key, key, hi.answer_mem hs.nonNeg ha, hi'.answer_mem hs.nonNeg ha']

/-- C112, powers of two: if the weights of all indexed fields are multiplied by a power of two, a search lists the same documents in
the same order, with relevancies multiplied by it. Weights other than 0 must be at least 2^-967 before and after. -/
theorem C112_power (h : Ran os m H K) (W : IndexWeights) (h' : Ran os { m with weights := W } H K) (q : WordList) (p : SearchParameters)
    (hs : Sane m.e q H) (he : Exact m.e q) (hu : ∀ w ∈ filterWords p.filter, Usable w) (hH : H.words.length < 2^53) (j : ℤ)
    (hW : ∀ x ∈ H, IndexWeights.getWeight W x.field = 2^j * IndexWeights.getWeight m.weights x.field)
    (hn : ∀ x ∈ H, IndexWeights.getWeight m.weights x.field = 0 ∨
      (2 : ℚ)^(-967 : ℤ) ≤ IndexWeights.getWeight m.weights x.field ∧ (2 : ℚ)^(-967 : ℤ) ≤ IndexWeights.getWeight W x.field)
    (m1 m2 : Matcher) (r r' : MatchResults) (k k' : List Result) (e : m.matchQuery q p = (m1, .ok r)) (hk : Shows r k)
    (e' : { m with weights := W }.matchQuery q p = (m2, .ok r')) (hk' : Shows r' k') :
    k' = k.map fun x => (2^j * x.1, x.2) := by
  have hd := weights_documents h q p hs hu W m1 m2 r r' k k' e hk e' hk'
  obtain ⟨ident, i1, L1⟩ := C47_relevancy h q p hs he hu m1 r k e hk
  obtain ⟨ident', i2, L2⟩ := C47_relevancy h' q p hs he hu m2 r' k' e' hk'
  have same : ∀ w ∈ H.mentions, ident' w = ident w := fun w hw => ((i2 w hw _).1 ((i1 w hw _).2 rfl)).symm
  have value : ∀ rel rel' d, (rel, d) ∈ k → (rel', d) ∈ k' → rel' = 2^j * rel := by
    intro rel rel' d hx hx'
    obtain ⟨l1, a1, a2, _, a4⟩ := L1 rel d hx
    obtain ⟨l2, b1, b2, _, b4⟩ := L2 rel' d hx'
    have men : ∀ x ∈ l1, x.1 ∈ H.mentions ∧ x.2.1 ∈ H.mentions := by
      rintro ⟨f, w, v⟩ hx
      have := ((a1 f w v).1 hx).1
      exact ⟨this.field, this.word⟩
    have memb : ∀ x, x ∈ l2 ↔ x ∈ l1 := by
      rintro ⟨f, w, v⟩
      rw [a1, b1]
    have b2' : l2.Pairwise (fun a b => ident a.1 < ident b.1 ∨ (ident a.1 = ident b.1 ∧ ident a.2.1 < ident b.2.1)) := by
      refine List.Pairwise.imp_of_mem ?_ b2
      intro a b ha hb hab
      rw [same _ (men a ((memb a).1 ha)).1, same _ (men b ((memb b).1 hb)).1, same _ (men a ((memb a).1 ha)).2,
        same _ (men b ((memb b).1 hb)).2] at hab
      exact hab
    have irr : ∀ {l : List (Word × Word × Int)},
        l.Pairwise (fun a b => ident a.1 < ident b.1 ∨ (ident a.1 = ident b.1 ∧ ident a.2.1 < ident b.2.1)) → l.Nodup := by
      intro l hl
      refine hl.imp ?_
      rintro a b h rfl
      rcases h with h | ⟨_, h⟩ <;> exact absurd h (lt_irrefl _)
    have hl : l2 = l1 := by
      refine List.Perm.eq_of_pairwise ?_ b2' a2 ((List.perm_ext_iff_of_nodup (irr b2') (irr a2)).2 memb)
      rintro a b _ _ (hab | ⟨h1, hab⟩) (hba | ⟨h2, hba⟩)
      · exact absurd hba (lt_asymm hab)
      · exact absurd hab (by rw [h2]; exact lt_irrefl _)
      · exact absurd hba (by rw [h1]; exact lt_irrefl _)
      · exact absurd hba (lt_asymm hab)
    subst hl
    rw [b4, a4]
    have each : ∀ x ∈ l2, contribution W H x.1 x.2.1 x.2.2 = 2^j * contribution m.weights H x.1 x.2.1 x.2.2 ∧
        Normal j (contribution m.weights H x.1 x.2.1 x.2.2) := by
      rintro ⟨f, w, v⟩ hx
      obtain ⟨⟨t, ht, _, rfl, _⟩, _, hc⟩ := (a1 f w v).1 hx
      have hv := Columbus.CloseTo.bounds hs.nonNeg hc
      exact contribution_scale hv.1 hv.2 (lt_of_le_of_lt (MatcherHistory.maxCount_le H _) hH) (hW t ht) (hn t ht)
    rw [← sumUp_scale]
    · congr 1
      rw [List.map_map]
      exact List.map_congr_left fun x hx => (each x hx).1
    · intro y hy
      obtain ⟨x, hx, rfl⟩ := List.mem_map.1 hy
      exact (each x hx).2
  obtain ⟨k1, s1, n1, o1⟩ := C46_ranked m m1 q p r e
  obtain rfl := Columbus.Shows.unique s1 hk
  obtain ⟨k2, s2, n2, o2⟩ := C46_ranked _ m2 q p r' e'
  obtain rfl := Columbus.Shows.unique s2 hk'
  have hp := two_zpow_pos j
  have o1' : (k1.map fun x => ((2^j * x.1, x.2) : Result)).Pairwise (fun a b => b.1 < a.1 ∨ (a.1 = b.1 ∧ a.2 < b.2)) := by
    rw [List.pairwise_map]
    refine o1.imp ?_
    rintro a b (h | ⟨h1, h2⟩)
    · exact Or.inl (mul_lt_mul_of_pos_left h hp)
    · exact Or.inr ⟨by rw [h1], h2⟩
  have irr : ∀ {l : List Result}, l.Pairwise (fun a b => b.1 < a.1 ∨ (a.1 = b.1 ∧ a.2 < b.2)) → l.Nodup := by
    intro l hl
    refine hl.imp ?_
    rintro a b h rfl
    rcases h with h | ⟨_, h⟩ <;> exact absurd h (lt_irrefl _)
  refine List.Perm.eq_of_pairwise ?_ o2 o1' ((List.perm_ext_iff_of_nodup (irr o2) (irr o1')).2 ?_)
  · rintro a b _ _ (h | ⟨h1, h2⟩) (h' | ⟨h1', h2'⟩)
    · linarith
    · linarith
    · linarith
    · exact absurd h2' (lt_asymm h2)
  · rintro ⟨rel', d⟩
    rw [List.mem_map]
    constructor
    · intro hx'
      obtain ⟨⟨rel, d'⟩, hx, rfl⟩ := List.mem_map.1 ((hd d).1 (List.mem_map.2 ⟨_, hx', rfl⟩))
      exact ⟨_, hx, by rw [value rel rel' _ hx hx']⟩
    · rintro ⟨⟨rel, d'⟩, hx, heq⟩
      simp only [Prod.mk.injEq] at heq
      obtain ⟨rfl, rfl⟩ := heq
      obtain ⟨⟨rel', d''⟩, hx', rfl⟩ := List.mem_map.1 ((hd d').2 (List.mem_map.2 ⟨_, hx, rfl⟩))
      rw [← value rel rel' _ hx hx']
      exact hx'

/-- C112, any factor: the same documents are listed, with relevancies multiplied by the factor up to rounding, with the bounds of
C73. -/
theorem C112_factor (h : Ran os m H K) (W : IndexWeights) (h' : Ran os { m with weights := W } H K) (q : WordList) (p : SearchParameters)
    (hs : Sane m.e q H) (he : Exact m.e q) (hu : ∀ w ∈ filterWords p.filter, Usable w) (hH : H.words.length < 2^53) (c : ℚ) (hc : 0 ≤ c)
    (hW : ∀ x ∈ H, IndexWeights.getWeight W x.field = c * IndexWeights.getWeight m.weights x.field) (b b' : ℤ) (hb : -1021 ≤ b) (hb' : -1021 ≤ b')
    (hw : ∀ x ∈ H, 0 ≤ IndexWeights.getWeight m.weights x.field ∧ IndexWeights.getWeight m.weights x.field ≤ 2^b)
    (hw' : ∀ x ∈ H, IndexWeights.getWeight W x.field ≤ 2^b')
    (m1 m2 : Matcher) (r r' : MatchResults) (k k' : List Result) (e : m.matchQuery q p = (m1, .ok r)) (hk : Shows r k)
    (e' : { m with weights := W }.matchQuery q p = (m2, .ok r')) (hk' : Shows r' k') :
    (∀ d, d ∈ k'.map (·.2) ↔ d ∈ k.map (·.2)) ∧
    ∀ rel rel' d, (rel, d) ∈ k → (rel', d) ∈ k' → ∃ L : List (Word × Word × Int), L.Nodup ∧
      (∀ f w v, (f, w, v) ∈ L ↔ H.Posting d f w ∧ p.isNonsearchingField f = false ∧ CloseTo m.e p q w v) ∧
      |rel' - c * rel| ≤ L.length * (L.length + 6) * (2^b' + c * 2^b) * 2^(-54 : ℤ) := by
  refine ⟨weights_documents h q p hs hu W m1 m2 r r' k k' e hk e' hk', fun rel rel' d hx hx' => ?_⟩
  obtain ⟨L1, n1, _, t1, a1, _⟩ := C73_accuracy h q p hs he hu hH b hb hw m1 r k e hk rel d hx
  obtain ⟨L2, n2, _, t2, a2, _⟩ := C73_accuracy h' q p hs he hu hH b' hb' (fun x hx => ⟨by
    rw [show IndexWeights.getWeight ({ m with weights := W } : Matcher).weights x.field = c * IndexWeights.getWeight m.weights x.field from
      hW x hx]
    exact mul_nonneg hc (hw x hx).1, hw' x hx⟩) m2 r' k' e' hk' rel' d hx'
  have hp : L2.Perm L1 := (List.perm_ext_iff_of_nodup n2 n1).2 (by rintro ⟨f, w, v⟩; rw [t1, t2])
  refine ⟨L1, n1, t1, ?_⟩
  have hsum : (L2.map fun x => exactContribution W H x.1 x.2.1 x.2.2).sum = c * (L1.map fun x => exactContribution m.weights H x.1 x.2.1 x.2.2).sum := by
    rw [(hp.map _).sum_eq, ← List.sum_map_mul_left]
    congr 1
    refine List.map_congr_left ?_
    rintro ⟨f, w, v⟩ hx
    obtain ⟨⟨t, ht, _, rfl, _⟩, _⟩ := (t1 f w v).1 hx
    simp only [exactContribution]
    rw [hW t ht]
    ring
  rw [show ({ m with weights := W } : Matcher).weights = W from rfl, hsum, hp.length_eq] at a2
  have a3 := mul_le_mul_of_nonneg_left a1 hc
  rw [← abs_of_nonneg hc, ← abs_mul, abs_of_nonneg hc, mul_sub] at a3
  rw [abs_le] at *
  constructor <;> nlinarith [a2.1, a2.2, a3.1, a3.2]

/-- Titles and bodies, each weighing four times as much. -/
example : ∃ (m : Matcher) (W : IndexWeights), Ran Example.os m Example.texts [] ∧ Ran Example.os { m with weights := W } Example.texts [] ∧
    Sane m.e [Example.save] Example.texts ∧ Exact m.e [Example.save] ∧ Example.texts.words.length < 2^53 ∧
    ∀ x ∈ Example.texts, IndexWeights.getWeight m.weights x.field = 1 ∧ IndexWeights.getWeight W x.field = 2^(2 : ℤ) * 1 ∧
      (2 : ℚ)^(-967 : ℤ) ≤ 1 := by
  obtain ⟨m, h, he, hw⟩ := Example.ran
  have h2 := (h.weight Example.title 4).weight Example.body 4
  refine ⟨m, _, h, h2, by rw [he]; exact Example.sane_save, by rw [he]; exact exact_default _, by decide, ?_⟩
  rw [hw]
  intro x hx
  refine ⟨by simp [IndexWeights.getWeight, SMap.find], ?_, (zpow_le_zpow_right₀ (by norm_num) (by norm_num : (-967 : ℤ) ≤ 0)).trans_eq (zpow_zero _)⟩
  have : x.field = Example.title ∨ x.field = Example.body := by
    have : ∀ x ∈ Example.texts, x.field = Example.title ∨ x.field = Example.body := by decide
    exact this x hx
  unfold IndexWeights.setWeight IndexWeights.getWeight
  rw [SMap.find_set strict_wordLt, SMap.find_set strict_wordLt]
  rcases this with h | h <;> rw [h]
  · rw [if_neg (by decide), if_pos rfl]; norm_num
  · rw [if_pos rfl]; norm_num

end
end Columbus.Props
