import Verif.Props.Arithmetic
import Verif.Proofs.Union
/-
C113: a query finds what its words find.
-/

namespace Columbus.Props
open Columbus Spec

/-! ### C113 -/

section
variable [Build] [Icu] [Runtime] [Fp] {os : Nat → Bool} {m : Matcher} {H : MatcherHistory} {K : List Word}

/-- C113, documents: a search for the words of two queries together lists the documents that one of them lists. -/
theorem C113_documents (h : Ran os m H K) (q q' : WordList) (p : SearchParameters) (hs : Sane m.e q H) (hs' : Sane m.e q' H)
    (he : Exact m.e q) (he' : Exact m.e q') (hf : Unfiltered p) :
    ∃ r k r1 k1 r2 k2, m.matchQuery (q ++ q') p = (m, .ok r) ∧ Shows r k ∧ m.matchQuery q p = (m, .ok r1) ∧ Shows r1 k1 ∧
      m.matchQuery q' p = (m, .ok r2) ∧ Shows r2 k2 ∧
      ∀ d, d ∈ k.map (·.2) ↔ d ∈ k1.map (·.2) ∨ d ∈ k2.map (·.2) := by
  have hs2 : Sane m.e (q ++ q') H := ⟨fun x hx => (List.mem_append.1 hx).elim (hs.noNul x) (hs'.noNul x),
    fun x hx => (List.mem_append.1 hx).elim (hs.nonNeg x) (hs'.nonNeg x),
    fun x hx => (List.mem_append.1 hx).elim (hs.moderate x) (hs'.moderate x), hs.assertion⟩
  have he2 : Exact m.e (q ++ q') := ⟨he.same, fun x hx => (List.mem_append.1 hx).elim (he.dear x) (he'.dear x)⟩
  obtain ⟨r, k, e, hk, hm⟩ := C44_found h (q ++ q') p hs2 he2 hf
  obtain ⟨r1, k1, e1, hk1, hm1⟩ := C44_found h q p hs he hf
  obtain ⟨r2, k2, e2, hk2, hm2⟩ := C44_found h q' p hs' he' hf
  refine ⟨r, k, r1, k1, r2, k2, e, hk, e1, hk1, e2, hk2, fun d => ?_⟩
  rw [hm, hm1, hm2]
  constructor
  · rintro ⟨f, w, x, v, a, b, hx, c⟩
    rcases List.mem_append.1 hx with hx | hx
    · exact Or.inl ⟨f, w, x, v, a, b, hx, c⟩
    · exact Or.inr ⟨f, w, x, v, a, b, hx, c⟩
  · rintro (⟨f, w, x, v, a, b, hx, c⟩ | ⟨f, w, x, v, a, b, hx, c⟩)
    · exact ⟨f, w, x, v, a, b, List.mem_append_left _ hx, c⟩
    · exact ⟨f, w, x, v, a, b, List.mem_append_right _ hx, c⟩

end

/-- The relevancy of a document in a list of results, 0 if it is not there. -/
def Worth (k : List Result) (d : DocumentID) (a : ℚ) : Prop := (a, d) ∈ k ∨ (d ∉ k.map (·.2) ∧ a = 0)

section
attribute [local instance] ieee
variable [Build] [Icu] [Runtime] {os : Nat → Bool} {m : Matcher} {H : MatcherHistory} {K : List Word}

/-- C113, relevancies: without negative weights, the relevancy of a document in the search for all words is at least that in the
search for either part, and at most their sum, up to the rounding of C73. -/
theorem C113_relevancy (h : Ran os m H K) (q q' : WordList) (p : SearchParameters) (hs : Sane m.e q H) (hs' : Sane m.e q' H)
    (he : Exact m.e q) (he' : Exact m.e q') (hf : Unfiltered p) (hH : H.words.length < 2^53) (b : ℤ) (hb : -1021 ≤ b)
    (hw0 : ∀ f, 0 ≤ IndexWeights.getWeight m.weights f) (hw : ∀ x ∈ H, IndexWeights.getWeight m.weights x.field ≤ 2^b)
    (m' m1 m2 : Matcher) (r r1 r2 : MatchResults) (k k1 k2 : List Result) (e : m.matchQuery (q ++ q') p = (m', .ok r)) (hk : Shows r k)
    (e1 : m.matchQuery q p = (m1, .ok r1)) (hk1 : Shows r1 k1) (e2 : m.matchQuery q' p = (m2, .ok r2)) (hk2 : Shows r2 k2) :
    ∀ rel d, (rel, d) ∈ k → ∀ a1 a2, Worth k1 d a1 → Worth k2 d a2 → a1 ≤ rel ∧ a2 ≤ rel ∧
      ∃ L : List (Word × Word × Int), L.Nodup ∧
        (∀ f w v, (f, w, v) ∈ L ↔ H.Posting d f w ∧ p.isNonsearchingField f = false ∧ CloseTo m.e p (q ++ q') w v) ∧
        rel ≤ a1 + a2 + 3 * (L.length * (L.length + 6) * 2^b * 2^(-54 : ℤ)) := by
  have hs2 : Sane m.e (q ++ q') H := ⟨fun x hx => (List.mem_append.1 hx).elim (hs.noNul x) (hs'.noNul x),
    fun x hx => (List.mem_append.1 hx).elim (hs.nonNeg x) (hs'.nonNeg x),
    fun x hx => (List.mem_append.1 hx).elim (hs.moderate x) (hs'.moderate x), hs.assertion⟩
  have he2 : Exact m.e (q ++ q') := ⟨he.same, fun x hx => (List.mem_append.1 hx).elim (he.dear x) (he'.dear x)⟩
  have hu : ∀ w ∈ filterWords p.filter, Usable w := by
    intro w hw
    unfold Unfiltered at hf
    simp [filterWords, hf] at hw
  have hwb : ∀ x ∈ H, 0 ≤ IndexWeights.getWeight m.weights x.field ∧ IndexWeights.getWeight m.weights x.field ≤ 2^b :=
    fun x hx => ⟨hw0 _, hw x hx⟩
  intro rel d hx a1 a2 ha1 ha2
  have rel0 : 0 ≤ rel := C50_nonneg h (q ++ q') p hs2 hu hw0 m' r k e hk _ hx
  have uniq : ∀ {a a' : ℚ}, (a, d) ∈ k → (a', d) ∈ k → a = a' := by
    intro a a' h1 h2
    obtain ⟨k0, s0, n0, _⟩ := C46_ranked m m' (q ++ q') p r e
    obtain rfl := Columbus.Shows.unique s0 hk
    have := List.inj_on_of_nodup_map n0 h1 h2 rfl
    exact (Prod.mk.injEq _ _ _ _ ▸ this).1
  -- at least
  have atleast : ∀ (t : WordList), (∀ x ∈ t, x ∈ q ++ q') → Sane m.e t H → ∀ (mt : Matcher) (rt : MatchResults) (kt : List Result) (a : ℚ),
      m.matchQuery t p = (mt, .ok rt) → Shows rt kt → Worth kt d a → a ≤ rel := by
    intro t ht hst mt rt kt a et hkt ha
    rcases ha with ha | ⟨_, rfl⟩
    · obtain ⟨rel', hr, hle⟩ := C75_more h t (q ++ q') p p hst hs2 hw0 hu ht (fun _ h => h) (fun h => h) rfl mt m' rt r kt k et hkt e hk a d ha
      rwa [uniq hr hx] at hle
    · exact rel0
  refine ⟨atleast q (fun x hx => List.mem_append_left _ hx) hs m1 r1 k1 a1 e1 hk1 ha1,
    atleast q' (fun x hx => List.mem_append_right _ hx) hs' m2 r2 k2 a2 e2 hk2 ha2, ?_⟩
  obtain ⟨L, n, _, t, a, _⟩ := C73_accuracy h (q ++ q') p hs2 he2 hu hH b hb hwb m' r k e hk rel d hx
  refine ⟨L, n, t, ?_⟩
  have pb : (0 : ℚ) ≤ 2^b := zpow_nonneg (by norm_num) _
  have pc : (0 : ℚ) ≤ 2^(-54 : ℤ) := zpow_nonneg (by norm_num) _
  have cap : 0 ≤ (L.length * (L.length + 6) * 2^b * 2^(-54 : ℤ) : ℚ) :=
    mul_nonneg (mul_nonneg (mul_nonneg (Nat.cast_nonneg _) (add_nonneg (Nat.cast_nonneg _) (by norm_num))) pb) pc
  -- the terms of a part
  have part : ∀ (s : WordList), (∀ x ∈ s, x ∈ q ++ q') → Sane m.e s H → Exact m.e s → ∀ (mt : Matcher) (rt : MatchResults) (kt : List Result) (a : ℚ),
      m.matchQuery s p = (mt, .ok rt) → Shows rt kt → Worth kt d a → ∃ M : List (Word × Word × Int), M.Nodup ∧
      (∀ f w v, (f, w, v) ∈ M ↔ H.Posting d f w ∧ p.isNonsearchingField f = false ∧ CloseTo m.e p s w v) ∧
      (M.map fun x => exactContribution m.weights H x.1 x.2.1 x.2.2).sum ≤ a + L.length * (L.length + 6) * 2^b * 2^(-54 : ℤ) := by
    intro s hsub hss hes mt rt kt a et hkt ha
    rcases ha with ha | ⟨hno, rfl⟩
    · obtain ⟨M, nM, _, tM, aM, _⟩ := C73_accuracy h s p hss hes hu hH b hb hwb mt rt kt et hkt a d ha
      refine ⟨M, nM, tM, ?_⟩
      have len : M.length ≤ L.length := by
        have nd : (M.map fun x => (x.1, x.2.1)).Nodup := by
          refine (List.nodup_map_iff_inj_on nM).2 ?_
          rintro ⟨f, w, v⟩ hx ⟨f', w', v'⟩ hy heq
          simp only [Prod.mk.injEq] at heq
          obtain ⟨rfl, rfl⟩ := heq
          rw [Columbus.CloseTo.unique ((tM _ _ _).1 hx).2.2 ((tM _ _ _).1 hy).2.2]
        have sub : (M.map fun x => (x.1, x.2.1)) ⊆ L.map fun x => (x.1, x.2.1) := by
          intro y hy
          obtain ⟨⟨f, w, v⟩, hx, rfl⟩ := List.mem_map.1 hy
          obtain ⟨b1, b2, ⟨x, hxs, hc, hl⟩, _⟩ := (tM f w v).1 hx
          obtain ⟨v', hv'⟩ := close_exists (e := m.e) (p := p) (hsub x hxs) hs2.nonNeg hc hl
          exact List.mem_map.2 ⟨(f, w, v'), (t f w v').2 ⟨b1, b2, hv'⟩, rfl⟩
        have := (nd.subperm sub).length_le
        simpa using this
      have lenq : (M.length : ℚ) ≤ L.length := by exact_mod_cast len
      have mono : (M.length * (M.length + 6) * 2^b * 2^(-54 : ℤ) : ℚ) ≤ L.length * (L.length + 6) * 2^b * 2^(-54 : ℤ) := by
        refine mul_le_mul_of_nonneg_right (mul_le_mul_of_nonneg_right ?_ pb) pc
        have h0 : (0 : ℚ) ≤ M.length := Nat.cast_nonneg _
        nlinarith
      rw [abs_le] at aM
      linarith [aM.1]
    · obtain ⟨r0, k0, e0, hk0, hm0⟩ := C44_found h s p hss hes hf
      rw [e0] at et
      injection et with _ et
      injection et with et
      subst et
      obtain rfl := Columbus.Shows.unique hk0 hkt
      refine ⟨[], List.nodup_nil, fun f w v => ⟨fun hx => (by cases hx), ?_⟩, by simpa using cap⟩
      rintro ⟨b1, b2, ⟨x, hxs, hc, hl⟩, _⟩
      exact absurd ((hm0 d).2 ⟨f, w, x, v, b1, b2, hxs, hc, hl⟩) hno
  obtain ⟨M1, nM1, tM1, s1⟩ := part q (fun x hx => List.mem_append_left _ hx) hs he m1 r1 k1 a1 e1 hk1 ha1
  obtain ⟨M2, nM2, tM2, s2⟩ := part q' (fun x hx => List.mem_append_right _ hx) hs' he' m2 r2 k2 a2 e2 hk2 ha2
  have sub : L ⊆ M1 ++ M2 := by
    rintro ⟨f, w, v⟩ hx
    obtain ⟨b1, b2, ⟨x, hxs, hc, hl⟩, hleast⟩ := (t f w v).1 hx
    rcases List.mem_append.1 hxs with hxq | hxq
    · exact List.mem_append_left _ ((tM1 f w v).2 ⟨b1, b2, ⟨x, hxq, hc, hl⟩, fun y hy => hleast y (List.mem_append_left _ hy)⟩)
    · exact List.mem_append_right _ ((tM2 f w v).2 ⟨b1, b2, ⟨x, hxq, hc, hl⟩, fun y hy => hleast y (List.mem_append_right _ hy)⟩)
  have nonneg : ∀ x ∈ M1 ++ M2, 0 ≤ exactContribution m.weights H x.1 x.2.1 x.2.2 := by
    rintro ⟨f, w, v⟩ hx
    have hv : 0 ≤ v := by
      rcases List.mem_append.1 hx with hx | hx
      · exact (Columbus.CloseTo.bounds hs.nonNeg ((tM1 f w v).1 hx).2.2).1
      · exact (Columbus.CloseTo.bounds hs'.nonNeg ((tM2 f w v).1 hx).2.2).1
    have h1 := exact_error_bounds hv
    have h2 := exact_count_bounds H f w
    exact mul_nonneg (mul_nonneg h1.1 (by linarith [h2.2])) (hw0 f)
  have sums : (L.map fun x => exactContribution m.weights H x.1 x.2.1 x.2.2).sum ≤
      ((M1 ++ M2).map fun x => exactContribution m.weights H x.1 x.2.1 x.2.2).sum := by
    obtain ⟨l, hp, hsl⟩ := n.subperm sub
    rw [← (hp.map _).sum_eq]
    refine List.Sublist.sum_le_sum (hsl.map _) ?_
    intro y hy
    obtain ⟨x, hx, rfl⟩ := List.mem_map.1 hy
    exact nonneg x hx
  rw [List.map_append, List.sum_append] at sums
  rw [abs_le] at a
  linarith [a.2]

/-- Searching for `save` and `as`, in one query or two. -/
example : ∃ m : Matcher, Ran Example.os m Example.texts [] ∧ Sane m.e [Example.save] Example.texts ∧ Sane m.e [Example.as] Example.texts ∧
    Exact m.e [Example.save] ∧ Exact m.e [Example.as] ∧ Unfiltered SearchParameters.new ∧ Example.texts.words.length < 2^53 ∧
    (∀ f, 0 ≤ IndexWeights.getWeight m.weights f) ∧ ∀ x ∈ Example.texts, IndexWeights.getWeight m.weights x.field ≤ 2^(0 : ℤ) := by
  obtain ⟨m, h, he, hw⟩ := Example.ran
  refine ⟨m, h, by rw [he]; exact Example.sane_save, ?_, by rw [he]; exact exact_default _, by rw [he]; exact exact_default _, rfl, by decide, ?_, ?_⟩
  · rw [he]; exact Example.sane (by simp [Example.good_as]) (by decide)
  · rw [hw]; intro f; simp [IndexWeights.getWeight, SMap.find]
  · rw [hw]; intro x _; simp [IndexWeights.getWeight, SMap.find]

end
end Columbus.Props
