import Verif.Proofs.MatcherAnswer
import Mathlib.Tactic.Linarith
import Mathlib.Tactic.Positivity
/-
Facts about results used by the property theorems.
-/

namespace Columbus
open Spec ErrorValues

theorem mem_listing_docs {docs : SMap DocumentID ℚ} {d : DocumentID} :
    d ∈ (listing docs).map (·.2) ↔ d ∈ docs.map (·.1) := by
  simp only [List.mem_map]
  constructor
  · rintro ⟨x, hx, rfl⟩; exact ⟨_, mem_listing.1 hx, rfl⟩
  · rintro ⟨⟨a, b⟩, hx, rfl⟩; exact ⟨(b, a), mem_listing.2 hx, rfl⟩

theorem names_letters {s : WordStore} {os : Nat → Bool} {names A B : List Word} (h : Names s os names)
    (hs : ∀ v ∈ names, v ∈ A ∨ v ∈ B) : lettersIn names ≤ lettersIn A + lettersIn B := by
  rw [← lettersIn_append]
  exact lettersIn_le h.nodup fun w hw => List.mem_append.2 (hs w hw)

/-! ### The filter does not matter for the search -/

section
variable [Build] [Runtime] {m : Matcher} {p p' : SearchParameters}

theorem indexLoop_params (hn : p.nosearchFields = p'.nosearchFields) {w : Word} {T : Int} (ks : List WordID) :
    ∀ best, Matcher.indexLoop m p w T best ks = Matcher.indexLoop m p' w T best ks := by
  induction ks with
  | nil => intro best; rfl
  | cons k ks ih =>
    intro best
    have hx : ∀ v, p.isNonsearchingField v = p'.isNonsearchingField v := by
      intro v; unfold SearchParameters.isNonsearchingField; rw [hn]
    rw [Matcher.indexLoop, Matcher.indexLoop]
    simp only [ih, hx]

theorem matchIndexes_params (hd : p.dynamic = p'.dynamic) (hn : p.nosearchFields = p'.nosearchFields) {x : Int} (ws : WordList) :
    ∀ best, Matcher.matchIndexes m p x best ws = Matcher.matchIndexes m p' x best ws := by
  induction ws with
  | nil => intro best; rfl
  | cons w ws ih =>
    intro best
    have hw : Matcher.wordMaxError p w x = Matcher.wordMaxError p' w x := by
      unfold Matcher.wordMaxError SearchParameters.isDynamic SearchParameters.getDynamicError; rw [hd]
    rw [Matcher.matchIndexes, Matcher.matchIndexes, hw, indexLoop_params hn]
    simp only [ih]

theorem matchLoop_params [Fp] (hd : p.dynamic = p'.dynamic) (hn : p.nosearchFields = p'.nosearchFields) {q : WordList}
    {all : MatchResults} (n : Nat) : ∀ i, Matcher.matchLoop m q p all i n = Matcher.matchLoop m q p' all i n := by
  induction n with
  | zero => intro i; rfl
  | succ n ih =>
    intro i
    rw [Matcher.matchLoop, Matcher.matchLoop, Matcher.relevancyMatch, Matcher.relevancyMatch, matchIndexes_params hd hn]
    simp only [ih]

end

/-! ### Sums and contributions -/

section
variable [Fp]

theorem fadd_mono {a b c d : ℚ} (h1 : a ≤ b) (h2 : c ≤ d) : fadd a c ≤ fadd b d := Fp.rnd_mono _ _ (add_le_add h1 h2)

theorem foldl_fadd_mono {α : Type} (f g : α → ℚ) (l : List α) : ∀ {a b : ℚ}, a ≤ b → (∀ x ∈ l, f x ≤ g x) →
    (l.map f).foldl fadd a ≤ (l.map g).foldl fadd b := by
  induction l with
  | nil => intro a b h _; exact h
  | cons x l ih =>
    intro a b h hl
    simp only [List.map_cons, List.foldl_cons]
    exact ih (fadd_mono h (hl x (by simp))) (fun y hy => hl y (by simp [hy]))

theorem sumUp_mono {α : Type} {f g : α → ℚ} {l : List α} (h : ∀ x ∈ l, f x ≤ g x) : sumUp (l.map f) ≤ sumUp (l.map g) := by
  cases l with
  | nil => exact le_refl _
  | cons x l =>
    simp only [List.map_cons, sumUp]
    exact foldl_fadd_mono f g l (h x (by simp)) (fun y hy => h y (by simp [hy]))

theorem foldl_fadd_nonneg (l : List ℚ) : ∀ {a : ℚ}, 0 ≤ a → (∀ x ∈ l, 0 ≤ x) → 0 ≤ l.foldl fadd a := by
  induction l with
  | nil => intro a h _; exact h
  | cons x l ih =>
    intro a h hl
    exact ih (rnd_nonneg (add_nonneg h (hl x (by simp)))) (fun y hy => hl y (by simp [hy]))

theorem sumUp_nonneg {l : List ℚ} (h : ∀ x ∈ l, 0 ≤ x) : 0 ≤ sumUp l := by
  cases l with
  | nil => exact le_refl _
  | cons x l => exact foldl_fadd_nonneg l (h x (by simp)) (fun y hy => h y (by simp [hy]))

/-- The factor before the weight. -/
def factor (H : MatcherHistory) (f w : Word) (v : Int) : ℚ :=
  fmul (Fp.rnd (100 / fadd 100 (ofInt v))) (fsub 1 (Fp.rnd (ofInt (H.count f w) / ofInt ((H.maxCount f : Int) + 1))))

theorem factor_bounds (H : MatcherHistory) (f w : Word) {v : Int} (hv : 0 ≤ v) : 0 ≤ factor H f w v ∧ factor H f w v ≤ 1 := by
  have d1 : (100 : ℚ) ≤ fadd 100 (ofInt v) := denominator hv
  have d2 : (1 : ℚ) ≤ ofInt ((H.maxCount f : Int) + 1) := ofInt_one_le (by omega)
  have n2 : 0 ≤ ofInt (H.count f w : Int) := ofInt_nonneg (by omega)
  have le2 : ofInt (H.count f w : Int) ≤ ofInt ((H.maxCount f : Int) + 1) := by
    apply Fp.rnd_mono
    have := MatcherHistory.count_le_max H f w
    exact_mod_cast (by omega : (H.count f w : Int) ≤ (H.maxCount f : Int) + 1)
  have a0 : 0 ≤ Fp.rnd (100 / fadd 100 (ofInt v)) := rnd_nonneg (by apply div_nonneg <;> linarith)
  have a1 : Fp.rnd (100 / fadd 100 (ofInt v)) ≤ 1 := rnd_le_one (by rw [div_le_one (by linarith)]; exact d1)
  have b0 : 0 ≤ Fp.rnd (ofInt (H.count f w : Int) / ofInt ((H.maxCount f : Int) + 1)) :=
    rnd_nonneg (div_nonneg n2 (by linarith))
  have b1 : Fp.rnd (ofInt (H.count f w : Int) / ofInt ((H.maxCount f : Int) + 1)) ≤ 1 :=
    rnd_le_one (by rw [div_le_one (by linarith)]; exact le2)
  have c0 : 0 ≤ fsub 1 (Fp.rnd (ofInt (H.count f w : Int) / ofInt ((H.maxCount f : Int) + 1))) := rnd_nonneg (by linarith)
  have c1 : fsub 1 (Fp.rnd (ofInt (H.count f w : Int) / ofInt ((H.maxCount f : Int) + 1))) ≤ 1 := rnd_le_one (by linarith)
  exact ⟨rnd_nonneg (mul_nonneg a0 c0), rnd_le_one (by nlinarith)⟩

theorem contribution_eq (W : IndexWeights) (H : MatcherHistory) (f w : Word) (v : Int) :
    contribution W H f w v = fmul (factor H f w v) (IndexWeights.getWeight W f) := rfl

theorem contribution_nonneg {W : IndexWeights} {H : MatcherHistory} {f w : Word} {v : Int} (hv : 0 ≤ v)
    (hw : 0 ≤ IndexWeights.getWeight W f) : 0 ≤ contribution W H f w v := by
  rw [contribution_eq]
  exact rnd_nonneg (mul_nonneg (factor_bounds H f w hv).1 hw)

theorem contribution_le {W : IndexWeights} {H : MatcherHistory} {f w : Word} {v : Int} (hv : 0 ≤ v)
    (hw : 0 ≤ IndexWeights.getWeight W f) (hr : Fp.rnd (IndexWeights.getWeight W f) = IndexWeights.getWeight W f) :
    contribution W H f w v ≤ IndexWeights.getWeight W f := by
  rw [contribution_eq]
  obtain ⟨h0, h1⟩ := factor_bounds H f w hv
  have : factor H f w v * IndexWeights.getWeight W f ≤ IndexWeights.getWeight W f := by nlinarith
  have := Fp.rnd_mono _ _ this
  rwa [hr] at this

theorem contribution_mono {W W' : IndexWeights} {H : MatcherHistory} {f w : Word} {v : Int} (hv : 0 ≤ v)
    (hw : IndexWeights.getWeight W f ≤ IndexWeights.getWeight W' f) : contribution W H f w v ≤ contribution W' H f w v := by
  rw [contribution_eq, contribution_eq]
  exact Fp.rnd_mono _ _ (mul_le_mul_of_nonneg_left hw (factor_bounds H f w hv).1)

end

section
variable [Fp] {m : Matcher} {H : MatcherHistory} {names : List Word} {p : SearchParameters} {q : WordList}
  {docs docs' : SMap DocumentID ℚ}

theorem answer_mono (hn : ∀ x ∈ q, (configured m.e x.length).NonNeg) {W' : IndexWeights}
    (hw : ∀ f, IndexWeights.getWeight m.weights f ≤ IndexWeights.getWeight W' f) (ha : IsAnswer m H names p q docs)
    (ha' : IsAnswer { m with weights := W' } H names p q docs') {d : DocumentID} {r : ℚ} (hd : (d, r) ∈ docs) :
    ∃ r', (d, r') ∈ docs' ∧ r ≤ r' := by
  obtain ⟨P, hP, hD⟩ := ha
  obtain ⟨P', hP', hD'⟩ := ha'
  have := hP.unique hP' (fun _ _ _ => Iff.rfl)
  subst this
  have hf := (SMap.find_some_iff strict_ltNat hD.sorted d r).2 hd
  have hf' := hD'.find d
  rw [hD.find] at hf
  dsimp only at hf'
  set Q := P.filter fun p => decide (d ∈ docsOf m.reverseIndex p.1 p.2.1)
  have hne : Q ≠ [] := by intro h0; rw [h0] at hf; cases hf
  rw [accum_sumUp _ _ hne] at hf hf'
  injection hf with hf
  refine ⟨_, (SMap.find_some_iff strict_ltNat hD'.sorted _ _).1 hf', ?_⟩
  rw [← hf]
  apply sumUp_mono
  rintro ⟨i, j, v⟩ hx
  obtain ⟨⟨x, hxq, _, _, _, _, _, _, _, rfl⟩, _⟩ := (hP.mem i j v).1 (List.mem_filter.1 hx).1
  exact contribution_mono (best_nonneg (charged_nonneg (hn x hxq))) (hw _)

theorem answer_nonneg (hn : ∀ x ∈ q, (configured m.e x.length).NonNeg)
    (hw : ∀ f, 0 ≤ IndexWeights.getWeight m.weights f) (ha : IsAnswer m H names p q docs) {d : DocumentID} {r : ℚ}
    (hd : (d, r) ∈ docs) : 0 ≤ r := by
  obtain ⟨P, hP, hD⟩ := ha
  have hf := (SMap.find_some_iff strict_ltNat hD.sorted d r).2 hd
  rw [hD.find] at hf
  set Q := P.filter fun p => decide (d ∈ docsOf m.reverseIndex p.1 p.2.1)
  have hne : Q ≠ [] := by intro h0; rw [h0] at hf; cases hf
  rw [accum_sumUp _ _ hne] at hf
  injection hf with hf
  rw [← hf]
  apply sumUp_nonneg
  intro y hy
  obtain ⟨⟨i, j, v⟩, hx, rfl⟩ := List.mem_map.1 hy
  obtain ⟨⟨x, hxq, _, _, _, _, _, _, _, rfl⟩, _⟩ := (hP.mem i j v).1 (List.mem_filter.1 hx).1
  exact contribution_nonneg (best_nonneg (charged_nonneg (hn x hxq))) (hw _)

/-- Answers depend only on the set of query words and their limits. -/
theorem IsAnswer.congr {p' : SearchParameters} {q' : WordList} (ha : IsAnswer m H names p q docs)
    (h : ∀ i j v, QueryHits m.e p H names q i j v ↔ QueryHits m.e p' H names q' i j v) : IsAnswer m H names p' q' docs := by
  obtain ⟨P, hP, hD⟩ := ha
  exact ⟨P, ⟨hP.sorted, fun i j v => (hP.mem i j v).trans (Least.congr (h i j))⟩, hD⟩

end

theorem RowOk.mono {c : EditCosts} {q r : Word} {T T' : Int} (h : RowOk c q T r) (ht : T ≤ T') : RowOk c q T' r := by
  obtain ⟨i, h1, h2⟩ := h; exact ⟨i, h1, by omega⟩

theorem SeenBy.mono {c : EditCosts} {q w : Word} {T T' : Int} (h : SeenBy c q T w) (ht : T ≤ T') : SeenBy c q T' w :=
  ⟨by have := h.1; omega, fun r a b d => (h.2 r a b d).mono ht⟩

/-- An exact word is always seen. -/
theorem seen_self {e : ErrorValues} {n : Nat} {w : Word} (hn : (configured e n).NonNeg)
    (h0 : ∀ a ∈ w, e.getSubstituteError a a = .ok 0) {T : Int} (hT : 0 ≤ T) : SeenBy (charged e n) w T w := by
  have hsub : ∀ a ∈ w, (charged e n).sub a a = 0 := by
    intro a ha
    show (match e.getSubstituteError a a with | .ok v => v | .error _ => 0) = 0
    rw [h0 a ha]
  refine ⟨?_, fun r _ hr _ => rowOk_self hsub hT hr⟩
  rw [best_self (charged_nonneg hn) hsub]; exact hT

theorem limit_nonneg (p : SearchParameters) (q : Word) : 0 ≤ limit p q := by unfold limit; split <;> omega

/-! ### The unspecified behaviour -/

theorem getIDs_runtime [Build] (R1 R2 : Runtime) (hv : R1.valueFirst = R2.valueFirst) (s : WordStore) (v f : Word) :
    @Matcher.getIDs _ R1 s v f = @Matcher.getIDs _ R2 s v f := by
  unfold Matcher.getIDs; rw [hv]

theorem subLoop_runtime [Build] (R1 R2 : Runtime) (hv : R1.valueFirst = R2.valueFirst) (ri : ReverseIndex) (id : DocumentID)
    (ps : List (Word × Word)) : ∀ s, @subLoop _ R1 ri id s ps = @subLoop _ R2 ri id s ps := by
  induction ps with
  | nil => intro s; rfl
  | cons p ps ih => intro s; rw [@subLoop.eq_2 _ R1, @subLoop.eq_2 _ R2, getIDs_runtime R1 R2 hv]; simp only [ih]

theorem orLoop_runtime [Build] (R1 R2 : Runtime) (hv : R1.valueFirst = R2.valueFirst) (ri : ReverseIndex) (id : DocumentID)
    (ts : List (List (Word × Word))) : ∀ s, @orLoop _ R1 ri id s ts = @orLoop _ R2 ri id s ts := by
  induction ts with
  | nil => intro s; rfl
  | cons p ps ih => intro s; rw [@orLoop.eq_2 _ R1, @orLoop.eq_2 _ R2, subLoop_runtime R1 R2 hv]; simp only [ih]

theorem keepLoop_runtime [Build] (R1 R2 : Runtime) (hv : R1.valueFirst = R2.valueFirst) (ri : ReverseIndex)
    (ts : List (List (Word × Word))) (xs : List Result) : ∀ s, @keepLoop _ R1 ri ts s xs = @keepLoop _ R2 ri ts s xs := by
  induction xs with
  | nil => intro s; rfl
  | cons p ps ih => intro s; rw [@keepLoop.eq_2 _ R1, @keepLoop.eq_2 _ R2, orLoop_runtime R1 R2 hv]; simp only [ih]

theorem filtered_runtime [Build] (R1 R2 : Runtime) (hv : R1.valueFirst = R2.valueFirst) (m : Matcher) (p : SearchParameters)
    (l : List Result) : @filtered _ R1 m p l = @filtered _ R2 m p l := by
  unfold filtered; rw [keepLoop_runtime R1 R2 hv]

/-! ### Default settings -/

theorem new_is_default [Build] [Icu] : ErrorValues.new = afterOps [] := rfl

theorem unit_swaps : unitCosts.SwapsAreDear := by left; decide

theorem sane_default [Build] [Icu] {q : WordList} {H : MatcherHistory} (hn : ∀ x ∈ q, ∀ l ∈ x, l ≠ 0#16) {L : Nat}
    (hq : ∀ x ∈ q, x.length ≤ L) (hH : ∀ w ∈ H.words, w.length ≤ L) (hL : L ≤ 10000000) : Sane ErrorValues.new q H := by
  rw [new_is_default]
  refine ⟨hn, ?_, ?_, Or.inr rfl⟩
  · intro x _; rw [configured_default]; exact unit_nonneg
  · intro x hx
    refine ⟨100, L, by rw [configured_default]; exact unit_within, ?_, ?_⟩
    · intro y hy
      obtain ⟨w, hw, rfl⟩ := List.mem_map.1 hy
      exact hH w hw
    · have := hq x hx
      have h1 : ((L + x.length + 4 : Nat) : Int) ≤ 20000004 := by omega
      omega

theorem exact_default [Build] [Icu] (q : WordList) : Exact ErrorValues.new q := by
  rw [new_is_default]
  refine ⟨rfl, fun x _ => ?_⟩
  rw [configured_default]; exact unit_swaps

end Columbus
