import Verif.Proofs.Accuracy
/-
Rounding commutes with powers of two away from the smallest doubles.
-/

namespace Columbus
open Spec

theorem log_scale {x : ℚ} (h : 0 < x) (j : ℤ) : Int.log 2 ((2 : ℚ)^j * x) = j + Int.log 2 x := by
  have hp := two_zpow_pos j
  have h1 : Int.log 2 ((2 : ℚ)^j * x) < j + Int.log 2 x + 1 := by
    refine log_lt_of (mul_pos hp h) ?_
    rw [add_assoc, zpow_add₀ (by norm_num)]
    exact mul_lt_mul_of_pos_left (lt_log x) hp
  have h2 : Int.log 2 x < Int.log 2 ((2 : ℚ)^j * x) - j + 1 := by
    refine log_lt_of h ?_
    have := lt_log ((2 : ℚ)^j * x)
    rw [show Int.log 2 ((2 : ℚ)^j * x) + 1 = j + (Int.log 2 ((2 : ℚ)^j * x) - j + 1) by omega, zpow_add₀ (by norm_num)] at this
    exact lt_of_mul_lt_mul_left this hp.le
  omega

/-- Neither a number nor its multiple is nearer to 0 than the smallest normal double. -/
def Normal (j : ℤ) (x : ℚ) : Prop := 0 ≤ x ∧ (x = 0 ∨ (2 : ℚ)^(-1022 : ℤ) ≤ x ∧ (2 : ℚ)^(-1022 : ℤ) ≤ 2^j * x)

theorem roundDouble_scale {j : ℤ} {x : ℚ} (h : Normal j x) : roundDouble ((2 : ℚ)^j * x) = 2^j * roundDouble x := by
  rcases h with ⟨_, rfl | ⟨h1, h2⟩⟩
  · rw [mul_zero, roundDouble_grid (x := 0) (n := 0) (by simp), mul_zero]
  · have hx : 0 < x := lt_of_lt_of_le (two_zpow_pos _) h1
    have hp := two_zpow_pos j
    have hy : 0 < (2 : ℚ)^j * x := mul_pos hp hx
    have small : ∀ {y : ℚ}, 0 < y → (2 : ℚ)^(-1022 : ℤ) ≤ y → lastBit y = Int.log 2 y - 52 := by
      intro y hy h
      unfold lastBit
      rw [abs_of_pos hy]
      have : -1022 < Int.log 2 y + 1 := by
        by_contra hc
        have h3 := lt_log y
        have h4 : (2 : ℚ)^(Int.log 2 y + 1) ≤ 2^(-1022 : ℤ) := zpow_le_zpow_right₀ (by norm_num) (by omega)
        linarith
      omega
    unfold roundDouble
    rw [small hx h1, small hy h2, log_scale hx, show j + Int.log 2 x - 52 = j + (Int.log 2 x - 52) by omega, zpow_add₀ (by norm_num),
      mul_div_mul_left _ _ hp.ne']
    ring

theorem roundDouble_pow {k : ℤ} (h : -1074 ≤ k) : roundDouble ((2 : ℚ)^k) = 2^k := by
  have := roundDouble_double (isDouble_of (n := 1) (e := k) (by norm_num) h)
  simpa using this

theorem Normal.round {j : ℤ} {x : ℚ} (h : Normal j x) : Normal j (roundDouble x) := by
  have hs := roundDouble_scale h
  rcases h with ⟨h0, rfl | ⟨h1, h2⟩⟩
  · rw [roundDouble_grid (x := 0) (n := 0) (by simp)]; exact ⟨le_refl _, Or.inl rfl⟩
  · refine ⟨roundDouble_nonneg h0, Or.inr ⟨?_, ?_⟩⟩
    · have := roundDouble_mono h1; rwa [roundDouble_pow (by norm_num)] at this
    · rw [← hs]
      have := roundDouble_mono h2; rwa [roundDouble_pow (by norm_num)] at this

theorem Normal.add {j : ℤ} {x y : ℚ} (hx : Normal j x) (hy : Normal j y) : Normal j (x + y) := by
  obtain ⟨x0, hx⟩ := hx
  obtain ⟨y0, hy⟩ := hy
  have hp := two_zpow_pos j
  refine ⟨add_nonneg x0 y0, ?_⟩
  rcases hx with rfl | ⟨h1, h2⟩
  · rcases hy with rfl | hy
    · left; simp
    · right; simpa using hy
  · right
    have : 0 ≤ (2 : ℚ)^j * y := mul_nonneg hp.le y0
    exact ⟨by linarith, by rw [mul_add]; linarith⟩

section
attribute [local instance] ieee

theorem sumUp_scale {j : ℤ} {l : List ℚ} (h : ∀ x ∈ l, Normal j x) : sumUp (l.map fun x => 2^j * x) = 2^j * sumUp l := by
  have key : ∀ (l : List ℚ) (a : ℚ), Normal j a → (∀ x ∈ l, Normal j x) →
      (l.map fun x => 2^j * x).foldl fadd (2^j * a) = 2^j * l.foldl fadd a := by
    intro l
    induction l with
    | nil => intro a _ _; rfl
    | cons x l ih =>
      intro a ha hl
      have hn := ha.add (hl x (by simp))
      simp only [List.map_cons, List.foldl_cons]
      have : fadd ((2 : ℚ)^j * a) (2^j * x) = 2^j * fadd a x := by
        unfold fadd
        rw [← mul_add]
        exact roundDouble_scale hn
      rw [this]
      exact ih _ hn.round fun y hy => hl y (by simp [hy])
  cases l with
  | nil => simp [sumUp]
  | cons x l => exact key l x (h x (by simp)) fun y hy => h y (by simp [hy])

/-- The factor before the weight is not small. -/
theorem factor_large (H : MatcherHistory) (f w : Word) {v : Int} (hv : 0 ≤ v) (hv' : v ≤ 200) (hc : H.maxCount f < 2^53) :
    (2 : ℚ)^(-55 : ℤ) ≤ factor H f w v := by
  have hcm := MatcherHistory.count_le_max H f w
  have e1 : fadd 100 (ofInt v) = 100 + (v : ℚ) := by
    rw [ofInt_eq (by rw [abs_of_nonneg hv]; norm_num; omega)]
    unfold fadd
    have : (100 : ℚ) + v = ((100 + v : ℤ) : ℚ) := by push_cast; ring
    rw [this, rnd_eq, roundDouble_double (isDouble_int (by rw [abs_of_nonneg (by omega)]; norm_num; omega))]
  have e2 : ofInt (H.count f w : Int) = (H.count f w : ℚ) := by
    rw [ofInt_eq (by rw [abs_of_nonneg (by omega)]; norm_num at hc ⊢; omega)]; norm_cast
  have e3 : ofInt ((H.maxCount f : Int) + 1) = (H.maxCount f : ℚ) + 1 := by
    rw [ofInt_eq (by rw [abs_of_nonneg (by omega)]; norm_num at hc ⊢; omega)]; push_cast; ring
  unfold factor
  rw [e1, e2, e3]
  have hvq : (0 : ℚ) ≤ v := by exact_mod_cast hv
  have hvq' : (v : ℚ) ≤ 200 := by exact_mod_cast hv'
  have a : (2 : ℚ)^(-2 : ℤ) ≤ Fp.rnd (100 / (100 + (v : ℚ))) := by
    rw [rnd_eq, ← roundDouble_pow (k := -2) (by norm_num)]
    refine roundDouble_mono ?_
    rw [le_div_iff₀ (by linarith)]
    norm_num
    linarith
  have b : Fp.rnd ((H.count f w : ℚ) / ((H.maxCount f : ℚ) + 1)) ≤ 1 - 2^(-53 : ℤ) := by
    have hd : roundDouble (1 - (2 : ℚ)^(-53 : ℤ)) = 1 - 2^(-53 : ℤ) := by
      have := roundDouble_double (isDouble_of (n := 2^53 - 1) (e := -53) (by norm_num) (by norm_num))
      have heq : (((2^53 - 1 : ℤ)) : ℚ) * 2^(-53 : ℤ) = 1 - 2^(-53 : ℤ) := by norm_num
      rwa [heq] at this
    rw [rnd_eq, ← hd]
    refine roundDouble_mono ?_
    rw [div_le_iff₀ (by positivity)]
    have h1 : (H.count f w : ℚ) ≤ H.maxCount f := by exact_mod_cast hcm
    have h2 : (H.maxCount f : ℚ) + 1 ≤ 2^53 := by exact_mod_cast hc
    have h3 : ((H.maxCount f : ℚ) + 1) * 2^(-53 : ℤ) ≤ 1 := by
      have := mul_le_mul_of_nonneg_right h2 (two_zpow_pos (-53)).le
      norm_num at this ⊢
      linarith
    linarith
  have c : (2 : ℚ)^(-53 : ℤ) ≤ fsub 1 (Fp.rnd ((H.count f w : ℚ) / ((H.maxCount f : ℚ) + 1))) := by
    unfold fsub
    rw [rnd_eq (1 - _), ← roundDouble_pow (k := -53) (by norm_num)]
    refine roundDouble_mono ?_
    linarith
  unfold fmul
  rw [rnd_eq (_ * _), ← roundDouble_pow (k := -55) (by norm_num)]
  refine roundDouble_mono ?_
  rw [show (2 : ℚ)^(-55 : ℤ) = 2^(-2 : ℤ) * 2^(-53 : ℤ) by rw [← zpow_add₀ (by norm_num)]; norm_num]
  exact mul_le_mul a c (two_zpow_pos _).le (le_trans (two_zpow_pos _).le a)

theorem contribution_scale {W W' : IndexWeights} {H : MatcherHistory} {f w : Word} {v : Int} {j : ℤ} (hv : 0 ≤ v) (hv' : v ≤ 200)
    (hc : H.maxCount f < 2^53) (hW : IndexWeights.getWeight W' f = 2^j * IndexWeights.getWeight W f)
    (hn : IndexWeights.getWeight W f = 0 ∨ (2 : ℚ)^(-967 : ℤ) ≤ IndexWeights.getWeight W f ∧ (2 : ℚ)^(-967 : ℤ) ≤ IndexWeights.getWeight W' f) :
    contribution W' H f w v = 2^j * contribution W H f w v ∧ Normal j (contribution W H f w v) := by
  have hl := factor_large H f w hv hv' hc
  have h0 := (factor_bounds H f w hv).1
  have hN : Normal j (factor H f w v * IndexWeights.getWeight W f) := by
    rcases hn with hn | ⟨h1, h2⟩
    · rw [hn, mul_zero]; exact ⟨le_refl _, Or.inl rfl⟩
    · have key : ∀ y : ℚ, (2 : ℚ)^(-967 : ℤ) ≤ y → (2 : ℚ)^(-1022 : ℤ) ≤ factor H f w v * y := by
        intro y hy
        rw [show (2 : ℚ)^(-1022 : ℤ) = 2^(-55 : ℤ) * 2^(-967 : ℤ) by rw [← zpow_add₀ (by norm_num)]; norm_num]
        exact mul_le_mul hl hy (two_zpow_pos _).le h0
      refine ⟨mul_nonneg h0 (le_trans (two_zpow_pos _).le h1), Or.inr ⟨key _ h1, ?_⟩⟩
      have := key _ h2
      rw [hW] at this
      rw [mul_left_comm]; exact this
  rw [contribution_eq, contribution_eq, fmul, fmul, hW, mul_left_comm, rnd_eq, rnd_eq]
  exact ⟨roundDouble_scale hN, hN.round⟩

end
end Columbus
