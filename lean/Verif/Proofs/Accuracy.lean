import Verif.Proofs.Double
import Verif.Proofs.MatcherFacts
/-
How far double arithmetic is from exact arithmetic.
-/

namespace Columbus
open Spec

/-- The error of rounding a number of size at most `B`. -/
theorem roundDouble_err {x B : ℚ} (hx : |x| ≤ B) (hB : (2 : ℚ)^(-1022 : ℤ) ≤ B) : |roundDouble x - x| ≤ B * 2^(-53 : ℤ) := by
  have hB0 : 0 < B := lt_of_lt_of_le (two_zpow_pos _) hB
  by_cases h0 : x = 0
  · rw [roundDouble_grid (x := x) (n := 0) (by simp [h0]), sub_self, abs_zero]
    exact mul_nonneg hB0.le (two_zpow_pos _).le
  have hp := two_zpow_pos (lastBit x)
  have h1 := roundEven_err (x / 2^lastBit x)
  have h2 : |roundDouble x - x| ≤ 1/2 * 2^lastBit x := by
    have e : roundDouble x - x = -((x / 2^lastBit x - roundEven (x / 2^lastBit x)) * 2^lastBit x) := by
      unfold roundDouble; field_simp; ring
    rw [e, abs_neg, abs_mul, abs_of_pos hp]
    exact mul_le_mul_of_nonneg_right h1 hp.le
  refine le_trans h2 ?_
  have hl : (2 : ℚ)^(lastBit x + 52) ≤ B := by
    unfold lastBit
    rcases max_cases (Int.log 2 |x| - 52) (-1074) with ⟨e, _⟩ | ⟨e, _⟩ <;> rw [e]
    · rw [show Int.log 2 |x| - 52 + 52 = Int.log 2 |x| by omega]
      exact le_trans (log_le _ (abs_pos.2 h0)) hx
    · exact hB
  have e : (1/2 : ℚ) * 2^lastBit x = 2^(lastBit x + 52) * 2^(-53 : ℤ) := by
    rw [← zpow_add₀ (by norm_num), show lastBit x + 52 + -53 = lastBit x + -1 by omega, zpow_add₀ (by norm_num)]
    norm_num; ring
  rw [e]
  exact mul_le_mul_of_nonneg_right hl (two_zpow_pos _).le

/-- One bit better for powers of two. -/
theorem roundDouble_err_pow {x : ℚ} {k : ℤ} (hx : |x| ≤ 2^k) (hk : -1021 ≤ k) : |roundDouble x - x| ≤ 2^k * 2^(-54 : ℤ) := by
  have hp := two_zpow_pos k
  rcases hx.lt_or_eq with hlt | heq
  · -- below the power the last bit is smaller
    by_cases h0 : x = 0
    · rw [roundDouble_grid (x := x) (n := 0) (by simp [h0]), sub_self, abs_zero]
      exact mul_nonneg hp.le (two_zpow_pos _).le
    have hb : lastBit x ≤ k - 53 := by
      unfold lastBit
      have := log_lt_of (abs_pos.2 h0) hlt
      omega
    have hp := two_zpow_pos (lastBit x)
    have h1 := roundEven_err (x / 2^lastBit x)
    have h2 : |roundDouble x - x| ≤ 1/2 * 2^lastBit x := by
      have e : roundDouble x - x = -((x / 2^lastBit x - roundEven (x / 2^lastBit x)) * 2^lastBit x) := by
        unfold roundDouble; field_simp; ring
      rw [e, abs_neg, abs_mul, abs_of_pos hp]
      exact mul_le_mul_of_nonneg_right h1 hp.le
    refine le_trans h2 ?_
    have h3 : (2 : ℚ)^lastBit x ≤ 2^(k - 53) := zpow_le_zpow_right₀ (by norm_num) hb
    have e : (2 : ℚ)^k * 2^(-54 : ℤ) = 1/2 * 2^(k - 53) := by
      rw [← zpow_add₀ (by norm_num), show k + -54 = (k - 53) + -1 by omega, zpow_add₀ (by norm_num)]
      norm_num; ring
    rw [e]
    linarith
  · have hd : IsDouble x := by
      rcases abs_eq (a := x) hp.le |>.1 heq with h | h
      · exact ⟨1, k, by norm_num, by omega, by rw [h]; norm_num⟩
      · exact ⟨-1, k, by norm_num, by omega, by rw [h]; norm_num⟩
    rw [roundDouble_double hd, sub_self, abs_zero]
    exact mul_nonneg hp.le (two_zpow_pos _).le

theorem isDouble_int {n : ℤ} (h : |n| ≤ 2^53) : IsDouble (n : ℚ) := by
  have := isDouble_of (n := n) (e := 0) h (by norm_num)
  simpa using this

section
attribute [local instance] ieee

theorem rnd_eq (x : ℚ) : Fp.rnd x = roundDouble x := rfl

theorem ofInt_eq {n : ℤ} (h : |n| ≤ 2^53) : ofInt n = (n : ℚ) := by
  unfold ofInt; rw [rnd_eq, roundDouble_double (isDouble_int h)]

/-- The error of a product of numbers between 0 and 1. -/
theorem mul_err {a b a' b' d e : ℚ} (ha : |a - a'| ≤ d) (hb : |b - b'| ≤ e) (h0 : 0 ≤ b) (h1 : b ≤ 1) (h2 : 0 ≤ a')
    (h3 : a' ≤ 1) : |a * b - a' * b'| ≤ d + e := by
  rw [abs_le] at *
  have : a * b - a' * b' = (a - a') * b + a' * (b - b') := by ring
  rw [this]
  have d0 : 0 ≤ d := by linarith [ha.1, ha.2]
  have e0 : 0 ≤ e := by linarith [hb.1, hb.2]
  constructor <;> nlinarith [ha.1, ha.2, hb.1, hb.2]

theorem exact_error_bounds {v : Int} (hv : 0 ≤ v) : 0 ≤ 100 / (100 + (v : ℚ)) ∧ 100 / (100 + (v : ℚ)) ≤ 1 := by
  have h : (0 : ℚ) ≤ v := by exact_mod_cast hv
  exact ⟨by positivity, by rw [div_le_one (by linarith)]; linarith⟩

theorem exact_count_bounds (H : MatcherHistory) (f w : Word) :
    0 ≤ (H.count f w : ℚ) / ((H.maxCount f : ℚ) + 1) ∧ (H.count f w : ℚ) / ((H.maxCount f : ℚ) + 1) ≤ 1 := by
  have h1 : (H.count f w : ℚ) ≤ H.maxCount f := by exact_mod_cast MatcherHistory.count_le_max H f w
  exact ⟨by positivity, by rw [div_le_one (by positivity)]; linarith⟩

/-- The double of the contribution is near the exact one. -/
theorem contribution_err {W : IndexWeights} {H : MatcherHistory} {f w : Word} {v : Int} {k : ℤ} (hv : 0 ≤ v) (hv' : v < 2^31)
    (hc : H.maxCount f < 2^53) (h0 : 0 ≤ IndexWeights.getWeight W f) (hw : IndexWeights.getWeight W f ≤ 2^k) (hk : -1021 ≤ k) :
    |contribution W H f w v - exactContribution W H f w v| ≤ 5 * 2^k * 2^(-54 : ℤ) := by
  have hp := two_zpow_pos k
  have hδ : (0 : ℚ) < 2^(-54 : ℤ) := two_zpow_pos _
  have hcm := MatcherHistory.count_le_max H f w
  have e1 : fadd 100 (ofInt v) = 100 + (v : ℚ) := by
    rw [ofInt_eq (by rw [abs_of_nonneg hv]; norm_num at hv' ⊢; omega)]
    unfold fadd
    have : (100 : ℚ) + v = ((100 + v : ℤ) : ℚ) := by push_cast; ring
    rw [this, rnd_eq, roundDouble_double (isDouble_int (by rw [abs_of_nonneg (by omega)]; norm_num at hv' ⊢; omega))]
  have e2 : ofInt (H.count f w : Int) = (H.count f w : ℚ) := by
    rw [ofInt_eq (by rw [abs_of_nonneg (by omega)]; norm_num at hc ⊢; omega)]; norm_cast
  have e3 : ofInt ((H.maxCount f : Int) + 1) = (H.maxCount f : ℚ) + 1 := by
    rw [ofInt_eq (by rw [abs_of_nonneg (by omega)]; norm_num at hc ⊢; omega)]; push_cast; ring
  obtain ⟨a0, a1⟩ := exact_error_bounds hv
  obtain ⟨b0, b1⟩ := exact_count_bounds H f w
  have one : ∀ {x : ℚ}, 0 ≤ x → x ≤ 1 → |roundDouble x - x| ≤ 2^(-54 : ℤ) := by
    intro x h h'
    have := roundDouble_err_pow (x := x) (k := 0) (by rw [abs_of_nonneg h]; simpa using h') (by norm_num)
    simpa using this
  have stay : ∀ {x : ℚ}, 0 ≤ x → x ≤ 1 → 0 ≤ roundDouble x ∧ roundDouble x ≤ 1 := fun h h' =>
    ⟨rnd_nonneg h, rnd_le_one h'⟩
  have fb : 0 ≤ factor H f w v ∧ factor H f w v ≤ 1 := factor_bounds H f w hv
  unfold contribution at *
  unfold factor at fb
  rw [e1, e2, e3] at *
  unfold exactContribution
  set A : ℚ := 100 / (100 + (v : ℚ)) with hA
  set C : ℚ := (H.count f w : ℚ) / ((H.maxCount f : ℚ) + 1) with hC
  unfold fsub fmul at *
  simp only [rnd_eq] at *
  obtain ⟨sc0, sc1⟩ := stay b0 b1
  obtain ⟨sd0, sd1⟩ := stay (x := 1 - roundDouble C) (by linarith) (by linarith)
  obtain ⟨sa0, sa1⟩ := stay a0 a1
  have r1 := one a0 a1
  have r2 : |roundDouble (1 - roundDouble C) - (1 - C)| ≤ 2 * 2^(-54 : ℤ) := by
    have h1 := one (x := 1 - roundDouble C) (by linarith) (by linarith)
    have h2 := one b0 b1
    rw [abs_le] at *
    constructor <;> linarith [h1.1, h1.2, h2.1, h2.2]
  have r3 := mul_err r1 r2 sd0 sd1 a0 a1
  have r4 := one (x := roundDouble A * roundDouble (1 - roundDouble C)) (mul_nonneg sa0 sd0) (by nlinarith)
  have r5 : |roundDouble (roundDouble A * roundDouble (1 - roundDouble C)) - A * (1 - C)| ≤ 4 * 2^(-54 : ℤ) := by
    rw [abs_le] at *
    constructor <;> linarith [r3.1, r3.2, r4.1, r4.2]
  set P := roundDouble (roundDouble A * roundDouble (1 - roundDouble C)) with hP
  set w' := IndexWeights.getWeight W f with hw'
  have pw : |P * w'| ≤ 2^k := by
    rw [abs_of_nonneg (mul_nonneg fb.1 h0)]
    nlinarith [fb.2]
  have r6 := roundDouble_err_pow pw hk
  have r7 : |P * w' - A * (1 - C) * w'| ≤ 4 * 2^(-54 : ℤ) * 2^k := by
    rw [← sub_mul, abs_mul, abs_of_nonneg h0]
    exact mul_le_mul r5 hw h0 (by positivity)
  rw [abs_le] at *
  constructor <;> linarith [r6.1, r6.2, r7.1, r7.2]

theorem contribution_range {W : IndexWeights} {H : MatcherHistory} {f w : Word} {v : Int} {k : ℤ} (hv : 0 ≤ v)
    (h0 : 0 ≤ IndexWeights.getWeight W f) (hw : IndexWeights.getWeight W f ≤ 2^k) (hk : -1021 ≤ k) :
    0 ≤ contribution W H f w v ∧ contribution W H f w v ≤ 2^k := by
  refine ⟨contribution_nonneg hv h0, ?_⟩
  rw [contribution_eq]
  obtain ⟨f0, f1⟩ := factor_bounds H f w hv
  have : factor H f w v * IndexWeights.getWeight W f ≤ 2^k := by nlinarith
  have h := roundDouble_mono this
  have hd : IsDouble ((2 : ℚ)^k) := ⟨1, k, by norm_num, by omega, by norm_num⟩
  rw [roundDouble_double hd] at h
  exact h

/-- Partial sums stay small and near the exact ones. -/
theorem foldl_range {k : ℤ} (hk : -1021 ≤ k) (l : List ℚ) : ∀ (n : ℕ) (a b : ℚ), (∀ x ∈ l, 0 ≤ x ∧ x ≤ 2^k) →
    0 < n → n + l.length ≤ 2^53 → 0 ≤ a → a ≤ n * 2^k → |a - b| ≤ n * (n + 1) * 2^k * 2^(-54 : ℤ) →
    0 ≤ l.foldl fadd a ∧ l.foldl fadd a ≤ (n + l.length : ℕ) * 2^k ∧
    |l.foldl fadd a - (b + l.sum)| ≤ (n + l.length : ℕ) * ((n + l.length : ℕ) + 1) * 2^k * 2^(-54 : ℤ) := by
  have hp := two_zpow_pos k
  have hδ : (0 : ℚ) < 2^(-54 : ℤ) := two_zpow_pos _
  induction l with
  | nil => intro n a b _ _ _ h1 h2 h3; simpa using ⟨h1, h2, h3⟩
  | cons x l ih =>
    intro n a b hl hn hlen h1 h2 h3
    obtain ⟨x0, x1⟩ := hl x (by simp)
    simp only [List.length_cons] at hlen
    have n1 : (1 : ℚ) ≤ n := by exact_mod_cast hn
    have hB : (2 : ℚ)^(-1022 : ℤ) ≤ (n + 1) * 2^k := by
      have : (2 : ℚ)^(-1022 : ℤ) ≤ 2^k := zpow_le_zpow_right₀ (by norm_num) (by omega)
      nlinarith
    have hle : a + x ≤ (n + 1) * 2^k := by linarith
    have hge : 0 ≤ a + x := by linarith
    have herr := roundDouble_err (x := a + x) (B := (n + 1) * 2^k) (by rw [abs_of_nonneg hge]; exact hle) hB
    have h53 : (2 : ℚ)^(-53 : ℤ) = 2 * 2^(-54 : ℤ) := by norm_num
    rw [h53] at herr
    have hup : fadd a x ≤ (n + 1) * 2^k := by
      have hd : IsDouble (((n : ℚ) + 1) * 2^k) := by
        have := isDouble_of (n := ((n : ℤ) + 1)) (e := k) (by rw [abs_of_nonneg (by omega)]; norm_num at hlen ⊢; omega) (by omega)
        push_cast at this; exact this
      have := roundDouble_mono hle
      rwa [roundDouble_double hd] at this
    have hnn : 0 ≤ fadd a x := rnd_nonneg hge
    have key := ih (n + 1) (fadd a x) (b + x) (fun y hy => hl y (by simp [hy])) (by omega) (by omega) hnn
      (by push_cast; exact hup) (by
        have hf : fadd a x = roundDouble (a + x) := rfl
        rw [hf]
        push_cast
        rw [abs_le] at *
        constructor <;> nlinarith [herr.1, herr.2, h3.1, h3.2])
    simp only [List.foldl_cons, List.length_cons, List.sum_cons]
    rw [show n + (l.length + 1) = n + 1 + l.length by omega, ← add_assoc]
    exact key

/-- The sum of some contributions: it stays small and is near the exact one. -/
theorem sumUp_range {k : ℤ} (hk : -1021 ≤ k) (l : List ℚ) (hl : ∀ x ∈ l, 0 ≤ x ∧ x ≤ 2^k) (hn : l.length ≤ 2^53) :
    0 ≤ sumUp l ∧ sumUp l ≤ l.length * 2^k ∧ |sumUp l - l.sum| ≤ l.length * (l.length + 1) * 2^k * 2^(-54 : ℤ) := by
  cases l with
  | nil => simp [sumUp]
  | cons x l =>
    obtain ⟨x0, x1⟩ := hl x (by simp)
    have := foldl_range hk l 1 x x (fun y hy => hl y (by simp [hy])) (by norm_num) (by simpa [Nat.add_comm] using hn) x0
      (by simpa using x1) (by rw [sub_self, abs_zero]; have := two_zpow_pos k; have := two_zpow_pos (-54); positivity)
    simpa [sumUp, Nat.add_comm] using this

theorem sum_err {α : Type} (f g : α → ℚ) (c : ℚ) (L : List α) (h : ∀ x ∈ L, |f x - g x| ≤ c) :
    |(L.map f).sum - (L.map g).sum| ≤ L.length * c := by
  induction L with
  | nil => simp
  | cons x L ih =>
    have h1 := h x (by simp)
    have h2 := ih fun y hy => h y (by simp [hy])
    simp only [List.map_cons, List.sum_cons, List.length_cons]
    push_cast
    rw [abs_le] at *
    constructor <;> linarith [h1.1, h1.2, h2.1, h2.2]

end

namespace MatcherHistory
open Spec.MatcherHistory

theorem occurrences_sublist (H : MatcherHistory) (f : Word) : (H.occurrences f).length ≤ H.words.length :=
  (List.Sublist.flatMap (List.filter_sublist (l := H)) _).length_le

theorem maxCount_le (H : MatcherHistory) (f : Word) : H.maxCount f ≤ H.words.length := by
  rcases MatcherHistory.max_attained H f with h | ⟨w, _, h⟩
  · rw [h]; exact Nat.zero_le _
  · rw [← h]; exact le_trans List.count_le_length (occurrences_sublist H f)

/-- A list of different field and word pairs of one history is not longer than the words indexed. -/
theorem pairs_le {H : MatcherHistory} {L : List (Word × Word)} (hn : L.Nodup) (h : ∀ x ∈ L, ∃ y ∈ H, y.field = x.1 ∧ x.2 ∈ y.words) :
    L.length ≤ H.words.length := by
  have h1 : L ⊆ H.flatMap fun y => y.words.map fun w => (y.field, w) := by
    intro x hx
    obtain ⟨y, hy, e, hw⟩ := h x hx
    exact List.mem_flatMap.2 ⟨y, hy, List.mem_map.2 ⟨x.2, hw, by rw [e]⟩⟩
  have h2 := (hn.subperm h1).length_le
  refine le_trans h2 (le_of_eq ?_)
  clear h1 h2 h hn L
  induction H with
  | nil => rfl
  | cons y H ih =>
    have := ih
    simp only [Spec.MatcherHistory.words, List.flatMap_cons, List.length_append, List.length_map] at *
    omega

variable {H H' : MatcherHistory}

theorem perm_posting (h : H.Perm H') (d : DocumentID) (f w : Word) : H.Posting d f w ↔ H'.Posting d f w := by
  unfold Spec.MatcherHistory.Posting
  simp only [h.mem_iff]

theorem perm_occurrences (h : H.Perm H') (f : Word) : (H.occurrences f).Perm (H'.occurrences f) :=
  (h.filter _).flatMap_right _

theorem perm_count (h : H.Perm H') (f w : Word) : H.count f w = H'.count f w := (perm_occurrences h f).count_eq w

theorem perm_maxCount (h : H.Perm H') (f : Word) : H.maxCount f = H'.maxCount f := by
  have key : ∀ {H H' : MatcherHistory}, H.Perm H' → H.maxCount f ≤ H'.maxCount f := by
    intro H H' h
    rcases MatcherHistory.max_attained H f with e | ⟨w, _, e⟩
    · rw [e]; exact Nat.zero_le _
    · rw [← e, perm_count h]; exact MatcherHistory.count_le_max H' f w
  exact le_antisymm (key h) (key h.symm)

theorem perm_words (h : H.Perm H') : H.words.Perm H'.words := h.flatMap_right _

end MatcherHistory

theorem Sane.perm [Build] {e : ErrorValues} {q : WordList} {H H' : MatcherHistory} (hs : Sane e q H) (h : H.Perm H') : Sane e q H' := by
  refine ⟨hs.noNul, hs.nonNeg, fun x hx => ?_, hs.assertion⟩
  obtain ⟨B, L, h1, h2, h3⟩ := hs.moderate x hx
  refine ⟨B, L, h1, ?_, h3⟩
  intro y hy
  obtain ⟨w, hw, rfl⟩ := List.mem_map.1 hy
  exact h2 _ (List.mem_map.2 ⟨w, (MatcherHistory.perm_words h).mem_iff.2 hw, rfl⟩)

theorem Satisfies.perm {H H' : MatcherHistory} (h : H.Perm H') (f : ResultFilter) (d : DocumentID) : Satisfies H f d ↔ Satisfies H' f d := by
  unfold Satisfies
  simp only [MatcherHistory.perm_posting h]

/-- The least error is between 0 and 200. -/
theorem CloseTo.bounds {e : ErrorValues} {p : SearchParameters} {q : WordList} {w : Word} {v : Int}
    (hn : ∀ x ∈ q, (configured e x.length).NonNeg) (h : CloseTo e p q w v) : 0 ≤ v ∧ v ≤ 200 := by
  obtain ⟨x, hx, hc, hl⟩ := h.near
  constructor
  · exact script_nonneg (hn x hx) hc.1
  · refine le_trans hl ?_
    unfold limit
    split <;> norm_num

theorem CloseTo.unique {e : ErrorValues} {p : SearchParameters} {q : WordList} {w : Word} {v v' : Int}
    (h : CloseTo e p q w v) (h' : CloseTo e p q w v') : v = v' := by
  obtain ⟨x, hx, hc, hl⟩ := h.near
  obtain ⟨x', hx', hc', hl'⟩ := h'.near
  exact le_antisymm (h.least x' hx' v' hc' hl') (h'.least x hx v hc hl)

end Columbus
