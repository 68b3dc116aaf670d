import Verif.Spec.Double
import Verif.Model.Runtime
import Mathlib.Tactic.Linarith
import Mathlib.Tactic.Ring
import Mathlib.Tactic.FieldSimp
import Mathlib.Tactic.Positivity
/-
The laws of IEEE rounding.
-/

namespace Columbus
open Spec

theorem roundEven_intCast (n : ℤ) : roundEven n = n := by
  unfold roundEven
  rw [if_pos (by rw [Int.floor_intCast]; norm_num), Int.floor_intCast]

theorem roundEven_err (q : ℚ) : |q - roundEven q| ≤ 1/2 := by
  have h1 := Int.floor_le q
  have h2 := Int.lt_floor_add_one q
  unfold roundEven
  split
  · rw [abs_le]; constructor <;> linarith
  · split
    · push_cast; rw [abs_le]; constructor <;> linarith
    · split
      · rw [abs_le]; constructor <;> linarith
      · push_cast; rw [abs_le]; constructor <;> linarith

theorem roundEven_cases (q : ℚ) : roundEven q = ⌊q⌋ ∨ roundEven q = ⌊q⌋ + 1 := by
  unfold roundEven
  split
  · exact .inl rfl
  · split
    · exact .inr rfl
    · split
      · exact .inl rfl
      · exact .inr rfl

theorem roundEven_mono {p q : ℚ} (h : p ≤ q) : roundEven p ≤ roundEven q := by
  have hf : ⌊p⌋ ≤ ⌊q⌋ := Int.floor_le_floor h
  rcases hf.lt_or_eq with hlt | heq
  · rcases roundEven_cases p with hp | hp <;> rcases roundEven_cases q with hq | hq <;> omega
  · unfold roundEven
    rw [heq]
    repeat' split
    all_goals first | omega | (exfalso; linarith)

theorem roundEven_neg (q : ℚ) : roundEven (-q) = -roundEven q := by
  by_cases hi : (⌊q⌋ : ℚ) = q
  · rw [← hi, ← Int.cast_neg, roundEven_intCast, roundEven_intCast]
  · have h1 : (⌊q⌋ : ℚ) < q := lt_of_le_of_ne (Int.floor_le q) hi
    have h2 := Int.lt_floor_add_one q
    have hf : ⌊-q⌋ = -⌊q⌋ - 1 := by
      rw [Int.floor_eq_iff]
      push_cast
      constructor <;> linarith
    unfold roundEven
    rw [hf]
    push_cast
    have hd : (2 ∣ -⌊q⌋ - 1) ↔ ¬ (2 ∣ ⌊q⌋) := by omega
    repeat' split
    all_goals first | omega | (exfalso; linarith)

/-- The nearest integer to `q`. -/
theorem roundEven_nearest (q : ℚ) (n : ℤ) : |q - roundEven q| ≤ |q - n| := by
  have h1 := Int.floor_le q
  have h2 := Int.lt_floor_add_one q
  rcases le_or_gt n ⌊q⌋ with hn | hn
  · have hn' : (n : ℚ) ≤ ⌊q⌋ := by exact_mod_cast hn
    have h3 : q - ⌊q⌋ ≤ |q - n| := le_trans (by linarith) (le_abs_self _)
    refine le_trans ?_ h3
    unfold roundEven
    repeat' split
    all_goals (push_cast; rw [abs_le]; constructor <;> linarith)
  · have hn' : ((⌊q⌋ + 1 : ℤ) : ℚ) ≤ n := by exact_mod_cast hn
    push_cast at hn'
    have h3 : ⌊q⌋ + 1 - q ≤ |q - n| := le_trans (by linarith) (neg_le_abs _)
    refine le_trans ?_ h3
    unfold roundEven
    repeat' split
    all_goals (push_cast; rw [abs_le]; constructor <;> linarith)

theorem two_zpow_pos (e : ℤ) : (0 : ℚ) < 2^e := zpow_pos (by norm_num) e

theorem log_le (x : ℚ) (h : 0 < x) : (2 : ℚ)^Int.log 2 x ≤ x := by
  have := Int.zpow_log_le_self (b := 2) (by norm_num) h
  exact_mod_cast this

theorem lt_log (x : ℚ) : x < (2 : ℚ)^(Int.log 2 x + 1) := by
  have := Int.lt_zpow_succ_log_self (b := 2) (by norm_num) x
  exact_mod_cast this

theorem log_lt_of {x : ℚ} (h : 0 < x) {e : ℤ} (hx : x < (2 : ℚ)^e) : Int.log 2 x < e := by
  by_contra hc
  have h1 : (2 : ℚ)^e ≤ 2^Int.log 2 x := zpow_le_zpow_right₀ (by norm_num) (by omega)
  have := log_le x h
  linarith

theorem zpow_int {a b : ℤ} (h : a ≤ b) : ∃ n : ℤ, (2 : ℚ)^b = n * 2^a := by
  refine ⟨2^(b - a).toNat, ?_⟩
  push_cast
  rw [← zpow_natCast, Int.toNat_of_nonneg (by omega), ← zpow_add₀ (by norm_num)]
  congr 1; omega

theorem lastBit_neg (x : ℚ) : lastBit (-x) = lastBit x := by unfold lastBit; rw [abs_neg]

theorem roundDouble_neg (x : ℚ) : roundDouble (-x) = -roundDouble x := by
  unfold roundDouble
  rw [lastBit_neg, neg_div, roundEven_neg]
  push_cast; ring

/-- A multiple of the last bit on one side of `x` stays on this side. -/
theorem roundDouble_le {x b : ℚ} {n : ℤ} (hb : b = n * (2 : ℚ)^lastBit x) (h : x ≤ b) : roundDouble x ≤ b := by
  unfold roundDouble
  have hp := two_zpow_pos (lastBit x)
  have h1 : x / 2^lastBit x ≤ (n : ℚ) := by rw [div_le_iff₀ hp, ← hb]; exact h
  have h2 := roundEven_mono h1
  rw [roundEven_intCast] at h2
  have h3 : ((roundEven (x / 2^lastBit x) : ℤ) : ℚ) ≤ n := by exact_mod_cast h2
  rw [hb]
  exact mul_le_mul_of_nonneg_right h3 hp.le

theorem le_roundDouble {x b : ℚ} {n : ℤ} (hb : b = n * (2 : ℚ)^lastBit x) (h : b ≤ x) : b ≤ roundDouble x := by
  have := roundDouble_le (x := -x) (b := -b) (n := -n) (by rw [lastBit_neg, hb]; push_cast; ring) (by linarith)
  rw [roundDouble_neg] at this
  linarith

theorem roundDouble_nonneg {x : ℚ} (h : 0 ≤ x) : 0 ≤ roundDouble x := le_roundDouble (n := 0) (by simp) h

theorem lastBit_mono {x y : ℚ} (h0 : 0 < x) (h : x ≤ y) : lastBit x ≤ lastBit y := by
  unfold lastBit
  rw [abs_of_pos h0, abs_of_pos (by linarith)]
  have := Int.log_mono_right (b := 2) h0 h
  omega

/-- When the last bit has grown, a power of two that is a multiple of both last bits lies between. -/
theorem between {x y : ℚ} (h0 : 0 < x) (h : x ≤ y) (hl : lastBit x < lastBit y) :
    x ≤ (2 : ℚ)^(lastBit y + 52) ∧ (2 : ℚ)^(lastBit y + 52) ≤ y := by
  have hy : 0 < y := by linarith
  unfold lastBit at hl ⊢
  rw [abs_of_pos h0, abs_of_pos hy] at hl
  rw [abs_of_pos hy]
  have e : max (Int.log 2 y - 52) (-1074) + 52 = Int.log 2 y := by omega
  rw [e]
  refine ⟨?_, log_le y hy⟩
  exact le_trans (lt_log x).le (zpow_le_zpow_right₀ (by norm_num) (by omega))

theorem roundDouble_mono_pos {x y : ℚ} (h0 : 0 < x) (h : x ≤ y) : roundDouble x ≤ roundDouble y := by
  rcases (lastBit_mono h0 h).lt_or_eq with hl | hl
  · obtain ⟨h1, h2⟩ := between h0 h hl
    obtain ⟨n, hn⟩ := zpow_int (a := lastBit x) (b := lastBit y + 52) (by omega)
    obtain ⟨k, hk⟩ := zpow_int (a := lastBit y) (b := lastBit y + 52) (by omega)
    exact le_trans (roundDouble_le hn h1) (le_roundDouble hk h2)
  · unfold roundDouble
    rw [← hl]
    have hp := two_zpow_pos (lastBit x)
    refine mul_le_mul_of_nonneg_right ?_ hp.le
    exact_mod_cast roundEven_mono (div_le_div_of_nonneg_right h hp.le)

theorem roundDouble_mono {x y : ℚ} (h : x ≤ y) : roundDouble x ≤ roundDouble y := by
  rcases lt_or_ge 0 x with hx | hx
  · exact roundDouble_mono_pos hx h
  · rcases lt_or_ge y 0 with hy | hy
    · have := roundDouble_mono_pos (x := -y) (y := -x) (by linarith) (by linarith)
      rw [roundDouble_neg, roundDouble_neg] at this
      linarith
    · have h1 := roundDouble_nonneg hy
      have h2 := roundDouble_nonneg (x := -x) (by linarith)
      rw [roundDouble_neg] at h2
      linarith

/-- A multiple of the last bit is not changed. -/
theorem roundDouble_grid {x : ℚ} {n : ℤ} (h : x = n * (2 : ℚ)^lastBit x) : roundDouble x = x :=
  le_antisymm (roundDouble_le h le_rfl) (le_roundDouble h le_rfl)

theorem lastBit_le {n e : ℤ} (hn : |n| < 2^53) (he : -1074 ≤ e) (h0 : n ≠ 0) : lastBit (n * (2 : ℚ)^e) ≤ e := by
  unfold lastBit
  have hp := two_zpow_pos e
  have habs : |(n : ℚ) * 2^e| = |(n : ℚ)| * 2^e := by rw [abs_mul, abs_of_pos hp]
  have hpos : 0 < |(n : ℚ) * 2^e| := by
    rw [habs]; exact mul_pos (abs_pos.2 (by exact_mod_cast h0)) hp
  have hlt : |(n : ℚ) * 2^e| < 2^(e + 53) := by
    rw [habs, zpow_add₀ (by norm_num), mul_comm]
    refine mul_lt_mul_of_pos_left ?_ hp
    have : ((|n| : ℤ) : ℚ) < ((2^53 : ℤ) : ℚ) := by exact_mod_cast hn
    rw [Int.cast_abs] at this
    refine lt_of_lt_of_le this ?_
    norm_num
  have := log_lt_of hpos hlt
  omega

/-- Doubles are not changed. -/
theorem roundDouble_double {x : ℚ} (h : IsDouble x) : roundDouble x = x := by
  obtain ⟨n, e, hn, he, rfl⟩ := h
  by_cases h0 : n = 0
  · subst h0; exact roundDouble_grid (n := 0) (by simp)
  · obtain ⟨k, hk⟩ := zpow_int (lastBit_le hn he h0)
    refine roundDouble_grid (n := n * k) ?_
    push_cast
    rw [mul_assoc, ← hk]

/-- One more bit is allowed for powers of two. -/
theorem isDouble_of {n e : ℤ} (hn : |n| ≤ 2^53) (he : -1074 ≤ e) : IsDouble (n * (2 : ℚ)^e) := by
  rcases hn.lt_or_eq with hlt | heq
  · exact ⟨n, e, hlt, he, rfl⟩
  · rcases abs_eq (a := n) (b := 2^53) (by norm_num) |>.1 heq with rfl | rfl
    · refine ⟨2^52, e + 1, by norm_num, by omega, ?_⟩
      rw [zpow_add₀ (by norm_num)]; push_cast; ring
    · refine ⟨-2^52, e + 1, by norm_num, by omega, ?_⟩
      rw [zpow_add₀ (by norm_num)]; push_cast; ring

/-- What rounding gives is a double. -/
theorem roundDouble_isDouble (x : ℚ) : IsDouble (roundDouble x) := by
  refine isDouble_of ?_ (le_max_right _ _)
  have hp := two_zpow_pos (lastBit x)
  have hlt : |x| ≤ (2^53 : ℤ) * (2 : ℚ)^lastBit x := by
    refine le_trans (lt_log |x|).le ?_
    have : ((2^53 : ℤ) : ℚ) * 2^lastBit x = 2^(lastBit x + 53) := by
      rw [zpow_add₀ (by norm_num)]; push_cast; rw [mul_comm]
    rw [this]
    exact zpow_le_zpow_right₀ (by norm_num) (by unfold lastBit; omega)
  rw [abs_le] at hlt
  rw [abs_le]
  constructor
  · have h1 : ((-2^53 : ℤ) : ℚ) ≤ x / 2^lastBit x := by
      rw [le_div_iff₀ hp]; push_cast at hlt ⊢; linarith [hlt.1]
    have := roundEven_mono h1
    rwa [roundEven_intCast] at this
  · have h1 : x / 2^lastBit x ≤ ((2^53 : ℤ) : ℚ) := by
      rw [div_le_iff₀ hp]; exact hlt.2
    have := roundEven_mono h1
    rwa [roundEven_intCast] at this

/-- No double is nearer. -/
theorem roundDouble_nearest (x : ℚ) {z : ℚ} (hz : IsDouble z) : |x - roundDouble x| ≤ |x - z| := by
  by_cases h0 : x = 0
  · rw [roundDouble_grid (x := x) (n := 0) (by simp [h0]), sub_self, abs_zero]; exact abs_nonneg _
  have hp := two_zpow_pos (lastBit x)
  -- among the multiples of the last bit
  have grid : ∀ n : ℤ, |x - roundDouble x| ≤ |x - n * 2^lastBit x| := by
    intro n
    have h := roundEven_nearest (x / 2^lastBit x) n
    have h2 := mul_le_mul_of_nonneg_right h hp.le
    unfold roundDouble
    have e1 : ∀ k : ℚ, |x / 2^lastBit x - k| * 2^lastBit x = |x - k * 2^lastBit x| := by
      intro k
      have : x - k * 2^lastBit x = (x / 2^lastBit x - k) * 2^lastBit x := by field_simp
      rw [this, abs_mul, abs_of_pos hp]
    rw [e1, e1] at h2
    exact h2
  obtain ⟨n, e, hn, he, rfl⟩ := hz
  by_cases hle : lastBit x ≤ e
  · obtain ⟨k, hk⟩ := zpow_int hle
    have := grid (n * k)
    push_cast at this
    rwa [mul_assoc, ← hk] at this
  · -- then `x` is large, and a power of two lies between
    have hl : lastBit x = Int.log 2 |x| - 52 := by unfold lastBit at hle ⊢; omega
    have hx0 : 0 < |x| := abs_pos.2 h0
    have hb : (2 : ℚ)^(lastBit x + 52) ≤ |x| := by
      rw [hl, show Int.log 2 |x| - 52 + 52 = Int.log 2 |x| by omega]; exact log_le _ hx0
    have hz : |(n : ℚ) * 2^e| ≤ 2^(lastBit x + 52) := by
      rw [abs_mul, abs_of_pos (two_zpow_pos e)]
      have h1 : |(n : ℚ)| ≤ 2^53 := by
        have : ((|n| : ℤ) : ℚ) ≤ ((2^53 : ℤ) : ℚ) := by exact_mod_cast hn.le
        rw [Int.cast_abs] at this
        push_cast at this; exact this
      calc |(n : ℚ)| * 2^e ≤ 2^53 * 2^e := mul_le_mul_of_nonneg_right h1 (two_zpow_pos e).le
        _ = 2^(e + 53) := by rw [zpow_add₀ (by norm_num), mul_comm]; norm_num
        _ ≤ 2^(lastBit x + 52) := zpow_le_zpow_right₀ (by norm_num) (by omega)
    obtain ⟨k, hk⟩ := zpow_int (a := lastBit x) (b := lastBit x + 52) (by omega)
    rw [abs_le] at hz
    rcases le_or_gt 0 x with hx | hx
    · rw [abs_of_nonneg hx] at hb
      refine le_trans (grid k) ?_
      rw [← hk, abs_of_nonneg (by linarith)]
      exact le_trans (by linarith [hz.2]) (le_abs_self _)
    · rw [abs_of_neg hx] at hb
      refine le_trans (grid (-k)) ?_
      push_cast
      rw [neg_mul, ← hk, abs_of_nonpos (by linarith)]
      exact le_trans (by linarith [hz.1]) (neg_le_abs _)

/-- IEEE double arithmetic with rounding to nearest satisfies the laws. -/
@[reducible] def ieee : Fp where
  rnd := roundDouble
  rnd_mono _ _ h := roundDouble_mono h
  rnd_idem x := roundDouble_double (roundDouble_isDouble x)
  rnd_exact n k hn hk := by
    have : ((n : ℚ) / 2^k) = n * (2 : ℚ)^(-(k : ℤ)) := by rw [zpow_neg, zpow_natCast]; rfl
    rw [this]
    exact roundDouble_double (isDouble_of hn (by omega))

end Columbus
