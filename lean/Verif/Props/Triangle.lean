import Verif.Proofs.Triangle
import Verif.Props.Mutual
/-
C104: errors add up.
-/

namespace Columbus.Props
open Columbus Spec ErrorValues

/-! ### C104 -/

/-- C104, what holds of edits: a word that is `b` edits from one that is `a` edits away is at most `a + 2b` and `2a + b` edits
away. -/
theorem C104_edits (x y z : Word) (a b c : Nat) (h1 : IsEditDistance x y a) (h2 : IsEditDistance y z b) (h3 : IsEditDistance x z c) :
    c ≤ a + 2 * b ∧ c ≤ 2 * a + b := by
  have key : ∀ {x y z : Word} {a b c : Nat}, IsEditDistance x y a → IsEditDistance y z b → IsEditDistance x z c → c ≤ a + 2 * b := by
    intro x y z a b c h1 h2 h3
    have h := h1.1
    rw [← List.append_nil y] at h
    obtain ⟨m, hm, h⟩ := edits_after h2.1 x [] a h
    rw [List.append_nil] at h
    exact (h3.2 m h).trans hm
  have sym : ∀ {x y : Word} {n : Nat}, IsEditDistance x y n → IsEditDistance y x n := fun h => ((C26_metric _ _).2.1 _).1 h
  refine ⟨key h1 h2 h3, ?_⟩
  have := key (sym h2) (sym h1) (sym h3)
  omega

/-- What a search with the default errors finds. -/
theorem found_within [Build] [Icu] [Runtime] (os : Nat → Bool) (h : IndexHistory) (ix : LevIndex) (ho : IndexHistory.Ok h)
    (hb : built os h = .ok ix) (hl : ∀ p ∈ h, p.1.length ≤ 10000000) (q : Word) (hq : ∀ l ∈ q, l ≠ 0#16)
    (hql : q.length ≤ 10000000) (T : Int) : ∃ r, ix.findWords q (afterOps []) T [] = .ok r ∧
      ∀ m, m ∈ r ↔ ∃ w n, IndexHistory.Has h w m.matchedWord ∧ IsEditDistance q w n ∧ m.error = 100 * n ∧ 100 * (n : Int) ≤ T := by
  have mod : Moderate (configured (afterOps []) q.length) q h := by
    refine ⟨100, 10000000, ?_, hl, ?_⟩
    · exact PresetMade.within presetMade_new _
    · omega
  obtain ⟨r, hr⟩ := C25_no_fault os h ix ho hb [] q hq mod rfl T []
  obtain ⟨added, hp, ha⟩ := C26_distance os h ix ho hb q hq mod T [] r hr
  refine ⟨r, hr, fun m => ?_⟩
  rw [hp.mem_iff, List.nil_append, ha]

/-- "ca", "ac", "abc". -/
def wordCa : Word := [0x63, 0x61]
def wordAc : Word := [0x61, 0x63]
def wordAbc : Word := [0x61, 0x62, 0x63]

theorem far_apart : IsEditDistance wordCa wordAbc 3 := by
  have hs := C95_triangle_false.2.2
  cases hb : @built Example.debug (fun _ => true) [(wordAbc, 0)] with
  | error f =>
    have hb' : @built Example.debug (fun _ => true) [([0x61, 0x62, 0x63], 0)] = .error f := hb
    rw [hb'] at hs; cases hs
  | ok ix =>
    have hb' : @built Example.debug (fun _ => true) [([0x61, 0x62, 0x63], 0)] = .ok ix := hb
    rw [hb', ok_bind] at hs
    have ho : IndexHistory.Ok [(wordAbc, 0)] := by
      refine ⟨by simp [wordAbc], by simp [wordAbc]; decide, by simp [INVALID_WORDID], by simp⟩
    obtain ⟨r, hr, hm⟩ := @found_within Example.debug Example.icu Example.runtime (fun _ => true) [(wordAbc, 0)] ix ho hb
      (by simp [wordAbc]) wordCa (by simp [wordCa]) (by simp [wordCa]) 1000
    have hs' : @LevIndex.findWords Example.debug Example.runtime ix wordCa (@afterOps Example.debug Example.icu []) 1000 [] = .ok [⟨0, 300⟩] := hs
    rw [hs'] at hr
    injection hr with hr
    obtain ⟨w, n, hw, hd, hv, _⟩ := (hm ⟨0, 300⟩).1 (hr ▸ List.mem_singleton.2 rfl)
    have h3 : n = 3 := by simp only at hv; omega
    have hw' : w = wordAbc := by
      have := hw.2
      rw [List.mem_singleton] at this
      exact congrArg Prod.fst this
    rw [h3, hw'] at hd
    exact hd

theorem near_each : IsEditDistance wordCa wordAc 1 ∧ IsEditDistance wordAc wordAbc 1 := by
  have pos : ∀ {x y : Word} {n : Nat}, x ≠ y → Edits x y n → 1 ≤ n := by
    intro x y n hne h
    by_contra hn
    exact hne (edits_zero h (by omega))
  exact ⟨⟨Edits.swap 0x63#16 0x61#16 .nil, fun m hm => pos (by decide) hm⟩,
    ⟨Edits.keep 0x63#16 (Edits.insert 0x62#16 (Edits.keep 0x61#16 .nil)), fun m hm => pos (by decide) hm⟩⟩

/-- The bound is reached: "ca", "ac" and "abc" are one, one and three edits apart. -/
theorem C104_sharp : ∃ x y z : Word, IsEditDistance x y 1 ∧ IsEditDistance y z 1 ∧ IsEditDistance x z 3 :=
  ⟨_, _, _, near_each.1, near_each.2, far_apart⟩

/-- C104 is false in every build: of an index of "ac" and "abc", "ca" finds "ac" with an error of 100, and "ac" finds "abc"
with an error of 100, but "ca" does not find "abc" with any limit below 300. -/
theorem C104_false [Build] [Icu] [Runtime] (os : Nat → Bool) (ix : LevIndex) (hb : built os [(wordAc, 0), (wordAbc, 1)] = .ok ix) :
    ∃ r r', ix.findWords wordCa (afterOps []) 299 [] = .ok r ∧ ⟨0, 100⟩ ∈ r ∧ (∀ v, ⟨1, v⟩ ∉ r) ∧
      ix.findWords wordAc (afterOps []) 100 [] = .ok r' ∧ ⟨1, 100⟩ ∈ r' := by
  have ho : IndexHistory.Ok [(wordAc, 0), (wordAbc, 1)] := by
    refine ⟨by simp [wordAc, wordAbc], by simp [wordAc, wordAbc]; decide, by simp [INVALID_WORDID], by simp [wordAc, wordAbc]⟩
  have hl : ∀ p ∈ [(wordAc, 0), (wordAbc, 1)], p.1.length ≤ 10000000 := by simp [wordAc, wordAbc]
  obtain ⟨r, hr, hm⟩ := found_within os _ ix ho hb hl wordCa (by simp [wordCa]) (by simp [wordCa]) 299
  obtain ⟨r', hr', hm'⟩ := found_within os _ ix ho hb hl wordAc (by simp [wordAc]) (by simp [wordAc]) 100
  refine ⟨r, r', hr, (hm _).2 ⟨wordAc, 1, ⟨by simp [wordAc], by simp⟩, near_each.1, rfl, by decide⟩, ?_, hr',
    (hm' _).2 ⟨wordAbc, 1, ⟨by simp [wordAbc], by simp⟩, near_each.2, rfl, by decide⟩⟩
  intro v hv
  obtain ⟨w, n, hw, hd, _, hn⟩ := (hm _).1 hv
  have hw' : w = wordAbc := by
    have := hw.2
    simpa using this
  rw [hw'] at hd
  have := hd.2 3 far_apart.1
  have := far_apart.2 n hd.1
  omega

/-- There are such indexes. -/
example : (match @built Example.debug (fun _ => true) [(wordAc, 0), (wordAbc, 1)] with | .ok _ => true | .error _ => false) = true := by
  decide +kernel

/-- C104, what holds of searches with the default errors, of words of up to 10 million letters: if a search for `x` finds a
word with an error, and a search for that word finds a word with another error, a search for `x` finds the latter too, with
the sum of the errors and the lesser one at most, if the limit is as large. Missing from the full claim: the sum alone as the
limit. -/
theorem C104_partial [Build] [Icu] [Runtime] (os : Nat → Bool) (h : IndexHistory) (ix : LevIndex) (ho : IndexHistory.Ok h) (hb : built os h = .ok ix)
    (hl : ∀ p ∈ h, p.1.length ≤ 10000000) (x : Word) (hx : ∀ l ∈ x, l ≠ 0#16) (hxl : x.length ≤ 10000000) (T T' : Int)
    (r : IndexMatches) (hr : ix.findWords x (afterOps []) T [] = .ok r) (i : WordID) (v : Int) (hi : ⟨i, v⟩ ∈ r) :
    ∃ y, IndexHistory.Has h y i ∧ ∃ r', ix.findWords y (afterOps []) T' [] = .ok r' ∧ ∀ j v', ⟨j, v'⟩ ∈ r' →
      ∀ T'', v + v' + min v v' ≤ T'' → ∃ r'', ix.findWords x (afterOps []) T'' [] = .ok r'' ∧
        ∃ v'' ≤ v + v' + min v v', ⟨j, v''⟩ ∈ r'' := by
  have find := fun q hq hql T => found_within os h ix ho hb hl q hq hql T
  obtain ⟨r0, hr0, hm⟩ := find x hx hxl T
  rw [hr] at hr0; cases hr0
  obtain ⟨y, a, hy, ha, hv, _⟩ := (hm _).1 hi
  obtain ⟨r', hr', hm'⟩ := find y (ho.noNul _ hy.2) (hl _ hy.2) T'
  refine ⟨y, hy, r', hr', fun j v' hj T'' hT => ?_⟩
  obtain ⟨z, b, hz, hb', hv', _⟩ := (hm' _).1 hj
  obtain ⟨r'', hr'', hm''⟩ := find x hx hxl T''
  obtain ⟨c, hc⟩ := (C26_metric x z).1
  have hle := C104_edits x y z a b c ha hb' hc
  simp only at hv hv'
  have hbound : 100 * (c : Int) ≤ v + v' + min v v' := by omega
  exact ⟨r'', hr'', 100 * c, hbound, (hm'' _).2 ⟨z, c, hz, hc, rfl, hbound.trans hT⟩⟩

end Columbus.Props
