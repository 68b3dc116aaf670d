import Verif.Spec.Damerau
import Verif.Props.Matcher
import Verif.Props.Triangle
/-
C106: errors as Damerau-Levenshtein distances.
-/

namespace Columbus.Props
open Columbus Spec ErrorValues

/-! ### C106 -/

theorem change_append {x y : Word} (h : Change x y) (t : Word) : Change (x ++ t) (y ++ t) := by
  cases h with
  | insert u v a => have := Change.insert u (v ++ t) a; simpa using this
  | delete u v a => have := Change.delete u (v ++ t) a; simpa using this
  | replace u v a b => have := Change.replace u (v ++ t) a b; simpa using this
  | swap u v a b => have := Change.swap u (v ++ t) a b; simpa using this

theorem changes_append {x y : Word} {n : Nat} (h : Changes x y n) (t : Word) : Changes (x ++ t) (y ++ t) n := by
  induction h with
  | nil => exact .nil _
  | more _ h ih => exact .more ih (change_append h t)

theorem edits_self (x : Word) : Edits x x 0 := by
  induction x using List.reverseRecOn with
  | nil => exact .nil
  | append_singleton x a ih => exact .keep a ih

/-- Edits made from left to right are changes. -/
theorem edits_changes {x y : Word} {n : Nat} (h : Edits x y n) : Changes x y n := by
  induction h with
  | nil => exact .nil _
  | @delete q w n a _ ih =>
    refine .more (changes_append ih [a]) ?_
    have := Change.delete w [] a; simpa using this
  | @insert q w n b _ ih =>
    refine .more ih ?_
    have := Change.insert w [] b; simpa using this
  | keep a _ ih => exact changes_append ih [a]
  | @replace q w n a b _ ih =>
    refine .more (changes_append ih [a]) ?_
    have := Change.replace w [] a b; simpa using this
  | @swap q w n a b _ ih =>
    refine .more (changes_append ih [a, b]) ?_
    have := Change.swap w [] a b; simpa using this

/-- One change is one edit. -/
theorem change_edits {x y : Word} (h : Change x y) : Edits x y 1 := by
  cases h with
  | insert u v a => exact edits_append (Edits.insert a (edits_self u)) (edits_self v)
  | delete u v a => exact edits_append (Edits.delete a (edits_self u)) (edits_self v)
  | replace u v a b => exact edits_append (Edits.replace a b (edits_self u)) (edits_self v)
  | swap u v a b => exact edits_append (Edits.swap a b (edits_self u)) (edits_self v)

/-- Changes in a row take fewer than twice as many edits. -/
theorem changes_edits {x y : Word} {n : Nat} (h : Changes x y n) : ∃ m ≤ 2 * n - 1, Edits x y m := by
  induction h with
  | nil => exact ⟨0, by omega, edits_self _⟩
  | @more y z n h h' ih =>
    obtain ⟨m, hm, he⟩ := ih
    cases n with
    | zero =>
      cases h
      exact ⟨1, by omega, change_edits h'⟩
    | succ n =>
      obtain ⟨k, hk, he'⟩ := edits_after (change_edits h') x [] m (by rwa [List.append_nil])
      rw [List.append_nil] at he'
      exact ⟨k, by omega, he'⟩

/-- C106. Every two words have a Damerau-Levenshtein distance. -/
theorem C106_exists (x y : Word) : ∃ n, IsDamerau x y n := by
  classical
  obtain ⟨n, hn, _⟩ := (C26_metric x y).1
  have h : ∃ n, Changes x y n := ⟨n, edits_changes hn⟩
  exact ⟨Nat.find h, Nat.find_spec h, fun m hm => Nat.find_min' h hm⟩

/-- C106. The Damerau-Levenshtein distance is a metric, unlike the number of edits (C104). -/
theorem C106_metric (x y z : Word) (a b c : Nat) (h1 : IsDamerau x y a) (h2 : IsDamerau y z b) (h3 : IsDamerau x z c) :
    (a = 0 ↔ x = y) ∧ IsDamerau y x a ∧ c ≤ a + b := by
  have trans : ∀ {x y z : Word} {n m : Nat}, Changes x y n → Changes y z m → Changes x z (n + m) := by
    intro x y z n m h h'
    induction h' with
    | nil => exact h
    | more _ h' ih => exact .more ih h'
  have back : ∀ {x y : Word}, Change x y → Change y x := by
    intro x y h
    cases h with
    | insert u v a => exact .delete u v a
    | delete u v a => exact .insert u v a
    | replace u v a b => exact .replace u v b a
    | swap u v a b => exact .swap u v b a
  have sym : ∀ {x y : Word} {n : Nat}, Changes x y n → Changes y x n := by
    intro x y n h
    induction h with
    | nil => exact .nil _
    | @more y z n _ h' ih => rw [Nat.add_comm]; exact trans (.more (.nil _) (back h')) ih
  refine ⟨⟨?_, ?_⟩, ⟨sym h1.1, fun m hm => h1.2 m (sym hm)⟩, h3.2 _ (trans h1.1 h2.1)⟩
  · rintro rfl
    have := h1.1
    cases this; rfl
  · rintro rfl
    have := h1.2 0 (.nil _)
    omega

/-- C106, numbers of edits and Damerau-Levenshtein distances: the former are not smaller, less than twice as large, and equal up
to one change. -/
theorem C106_distances (x y : Word) (n d : Nat) (h : IsEditDistance x y n) (h' : IsDamerau x y d) :
    d ≤ n ∧ n ≤ 2 * d - 1 := by
  refine ⟨h'.2 n (edits_changes h.1), ?_⟩
  obtain ⟨m, hm, he⟩ := changes_edits h'.1
  exact (h.2 m he).trans hm

/-- "ca" becomes "abc" in two changes. -/
theorem two_changes : IsDamerau wordCa wordAbc 2 := by
  refine ⟨.more (.more (.nil _) (.swap [] [] 0x63 0x61)) (.insert [0x61] [0x63] 0x62), fun m hm => ?_⟩
  obtain ⟨k, hk, he⟩ := changes_edits hm
  have := far_apart.2 k he
  omega

/-- C106 is false in every build: a search for "ca" finds "abc" with an error of 300, though two changes are enough. -/
theorem C106_false [Build] [Icu] [Runtime] (os : Nat → Bool) (ix : LevIndex) (hb : built os [(wordAbc, 0)] = .ok ix) :
    IsDamerau wordCa wordAbc 2 ∧ ix.findWords wordCa (afterOps []) 299 [] = .ok [] ∧
      ∃ r, ix.findWords wordCa (afterOps []) 300 [] = .ok r ∧ ∀ m, m ∈ r ↔ m = ⟨0, 300⟩ := by
  have ho : IndexHistory.Ok [(wordAbc, 0)] := by
    refine ⟨by simp [wordAbc], by simp [wordAbc]; decide, by simp [INVALID_WORDID], by simp⟩
  have hl : ∀ p ∈ [(wordAbc, (0 : WordID))], p.1.length ≤ 10000000 := by simp [wordAbc]
  have only : ∀ {w n i}, IndexHistory.Has [(wordAbc, (0 : WordID))] w i → IsEditDistance wordCa w n → i = 0 ∧ n = 3 := by
    intro w n i hw hd
    obtain ⟨rfl, rfl⟩ : w = wordAbc ∧ i = 0 := by simpa using hw.2
    have := hd.2 3 far_apart.1
    have := far_apart.2 n hd.1
    exact ⟨rfl, by omega⟩
  refine ⟨two_changes, ?_, ?_⟩
  · obtain ⟨r, hr, hm⟩ := found_within os _ ix ho hb hl wordCa (by simp [wordCa]) (by simp [wordCa]) 299
    rw [hr]
    congr 1
    rw [List.eq_nil_iff_forall_not_mem]
    intro m hx
    obtain ⟨w, n, hw, hd, _, hn⟩ := (hm m).1 hx
    have := (only hw hd).2
    omega
  · obtain ⟨r, hr, hm⟩ := found_within os _ ix ho hb hl wordCa (by simp [wordCa]) (by simp [wordCa]) 300
    refine ⟨r, hr, fun m => ⟨fun hx => ?_, ?_⟩⟩
    · obtain ⟨w, n, hw, hd, hv, _⟩ := (hm m).1 hx
      obtain ⟨h1, rfl⟩ := only hw hd
      cases m
      simp only at h1 hv
      subst h1; subst hv; rfl
    · rintro rfl
      exact (hm _).2 ⟨wordAbc, 3, ⟨by simp [wordAbc], by simp⟩, far_apart, rfl, by decide⟩

/-- C106, what holds of searches with the default errors, of words of up to 10 million letters: a word found with an error has a
Damerau-Levenshtein distance of at most a hundredth of that, and of more than half of a hundredth; a word is found if 200 times
its distance, less 100, is within the limit, and only if 100 times its distance is. Missing from the full claim: errors of exactly
100 times the distance, if that is 2 or more. -/
theorem C106_partial [Build] [Icu] [Runtime] (os : Nat → Bool) (h : IndexHistory) (ix : LevIndex) (ho : IndexHistory.Ok h)
    (hb : built os h = .ok ix) (hl : ∀ p ∈ h, p.1.length ≤ 10000000) (q : Word) (hq : ∀ l ∈ q, l ≠ 0#16)
    (hql : q.length ≤ 10000000) (T : Int) (hT : 0 ≤ T) : ∃ r, ix.findWords q (afterOps []) T [] = .ok r ∧
      (∀ i v, ⟨i, v⟩ ∈ r → ∃ w d, IndexHistory.Has h w i ∧ IsDamerau q w d ∧ 100 * (d : Int) ≤ v ∧ (v = 0 ∨ v ≤ 200 * d - 100) ∧
        (d ≤ 1 → v = 100 * d) ∧ v ≤ T) ∧
      ∀ w i d, IndexHistory.Has h w i → IsDamerau q w d → 200 * (d : Int) - 100 ≤ T → ∃ v, ⟨i, v⟩ ∈ r := by
  obtain ⟨r, hr, hm⟩ := found_within os h ix ho hb hl q hq hql T
  refine ⟨r, hr, ?_, ?_⟩
  · intro i v hx
    obtain ⟨w, n, hw, hn, hv, hT⟩ := (hm _).1 hx
    obtain ⟨d, hd⟩ := C106_exists q w
    have := C106_distances q w n d hn hd
    simp only at hv
    exact ⟨w, d, hw, hd, by omega, by omega, by omega, by omega⟩
  · intro w i d hw hd hdT
    obtain ⟨n, hn⟩ := (C26_metric q w).1
    have := C106_distances q w n d hn hd
    exact ⟨100 * n, (hm _).2 ⟨w, n, hw, hn, rfl, by omega⟩⟩

/-- In an index of "abc" a search for "ca" finds it with a limit of 300, as C106_partial says. -/
example : (200 * ((2 : Nat) : Int) - 100 ≤ 300) ∧ IsDamerau wordCa wordAbc 2 ∧
    (match @built Example.debug (fun _ => true) [(wordAbc, 0)] with | .ok _ => true | .error _ => false) = true :=
  ⟨by decide, two_changes, by decide +kernel⟩

/-- C106, what holds of `match` with the default settings: every document with a word that is at most one change away from a query
word is listed, and only documents with a word that is at most two changes away. Missing from the full claim: all words that are
two changes away. -/
theorem C106_match_partial [Build] [Icu] [Runtime] [Fp] {os : Nat → Bool} {m : Matcher} {H : MatcherHistory} {K : List Word}
    (h : Ran os m H K) (hd : m.e = ErrorValues.new) (q : WordList) (p : SearchParameters) (hs : Sane m.e q H) (hf : Unfiltered p) :
    ∃ r k, m.matchQuery q p = (m, .ok r) ∧ Shows r k ∧
      (∀ d f w x n, H.Posting d f w → p.isNonsearchingField f = false → x ∈ q → IsDamerau x w n → n ≤ 1 → d ∈ k.map (·.2)) ∧
      ∀ d ∈ k.map (·.2), ∃ f w x n, H.Posting d f w ∧ p.isNonsearchingField f = false ∧ x ∈ q ∧ IsDamerau x w n ∧ n ≤ 2 := by
  obtain ⟨r, k, e, hk, hm⟩ := C44_default h hd q p hs hf
  refine ⟨r, k, e, hk, ?_, ?_⟩
  · intro d f w x n hp hx hq hn h1
    obtain ⟨n', hn'⟩ := (C26_metric x w).1
    have := C106_distances x w n' n hn' hn
    refine (hm d).2 ⟨f, w, x, n', hp, hx, hq, hn', ?_⟩
    split <;> omega
  · intro d hdk
    obtain ⟨f, w, x, n', hp, hx, hq, hn', hle⟩ := (hm d).1 hdk
    obtain ⟨n, hn⟩ := C106_exists x w
    have := C106_distances x w n' n hn' hn
    refine ⟨f, w, x, n, hp, hx, hq, hn, ?_⟩
    split at hle <;> omega

end Columbus.Props
