import Verif.Props.Typos
import Verif.Proofs.Visits
import Verif.Proofs.Preset
/-
C118: searching by parts of words in substring mode.
-/

namespace Columbus.Props
open Columbus Spec ErrorValues

/-! ### C118 -/

/-- The letters that a word may have besides those of a query word. -/
def room (p : SearchParameters) (w : Word) : Nat := if p.isDynamic = true ∧ w.length < 2 then 6 else 13

theorem room_limit {p : SearchParameters} {w : Word} {n : Int} : 15 * n ≤ limit p w ↔ n ≤ room p w := by
  unfold limit room
  split <;> push_cast <;> omega

theorem room_longer {p : SearchParameters} {a b : Word} (h : a.length ≤ b.length) : room p a ≤ room p b := by
  unfold room
  split
  · split <;> decide
  · rename_i h1
    rw [if_neg fun h2 => h1 ⟨h2.1, by omega⟩]

section
variable [Build] [Icu]

/-- C118. In substring mode a word is the dearer the longer it is: letters that the query does not have cost at least 15
each. -/
theorem C118_least (q w : Word) (v : Int) (h : IsEditCost (configured (afterOps [.setSubstringMode]) q.length) q w v) :
    15 * ((w.length : Int) - q.length) ≤ v := by
  rw [configured_substring] at h
  have := script_depth (c := substringCosts q.length) (m := 15) (substring_nonneg _) (by decide)
    (by simp only [substringCosts]; split <;> decide) (Int.le_refl _) (by decide : (15 : Int) ≤ 100) h.1
  omega

/-- C118. In substring mode, what a word costs that contains the query: 15 for each letter outside of it, if the query has
three letters or the word begins with it. -/
theorem C118_price (q x y : Word) (hq : 3 ≤ q.length ∨ q ≠ [] ∧ x = []) :
    IsEditCost (configured (afterOps [.setSubstringMode]) q.length) q (x ++ q ++ y) (15 * (x.length + y.length)) := by
  have hne : q ≠ [] := by
    rcases hq with hq | hq
    · rintro rfl; simp at hq
    · exact hq.1
  have hb := best_substring (c := substringCosts q.length) x y hne (fun a _ => if_pos rfl)
  have hl := C118_least q (x ++ q ++ y) _ (by rw [configured_substring]; exact best_isEditCost)
  have hx : x.length * (substringCosts q.length).startIns = 15 * (x.length : Int) := by
    rcases hq with hq | ⟨_, rfl⟩
    · rw [show (substringCosts q.length).startIns = 15 from if_pos hq]; omega
    · simp
  rw [hx, show (substringCosts q.length).endDel = 15 from rfl] at hb
  simp only [List.length_append, Nat.cast_add] at hl
  rw [configured_substring, isEditCost_iff]
  omega

end

section
variable [Build] [Icu] [Runtime] [Fp] {os : Nat → Bool} {m : Matcher} {H : MatcherHistory} {K : List Word}

omit [Runtime] [Fp] in
theorem substring_preset : PresetMade (afterOps [.setSubstringMode]) :=
  presetMade_afterOps fun op h => by rw [List.mem_singleton] at h; subst h; trivial

/-- C118, what holds: in substring mode a search lists each document that has a word containing a query word, of three
letters or more, or at the beginning, with no more than 13 letters besides; 6 for a query word of one letter with a
dynamic limit. Missing: longer words (C118_false); query words of one or two letters inside of a word (C27_short). -/
theorem C118_partial (h : Ran os m H K) (he : m.e = afterOps [.setSubstringMode]) (q : WordList) (p : SearchParameters)
    (hf : Unfiltered p) (hn : ∀ w ∈ q, ∀ l ∈ w, l ≠ 0#16) (hq : ∀ w ∈ q, w.length ≤ 10000000)
    (hH : ∀ w ∈ H.words, w.length ≤ 10000000) :
    ∃ r k, m.matchQuery q p = (m, .ok r) ∧ Shows r k ∧
      (∀ d f x y w, H.Posting d f (x ++ w ++ y) → p.isNonsearchingField f = false → w ∈ q →
        3 ≤ w.length ∨ w ≠ [] ∧ x = [] → x.length + y.length ≤ room p w →
        d ∈ k.map (·.2)) ∧
      ∀ d ∈ k.map (·.2), ∃ f u, H.Posting d f u ∧ ∃ w ∈ q, u.length ≤ w.length + room p w := by
  have hp : PresetMade m.e := by rw [he]; exact substring_preset
  obtain ⟨r, k, e, hk, hd⟩ := C44_found h q p (hp.sane hn hq hH (le_refl _)) (hp.exact q) hf
  refine ⟨r, k, e, hk, ?_, ?_⟩
  · intro d f x y w h1 h2 h3 h4 h5
    refine (hd d).2 ⟨f, _, w, _, h1, h2, h3, by rw [he]; exact C118_price w x y h4, ?_⟩
    rw [room_limit]; omega
  · intro d hx
    obtain ⟨f, u, w, v, h1, _, h3, h4, h5⟩ := (hd d).1 hx
    rw [he] at h4
    have := C118_least w u v h4
    have := room_limit.1 (this.trans h5)
    exact ⟨f, u, h1, w, h3, by omega⟩

/-- C118. Typing on: once the beginning of a word of a document lists it, so does each longer beginning. -/
theorem C118_typing (h : Ran os m H K) (he : m.e = afterOps [.setSubstringMode]) (p : SearchParameters) (hf : Unfiltered p)
    (hH : ∀ w ∈ H.words, w.length ≤ 10000000) (d : DocumentID) (f a b c : Word) (ha : a ≠ [])
    (hw : H.Posting d f (a ++ b ++ c)) (hx : p.isNonsearchingField f = false) (h0 : ∀ l ∈ a ++ b ++ c, l ≠ 0#16)
    (hl : b.length + c.length ≤ room p a) :
    ∃ r k, m.matchQuery [a ++ b] p = (m, .ok r) ∧ Shows r k ∧ d ∈ k.map (·.2) := by
  have hlen : (a ++ b ++ c).length ≤ 10000000 := by
    obtain ⟨y, hy, _, _, hyw⟩ := hw
    exact hH _ (List.mem_flatMap.2 ⟨y, hy, hyw⟩)
  obtain ⟨r, k, e, hk, h1, _⟩ := C118_partial h he [a ++ b] p hf
    (by intro w hw l hl; rw [List.mem_singleton] at hw; subst hw; exact h0 l (List.mem_append_left _ hl))
    (by intro w hw; rw [List.mem_singleton] at hw; subst hw; simp only [List.length_append] at hlen ⊢; omega) hH
  refine ⟨r, k, e, hk, h1 d f [] c (a ++ b) (by simpa using hw) hx (by simp) (Or.inr ⟨by simp [ha], rfl⟩) ?_⟩
  have := room_longer (p := p) (a := a) (b := a ++ b) (by simp)
  simp only [List.length_nil, Nat.zero_add]
  omega

/-- The word "11...1". -/
def ones (n : Nat) : Word := List.replicate n 0x31#16

omit [Build] [Icu] [Runtime] [Fp] in
theorem good_ones {n : Nat} (h : n ≠ 0) : GoodWord (ones n) := by
  refine ⟨by simp [ones, h], ?_, by simp [ones, IsBlank], by simp [ones]⟩
  refine ⟨List.replicate n 0x31, ?_⟩
  clear h
  induction n with
  | zero => exact .nil
  | succ n ih => exact Utf16.bmp (u := 0x31#16) (by decide) ih

/-- C118 is false: in substring mode a document whose title is a word of 17 letters is not found by the first three of them;
with 16 letters it is. -/
theorem C118_false :
    (∃ m r, Ran Example.os m [⟨1, Example.fieldT, 1, [ones 17]⟩] [] ∧ m.e = afterOps [.setSubstringMode] ∧
      m.matchQuery [ones 3] .new = (m, .ok r) ∧ Shows r []) ∧
    ∃ m r k, Ran Example.os m [⟨1, Example.fieldT, 1, [ones 16]⟩] [] ∧ m.e = afterOps [.setSubstringMode] ∧
      m.matchQuery [ones 3] .new = (m, .ok r) ∧ Shows r k ∧ 1 ∈ k.map (·.2) := by
  have one : ∀ n, n ≠ 0 → n ≤ 100 → ∃ m, Ran Example.os m [⟨1, Example.fieldT, 1, [ones n]⟩] [] ∧ m.e = afterOps [.setSubstringMode] := by
    intro n h0 hn
    obtain ⟨m, h, he⟩ := one_title (ones n) (good_ones h0) (by
      simp only [MatcherHistory.mentions, lettersIn, ones]; simp; simp [Example.fieldT]; omega)
    refine ⟨_, h.errors .setSubstringMode, ?_⟩
    rw [he]; rfl
  have go : ∀ n m, n ≤ 100 → Ran Example.os m [⟨1, Example.fieldT, 1, [ones n]⟩] [] → m.e = afterOps [.setSubstringMode] → _ :=
    fun n m hn h he => C118_partial h he [ones 3] .new rfl (by simp [ones]) (by simp [ones])
      (by simp [MatcherHistory.words, ones]; omega)
  constructor
  · obtain ⟨m, h, he⟩ := one 17 (by decide) (by decide)
    obtain ⟨r, k, e, hk, _, h2⟩ := go 17 m (by decide) h he
    have : k = [] := by
      rw [← List.map_eq_nil_iff (f := (·.2)), List.eq_nil_iff_forall_not_mem]
      intro d hd
      obtain ⟨f, u, ⟨y, hy, _, _, hw'⟩, w, hw, hlen⟩ := h2 d hd
      rw [List.mem_singleton] at hy hw
      subst hy hw
      rw [List.mem_singleton] at hw'
      subst hw'
      revert hlen
      decide
    rw [this] at hk
    exact ⟨m, r, h, he, e, hk⟩
  · obtain ⟨m, h, he⟩ := one 16 (by decide) (by decide)
    obtain ⟨r, k, e, hk, h1, _⟩ := go 16 m (by decide) h he
    exact ⟨m, r, k, h, he, e, hk, h1 1 Example.fieldT [] (ones 13) (ones 3) ⟨_, List.mem_cons_self, rfl, rfl, List.mem_cons_self⟩
      (by decide) (by simp) (Or.inl (by decide)) (by decide)⟩

end
end Columbus.Props
