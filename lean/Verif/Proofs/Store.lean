import Mathlib.Data.List.Nodup
import Mathlib.Data.List.Perm.Subperm
import Verif.Proofs.TrieOps
import Verif.Spec.Store
/-
The word store.
-/

namespace Columbus
open Spec

/-! ### Distinct elements -/

theorem mem_distinct {α : Type} [DecidableEq α] {l : List α} {a : α} : a ∈ distinct l ↔ a ∈ l := by
  induction l with
  | nil => simp [distinct]
  | cons b l ih =>
    simp only [distinct, List.mem_cons, List.mem_filter, ih, decide_eq_true_eq, ne_eq]
    constructor
    · rintro (h | ⟨h, _⟩)
      · exact Or.inl h
      · exact Or.inr h
    · rintro (h | h)
      · exact Or.inl h
      · by_cases hab : a = b
        · exact Or.inl hab
        · exact Or.inr ⟨h, hab⟩

theorem nodup_distinct {α : Type} [DecidableEq α] (l : List α) : (distinct l).Nodup := by
  induction l with
  | nil => simp [distinct]
  | cons b l ih =>
    simp only [distinct, List.nodup_cons, List.mem_filter]
    exact ⟨by simp, ih.filter _⟩

theorem distinct_append_singleton {α : Type} [DecidableEq α] (l : List α) (a : α) :
    distinct (l ++ [a]) = if a ∈ l then distinct l else distinct l ++ [a] := by
  induction l with
  | nil => simp [distinct]
  | cons b l ih =>
    simp only [List.cons_append, distinct, ih, List.mem_cons]
    by_cases hab : a = b
    · subst hab
      simp only [true_or, if_true]
      by_cases hal : a ∈ l
      · rw [if_pos hal]
      · rw [if_neg hal, List.filter_append]; simp
    · simp only [hab, false_or]
      split
      · rfl
      · simp [List.filter_append, hab]

theorem length_distinct_le {α : Type} [DecidableEq α] (l : List α) : (distinct l).length ≤ l.length := by
  induction l with
  | nil => simp [distinct]
  | cons b l ih =>
    simp only [distinct, List.length_cons]
    have := List.length_filter_le (fun x => decide (x ≠ b)) (distinct l)
    omega

/-! ### Words -/

theorem GoodWord.storable {w : Word} (h : GoodWord w) : Storable w := by
  refine ⟨h.nonempty, h.noNul, ?_⟩
  obtain ⟨c, hc⟩ := h.wellFormed
  intro l hl
  cases hc with
  | nil => simp at hl
  | bmp hu _ =>
    simp only [List.head?_cons, Option.some.injEq] at hl
    subst hl
    rw [← Bool.not_eq_true, isLowSurrogate_iff]; omega
  | pair h1 h2 _ _ _ =>
    simp only [List.head?_cons, Option.some.injEq] at hl
    subst hl
    rw [← Bool.not_eq_true, isLowSurrogate_iff]; omega

theorem GoodWord.readable [Build] {w : Word} (h : GoodWord w) : Readable w := readable_utf16 h.wellFormed h.noBlank

/-- What the letter-array constructor makes it makes again when the word is read back from storage. -/
theorem readable_ofLetters [Build] {letters : List Letter} {w : Word} (h : Word.ofLetters letters = .ok w) : Readable w := by
  rw [Readable, Word.ofLetters]
  rw [Word.ofLetters] at h
  simp only [List.getLast?_append, List.getLast?_singleton, Option.some_or, if_true, List.dropLast_concat]
  generalize letters.getLast? = q at h
  cases q with
  | none => cases h
  | some last =>
    dsimp only at h
    generalize (if last = 0#16 then letters.dropLast else letters) = text at h
    by_cases hs : hasWhitespace text = true
    · rw [if_pos hs] at h; cases h
    · rw [if_neg hs] at h
      cases hb : hasBrokenSurrogates text with
      | error f => rw [hb] at h; cases h
      | ok b =>
        rw [hb] at h
        cases b with
        | true => cases h
        | false =>
          have : text = w := by injection h
          subst this
          rw [if_neg hs, hb]; rfl

/-- No constructor makes a word that starts with a low surrogate. -/
theorem readable_start [Build] {w : Word} (h : Readable w) : ∀ l, w.head? = some l → isLowSurrogate l = false := by
  intro l hl
  cases w with
  | nil => cases hl
  | cons a r =>
    simp only [List.head?_cons, Option.some.injEq] at hl
    subst hl
    by_contra hc
    rw [Bool.not_eq_false] at hc
    rw [Readable, Word.ofLetters] at h
    simp only [List.getLast?_append, List.getLast?_singleton, Option.some_or, if_true, List.dropLast_concat] at h
    have hh : isHighSurrogate a = false := by
      rw [isLowSurrogate_iff] at hc
      rw [← Bool.not_eq_true, isHighSurrogate_iff]; omega
    split at h
    · cases h
    · have e : hasBrokenSurrogates (a :: r) = .ok true := by
        rw [hasBrokenSurrogates, brokenLoop]
        simp [isSurrogate, hc, hh]
      rw [e] at h
      cases h

theorem goodWord_ofUtf8 [Build] [Icu] {s : Bytes} {w : Word} (h0 : 0 ∉ s) (hne : s ≠ []) (h : Word.ofUtf8 s = .ok w) :
    GoodWord w := by
  obtain ⟨c, hc, hb, _⟩ := ofUtf8_lettersOf h
  obtain ⟨_, d, hd, rfl⟩ := (ofUtf8_ok_iff _ _).1 h
  refine ⟨?_, ⟨c, hc⟩, hb, nonzero_lettersOf hd h0⟩
  intro he
  have := lettersOf_lowerCp hd
  rw [he] at this
  generalize hq : d.map lowerCp = q at this
  cases this
  rw [List.map_eq_nil_iff] at hq
  subst hq
  cases hd
  exact hne rfl

/-! ### The store -/

/-- The store holds exactly the words `ws`, with their positions as identifiers. -/
structure SInv (s : WordStore) (g : Ghost) (ws : List Word) : Prop where
  trie : TInv s.words g
  len : s.wordIndex.length = ws.length
  nodup : ws.Nodup
  node : ∀ i w, ws[i]? = some w → ∃ k, k < g.n ∧ g.path k = w ∧ g.word k = i ∧ s.wordIndex[i]? = some (addr k)
  back : ∀ k, k < g.n → g.word k ≠ INVALID_WORDID → ws[g.word k]? = some (g.path k)
  pre : ∀ k, 1 ≤ k → k < g.n → ∃ w ∈ ws, g.path k <+: w

theorem SInv.len_le {s : WordStore} {g : Ghost} {ws : List Word} (h : SInv s g ws) : ws.length ≤ g.n := by
  have hsub : List.range ws.length ⊆ (List.range g.n).map g.word := by
    intro i hi
    rw [List.mem_range] at hi
    obtain ⟨k, hk, _, hw, _⟩ := h.node i ws[i] (List.getElem?_eq_getElem hi)
    exact List.mem_map.2 ⟨k, List.mem_range.2 hk, hw⟩
  have := (List.subperm_of_subset List.nodup_range hsub).length_le
  simpa using this

theorem SInv.has {s : WordStore} {g : Ghost} {ws : List Word} (h : SInv s g ws) (w : Word) (i : Nat) :
    g.Has w i ↔ ws[i]? = some w := by
  constructor
  · rintro ⟨k, hk, hp, hw, hne⟩
    have := h.back k hk (by rw [hw]; exact hne)
    rw [hw, hp] at this; exact this
  · intro hi
    obtain ⟨k, hk, hp, hw, _⟩ := h.node i w hi
    refine ⟨k, hk, hp, hw, ?_⟩
    have h1 := h.len_le
    have h2 := h.trie.bound
    have h3 : i < ws.length := by
      rw [List.getElem?_eq_some_iff] at hi; exact hi.1
    show i ≠ 4294967295
    omega

theorem SInv.getID_old [Build] {s : WordStore} {g : Ghost} {ws : List Word} (h : SInv s g ws) {w : Word}
    (hw : ∀ l ∈ w, l ≠ 0#16) {i : Nat} (hi : ws[i]? = some w) : s.getID w = .ok (s, i) := by
  have hh := (h.has w i).2 hi
  obtain ⟨b, e, hb⟩ := hasWord_spec h.trie w hw
  have : b = true := hb.2 ⟨i, hh⟩
  subst this
  obtain ⟨a, e1, _, e2⟩ := findWord_has h.trie w hw hh
  rw [WordStore.getID, e]
  simp only [ok_bind, if_true, e1, e2]

theorem SInv.getID_new [Build] {s : WordStore} {g : Ghost} {ws : List Word} (h : SInv s g ws) {w : Word}
    (hw : Storable w) (hnew : w ∉ ws) :
    (s.getID w = .error .runtimeError ∧ Trie.Refusal s.words (4 + 32 * (g.n + w.length))) ∨
    ∃ s' g', s.getID w = .ok (s', ws.length) ∧ SInv s' g' (ws ++ [w]) ∧ g'.n ≤ g.n + w.length ∧
      s'.words.os = s.words.os ∧ s.words.mapped ≤ s'.words.mapped := by
  have hl := h.len_le
  have hb := h.trie.bound
  have hnot : ∀ i, ¬ g.Has w i := by
    intro i hi
    exact hnew (List.mem_of_getElem? ((h.has w i).1 hi))
  obtain ⟨b, e, hbb⟩ := hasWord_spec h.trie w hw.2.1
  have : b = false := by
    cases b with
    | false => rfl
    | true => obtain ⟨i, hi⟩ := hbb.1 rfl; exact absurd hi (hnot i)
  subst this
  have hmod : s.wordIndex.length % 2^32 = ws.length := by rw [h.len]; omega
  have hid : ws.length < INVALID_WORDID := by
    show ws.length < 4294967295
    omega
  rw [WordStore.getID, e]
  simp only [ok_bind, Bool.false_eq_true, if_false, hmod]
  rcases insertWord_spec h.trie hw hid (fun i hi => absurd hi (hnot i)) with
    ⟨e, hr⟩ | ⟨t', g', k, e, h', hins, hos, hm⟩
  · left; rw [e]; exact ⟨rfl, hr⟩
  · right
    rw [e]
    simp only [ok_bind]
    refine ⟨⟨t', s.wordIndex ++ [addr k]⟩, g', ?_, ?_, hins.n_le', hos, hm⟩
    · congr 2
      simp only [List.length_append, List.length_singleton, Nat.add_sub_cancel]
      exact hmod
    · have hle := hins.n_le
      constructor
      · exact h'
      · simp [h.len]
      · rw [List.nodup_append]
        refine ⟨h.nodup, by simp, ?_⟩
        intro a ha b hb
        simp only [List.mem_singleton] at hb
        subst hb
        rintro rfl; exact hnew ha
      · intro i v hi
        rcases Nat.lt_or_ge i ws.length with hlt | hge
        · rw [List.getElem?_append_left hlt] at hi
          obtain ⟨j, hj, hp, hwj, hx⟩ := h.node i v hi
          have hjk : j ≠ k := by
            rintro rfl
            have := hins.path_k
            rw [hins.path j hj, hp] at this
            subst this
            exact hnew (List.mem_of_getElem? hi)
          refine ⟨j, by omega, by rw [hins.path j hj]; exact hp, by rw [hins.word j hj hjk]; exact hwj, ?_⟩
          rw [List.getElem?_append_left (by rw [h.len]; exact hlt)]; exact hx
        · rw [List.getElem?_append_right hge] at hi
          have hi0 : i - ws.length = 0 := by
            have := List.getElem?_eq_some_iff.1 hi
            simpa using this.1
          rw [hi0] at hi
          simp only [List.getElem?_cons_zero, Option.some.injEq] at hi
          subst hi
          refine ⟨k, hins.lt, hins.path_k, by rw [hins.word_k]; omega, ?_⟩
          rw [List.getElem?_append_right (by rw [h.len]; exact hge), h.len, hi0]; rfl
      · intro j hj hne
        have hh : g'.Has (g'.path j) (g'.word j) := ⟨j, hj, rfl, rfl, hne⟩
        rw [hins.has h' (Nat.ne_of_lt hid)] at hh
        rcases hh with ⟨h1, h2⟩ | ⟨h1, h2⟩
        · rw [h1, h2]; simp
        · have := (h.has _ _).1 h2
          rw [List.getElem?_append_left]
          · exact this
          · rw [List.getElem?_eq_some_iff] at this; exact this.1
      · intro j h1 hj
        rcases Nat.lt_or_ge j g.n with hlt | hge
        · obtain ⟨v, hv, hp⟩ := h.pre j h1 hlt
          exact ⟨v, List.mem_append_left _ hv, by rw [hins.path j hlt]; exact hp⟩
        · obtain ⟨_, r, _, hr, hp⟩ := hins.new j hge hj
          exact ⟨w, by simp, by rw [hp]; exact hr⟩

theorem SInv.getWord [Build] {s : WordStore} {g : Ghost} {ws : List Word} (h : SInv s g ws) {i : Nat} {w : Word}
    (hi : ws[i]? = some w) (hr : Readable w) : s.getWord i = .ok w := by
  obtain ⟨k, hk, hp, hw, hx⟩ := h.node i w hi
  have hlt : i < s.wordIndex.length := by rw [List.getElem?_eq_some_iff] at hx; exact hx.1
  rw [WordStore.getWord, WordStore.hasWordID]
  simp only [hlt, decide_true, Bool.true_eq_false, if_false, hx]
  subst hp
  exact getWord_spec h.trie hk hr

theorem SInv.getWord_bad [Build] {s : WordStore} {g : Ghost} {ws : List Word} (h : SInv s g ws) {i : Nat}
    (hi : ws.length ≤ i) : s.getWord i = .error .outOfRange := by
  have : ¬ i < s.wordIndex.length := by rw [h.len]; omega
  rw [WordStore.getWord, WordStore.hasWordID]
  simp [this]

theorem SInv.hasWord {s : WordStore} {g : Ghost} {ws : List Word} (h : SInv s g ws) {w : Word}
    (hw : ∀ l ∈ w, l ≠ 0#16) : s.hasWord w = .ok (decide (w ∈ ws)) := by
  obtain ⟨b, e, hb⟩ := hasWord_spec h.trie w hw
  rw [WordStore.hasWord, e]
  congr 1
  rw [Bool.eq_iff_iff, hb, decide_eq_true_eq, List.mem_iff_getElem?]
  exact exists_congr fun i => h.has w i

theorem SInv.new [Build] (os : Nat → Bool) :
    (os 1024 = false ∧ WordStore.new os = .error .runtimeError) ∨
    ∃ s, WordStore.new os = .ok s ∧ SInv s Ghost.init [] ∧ s.words.os = os ∧ 1024 ≤ s.words.mapped := by
  rcases new_spec os with ⟨h1, h2⟩ | ⟨t, e, h, hos, hm⟩
  · left; exact ⟨h1, by rw [WordStore.new, h2]; rfl⟩
  · right
    refine ⟨⟨t, []⟩, by rw [WordStore.new, e]; rfl, ⟨h, rfl, by simp, by simp, ?_, ?_⟩, hos, hm⟩
    · intro k _ hk; exact absurd rfl hk
    · intro k h1 h2
      have : Ghost.init.n = 1 := rfl
      omega

end Columbus
