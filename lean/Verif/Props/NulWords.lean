import Verif.Props.Store
import Verif.Props.Levenshtein
import Verif.Proofs.NulWords
/-
C14, C15, C17: words with NUL letters. The properties are false of them (C14_false, C15_false, C17_false); here is what the
code does instead.
-/

namespace Columbus.Props
open Columbus Spec

/-- A word that a constructor makes in this build, with a NUL letter at the end and nowhere else. -/
def Marked [Build] (w : Word) : Prop :=
  (∃ letters, Word.ofLetters letters = .ok w) ∧ ∃ u, (∀ l ∈ u, l ≠ 0#16) ∧ w = u ++ [0#16]

theorem Marked.ne_nil [Build] {w : Word} (h : Marked w) : w ≠ [] := by
  obtain ⟨_, u, _, rfl⟩ := h; simp

theorem Marked.nul_mem [Build] {w : Word} (h : Marked w) : 0#16 ∈ w := by
  obtain ⟨_, u, _, rfl⟩ := h; simp

/-- The part before a NUL letter starts like the word does. -/
theorem head_of_append [Build] {u v : Word} (h : ∃ letters, Word.ofLetters letters = .ok (u ++ v)) :
    ∀ l, u.head? = some l → isLowSurrogate l = false := by
  obtain ⟨_, h⟩ := h
  intro l hl
  apply readable_start (readable_ofLetters h)
  cases u with
  | nil => cases hl
  | cons a u => exact hl

theorem runIDs_nul [Build] (hb : Build.asserts = false) : ∀ (ws : List Word) (s : WordStore) (g : Ghost) (es : Entries),
    (∀ w ∈ ws, Plain w ∨ Marked w) → NInv s g es → some [] ∉ es → es.length + ws.length ≤ INVALID_WORDID →
    (runIDs s ws = .error .runtimeError ∧ Trie.Refusal s.words (4 + 32 * (g.n + (ws.map List.length).sum))) ∨
    ∃ s' g', runIDs s ws = .ok (s', es.answers ws) ∧ NInv s' g' (es.after ws) ∧ some [] ∉ es.after ws := by
  intro ws
  induction ws with
  | nil => intro s g es _ h h0 _; right; exact ⟨s, g, rfl, h, h0⟩
  | cons w ws ih =>
    intro s g es hw h h0 hlen
    rw [List.length_cons] at hlen
    have hw' : ∀ v ∈ ws, Plain v ∨ Marked v := fun v hv => hw v (by simp [hv])
    have step : ∀ (s1 : WordStore) (g1 : Ghost) (i : WordID), s.getID w = .ok (s1, i) → es.answer w = some i →
        NInv s1 g1 (es.enter w) → some [] ∉ es.enter w → (es.enter w).length ≤ es.length + 1 → g1.n ≤ g.n + w.length →
        s1.words.os = s.words.os → s.words.mapped ≤ s1.words.mapped →
        (runIDs s (w :: ws) = .error .runtimeError ∧
          Trie.Refusal s.words (4 + 32 * (g.n + ((w :: ws).map List.length).sum))) ∨
        ∃ s' g', runIDs s (w :: ws) = .ok (s', es.answers (w :: ws)) ∧ NInv s' g' (es.after (w :: ws)) ∧
          some [] ∉ es.after (w :: ws) := by
      intro s1 g1 i e ha h1 h2 h3 hn hos hm
      rcases ih s1 g1 (es.enter w) hw' h1 h2 (by omega) with ⟨e1, hr⟩ | ⟨s', g', e1, h', h0'⟩
      · left
        refine ⟨by rw [runIDs, e]; simp only [e1, error_bind], hr.mono hos hm ?_⟩
        simp only [List.map_cons, List.sum_cons]; omega
      · right
        exact ⟨s', g', by rw [runIDs, e, Entries.answers, ha]; simp only [ok_bind, e1], h', h0'⟩
    rcases hw w (by simp) with hp | hm
    · have hn0 : 0#16 ∉ w := fun hc => hp.2 _ hc rfl
      by_cases hne : w = []
      · subst hne
        have e : s.getID [] = .error .outOfRange := by
          rw [WordStore.getID, h.hasWord (by simp), decide_eq_false h0]; rfl
        have he : es.enter [] = es := by simp [Entries.enter]
        rcases ih s g es hw' h h0 (by omega) with ⟨e1, hr⟩ | ⟨s', g', e1, h', h0'⟩
        · left
          refine ⟨by rw [runIDs, e]; simp only [e1, error_bind], hr.mono rfl (Nat.le_refl _) ?_⟩
          simp only [List.map_cons, List.sum_cons]; omega
        · right
          refine ⟨s', g', ?_, ?_, ?_⟩
          · rw [runIDs, e, Entries.answers, he]; simp only [ok_bind, e1]; simp [Entries.answer]
          · rw [Entries.after, List.foldl_cons, he]; exact h'
          · rw [Entries.after, List.foldl_cons, he]; exact h0'
      · by_cases hmem : some w ∈ es
        · have he : es.enter w = es := by simp [Entries.enter, hn0, hmem]
          exact step s g _ (h.getID_old hp.2 hmem) (by simp [Entries.answer, hne, hn0, he]) (by rw [he]; exact h)
            (by rw [he]; exact h0) (by rw [he]; omega) (by omega) rfl (Nat.le_refl _)
        · have he : es.enter w = es ++ [some w] := by simp [Entries.enter, hne, hn0, hmem]
          have hi : List.idxOf (some w) (es ++ [some w]) = es.length := by
            rw [List.idxOf_append_of_notMem hmem]; simp
          rcases h.getID_new (by omega) (hp.storable hne) hmem with ⟨e, hr⟩ | ⟨s1, g1, e, h1, hn, hos, hm⟩
          · left
            refine ⟨by rw [runIDs, e], hr.mono rfl (Nat.le_refl _) ?_⟩
            simp only [List.map_cons, List.sum_cons]; omega
          · exact step s1 g1 _ e (by simp [Entries.answer, hne, hn0, he, hi]) (by rw [he]; exact h1)
              (by rw [he]; simp [h0]; exact hne) (by rw [he]; simp) hn hos hm
    · have hne := hm.ne_nil
      have h0w := hm.nul_mem
      obtain ⟨hc, u, hu, rfl⟩ := hm
      have he : es.enter (u ++ [0#16]) = es ++ [none] := by simp [Entries.enter]
      rcases h.getID_nul hb (by omega) hu (head_of_append hc) with ⟨e, hr⟩ | ⟨s1, g1, e, h1, hn, hos, hm⟩
      · left
        refine ⟨by rw [runIDs, e], hr.mono rfl (Nat.le_refl _) ?_⟩
        simp only [List.map_cons, List.sum_cons, List.length_append, List.length_singleton]; omega
      · exact step s1 g1 _ e (by simp [Entries.answer]) (by rw [he]; exact h1) (by rw [he]; simp [h0]) (by rw [he]; simp)
          (by rw [List.length_append]; omega) hos hm

/-! ### C14 -/

/-- C14 for words with NUL letters, after any history of NUL-free words, in either build. A probe whose only NUL letter is
the last one is not found, which is right. A probe with letters after the first NUL letter is not found either if nothing
stored begins like it; otherwise the lookup reads outside the mapping, unless the letter after the NUL happens to be the
number of words modulo 2^16. Missing from the full claim: an answer there. -/
theorem C14_nul_partial [Build] (os : Nat → Bool) (ws : List Word) (hw : ∀ w ∈ ws, Plain w) (s0 s : WordStore)
    (ids : List (Option WordID)) (h0 : WordStore.new os = .ok s0) (h : runIDs s0 ws = .ok (s, ids)) (u : Word)
    (hu : ∀ l ∈ u, l ≠ 0#16) :
    s.hasWord (u ++ [0#16]) = .ok false ∧
    ∀ (l : Letter) (r : Word), l ≠ BitVec.ofNat 16 (dictionary ws).length →
      s.hasWord (u ++ 0#16 :: l :: r) = if u = [] ∨ ∃ w ∈ ws, u <+: w then .error .ub else .ok false := by
  obtain ⟨⟨g, hinv⟩, _⟩ := runIDs_new hw h0 h
  refine ⟨hasWord_nul_end hinv.trie hu, ?_⟩
  intro l r hl
  have hiff : (u = [] ∨ ∃ w ∈ ws, u <+: w) ↔ ∃ j, j < g.n ∧ g.path j = u := by
    rw [hinv.path_iff]
    constructor
    · rintro (h | ⟨w, hw1, hp⟩)
      · exact Or.inl h
      · by_cases hne : w = []
        · subst hne; exact Or.inl (List.prefix_nil.1 hp)
        · exact Or.inr ⟨w, mem_dictionary.2 ⟨hw1, hne⟩, hp⟩
    · rintro (h | ⟨w, hw1, hp⟩)
      · exact Or.inl h
      · exact Or.inr ⟨w, (mem_dictionary.1 hw1).1, hp⟩
  rcases hasWord_nul_inside hinv.trie (hinv.word0 (nil_notMem_dictionary ws)) hu (by rw [hinv.count]; exact hl) r with
    ⟨h1, e⟩ | ⟨h1, e⟩
  · rw [if_pos (hiff.2 h1)]; exact e
  · rw [if_neg (fun hc => by obtain ⟨j, hj, hp⟩ := hiff.1 hc; exact h1 j hj hp)]; exact e

/-! ### C15 -/

/-- C15 for histories with words that end in a NUL letter, in a release build: every call returns or is refused, and this
is what it returns. Such a word is given a new identifier at every call. The entry of that identifier reads as the empty
word. The word is never found. Words without NUL letters are served as if the others had not been there, except that their
identifiers count them. Missing from the full claim: words with letters after a NUL letter, see C15_nul_inside. -/
theorem C15_nul_partial [Build] (hb : Build.asserts = false) (os : Nat → Bool) (ws : List Word)
    (hw : ∀ w ∈ ws, Plain w ∨ Marked w) (hlen : ws.length < 2^32) (s0 : WordStore) (h0 : WordStore.new os = .ok s0) :
    (runIDs s0 ws = .error .runtimeError ∧ ((∃ n, os n = false) ∨ 2^31 ≤ 36 + 32 * (ws.map List.length).sum)) ∨
    ∃ s, runIDs s0 ws = .ok (s, Entries.answers [] ws) ∧
      (∀ i : Nat, (Entries.after [] ws).length ≤ i → s.getWord i = .error .outOfRange) ∧
      (∀ i : Nat, (Entries.after [] ws)[i]? = some none → s.getWord i = .ok []) ∧
      (∀ (i : Nat) w, (Entries.after [] ws)[i]? = some (some w) → s.getWord i = .ok w) ∧
      (∀ w, Plain w → s.hasWord w = .ok (decide (w ∈ ws ∧ w ≠ []))) ∧
      ∀ w, Marked w → s.hasWord w = .ok false := by
  rcases NInv.of_new (os := os) with ⟨_, e⟩ | ⟨s1, e, hi, hos, hm⟩
  · rw [e] at h0; cases h0
  rw [e] at h0
  cases h0
  have hmem : ∀ (ws : List Word) (es : Entries) (w : Word), 0#16 ∉ w → (some w ∈ es.after ws ↔ some w ∈ es ∨ (w ∈ ws ∧ w ≠ [])) := by
    intro ws
    induction ws with
    | nil => intro es w _; simp [Entries.after]
    | cons v ws ih =>
      intro es w h0
      rw [Entries.after, List.foldl_cons]
      change some w ∈ (es.enter v).after ws ↔ _
      rw [ih _ _ h0]
      have : some w ∈ es.enter v ↔ some w ∈ es ∨ (w = v ∧ w ≠ []) := by
        rw [Entries.enter]
        split
        · next h => subst h; simp
        split
        · next h =>
          have : w ≠ v := fun hc => h0 (hc ▸ h)
          simp [this]
        split
        · next h =>
          constructor
          · exact Or.inl
          · rintro (h1 | ⟨rfl, _⟩)
            · exact h1
            · exact h
        · next h _ _ =>
          simp only [List.mem_append, List.mem_singleton, Option.some.injEq]
          constructor
          · rintro (h1 | rfl)
            · exact Or.inl h1
            · exact Or.inr ⟨rfl, h⟩
          · rintro (h1 | ⟨rfl, _⟩)
            · exact Or.inl h1
            · exact Or.inr rfl
      rw [this, List.mem_cons]
      tauto
  have hlen' : ([] : Entries).length + ws.length ≤ INVALID_WORDID := by
    have : INVALID_WORDID = 2^32 - 1 := by decide
    rw [this, List.length_nil]; omega
  rcases runIDs_nul hb ws s0 _ [] hw hi (by simp) hlen' with ⟨e1, hr⟩ | ⟨s, g, e1, h, hne⟩
  · left
    refine ⟨e1, ?_⟩
    have hn : Ghost.init.n = 1 := rfl
    rw [hn] at hr
    rcases hr with hr | ⟨sz, _, _, _, _, h4⟩
    · right; omega
    · left; rw [hos] at h4; exact ⟨_, h4⟩
  · right
    refine ⟨s, e1, ?_, fun i hi => h.getWord_nul hi, ?_, ?_, ?_⟩
    · intro i hi
      rw [WordStore.getWord, WordStore.hasWordID, h.len]
      simp [hi]
    · intro i w hiw
      have hm := List.mem_of_getElem? hiw
      have hplain : Plain w := by
        have hnn : 0#16 ∉ w := by
          obtain ⟨k, hk, hp, _⟩ := h.idx i w hiw
          intro hc
          rw [← hp] at hc
          exact h.trie.path_ne_zero hk hc
        have := (hmem ws [] w hnn).1 hm
        rcases hw w (this.resolve_left (by simp)).1 with hp | hp
        · exact hp
        · exact absurd hp.nul_mem hnn
      exact h.getWord hiw (readable_ofLetters hplain.1.choose_spec)
    · intro w hp
      have := hmem ws [] w (fun hc => hp.2 _ hc rfl)
      rw [WordStore.hasWord, h.hasWord hp.2]
      congr 1
      rw [decide_eq_decide, this]; simp
    · rintro w ⟨_, u, hu, rfl⟩
      exact hasWord_nul_end h.trie hu

/-- C15 in a debug build: after any history of NUL-free words, `getID` of a word that ends in its only NUL letter fails an
assertion or is refused. -/
theorem C15_nul_debug [Build] (hb : Build.asserts = true) (os : Nat → Bool) (ws : List Word) (hw : ∀ w ∈ ws, Plain w)
    (s0 s : WordStore) (ids : List (Option WordID)) (h0 : WordStore.new os = .ok s0) (h : runIDs s0 ws = .ok (s, ids))
    (w : Word) (hm : Marked w) : s.getID w = .error .assertion ∨ s.getID w = .error .runtimeError := by
  obtain ⟨⟨g, hinv⟩, _⟩ := runIDs_new hw h0 h
  obtain ⟨hc, u, hu, rfl⟩ := hm
  have h1 := hinv.len_le
  have h2 := hinv.trie.bound
  have hlt : (dictionary ws).length < 2^32 := by omega
  rw [WordStore.getID, hasWord_nul_end hinv.trie hu, hinv.len]
  simp only [ok_bind, Bool.false_eq_true, if_false, Nat.mod_eq_of_lt hlt]
  rcases insertWord_nul_end hinv.trie hu (head_of_append hc) hlt with ⟨e, _⟩ | ⟨t', g', e, h', hext, _, _, _, hmm⟩
  · right; rw [e]; rfl
  · left
    have hne : t'.mapped ≠ (dictionary ws).length := by omega
    rw [e, cassert, hb]
    simp [hne]

/-- C15, both builds: after any history of NUL-free words, `getID` of a word with letters after its first NUL letter reads
outside the mapping or is refused, whatever precedes the NUL letter, unless the letter after it happens to be the number of
words modulo 2^16. -/
theorem C15_nul_inside [Build] (os : Nat → Bool) (ws : List Word) (hw : ∀ w ∈ ws, Plain w) (s0 s : WordStore)
    (ids : List (Option WordID)) (h0 : WordStore.new os = .ok s0) (h : runIDs s0 ws = .ok (s, ids)) (u : Word)
    (hu : ∀ l ∈ u, l ≠ 0#16) (l : Letter) (r : Word) (hc : ∃ letters, Word.ofLetters letters = .ok (u ++ 0#16 :: l :: r))
    (hl : l ≠ BitVec.ofNat 16 (dictionary ws).length) :
    s.getID (u ++ 0#16 :: l :: r) = .error .ub ∨ s.getID (u ++ 0#16 :: l :: r) = .error .runtimeError := by
  obtain ⟨⟨g, hinv⟩, _⟩ := runIDs_new hw h0 h
  have hr := hinv.word0 (nil_notMem_dictionary ws)
  rw [← hinv.count] at hl
  rw [WordStore.getID]
  rcases hasWord_nul_inside hinv.trie hr hu hl r with ⟨_, e⟩ | ⟨_, e⟩
  · left; rw [e]; rfl
  · rw [e]
    simp only [ok_bind, Bool.false_eq_true, if_false]
    rcases insertWord_nul_inside hinv.trie hr hu (head_of_append hc) hl r (s.wordIndex.length % 2^32) with ⟨e, _⟩ | e
    · right; rw [e]; rfl
    · left; rw [e]; rfl

/-! ### C17 -/

/-- C17 for probes with NUL letters, as C14_nul_partial. -/
theorem C17_nul_partial [Build] (os : Nat → Bool) (h : IndexHistory) (ix : LevIndex) (ho : IndexHistory.Ok h)
    (hb : built os h = .ok ix) (n : Nat) (hn : ix.numWords = .ok n) (u : Word) (hu : ∀ l ∈ u, l ≠ 0#16) :
    ix.hasWord (u ++ [0#16]) = .ok false ∧
    ∀ (l : Letter) (r : Word), l ≠ BitVec.ofNat 16 n →
      ix.hasWord (u ++ 0#16 :: l :: r) = if u = [] ∨ ∃ p ∈ h, u <+: p.1 then .error .ub else .ok false := by
  obtain ⟨g, hi⟩ := built_inv ho hb
  refine ⟨hasWord_nul_end hi.tinv hu, ?_⟩
  intro l r hl
  have hroot : g.word 0 = INVALID_WORDID := by
    by_contra hc
    exact ((hi.has [] (g.word 0)).1 ⟨0, hi.tinv.pos, hi.tinv.path0, rfl, hc⟩).1 rfl
  have hcnt : g.count = n := by
    rw [LevIndex.numWords, numWords_spec hi.tinv] at hn
    exact Except.ok.inj hn
  have hiff : (u = [] ∨ ∃ p ∈ h, u <+: p.1) ↔ ∃ j, j < g.n ∧ g.path j = u := by
    constructor
    · rintro (rfl | ⟨p, hp, hpre⟩)
      · exact ⟨0, hi.tinv.pos, hi.tinv.path0⟩
      · by_cases hne : p.1 = []
        · rw [hne] at hpre
          exact ⟨0, hi.tinv.pos, by rw [hi.tinv.path0, List.prefix_nil.1 hpre]⟩
        · obtain ⟨k, hk, hpk, _⟩ := (hi.has p.1 p.2).2 ⟨hne, hp⟩
          obtain ⟨j, hj, e⟩ := hi.tinv.prefix_path k hk u (by rw [hpk]; exact hpre)
          exact ⟨j, by omega, e⟩
    · rintro ⟨j, hj, rfl⟩
      rcases Nat.eq_zero_or_pos j with rfl | h1
      · left; exact hi.tinv.path0
      · right; exact hi.pre j h1 hj
  rcases hasWord_nul_inside hi.tinv hroot hu (by rw [hcnt]; exact hl) r with ⟨h1, e⟩ | ⟨h1, e⟩
  · rw [if_pos (hiff.2 h1)]; exact e
  · rw [if_neg (fun hc => by obtain ⟨j, hj, hp⟩ := hiff.1 hc; exact h1 j hj hp)]; exact e

/-- C17: inserting a word that ends in its only NUL letter into an index. In a release build it changes the answer to no
lookup, its own included; in a debug build it fails an assertion, for identifiers below the size of the first mapping. -/
theorem C17_nul_insert [Build] (os : Nat → Bool) (h : IndexHistory) (ix : LevIndex) (ho : IndexHistory.Ok h)
    (hb : built os h = .ok ix) (w : Word) (hm : Marked w) (i : Nat) (hi : i < 1024) :
    ix.insertWord w i = .error .runtimeError ∨
    (Build.asserts = true ∧ ix.insertWord w i = .error .assertion) ∨
    ∃ ix', Build.asserts = false ∧ ix.insertWord w i = .ok ix' ∧ ix'.hasWord w = .ok false ∧
      ∀ v : Word, (∀ l ∈ v, l ≠ 0#16) → ix'.hasWord v = ix.hasWord v := by
  obtain ⟨g, hinv⟩ := built_inv ho hb
  have hne := hm.ne_nil
  obtain ⟨hc, u, hu, rfl⟩ := hm
  rw [LevIndex.insertWord, if_neg (by simp)]
  rcases insertWord_nul_end hinv.tinv hu (head_of_append hc) (Nat.lt_trans hi (by decide) : i < 2^32) with
    ⟨e, _⟩ | ⟨t', g', e, h', hext, hnew, _, _, hmm⟩
  · left; rw [e]; rfl
  · right
    have hmi : t'.mapped ≠ i := by
      have := h'.hdr.size.bounds.1
      omega
    cases hbb : Build.asserts
    · right
      rw [e, cassert_release hbb]
      refine ⟨_, rfl, rfl, ?_, ?_⟩
      · exact hasWord_nul_end h' hu
      · intro v hv
        obtain ⟨b, e1, hb1⟩ := hasWord_spec h' v hv
        obtain ⟨b', e2, hb2⟩ := hasWord_spec hinv.tinv v hv
        rw [LevIndex.hasWord, LevIndex.hasWord, e2]
        change t'.hasWord v = _
        rw [e1]
        congr 1
        rw [Bool.eq_iff_iff, hb1, hb2]
        exact exists_congr fun j => hext.has hnew v j
    · left
      refine ⟨rfl, ?_⟩
      rw [e, cassert, hbb]
      simp [hmi]

/-! ### Concrete cases -/

/-- The words "ab", "a" with a NUL letter, "ab", "a" with a NUL letter again, and "a": five calls, four entries. -/
example : Entries.answers [] [[0x61#16, 0x62#16], [0x61#16, 0#16], [0x61#16, 0x62#16], [0x61#16, 0#16], [0x61#16]] =
      [some 0, some 1, some 0, some 2, some 3] ∧
    Entries.after [] [[0x61#16, 0x62#16], [0x61#16, 0#16], [0x61#16, 0x62#16], [0x61#16, 0#16], [0x61#16]] =
      [some [0x61#16, 0x62#16], none, none, some [0x61#16]] := by decide +kernel

/-- These words meet the hypotheses of C15_nul_partial. -/
example : ∀ w ∈ [[0x61#16, 0x62#16], [0x61#16, 0#16], [0x61#16]], @Plain Example.release w ∨ @Marked Example.release w := by
  intro w hw
  simp only [List.mem_cons, List.not_mem_nil, or_false] at hw
  rcases hw with rfl | rfl | rfl
  · exact Or.inl ⟨⟨[0x61#16, 0x62#16], by decide +kernel⟩, by simp⟩
  · exact Or.inr ⟨⟨[0x61#16, 0#16, 0#16], by decide +kernel⟩, [0x61#16], by simp, rfl⟩
  · exact Or.inl ⟨⟨[0x61#16], by decide +kernel⟩, by simp⟩

/-- After "ab", the word "a", NUL, "c": the lookup leaves the mapping. "b", NUL, "c" is not found. -/
example : (do let s ← @WordStore.new Example.debug (fun _ => true)
              let (s, _) ← @WordStore.getID Example.debug s [0x61#16, 0x62#16]
              s.hasWord [0x61#16, 0#16, 0x63#16]) = .error .ub ∧
    (do let s ← @WordStore.new Example.debug (fun _ => true)
        let (s, _) ← @WordStore.getID Example.debug s [0x61#16, 0x62#16]
        s.hasWord [0x62#16, 0#16, 0x63#16]) = .ok false ∧
    (0x63#16 ≠ BitVec.ofNat 16 (dictionary [[0x61#16, 0x62#16]]).length) := by
  refine ⟨rfl, rfl, by decide⟩

/-- In a debug build "a" with a NUL letter can be made, and the store of "ab" fails an assertion on it. -/
example : @Marked Example.debug [0x61#16, 0#16] ∧
    (do let s ← @WordStore.new Example.debug (fun _ => true)
        let (s, _) ← @WordStore.getID Example.debug s [0x61#16, 0x62#16]
        let (_, i) ← @WordStore.getID Example.debug s [0x61#16, 0#16]
        .ok i) = .error .assertion := by
  refine ⟨⟨⟨[0x61#16, 0#16, 0#16], by decide +kernel⟩, [0x61#16], by simp, rfl⟩, rfl⟩

/-- The word "c", NUL, "d" can be made; storing it after "ab" leaves the mapping. -/
example : @Word.ofLetters Example.release [0x63#16, 0#16, 0x64#16] = .ok [0x63#16, 0#16, 0x64#16] ∧
    (do let s ← @WordStore.new Example.release (fun _ => true)
        let (s, _) ← @WordStore.getID Example.release s [0x61#16, 0x62#16]
        let (_, i) ← @WordStore.getID Example.release s [0x63#16, 0#16, 0x64#16]
        .ok i) = .error .ub := by
  refine ⟨by decide +kernel, rfl⟩

/-- An index of "ab" in a release build: it has one word, "a", NUL, "c" leaves the mapping, and "a" with a NUL can be inserted
without effect on lookups. -/
example : (do let ix ← @built Example.release (fun _ => true) [([0x61#16, 0x62#16], 7)]
              ix.numWords) = .ok 1 ∧
    (do let ix ← @built Example.release (fun _ => true) [([0x61#16, 0x62#16], 7)]
        ix.hasWord [0x61#16, 0#16, 0x63#16]) = .error .ub ∧
    (do let ix ← @built Example.release (fun _ => true) [([0x61#16, 0x62#16], 7)]
        let ix ← @LevIndex.insertWord Example.release ix [0x61#16, 0#16] 8
        let a ← ix.hasWord [0x61#16, 0x62#16]
        let b ← ix.hasWord [0x61#16]
        let c ← ix.hasWord [0x61#16, 0#16]
        .ok (a, b, c)) = .ok (true, false, false) := by
  refine ⟨rfl, rfl, rfl⟩

end Columbus.Props
