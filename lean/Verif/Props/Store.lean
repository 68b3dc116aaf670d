import Verif.Proofs.Store
import Verif.Props.Example
/-
C12-C16: the word store.
-/

namespace Columbus.Props
open Columbus Spec

/-- A word that a constructor makes in this build, without NUL letters; the empty word is one. -/
def Plain [Build] (w : Word) : Prop := (∃ letters, Word.ofLetters letters = .ok w) ∧ ∀ l ∈ w, l ≠ 0#16

/-- A history: `getID` on each word in turn. The final store and, for each call, the identifier returned or `none` if
`out_of_range` was thrown, which leaves the store as it was; the caller goes on. Anything else ends the history. -/
def runIDs [Build] (s : WordStore) : List Word → M (WordStore × List (Option WordID))
  | [] => .ok (s, [])
  | w :: r => match s.getID w with
    | .ok (s1, i) => do
      let (s2, is) ← runIDs s1 r
      .ok (s2, some i :: is)
    | .error .outOfRange => do
      let (s2, is) ← runIDs s r
      .ok (s2, none :: is)
    | .error f => .error f

/-- The words of a history that are not empty, each once, in order of first use. -/
def dictionary (ws : List Word) : List Word := distinct (ws.filter (· ≠ []))

theorem mem_dictionary {ws : List Word} {w : Word} : w ∈ dictionary ws ↔ w ∈ ws ∧ w ≠ [] := by
  simp [dictionary, mem_distinct]

/-- Words made by the UTF-8 constructor from C strings are plain; the theorems below apply to them. -/
theorem C12_constructed [Build] [Icu] (s : Bytes) (w : Word) (h0 : 0 ∉ s) (h : Word.ofUtf8 s = .ok w) : Plain w := by
  by_cases hne : s = []
  · subst hne
    obtain ⟨_, d, hd, rfl⟩ := (ofUtf8_ok_iff _ _).1 h
    cases hd
    exact ⟨⟨[0#16], rfl⟩, by simp [lettersOf]⟩
  · have hg := goodWord_ofUtf8 h0 hne h
    exact ⟨⟨_, GoodWord.readable hg⟩, hg.noNul⟩

theorem Plain.storable [Build] {w : Word} (h : Plain w) (hne : w ≠ []) : Storable w := by
  obtain ⟨⟨_, h1⟩, h2⟩ := h
  exact ⟨hne, h2, readable_start (readable_ofLetters h1)⟩

theorem SInv.getID_empty [Build] {s : WordStore} {g : Ghost} {ws : List Word} (h : SInv s g ws) (hne : [] ∉ ws) :
    s.getID [] = .error .outOfRange := by
  have e := h.hasWord (w := []) (by simp)
  rw [WordStore.hasWord, decide_eq_false hne] at e
  rw [WordStore.getID, e]; rfl

theorem nil_notMem_dictionary (ws : List Word) : [] ∉ dictionary ws := by simp [mem_dictionary]

/-- What a call on the word `w` is answered with, `none` being `out_of_range`. -/
def answered (ws : List Word) (w : Word) : Option WordID := if w = [] then none else some ((dictionary ws).idxOf w)

theorem runIDs_inv [Build] : ∀ (ws : List Word) (done : List Word) (s : WordStore) (g : Ghost), (∀ w ∈ ws, Plain w) →
    SInv s g (dictionary done) →
    (runIDs s ws = .error .runtimeError ∧ Trie.Refusal s.words (4 + 32 * (g.n + (ws.map List.length).sum))) ∨
    ∃ s' g' ids, runIDs s ws = .ok (s', ids) ∧ SInv s' g' (dictionary (done ++ ws)) ∧
      ids = ws.map (answered (done ++ ws)) := by
  intro ws
  induction ws with
  | nil =>
    intro done s g _ h
    right; exact ⟨s, g, [], rfl, by simpa using h, rfl⟩
  | cons w ws ih =>
    intro done s g hw h
    have hgw := hw w (by simp)
    have e2 : done ++ w :: ws = done ++ [w] ++ ws := by simp
    by_cases hne : w = []
    · subst hne
      have hd : dictionary (done ++ [[]]) = dictionary done := by simp [dictionary]
      have e := SInv.getID_empty h (nil_notMem_dictionary done)
      rcases ih (done ++ [[]]) s g (fun v hv => hw v (by simp [hv])) (by rw [hd]; exact h) with
        ⟨e1, hr⟩ | ⟨s', g', ids, e1, h', hids⟩
      · left
        refine ⟨by rw [runIDs, e]; simp only [e1, error_bind], hr.mono rfl (Nat.le_refl _) ?_⟩
        simp only [List.map_cons, List.sum_cons]; omega
      · right
        refine ⟨s', g', none :: ids, by rw [runIDs, e]; simp only [ok_bind, e1], ?_, ?_⟩
        · rw [e2]; exact h'
        · rw [e2, hids, List.map_cons, answered, if_pos rfl]
    have hfil : ∀ xs, (done ++ [w] ++ xs).filter (· ≠ []) = done.filter (· ≠ []) ++ [w] ++ xs.filter (· ≠ []) := by
      intro xs; simp [hne]
    have hfil0 : (done ++ [w]).filter (· ≠ []) = done.filter (· ≠ []) ++ [w] := by simp [hne]
    have hprefix : ∀ (xs : List Word) (a : Word), a ∈ done.filter (· ≠ []) ++ [w] →
        (distinct (done.filter (· ≠ []) ++ [w] ++ xs)).idxOf a = (distinct (done.filter (· ≠ []) ++ [w])).idxOf a := by
      intro xs
      induction xs using List.reverseRecOn with
      | nil => intro a _; rw [List.append_nil]
      | append_singleton xs x ihx =>
        intro a ha
        rw [← List.append_assoc, distinct_append_singleton]
        split
        · exact ihx a ha
        · rw [List.idxOf_append_of_mem, ihx a ha]
          rw [mem_distinct, List.mem_append]; exact Or.inl ha
    have step : ∀ s1 g1, s.getID w = .ok (s1, (dictionary (done ++ [w])).idxOf w) → SInv s1 g1 (dictionary (done ++ [w])) →
        g1.n ≤ g.n + w.length → s1.words.os = s.words.os → s.words.mapped ≤ s1.words.mapped →
        (runIDs s (w :: ws) = .error .runtimeError ∧
          Trie.Refusal s.words (4 + 32 * (g.n + ((w :: ws).map List.length).sum))) ∨
        ∃ s' g' ids, runIDs s (w :: ws) = .ok (s', ids) ∧ SInv s' g' (dictionary (done ++ w :: ws)) ∧
          ids = (w :: ws).map (answered (done ++ w :: ws)) := by
      intro s1 g1 e h1 hn hos hm
      rcases ih (done ++ [w]) s1 g1 (fun v hv => hw v (by simp [hv])) h1 with ⟨e1, hr⟩ | ⟨s', g', ids, e1, h', hids⟩
      · left
        refine ⟨by rw [runIDs, e]; simp only [e1, error_bind], hr.mono hos hm ?_⟩
        simp only [List.map_cons, List.sum_cons]; omega
      · right
        refine ⟨s', g', some ((dictionary (done ++ [w])).idxOf w) :: ids, by rw [runIDs, e]; simp only [ok_bind, e1], ?_, ?_⟩
        · rw [e2]; exact h'
        · rw [e2, hids, List.map_cons, answered, if_neg hne, dictionary, dictionary, hfil, hfil0, hprefix _ w (by simp)]
    by_cases hmem : w ∈ dictionary done
    · have hd : dictionary (done ++ [w]) = dictionary done := by
        rw [dictionary, hfil0, distinct_append_singleton, if_pos (mem_distinct.1 hmem), dictionary]
      apply step s g _ (by rw [hd]; exact h) (by omega) rfl (Nat.le_refl _)
      rw [hd]
      have hlt : (dictionary done).idxOf w < (dictionary done).length := List.idxOf_lt_length_iff.2 hmem
      exact h.getID_old hgw.2 (by rw [List.getElem?_eq_getElem hlt, List.getElem_idxOf hlt])
    · have hd : dictionary (done ++ [w]) = dictionary done ++ [w] := by
        rw [dictionary, hfil0, distinct_append_singleton, if_neg (fun hx => hmem (mem_distinct.2 hx)), dictionary]
      rcases h.getID_new (hgw.storable hne) hmem with ⟨e, hr⟩ | ⟨s1, g1, e, h1, hn, hos, hm⟩
      · left
        refine ⟨by rw [runIDs, e], hr.mono rfl (Nat.le_refl _) ?_⟩
        simp only [List.map_cons, List.sum_cons]; omega
      · apply step s1 g1 _ (by rw [hd]; exact h1) hn hos hm
        rw [e, hd]
        congr 2
        rw [List.idxOf_append_of_notMem hmem]; simp

/-- What a history that returns leaves behind. -/
theorem runIDs_new [Build] {os : Nat → Bool} {ws : List Word} (hw : ∀ w ∈ ws, Plain w) {s0 s : WordStore}
    {ids : List (Option WordID)} (h0 : WordStore.new os = .ok s0) (h : runIDs s0 ws = .ok (s, ids)) :
    (∃ g, SInv s g (dictionary ws)) ∧ ids = ws.map (answered ws) := by
  rcases SInv.new os with ⟨_, h2⟩ | ⟨s1, e, hinv, _⟩
  · rw [h2] at h0; cases h0
  · rw [e] at h0; injection h0 with h0; subst h0
    rcases runIDs_inv ws [] s1 _ hw hinv with ⟨e, _⟩ | ⟨s', g', ids', e, h', hids⟩
    · rw [e] at h; cases h
    · rw [e] at h; cases h
      exact ⟨⟨g', h'⟩, hids⟩

/-! ### C12 -/

/-- C12. In any history the calls on empty words, and no others, throw, and two other calls return the same identifier
exactly when the words are equal. -/
theorem C12_injective_stable [Build] (os : Nat → Bool) (ws : List Word) (hw : ∀ w ∈ ws, Plain w) (s0 s : WordStore)
    (ids : List (Option WordID)) (h0 : WordStore.new os = .ok s0) (h : runIDs s0 ws = .ok (s, ids)) :
    ids.length = ws.length ∧
    (∀ (i : Nat) (w : Word), ws[i]? = some w → (ids[i]? = some none ↔ w = [])) ∧
    ∀ (i j : Nat) (v w : Word) (a b : WordID), ws[i]? = some v → ws[j]? = some w → ids[i]? = some (some a) →
      ids[j]? = some (some b) → (a = b ↔ v = w) := by
  obtain ⟨_, rfl⟩ := runIDs_new hw h0 h
  refine ⟨by simp, ?_, ?_⟩
  · intro i w hi
    rw [List.getElem?_map, hi]
    simp [answered]
  · intro i j v w a b hi hj ha hb
    rw [List.getElem?_map, hi] at ha
    rw [List.getElem?_map, hj] at hb
    simp only [Option.map_some, Option.some.injEq, answered] at ha hb
    split at ha
    · cases ha
    · rename_i hv
      split at hb
      · cases hb
      · simp only [Option.some.injEq] at ha hb
        subst ha hb
        constructor
        · intro he
          exact (List.idxOf_inj (mem_dictionary.2 ⟨List.mem_of_getElem? hi, hv⟩)).1 he
        · rintro rfl; rfl

/-! ### C13 -/

/-- C13. The identifiers are the positions in the list of distinct non-empty words in order of first use; they are valid
afterwards, read back as the word, and nothing else is valid. -/
theorem C13_dense_invertible [Build] (os : Nat → Bool) (ws : List Word) (hw : ∀ w ∈ ws, Plain w) (s0 s : WordStore)
    (ids : List (Option WordID)) (h0 : WordStore.new os = .ok s0) (h : runIDs s0 ws = .ok (s, ids)) :
    (∀ (id : Nat) (w : Word), (distinct (ws.filter (· ≠ [])))[id]? = some w ↔
      ∃ i : Nat, ws[i]? = some w ∧ ids[i]? = some (some id)) ∧
    (∀ id : Nat, s.hasWordID id = true ↔ id < (distinct (ws.filter (· ≠ []))).length) ∧
    (∀ (id : Nat) (w : Word), (distinct (ws.filter (· ≠ [])))[id]? = some w → s.getWord id = .ok w) ∧
    (∀ id, (distinct (ws.filter (· ≠ []))).length ≤ id → s.getWord id = .error .outOfRange) := by
  obtain ⟨⟨g, hinv⟩, rfl⟩ := runIDs_new hw h0 h
  change (∀ (id : Nat) (w : Word), (dictionary ws)[id]? = some w ↔ _) ∧ (∀ id : Nat, _ ↔ id < (dictionary ws).length) ∧
    (∀ (id : Nat) (w : Word), (dictionary ws)[id]? = some w → _) ∧ (∀ id, (dictionary ws).length ≤ id → _)
  refine ⟨?_, ?_, ?_, ?_⟩
  · intro id w
    constructor
    · intro hid
      obtain ⟨hmem, hne⟩ := mem_dictionary.1 (List.mem_of_getElem? hid)
      obtain ⟨i, hi⟩ := List.mem_iff_getElem?.1 hmem
      refine ⟨i, hi, ?_⟩
      rw [List.getElem?_map, hi]
      simp only [Option.map_some, Option.some.injEq, answered, if_neg hne]
      obtain ⟨hlt, he⟩ := List.getElem?_eq_some_iff.1 hid
      subst he
      exact (nodup_distinct _).idxOf_getElem id hlt
    · rintro ⟨i, hi, ha⟩
      rw [List.getElem?_map, hi] at ha
      simp only [Option.map_some, Option.some.injEq, answered] at ha
      split at ha
      · cases ha
      · rename_i hne
        simp only [Option.some.injEq] at ha
        subst ha
        have hlt : (dictionary ws).idxOf w < (dictionary ws).length :=
          List.idxOf_lt_length_iff.2 (mem_dictionary.2 ⟨List.mem_of_getElem? hi, hne⟩)
        rw [List.getElem?_eq_getElem hlt, List.getElem_idxOf hlt]
  · intro id; simp [WordStore.hasWordID, hinv.len]
  · intro id w hid
    obtain ⟨⟨_, hr⟩, _⟩ := hw w (mem_dictionary.1 (List.mem_of_getElem? hid)).1
    exact hinv.getWord hid (readable_ofLetters hr)
  · intro id hid; exact hinv.getWord_bad hid

/-! ### C14 -/

/-- C14 is false for words with NUL letters: looking one up in an empty store reads outside the mapping, in either build;
in a release build such a word, once passed to `getID`, is not found. -/
theorem C14_false : ∃ (s s1 : WordStore), @WordStore.new Example.release (fun _ => true) = .ok s ∧
    @Word.ofLetters Example.release [0#16, 0x61#16] = .ok [0#16, 0x61#16] ∧
    s.hasWord [0#16, 0x61#16] = .error .ub ∧
    @Word.ofLetters Example.release [0#16, 0#16] = .ok [0#16] ∧
    @WordStore.getID Example.release s [0#16] = .ok (s1, 0) ∧ s1.hasWord [0#16] = .ok false := by
  refine ⟨_, _, rfl, by decide +kernel, rfl, by decide +kernel, rfl, rfl⟩

/-- C14, what holds: membership is exact for every NUL-free probe, the empty word, prefixes and extensions included, and
probes that were never constructed too. Missing from the full claim: words with NUL letters. -/
theorem C14_membership_partial [Build] (os : Nat → Bool) (ws : List Word) (hw : ∀ w ∈ ws, Plain w) (s0 s : WordStore)
    (ids : List (Option WordID)) (h0 : WordStore.new os = .ok s0) (h : runIDs s0 ws = .ok (s, ids)) (v : Word)
    (hv : ∀ l ∈ v, l ≠ 0#16) : s.hasWord v = .ok (decide (v ∈ ws ∧ v ≠ [])) := by
  obtain ⟨⟨g, hinv⟩, _⟩ := runIDs_new hw h0 h
  rw [hinv.hasWord hv]
  congr 1
  rw [decide_eq_decide, mem_dictionary]

/-! ### C15 -/

/-- C15 is false for words with NUL letters. The letter-array constructor makes such words; a debug build aborts on
one, another reads outside the mapping. -/
theorem C15_false : ∃ (s : WordStore), @WordStore.new Example.debug (fun _ => true) = .ok s ∧
    @Word.ofLetters Example.debug [0#16, 0#16] = .ok [0#16] ∧
    @WordStore.getID Example.debug s [0#16] = .error .assertion ∧
    @Word.ofLetters Example.debug [0#16, 0x61#16] = .ok [0#16, 0x61#16] ∧
    @WordStore.getID Example.debug s [0#16, 0x61#16] = .error .ub := by
  refine ⟨_, rfl, by decide +kernel, ?_, by decide +kernel, ?_⟩ <;> rfl

/-- C15 is false in a release build too: the same NUL word gets a new identifier each time, and is not found. -/
theorem C15_false_release : ∃ (s s1 s2 : WordStore), @WordStore.new Example.release (fun _ => true) = .ok s ∧
    @WordStore.getID Example.release s [0#16] = .ok (s1, 0) ∧ @WordStore.getID Example.release s1 [0#16] = .ok (s2, 1) ∧
    s2.hasWord [0#16] = .ok false ∧ @WordStore.getWord Example.release s2 0 = .ok [] := by
  refine ⟨_, _, _, rfl, rfl, rfl, ?_, ?_⟩ <;> rfl

/-- C15, what holds: after any history the empty word raises `out_of_range`; every other NUL-free word that can be
constructed gets an identifier unless storage is refused. Missing from the full claim: words with NUL letters. -/
theorem C15_partial [Build] (os : Nat → Bool) (ws : List Word) (hw : ∀ w ∈ ws, Plain w) (s0 s : WordStore)
    (ids : List (Option WordID)) (h0 : WordStore.new os = .ok s0) (h : runIDs s0 ws = .ok (s, ids)) :
    s.getID [] = .error .outOfRange ∧
    ∀ v : Word, v ≠ [] → (∃ letters, Word.ofLetters letters = .ok v) → (∀ l ∈ v, l ≠ 0#16) →
      (∃ s' id, s.getID v = .ok (s', id)) ∨ s.getID v = .error .runtimeError := by
  obtain ⟨⟨g, hinv⟩, _⟩ := runIDs_new hw h0 h
  constructor
  · exact SInv.getID_empty hinv (nil_notMem_dictionary ws)
  · intro v h1 h2 h3
    by_cases hm : v ∈ dictionary ws
    · left
      obtain ⟨i, hi⟩ := List.mem_iff_getElem?.1 hm
      exact ⟨s, i, hinv.getID_old h3 hi⟩
    · rcases hinv.getID_new (Plain.storable ⟨h2, h3⟩ h1) hm with ⟨e, _⟩ | ⟨s', _, e, _⟩
      · right; exact e
      · left; exact ⟨s', _, e⟩

/-! ### C16 -/

/-- C16. Every history returns or ends in `runtime_error`: no access outside the mapping, no failed assertion, no
endless loop. It ends in `runtime_error` only if the system refused a size the data needs, or the data do not fit in
2 GiB. -/
theorem C16_safe [Build] (os : Nat → Bool) (ws : List Word) (hw : ∀ w ∈ ws, Plain w) :
    (∃ s0 s ids, WordStore.new os = .ok s0 ∧ runIDs s0 ws = .ok (s, ids)) ∨
    ((WordStore.new os >>= fun s0 => runIDs s0 ws) = .error .runtimeError ∧
      (os 1024 = false ∨ 2^31 ≤ 36 + 32 * (ws.map List.length).sum ∨
        ∃ j, 10 ≤ j ∧ j < 31 ∧ 2^j ≤ 36 + 32 * (ws.map List.length).sum ∧ os (2^(j+1)) = false)) := by
  rcases SInv.new os with ⟨h1, h2⟩ | ⟨s0, e0, hinv, hos, hm⟩
  · right; rw [h2]; exact ⟨rfl, Or.inl h1⟩
  · rcases runIDs_inv ws [] s0 _ hw hinv with ⟨e, hr⟩ | ⟨s', g', ids', e, _, _⟩
    · right
      rw [e0]
      refine ⟨e, Or.inr ?_⟩
      have hn : Ghost.init.n = 1 := rfl
      rw [hn] at hr
      rcases hr with hr | ⟨sz, ⟨j, hj, rfl⟩, h1, h2, h3, h4⟩
      · left; omega
      · right
        have hp : 1024 * 2^j = 2^(10 + j) := by rw [Nat.pow_add]
        refine ⟨10 + j, by omega, ?_, by rw [← hp]; omega, ?_⟩
        · by_contra hc
          have : 2^31 ≤ 2^(10+j) := Nat.pow_le_pow_right (by omega) (by omega)
          omega
        · rw [hos] at h4
          rw [Nat.pow_succ, ← hp, Nat.mul_comm]; exact h4
    · left; exact ⟨s0, s', ids', e0, e⟩

/-- C16. With a system that grants every size, any set of words within 2 GiB can be stored. -/
theorem C16_grows [Build] (os : Nat → Bool) (ws : List Word) (hw : ∀ w ∈ ws, Plain w) (hos : ∀ n, os n = true)
    (hsz : 36 + 32 * (ws.map List.length).sum < 2^31) :
    ∃ s0 s ids, WordStore.new os = .ok s0 ∧ runIDs s0 ws = .ok (s, ids) := by
  rcases C16_safe os ws hw with h | ⟨_, h | h | ⟨j, _, _, _, h⟩⟩
  · exact h
  · rw [hos] at h; cases h
  · omega
  · rw [hos] at h; cases h

/-- C16. After any history the read operations succeed. -/
theorem C16_reads [Build] (os : Nat → Bool) (ws : List Word) (hw : ∀ w ∈ ws, Plain w) (s0 s : WordStore)
    (ids : List (Option WordID)) (h0 : WordStore.new os = .ok s0) (h : runIDs s0 ws = .ok (s, ids)) :
    (∀ v : Word, (∀ l ∈ v, l ≠ 0#16) → ∃ b, s.hasWord v = .ok b) ∧
    (∀ id, (∃ w, s.getWord id = .ok w) ∨ s.getWord id = .error .outOfRange) := by
  refine ⟨fun v hv => ⟨_, C14_membership_partial os ws hw s0 s ids h0 h v hv⟩, ?_⟩
  intro id
  obtain ⟨_, _, h3, h4⟩ := C13_dense_invertible os ws hw s0 s ids h0 h
  rcases Nat.lt_or_ge id (distinct (ws.filter (· ≠ []))).length with hlt | hge
  · left; exact ⟨_, h3 id _ (List.getElem?_eq_getElem hlt)⟩
  · right; exact h4 id hge

/-! ### A concrete history -/

/-- "ab", "a", the empty word, "ab", "b" get the identifiers 0, 1, none, 0, 2. -/
example : (@WordStore.new Example.debug (fun _ => true) >>= fun s =>
    (@runIDs Example.debug s [[0x61#16, 0x62#16], [0x61#16], [], [0x61#16, 0x62#16], [0x62#16]]).map (·.2)) =
    .ok [some 0, some 1, none, some 0, some 2] := by decide +kernel

example : @Plain Example.debug [0x61#16, 0x62#16] := ⟨⟨[0x61#16, 0x62#16], by decide +kernel⟩, by simp⟩

/-- A word with a broken surrogate pair that the letter-array constructor accepts. -/
example : @Plain Example.debug [0x61#16, 0xD800#16] := ⟨⟨[0x61#16, 0xD800#16], by decide +kernel⟩, by simp⟩

end Columbus.Props
