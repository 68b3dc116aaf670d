import Verif.Model.Scalability
import Verif.Proofs.ToolRun
import Verif.Props.Hud
/-
Lemmas on test/LevScalabilityTest.cc.
-/

namespace Columbus.Scalability
open Columbus Spec QueryIndex ErrorValues

section
variable [Build] [Icu]

/-! ### Reading -/

theorem readLoop_line {l r : Bytes} {w : Word} {fuel : Nat} (h0 : 0 ∉ l) (hn : 0x0a ∉ l) (hlen : l.length ≤ 1022)
    (hw : Word.ofUtf8 l = .ok w) (a : List Word) :
    readLoop (fuel + 1) (l ++ 0x0a :: r) a = readLoop fuel r (a ++ [w]) := by
  obtain ⟨b, rest, he⟩ : ∃ b rest, l ++ 0x0a :: r = b :: rest := by
    cases l with
    | nil => exact ⟨_, _, rfl⟩
    | cons b l => exact ⟨_, _, rfl⟩
  rw [he, readLoop, ← he, fgets_line 1023 l r hn (by omega)]
  simp only [chop_line h0, ok_bind, hw]

theorem readLoop_bad {l r : Bytes} {f : Fault} {fuel : Nat} (h0 : 0 ∉ l) (hn : 0x0a ∉ l) (hlen : l.length ≤ 1022)
    (hw : Word.ofUtf8 l = .error f) (a : List Word) :
    readLoop (fuel + 1) (l ++ 0x0a :: r) a = .error f := by
  obtain ⟨b, rest, he⟩ : ∃ b rest, l ++ 0x0a :: r = b :: rest := by
    cases l with
    | nil => exact ⟨_, _, rfl⟩
    | cons b l => exact ⟨_, _, rfl⟩
  rw [he, readLoop, ← he, fgets_line 1023 l r hn (by omega)]
  simp only [chop_line h0, ok_bind, hw]
  rfl

theorem readLoop_broken {l r r' : Bytes} {fuel : Nat} (hg : fgets 1023 (l ++ r) = (l, r')) (h0 : 0 ∉ l)
    (hn : 0x0a ∉ l) (hne : l ≠ []) (a : List Word) :
    readLoop (fuel + 1) (l ++ r) a = if Build.asserts then .error .assertion else (do
      let w ← Word.ofUtf8 l.dropLast
      readLoop fuel r' (a ++ [w])) := by
  obtain ⟨b, rest, he⟩ : ∃ b rest, l ++ r = b :: rest := by
    cases l with
    | nil => exact absurd rfl hne
    | cons b l => exact ⟨_, _, rfl⟩
  rw [he, readLoop, ← he, hg]
  simp only [chop_broken h0 hn hne]
  cases Build.asserts <;> rfl

/-- A line that is read as a word, which may be empty. -/
structure Readable (l : Bytes) : Prop where
  noNul : 0 ∉ l
  noNewline : 0x0a ∉ l
  short : l.length ≤ 1022

theorem readLoop_lines : ∀ (ls : List Bytes) (ws : List Word), (∀ l ∈ ls, Readable l) →
    List.Forall₂ (fun l w => Word.ofUtf8 l = .ok w) ls ws → ∀ (r : Bytes) (fuel : Nat) (a : List Word),
    readLoop (fuel + ls.length) (fileOf ls ++ r) a = readLoop fuel r (a ++ ws) := by
  intro ls
  induction ls with
  | nil =>
    intro ws _ hf r fuel a
    cases hf
    simp [fileOf]
  | cons l ls ih =>
    intro ws hl hf r fuel a
    cases hf with
    | @cons _ w _ ws hw hf =>
    obtain ⟨h0, hn, hlen⟩ := hl l (by simp)
    rw [fileOf_cons, List.append_assoc, List.cons_append, List.length_cons, ← Nat.add_assoc, readLoop_line h0 hn hlen hw,
      ih ws (fun l' hl' => hl l' (by simp [hl'])) hf]
    simp

omit [Build] [Icu] in
theorem fileOf_length (ls : List Bytes) : ls.length ≤ (fileOf ls).length := by
  induction ls with
  | nil => exact Nat.zero_le _
  | cons l ls ih => rw [fileOf_cons, List.length_append, List.length_cons, List.length_cons]; omega

theorem readData_lines {ls : List Bytes} {ws : List Word} (hl : ∀ l ∈ ls, Readable l)
    (hf : List.Forall₂ (fun l w => Word.ofUtf8 l = .ok w) ls ws) (r : Bytes) :
    ∃ fuel, r.length ≤ fuel ∧ readData (fileOf ls ++ r) = readLoop fuel r ws := by
  have := fileOf_length ls
  refine ⟨(fileOf ls).length - ls.length + r.length, by omega, ?_⟩
  rw [readData, List.length_append, show (fileOf ls).length + r.length = (fileOf ls).length - ls.length + r.length + ls.length by omega,
    readLoop_lines ls ws hl hf]
  rfl

/-! ### Inserting -/

omit [Icu] in
theorem insertLoop_words {osI osS : Nat → Bool} : ∀ (ws' ws names : List Word) (ind : LevIndex) (s : WordStore) (rest : List Word),
    Loaded osI osS ws names ind s → (∀ w ∈ ws', GoodWord w) →
    (insertLoop (ws' ++ rest) ind s = .error .runtimeError ∧ Refused osI osS (lettersIn (ws ++ ws'))) ∨
    ∃ ind' s' names', insertLoop (ws' ++ rest) ind s = insertLoop rest ind' s' ∧ Loaded osI osS (ws ++ ws') names' ind' s' := by
  intro ws'
  induction ws' with
  | nil =>
    intro ws names ind s rest h _
    right
    exact ⟨ind, s, names, rfl, by rw [List.append_nil]; exact h⟩
  | cons w ws' ih =>
    intro ws names ind s rest h hg
    have el : ws ++ w :: ws' = ws ++ [w] ++ ws' := by simp
    have hle : lettersIn (ws ++ [w]) ≤ lettersIn (ws ++ w :: ws') := by rw [el, lettersIn_append (ws ++ [w])]; omega
    rw [List.cons_append, insertLoop]
    rcases h.step (hg w (by simp)) with ⟨e2, hr⟩ | ⟨s1, id, e2, ⟨e3, hr⟩ | ⟨ind1, e3, h1⟩⟩
    · left; rw [e2]; exact ⟨rfl, Or.inr (hr.mono hle)⟩
    · left; rw [e2, ok_bind]; dsimp only; rw [e3]; exact ⟨rfl, Or.inl (hr.mono hle)⟩
    · rw [e2, ok_bind]; dsimp only; rw [e3, ok_bind, el]
      exact ih _ _ _ _ _ h1 (fun w' hw' => hg w' (by simp [hw']))

omit [Icu] in
theorem buildIndex_words (osI osS : Nat → Bool) (ws rest : List Word) (hg : ∀ w ∈ ws, GoodWord w) :
    (buildIndex osI osS (ws ++ rest) = .error .runtimeError ∧ Refused osI osS (lettersIn ws)) ∨
    ∃ ind s names, Loaded osI osS ws names ind s ∧ buildIndex osI osS (ws ++ rest) = (do
      let (ind, _) ← insertLoop rest ind s
      .ok ind) := by
  rcases Loaded.new osI osS with ⟨e, hr⟩ | ⟨ind, e1, ⟨e2, hr⟩ | ⟨s, e2, h0⟩⟩
  · left
    refine ⟨?_, Or.inl (Or.inl ⟨_, hr⟩)⟩
    rw [buildIndex, e]; rfl
  · left
    refine ⟨?_, Or.inr (Or.inl ⟨_, hr⟩)⟩
    rw [buildIndex, e1, ok_bind, e2]; rfl
  · rcases insertLoop_words ws [] [] ind s rest h0 hg with ⟨e3, hr⟩ | ⟨ind', s', names', e3, h'⟩
    · left
      rw [List.nil_append] at hr
      refine ⟨?_, hr⟩
      rw [buildIndex, e1, ok_bind, e2, ok_bind, e3]; rfl
    · right
      rw [List.nil_append] at h'
      refine ⟨ind', s', names', h', ?_⟩
      rw [buildIndex, e1, ok_bind, e2, ok_bind, e3]

/-! ### Searching -/

variable [Runtime]

theorem search_ok {osI osS : Nat → Bool} {ws names : List Word} {ind : LevIndex} {s : WordStore}
    (h : Loaded osI osS ws names ind s) (hlen : ∀ w ∈ ws, w.length ≤ 1022) {q : Word} (hq : q ∈ ws) (ops : List ErrOp)
    (hp : PresetMade (afterOps ops)) (T : Int) : ∃ ms, ind.findWords q (afterOps ops) T IndexMatches.new = .ok ms := by
  have hok : IndexHistory.Ok (history names ws) := history_ok h.store (fun v hv => (h.mem v).2 hv)
  have hgood : GoodWord q := h.store.good q ((h.mem q).2 hq)
  apply Props.C25_no_fault osI _ ind hok h.done ops q hgood.noNul
  · refine ⟨100, 1022, hp.within _, ?_, ?_⟩
    · intro p hp
      obtain ⟨w, hw, rfl⟩ := List.mem_map.1 hp
      exact hlen w hw
    · have := hlen q hq
      omega
  · show (afterOps ops).insertionError = (afterOps ops).deletionError
    rw [hp.tame.ins, hp.tame.del]

theorem queryLoop_ok {osI osS : Nat → Bool} {ws names : List Word} {ind : LevIndex} {s : WordStore}
    (h : Loaded osI osS ws names ind s) (hlen : ∀ w ∈ ws, w.length ≤ 1022) (ops : List ErrOp)
    (hp : PresetMade (afterOps ops)) : ∀ (n i : Nat), i ≤ ws.length →
    queryLoop ws (afterOps ops) ind n i = if n ≤ ws.length - i then .ok () else .error .ub := by
  intro n
  induction n with
  | zero => intro i _; simp [queryLoop]
  | succ n ih =>
    intro i hi
    rw [queryLoop]
    by_cases hlt : i < ws.length
    · rw [List.getElem?_eq_getElem hlt]
      obtain ⟨ms, e⟩ := search_ok h hlen (List.getElem_mem hlt) ops hp (2 * defaultError)
      dsimp only
      rw [e, ok_bind, ih (i + 1) (by omega)]
      by_cases h2 : n ≤ ws.length - (i + 1)
      · rw [if_pos h2, if_pos (by omega)]
      · rw [if_neg h2, if_neg (by omega)]
    · rw [List.getElem?_eq_none (by omega), if_neg (by omega)]

theorem runQueries_ok {osI osS : Nat → Bool} {ws names : List Word} {ind : LevIndex} {s : WordStore}
    (h : Loaded osI osS ws names ind s) (hlen : ∀ w ∈ ws, w.length ≤ 1022) (ops : List ErrOp)
    (hp : PresetMade (afterOps ops)) {n : Int} (hn : -2^31 ≤ n ∧ n < 2^31) (hws : ws.length < 2^63) :
    runQueries n ws (afterOps ops) ind = if 0 ≤ n ∧ n ≤ ws.length then .ok () else .error .ub := by
  rw [runQueries, queryLoop_ok h hlen ops hp _ 0 (Nat.zero_le _)]
  have : sizeOfInt n ≤ ws.length - 0 ↔ 0 ≤ n ∧ n ≤ ws.length := by
    unfold sizeOfInt
    omega
  by_cases h2 : 0 ≤ n ∧ n ≤ ws.length
  · rw [if_pos h2, if_pos (this.2 h2)]
  · rw [if_neg h2, if_neg (fun h => h2 (this.1 h))]

end
end Columbus.Scalability
