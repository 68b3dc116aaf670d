import Verif.Model.SingleWord
import Verif.Proofs.ToolRun
/-
tools/singleword.cc.
-/

namespace Columbus.SingleWord
open Columbus Spec QueryIndex Apps

/-! ### Reading -/

section
variable [Build] [Icu]

/-- One round of the loop. -/
theorem readLoop_line {l r : Bytes} {w : Word} {fuel : Nat} (h0 : 0 ∉ l) (hn : 0x0a ∉ l) (hlen : l.length ≤ 1022)
    (hw : Word.ofUtf8 l = .ok w) :
    readLoop (fuel + 1) (l ++ 0x0a :: r) = (do let ws ← readLoop fuel r; .ok (w :: ws)) := by
  obtain ⟨b, rest, he⟩ : ∃ b rest, l ++ 0x0a :: r = b :: rest := by
    cases l with
    | nil => exact ⟨_, _, rfl⟩
    | cons b l => exact ⟨_, _, rfl⟩
  rw [he, readLoop, ← he, fgets_line 1023 l r hn (by omega)]
  simp only [chop_line h0, ok_bind, hw]

theorem readLoop_bad {l r : Bytes} {f : Fault} {fuel : Nat} (h0 : 0 ∉ l) (hn : 0x0a ∉ l) (hlen : l.length ≤ 1022)
    (hw : Word.ofUtf8 l = .error f) : readLoop (fuel + 1) (l ++ 0x0a :: r) = .error f := by
  obtain ⟨b, rest, he⟩ : ∃ b rest, l ++ 0x0a :: r = b :: rest := by
    cases l with
    | nil => exact ⟨_, _, rfl⟩
    | cons b l => exact ⟨_, _, rfl⟩
  rw [he, readLoop, ← he, fgets_line 1023 l r hn (by omega)]
  simp only [chop_line h0, ok_bind, hw]
  rfl

/-- A line that the buffer holds without its newline. -/
theorem readLoop_broken {l r r' : Bytes} {fuel : Nat} (hg : fgets 1023 (l ++ r) = (l, r')) (h0 : 0 ∉ l)
    (hn : 0x0a ∉ l) (hne : l ≠ []) :
    readLoop (fuel + 1) (l ++ r) = if Build.asserts then .error .assertion else (do
      let w ← Word.ofUtf8 l.dropLast
      let ws ← readLoop fuel r'
      .ok (w :: ws)) := by
  obtain ⟨b, rest, he⟩ : ∃ b rest, l ++ r = b :: rest := by
    cases l with
    | nil => exact absurd rfl hne
    | cons b l => exact ⟨_, _, rfl⟩
  rw [he, readLoop, ← he, hg]
  simp only [chop_broken h0 hn hne]
  cases Build.asserts <;> rfl

/-- A line that can be read: a word, or nothing. -/
def LineOk (l : Bytes) : Prop := (l = [] ∨ WordLine l) ∧ l.length ≤ 1022

/-- The words in front of others. -/
def before (ws : List Word) (m : M (List Word)) : M (List Word) := do let r ← m; .ok (ws ++ r)

theorem readLoop_lines : ∀ (ls : List Bytes) (ws : List Word) (r : Bytes) (fuel : Nat), (∀ l ∈ ls, LineOk l) →
    List.Forall₂ (fun l w => Word.ofUtf8 l = .ok w) ls ws →
    readLoop (fuel + ls.length) (fileOf ls ++ r) = before ws (readLoop fuel r) := by
  intro ls
  induction ls with
  | nil =>
    intro ws r fuel _ hf
    cases hf
    show readLoop fuel r = before [] (readLoop fuel r)
    cases readLoop fuel r <;> rfl
  | cons l ls ih =>
    intro ws r fuel hl hf
    cases hf with
    | @cons _ w _ ws hw hf =>
    obtain ⟨hline, hlen⟩ := hl l (by simp)
    have h0 : 0 ∉ l := by
      rcases hline with rfl | h
      · simp
      · exact h.noNul
    have hn : 0x0a ∉ l := by
      rcases hline with rfl | h
      · simp
      · exact fun hm => h.noBlank _ hm (by unfold IsBlank; omega)
    rw [fileOf_cons, List.append_assoc, List.cons_append, List.length_cons, ← Nat.add_assoc, readLoop_line h0 hn hlen hw,
      ih ws r fuel (fun l' hl' => hl l' (by simp [hl'])) hf]
    cases readLoop fuel r <;> rfl

theorem words_or : ∀ ls : List Bytes, (∀ l ∈ ls, LineOk l) → ∃ ws, List.Forall₂ (fun l w => Word.ofUtf8 l = .ok w) ls ws := by
  intro ls
  induction ls with
  | nil => intro _; exact ⟨[], .nil⟩
  | cons l ls ih =>
    intro h
    obtain ⟨w, hw⟩ : ∃ w, Word.ofUtf8 l = .ok w := by
      rcases (h l (by simp)).1 with rfl | hl
      · exact ⟨[], rfl⟩
      · exact (Props.C01_accepts l).2 ⟨hl.wellFormed, hl.noBlank⟩
    obtain ⟨ws, hws⟩ := ih fun l hl => h l (by simp [hl])
    exact ⟨w :: ws, .cons hw hws⟩

/-- Good lines, and what is after them. -/
theorem readData_lines (ls : List Bytes) (r : Bytes) (hl : ∀ l ∈ ls, LineOk l) :
    ∃ ws fuel, List.Forall₂ (fun l w => Word.ofUtf8 l = .ok w) ls ws ∧ r.length ≤ fuel ∧
      readData (fileOf ls ++ r) = before ws (readLoop fuel r) := by
  obtain ⟨ws, hws⟩ := words_or ls hl
  have hlen : ls.length ≤ (fileOf ls).length := by
    clear hl hws
    induction ls with
    | nil => exact Nat.zero_le _
    | cons l ls ih => rw [fileOf_cons, List.length_append, List.length_cons, List.length_cons]; omega
  have hfu : (fileOf ls ++ r).length = ((fileOf ls).length - ls.length + r.length) + ls.length := by
    rw [List.length_append]; omega
  refine ⟨ws, (fileOf ls).length - ls.length + r.length, hws, by omega, ?_⟩
  rw [readData, hfu, readLoop_lines ls ws r _ hl hws]

end

/-! ### Inserting -/

section
variable [Build] {osI osS : Nat → Bool}

theorem insertLoop_spec : ∀ (ws' ws names : List Word) (ind : LevIndex) (s : WordStore) (rest : List Word), Loaded osI osS ws names ind s →
    (∀ w ∈ ws', GoodWord w) →
    (insertLoop (ws' ++ rest) ind s = .error .runtimeError ∧
      (StorageRefused osI (lettersIn (ws ++ ws')) ∨ StorageRefused osS (lettersIn (ws ++ ws')))) ∨
    ∃ ind' s' names', insertLoop (ws' ++ rest) ind s = insertLoop rest ind' s' ∧ Loaded osI osS (ws ++ ws') names' ind' s' := by
  intro ws'
  induction ws' with
  | nil =>
    intro ws names ind s rest h _
    exact Or.inr ⟨ind, s, names, rfl, by rw [List.append_nil]; exact h⟩
  | cons w ws'' ih =>
    intro ws names ind s rest h hg
    have el : ws ++ w :: ws'' = ws ++ [w] ++ ws'' := by simp
    have hle : lettersIn (ws ++ [w]) ≤ lettersIn (ws ++ w :: ws'') := by rw [el, lettersIn_append (ws ++ [w])]; omega
    rw [List.cons_append, insertLoop]
    rcases h.step (hg w (by simp)) with ⟨e2, hr⟩ | ⟨s1, id, e2, ⟨e3, hr⟩ | ⟨ind1, e3, h1⟩⟩
    · left; rw [e2]; exact ⟨rfl, Or.inr (hr.mono hle)⟩
    · left; rw [e2, ok_bind]; dsimp only; rw [e3]; exact ⟨rfl, Or.inl (hr.mono hle)⟩
    · rw [e2, ok_bind]; dsimp only; rw [e3, ok_bind, el]
      exact ih _ _ _ _ _ h1 (fun w' hw' => hg w' (by simp [hw']))

/-! ### The list -/

theorem rowLoop_fits {s : WordStore} {ms : IndexMatches} : ∀ (xs : List MatchData) (hits : List (Bytes × Int))
    (pre : List MatchData), ms = pre ++ xs → List.Forall₂ (Prints s) xs hits → (∀ p ∈ hits, p.1.length < 1024) →
    rowLoop s ms (List.range' pre.length xs.length) = .ok hits := by
  intro xs
  induction xs with
  | nil =>
    intro hits pre _ hf _
    cases hf; rfl
  | cons m xs ih =>
    intro hits pre hm hf hfit
    cases hf with
    | @cons _ p _ hits hp hf =>
    obtain ⟨w, h1, ⟨c, h2, h3⟩, h4, h5⟩ := hp
    have hget : ms[pre.length]? = some m := by rw [hm]; simp
    have e1 : ms.getMatch pre.length = .ok m.matchedWord := by rw [IndexMatches.getMatch, hget]
    have e2 : ms.getMatchError pre.length = .ok m.error := by rw [IndexMatches.getMatchError, hget]
    have ihr := ih hits (pre ++ [m]) (by rw [hm]; simp) hf fun p hp => hfit p (by simp [hp])
    rw [List.length_append, List.length_singleton] at ihr
    obtain ⟨t1, t2, t3⟩ := Props.C05_partial w c p.1 h2 h3 1024
    rw [List.length_cons, List.range'_succ, rowLoop, e1, ok_bind, h1, ok_bind, t1 (hfit p (by simp)), ok_bind, e2, ok_bind, ihr, ok_bind,
      text_of h4, ← h5]

theorem rowLoop_stops {s : WordStore} {ms : IndexMatches} : ∀ (xs : List MatchData) (pre' post : List (Bytes × Int)) (p : Bytes × Int)
    (pre : List MatchData), ms = pre ++ xs → List.Forall₂ (Prints s) xs (pre' ++ p :: post) → (∀ p ∈ pre', p.1.length < 1024) →
    1024 ≤ p.1.length → rowLoop s ms (List.range' pre.length xs.length) = .error (if p.1.length = 1024 then .ub else .runtimeError) := by
  intro xs
  induction xs with
  | nil =>
    intro pre' post p pre _ hf
    cases pre' <;> cases hf
  | cons m xs ih =>
    intro pre' post p pre hm hf hfit hp1
    have hget : ms[pre.length]? = some m := by rw [hm]; simp
    have e1 : ms.getMatch pre.length = .ok m.matchedWord := by rw [IndexMatches.getMatch, hget]
    have e2 : ms.getMatchError pre.length = .ok m.error := by rw [IndexMatches.getMatchError, hget]
    cases pre' with
    | nil =>
      cases hf with
      | cons hp hf =>
      obtain ⟨w, h1, ⟨c, h2, h3⟩, h4, h5⟩ := hp
      obtain ⟨t1, t2, t3⟩ := Props.C05_partial w c p.1 h2 h3 1024
      rw [List.length_cons, List.range'_succ, rowLoop, e1, ok_bind, h1, ok_bind]
      by_cases heq : p.1.length = 1024
      · rw [if_pos heq, t3.1 heq.symm]; rfl
      · rw [if_neg heq, t2 (by omega)]; rfl
    | cons x pre' =>
      rw [List.cons_append] at hf
      cases hf with
      | cons hp hf =>
      obtain ⟨w, h1, ⟨c, h2, h3⟩, h4, h5⟩ := hp
      obtain ⟨t1, t2, t3⟩ := Props.C05_partial w c x.1 h2 h3 1024
      have ihr := ih pre' post p (pre ++ [m]) (by rw [hm]; simp) hf (fun p hp => hfit p (by simp [hp])) hp1
      rw [List.length_append, List.length_singleton] at ihr
      rw [List.length_cons, List.range'_succ, rowLoop, e1, ok_bind, h1, ok_bind, t1 (hfit x (by simp)), ok_bind, e2, ok_bind, ihr]
      rfl

end
end Columbus.SingleWord
