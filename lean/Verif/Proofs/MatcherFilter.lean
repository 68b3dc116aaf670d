import Verif.Proofs.MatcherFacts
/-
The exact outcome of filtering.
-/

namespace Columbus
open Spec ErrorValues

/-- The exception for an empty word. -/
def orThrow {α : Type} : Option α → M α
  | none => .error .outOfRange
  | some a => .ok a

section
variable [Build] [Icu] {m : Matcher} {H : MatcherHistory} {names : List Word}

/-- How asking for the identifiers of some of the words `ws` ends when `val` is the expected result. -/
def Ends {α : Type} (m : Matcher) (H : MatcherHistory) (names : List Word) (ws : List Word) (out : WordStore × M α)
    (val : Option α) : Prop :=
  (out.2 = .error .runtimeError ∧ StorageRefused m.os (lettersIn names + 2 * lettersIn ws)) ∨
  ∃ names', Grown m H names ws out.1 names' ∧ out.2 = orThrow val

theorem Grown.getID_cases {ws : List Word} {s : WordStore} {names' : List Word} (h : Grown m H names ws s names') {w : Word}
    (hw : w ∈ ws) (hu : Usable w) :
    (w ≠ [] ∧ s.getID w = .error .runtimeError ∧ StorageRefused m.os (lettersIn names + 2 * lettersIn ws)) ∨
    (w = [] ∧ s.getID w = .error .outOfRange) ∨
    (w ≠ [] ∧ ∃ s' names'', s.getID w = .ok (s', names''.idxOf w) ∧ Grown m H names ws s' names'' ∧ names' <+: names'' ∧ w ∈ names'') := by
  have h0 : Names s m.os names' := h.inv.store
  rcases h0.getID hu with ⟨rfl, e⟩ | ⟨hn, e, hr⟩ | ⟨hn, s', e, hs⟩
  · exact Or.inr (Or.inl ⟨rfl, e⟩)
  · left
    refine ⟨hn, e, hr.mono ?_⟩
    have := h.letters
    have := lettersIn_mem hw
    omega
  · right; right
    refine ⟨hn, s', note names' w, e, ⟨?_, h.pre.trans (note_prefix _ _), ?_⟩, note_prefix _ _, mem_note.2 (Or.inr rfl)⟩
    · exact h.inv.noted (s := s') hs
    · intro v hv
      rcases mem_note.1 hv with hv | rfl
      · exact h.sub v hv
      · exact Or.inr hw

variable [Runtime]

theorem Grown.getIDs_cases {ws : List Word} {s : WordStore} {names' : List Word} (h : Grown m H names ws s names') {value field : Word}
    (hv : value ∈ ws) (hf : field ∈ ws) (uv : Usable value) (uf : Usable field) :
    ((Matcher.getIDs s value field).2 = .error .runtimeError ∧ StorageRefused m.os (lettersIn names + 2 * lettersIn ws)) ∨
    ∃ names'', Grown m H names ws (Matcher.getIDs s value field).1 names'' ∧
      (((field = [] ∨ value = []) ∧ (Matcher.getIDs s value field).2 = .error .outOfRange) ∨
       (¬ (field = [] ∨ value = []) ∧ ∃ i j, (Matcher.getIDs s value field).2 = .ok (j, i) ∧ names''[j]? = some value ∧
          names''[i]? = some field)) := by
  unfold Matcher.getIDs
  cases hb : Runtime.valueFirst
  · simp only [Bool.false_eq_true, if_false]
    rcases h.getID_cases hf uf with ⟨_, e, hr⟩ | ⟨he, e⟩ | ⟨he, s1, n1, e, h1, hp, hm⟩
    · left; exact ⟨by simp only [e], hr⟩
    · right; simp only [e]; exact ⟨names', h, Or.inl ⟨Or.inl he, trivial⟩⟩
    · simp only [e]
      rcases h1.getID_cases hv uv with ⟨_, e2, hr⟩ | ⟨he2, e2⟩ | ⟨he2, s2, n2, e2, h2, hp2, hm2⟩
      · left; exact ⟨by simp only [e2], hr⟩
      · right; simp only [e2]; exact ⟨n1, h1, Or.inl ⟨Or.inr he2, trivial⟩⟩
      · right; simp only [e2]
        exact ⟨n2, h2, Or.inr ⟨by tauto, _, _, rfl, getElem?_idxOf hm2, getElem?_prefix hp2 (getElem?_idxOf hm)⟩⟩
  · simp only [if_true]
    rcases h.getID_cases hv uv with ⟨_, e, hr⟩ | ⟨he, e⟩ | ⟨he, s1, n1, e, h1, hp, hm⟩
    · left; exact ⟨by simp only [e], hr⟩
    · right; simp only [e]; exact ⟨names', h, Or.inl ⟨Or.inr he, trivial⟩⟩
    · simp only [e]
      rcases h1.getID_cases hf uf with ⟨_, e2, hr⟩ | ⟨he2, e2⟩ | ⟨he2, s2, n2, e2, h2, hp2, hm2⟩
      · left; exact ⟨by simp only [e2], hr⟩
      · right; simp only [e2]; exact ⟨n1, h1, Or.inl ⟨Or.inl he2, trivial⟩⟩
      · right; simp only [e2]
        exact ⟨n2, h2, Or.inr ⟨by tauto, _, _, rfl, getElem?_prefix hp2 (getElem?_idxOf hm), getElem?_idxOf hm2⟩⟩

theorem subLoop_ends {ws : List Word} (hu : ∀ w ∈ ws, Usable w) {id : DocumentID} (ps : List (Word × Word)) :
    ∀ {s : WordStore} {names' : List Word}, Grown m H names ws s names' → (∀ p ∈ ps, p.1 ∈ ws ∧ p.2 ∈ ws) →
    Ends m H names ws (subLoop m.reverseIndex id s ps) (termValue H id ps) := by
  induction ps with
  | nil => intro s names' h _; right; exact ⟨names', h, rfl⟩
  | cons p ps ih =>
    intro s names' h hp
    obtain ⟨p1, p2⟩ := hp p (by simp)
    rw [subLoop, termValue]
    have hc := h.getIDs_cases p2 p1 (hu _ p2) (hu _ p1)
    rcases hg : Matcher.getIDs s p.2 p.1 with ⟨s1, r⟩
    rw [hg] at hc; dsimp only at hc
    rcases hc with ⟨rfl, hr⟩ | ⟨n1, h1, ⟨he, rfl⟩ | ⟨he, i, j, rfl, hj, hi⟩⟩
    · exact Or.inl ⟨rfl, hr⟩
    · rw [if_pos he]; exact Or.inr ⟨n1, h1, rfl⟩
    · rw [if_neg he]
      dsimp only
      have := h1.inv.documentHasTerm hi hj id
      dsimp only at this
      rw [this]
      by_cases hc : H.Posting id p.1 p.2
      · simp only [hc, decide_true, if_true]
        exact ih h1 (fun q hq => hp q (by simp [hq]))
      · simp only [hc, decide_false, Bool.false_eq_true, if_false]
        exact Or.inr ⟨n1, h1, rfl⟩

theorem orLoop_ends {ws : List Word} (hu : ∀ w ∈ ws, Usable w) {id : DocumentID} (ts : List (List (Word × Word))) :
    ∀ {s : WordStore} {names' : List Word}, Grown m H names ws s names' → (∀ t ∈ ts, ∀ p ∈ t, p.1 ∈ ws ∧ p.2 ∈ ws) →
    Ends m H names ws (orLoop m.reverseIndex id s ts) (filterValue H id ts) := by
  induction ts with
  | nil => intro s names' h _; right; exact ⟨names', h, rfl⟩
  | cons t ts ih =>
    intro s names' h hp
    rw [orLoop, filterValue]
    have hc := subLoop_ends hu (id := id) t h (hp t (by simp))
    unfold Ends at hc
    rcases hg : subLoop m.reverseIndex id s t with ⟨s1, r⟩
    rw [hg] at hc; dsimp only at hc
    rcases hc with ⟨rfl, hr⟩ | ⟨n1, h1, rfl⟩
    · exact Or.inl ⟨rfl, hr⟩
    · rcases termValue H id t with _ | _ | _
      · exact Or.inr ⟨n1, h1, rfl⟩
      · exact ih h1 (fun q hq => hp q (by simp [hq]))
      · exact Or.inr ⟨n1, h1, rfl⟩

theorem keepLoop_ends {f : ResultFilter} (hu : ∀ w ∈ filterWords f, Usable w) (xs : List Result) :
    ∀ {s : WordStore} {names' : List Word}, Grown m H names (filterWords f) s names' →
    Ends m H names (filterWords f) (keepLoop m.reverseIndex f.termList s xs) (kept H f xs) := by
  induction xs with
  | nil => intro s names' h; right; exact ⟨names', h, rfl⟩
  | cons x xs ih =>
    intro s names' h
    rw [keepLoop, kept]
    have hc := orLoop_ends hu (id := x.2) f.termList h (fun t ht p hp => mem_filterWords ht hp)
    unfold Ends at hc
    rcases hg : orLoop m.reverseIndex x.2 s f.termList with ⟨s1, r⟩
    rw [hg] at hc; dsimp only at hc
    rcases hc with ⟨rfl, hr⟩ | ⟨n1, h1, rfl⟩
    · exact Or.inl ⟨rfl, hr⟩
    · rcases filterValue H x.2 f.termList with _ | _ | _
      · exact Or.inr ⟨n1, h1, rfl⟩
      · have := ih h1
        simpa [orThrow] using this
      · have hi := ih h1
        unfold Ends at hi
        dsimp only [orThrow]
        rcases hg3 : keepLoop m.reverseIndex f.termList s1 xs with ⟨s3, r3⟩
        rw [hg3] at hi; dsimp only at hi
        rcases hi with ⟨rfl, hr⟩ | ⟨n3, h3, rfl⟩
        · exact Or.inl ⟨rfl, hr⟩
        · rcases kept H f xs with _ | k
          · exact Or.inr ⟨n3, h3, rfl⟩
          · exact Or.inr ⟨n3, h3, rfl⟩

/-- What filtering does, exactly. -/
theorem MInv.filtered_ends (h : MInv m H names) {p : SearchParameters} (hu : ∀ w ∈ filterWords p.filter, Usable w) (l : List Result) :
    (∃ m', filtered m p l = (m', .error .runtimeError) ∧
      StorageRefused m.os (lettersIn names + 2 * lettersIn (filterWords p.filter))) ∨
    ∃ s' names', Grown m H names (filterWords p.filter) s' names' ∧
      filtered m p l = ({ m with store := s' }, orThrow ((kept H p.filter l).map (copied .new))) := by
  have hc := keepLoop_ends hu l ⟨h, List.prefix_refl _, fun v hv => Or.inl hv⟩
  unfold Ends at hc
  rw [Columbus.filtered]
  rcases hg : keepLoop m.reverseIndex p.filter.termList m.store l with ⟨s1, r⟩
  rw [hg] at hc; dsimp only at hc
  rcases hc with ⟨rfl, hr⟩ | ⟨n1, h1, rfl⟩
  · exact Or.inl ⟨_, rfl, hr⟩
  · refine Or.inr ⟨s1, n1, h1, ?_⟩
    rcases kept H p.filter l with _ | k <;> rfl

end

/-! ### The value of a filter -/

theorem termValue_eq {H : MatcherHistory} {d : DocumentID} (ps : List (Word × Word)) (h : ∀ p ∈ ps, p.1 ≠ [] ∧ p.2 ≠ []) :
    termValue H d ps = some (decide (∀ p ∈ ps, H.Posting d p.1 p.2)) := by
  induction ps with
  | nil => simp [termValue]
  | cons p ps ih =>
    have hp := h p (by simp)
    rw [termValue, if_neg (by tauto), ih (fun q hq => h q (by simp [hq]))]
    by_cases hc : H.Posting d p.1 p.2 <;> simp [hc]

theorem filterValue_eq {H : MatcherHistory} {d : DocumentID} (ts : List (List (Word × Word)))
    (h : ∀ t ∈ ts, ∀ p ∈ t, p.1 ≠ [] ∧ p.2 ≠ []) :
    filterValue H d ts = some (decide (∃ t ∈ ts, ∀ p ∈ t, H.Posting d p.1 p.2)) := by
  induction ts with
  | nil => simp [filterValue]
  | cons t ts ih =>
    rw [filterValue, termValue_eq t (h t (by simp)), ih (fun q hq => h q (by simp [hq]))]
    by_cases hc : ∀ p ∈ t, H.Posting d p.1 p.2
    · rw [decide_eq_true hc]
      simp only [Option.some.injEq]
      symm; rw [decide_eq_true_eq]; exact ⟨t, by simp, hc⟩
    · rw [decide_eq_false hc]
      simp only [Option.some.injEq, decide_eq_decide, List.mem_cons, exists_eq_or_imp]
      exact ⟨Or.inr, fun h => h.elim (fun h => absurd h hc) fun h => h⟩

theorem kept_eq {H : MatcherHistory} {f : ResultFilter} (h : [] ∉ filterWords f) (l : List Result) :
    kept H f l = some (l.filter fun x => decide (Satisfies H f x.2)) := by
  have hp : ∀ t ∈ f.termList, ∀ p ∈ t, p.1 ≠ [] ∧ p.2 ≠ [] := by
    intro t ht p hp
    obtain ⟨a, b⟩ := mem_filterWords ht hp
    exact ⟨fun e => h (e ▸ a), fun e => h (e ▸ b)⟩
  induction l with
  | nil => rfl
  | cons x l ih =>
    rw [kept, filterValue_eq _ hp, ih, List.filter_cons]
    simp only [Option.map_some, Option.some.injEq]
    rfl

theorem termValue_sound {H : MatcherHistory} {d : DocumentID} {b : Bool} (ps : List (Word × Word)) (h : termValue H d ps = some b) :
    b = decide (∀ p ∈ ps, H.Posting d p.1 p.2) := by
  induction ps with
  | nil => simp [termValue] at h; simp [h]
  | cons p ps ih =>
    rw [termValue] at h
    split at h
    · cases h
    · split at h
      · rename_i hc; rw [ih h]; simp [hc]
      · rename_i hc; injection h with h; subst h; simp [hc]

theorem filterValue_sound {H : MatcherHistory} {d : DocumentID} {b : Bool} (ts : List (List (Word × Word)))
    (h : filterValue H d ts = some b) : b = decide (∃ t ∈ ts, ∀ p ∈ t, H.Posting d p.1 p.2) := by
  induction ts with
  | nil => simp [filterValue] at h; simp [h]
  | cons t ts ih =>
    rw [filterValue] at h
    split at h
    · cases h
    · rename_i hc
      injection h with h; subst h
      have := of_decide_eq_true (termValue_sound _ hc).symm
      symm; rw [decide_eq_true_eq]; exact ⟨t, by simp, this⟩
    · rename_i hc
      have := of_decide_eq_false (termValue_sound _ hc).symm
      rw [ih h, decide_eq_decide]
      simp only [List.mem_cons, exists_eq_or_imp]
      exact ⟨Or.inr, fun h => h.elim (fun h => absurd h this) fun h => h⟩

/-- What is kept are the results that satisfy the filter. -/
theorem kept_sound {H : MatcherHistory} {f : ResultFilter} (l : List Result) : ∀ {k}, kept H f l = some k →
    k = l.filter fun x => decide (Satisfies H f x.2) := by
  induction l with
  | nil => intro k h; injection h with h; simp [← h]
  | cons x l ih =>
    intro k h
    rw [kept] at h
    split at h
    · cases h
    · rename_i b hb
      have := filterValue_sound _ hb
      cases hk : kept H f l with
      | none => rw [hk] at h; cases h
      | some k' =>
        rw [hk] at h
        simp only [Option.map_some, Option.some.injEq] at h
        rw [← h, List.filter_cons, ← ih hk, this]
        rfl

end Columbus
