import Verif.Spec.Program
import Verif.Proofs.MatcherFilter
/-
Sequences of calls.
-/

namespace Columbus
open Spec ErrorValues

section
variable [Build] [Icu] [Fp] {m : Matcher} {H : MatcherHistory} {names : List Word}

/-- `onlineMatch` for a known field, with a usable query. -/
theorem MInv.online_answer [Runtime] (h : MInv m H names) {f : Word} (hf : f ∈ names) {q : WordList} (hq : ∀ w ∈ q, Usable w)
    (hs : Sane m.e q H) :
    ∃ docs acc, IsAnswer m H names SearchParameters.new q docs ∧ m.onlineMatch q f = (m, .ok (Matcher.addAll .new acc)) ∧
      IsScores H q f (listing docs) acc := by
  obtain ⟨d1, a1, e1⟩ := h.matchQuery_eq (p := SearchParameters.new) hs
  rw [filtered_trivial _ rfl] at e1
  rcases h.online_known hf (q := q) (fun w hw => usable_noNul (hq w hw)) with ⟨x, x1, _⟩ | ⟨c1, acc1, s1, x1, y1, z1⟩
  · rw [Matcher.matchDefault, e1] at x1; cases x1
  · have hc : listing c1 = listing d1 := by
      rw [Matcher.matchDefault, e1] at x1
      injection x1 with _ x1; injection x1 with x1
      have x3 := congrArg MatchResults.results x1
      rw [copied_results, copied_results] at x3
      exact x3.symm
    rw [hc] at z1
    exact ⟨d1, acc1, a1, y1, z1⟩

omit [Build] [Icu] in
theorem IsScores.unique {q : WordList} {f : Word} {k : List Result} {a b : SMap DocumentID ℚ} (h1 : IsScores H q f k a)
    (h2 : IsScores H q f k b) : a = b := by
  apply SMap.eq_of_find h1.sorted h2.sorted
  intro d
  by_cases hd : d ∈ k.map (·.2)
  · obtain ⟨⟨rr, d'⟩, hx, rfl⟩ := List.mem_map.1 hd
    rw [h1.matched _ _ hx, h2.matched _ _ hx]
  · rw [h1.other _ hd, h2.other _ hd]

omit [Build] [Icu] in
theorem IsScores.mem {q : WordList} {f : Word} {k : List Result} {a : SMap DocumentID ℚ} (h : IsScores H q f k a) (d : DocumentID) :
    d ∈ a.map (·.1) ↔ d ∈ k.map (·.2) ∨ exacts H q f d ≠ 0 := by
  have hfind : d ∈ a.map (·.1) ↔ SMap.find ltNat a d ≠ none := by
    rw [← not_iff_not, not_not, SMap.find_none_iff strict_ltNat]
  rw [hfind]
  by_cases hd : d ∈ k.map (·.2)
  · obtain ⟨⟨rr, d'⟩, hx, rfl⟩ := List.mem_map.1 hd
    rw [h.matched _ _ hx]
    exact ⟨fun _ => Or.inl hd, fun _ => by simp⟩
  · rw [h.other d hd]
    by_cases h0 : exacts H q f d = 0 <;> simp [h0, hd]

/-- `onlineMatch` does not depend on unspecified behaviour. -/
theorem MInv.online_runtime (R1 R2 : Runtime) (h : MInv m H names) {f : Word} (hf : Usable f) {q : WordList} (hq : ∀ w ∈ q, Usable w)
    (hs : Sane m.e q H) : @Matcher.onlineMatch _ R1 _ m q f = @Matcher.onlineMatch _ R2 _ m q f := by
  by_cases hm : f ∈ names
  · obtain ⟨d1, c1, a1, e1, s1⟩ := @MInv.online_answer _ _ _ _ _ _ R1 h _ hm _ hq hs
    obtain ⟨d2, c2, a2, e2, s2⟩ := @MInv.online_answer _ _ _ _ _ _ R2 h _ hm _ hq hs
    have := a1.unique a2
    subst this
    rw [e1, e2, s1.unique s2]
  · rw [@MInv.online_unknown _ _ R1 _ _ _ _ h _ hf hm, @MInv.online_unknown _ _ R2 _ _ _ _ h _ hf hm]

/-- One call under two resolutions of unspecified behaviour. -/
theorem MInv.run_runtime (R1 R2 : Runtime) (hv : R1.valueFirst = R2.valueFirst) (h : MInv m H names) {c : Call} (hc : c.Ok m.e H) :
    @Call.run _ _ R1 _ m c = @Call.run _ _ R2 _ m c := by
  cases c with
  | index c => rfl
  | search q p =>
    obtain ⟨d1, a1, e1⟩ := @MInv.matchQuery_eq _ R1 _ _ m H names p q h hc.1
    obtain ⟨d2, a2, e2⟩ := @MInv.matchQuery_eq _ R2 _ _ m H names p q h hc.1
    have := a1.unique a2
    subst this
    rw [filtered_runtime R1 R2 hv] at e1
    simp only [Call.run, e1, e2]
  | online q f => simp only [Call.run, h.online_runtime R1 R2 hc.2.2 hc.2.1 hc.1]
  | errors op => rfl
  | weight f v => rfl

variable [Runtime]

omit [Fp] [Runtime] in
theorem index_e (h : MInv m H names) {c : Corpus} (hc : CorpusOk c) {o : Option Fault} {m' : Matcher} (e : m.index c = (m', o))
    (hb : ∀ f, o = some f → Fault.Benign f) : m'.e = m.e := by
  rcases h.index c m H names hc with ⟨m2, e2, _⟩ | ⟨m2, names', e2, h2, hp, hn, _, d1, d2, d3⟩
  · rw [e] at e2; injection e2 with _ e2
    subst e2
    rcases hb _ rfl with hb | hb <;> cases hb
  · rw [e] at e2; injection e2 with e2 _
    subst e2; exact d2

/-- A call after which the program goes on leads to a matcher that can be used. -/
theorem Ran.call {os : Nat → Bool} {K : List Word} (h : Ran os m H K) {c : Call} (hc : c.Ok m.e H) (hg : (c.run m).2.goesOn = true) :
    Ran os (c.run m).1 (c.texts H) (K ++ c.filterWords) ∧ (c.run m).1.e = c.prices m.e := by
  obtain ⟨names, hi, hos, hk⟩ := Ran.inv h
  cases c with
  | index c =>
    have hb : ∀ f, (m.index c).2 = some f → Fault.Benign f := by
      intro f hf
      simp only [Call.run, hf, Outcome.goesOn, decide_eq_true_eq] at hg
      exact hg
    refine ⟨?_, index_e hi hc rfl hb⟩
    simpa [Call.run, Call.texts, Call.filterWords] using Ran.index h hc rfl hb
  | search q p =>
    have hb : ∀ f, (m.matchQuery q p).2 = .error f → Fault.Benign f := by
      intro f hf
      simp only [Call.run, hf, Outcome.goesOn, decide_eq_true_eq] at hg
      exact hg
    refine ⟨Ran.search h hc.2 rfl hb, ?_⟩
    obtain ⟨m2, r2, e2, ⟨rfl, _⟩ | ⟨s', names', rfl, _⟩⟩ := hi.matchQuery_any q hc.2
    · rw [e2] at hb; rcases hb _ rfl with hb | hb <;> cases hb
    · simp only [Call.run, e2, Call.prices]
  | online q f =>
    have hb : ∀ x, (m.onlineMatch q f).2 = .error x → Fault.Benign x := by
      intro x hf
      simp only [Call.run, hf, Outcome.goesOn, decide_eq_true_eq] at hg
      exact hg
    have h1 : Ran os (m.onlineMatch q f).1 H K := Ran.online h hc.2.1 hc.2.2 rfl hb
    refine ⟨by simpa only [Call.run, Call.texts, Call.filterWords, List.append_nil] using h1, ?_⟩
    have : (m.onlineMatch q f).1 = m := by
      by_cases hm : f ∈ names
      · obtain ⟨_, _, _, e1, _⟩ := hi.online_answer hm hc.2.1 hc.1
        rw [e1]
      · rw [hi.online_unknown hc.2.2 hm]
    simp only [Call.run, this, Call.prices]
  | errors op => exact ⟨by simpa [Call.run, Call.texts, Call.filterWords] using Ran.errors op h, rfl⟩
  | weight f v => exact ⟨by simpa [Call.run, Call.texts, Call.filterWords] using Ran.weight f v h, rfl⟩

end

/-! ### Known words -/

section
variable [Build] [Runtime] {os : Nat → Bool} {s : WordStore} {names : List Word}

theorem getIDs_known (h : Names s os names) {v f : Word} (hv : v ∈ names) (hf : f ∈ names) :
    ∃ r, Matcher.getIDs s v f = (s, .ok r) := by
  unfold Matcher.getIDs
  cases Runtime.valueFirst <;> simp [h.getID_old hv, h.getID_old hf]

theorem subLoop_known (h : Names s os names) {ri : ReverseIndex} {id : DocumentID} (ps : List (Word × Word)) :
    (∀ p ∈ ps, p.1 ∈ names ∧ p.2 ∈ names) → ∃ b, subLoop ri id s ps = (s, .ok b) := by
  induction ps with
  | nil => intro _; exact ⟨true, rfl⟩
  | cons p ps ih =>
    intro hp
    obtain ⟨⟨a, b⟩, e⟩ := getIDs_known h (hp p (by simp)).2 (hp p (by simp)).1
    rw [subLoop, e]
    dsimp only
    split
    · exact ih (fun q hq => hp q (by simp [hq]))
    · exact ⟨_, rfl⟩

theorem orLoop_known (h : Names s os names) {ri : ReverseIndex} {id : DocumentID} (ts : List (List (Word × Word))) :
    (∀ t ∈ ts, ∀ p ∈ t, p.1 ∈ names ∧ p.2 ∈ names) → ∃ b, orLoop ri id s ts = (s, .ok b) := by
  induction ts with
  | nil => intro _; exact ⟨false, rfl⟩
  | cons t ts ih =>
    intro hp
    obtain ⟨b, e⟩ := subLoop_known h (ri := ri) (id := id) t (hp t (by simp))
    rw [orLoop, e]
    cases b
    · exact ih (fun q hq => hp q (by simp [hq]))
    · exact ⟨_, rfl⟩

theorem keepLoop_known (h : Names s os names) {ri : ReverseIndex} {ts : List (List (Word × Word))}
    (hp : ∀ t ∈ ts, ∀ p ∈ t, p.1 ∈ names ∧ p.2 ∈ names) (xs : List Result) : ∃ k, keepLoop ri ts s xs = (s, .ok k) := by
  induction xs with
  | nil => exact ⟨[], rfl⟩
  | cons x xs ih =>
    obtain ⟨b, e⟩ := orLoop_known h (ri := ri) (id := x.2) ts hp
    obtain ⟨k, e2⟩ := ih
    rw [keepLoop, e]
    cases b
    · exact ⟨k, e2⟩
    · dsimp only; rw [e2]; exact ⟨_, rfl⟩

theorem MInv.filtered_known [Icu] {m : Matcher} {H : MatcherHistory} (h : MInv m H names) {p : SearchParameters}
    (hp : ∀ w ∈ filterWords p.filter, w ∈ names) (l : List Result) : ∃ r, filtered m p l = (m, .ok r) := by
  obtain ⟨k, e⟩ := keepLoop_known h.store (ri := m.reverseIndex) (ts := p.filter.termList) (fun t ht q hq => by
    obtain ⟨a, b⟩ := mem_filterWords ht hq
    exact ⟨hp _ a, hp _ b⟩) l
  exact ⟨_, by rw [filtered, e]⟩

end

/-! ### Different matchers with the same texts -/

theorem kept_none {H : MatcherHistory} {f : ResultFilter} (l : List Result) :
    kept H f l = none ↔ ∃ d ∈ l.map (·.2), filterValue H d f.termList = none := by
  induction l with
  | nil => simp [kept]
  | cons x l ih =>
    rw [kept]
    cases hv : filterValue H x.2 f.termList with
    | none => simp [hv]
    | some b =>
      simp only [Option.map_eq_none_iff, ih, List.map_cons, List.mem_cons]
      constructor
      · rintro ⟨d, h1, h2⟩; exact ⟨d, Or.inr h1, h2⟩
      · rintro ⟨d, rfl | h1, h2⟩
        · rw [hv] at h2; cases h2
        · exact ⟨d, h1, h2⟩

theorem mentions_beforeEmpty (H : MatcherHistory) : lettersIn (beforeEmpty H).mentions ≤ lettersIn H.mentions := by
  induction H with
  | nil => simp [beforeEmpty]
  | cons x H ih =>
    rw [beforeEmpty]
    split
    · simp [MatcherHistory.mentions, lettersIn_nil]
    · split
      · have h1 : lettersIn (x.words.takeWhile fun w => !w.isEmpty) ≤ lettersIn x.words := by
          unfold lettersIn
          exact List.Sublist.sum_le_sum ((List.takeWhile_sublist _).map _) (by simp)
        simp only [MatcherHistory.mentions, List.flatMap_cons, List.flatMap_nil, List.append_nil, lettersIn_append, lettersIn_cons]
        omega
      · simp only [MatcherHistory.mentions, List.flatMap_cons, lettersIn_append, lettersIn_cons] at ih ⊢
        omega

theorem lettersIn_words (H : MatcherHistory) : lettersIn H.words ≤ lettersIn H.mentions := by
  induction H with
  | nil => simp [MatcherHistory.words, lettersIn_nil]
  | cons x H ih =>
    simp only [MatcherHistory.mentions, MatcherHistory.words, List.flatMap_cons, lettersIn_append, lettersIn_cons] at ih ⊢
    omega

section
variable [Build] [Icu] [Fp] {m1 m2 : Matcher} {H : MatcherHistory} {n1 n2 : List Word}

/-- One call on two matchers with the same texts and prices. -/
theorem run_alike (R1 R2 : Runtime) (h1 : MInv m1 H n1) (h2 : MInv m2 H n2) (he : m1.e = m2.e) {c : Call} (hc : c.Ok m1.e H)
    (hf : ∀ q f, c = .online q f → (f ∈ n1 ↔ f ∈ n2))
    (r1 : ¬ StorageRefused m1.os (lettersIn n1 + lettersIn H.words + 2 * c.letters))
    (r2 : ¬ StorageRefused m2.os (lettersIn n2 + lettersIn H.words + 2 * c.letters)) :
    Outcome.Alike (@Call.run _ _ R1 _ m1 c).2 (@Call.run _ _ R2 _ m2 c).2 ∧ (@Call.run _ _ R1 _ m1 c).2.goesOn = true ∧
      (@Call.run _ _ R2 _ m2 c).2.goesOn = true := by
  have hb : ∀ b, (Outcome.done (emptyFault b)).goesOn = true := by intro b; cases b <;> simp [emptyFault, Outcome.goesOn]
  cases c with
  | index c =>
    rcases h1.index c m1 H n1 hc with ⟨_, _, _, x⟩ | ⟨_, _, e1, _⟩
    · exact absurd x r1
    rcases h2.index c m2 H n2 hc with ⟨_, _, _, x⟩ | ⟨_, _, e2, _⟩
    · exact absurd x r2
    simp only [Call.run, e1, e2]
    exact ⟨.same _, hb _, hb _⟩
  | search q p =>
    obtain ⟨hs, hu⟩ := hc
    obtain ⟨d1, a1, e1⟩ := @MInv.matchQuery_eq _ R1 _ _ m1 H n1 p q h1 hs
    obtain ⟨d2, a2, e2⟩ := @MInv.matchQuery_eq _ R2 _ _ m2 H n2 p q h2 (he ▸ hs)
    have key : ∀ d, d ∈ d1.map (·.1) ↔ d ∈ d2.map (·.1) := by
      intro d
      rw [h1.answer_mem hs.nonNeg a1, h2.answer_mem (he ▸ hs.nonNeg) a2, he]
    have s1 : SMap.Sorted ltNat d1 := by obtain ⟨P, _, hD⟩ := a1; exact hD.sorted
    have s2 : SMap.Sorted ltNat d2 := by obtain ⟨P, _, hD⟩ := a2; exact hD.sorted
    rcases @MInv.filtered_ends _ _ m1 H n1 R1 h1 p hu (listing d1) with ⟨_, _, x⟩ | ⟨_, _, _, f1⟩
    · exact absurd (x.mono (by simp only [Call.letters]; omega)) r1
    rcases @MInv.filtered_ends _ _ m2 H n2 R2 h2 p hu (listing d2) with ⟨_, _, x⟩ | ⟨_, _, _, f2⟩
    · exact absurd (x.mono (by simp only [Call.letters]; omega)) r2
    simp only [Call.run, e1, e2, f1, f2]
    have hnone : kept H p.filter (listing d1) = none ↔ kept H p.filter (listing d2) = none := by
      simp only [kept_none, mem_listing_docs, key]
    cases k1 : kept H p.filter (listing d1) with
    | none =>
      rw [hnone.1 k1]
      exact ⟨.same _, rfl, rfl⟩
    | some l1 =>
      cases k2 : kept H p.filter (listing d2) with
      | none => rw [hnone.2 k2] at k1; cases k1
      | some l2 =>
        refine ⟨?_, rfl, rfl⟩
        have q1 := kept_sound _ k1
        have q2 := kept_sound _ k2
        refine Outcome.Alike.results (shows_copied (q1 ▸ (listing_rank s1).filter _)) (shows_copied (q2 ▸ (listing_rank s2).filter _)) ?_
        intro d
        have key2 : ∀ (D : SMap DocumentID ℚ),
            d ∈ ((listing D).filter fun x => decide (Satisfies H p.filter x.2)).map (·.2) ↔ d ∈ D.map (·.1) ∧ Satisfies H p.filter d := by
          intro D
          rw [← mem_listing_docs]
          simp only [List.mem_map, List.mem_filter, decide_eq_true_eq]
          constructor
          · rintro ⟨x, ⟨a, b⟩, rfl⟩; exact ⟨⟨x, a, rfl⟩, b⟩
          · rintro ⟨⟨x, a, rfl⟩, b⟩; exact ⟨x, ⟨a, b⟩, rfl⟩
        rw [q1, q2, key2, key2, key]
  | online q f =>
    obtain ⟨hs, hq, hu⟩ := hc
    by_cases hm : f ∈ n1
    · obtain ⟨d1, c1, a1, e1, s1⟩ := @MInv.online_answer _ _ _ _ _ _ R1 h1 _ hm _ hq hs
      obtain ⟨d2, c2, a2, e2, s2⟩ := @MInv.online_answer _ _ _ _ _ _ R2 h2 _ ((hf _ _ rfl).1 hm) _ hq (he ▸ hs)
      simp only [Call.run, e1, e2]
      refine ⟨Outcome.Alike.results (shows_addAll c1) (shows_addAll c2) ?_, rfl, rfl⟩
      intro d
      rw [mem_listing_docs, mem_listing_docs, s1.mem, s2.mem, mem_listing_docs, mem_listing_docs,
        h1.answer_mem hs.nonNeg a1, h2.answer_mem (he ▸ hs.nonNeg) a2, he]
    · simp only [Call.run, @MInv.online_unknown _ _ R1 _ _ _ _ h1 _ hu hm,
        @MInv.online_unknown _ _ R2 _ _ _ _ h2 _ hu (fun x => hm ((hf _ _ rfl).2 x))]
      exact ⟨.same _, rfl, rfl⟩
  | errors op => simp only [Call.run, he]; exact ⟨.same _, rfl, rfl⟩
  | weight f v => exact ⟨.same _, rfl, rfl⟩

end

end Columbus
