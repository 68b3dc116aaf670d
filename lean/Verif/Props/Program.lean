import Verif.Props.ProgramExample
/-
C48 and C52 for whole sequences of calls.
-/

namespace Columbus.Props
open Columbus Spec ErrorValues

section
variable [Build] [Icu] [Fp] {os : Nat → Bool} {m : Matcher} {H : MatcherHistory} {K : List Word}

/-! ### C48 -/

/-- C48. A program of calls has the same outcomes, exceptions and refusals of memory included, and the same final state for
every iteration order of hash tables and every tie order of the sort. The evaluation order of arguments is fixed here; for
the other order see C48_false and C48_alike_partial. -/
theorem C48_program_partial (R1 R2 : Runtime) (hv : R1.valueFirst = R2.valueFirst) (cs : List Call) :
    ∀ {m : Matcher} {H : MatcherHistory} {K : List Word}, @Ran _ _ R1 _ os m H K → CallsOk m.e H cs →
    @runCalls _ _ R1 _ m cs = @runCalls _ _ R2 _ m cs := by
  induction cs with
  | nil => intro m H K _ _; rfl
  | cons c cs ih =>
    intro m H K h hc
    obtain ⟨names, hi, _⟩ := @Columbus.Ran.inv _ _ R1 _ _ _ _ _ h
    have e := hi.run_runtime R1 R2 hv hc.1
    rw [@runCalls.eq_2 _ _ R1, @runCalls.eq_2 _ _ R2, ← e]
    by_cases hg : (@Call.run _ _ R1 _ m c).2.goesOn = true
    · rw [if_pos hg, if_pos hg]
      obtain ⟨h1, h2⟩ := @Columbus.Ran.call _ _ _ _ _ R1 _ _ h c hc.1 hg
      rw [ih h1 (by rw [h2]; exact hc.2)]
    · rw [if_neg hg, if_neg hg]

/-- Two matchers with the same texts, prices and filter words, under different resolutions of unspecified behaviour. -/
theorem runCalls_alike (R1 R2 : Runtime) (cs : List Call) :
    ∀ {m1 m2 : Matcher} {H : MatcherHistory} {K : List Word}, @Ran _ _ R1 _ os m1 H K → @Ran _ _ R2 _ os m2 H K →
    m1.e = m2.e → CallsOk m1.e H cs → FieldsClear H K cs →
    ¬ StorageRefused os (2 * (lettersIn H.mentions + lettersIn K + (cs.map Call.letters).sum)) →
    List.Forall₂ Outcome.Alike (@runCalls _ _ R1 _ m1 cs).2 (@runCalls _ _ R2 _ m2 cs).2 ∧
      (@runCalls _ _ R1 _ m1 cs).2.length = cs.length := by
  induction cs with
  | nil => intro m1 m2 H K _ _ _ _ _ _; exact ⟨.nil, rfl⟩
  | cons c cs ih =>
    intro m1 m2 H K h1 h2 he hc hf hr
    obtain ⟨n1, i1, o1, k1⟩ := @Columbus.Ran.inv _ _ R1 _ _ _ _ _ h1
    obtain ⟨n2, i2, o2, k2⟩ := @Columbus.Ran.inv _ _ R2 _ _ _ _ _ h2
    have l1 := names_letters i1.store k1
    have l2 := names_letters i2.store k2
    have lw := lettersIn_words H
    simp only [List.map_cons, List.sum_cons] at hr
    have hw1 : ¬ StorageRefused m1.os (lettersIn n1 + lettersIn H.words + 2 * c.letters) := by
      rw [o1]; exact fun x => hr (x.mono (by omega))
    have hw2 : ¬ StorageRefused m2.os (lettersIn n2 + lettersIn H.words + 2 * c.letters) := by
      rw [o2]; exact fun x => hr (x.mono (by omega))
    have hn : ∀ q f, c = .online q f → (f ∈ n1 ↔ f ∈ n2) := by
      intro q f e
      rcases hf.1 q f e with hm | hm
      · exact ⟨fun _ => i2.known f hm, fun _ => i1.known f hm⟩
      · exact ⟨fun x => i2.known f ((k1 f x).resolve_right hm), fun x => i1.known f ((k2 f x).resolve_right hm)⟩
    obtain ⟨ha, g1, g2⟩ := run_alike R1 R2 i1 i2 he hc.1 hn hw1 hw2
    obtain ⟨j1, p1⟩ := @Columbus.Ran.call _ _ _ _ _ R1 _ _ h1 c hc.1 g1
    obtain ⟨j2, p2⟩ := @Columbus.Ran.call _ _ _ _ _ R2 _ _ h2 c (he ▸ hc.1) g2
    rw [@runCalls.eq_2 _ _ R1, @runCalls.eq_2 _ _ R2, if_pos g1, if_pos g2]
    have hlet : lettersIn (c.texts H).mentions + lettersIn (K ++ c.filterWords) ≤ lettersIn H.mentions + lettersIn K + c.letters := by
      cases c with
      | index c =>
        have := mentions_beforeEmpty (corpusTexts c)
        simp only [Call.texts, Call.filterWords, Call.letters, MatcherHistory.mentions_append, lettersIn_append, lettersIn_nil]
        omega
      | search q p => simp only [Call.texts, Call.filterWords, Call.letters, lettersIn_append]; omega
      | online q f => simp [Call.texts, Call.filterWords, Call.letters]
      | errors op => simp [Call.texts, Call.filterWords, Call.letters]
      | weight f v => simp [Call.texts, Call.filterWords, Call.letters]
    obtain ⟨t1, t2⟩ := ih j1 j2 (by rw [p1, p2, he]) (by rw [p1]; exact hc.2) hf.2 (fun x => hr (x.mono (by omega)))
    exact ⟨.cons ha t1, by simp [t2]⟩

/-- C48. Whatever the resolution of unspecified behaviour, the evaluation order of arguments included, a program on a new
matcher makes all its calls, with the same exceptions and the same documents in the results, if no memory is refused. The
relevancies agree up to rounding (C74_relevancy), not exactly (C48_false). -/
theorem C48_alike_partial (R1 R2 : Runtime) (cs : List Call) (hm : Matcher.new os = .ok m) (hc : CallsOk m.e [] cs)
    (hf : FieldsClear [] [] cs) (hr : ¬ StorageRefused os (2 * (cs.map Call.letters).sum)) :
    List.Forall₂ Outcome.Alike (@runCalls _ _ R1 _ m cs).2 (@runCalls _ _ R2 _ m cs).2 ∧
      (@runCalls _ _ R1 _ m cs).2.length = cs.length :=
  runCalls_alike R1 R2 cs (@Ran.new _ _ R1 _ _ _ hm) (@Ran.new _ _ R2 _ _ _ hm) rfl hc hf
    (by simpa [MatcherHistory.mentions, lettersIn_nil] using hr)

end

/-- Equal results cannot show different relevancies of the second document. -/
theorem differ {r1 r2 : MatchResults} {k1 k2 : List Result} {v1 v2 : ℚ} {d : DocumentID} (s1 : Shows r1 k1) (s2 : Shows r2 k2)
    (n : (k1.map (·.2)).Nodup) (m1 : (v1, d) ∈ k1) (m2 : (v2, d) ∈ k2) (hv : v1 ≠ v2) : r1 ≠ r2 := by
  rintro rfl
  have := Columbus.Shows.unique s1 s2
  subst this
  have := List.inj_on_of_nodup_map n m1 m2 rfl
  injection this with h
  exact hv h

/-- Two resolutions of unspecified behaviour that differ in the evaluation order of arguments. -/
@[reducible] def valueFirst : Runtime := { Example.runtime with valueFirst := true }
@[reducible] def fieldFirst : Runtime := { Example.runtime with valueFirst := false }

/-- The program of the example. -/
def exampleProgram : List Call :=
  [.index Example.firstDoc, .search [Example.wordZ] (Example.between Example.wordX Example.wordY), .index Example.secondDoc,
    .search Example.threeWords SearchParameters.new]

theorem exampleProgram_ok [Build] [Icu] : CallsOk ErrorValues.new [] exampleProgram := by
  have t1 : [] ++ beforeEmpty (corpusTexts Example.firstDoc) = Example.oneText := by decide
  have t2 : Example.oneText ++ beforeEmpty (corpusTexts Example.secondDoc) = Example.bothTexts := by decide
  simp only [exampleProgram, CallsOk, Call.Ok, Call.texts, Call.prices, t1, t2, and_true]
  refine ⟨Example.firstDoc_ok, ⟨Example.sane_three (by decide) (by decide), ?_⟩, Example.secondDoc_ok,
    Example.sane_three (fun _ h => h) (by decide), ?_⟩
  · simp only [filterWords, Example.between, List.flatten_cons, List.flatten_nil, List.append_nil, List.flatMap_cons, List.flatMap_nil,
      List.mem_cons, List.not_mem_nil, or_false, forall_eq_or_imp, forall_eq]
    exact ⟨Or.inr Example.goodX, Or.inr Example.goodY⟩
  · simp [filterWords, SearchParameters.new, ResultFilter.new, ResultFilter.addNewTerm]

/-- The hypotheses of C48_program_partial and C48_alike_partial hold for the example. -/
example [Build] [Icu] : CallsOk ErrorValues.new [] exampleProgram ∧ FieldsClear [] [] exampleProgram ∧
    ¬ StorageRefused Example.os (2 * (exampleProgram.map Call.letters).sum) := by
  refine ⟨exampleProgram_ok, ?_, Example.granted (by decide)⟩
  simp [exampleProgram, FieldsClear]

attribute [local instance] ieee in
/-- The outcomes of the example: the last results show the second document with a relevancy that depends on the evaluation
order. -/
theorem exampleProgram_run [Build] [Icu] {R : Runtime} {a b : Word}
    (ha : a = if R.valueFirst then Example.wordY else Example.wordX)
    (hb : b = if R.valueFirst then Example.wordX else Example.wordY) {m : Matcher} (hm : Matcher.new Example.os = .ok m) :
    ∃ o1 o2 o3 r k, (runCalls m exampleProgram).2 = [o1, o2, o3, .results (.ok r)] ∧ Shows r k ∧ (k.map (·.2)).Nodup ∧
      (Example.finalValue a b, 2) ∈ k := by
  obtain ⟨m0, m1, names, e0, _, e1, _, h1, hz, hx, hy, hl, o1, p1, w1⟩ := Example.first_state
  rw [hm] at e0; injection e0 with e0; subst e0
  obtain ⟨m2, r2, e2, h2, o2, p2, w2⟩ := Example.between_search h1 o1 p1 w1 hl Example.goodX Example.goodY rfl rfl ha hb
  have hab : (a = Example.wordX ∧ b = Example.wordY) ∨ (a = Example.wordY ∧ b = Example.wordX) := by
    rw [ha, hb]; cases R.valueFirst <;> simp
  have hl2 : lettersIn (note (note names a) b) ≤ 4 := by
    have q1 := lettersIn_note names a
    have q2 := lettersIn_note (note names a) b
    have q3 : a.length = 1 ∧ b.length = 1 := by rcases hab with ⟨rfl, rfl⟩ | ⟨rfl, rfl⟩ <;> decide
    omega
  obtain ⟨m3, n3, e3, h3, hp, p3, w3⟩ := Example.second_state h2 o2 p2 w2 hl2
  have hne : a ∉ names ∧ b ∉ names ∧ a ≠ b := by
    rcases hab with ⟨rfl, rfl⟩ | ⟨rfl, rfl⟩
    · exact ⟨hx, hy, by decide⟩
    · exact ⟨hy, hx, by decide⟩
  obtain ⟨q1, q2⟩ := Example.note_order hz hne.1 hne.2.1 hne.2.2 hp
  obtain ⟨r, k, e4, hs, hn, hk⟩ := Example.final_search h3 p3 w3 hab q1 q2
  refine ⟨.done none, .results (.ok r2), .done none, r, k, ?_, hs, hn, hk⟩
  simp only [exampleProgram, runCalls, Call.run, e1, e2, e3, e4, Outcome.goesOn, if_true]

attribute [local instance] ieee in
/-- C48 is false for whole programs: a search with a filter gives identifiers to the words of the filter in the order in which
the arguments of a function call are evaluated, which the language leaves open. Relevancies are summed up in the order of
identifiers. So a later relevancy can differ in the last bit. -/
theorem C48_false [Build] [Icu] : ¬ ∀ (R1 R2 : Runtime) (os : Nat → Bool) (m : Matcher) (cs : List Call), Matcher.new os = .ok m →
    CallsOk m.e [] cs → ¬ StorageRefused os (2 * (cs.map Call.letters).sum) →
    (@runCalls _ _ R1 _ m cs).2 = (@runCalls _ _ R2 _ m cs).2 := by
  intro hall
  obtain ⟨m0, _, _, e0, p0, _⟩ := Example.first_state
  have h := hall valueFirst fieldFirst Example.os m0 exampleProgram e0 (by rw [p0]; exact exampleProgram_ok)
    (Example.granted (by decide))
  obtain ⟨_, _, _, r1, k1, e1, s1, n1, v1⟩ := exampleProgram_run (R := valueFirst) rfl rfl e0
  obtain ⟨_, _, _, r2, k2, e2, s2, n2, v2⟩ := exampleProgram_run (R := fieldFirst) rfl rfl e0
  rw [e1, e2] at h
  simp only [List.cons.injEq, Outcome.results.injEq, Except.ok.injEq, and_true] at h
  exact differ s1 s2 n1 v1 v2 (Ne.symm Example.values_differ) h.2.2.2

/-! ### C52 -/

section
variable [Build] [Icu] {os : Nat → Bool} {m : Matcher} {H : MatcherHistory} {K : List Word}

attribute [local instance] ieee in
/-- C52 is false for calls after further indexing, `onlineMatch` left aside: inserting a search with a filter can change a
later relevancy in the last bit. -/
theorem C52_later_false [Runtime] : ¬ ∀ (os : Nat → Bool) (m : Matcher) (H : MatcherHistory) (K : List Word) (q : WordList)
    (p : SearchParameters) (cs : List Call), Ran os m H K → CallsOk m.e H (.search q p :: cs) →
    (∀ c ∈ cs, ∀ q f, c ≠ .online q f) →
    ¬ StorageRefused os (2 * (lettersIn H.mentions + lettersIn K + ((Call.search q p :: cs).map Call.letters).sum)) →
    ∃ o, (runCalls m (.search q p :: cs)).2 = o :: (runCalls m cs).2 := by
  intro hall
  obtain ⟨m0, m1, names, e0, _, e1, hr, h1, hz, hx, hy, hl, o1, p1, w1⟩ := Example.first_state
  let cs : List Call := [.index Example.secondDoc, .search Example.threeWords SearchParameters.new]
  obtain ⟨m2, n2, e2, h2, hp, p2, w2⟩ := Example.second_state h1 o1 p1 w1 (by omega)
  have hxy : n2.idxOf Example.wordX ≠ n2.idxOf Example.wordY := by
    intro h
    have hx2 := getElem?_idxOf (h2.known Example.wordX (by decide))
    rw [h, getElem?_idxOf (h2.known Example.wordY (by decide))] at hx2
    injection hx2 with hx2
    exact absurd hx2 (by decide)
  have hzl : ∀ v, v ∉ names → v ∈ n2 → n2.idxOf Example.wordZ < n2.idxOf v := by
    intro v hv hm
    obtain ⟨t, rfl⟩ := hp
    rw [List.idxOf_append_of_mem hz, List.idxOf_append_of_notMem hv]
    have := List.idxOf_lt_length_iff.2 hz
    omega
  -- the order of identifiers without the search is a, b; the search is chosen so that it is b, a
  obtain ⟨a, b, hab, hlt⟩ : ∃ a b, ((a = Example.wordX ∧ b = Example.wordY) ∨ (a = Example.wordY ∧ b = Example.wordX)) ∧
      n2.idxOf a < n2.idxOf b := by
    rcases Nat.lt_or_gt_of_ne hxy with h | h
    · exact ⟨_, _, Or.inl ⟨rfl, rfl⟩, h⟩
    · exact ⟨_, _, Or.inr ⟨rfl, rfl⟩, h⟩
  have hba : (b = Example.wordX ∧ a = Example.wordY) ∨ (b = Example.wordY ∧ a = Example.wordX) := by tauto
  have fa : a ∉ names ∧ a ∈ n2 ∧ GoodWord a ∧ a.length = 1 := by
    rcases hab with ⟨rfl, rfl⟩ | ⟨rfl, rfl⟩
    · exact ⟨hx, h2.known _ (by decide), Example.goodX, rfl⟩
    · exact ⟨hy, h2.known _ (by decide), Example.goodY, rfl⟩
  have fb : b ∉ names ∧ b ∈ n2 ∧ GoodWord b ∧ b.length = 1 := by
    rcases hab with ⟨rfl, rfl⟩ | ⟨rfl, rfl⟩
    · exact ⟨hy, h2.known _ (by decide), Example.goodY, rfl⟩
    · exact ⟨hx, h2.known _ (by decide), Example.goodX, rfl⟩
  have hne : b ≠ a := by rintro rfl; exact Nat.lt_irrefl _ hlt
  obtain ⟨r, k, e3, hs, hn, hk⟩ := Example.final_search h2 p2 w2 hab (hzl a fa.1 fa.2.1) hlt
  have run1 : (runCalls m1 cs).2 = [.done none, .results (.ok r)] := by
    simp only [cs, runCalls, Call.run, e2, e3, Outcome.goesOn, if_true]
  let f : Word := if Runtime.valueFirst then a else b
  let w : Word := if Runtime.valueFirst then b else a
  have hfw : GoodWord f ∧ GoodWord w ∧ f.length = 1 ∧ w.length = 1 := by
    simp only [f, w]
    cases (Runtime.valueFirst : Bool)
    · exact ⟨fb.2.2.1, fa.2.2.1, fb.2.2.2, fa.2.2.2⟩
    · exact ⟨fa.2.2.1, fb.2.2.1, fa.2.2.2, fb.2.2.2⟩
  obtain ⟨m3, r3, e4, h3, o3, p3, w3⟩ := Example.between_search h1 o1 p1 w1 hl hfw.1 hfw.2.1 hfw.2.2.1 hfw.2.2.2 (a := b) (b := a)
    (by simp only [f, w]; cases (Runtime.valueFirst : Bool) <;> rfl) (by simp only [f, w]; cases (Runtime.valueFirst : Bool) <;> rfl)
  have hl3 : lettersIn (note (note names b) a) ≤ 4 := by
    have q1 := lettersIn_note names b
    have q2 := lettersIn_note (note names b) a
    have := fa.2.2.2; have := fb.2.2.2
    omega
  obtain ⟨m4, n4, e5, h4, hp4, p4, w4⟩ := Example.second_state h3 o3 p3 w3 hl3
  obtain ⟨q1, q2⟩ := Example.note_order hz fb.1 fa.1 hne hp4
  obtain ⟨r', k', e6, hs', hn', hk'⟩ := Example.final_search h4 p4 w4 hba q1 q2
  have run2 : (runCalls m1 (.search [Example.wordZ] (Example.between f w) :: cs)).2 =
      [.results (.ok r3), .done none, .results (.ok r')] := by
    simp only [cs, runCalls, Call.run, e4, e5, e6, Outcome.goesOn, if_true]
  have hfilter : filterWords (Example.between f w).filter = [f, w] := rfl
  have t2 : Example.oneText ++ beforeEmpty (corpusTexts Example.secondDoc) = Example.bothTexts := by decide
  obtain ⟨o, ho⟩ := hall Example.os m1 Example.oneText [] [Example.wordZ] (Example.between f w) cs hr (by
    rw [p1]
    simp only [cs, CallsOk, Call.Ok, Call.texts, Call.prices, t2, and_true]
    refine ⟨⟨Example.sane_three (by decide) (by decide), ?_⟩, Example.secondDoc_ok, Example.sane_three (fun _ h => h) (by decide), ?_⟩
    · rw [hfilter]
      simp only [List.mem_cons, List.not_mem_nil, or_false, forall_eq_or_imp, forall_eq]
      exact ⟨Or.inr hfw.1, Or.inr hfw.2.1⟩
    · simp [filterWords, SearchParameters.new, ResultFilter.new, ResultFilter.addNewTerm])
    (by
      intro c hc q f
      simp only [cs, List.mem_cons, List.not_mem_nil, or_false] at hc
      rcases hc with rfl | rfl <;> simp)
    (Example.granted (by
      have h1 : lettersIn Example.oneText.mentions = 2 := by decide
      have h2 : (cs.map Call.letters).sum = 5 := by decide
      have h3 : (Call.search [Example.wordZ] (Example.between f w)).letters = f.length + w.length := by
        show lettersIn (filterWords (Example.between f w).filter) = _
        rw [hfilter]; simp [lettersIn]
      rw [List.map_cons, List.sum_cons, h1, h2, h3, hfw.2.2.1, hfw.2.2.2, lettersIn_nil]
      omega))
  rw [run1, run2] at ho
  simp only [List.cons.injEq, Outcome.results.injEq, Except.ok.injEq, and_true, true_and] at ho
  refine differ hs' hs hn' hk' hk ?_ ho.2
  rcases hab with ⟨rfl, rfl⟩ | ⟨rfl, rfl⟩
  · exact Ne.symm Example.values_differ
  · exact Example.values_differ

variable [Fp]

/-- C52. `onlineMatch`, and `match` if its filter mentions only indexed words, can be inserted anywhere in a program without
any effect on the state and on the outcomes of the other calls. Missing: `match` with a filter that mentions other words. -/
theorem C52_quiet_partial [Runtime] (h : Ran os m H K) (c : Call) (hc : c.Ok m.e H) (hq : c.Quiet H) (cs : List Call) :
    runCalls m (c :: cs) = ((runCalls m cs).1, (c.run m).2 :: (runCalls m cs).2) := by
  obtain ⟨names, hi, _⟩ := Columbus.Ran.inv h
  have key : (c.run m).1 = m ∧ (c.run m).2.goesOn = true := by
    cases c with
    | search q p =>
      obtain ⟨d, _, e⟩ := hi.matchQuery_eq (p := p) hc.1
      obtain ⟨r, e2⟩ := hi.filtered_known (p := p) (fun w hw => hi.known w (hq w hw)) (listing d)
      simp only [Call.run, e, e2]
      exact ⟨trivial, rfl⟩
    | online q f =>
      by_cases hm : f ∈ names
      · obtain ⟨_, _, _, e, _⟩ := hi.online_answer hm hc.2.1 hc.1
        simp only [Call.run, e]; exact ⟨trivial, rfl⟩
      · simp only [Call.run, hi.online_unknown hc.2.2 hm]; exact ⟨trivial, rfl⟩
    | index c => exact hq.elim
    | errors op => exact hq.elim
    | weight f v => exact hq.elim
  rw [runCalls, if_pos key.2, key.1]

/-- In the example a filter for the title "save" is quiet, one with a word that no text has is not. -/
example : Call.Quiet Example.texts (.search [Example.save] ⟨true, ⟨[[(Example.title, Example.save)]]⟩, []⟩) ∧
    ¬ Call.Quiet Example.texts (.search [Example.save] ⟨true, ⟨[[(Example.title, Example.other)]]⟩, []⟩) := by
  constructor
  · intro w hw
    have : w = Example.title ∨ w = Example.save := by simpa [filterWords] using hw
    rcases this with rfl | rfl <;> decide
  · intro h
    exact absurd (h Example.other (by simp [filterWords])) (by decide)

end
end Columbus.Props
