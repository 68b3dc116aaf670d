import Verif.Proofs.Messages
import Verif.Props.MatcherExample
import Verif.Props.Word
import Verif.Spec.Apps
/-
The build with debug messages: C88 and C89.
-/

namespace Columbus.Props
open Columbus Spec ErrorValues

section
variable [Build] [Icu] [Runtime] [Fp] {os : Nat → Bool} {m : Matcher} {H : MatcherHistory} {K : List Word}

/-! ### C88 -/

/-- C88. One call in the build with debug messages leaves the same matcher and has the same outcome as in the ordinary
build, if the words in it are well-formed UTF-16. -/
theorem C88_call_partial (h : Ran os m H K) (c : Call) (hc : c.Ok m.e H) (hp : c.Printable) (out : Verbose.Output) :
    (Verbose.run m out c).1 = (c.run m).1 ∧ (Verbose.run m out c).2.1 = (c.run m).2 := by
  obtain ⟨names, hi, _⟩ := Columbus.Ran.inv h
  cases c with
  | index c =>
    simp only [Verbose.run, Call.run, Verbose.index]
    rcases hi.index c m H names hc with ⟨m2, e2, _⟩ | ⟨m2, names', e2, h2, _⟩
    · rw [e2]; exact ⟨rfl, rfl⟩
    · rw [e2]
      rcases he : emptyFault (!decide (NoEmpty (corpusTexts c))) with _ | f
      · obtain ⟨rs, e, _⟩ := h2.reportLoop (Runtime.iterIndexes (m2.indexes.map (·.1)))
          (out ++ [.added c.length m2.indexes.length]) (fun k hk => (Runtime.iterIndexes_perm _).mem_iff.1 hk)
        simp only [e]
        exact ⟨trivial, trivial⟩
      · exact ⟨rfl, rfl⟩
  | search q p =>
    obtain ⟨rs, _, e⟩ := hi.vMatchQuery (p := p) hc.1 (fun _ => hp) out
    simp only [Verbose.run, Call.run, e]
    rcases m.matchQuery q p with ⟨m', f | r⟩ <;> exact ⟨rfl, rfl⟩
  | online q f =>
    obtain ⟨rs, _, e⟩ := hi.vOnline hc.1 (fun _ => hp) hc.2.2 out
    simp only [Verbose.run, Call.run, e]
    rcases m.onlineMatch q f with ⟨m', f | r⟩ <;> exact ⟨rfl, rfl⟩
  | errors op =>
    obtain ⟨h1, h2⟩ := Verbose.same_errRun m.e out op hp
    simp only [Verbose.run, Call.run]
    rw [← h1, ← h2]
    rcases Verbose.errRun m.e out op with ⟨e, f | r⟩ <;> exact ⟨rfl, rfl⟩
  | weight f v => exact ⟨rfl, rfl⟩

/-- C88. A whole program of calls ends in the same matcher with the same outcomes, exceptions and refusals of memory
included. Missing from the full claim: words that are not well-formed UTF-16, which can be made from arrays of letters. -/
theorem C88_program_partial (cs : List Call) : ∀ {m : Matcher} {H : MatcherHistory} {K : List Word}, Ran os m H K → CallsOk m.e H cs →
    (∀ c ∈ cs, c.Printable) → ∀ out,
    (Verbose.runCalls m out cs).1 = (runCalls m cs).1 ∧ (Verbose.runCalls m out cs).2.1 = (runCalls m cs).2 := by
  induction cs with
  | nil => intro m H K _ _ _ out; exact ⟨rfl, rfl⟩
  | cons c cs ih =>
    intro m H K h hc hp out
    obtain ⟨e1, e2⟩ := C88_call_partial h c hc.1 (hp c (by simp)) out
    rw [Verbose.runCalls, runCalls]
    rcases hr : Verbose.run m out c with ⟨m', o, out'⟩
    rw [hr] at e1 e2
    dsimp only at e1 e2
    subst e1 e2
    dsimp only
    by_cases hg : (Call.run m c).2.goesOn = true
    · rw [if_pos hg, if_pos hg]
      obtain ⟨h1, h2⟩ := Columbus.Ran.call h hc.1 hg
      obtain ⟨i1, i2⟩ := ih h1 (by rw [h2]; exact hc.2) (fun c hc => hp c (by simp [hc])) out'
      rcases hv : Verbose.runCalls (Call.run m c).1 out' cs with ⟨m2, o2, out2⟩
      rw [hv] at i1 i2
      exact ⟨i1, by dsimp only at i2 ⊢; rw [i2]⟩
    · rw [if_neg hg, if_neg hg]
      exact ⟨rfl, rfl⟩

/-- C88. A search behaves differently exactly when a query word is not well-formed UTF-16 and some field is searched: it
then throws `runtime_error`; otherwise it has the results of the ordinary build. -/
theorem C88_search (h : Ran os m H K) (q : WordList) (p : SearchParameters) (hs : Sane m.e q H) (out : Verbose.Output) :
    ((∃ w ∈ q, ¬ Printable w) ∧ (∃ f, H.occurrences f ≠ [] ∧ p.isNonsearchingField f = false) →
      Verbose.matchQuery m q p out = (m, .error .runtimeError)) ∧
    (¬ ((∃ w ∈ q, ¬ Printable w) ∧ (∃ f, H.occurrences f ≠ [] ∧ p.isNonsearchingField f = false)) →
      (Verbose.matchQuery m q p out).1 = (m.matchQuery q p).1 ∧
      (Verbose.matchQuery m q p out).2.map (·.1) = (m.matchQuery q p).2) := by
  obtain ⟨names, hi, _⟩ := Columbus.Ran.inv h
  constructor
  · rintro ⟨h1, h2⟩
    exact hi.vMatchQuery_bad hs h1 (hi.searchedOf_iff.2 h2) out
  · intro hn
    obtain ⟨rs, _, e⟩ := hi.vMatchQuery (p := p) hs (fun h1 w hw => by
      by_contra h2; exact hn ⟨⟨w, hw, h2⟩, hi.searchedOf_iff.1 h1⟩) out
    rw [e]
    rcases m.matchQuery q p with ⟨m', f | r⟩ <;> exact ⟨rfl, rfl⟩

/-- C88. A search for text has the same results, whatever the text. -/
theorem C88_text (h : Ran os m H K) (s : Bytes) (p : SearchParameters) (hs : ∀ q, splitToWords s = .ok q → Sane m.e q H)
    (out : Verbose.Output) : (Verbose.matchUtf8Params m s p out).1 = (m.matchUtf8Params s p).1 ∧
      (Verbose.matchUtf8Params m s p out).2.map (·.1) = (m.matchUtf8Params s p).2 := by
  rw [Verbose.matchUtf8Params, Matcher.matchUtf8Params]
  cases hq : splitToWords s with
  | error f => exact ⟨rfl, rfl⟩
  | ok q =>
    refine (C88_search h q p (hs q hq) out).2 ?_
    rintro ⟨⟨w, hw, hn⟩, _⟩
    obtain ⟨ts, _, h1, h2⟩ := C11_split s
    by_cases hwf : WellFormed s
    · obtain ⟨q', e, hq'⟩ := h1 hwf
      rw [hq] at e
      injection e with e
      subst e
      clear * - hq' hw hn
      induction hq' with
      | nil => simp at hw
      | cons ht _ ih =>
        rcases List.mem_cons.1 hw with rfl | hw
        · exact hn (Verbose.printable_ofUtf8 ht)
        · exact ih hw
    · rw [h2 hwf] at hq; cases hq

/-- C88. An online search on a field with words throws `runtime_error` if a query word is not well-formed. -/
theorem C88_online (h : Ran os m H K) (q : WordList) (f : Word) (hs : Sane m.e q H) (hq : ∃ w ∈ q, ¬ Printable w)
    (hf : H.occurrences f ≠ []) (out : Verbose.Output) : Verbose.onlineMatch m q f out = (m, .error .runtimeError) := by
  obtain ⟨names, hi, _⟩ := Columbus.Ran.inv h
  obtain ⟨w, hw⟩ := List.exists_mem_of_ne_nil _ hf
  obtain ⟨d, hd⟩ := MatcherHistory.mem_occurrences.1 hw
  obtain ⟨acc, e, _⟩ := hi.vOnline_eq hs (hi.known f hd.field)
  rw [e, (C88_search h q SearchParameters.new hs out).1 ⟨hq, f, hf, rfl⟩]

end

/-- C88. Adding a group of letters: the state is always that of the ordinary build. The exception is too, unless the
group was added and is not well-formed UTF-16; then `runtime_error` is thrown although the group is in force. -/
theorem C88_group (e : ErrorValues) (g : Word) (v : Int) (out : Verbose.Output) :
    (Verbose.setGroupError e g v out).1 = (e.setGroupError g v).1 ∧
    (Printable g → Verbose.faultOf (Verbose.setGroupError e g v out).2 = (e.setGroupError g v).2) ∧
    (¬ Printable g → Verbose.faultOf (Verbose.setGroupError e g v out).2 = some ((e.setGroupError g v).2.getD .runtimeError)) := by
  by_cases hg : Printable g
  · obtain ⟨h1, h2⟩ := Verbose.same_setGroupError e hg v out
    exact ⟨h1, fun _ => h2, fun h => absurd hg h⟩
  · refine ⟨?_, fun h => absurd h hg, fun _ => ?_⟩ <;> unfold Verbose.setGroupError <;>
      rcases e.setGroupError g v with ⟨e', _ | f⟩ <;>
      simp [show Word.asUtf8 g = .error .runtimeError from asUtf8_bad hg, Verbose.faultOf]

/-- C88. The accent files can be read in that build like in the other, whatever is in them. -/
theorem C88_standard [Build] [Icu] (data : DataDir) (e : ErrorValues) (out : Verbose.Output) :
    (Verbose.addStandardErrors data e out).1 = (e.addStandardErrors data).1 ∧
    Verbose.faultOf (Verbose.addStandardErrors data e out).2 = (e.addStandardErrors data).2 :=
  Verbose.same_addStandardErrors data e out

/-- "a" and a lone high surrogate. -/
def illFormed : Word := [0x61#16, 0xD800#16]

/-- A document with this as name of a field. -/
def illCorpus : Corpus := [documentOf 1 [(illFormed, [[0x62#16]])]]

/-- C88 is false: an array of letters makes the word (see C06); a corpus with this field name is indexed by both builds,
but the one with debug messages then throws. -/
theorem C88_false_index : let _ := Example.debug; let _ := Example.runtime
    Word.ofLetters [0x61#16, 0xD800#16, 0#16] = .ok illFormed ∧
    ∃ m m', Matcher.new Example.os = .ok m ∧ m.index illCorpus = (m', none) ∧
      Verbose.index m illCorpus [] = (m', .error .runtimeError) := by
  intro _ _
  refine ⟨by decide, ?_⟩
  have hb : (match Matcher.new Example.os with
      | .ok m => decide ((m.index illCorpus).2 = none ∧ Verbose.faultOf (Verbose.index m illCorpus []).2 = some .runtimeError)
      | .error _ => false) = true := by decide +kernel
  cases hm : Matcher.new Example.os with
  | error f => rw [hm] at hb; cases hb
  | ok m =>
    rw [hm] at hb
    obtain ⟨h1, h2⟩ := of_decide_eq_true hb
    rcases hi : m.index illCorpus with ⟨m', o⟩
    rw [hi] at h1
    dsimp only at h1
    subst h1
    refine ⟨m, m', rfl, hi, ?_⟩
    have h3 : (Verbose.index m illCorpus []).1 = m' := by rw [Verbose.index, hi]
    rcases hv : Verbose.index m illCorpus [] with ⟨m2, r | f⟩ <;> rw [hv] at h2 h3 <;>
      simp only [Verbose.faultOf, reduceCtorEq, Option.some.injEq] at h2 h3
    rw [h2, h3]

section
variable [Build] [Icu] [Runtime] [Fp]

omit [Build] [Icu] [Runtime] [Fp] in
theorem illFormed_bad : ¬ Printable illFormed := by
  rintro ⟨c, hc⟩
  cases hc with
  | bmp _ h =>
    cases h with
    | bmp h _ => simp at h
  | pair h => simp at h

/-- C88 is false: a search for this word has results in the ordinary build and throws in the one with debug messages. -/
theorem C88_false_search : ∃ m r, Ran Example.os m Example.texts [] ∧
    (m.matchQuery [illFormed] SearchParameters.new).2 = .ok r ∧
    Verbose.matchQuery m [illFormed] SearchParameters.new [] = (m, .error .runtimeError) := by
  obtain ⟨m, h, he, _⟩ := Example.ran
  have hs : Sane m.e [illFormed] Example.texts := by
    rw [he]; exact sane_default (by simp [illFormed]) (L := 100) (by simp [illFormed]) (by decide) (by omega)
  obtain ⟨names, hi, _⟩ := Columbus.Ran.inv h
  obtain ⟨docs, _, e⟩ := hi.matchQuery_eq (p := SearchParameters.new) hs
  rw [filtered_trivial _ rfl] at e
  refine ⟨m, _, h, by rw [e], (C88_search h _ _ hs []).1 ⟨⟨illFormed, by simp, illFormed_bad⟩, Example.title, ?_, rfl⟩⟩
  decide

/-- The hypotheses of C88_program_partial can be met: indexing, a group and a search. -/
example : ∃ m, Ran Example.os m [] [] ∧
    CallsOk m.e [] [.index Example.corpus, .errors (.setGroupError Example.as 30), .weight Example.title 2] ∧
    ∀ c ∈ [Call.index Example.corpus, .errors (.setGroupError Example.as 30), .weight Example.title 2], c.Printable := by
  rcases MInv.new Example.os with ⟨h, _⟩ | ⟨m0, e0, _⟩
  · cases h
  · refine ⟨m0, .new e0, ⟨Example.corpus_ok, trivial, trivial, trivial⟩, ?_⟩
    intro c hc
    simp only [List.mem_cons, List.not_mem_nil, or_false] at hc
    rcases hc with rfl | rfl | rfl
    · trivial
    · exact Example.good_as.wellFormed
    · trivial

example : ∃ m, Ran Example.os m Example.texts [] ∧ (Call.search [Example.save] SearchParameters.new).Ok m.e Example.texts ∧
    (Call.search [Example.save] SearchParameters.new).Printable := by
  obtain ⟨m, h, he, _⟩ := Example.ran
  refine ⟨m, h, ⟨by rw [he]; exact Example.sane_save, by simp [filterWords, SearchParameters.new, ResultFilter.new,
    ResultFilter.addNewTerm]⟩, ?_⟩
  intro w hw
  simp only [List.mem_cons, List.not_mem_nil, or_false] at hw
  subst hw
  exact Example.good_save.wellFormed

end

/-! ### C89 -/

section
variable [Build] [Icu] [Runtime] [Fp] {os : Nat → Bool} {m : Matcher} {H : MatcherHistory} {K : List Word}

/-- C89. After indexing, the messages give the number of documents added, the number of fields with words, and for every
such field once its name and the numbers of its distinct words and of their distinct prefixes (the empty one included). -/
theorem C89_index (h : Ran os m H K) (c : Corpus) (hc : CorpusOk c) (m' : Matcher) (hm : m.index c = (m', none)) (out : Verbose.Output) :
    ∃ fs rs, Verbose.index m c out = (m', .ok (out ++ .added c.length fs.length :: rs)) ∧ fs.Nodup ∧
      (∀ f, f ∈ fs ↔ (H ++ corpusTexts c).occurrences f ≠ []) ∧ List.Forall₂ (Verbose.Reported (H ++ corpusTexts c)) fs rs := by
  obtain ⟨names, hi, _⟩ := Columbus.Ran.inv h
  rcases hi.index c m H names hc with ⟨m2, e2, _⟩ | ⟨m2, names', e2, h2, _⟩
  · rw [hm] at e2; cases e2
  · rw [hm] at e2
    injection e2 with e2 e3
    subst e2
    have hne : NoEmpty (corpusTexts c) := by
      by_contra hx; simp [emptyFault, hx] at e3
    rw [beforeEmpty_self hne] at h2
    have hk := Runtime.iterIndexes_perm (m'.indexes.map (·.1))
    obtain ⟨rs, e, hr⟩ := h2.reportLoop (Runtime.iterIndexes (m'.indexes.map (·.1)))
      (out ++ [.added c.length m'.indexes.length]) (fun k hk' => hk.mem_iff.1 hk')
    obtain ⟨n1, n2⟩ := h2.key_names hk
    refine ⟨_, rs, ?_, n1, n2, List.forall₂_map_left_iff.2 hr⟩
    rw [Verbose.index, hm]
    simp only [e, List.length_map, hk.length_eq]
    simp

/-- C89. The messages of a search: first, for every query word in order and every searched field once, the limit and how
many words of the field are within it; then, for every matched word of a field once, how many documents have it there;
then the number of documents found, before filtering. Fields come in the same order for every query word. -/
theorem C89_search (h : Ran os m H K) (q : WordList) (p : SearchParameters) (hs : Sane m.e q H) (he : Exact m.e q) (hq : q ≠ [])
    (hp : ∀ w ∈ q, Printable w) (out : Verbose.Output) :
    ∃ (fs : List Word) (ps : List (Word × Word)) (n : Nat) (r1 r2 : Verbose.Output), (∀ r out', (Verbose.matchQuery m q p out).2 = .ok (r, out') → out' = out ++ r1 ++ r2 ++ [.total n, .finished]) ∧
      fs.Nodup ∧ (∀ f, f ∈ fs ↔ H.occurrences f ≠ [] ∧ p.isNonsearchingField f = false) ∧
      List.Forall₂ (fun (x : Word × Word) r => Verbose.TriedOn m.e p H x.1 x.2 r) (q.flatMap fun x => fs.map fun f => (x, f)) r1 ∧
      ps.Nodup ∧ (∀ f w, (f, w) ∈ ps ↔ w ∈ H.occurrences f ∧ p.isNonsearchingField f = false ∧
        ∃ x ∈ q, ∃ v, IsEditCost (configured m.e x.length) x w v ∧ v ≤ limit p x) ∧
      List.Forall₂ (fun (x : Word × Word) r => Verbose.GatheredOn H x.1 x.2 r) ps r2 ∧
      Counts n (fun d => ∃ f w x v, H.Posting d f w ∧ p.isNonsearchingField f = false ∧ x ∈ q ∧
        IsEditCost (configured m.e x.length) x w v ∧ v ≤ limit p x) := by
  obtain ⟨names, hi, _⟩ := Columbus.Ran.inv h
  obtain ⟨rs, ht, e⟩ := hi.vMatchQuery (p := p) hs (fun _ => hp) out
  rcases ht with ⟨h0, _⟩ | ⟨_, docs, r1, r2, ⟨ha, htr, P, hP, hg⟩, rfl⟩
  · exact absurd h0 hq
  have hk := Runtime.iterIndexes_perm (m.indexes.map (·.1))
  obtain ⟨n1, n2⟩ := hi.key_names hk
  have hpair : ∀ x ∈ P, ∃ f w, names.getD x.1 [] = f ∧ names.getD x.2.1 [] = w ∧ names[x.1]? = some f ∧ names[x.2.1]? = some w := by
    rintro ⟨i, j, v⟩ hx
    obtain ⟨⟨y, hy, f, w, hf, hw, _⟩, _⟩ := (hP.mem i j v).1 hx
    exact ⟨f, w, by rw [List.getD_eq_getElem?_getD, hf]; rfl, by rw [List.getD_eq_getElem?_getD, hw]; rfl, hf, hw⟩
  refine ⟨(Verbose.searchedOf names p (Runtime.iterIndexes (m.indexes.map (·.1)))).map fun k => names.getD k [],
    P.map fun x => (names.getD x.1 [], names.getD x.2.1 []), docs.length, r1, r2, ?_, ?_, ?_, ?_, ?_, ?_, ?_, ?_⟩
  · intro r out' ho
    rw [e] at ho
    rcases hm : m.matchQuery q p with ⟨m', f | r'⟩ <;> rw [hm] at ho <;> simp only [Verbose.withOutput, reduceCtorEq, Except.ok.injEq, Prod.mk.injEq] at ho
    rw [← ho.2]; simp
  · exact n1.sublist (List.filter_sublist.map _)
  · intro f
    rw [List.mem_map]
    constructor
    · rintro ⟨k, hk', rfl⟩
      obtain ⟨k1, k2⟩ := List.mem_filter.1 hk'
      exact ⟨(n2 _).1 (List.mem_map.2 ⟨k, k1, rfl⟩), by simpa using k2⟩
    · rintro ⟨h1, h2⟩
      obtain ⟨k, k1, rfl⟩ := List.mem_map.1 ((n2 f).2 h1)
      exact ⟨k, List.mem_filter.2 ⟨k1, by simpa using h2⟩, rfl⟩
  · have hl : (q.flatMap fun x => ((Verbose.searchedOf names p (Runtime.iterIndexes (m.indexes.map (·.1)))).map
        fun k => names.getD k []).map fun f => (x, f)) =
        (q.flatMap fun x => (Verbose.searchedOf names p (Runtime.iterIndexes (m.indexes.map (·.1)))).map fun k => (x, k)).map
          fun y => (y.1, names.getD y.2 []) := by
      rw [List.map_flatMap]
      simp only [List.map_map]
      rfl
    rw [hl, List.forall₂_map_left_iff]
    refine (Verbose.forall₂_mem htr).imp ?_
    rintro ⟨x, k⟩ r ⟨hmem, s, t, ix, ms, rfl, hs1, ht1, hix, hms⟩
    obtain ⟨x', hx', hmem⟩ := List.mem_flatMap.1 hmem
    obtain ⟨k', hk', hmem⟩ := List.mem_map.1 hmem
    simp only [Prod.mk.injEq] at hmem
    obtain ⟨rfl, rfl⟩ := hmem
    obtain ⟨f, hf, hfd, _⟩ := hi.key_name (hk.mem_iff.1 (List.mem_filter.1 hk').1)
    dsimp only at *
    rw [hfd] at ht1 ⊢
    exact ⟨s, t, ms.length, rfl, (printed_iff (hs.noNul x' hx')).1 hs1, ht1, hi.findWords_counts hix hf hs he hx' hms⟩
  · rw [List.Nodup, List.pairwise_map]
    refine hP.sorted.imp_of_mem ?_
    intro a b ha hb hab heq
    obtain ⟨f, w, a1, a2, a3, a4⟩ := hpair a ha
    obtain ⟨f', w', b1, b2, b3, b4⟩ := hpair b hb
    rw [a1, a2, b1, b2] at heq
    simp only [Prod.mk.injEq] at heq
    obtain ⟨rfl, rfl⟩ := heq
    have e1 : a.1 = b.1 := by rw [← hi.store.idx a3, ← hi.store.idx b3]
    have e2 : a.2.1 = b.2.1 := by rw [← hi.store.idx a4, ← hi.store.idx b4]
    rcases hab with hab | ⟨_, hab⟩
    · rw [e1] at hab; exact absurd hab (lt_irrefl _)
    · rw [e2] at hab; exact absurd hab (lt_irrefl _)
  · intro f w
    rw [List.mem_map]
    constructor
    · rintro ⟨⟨i, j, v⟩, hx, heq⟩
      obtain ⟨⟨y, hy, f', w', hf, hw, h1, h2, h3, rfl⟩, _⟩ := (hP.mem i j v).1 hx
      simp only [List.getD_eq_getElem?_getD, hf, hw, Option.getD_some, Prod.mk.injEq] at heq
      obtain ⟨rfl, rfl⟩ := heq
      exact ⟨h2, h1, y, hy, _, isEditCost_iff.2 rfl, (seen_iff hs.nonNeg he hy _ _).1 h3⟩
    · rintro ⟨h1, h2, x, hx, v, h3, h4⟩
      obtain ⟨d, hd⟩ := MatcherHistory.mem_occurrences.1 h1
      have a := getElem?_idxOf (hi.known f hd.field)
      have b := getElem?_idxOf (hi.known w hd.word)
      rw [isEditCost_iff] at h3
      subst h3
      obtain ⟨v, hv⟩ := least_of_hit (p := p) (H := H) (names := names) (i := names.idxOf f) (j := names.idxOf w) hs.nonNeg
        ⟨x, hx, f, w, a, b, h2, h1, (seen_iff hs.nonNeg he hx _ _).2 h4, rfl⟩
      exact ⟨_, (hP.mem _ _ v).2 hv, by simp [a, b]⟩
  · rw [List.forall₂_map_left_iff]
    refine (Verbose.forall₂_mem hg).imp ?_
    rintro ⟨i, j, v⟩ r ⟨hmem, s, t, rfl, hs1, ht1⟩
    obtain ⟨f, w, a1, a2, a3, a4⟩ := hpair _ hmem
    dsimp only at *
    rw [a1] at ht1 ⊢
    rw [a2] at hs1 ⊢
    refine ⟨s, t, _, rfl, hs1, ht1, docsOf m.reverseIndex i j, hi.docs i j, ?_, rfl⟩
    intro d
    rw [hi.post]
    constructor
    · rintro ⟨f', w', b1, b2, b3⟩
      rw [a3] at b1; rw [a4] at b2
      injection b1 with b1; injection b2 with b2
      subst b1 b2
      exact b3
    · intro b; exact ⟨f, w, a3, a4, b⟩
  · have hsorted : SMap.Sorted ltNat docs := by obtain ⟨P, _, hD⟩ := ha; exact hD.sorted
    refine ⟨docs.map (·.1), SMap.sorted_nodup strict_ltNat hsorted, fun d => ?_, by simp⟩
    rw [hi.answer_mem hs.nonNeg ha]
    constructor
    · rintro ⟨f, w, x, hp, hx, hq, hseen⟩
      rw [seen_iff hs.nonNeg he hq] at hseen
      exact ⟨f, w, x, _, hp, hx, hq, isEditCost_iff.2 rfl, hseen⟩
    · rintro ⟨f, w, x, v, hp, hx, hq, hv, hl⟩
      rw [isEditCost_iff] at hv
      subst hv
      exact ⟨f, w, x, hp, hx, hq, (seen_iff hs.nonNeg he hq _ _).2 hl⟩

omit [Build] [Icu] [Runtime] [Fp] in
/-- C89. A group that is added is printed. -/
theorem C89_group (e : ErrorValues) (g : Word) (v : Int) (h0 : ∀ l ∈ g, l ≠ 0#16) (out out' : Verbose.Output)
    (h : (Verbose.setGroupError e g v out).2 = .ok out') : ∃ s, out' = out ++ [.group s] ∧ Printed g s := by
  unfold Verbose.setGroupError at h
  rcases hg : e.setGroupError g v with ⟨e', _ | f⟩ <;> rw [hg] at h
  · cases hs : Word.asUtf8 g with
    | error f => rw [hs] at h; cases h
    | ok s =>
      rw [hs] at h
      injection h with h
      exact ⟨s, h.symm, (printed_iff h0).1 hs⟩
  · cases h

omit [Runtime] [Fp] in
/-- C89. Reading an accent file prints the groups in it, in order; a line is cut at a NUL, lines without letters are
passed over. -/
theorem C89_accents (data : DataDir) (e : ErrorValues) (greek : Bool) (out out' : Verbose.Output)
    (h : (Verbose.addAccents data e greek out).2 = .ok out') : ∃ lines gs rs, data greek = some lines ∧
      List.Forall₂ (fun l g => Word.ofUtf8 (l.takeWhile (· != 0)) = .ok g) lines gs ∧ out' = out ++ rs ∧
      List.Forall₂ (fun g r => ∃ s, r = .group s ∧ Printed g s) (gs.filter (· ≠ [])) rs := by
  unfold Verbose.addAccents at h
  cases hl : data greek with
  | none => rw [hl] at h; cases h
  | some lines =>
    rw [hl] at h
    obtain ⟨gs, rs, h1, h2, h3⟩ := Verbose.accentLoop_output _ _ _ _ h
    rw [List.forall₂_map_left_iff] at h2
    refine ⟨lines, gs, rs, rfl, h2, h1, ?_⟩
    refine (Verbose.forall₂_mem h3).imp ?_
    rintro g r ⟨hg', s, rfl, hs⟩
    refine ⟨s, rfl, (printed_iff ?_).1 hs⟩
    have hg := (List.mem_filter.1 hg').1
    clear * - h2 hg
    induction h2 with
    | nil => cases hg
    | @cons l g' _ _ hw _ ih =>
      rcases List.mem_cons.1 hg with rfl | hg
      · exact usable_noNul (usable_ofUtf8 (fun h0 => by simpa using mem_takeWhile_pos h0) hw)
      · exact ih hg

omit [Runtime] [Fp] in
/-- C89. The standard errors print the latin groups and then the greek ones. -/
theorem C89_standard (data : DataDir) (e : ErrorValues) (out out' : Verbose.Output)
    (h : (Verbose.addStandardErrors data e out).2 = .ok out') : ∃ e1 o1, Verbose.addAccents data e false out = (e1, .ok o1) ∧
      (Verbose.addAccents data e1 true o1).2 = .ok out' := by
  unfold Verbose.addStandardErrors at h
  rcases h1 : Verbose.addAccents data e false out with ⟨e1, f | o1⟩ <;> rw [h1] at h
  · cases h
  · refine ⟨e1, o1, rfl, ?_⟩
    dsimp only at h
    rcases h2 : Verbose.addAccents data e1 true o1 with ⟨e2, f | o2⟩ <;> rw [h2] at h
    · cases h
    · dsimp only at h ⊢
      cases h3 : e2.addKeyboardErrors <;> rw [h3] at h
      · cases h
      · exact h

omit [Icu] in
/-- C89. Without query words nothing is printed. -/
theorem C89_silent (p : SearchParameters) (out : Verbose.Output) :
    Verbose.matchQuery m [] p out = (m, .ok (MatchResults.new, out)) := rfl

/-- C89. A search for text prints what the search for its words prints. -/
theorem C89_text (s : Bytes) (q : WordList) (hq : splitToWords s = .ok q) (p : SearchParameters) (out : Verbose.Output) :
    Verbose.matchUtf8Params m s p out = Verbose.matchQuery m q p out := by
  rw [Verbose.matchUtf8Params, hq]

/-- C89. An online search prints what the search for the same words with default parameters prints. -/
theorem C89_online (h : Ran os m H K) (q : WordList) (f : Word) (hs : Sane m.e q H) (hf : H.occurrences f ≠ []) (out out' : Verbose.Output)
    (r : MatchResults) (ho : (Verbose.onlineMatch m q f out).2 = .ok (r, out')) :
    ∃ r', (Verbose.matchQuery m q SearchParameters.new out).2 = .ok (r', out') := by
  obtain ⟨names, hi, _⟩ := Columbus.Ran.inv h
  obtain ⟨w, hw⟩ := List.exists_mem_of_ne_nil _ hf
  obtain ⟨d, hd⟩ := MatcherHistory.mem_occurrences.1 hw
  obtain ⟨acc, e, _⟩ := hi.vOnline_eq hs (hi.known f hd.field)
  rw [e] at ho
  rcases hm : Verbose.matchQuery m q SearchParameters.new out with ⟨m', f' | ⟨r', o⟩⟩ <;> rw [hm] at ho
  · cases ho
  · dsimp only at ho
    cases hg : Matcher.mergeLoop r' acc (List.range r'.size) with
    | error f => rw [hg] at ho; cases ho
    | ok acc' =>
      rw [hg] at ho
      simp only [Except.ok.injEq, Prod.mk.injEq] at ho
      exact ⟨r', by rw [← ho.2]⟩

example : (Verbose.setGroupError ErrorValues.new [0x61#16, 0xe4#16] 30 []).2 = .ok [.group [0x61, 0xc3, 0xa4]] := by decide +kernel

/-- A latin file of two groups and an empty line, and a greek one with a single group. -/
example : let _ := Example.debug; let _ := Example.icu
    (Verbose.addStandardErrors (fun greek => some (if greek then [ascii "xyz"] else [ascii "ab", [], ascii "cde"])) ErrorValues.new []).2 =
      .ok [.group (ascii "ab"), .group (ascii "cde"), .group (ascii "xyz")] := by decide +kernel

/-- Both apply to the matcher of the examples and the query "save": the call has results and prints. -/
example : ∃ m r out, Ran Example.os m Example.texts [] ∧ Sane m.e [Example.save] Example.texts ∧ Exact m.e [Example.save] ∧
    (∀ w ∈ [Example.save], Printable w) ∧ (Verbose.matchQuery m [Example.save] SearchParameters.new []).2 = .ok (r, out) := by
  obtain ⟨m, h, he, _⟩ := Example.ran
  have hs : Sane m.e [Example.save] Example.texts := by rw [he]; exact Example.sane_save
  have hp : ∀ w ∈ [Example.save], Printable w := by simpa [Printable] using Example.good_save.wellFormed
  obtain ⟨names, hi, _⟩ := Columbus.Ran.inv h
  obtain ⟨docs, _, e⟩ := hi.matchQuery_eq (p := SearchParameters.new) hs
  obtain ⟨rs, _, ev⟩ := hi.vMatchQuery (p := SearchParameters.new) hs (fun _ => hp) []
  rw [filtered_trivial _ rfl] at e
  refine ⟨m, _, _, h, hs, by rw [he]; exact exact_default _, hp, by rw [ev, e]; rfl⟩

example : ∃ m m', Ran Example.os m [] [] ∧ CorpusOk Example.corpus ∧ m.index Example.corpus = (m', none) := by
  obtain ⟨m, o, h, _, _, m0, e0, e1, h1, _⟩ := Example.ran_corpus Example.corpus_ok (by rw [Example.corpus_texts]; decide)
  have := h1.2 (by rw [Example.corpus_texts]; exact Example.texts_noEmpty)
  subst this
  exact ⟨m0, m, .new e0, Example.corpus_ok, e1⟩

end

/-- What the example prints: indexing, then a search for "as". -/
def exampleOutput : M Verbose.Output :=
  let _ := Example.debug
  let _ := Example.runtime
  let _ := Example.fp
  do
    let m ← Matcher.new Example.os
    let out ← (Verbose.index m Example.corpus []).2
    let r ← (Verbose.matchQuery (m.index Example.corpus).1 [Example.as] SearchParameters.new out).2
    .ok r.2

#guard exampleOutput = .ok [.added 2 2, .index (ascii "body") 1 3, .index (ascii "title") 2 7,
  .matched (ascii "as") (ascii "body") 200 1, .matched (ascii "as") (ascii "title") 200 1,
  .searched (ascii "as") (ascii "title") 1, .searched (ascii "as") (ascii "body") 1, .total 2, .finished]

end Columbus.Props
