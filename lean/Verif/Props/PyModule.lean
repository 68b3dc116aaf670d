import Verif.Proofs.AppSc
import Verif.Proofs.PyModule
import Verif.Props.Apps
import Verif.Props.CTexts
import Verif.Props.Example
import Verif.Props.Python
/-
Python programs: what their calls return, and which documents they get for the texts they pass.
-/

namespace Columbus.Props
open Columbus Columbus.Py Columbus.Spec.Py PyModule
open Columbus.Spec hiding Thing Known Trace Explains Call

section
variable [Build] [Icu] [Runtime] [Fp] [Python.Growth]

/-- Whatever a program has done by the rules: the next call that the rules allow returns a value or raises an exception, and
what it returns fits the rules again. -/
theorem C93_calls {cs : List (Py.Call × Ret)} {w : World} (ht : Py.Trace cs w) {k : Py.Known} (hk : Py.Explains cs k) (c : Py.Call)
    (hc : k.Allows c) : ∃ w' r k', c.run w = .ok (w', r) ∧ Py.Trace (cs ++ [(c, r)]) w' ∧ Py.Explains (cs ++ [(c, r)]) k' := by
  obtain ⟨k0, h1, h2, h3⟩ := explained ht hk
  obtain ⟨w', r, k', e, hl, _⟩ := step h1 (h3.allows hc)
  exact ⟨w', r, k', e, .call ht e, .call h2 (h3.allows hc) hl⟩

omit [Runtime] [Python.Growth] in
/-- What a program knows follows from what it did, but for the order and the relevancies of results. -/
theorem C93_settled {cs : List (Py.Call × Ret)} {k k0 : Py.Known} (h : Py.Explains cs k) (h0 : Py.Explains cs k0) :
    k.things.length = k0.things.length ∧ k.items = k0.items ∧ ∀ n t, k.Is n t → k0.Is n t ∨
      ∃ i j, t = .results i ∧ k0.Is n (.results j) ∧ (i.map (·.2)).Perm (j.map (·.2)) := by
  have ha := explains_agree h h0
  refine ⟨ha.things.length_eq, ha.items, fun n t hn => ?_⟩
  obtain ⟨t', h1, rfl | ⟨i, j, rfl, rfl, hp⟩⟩ := ha.is hn
  · exact Or.inl h1
  · exact Or.inr ⟨i, j, rfl, h1, hp⟩

theorem py_reads {w : World} {k : Py.Known} (hr : Rel w k) {n : Nat} {l : List Result} (hx : k.Is n (.results l)) (cs : List Py.Call)
    (hcs : ∀ c ∈ cs, Reading n c) : ∃ w', Runs w (cs.map fun c => (c, readAnswer l c)) w' := by
  induction cs generalizing w with
  | nil => exact ⟨w, .nil⟩
  | cons c cs ih =>
    have hc := hcs c (List.mem_cons_self ..)
    have key : ∃ w', c.run w = .ok (w', readAnswer l c) ∧ Rel w' k := by
      cases c with
      | resultsId m i =>
        cases hc
        obtain ⟨w', r, k', e, ⟨rfl, l', hx', rfl⟩, hr'⟩ := step hr (c := .resultsId n i) ⟨l, hx⟩
        cases is_same hx hx'
        exact ⟨w', e, hr'⟩
      | resultsRelevancy m i =>
        cases hc
        obtain ⟨w', r, k', e, ⟨rfl, l', hx', rfl⟩, hr'⟩ := step hr (c := .resultsRelevancy n i) ⟨l, hx⟩
        cases is_same hx hx'
        exact ⟨w', e, hr'⟩
      | resultsLen m =>
        cases hc
        obtain ⟨w', r, k', e, ⟨rfl, l', hx', rfl⟩, hr'⟩ := step hr (c := .resultsLen n) ⟨l, hx⟩
        cases is_same hx hx'
        exact ⟨w', e, hr'⟩
      | _ => exact hc.elim
    obtain ⟨w', e, hr'⟩ := key
    obtain ⟨w'', h⟩ := ih hr' fun c hc => hcs c (List.mem_cons_of_mem _ hc)
    exact ⟨w'', .cons e h⟩

/-- The answer to a query: the results have just the documents whose current texts have a word close to a word of the query,
each once, the better ones first, and any reading of the results says so. -/
theorem C93_answer {cs : List (Py.Call × Ret)} {w : World} (ht : Py.Trace cs w) {k : Py.Known} (hk : Py.Explains cs k) {n : Nat} {os ds ops ws}
    (hx : k.Is n (.matcher os ds ops ws)) (q t : Bytes) (hq : Seen q t) (hs : Py.Known.Short t) (hw : WellFormed t) :
    ∃ l w1 y, (Py.Call.search n q).run w = .ok (w1, .object y) ∧ Lists ds ops t (l.map (·.2)) ∧ l.Pairwise RankOrder ∧
      ∀ rs : List Py.Call, (∀ c ∈ rs, Reading y c) → ∃ w', Runs w1 (rs.map fun c => (c, readAnswer l c)) w' := by
  obtain ⟨k0, h1, _, h3⟩ := explained ht hk
  have hx0 := h3.eq hx (by simp)
  obtain ⟨w1, r, k', e, ⟨os', ds', ops', ws', t', hx', hq', hl, _⟩, hr'⟩ := step h1 (c := .search n q)
    ⟨⟨os, ds, ops, ws, hx0⟩, fun u hu => by rw [seen_eq hu, ← seen_eq hq]; exact hs⟩
  cases is_same hx0 hx'
  cases (seen_eq hq).trans (seen_eq hq').symm
  obtain ⟨l, hli, hp, rfl, rfl⟩ := hl hw
  exact ⟨l, w1, _, e, hli, hp, fun rs hrs => py_reads hr' (by simp [Py.Known.Is]) rs hrs⟩

/-- A query that is no text raises a RuntimeError, and the program can go on: it knows what it knew. -/
theorem C93_raises {cs : List (Py.Call × Ret)} {w : World} (ht : Py.Trace cs w) {k : Py.Known} (hk : Py.Explains cs k) {n : Nat} {os ds ops ws}
    (hx : k.Is n (.matcher os ds ops ws)) (q t : Bytes) (hq : Seen q t) (hs : Py.Known.Short t) (hw : ¬ WellFormed t) :
    ∃ w', (Py.Call.search n q).run w = .ok (w', .runtimeError) ∧ ∃ k', Py.Explains (cs ++ [(.search n q, .runtimeError)]) k' ∧
      Py.Explains cs k' := by
  obtain ⟨k0, h1, h2, h3⟩ := explained ht hk
  have hx0 := h3.eq hx (by simp)
  have hal : k0.Allows (.search n q) := ⟨⟨os, ds, ops, ws, hx0⟩, fun u hu => by rw [seen_eq hu, ← seen_eq hq]; exact hs⟩
  obtain ⟨w1, r, k', e, hl, hr'⟩ := step h1 hal
  have hl' := hl
  obtain ⟨os', ds', ops', ws', t', hx', hq', _, hb⟩ := hl'
  cases (seen_eq hq).trans (seen_eq hq').symm
  obtain ⟨rfl, rfl⟩ := hb hw
  exact ⟨w1, e, k', .call h2 hal hl, h2⟩

/-! ### What the rules exclude -/

/-- What is not there, or is something else, cannot be taken for results, a corpus, a document, a list, a word, error values
or weights. -/
theorem C93_wrong (w : World) (n : Nat) :
    ((∀ r, w.objs[n]? ≠ some (.results r)) → (Py.Call.resultsLen n).run w = .error .ub) ∧
    ((∀ c, w.objs[n]? ≠ some (.corpus c)) → (Py.Call.corpusSize n).run w = .error .ub) ∧
    ((∀ id t, w.objs[n]? ≠ some (.document id t)) → (Py.Call.getId n).run w = .error .ub) ∧
    ((∀ v, w.objs[n]? ≠ some (.list v)) → (Py.Call.listLen (.obj n)).run w = .error .ub) ∧
    ((∀ x, w.objs[n]? ≠ some (.word x)) → (Py.Call.wordLen (.obj n)).run w = .error .ub) ∧
    ((∀ e, w.objs[n]? ≠ some (.errors e)) → (Py.Call.setSubstringMode (.obj n)).run w = .error .ub) ∧
    ((∀ x, w.objs[n]? ≠ some (.weights x)) → ∀ f v, w.word f = .ok v → (Py.Call.getWeight (.obj n) f).run w = .error .ub) := by
  refine ⟨fun h => ?_, fun h => ?_, fun h => ?_, fun h => ?_, fun h => ?_, fun h => ?_, fun h f v hf => ?_⟩
  all_goals
    simp only [Py.Call.run, World.results, World.corpus, World.document, World.vec, World.word, World.errors, World.weights,
      World.obj, *]
    cases ho : w.objs[n]? with
    | none => rfl
    | some o => cases o <;> first | rfl | exact absurd ho (h _) | exact absurd ho (h _ _)

/-- Adding results to themselves is undefined, whatever they are. -/
theorem C93_self (w : World) (n : Nat) (r : MatchResults) (h : w.objs[n]? = some (.results r)) :
    (Py.Call.resultsAdd n n).run w = .error .ub := by
  simp only [Py.Call.run, World.results, obj_ok h, ok_bind, if_true]

/-- An item of a list that was just split or copied, and so has no room to spare, is gone once a word was added to the list:
looking at it is undefined, whatever the list and the word are. -/
theorem C93_stale {w w1 w2 w3 : World} {c : Py.Call} (hc : (∃ s, c = .split s) ∨ ∃ l, c = .listCopy l) {n i k : Nat} {x : WordRef}
    (h1 : c.run w = .ok (w1, .object n)) (h2 : (Py.Call.listGet (.obj n) i).run w1 = .ok (w2, .item k))
    (h3 : (Py.Call.listAdd (.obj n) x).run w2 = .ok (w3, .none)) : (Py.Call.wordString (.item k)).run w3 = .error .ub := by
  obtain ⟨v, hv, hfull⟩ : ∃ v : Vec, w1.objs[n]? = some (.list v) ∧ v.capacity = v.words.length := by
    rcases hc with ⟨s, rfl⟩ | ⟨l, rfl⟩
    · simp only [Py.Call.run, World.orRaise] at h1
      rcases hs : splitToWords (cut s) with e | ws
      · rw [hs] at h1
        simp only [] at h1
        rcases e <;> simp [raised] at h1
      · rw [hs] at h1
        simp only [World.make, Except.ok.injEq, Prod.mk.injEq, Ret.object.injEq] at h1
        obtain ⟨rfl, rfl⟩ := h1
        exact ⟨.copy ws, by simp, rfl⟩
    · simp only [Py.Call.run] at h1
      rcases hv : w.vec l with e | v
      · rw [hv] at h1; cases h1
      · rw [hv, ok_bind] at h1
        simp only [World.make, Except.ok.injEq, Prod.mk.injEq, Ret.object.injEq] at h1
        obtain ⟨rfl, rfl⟩ := h1
        exact ⟨.copy v.words, by simp, rfl⟩
  have hn : n < w1.objs.length := (List.getElem?_eq_some_iff.1 hv).1
  have hvec : w1.vec (.obj n) = .ok v := by simp [World.vec, obj_ok hv, ok_bind]
  simp only [Py.Call.run, hvec, ok_bind] at h2
  split at h2
  · simp only [Except.ok.injEq, Prod.mk.injEq, Ret.item.injEq] at h2
    obtain ⟨rfl, rfl⟩ := h2
    have hvec2 : ({ w1 with items := w1.items ++ [(.obj n, i, v.place)] } : World).vec (.obj n) = .ok v := hvec
    simp only [Py.Call.run] at h3
    generalize World.word _ x = y at h3
    rcases y with e | y
    · cases h3
    · rw [ok_bind, hvec2, ok_bind] at h3
      simp only [World.putVec, World.put, ok_bind, Except.ok.injEq, Prod.mk.injEq, and_true] at h3
      subst h3
      have hadd : (v.add y).place = v.place + 1 := by simp [Vec.add, hfull]
      simp [Py.Call.run, World.word, World.vec, World.obj, hn, ok_bind, hadd]
  · cases h2

/-- No program can set or read the price of two letters: the calls are refused for all arguments. -/
theorem C93_letters (w : World) (n : Nat) (e : ErrorValues) (h : w.objs[n]? = some (.errors e)) (a b : Nat) (v : Int) :
    (Py.Call.setError (.obj n) a b v).run w = .ok (w, .argumentError) ∧
    (Py.Call.getSubstituteError (.obj n) a b).run w = .ok (w, .argumentError) := by
  simp only [Py.Call.run, World.errors, obj_ok h, ok_bind, and_self]

end

/-- Calls one after the other, and what they return. -/
def runCalls [Build] [Icu] [Runtime] [Fp] [Python.Growth] (w : World) : List Py.Call → M (List Ret)
  | [] => .ok []
  | c :: cs => do
    let (w, r) ← c.run w
    let rs ← runCalls w cs
    .ok (r :: rs)

/-- Such a program: it adds the item to the list itself. The word is there in the list, but not where the item was. -/
example : @runCalls Example.debug Example.icu Example.runtime Example.fp doubling ⟨[], []⟩ [.split [0x61], .listGet (.obj 0) 0,
    .listAdd (.obj 0) (.item 0), .listGet (.obj 0) 1, .wordString (.item 1)] =
      .ok [.object 0, .item 0, .none, .item 1, .text [0x61]] := by
  decide +kernel

/-- The rules are needed: a program that takes a word of the text of a document, replaces the text and looks at the word is
undefined; one that adds an empty word to the text of a document gets an IndexError from `index`. -/
theorem C93_false :
    @runCalls Example.debug Example.icu Example.runtime Example.fp doubling ⟨[], []⟩ [.wordNew [0x74], .documentNew 7, .addText 1 (.obj 0) [0x61],
      .getText 1 (.obj 0), .listGet (.text 1 [0x74#16]) 0, .addText 1 (.obj 0) [0x62, 0x20, 0x63], .wordString (.item 0)] = .error .ub ∧
    @runCalls Example.debug Example.icu Example.runtime Example.fp doubling ⟨[], []⟩ [.wordNew [0x74], .wordNew [], .documentNew 7,
      .addText 2 (.obj 0) [0x61], .getText 2 (.obj 0), .listAdd (.text 2 [0x74#16]) (.obj 1), .corpusNew, .corpusAdd 3 2,
      .matcherNew (fun _ => true), .index 4 3] = .ok [.object 0, .object 1, .object 2, .none, .list (.text 2 [0x74#16]), .none, .object 3, .none,
        .object 4, .indexError] := by
  decide +kernel

/-! ### A program -/

section
variable [Build] [Runtime] [Fp] [Python.Growth]

/-- A program, what it knows and its world. -/
def PyAt [Icu] (cs : List (Py.Call × Ret)) (k : Py.Known) : Prop := ∃ w, Py.Trace cs w ∧ Py.Explains cs k ∧ Rel w k

theorem PyAt.go [Icu] {cs : List (Py.Call × Ret)} {k : Py.Known} (h : PyAt cs k) (c : Py.Call) (hc : k.Allows c) :
    ∃ r k', k.Learns c r k' ∧ PyAt (cs ++ [(c, r)]) k' := by
  obtain ⟨w, h1, h2, h3⟩ := h
  obtain ⟨w', r, k', e, hl, hr⟩ := step h3 hc
  exact ⟨r, k', hl, w', .call h1 e, .call h2 hc hl, hr⟩

/-- The calls: the words "T" and "c"; document 7 with the text "abd", and a copy of it; the word "c" added to the text of the
first; both in a corpus, and that in a matcher. -/
def pyCalls : List Py.Call := [.wordNew [0x54], .wordNew [0x63, 0, 0x64], .documentNew 7, .addText 2 (.obj 0) [0x61, 0x62, 0x64],
  .documentCopy 2, .getText 2 (.obj 0), .listAdd (.text 2 [0x74#16]) (.obj 1), .corpusNew, .corpusAdd 4 2, .matcherNew (fun _ => true), .index 5 4]

theorem py_explained : let _ := Example.icu
    ∃ cs w k, cs.map Prod.fst = pyCalls ∧ Py.Trace cs w ∧ Py.Explains cs k ∧
      k.Is 5 (.matcher (fun _ => true) [⟨7, [([0x54], [0x61, 0x62, 0x64, 0x20, 0x63])]⟩] [] []) ∧
      k.Is 3 (.document ⟨7, [([0x54], [0x61, 0x62, 0x64])]⟩) := by
  intro _
  have wf : ∀ s : Bytes, (∀ b ∈ s, b ≤ 0x7f) → WellFormed s := fun s h => wellFormed_ascii h
  have sh : ∀ s : Bytes, s.length ≤ 10 → ∀ t, Seen s t → Py.Known.Short t := fun s h t ht => by
    rcases ht.2 with rfl | ⟨u, rfl⟩
    · exact Nat.le_trans h (by decide)
    · rw [List.length_append] at h
      exact Nat.le_trans (Nat.le_trans (Nat.le_add_right _ _) h) (by decide)
  have seen : ∀ s t : Bytes, Seen s t → t = s.takeWhile (· != 0) := fun s t h => seen_eq h
  have lt : LowerLetters [0x54] [0x74#16] := ⟨[0x54], Apps.ascii_utf8 (by decide), .bmp (by decide) .nil⟩
  have a0 : PyAt [] ⟨[], []⟩ := ⟨_, .start, .start, .nil, .nil⟩
  obtain ⟨r, k, ⟨t, hs, hl, _⟩, a1⟩ := a0.go (.wordNew [0x54]) (sh _ (by decide))
  cases seen _ _ hs
  obtain ⟨rfl, rfl⟩ := hl ⟨wf _ (by decide), by decide⟩
  obtain ⟨r, k, ⟨t, hs, hl, _⟩, a2⟩ := a1.go (.wordNew [0x63, 0, 0x64]) (sh _ (by decide))
  cases seen _ _ hs
  obtain ⟨rfl, rfl⟩ := hl ⟨wf _ (by decide), by decide⟩
  obtain ⟨r, k, ⟨rfl, rfl⟩, a3⟩ := a2.go (.documentNew 7) trivial
  obtain ⟨r, k, ⟨d, u, f, t, h1, h2, h3, hs, hl, _⟩, a4⟩ := a3.go (.addText 2 (.obj 0) [0x61, 0x62, 0x64])
    ⟨⟨_, rfl⟩, ⟨[0x54], rfl, by decide⟩, sh _ (by decide)⟩
  cases seen _ _ hs
  cases h1
  cases h2
  cases letters_det h3 lt
  obtain ⟨rfl, rfl⟩ := hl (wf _ (by decide))
  obtain ⟨r, k, ⟨d, h1, rfl, rfl⟩, a5⟩ := a4.go (.documentCopy 2) ⟨_, rfl⟩
  cases h1
  obtain ⟨r, k, ⟨rfl, d, u, f, h1, h2, h3, hl, _⟩, a6⟩ := a5.go (.getText 2 (.obj 0)) ⟨⟨_, rfl⟩, [0x54], rfl⟩
  cases h1
  cases h2
  cases letters_det h3 lt
  cases hl ⟨[0x54], [0x61, 0x62, 0x64], [], [], rfl, lt, by simp⟩
  obtain ⟨r, k, ⟨rfl, d, d', t, u, h1, h2, h3, h4⟩, a7⟩ := a6.go (.listAdd (.text 2 [0x74#16]) (.obj 1))
    ⟨_, [0x54], [0x61, 0x62, 0x64], [0x63], rfl, ⟨[], [], rfl, lt, by simp⟩, rfl, by decide, by rw [Py.Known.Short]; decide⟩
  cases h1
  cases h2
  cases replaced_det h3 (t' := [0x61, 0x62, 0x64]) (d2 := ⟨7, [([0x54], [0x61, 0x62, 0x64, 0x20, 0x63])]⟩) ⟨[], [0x54], [], rfl, lt, by simp, rfl⟩
  cases h4
  obtain ⟨r, k, ⟨rfl, rfl⟩, a8⟩ := a7.go .corpusNew trivial
  obtain ⟨r, k, ⟨rfl, ds, D, h1, h2, h3⟩, a9⟩ := a8.go (.corpusAdd 4 2) ⟨⟨_, rfl⟩, _, rfl⟩
  cases h1
  cases h2
  cases h3
  obtain ⟨r, k, hl, a10⟩ := a9.go (.matcherNew fun _ => true) trivial
  obtain ⟨rfl, rfl⟩ := hl.1 rfl
  obtain ⟨r, k, ⟨rfl, os, ds, ops, ws, cs, h1, h2, h3⟩, a11⟩ := a10.go (.index 5 4) ⟨_, _, _, _, _, rfl, rfl, not_refused _ (by decide)⟩
  cases h1
  cases h2
  cases h3
  obtain ⟨w, b1, b2, _⟩ := a11
  exact ⟨_, w, _, rfl, b1, b2, rfl, rfl⟩

omit [Build] [Runtime] [Fp] [Python.Growth] in
theorem py_lists [B : Build] : let _ := Example.icu
    ∀ ids, Lists [⟨7, [([0x54], [0x61, 0x62, 0x64, 0x20, 0x63])]⟩] [] [0x63] ids → ids = [7] := by
  intro _ ids hl
  obtain ⟨hnd, hm⟩ := (C91_default _ _ _).1 hl
  have hw : Apps.lineWords [0x63] = [[0x63#16]] ∧ Apps.lineWords [0x61, 0x62, 0x64, 0x20, 0x63] = [[0x61#16, 0x62#16, 0x64#16], [0x63#16]] := by
    clear hm hl
    obtain ⟨b⟩ := B
    cases b <;> decide +kernel
  have hc : HasWord [0x63] [0x63#16] := (Apps.lineWords_mem (wellFormed_ascii (by decide)) _).1 (by rw [hw.1]; simp)
  have ha : HasWord [0x61, 0x62, 0x64, 0x20, 0x63] [0x63#16] := (Apps.lineWords_mem (wellFormed_ascii (by decide)) _).1 (by rw [hw.2]; simp)
  have h7 : 7 ∈ ids := (hm 7).2 ⟨_, List.mem_cons_self .., rfl, _, ⟨[], [0x54], [], rfl, by simp⟩, [0x63#16], [0x63#16], 0, hc, ha,
    ⟨0, distance_self _, rfl⟩, by decide⟩
  have hall : ∀ i ∈ ids, i = 7 := fun i hi => by
    obtain ⟨d, hd, rfl, _⟩ := (hm i).1 hi
    rw [List.mem_singleton] at hd
    subst hd; rfl
  match ids, hnd, h7, hall with
  | [], _, h, _ => cases h
  | [x], _, _, h => rw [h x (by simp)]
  | x :: y :: _, hnd, _, h =>
    rw [h x (by simp), h y (by simp)] at hnd
    simp at hnd

/-- The program then searches "c" and reads: the number of results, the document, and past the end. The copy of the document
was not changed. -/
example : let _ := Example.icu
    ∃ cs w w1 w2 y, cs.map Prod.fst = pyCalls ∧ Py.Trace cs w ∧ (Py.Call.search 5 [0x63]).run w = .ok (w1, .object y) ∧
      Runs w1 [(.resultsLen y, .number 1), (.resultsId y 1, .indexError), (.resultsId y 0, .number 7)] w2 := by
  intro _
  obtain ⟨cs, w, k, e, ht, hk, hx, _⟩ := py_explained
  obtain ⟨l, w1, y, e1, hl, _, hr⟩ := C93_answer ht hk hx [0x63] [0x63] ⟨by decide, Or.inl rfl⟩ (by rw [Py.Known.Short]; decide) (wellFormed_ascii (by decide))
  have hlen := py_lists _ hl
  obtain ⟨w2, h2⟩ := hr [.resultsLen y, .resultsId y 1, .resultsId y 0] (by simp [Reading])
  match l, hlen, h2 with
  | _ :: _ :: _, hx, _ => simp at hx
  | [x], hx, h2 =>
    simp only [List.map_cons, List.map_nil, List.cons.injEq, and_true] at hx
    simp only [List.map_cons, List.map_nil, readAnswer, List.getElem?_cons_zero, List.getElem?_cons_succ, List.getElem?_nil, List.length_singleton, hx] at h2
    exact ⟨cs, w, w1, w2, y, e, ht, e1, h2⟩

end

end Columbus.Props
