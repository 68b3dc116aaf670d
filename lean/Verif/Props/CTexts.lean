import Verif.Proofs.AppSc
import Verif.Proofs.CTexts
import Verif.Props.Apps
import Verif.Props.Example
/-
C programs: which documents they get for the texts they pass.
-/

namespace Columbus.Props
open Columbus Spec CApi CTexts

section
variable [Build] [Icu] [Runtime] [Fp]

/-- Whatever a program has done by the rules: the next call that the rules allow returns, and what it returns fits the rules
again. -/
theorem C91_calls {cs : List (CCall × CRet)} {h : Heap} (ht : Trace cs h) {k : Known} (hk : Explains cs k) (c : CCall) (hc : k.Allows c) :
    ∃ h' r k', c.run h = .ok (h', r) ∧ Trace (cs ++ [(c, r)]) h' ∧ Explains (cs ++ [(c, r)]) k' := by
  obtain ⟨k0, h1, h2, h3⟩ := explained ht hk
  obtain ⟨h', r, k', e, hl, _⟩ := step h1 (h3.allows hc)
  exact ⟨h', r, k', e, .call ht e, .call h2 (h3.allows hc) hl⟩

omit [Runtime] in
/-- What a program knows follows from what it did, but for the order of results. -/
theorem C91_settled {cs : List (CCall × CRet)} {k k0 : Known} (h : Explains cs k) (h0 : Explains cs k0) :
    k.length = k0.length ∧ ∀ x t, k.Is x t → k0.Is x t ∨ ∃ i j, t = .results i ∧ k0.Is x (.results j) ∧ i.Perm j := by
  have ha := explains_agree h h0
  refine ⟨ha.length_eq, fun x t hx => ?_⟩
  obtain ⟨t', h1, rfl | ⟨i, j, rfl, rfl, hp⟩⟩ := ha.is hx
  · exact Or.inl h1
  · exact Or.inr ⟨i, j, rfl, h1, hp⟩

theorem reads_all {h : Heap} {k : Known} (hr : HeapRel h k) {x : Handle} {ids : List DocumentID} (hx : k.Is x (.results ids)) (is : List Nat) :
    Reads x h is (is.map fun i => ids[i]?.getD (2^64 - 1)) := by
  induction is generalizing h with
  | nil => exact .nil
  | cons i is ih =>
    obtain ⟨h', r, k', e, ⟨rfl, ids', hx', rfl⟩, hr'⟩ := step hr (c := .matchResultsGetId x i) ⟨ids, hx⟩
    cases is_same hx hx'
    exact .cons e (ih hr')

/-- The answer to a query: the results have just the documents whose current texts have a word close to a word of the query,
each once, and any reading of their size and of the documents at any places says so. -/
theorem C91_answer {cs : List (CCall × CRet)} {h : Heap} (ht : Trace cs h) {k : Known} (hk : Explains cs k) {x : Handle} {os ds ops ws}
    (hx : k.Is x (.matcher os ds ops ws)) (q : Bytes) (hq : CString q) (hw : WellFormed q) :
    ∃ ids h1 y, (CCall.matcherMatch x q).run h = .ok (h1, .handle y) ∧ Lists ds ops q ids ∧
      (CCall.matchResultsSize y).run h1 = .ok (h1, .number ids.length) ∧
      ∀ is, Reads y h1 is (is.map fun i => ids[i]?.getD (2^64 - 1)) := by
  obtain ⟨k0, h1, _, h3⟩ := explained ht hk
  have hx0 := h3.matcher hx
  obtain ⟨h', r, k', e, ⟨os', ds', ops', ws', hx', hl, _⟩, hr'⟩ := step h1 (c := .matcherMatch x q) ⟨⟨os, ds, ops, ws, hx0⟩, hq⟩
  cases is_same hx0 hx'
  obtain ⟨ids, hids, rfl, rfl⟩ := hl hw
  have hy : Known.Is (k0 ++ [some (.results ids)]) (.obj k0.length) (.results ids) := ⟨_, rfl, by simp⟩
  refine ⟨ids, h', _, e, hids, ?_, fun is => reads_all hr' hy is⟩
  obtain ⟨res, l, hh, hf, rfl⟩ := hr'.results hy
  simp only [CCall.run, CApi.matchResultsSize, holds_results hh, ok_bind]
  rw [List.length_map, rank_length, MatchResults.size, (filled_inv hf).length]
  rfl

/-- A query that is no text gets null, and nothing is changed. -/
theorem C91_null {cs : List (CCall × CRet)} {h : Heap} (ht : Trace cs h) {k : Known} (hk : Explains cs k) {x : Handle} {os ds ops ws}
    (hx : k.Is x (.matcher os ds ops ws)) (q : Bytes) (hq : CString q) (hw : ¬ WellFormed q) :
    (CCall.matcherMatch x q).run h = .ok (h, .handle .null) := by
  obtain ⟨k0, h1, _, h3⟩ := explained ht hk
  obtain ⟨m, hm, hmr⟩ := h1.matcher (h3.matcher hx)
  obtain ⟨D, hD, hran⟩ := hmr.docs
  have := (search_lists hran hD hmr.e hmr.preset hq).1 hw
  simp only [CCall.run, CApi.matcherMatch, holds_matcher hm, ok_bind, this]
  obtain ⟨n, rfl, hn⟩ := hm
  simp only [Heap.put, caught, if_true]
  have hs : h.cells.set n (some (.matcher m)) = h.cells := by
    apply List.ext_getElem?
    intro i
    rw [List.getElem?_set]
    split
    · rename_i e; subst e
      split
      · exact hn.symm
      · rename_i hl; rw [List.getElem?_eq_none (by omega)] at hn; cases hn
    · rfl
  rw [hs]; rfl

end

/-- Without settings a text is close if a word of it is two edits or fewer from a word of the query, one for words of one
letter. -/
theorem C91_default [Build] [Icu] (ds : List Described) (q : Bytes) (ids : List DocumentID) :
    Lists ds [] q ids ↔ ids.Nodup ∧ ∀ i, i ∈ ids ↔ ∃ d ∈ ds, d.id = i ∧ ∃ t, d.Has t ∧ Close EditPrice q t := by
  have : PriceWith (afterOps []) = EditPrice := price_default
  rw [Lists, this]

/-! ### A program -/

section
variable [Build] [Runtime] [Fp]

/-- A program, what it knows and its heap. -/
def At [Icu] (cs : List (CCall × CRet)) (k : Known) : Prop := ∃ h, Trace cs h ∧ Explains cs k ∧ HeapRel h k

theorem At.go [Icu] {cs : List (CCall × CRet)} {k : Known} (h : At cs k) (c : CCall) (hc : k.Allows c) :
    ∃ r k', k.Learns c r k' ∧ At (cs ++ [(c, r)]) k' := by
  obtain ⟨h, h1, h2, h3⟩ := h
  obtain ⟨h', r, k', e, hl, hr⟩ := step h3 hc
  exact ⟨r, k', hl, h', .call h1 e, .call h2 hc hl, hr⟩

/-- The calls: the names "t" and "T"; document 7 with the text "abd" replaced by "c"; document 8 with the text "c" replaced by
"abd"; both in a corpus, and that in a matcher. -/
def sampleCalls : List CCall := [.wordNew [0x74], .wordNew [0x54],
  .documentNew 7, .documentAddText (.obj 2) (.obj 0) [0x61, 0x62, 0x64], .documentAddText (.obj 2) (.obj 1) [0x63],
  .documentNew 8, .documentAddText (.obj 3) (.obj 1) [0x63], .documentAddText (.obj 3) (.obj 0) [0x61, 0x62, 0x64],
  .corpusNew, .corpusAddDocument (.obj 4) (.obj 2), .corpusAddDocument (.obj 4) (.obj 3),
  .matcherNew (fun _ => true), .matcherIndex (.obj 5) (.obj 4)]

/-- What was described. -/
def sampleDocs : List Described := [⟨7, [([0x74], [0x61, 0x62, 0x64]), ([0x54], [0x63])]⟩, ⟨8, [([0x54], [0x63]), ([0x74], [0x61, 0x62, 0x64])]⟩]

theorem sample_explained : let _ := Example.icu
    ∃ cs h k, cs.map Prod.fst = sampleCalls ∧ Trace cs h ∧ Explains cs k ∧ k.Is (.obj 5) (.matcher (fun _ => true) sampleDocs [] []) := by
  intro _
  have wf : ∀ s : Bytes, (∀ b ∈ s, b ≤ 0x7f) → WellFormed s := fun s h => wellFormed_ascii h
  have cst : ∀ s : Bytes, 0 ∉ s → s.length ≤ 10 → CString s := fun s h h' => ⟨h, by omega⟩
  have a0 : At [] [] := ⟨_, .start, .start, .nil⟩
  obtain ⟨r, k, hl, a1⟩ := a0.go (.wordNew [0x74]) (cst _ (by decide) (by decide))
  obtain ⟨rfl, rfl⟩ := hl.1 ⟨wf _ (by decide), by decide⟩
  obtain ⟨r, k, hl, a2⟩ := a1.go (.wordNew [0x54]) (cst _ (by decide) (by decide))
  obtain ⟨rfl, rfl⟩ := hl.1 ⟨wf _ (by decide), by decide⟩
  obtain ⟨r, k, ⟨rfl, rfl⟩, a3⟩ := a2.go (.documentNew 7) trivial
  obtain ⟨r, k, ⟨rfl, d, t, h1, h2, h3, _⟩, a4⟩ := a3.go (.documentAddText (.obj 2) (.obj 0) [0x61, 0x62, 0x64])
    ⟨⟨_, 2, rfl, rfl⟩, ⟨_, ⟨0, rfl, rfl⟩, by decide⟩, cst _ (by decide) (by decide)⟩
  cases is_same h1 ⟨2, rfl, rfl⟩
  cases is_same h2 ⟨0, rfl, rfl⟩
  obtain ⟨_, ⟨⟩, rfl⟩ := h3 (wf _ (by decide))
  obtain ⟨r, k, ⟨rfl, d, t, h1, h2, h3, _⟩, a5⟩ := a4.go (.documentAddText (.obj 2) (.obj 1) [0x63])
    ⟨⟨_, 2, rfl, rfl⟩, ⟨_, ⟨1, rfl, rfl⟩, by decide⟩, cst _ (by decide) (by decide)⟩
  cases is_same h1 ⟨2, rfl, rfl⟩
  cases is_same h2 ⟨1, rfl, rfl⟩
  obtain ⟨_, ⟨⟩, rfl⟩ := h3 (wf _ (by decide))
  obtain ⟨r, k, ⟨rfl, rfl⟩, a6⟩ := a5.go (.documentNew 8) trivial
  obtain ⟨r, k, ⟨rfl, d, t, h1, h2, h3, _⟩, a7⟩ := a6.go (.documentAddText (.obj 3) (.obj 1) [0x63])
    ⟨⟨_, 3, rfl, rfl⟩, ⟨_, ⟨1, rfl, rfl⟩, by decide⟩, cst _ (by decide) (by decide)⟩
  cases is_same h1 ⟨3, rfl, rfl⟩
  cases is_same h2 ⟨1, rfl, rfl⟩
  obtain ⟨_, ⟨⟩, rfl⟩ := h3 (wf _ (by decide))
  obtain ⟨r, k, ⟨rfl, d, t, h1, h2, h3, _⟩, a8⟩ := a7.go (.documentAddText (.obj 3) (.obj 0) [0x61, 0x62, 0x64])
    ⟨⟨_, 3, rfl, rfl⟩, ⟨_, ⟨0, rfl, rfl⟩, by decide⟩, cst _ (by decide) (by decide)⟩
  cases is_same h1 ⟨3, rfl, rfl⟩
  cases is_same h2 ⟨0, rfl, rfl⟩
  obtain ⟨_, ⟨⟩, rfl⟩ := h3 (wf _ (by decide))
  obtain ⟨r, k, ⟨rfl, rfl⟩, a9⟩ := a8.go .corpusNew trivial
  obtain ⟨r, k, ⟨rfl, cs, d, h1, h2, h3⟩, a10⟩ := a9.go (.corpusAddDocument (.obj 4) (.obj 2)) ⟨⟨_, 4, rfl, rfl⟩, _, 2, rfl, rfl⟩
  cases is_same h1 ⟨4, rfl, rfl⟩
  cases is_same h2 ⟨2, rfl, rfl⟩
  obtain ⟨_, ⟨⟩, rfl⟩ := h3
  obtain ⟨r, k, ⟨rfl, cs, d, h1, h2, h3⟩, a11⟩ := a10.go (.corpusAddDocument (.obj 4) (.obj 3)) ⟨⟨_, 4, rfl, rfl⟩, _, 3, rfl, rfl⟩
  cases is_same h1 ⟨4, rfl, rfl⟩
  cases is_same h2 ⟨3, rfl, rfl⟩
  obtain ⟨_, ⟨⟩, rfl⟩ := h3
  obtain ⟨r, k, hl, a12⟩ := a11.go (.matcherNew fun _ => true) trivial
  obtain ⟨rfl, rfl⟩ := hl.1 rfl
  obtain ⟨r, k, ⟨rfl, os, ds, ops, ws, cs, h1, h2, h3⟩, a13⟩ := a12.go (.matcherIndex (.obj 5) (.obj 4))
    ⟨_, _, _, _, _, ⟨5, rfl, rfl⟩, ⟨4, rfl, rfl⟩, not_refused _ (by decide)⟩
  cases is_same h1 ⟨5, rfl, rfl⟩
  cases is_same h2 ⟨4, rfl, rfl⟩
  obtain ⟨_, ⟨⟩, rfl⟩ := h3
  obtain ⟨h, b1, b2, _⟩ := a13
  exact ⟨_, h, _, rfl, b1, b2, 5, rfl, rfl⟩

omit [Runtime] [Fp] in
/-- Only document 7 has the word "c" now. -/
theorem sample_lists : let _ := Example.icu
    ∀ ids, Lists sampleDocs [] [0x63] ids → ids = [7] := by
  intro _ ids hl
  obtain ⟨hnd, hm⟩ := (C91_default _ _ _).1 hl
  obtain ⟨_, _, _, hqw, _, hw2⟩ := words_example
  have hc : ∀ x, HasWord [0x63] x ↔ x = [0x63#16] := fun x => by rw [← Apps.lineWords_mem (wellFormed_ascii (by decide)), hqw]; simp
  have ha : ∀ x, HasWord [0x61, 0x62, 0x64] x ↔ x = [0x61#16, 0x62#16, 0x64#16] := fun x => by
    rw [← Apps.lineWords_mem (wellFormed_ascii (by decide)), hw2]; simp
  have hsame : SameName [0x74] [0x54] ∧ SameName [0x54] [0x74] := by
    have h1 : LowerText [0x74] [0x74] := ⟨[0x74], Apps.ascii_utf8 (by decide), Apps.ascii_utf8 (by decide)⟩
    have h2 : LowerText [0x54] [0x74] := ⟨[0x54], Apps.ascii_utf8 (by decide), Apps.ascii_utf8 (by decide)⟩
    exact ⟨⟨_, h1, h2⟩, ⟨_, h2, h1⟩⟩
  have h7 : 7 ∈ ids := by
    refine (hm 7).2 ⟨_, List.mem_cons_self .., rfl, [0x63], ⟨[([0x74], [0x61, 0x62, 0x64])], [0x54], [], rfl, by simp⟩, ?_⟩
    exact ⟨[0x63#16], [0x63#16], 0, (hc _).2 rfl, (hc _).2 rfl, ⟨0, distance_self _, rfl⟩, by decide⟩
  have hall : ∀ i ∈ ids, i = 7 := by
    intro i hi
    obtain ⟨d, hd, rfl, t, ⟨pre, f, post, e, hp⟩, x, w, v, h1, h2, ⟨n, h3, rfl⟩, h4⟩ := (hm i).1 hi
    simp only [sampleDocs, List.mem_cons, List.not_mem_nil, or_false] at hd
    rcases hd with rfl | rfl
    · rfl
    · exfalso
      rw [hc] at h1
      have ht : t = [0x61, 0x62, 0x64] := by
        match pre, e with
        | [], e =>
          simp only [List.nil_append, List.cons.injEq, Prod.mk.injEq] at e
          obtain ⟨⟨rfl, rfl⟩, rfl⟩ := e
          exact absurd hsame.1 (hp ([0x74], [0x61, 0x62, 0x64]) (by simp))
        | [_], e =>
          simp only [List.cons_append, List.nil_append, List.cons.injEq, Prod.mk.injEq] at e
          exact e.2.1.2.symm
        | _ :: _ :: pre, e =>
          have := congrArg List.length e
          simp at this
      subst ht
      rw [ha] at h2
      have h5 := distance_length h3
      rw [h1] at h4
      rw [h1, h2] at h5
      simp at h4 h5
      omega
  match ids, hnd, h7, hall with
  | [], _, h, _ => cases h
  | [x], _, _, h => rw [h x (by simp)]
  | x :: y :: _, hnd, _, h =>
    rw [h x (by simp), h y (by simp)] at hnd
    simp at hnd

/-- The program then searches "c" and reads one document, 7; searching a byte that is no text gives null. -/
example : let _ := Example.icu
    ∃ cs h h1 y, cs.map Prod.fst = sampleCalls ∧ Trace cs h ∧
      (CCall.matcherMatch (.obj 5) [0x63]).run h = .ok (h1, .handle y) ∧
      (CCall.matchResultsSize y).run h1 = .ok (h1, .number 1) ∧ Reads y h1 [0, 1, 0] [7, (2^64 - 1), 7] ∧
      (CCall.matcherMatch (.obj 5) [0xff]).run h = .ok (h, .handle .null) := by
  intro _
  obtain ⟨cs, h, k, e, ht, hk, hx⟩ := sample_explained
  obtain ⟨ids, h1, y, e1, hl, e2, hr⟩ := C91_answer ht hk hx [0x63] ⟨by decide, by decide⟩ (wellFormed_ascii (by decide))
  obtain rfl := sample_lists ids hl
  refine ⟨cs, h, h1, y, e, ht, e1, e2, hr [0, 1, 0], C91_null ht hk hx [0xff] ⟨by decide, by decide⟩ ?_⟩
  intro hw
  obtain ⟨_, _, hgood, _⟩ := @C11_split Example.debug Example.icu [0xff]
  obtain ⟨ws, hws, _⟩ := hgood hw
  have : @splitToWords Example.debug Example.icu [0xff] = .error .runtimeError := by decide +kernel
  rw [this] at hws; cases hws

end

end Columbus.Props
