import Verif.Proofs.HeapOnline
import Verif.Props.HeapSearch
/-
C126: `onlineMatch` when the heap refuses memory.
-/

namespace Columbus.Props
open Columbus Spec ErrorValues

section
variable [Build] [Icu] [Runtime] [Fp] {os : Nat → Bool} {m : Matcher} {H : MatcherHistory} {K : List Word}

/-- C126. Whatever requests for memory are refused, `onlineMatch` leaves the matcher exactly as it was. Unless it ends with
`bad_alloc` it does what it does with memory to spare; and it ends that way only for memory of its own, and only if some
request was refused. -/
theorem C126_kept (h : Ran os m H K) (working : Bool) (heap : Heap) (q : WordList) (f : Word) (hq : ∀ w ∈ q, Usable w)
    (hf : Usable f) (m' : Matcher) (r : Except SearchStop (MatchResults × Nat))
    (e : Matcher.onlineMatchHeap working heap 0 m q f = (m', r)) :
    m' = m ∧ (∀ x k, r = .ok (x, k) → m.onlineMatch q f = (m, .ok x)) ∧
    (∀ x, r = .error (.fault x) → m.onlineMatch q f = (m, .error x)) ∧ r ≠ .error .identifier ∧
    (r = .error .work → working = false ∨ ∃ k, heap k = false) := by
  obtain ⟨names, hi, -, -⟩ := Columbus.Ran.inv h
  obtain ⟨r', e', hk⟩ := hi.onlineMatchHeap (heap := heap) working 0 hf (q := q) (fun w hw => usable_noNul (hq w hw))
  rw [e']
  rcases hk with ⟨a, k, e1, rfl⟩ | ⟨x, e1, rfl⟩ | ⟨e1, hr⟩ <;> rw [e] at e1 <;> injection e1 with e1 e2 <;> subst e1 <;> subst e2
  · exact ⟨rfl, fun x k e => by injection e with e; injection e with e _; rw [e], fun _ e => (by cases e), (by simp), fun e => (by cases e)⟩
  · exact ⟨rfl, fun _ _ e => (by cases e), fun x e => by injection e with e; injection e with e; rw [e], (by simp), fun e => (by cases e)⟩
  · exact ⟨rfl, fun _ _ e => (by cases e), fun _ e => (by cases e), (by simp), fun _ => hr⟩

/-- C126, called again. Any number of calls of `onlineMatch`, refused whatever memory, leave the matcher as it was: a call
after them returns what it would have returned at first. -/
theorem C126_again (h : Ran os m H K) (calls : List (Bool × Heap × WordList × Word))
    (hc : ∀ c ∈ calls, (∀ w ∈ c.2.2.1, Usable w) ∧ Usable c.2.2.2) :
    calls.foldl (fun m c => (Matcher.onlineMatchHeap c.1 c.2.1 0 m c.2.2.1 c.2.2.2).1) m = m := by
  induction calls with
  | nil => rfl
  | cons c cs ih =>
    have hx : (Matcher.onlineMatchHeap c.1 c.2.1 0 m c.2.2.1 c.2.2.2).1 = m :=
      (C126_kept h c.1 c.2.1 c.2.2.1 c.2.2.2 (hc c (by simp)).1 (hc c (by simp)).2
        (Matcher.onlineMatchHeap c.1 c.2.1 0 m c.2.2.1 c.2.2.2).1 (Matcher.onlineMatchHeap c.1 c.2.1 0 m c.2.2.1 c.2.2.2).2 rfl).1
    rw [List.foldl_cons, hx]
    exact ih (fun c hx => hc c (by simp [hx]))

end

/-- C126, sizes. Also where sizes are missing, the loop over the exact words does what it does with memory to spare, sizes
added included, unless a request was refused; then it ends for want of memory. -/
theorem C126_sizes [Fp] (heap : Heap) (n : Nat) (i : WordID) (l : SMap DocumentID Nat) :
    ∀ (k : Nat) (sizes : SMap (DocumentID × WordID) Nat) (acc : SMap DocumentID ℚ),
    (∃ acc' k', Matcher.exactLoopHeap heap n i k sizes acc l = ((Matcher.exactLoop n i sizes acc l).1, .ok (acc', k')) ∧
      (Matcher.exactLoop n i sizes acc l).2 = acc') ∨
    ((Matcher.exactLoopHeap heap n i k sizes acc l).2 = .error .work ∧ ∃ k, heap k = false) := by
  induction l with
  | nil => intro k sizes acc; exact Or.inl ⟨_, _, rfl, rfl⟩
  | cons x l ih =>
    intro k sizes acc
    obtain ⟨id, c⟩ := x
    unfold Matcher.exactLoop Matcher.exactLoopHeap
    by_cases hk : heap k = false
    · exact Or.inr ⟨by simp only [hk, if_true], k, hk⟩
    simp only [hk]
    by_cases hc : c = n
    · simp only [hc, if_true]
      cases SMap.find Matcher.ltDW sizes (id, i) with
      | some size =>
        dsimp only
        by_cases h : n = size
        · simp only [h, if_true]; exact h ▸ ih _ _ _
        · simp only [h, if_false]; exact ih _ _ _
      | none =>
        dsimp only
        by_cases hk' : heap (k + 1) = false
        · exact Or.inr ⟨by simp [hk'], k + 1, hk'⟩
        simp only [hk']
        by_cases h : n = 0
        · simp only [h, if_true]; exact h ▸ ih _ _ _
        · simp only [h, if_false]; exact ih _ _ _
    · simp only [hc, if_false]; exact ih _ _ _

/-! A concrete case. -/

section
variable [Build] [Icu] [Runtime] [Fp]

/-- Does `onlineMatch` for `q` in the field `f` end for want of memory after a corpus was indexed by a new matcher? -/
def stoppedOnline (os : Nat → Bool) (heap : Heap) (c : Corpus) (q : WordList) (f : Word) : Bool :=
  match Matcher.new os with
  | .error _ => false
  | .ok m => match m.index c with
    | (m1, none) => match Matcher.onlineMatchHeap true heap 0 m1 q f with
      | (_, .error .work) => true
      | _ => false
    | _ => false

omit [Icu] in
theorem stoppedOnline_sound {os : Nat → Bool} {heap : Heap} {c : Corpus} {q : WordList} {f : Word}
    (h : stoppedOnline os heap c q f = true) :
    ∃ m m1 m2 : Matcher, Matcher.new os = .ok m ∧ m.index c = (m1, none) ∧
      Matcher.onlineMatchHeap true heap 0 m1 q f = (m2, .error .work) := by
  unfold stoppedOnline at h
  split at h
  · cases h
  · rename_i m e0
    split at h
    · rename_i m1 e1
      split at h
      · rename_i m2 e2; exact ⟨m, m1, m2, e0, e1, e2⟩
      · cases h
    · cases h

end

section
attribute [local instance] Example.debug Example.icu Example.runtime Example.fp

/-- The title "save" is indexed; `onlineMatch` for "save" in titles is refused the memory of the count, or of the score, or
that of the copy of the result of `match`, or of the merged results. -/
example : ∀ n < 4, ∃ m m' : Matcher, Ran Example.os m (corpusTexts (titled 1 Example.save)) [] ∧
    (∀ w ∈ [Example.save], Usable w) ∧ Usable Example.title ∧
    Matcher.onlineMatchHeap true (refusing n) 0 m [Example.save] Example.title = (m', .error .work) := by
  intro n hn
  have hs : stoppedOnline Example.os (refusing n) (titled 1 Example.save) [Example.save] Example.title = true := by
    have : n = 0 ∨ n = 1 ∨ n = 2 ∨ n = 3 := by omega
    rcases this with rfl | rfl | rfl | rfl <;> decide +kernel
  obtain ⟨m0, m, m', e0, e1, e2⟩ := stoppedOnline_sound hs
  have h0 : Ran Example.os m0 [] [] := .new e0
  have hc : CorpusOk (titled 1 Example.save) := by
    intro d hd
    simp only [titled, List.mem_cons, List.not_mem_nil, or_false] at hd
    subst hd
    refine ⟨_, rfl, ?_⟩
    simp only [List.mem_cons, List.not_mem_nil, or_false, forall_eq]
    exact ⟨Or.inr Example.good_title, Or.inr Example.good_save⟩
  have h1 : Ran Example.os m ([] ++ corpusTexts (titled 1 Example.save)) [] := h0.index hc e1 (by simp)
  exact ⟨m, m', h1, fun w hw => by rw [List.mem_singleton] at hw; subst hw; exact Or.inr Example.good_save,
    Or.inr Example.good_title, e2⟩

end
end Columbus.Props
