import Verif.Proofs.Mutual
import Verif.Proofs.Preset
import Verif.Props.Errors
import Verif.Props.Levenshtein
import Verif.Props.Settings
/-
C95: similarity is mutual.
-/

namespace Columbus.Props
open Columbus Spec ErrorValues

/-- The calls that set replacement costs by keyboards, accents and number pads, or clear them. -/
def Evenly : ErrOp → Prop
  | .clearErrors | .addAccents _ _ | .addKeyboardErrors | .addNumberpadErrors | .addStandardErrors _ => True
  | _ => False

/-- C95. The prices are even if leaving out a letter was given the same price everywhere. -/
theorem C95_even [Build] [Icu] (ops : List ErrOp) (n : Nat)
    (hd : lastOf setsDeletion ops 100 = lastOf setsInsertion ops 100)
    (he : lastOf setsEndDeletion ops 100 = lastOf setsInsertion ops 100)
    (hs : n < lastOf setsLimit ops 0 ∨ lastOf setsStartInsertion ops 100 = lastOf setsInsertion ops 100) :
    (configured (afterOps ops) n).Even := by
  obtain ⟨h1, h2, h3, _, h5⟩ := C80_settings ops n
  refine ⟨rfl, ?_, ?_, ?_, ?_⟩
  · show (afterOps ops).getStartInsertionError n = (afterOps ops).getInsertionError
    rw [h5, h1]
    rcases hs with hs | hs
    · rw [if_pos hs]
    · rw [hs, ite_self]
  · show (afterOps ops).getEndDeletionError = (afterOps ops).getInsertionError
    rw [h3, h1, he]
  · show (afterOps ops).getDeletionError = (afterOps ops).getInsertionError
    rw [h2, h1, hd]
  · intro a b
    obtain ⟨v, e1, e2⟩ := C29_symmetric ops a b
    simp only [configured, e1, e2]

/-- C95. Even prices give the same error in both directions, for the words read backwards, and at most the sum for two
words put together. -/
theorem C95_price (c : EditCosts) (he : c.Even) (q w : Word) (v : Int) :
    (IsEditCost c q w v ↔ IsEditCost c w q v) ∧ (IsEditCost c q w v ↔ IsEditCost c q.reverse w.reverse v) ∧
    ∀ q' w' v' s, IsEditCost c q w v → IsEditCost c q' w' v' → IsEditCost c (q ++ q') (w ++ w') s → s ≤ v + v' := by
  have back : ∀ {q w : Word} {v : Int}, IsEditCost c q w v → IsEditCost c q.reverse w.reverse v := by
    rintro q w v ⟨h1, h2⟩
    refine ⟨he.back_all h1, fun v' h' => h2 v' ?_⟩
    have := he.back_all h'
    rwa [List.reverse_reverse, List.reverse_reverse] at this
  refine ⟨?_, ⟨back, fun h => ?_⟩, ?_⟩
  · constructor <;> rintro ⟨h1, h2⟩ <;> exact ⟨he.swap h1, fun v' h' => h2 v' (he.swap h')⟩
  · have := back h
    rwa [List.reverse_reverse, List.reverse_reverse] at this
  · intro q' w' v' s h h' hs
    exact hs.2 _ (he.join_all h.1 h'.1)

/-- C95. A search for `q` finds `w` with some error exactly if a search for `w` finds `q` with this error, whatever else
the indexes hold. -/
theorem C95_mutual [Build] [Icu] [Runtime] (os os' : Nat → Bool) (h h' : IndexHistory) (ix ix' : LevIndex)
    (ho : IndexHistory.Ok h) (ho' : IndexHistory.Ok h') (hb : built os h = .ok ix) (hb' : built os' h' = .ok ix')
    (ops : List ErrOp) (q w : Word) (i j : WordID) (hw : IndexHistory.Has h w i) (hq : IndexHistory.Has h' q j)
    (hm : Moderate (configured (afterOps ops) q.length) q h) (hm' : Moderate (configured (afterOps ops) w.length) w h')
    (he : (configured (afterOps ops) q.length).Even) (he' : (configured (afterOps ops) w.length).Even)
    (hn : (configured (afterOps ops) q.length).NonNeg) (hs : (configured (afterOps ops) q.length).SwapsAreDear)
    (T : Int) (r r' : IndexMatches) (hr : ix.findWords q (afterOps ops) T [] = .ok r)
    (hr' : ix'.findWords w (afterOps ops) T [] = .ok r') (v : Int) : ⟨i, v⟩ ∈ r ↔ ⟨j, v⟩ ∈ r' := by
  have same : configured (afterOps ops) q.length = configured (afterOps ops) w.length := by
    have h1 := he.startIns
    have h2 := he'.startIns
    simp only [configured] at h1 h2 ⊢
    rw [h1, h2]
  have hid : (afterOps ops).getInsertionError = (afterOps ops).getDeletionError := he.del.symm
  have key : ∀ {os : Nat → Bool} {h : IndexHistory} {ix : LevIndex} {q w : Word} {i : WordID} {r : IndexMatches},
      IndexHistory.Ok h → built os h = .ok ix → IndexHistory.Has h w i → (∀ l ∈ q, l ≠ 0#16) →
      Moderate (configured (afterOps ops) q.length) q h → (configured (afterOps ops) q.length).NonNeg →
      (configured (afterOps ops) q.length).SwapsAreDear → ix.findWords q (afterOps ops) T [] = .ok r →
      (⟨i, v⟩ ∈ r ↔ IsEditCost (configured (afterOps ops) q.length) q w v ∧ v ≤ T) := by
    intro os h ix q w i r ho hb hw hz hm hn hs hr
    obtain ⟨a1, p1, f1⟩ := C19_true_errors os h ix ho hb ops q hz hm hid T [] r hr
    obtain ⟨a2, p2, f2⟩ := C20_partial os h ix ho hb ops q hz hm hid hn hs T [] r hr
    constructor
    · intro hx
      obtain ⟨hT, w', hw', hc⟩ := f1 _ (p1.mem_iff.1 hx)
      have : w' = w := (ho.consistent _ hw'.2 _ hw.2 hw'.1 hw.1).2 rfl
      exact ⟨this ▸ hc, hT⟩
    · rintro ⟨hc, hT⟩
      exact p2.mem_iff.2 (f2 w i v hw hc hT)
  rw [key ho hb hw (ho'.noNul _ hq.2) hm hn hs hr,
    key ho' hb' hq (ho.noNul _ hw.2) hm' (same ▸ hn) (same ▸ hs) hr', ← same, (C95_price _ he q w v).1]

/-- C95 for the settings the library ships apart from substring mode, and words of up to 10 million letters: both
searches return, and find each other's word with the same error or not at all. -/
theorem C95_plain [Build] [Icu] [Runtime] (os os' : Nat → Bool) (h h' : IndexHistory) (ix ix' : LevIndex)
    (ho : IndexHistory.Ok h) (ho' : IndexHistory.Ok h') (hb : built os h = .ok ix) (hb' : built os' h' = .ok ix')
    (ops : List ErrOp) (hops : ∀ op ∈ ops, Evenly op) (q w : Word) (i j : WordID) (hw : IndexHistory.Has h w i)
    (hq : IndexHistory.Has h' q j) (hl : ∀ p ∈ h, p.1.length ≤ 10000000) (hl' : ∀ p ∈ h', p.1.length ≤ 10000000) (T : Int) :
    ∃ r r', ix.findWords q (afterOps ops) T [] = .ok r ∧ ix'.findWords w (afterOps ops) T [] = .ok r' ∧
      ∀ v, ⟨i, v⟩ ∈ r ↔ ⟨j, v⟩ ∈ r' := by
  have hp : PresetMade (afterOps ops) := by
    refine presetMade_afterOps fun op hop => ?_
    have := hops op hop
    cases op <;> first | exact this.elim | trivial
  have none_of : ∀ {α : Type} (f : ErrOp → Option α) (a : α), (∀ op, Evenly op → f op = none) → lastOf f ops a = a := by
    intro α f a hf
    have : ops.filterMap f = [] := List.filterMap_eq_nil_iff.2 fun op hop => hf op (hops op hop)
    rw [lastOf, this]; rfl
  have even : ∀ n, (configured (afterOps ops) n).Even := by
    intro n
    apply C95_even
    · rw [none_of setsDeletion, none_of setsInsertion] <;> intro op hop <;> cases op <;> first | exact hop.elim | rfl
    · rw [none_of setsEndDeletion, none_of setsInsertion] <;> intro op hop <;> cases op <;> first | exact hop.elim | rfl
    · right
      rw [none_of setsStartInsertion, none_of setsInsertion] <;> intro op hop <;> cases op <;> first | exact hop.elim | rfl
  have mod : ∀ {h : IndexHistory} {q : Word}, (∀ p ∈ h, p.1.length ≤ 10000000) → q.length ≤ 10000000 →
      Moderate (configured (afterOps ops) q.length) q h := by
    intro h q hl hq
    refine ⟨100, 10000000, hp.within _, hl, ?_⟩
    omega
  have hm := mod hl (hl' _ hq.2)
  have hm' := mod hl' (hl _ hw.2)
  have hid := (even 0).del.symm
  obtain ⟨r, hr⟩ := C25_no_fault os h ix ho hb ops q (ho'.noNul _ hq.2) hm hid T []
  obtain ⟨r', hr'⟩ := C25_no_fault os' h' ix' ho' hb' ops w (ho.noNul _ hw.2) hm' hid T []
  exact ⟨r, r', hr, hr', C95_mutual os os' h h' ix ix' ho ho' hb hb' ops q w i j hw hq hm hm' (even _) (even _)
    (hp.nonNeg _) ((hp.exact [q]).2 q (by simp)) T r r' hr hr'⟩

/-- Beside C95: "cat" finds "act" and "cart" with an error of 100, and each finds "cat". -/
example :
    (@built Example.debug (fun _ => true) [([0x61, 0x63, 0x74], 0)] >>= fun ix =>
      @LevIndex.findWords Example.debug Example.runtime ix [0x63, 0x61, 0x74] (@afterOps Example.debug Example.icu []) 100 []) = .ok [⟨0, 100⟩] ∧
    (@built Example.debug (fun _ => true) [([0x63, 0x61, 0x74], 5)] >>= fun ix =>
      @LevIndex.findWords Example.debug Example.runtime ix [0x61, 0x63, 0x74] (@afterOps Example.debug Example.icu []) 100 []) = .ok [⟨5, 100⟩] ∧
    (@built Example.debug (fun _ => true) [([0x63, 0x61, 0x72, 0x74], 0)] >>= fun ix =>
      @LevIndex.findWords Example.debug Example.runtime ix [0x63, 0x61, 0x74] (@afterOps Example.debug Example.icu []) 100 []) = .ok [⟨0, 100⟩] ∧
    (@built Example.debug (fun _ => true) [([0x63, 0x61, 0x74], 5)] >>= fun ix =>
      @LevIndex.findWords Example.debug Example.runtime ix [0x63, 0x61, 0x72, 0x74] (@afterOps Example.debug Example.icu []) 100 []) = .ok [⟨5, 100⟩] := by
  refine ⟨?_, ?_, ?_, ?_⟩ <;> decide +kernel

/-- Substring mode is not even: "abc" finds "abcd" with an error of 15, while "abcd" does not find "abc" within 99. -/
theorem C95_substring :
    (@built Example.debug (fun _ => true) [([0x61, 0x62, 0x63, 0x64], 0)] >>= fun ix =>
      @LevIndex.findWords Example.debug Example.runtime ix [0x61, 0x62, 0x63] (@afterOps Example.debug Example.icu [.setSubstringMode]) 99 []) = .ok [⟨0, 15⟩] ∧
    (@built Example.debug (fun _ => true) [([0x61, 0x62, 0x63], 0)] >>= fun ix =>
      @LevIndex.findWords Example.debug Example.runtime ix [0x61, 0x62, 0x63, 0x64] (@afterOps Example.debug Example.icu [.setSubstringMode]) 99 []) = .ok [] := by
  constructor <;> decide +kernel

/-- Errors do not add up: "ca" is 100 from "ac", which is 100 from "abc", but "ca" is 300 from "abc" (letters that are
swapped must stay next to each other). -/
theorem C95_triangle_false :
    (@built Example.debug (fun _ => true) [([0x61, 0x63], 0)] >>= fun ix =>
      @LevIndex.findWords Example.debug Example.runtime ix [0x63, 0x61] (@afterOps Example.debug Example.icu []) 1000 []) = .ok [⟨0, 100⟩] ∧
    (@built Example.debug (fun _ => true) [([0x61, 0x62, 0x63], 0)] >>= fun ix =>
      @LevIndex.findWords Example.debug Example.runtime ix [0x61, 0x63] (@afterOps Example.debug Example.icu []) 1000 []) = .ok [⟨0, 100⟩] ∧
    (@built Example.debug (fun _ => true) [([0x61, 0x62, 0x63], 0)] >>= fun ix =>
      @LevIndex.findWords Example.debug Example.runtime ix [0x63, 0x61] (@afterOps Example.debug Example.icu []) 1000 []) = .ok [⟨0, 300⟩] := by
  refine ⟨?_, ?_, ?_⟩ <;> decide +kernel

end Columbus.Props
