import Verif.Proofs.MatcherFacts
import Verif.Spec.CApi
/-
Settings made only of the library's own presets are usable for every search.
-/

namespace Columbus
open Spec ErrorValues
variable [Build] [Icu]

/-- The values that presets use. -/
def Ev.Mild : Ev → Prop
  | .single a b v => 0 ≤ v ∧ v ≤ 100 ∧ (a ≠ b ∨ v = 0)
  | .group _ v => 0 ≤ v ∧ v ≤ 100
  | .clear => True

omit [Build] [Icu] in
theorem pad_mild : ∀ p ∈ allPadPairs, 0 ≤ p.2.2 ∧ p.2.2 ≤ 100 ∧ p.1 ≠ p.2.1 := by decide +kernel

omit [Build] [Icu] in
theorem key_mild : ∀ p ∈ keyPairs, p.1 ≠ p.2 := by decide +kernel

theorem makes_mild {op : ErrOp} {ev : Ev} (hp : op.Preset) (h : Makes op ev) : Ev.Mild ev := by
  cases op <;> simp only [ErrOp.Preset] at hp
  · rw [show ev = Ev.clear from h]; trivial
  · obtain ⟨g, _, rfl⟩ := h; exact ⟨by omega, by omega⟩
  · obtain ⟨a, b, hk, rfl⟩ := h; exact ⟨by omega, by omega, Or.inl (key_mild _ hk)⟩
  · obtain ⟨a, b, v, hk, rfl⟩ := h
    have := pad_mild _ hk
    exact ⟨this.1, this.2.1, Or.inl this.2.2⟩
  · rcases h with ⟨_, g, _, rfl⟩ | ⟨a, b, hk, rfl⟩
    · exact ⟨by omega, by omega⟩
    · exact ⟨by omega, by omega, Or.inl (key_mild _ hk)⟩
  · exact absurd h (by simp [Makes])
  · exact absurd h (by simp [Makes])

omit [Build] [Icu] in
theorem table_mild {h : List Ev} (hm : ∀ ev ∈ h, Ev.Mild ev) (a b : Letter) : 0 ≤ tableCost h a b ∧ tableCost h a b ≤ 100 := by
  induction h with
  | nil => rw [tableCost]; split <;> omega
  | cons ev h ih =>
    have ih := ih fun e he => hm e (by simp [he])
    have := hm ev (by simp)
    cases ev with
    | clear => rw [tableCost]; split <;> omega
    | single x y v => rw [tableCost]; split
                      · exact ⟨this.1, this.2.1⟩
                      · exact ih
    | group g v => rw [tableCost]; split
                   · exact this
                   · exact ih

omit [Build] [Icu] in
theorem single_mild {h : List Ev} (hm : ∀ ev ∈ h, Ev.Mild ev) (a b : Letter) {v : Int} (hv : singleCost h a b = some v) :
    0 ≤ v ∧ v ≤ 100 := by
  induction h with
  | nil => cases hv
  | cons ev h ih =>
    have ih := ih fun e he => hm e (by simp [he])
    have := hm ev (by simp)
    cases ev with
    | clear => cases hv
    | single x y w =>
      rw [singleCost] at hv
      split at hv
      · cases hv; exact ⟨this.1, this.2.1⟩
      · exact ih hv
    | group g w => exact ih hv

omit [Build] [Icu] in
theorem groups_mild {h : List Ev} (hm : ∀ ev ∈ h, Ev.Mild ev) : ∀ p ∈ groups h, 0 ≤ p.2 ∧ p.2 ≤ 100 := by
  induction h with
  | nil => simp [groups]
  | cons ev h ih =>
    have ih := ih fun e he => hm e (by simp [he])
    have := hm ev (by simp)
    cases ev with
    | clear => simp [groups]
    | single x y w => exact ih
    | group g w =>
      intro p hp
      rw [groups, List.mem_append, List.mem_singleton] at hp
      rcases hp with hp | rfl
      · exact ih p hp
      · exact this

omit [Build] [Icu] in
theorem cost_mild {h : List Ev} (hm : ∀ ev ∈ h, Ev.Mild ev) (a b : Letter) : 0 ≤ cost h a b ∧ cost h a b ≤ 100 := by
  rw [ErrorValues.cost]
  split
  · exact table_mild hm a b
  · rw [mapCost]
    split
    · omega
    · split
      · rename_i v hv; exact single_mild hm a b hv
      · rw [groupCost]
        cases hf : (groups h).find? fun p => decide (a ∈ p.1) && decide (b ∈ p.1) with
        | none => simp
        | some p => simpa using groups_mild hm p (List.mem_of_find?_eq_some hf)

omit [Build] [Icu] in
theorem cost_self {h : List Ev} (hm : ∀ ev ∈ h, Ev.Mild ev) (a : Letter) : cost h a a = 0 := by
  rw [ErrorValues.cost]
  split
  · induction h with
    | nil => simp [tableCost]
    | cons ev h ih =>
      have ih := ih fun e he => hm e (by simp [he])
      have := hm ev (by simp)
      cases ev with
      | clear => simp [tableCost]
      | group g v => rw [tableCost, if_neg (by simp), ih]
      | single x y v =>
        rw [tableCost, ih]
        split
        · rename_i hp
          rw [samePair_iff] at hp
          obtain ⟨_, _, h3⟩ := this
          rcases h3 with h3 | h3
          · exfalso; apply h3
            rcases hp with ⟨h1, h2⟩ | ⟨h1, h2⟩
            · rw [← h1, ← h2]
            · rw [← h1, ← h2]
          · exact h3
        · rfl
  · rw [mapCost, if_pos rfl]

/-- The other settings after presets. -/
structure Tame (e : ErrorValues) : Prop where
  ins : e.insertionError = 100
  del : e.deletionError = 100
  endDel : 0 ≤ e.endDeletionError ∧ e.endDeletionError ≤ 100
  start : 0 ≤ e.startInsertionError ∧ e.startInsertionError ≤ 100
  trans : e.transposeError = 100

omit [Build] [Icu] in
theorem Tame.same {e e' : ErrorValues} (h : Tame e) (hs : SameSettings e e') : Tame e' := by
  obtain ⟨h1, h2, h3, h4, h5, _⟩ := hs
  exact ⟨h1.trans h.ins, h2.trans h.del, h3 ▸ h.endDel, h4 ▸ h.start, h5.trans h.trans⟩

theorem standard_same (d : DataDir) {e : ErrorValues} {h : List Ev} (hi : ErrorValues.EInv e h) :
    SameSettings e (addStandardErrors d e).1 ∧ ∀ f, (addStandardErrors d e).2 = some f → f = .runtimeError ∨ f = .invalidArgument := by
  have hacc : ∀ greek {e : ErrorValues} {h : List Ev}, ErrorValues.EInv e h → ∀ f, (addAccents d e greek).2 = some f →
      f = .runtimeError ∨ f = .invalidArgument := by
    intro greek e h hi f
    rw [addAccents]
    cases d greek with
    | none => intro hf; simp only [Option.some.injEq] at hf; exact Or.inl hf.symm
    | some lines =>
      simp only
      generalize lines.map (fun l => l.takeWhile (· != 0)) = ls
      clear lines
      induction ls generalizing e h with
      | nil => intro hf; cases hf
      | cons l ls ih =>
        rw [accentLoop]
        cases hw : Word.ofUtf8 l with
        | error x =>
          intro hf
          injection hf with hf
          subst hf
          by_cases hs : WellFormed l
          · obtain ⟨c, hc⟩ := hs
            rw [ofUtf8_of_utf8 hc] at hw
            split at hw
            · cases hw; exact Or.inr rfl
            · cases hw
          · rw [ofUtf8_bad hs] at hw; cases hw; exact Or.inl rfl
        | ok g =>
          simp only
          split
          · exact ih hi
          · obtain ⟨e', h1, h2, _⟩ := hi.setGroupError g DEFAULT_GROUP_ERROR
            rw [h1]
            split
            · rename_i heq; injection heq with _ heq
              intro hf
              dsimp only at hf
              cases hf
              split at heq
              · cases heq
              · cases heq; exact Or.inl rfl
            · rename_i heq; injection heq with heq _
              subst heq
              exact ih h2
  rw [addStandardErrors]
  obtain ⟨evs1, h1, s1, _⟩ := addAccents_inv d false hi
  have f1 := hacc false hi
  generalize addAccents d e false = A at h1 s1 f1
  obtain ⟨e1, o1⟩ := A
  cases o1 with
  | some f => exact ⟨s1, f1⟩
  | none =>
    simp only
    obtain ⟨evs2, h2, s2, _⟩ := addAccents_inv d true h1
    have f2 := hacc true h1
    generalize hB : addAccents d (e1, (none : Option Fault)).1 true = B at h2 s2 f2
    simp only at hB
    obtain ⟨e2, o2⟩ := B
    cases o2 with
    | some f => exact ⟨s1.trans s2, f2⟩
    | none =>
      simp only
      obtain ⟨e3, evs3, k1, _, k2, s3, _⟩ := keyboard_inv h2
      simp only at k1
      rw [k1]
      exact ⟨(s1.trans s2).trans s3, by intro f hf; cases hf⟩

theorem run_tame {op : ErrOp} (hp : op.Preset) {e : ErrorValues} {h : List Ev} (hi : ErrorValues.EInv e h) (ht : Tame e) : Tame (op.run e).1 := by
  cases op <;> simp only [ErrOp.Preset] at hp
  · exact ⟨ht.ins, ht.del, ht.endDel, ht.start, ht.trans⟩
  · rename_i d greek
    obtain ⟨_, _, s, _⟩ := addAccents_inv d greek hi
    exact ht.same s
  · obtain ⟨e', _, h1, _, _, s, _⟩ := keyboard_inv hi
    rw [ErrOp.run, h1]; exact ht.same s
  · obtain ⟨e', h1, _, s⟩ := hi.setErrors allPadPairs
    rw [ErrOp.run, addNumberpadErrors_eq, h1]; exact ht.same s
  · rename_i d
    exact ht.same (standard_same d hi).1
  · exact ⟨ht.ins, ht.del, by simp [ErrOp.run, ErrorValues.setSubstringMode, DEFAULT_SUBSTRING_END_DELETION_ERROR],
      by simp [ErrOp.run, ErrorValues.setSubstringMode, DEFAULT_SUBSTRING_START_INSERTION_ERROR], ht.trans⟩
  · exact ⟨ht.ins, ht.del, hp, ht.start, ht.trans⟩

/-- What is needed of the settings: everything within [0, 100], keeping letters free. -/
structure PresetMade (e : ErrorValues) : Prop where
  tame : Tame e
  inv : ∃ h, ErrorValues.EInv e h ∧ ∀ ev ∈ h, Ev.Mild ev

omit [Build] [Icu] in
theorem presetMade_new : PresetMade ErrorValues.new :=
  ⟨⟨rfl, rfl, by decide, by decide, rfl⟩, [], new_inv, by simp⟩

theorem PresetMade.run {e : ErrorValues} (h : PresetMade e) {op : ErrOp} (hp : op.Preset) : PresetMade (op.run e).1 := by
  obtain ⟨hist, hi, hm⟩ := h.inv
  obtain ⟨evs, h1, h2⟩ := run_inv op hi
  refine ⟨run_tame hp hi h.tame, _, h1, ?_⟩
  intro ev hev
  rcases List.mem_append.1 hev with x | x
  · exact makes_mild hp (h2 ev x)
  · exact hm ev x

theorem presetMade_afterOps {ops : List ErrOp} (h : ∀ op ∈ ops, op.Preset) : PresetMade (afterOps ops) := by
  unfold afterOps
  have := presetMade_new
  revert this
  generalize ErrorValues.new = e
  induction ops generalizing e with
  | nil => intro this; exact this
  | cons op ops ih =>
    intro this
    exact ih (fun o ho => h o (by simp [ho])) _ (this.run (h op (by simp)))

omit [Build] [Icu] in
theorem PresetMade.sub {e : ErrorValues} (h : PresetMade e) (a b : Letter) : ∃ v, e.getSubstituteError a b = .ok v ∧ 0 ≤ v ∧ v ≤ 100 := by
  obtain ⟨hist, hi, hm⟩ := h.inv
  exact ⟨_, hi.cost a b, cost_mild hm a b⟩

omit [Build] [Icu] in
theorem PresetMade.self {e : ErrorValues} (h : PresetMade e) (a : Letter) : e.getSubstituteError a a = .ok 0 := by
  obtain ⟨hist, hi, hm⟩ := h.inv
  rw [hi.cost a a, cost_self hm]

omit [Build] [Icu] in
theorem PresetMade.start {e : ErrorValues} (h : PresetMade e) (n : Nat) : 0 ≤ e.getStartInsertionError n ∧ e.getStartInsertionError n ≤ 100 := by
  rw [getStartInsertionError]
  split
  · exact h.tame.start
  · rw [h.tame.ins]; omega

omit [Build] [Icu] in
theorem PresetMade.nonNeg {e : ErrorValues} (h : PresetMade e) (n : Nat) : (configured e n).NonNeg := by
  refine ⟨?_, ?_, (h.start n).1, h.tame.endDel.1, ?_, ?_, ?_⟩
  · show 0 ≤ e.insertionError; rw [h.tame.ins]; omega
  · show 0 ≤ e.insertionError; rw [h.tame.ins]; omega
  · show 0 ≤ e.deletionError; rw [h.tame.del]; omega
  · show 0 ≤ e.transposeError; rw [h.tame.trans]; omega
  · intro a b
    obtain ⟨v, hv, h0, _⟩ := h.sub a b
    simp only [configured, hv]; exact h0

omit [Build] [Icu] in
theorem PresetMade.within {e : ErrorValues} (h : PresetMade e) (n : Nat) : (configured e n).Within 100 := by
  have h1 : e.insertionError = 100 := h.tame.ins
  have h2 : e.deletionError = 100 := h.tame.del
  have h3 : e.transposeError = 100 := h.tame.trans
  have h4 := h.start n
  have h5 := h.tame.endDel
  refine ⟨?_, ?_, ?_, ?_, ?_, ?_, ?_⟩
  · show _ ≤ e.insertionError ∧ e.insertionError ≤ _; omega
  · show _ ≤ e.insertionError ∧ e.insertionError ≤ _; omega
  · show _ ≤ e.getStartInsertionError n ∧ e.getStartInsertionError n ≤ _; omega
  · show _ ≤ e.endDeletionError ∧ e.endDeletionError ≤ _; omega
  · show _ ≤ e.deletionError ∧ e.deletionError ≤ _; omega
  · show _ ≤ e.transposeError ∧ e.transposeError ≤ _; omega
  · intro a b
    obtain ⟨v, hv, h0, h6⟩ := h.sub a b
    simp only [configured, hv]; omega

omit [Icu] in
/-- With preset settings every search is usable. -/
theorem PresetMade.sane {e : ErrorValues} (h : PresetMade e) {q : WordList} {H : MatcherHistory} (hn : ∀ x ∈ q, ∀ l ∈ x, l ≠ 0#16)
    {L : Nat} (hq : ∀ x ∈ q, x.length ≤ L) (hH : ∀ w ∈ H.words, w.length ≤ L) (hL : L ≤ 10000000) : Sane e q H := by
  refine ⟨hn, fun x _ => h.nonNeg _, ?_, Or.inr ?_⟩
  · intro x hx
    refine ⟨100, L, h.within _, ?_, ?_⟩
    · intro y hy
      obtain ⟨w, hw, rfl⟩ := List.mem_map.1 hy
      exact hH w hw
    · have := hq x hx
      have h1 : ((L + x.length + 4 : Nat) : Int) ≤ 20000004 := by omega
      omega
  · show e.insertionError = e.deletionError
    rw [h.tame.ins, h.tame.del]

omit [Build] [Icu] in
/-- … exact and complete. -/
theorem PresetMade.exact {e : ErrorValues} (h : PresetMade e) (q : WordList) : Exact e q := by
  have h1 : e.insertionError = 100 := h.tame.ins
  have h2 : e.deletionError = 100 := h.tame.del
  have h3 : e.transposeError = 100 := h.tame.trans
  refine ⟨?_, ?_⟩
  · show e.insertionError = e.deletionError; omega
  · intro x _
    left
    have h4 := h.start x.length
    constructor
    · show e.getStartInsertionError x.length ≤ e.transposeError; omega
    · show e.deletionError ≤ e.transposeError; omega

end Columbus
