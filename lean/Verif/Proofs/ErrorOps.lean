import Verif.Proofs.ErrorValues
import Verif.Spec.Errors
/-
The public calls in terms of basic changes.
-/

namespace Columbus
namespace ErrorValues
open Spec

/-- A sequence of `setError` calls. -/
def setErrors (e : ErrorValues) : List (Letter × Letter × Int) → M ErrorValues
  | [] => .ok e
  | (a, b, v) :: r => e.setError a b v >>= fun e => setErrors e r

theorem bind_ok_self {α : Type} (x : M α) : (x >>= fun a => .ok a) = x := by cases x <;> rfl

theorem setErrors_append (l r : List (Letter × Letter × Int)) (e : ErrorValues) :
    setErrors e (l ++ r) = setErrors e l >>= fun e => setErrors e r := by
  induction l generalizing e with
  | nil => rfl
  | cons p l ih =>
    obtain ⟨a, b, v⟩ := p
    rw [List.cons_append, setErrors, setErrors]
    cases e.setError a b v with
    | error f => rfl
    | ok e => exact ih e

/-- The events of a sequence of `setError` calls, latest first. -/
def singles (l : List (Letter × Letter × Int)) : List Ev := (l.map fun p => Ev.single p.1 p.2.1 p.2.2).reverse

theorem EInv.setErrors (l : List (Letter × Letter × Int)) : ∀ {e : ErrorValues} {h : List Ev}, EInv e h →
    ∃ e', e.setErrors l = .ok e' ∧ EInv e' (singles l ++ h) ∧ SameSettings e e' := by
  induction l with
  | nil => intro e h hi; exact ⟨e, rfl, hi, .refl e⟩
  | cons p l ih =>
    intro e h hi
    obtain ⟨a, b, v⟩ := p
    obtain ⟨e1, h1, hi1, hs1⟩ := hi.setError a b v
    obtain ⟨e2, h2, hi2, hs2⟩ := ih hi1
    refine ⟨e2, by rw [ErrorValues.setErrors, h1, ok_bind, h2], ?_, SameSettings.trans hs1 hs2⟩
    simpa [singles] using hi2

attribute [local irreducible] setError

/-- The pairs set for one key. -/
def stepPairs (i j : Nat) : List (Letter × Letter × Int) :=
  let row := keyboardLayout.getD i []
  let next := keyboardLayout.getD (i + 1) []
  let l := row.getD j 0
  (if j + 1 < row.length then [(l, row.getD (j + 1) 0, 30)] else []) ++
  (if 0 < j ∧ j - 1 < next.length then [(l, next.getD (j - 1) 0, 30)] else []) ++
  (if j < next.length then [(l, next.getD j 0, 30)] else [])

theorem keyAt_ok {i j : Nat} {row : List Letter} (h : keyboardLayout[i]? = some row) (hj : j < row.length) :
    keyAt i j = .ok (row.getD j 0) := by
  rw [keyAt, h]
  simp only
  rw [List.getElem?_eq_getElem hj, List.getD_eq_getElem?_getD, List.getElem?_eq_getElem hj]; rfl

theorem keyboardStep_eq {i j : Nat} {row next : List Letter} (h1 : keyboardLayout[i]? = some row)
    (h2 : keyboardLayout[i + 1]? = some next) (h3 : lineLens[i]? = some row.length) (h4 : lineLens[i + 1]? = some next.length)
    (hj : j < row.length) (e : ErrorValues) : keyboardStep 30 i j e = e.setErrors (stepPairs i j) := by
  have g1 : keyboardLayout.getD i [] = row := by rw [List.getD_eq_getElem?_getD, h1]; rfl
  have g2 : keyboardLayout.getD (i + 1) [] = next := by rw [List.getD_eq_getElem?_getD, h2]; rfl
  rw [keyboardStep, lineLen, lineLen, h3, h4]
  simp only [ok_bind, keyAt_ok h1 hj]
  rw [stepPairs]
  simp only [g1, g2]
  by_cases c1 : j + 1 < row.length <;> by_cases c2 : 0 < j ∧ j - 1 < next.length <;> by_cases c3 : j < next.length <;>
    simp only [c1, c2, c3, if_true, if_false, and_self, keyAt_ok h1, keyAt_ok h2, ok_bind, List.cons_append, List.nil_append,
      List.append_nil, setErrors, bind_ok_self]

theorem keyboardRow_eq {i : Nat} {row next : List Letter} (h1 : keyboardLayout[i]? = some row)
    (h2 : keyboardLayout[i + 1]? = some next) (h3 : lineLens[i]? = some row.length) (h4 : lineLens[i + 1]? = some next.length) :
    ∀ (js : List Nat), (∀ j ∈ js, j < row.length) → ∀ e, keyboardRow 30 i e js = e.setErrors (js.flatMap (stepPairs i)) := by
  intro js
  induction js with
  | nil => intro _ e; rfl
  | cons j js ih =>
    intro hj e
    rw [keyboardRow, keyboardStep_eq h1 h2 h3 h4 (hj j (by simp)), List.flatMap_cons, setErrors_append]
    cases e.setErrors (stepPairs i j) with
    | error f => rfl
    | ok e => exact ih (fun j h => hj j (by simp [h])) e

/-- The pairs set in one row. -/
def rowSteps (i : Nat) : List (Letter × Letter × Int) := (List.range (lineLens.getD i 0)).flatMap (stepPairs i)

theorem keyboardRows_eq : ∀ (is : List Nat), (∀ i ∈ is, ∃ row next, keyboardLayout[i]? = some row ∧
      keyboardLayout[i + 1]? = some next ∧ lineLens[i]? = some row.length ∧ lineLens[i + 1]? = some next.length) →
    ∀ e, keyboardRows 30 e is = e.setErrors (is.flatMap rowSteps) := by
  intro is
  induction is with
  | nil => intro _ e; rfl
  | cons i is ih =>
    intro h e
    obtain ⟨row, next, h1, h2, h3, h4⟩ := h i (by simp)
    have hl : lineLens.getD i 0 = row.length := by rw [List.getD_eq_getElem?_getD, h3]; rfl
    rw [keyboardRows, lineLen, h3]
    simp only [ok_bind]
    rw [keyboardRow_eq h1 h2 h3 h4 _ (fun j h => List.mem_range.1 h), List.flatMap_cons, setErrors_append, rowSteps, hl]
    cases e.setErrors ((List.range row.length).flatMap (stepPairs i)) with
    | error f => simp only [error_bind]
    | ok e => simp only [ok_bind]; exact ih (fun j h' => h j (by simp [h'])) e

/-- The pairs that `addKeyboardErrors` sets, in order. -/
def allKeyPairs : List (Letter × Letter × Int) := (List.range 3).flatMap rowSteps

theorem addKeyboardErrors_eq (e : ErrorValues) : e.addKeyboardErrors = e.setErrors allKeyPairs := by
  rw [addKeyboardErrors, show DEFAULT_TYPO_ERROR = 30 from rfl, allKeyPairs]
  apply keyboardRows_eq
  intro i hi
  have : i = 0 ∨ i = 1 ∨ i = 2 := by have := List.mem_range.1 hi; omega
  rcases this with rfl | rfl | rfl <;> exact ⟨_, _, rfl, rfl, rfl, rfl⟩

/-- The pairs set are the neighbours. -/
theorem mem_allKeyPairs (p : Letter × Letter × Int) : p ∈ allKeyPairs ↔ (p.1, p.2.1) ∈ keyPairs ∧ p.2.2 = 30 := by
  have h1 : ∀ p ∈ allKeyPairs, (p.1, p.2.1) ∈ keyPairs ∧ p.2.2 = 30 := by decide +kernel
  have h2 : ∀ q ∈ keyPairs, (q.1, q.2, (30 : Int)) ∈ allKeyPairs := by decide +kernel
  constructor
  · exact h1 p
  · rintro ⟨ha, hb⟩
    have := h2 _ ha
    obtain ⟨a, b, v⟩ := p
    simp only at hb; subst hb; exact this

/-! ### The number pad -/

/-- The pairs set for one button of the pad on a press of the digit at `(j, i)`. -/
def buttonPairs (j i j' i' : Nat) (v : Int) : List (Letter × Letter × Int) :=
  (((padLetters.getD j' []).getD i' []).take ((padLetterCount.getD j' []).getD i' 0)).map
    fun l => ((padNumbers.getD j []).getD i 0, l, v)

/-- The pairs set by one step. -/
def padStepPairs (j i : Nat) : List (Letter × Letter × Int) :=
  buttonPairs j i j i 0 ++ ((if 1 < i then buttonPairs j i j (i - 1) 50 else []) ++
  ((if i + 1 < 3 then buttonPairs j i j (i + 1) 50 else []) ++
  ((if 1 < j then buttonPairs j i (j - 1) i 50 else []) ++
  (if j + 1 < 3 then buttonPairs j i (j + 1) i 50 else []))))

theorem padLoop_eq [Build] (n : Letter) (v : Int) : ∀ (ls : List Letter), (∀ l ∈ ls, l ≠ 0x3f#16) → ∀ e,
    padLoop n v e ls = setErrors e (ls.map fun l => (n, l, v)) := by
  intro ls
  induction ls with
  | nil => intro _ e; rfl
  | cons l ls ih =>
    intro h e
    rw [padLoop, cassert_ok (decide_eq_true (h l (by simp))), ok_bind, List.map_cons, setErrors]
    cases e.setError n l v with
    | error f => rfl
    | ok e => exact ih (fun x hx => h x (by simp [hx])) e

theorem setPadError_eq [Build] (e : ErrorValues) (j i j' i' : Nat) (v : Int) (hj : j < 3) (hi : i < 3) (hj' : j' < 3)
    (hi' : i' < 3) : e.setPadError ((padNumbers.getD j []).getD i 0) j' i' v = setErrors e (buttonPairs j i j' i' v) := by
  have key : ∀ j ∈ List.range 3, ∀ i ∈ List.range 3,
      at2 padLetters j i = .ok ((padLetters.getD j []).getD i []) ∧
      at2 padLetterCount j i = .ok ((padLetterCount.getD j []).getD i 0) ∧
      ¬ ((padLetters.getD j []).getD i []).length < (padLetterCount.getD j []).getD i 0 ∧
      (decide (0x30 ≤ ((padNumbers.getD j []).getD i 0).toNat) && decide (((padNumbers.getD j []).getD i 0).toNat ≤ 0x39)) = true ∧
      (((padLetters.getD j []).getD i []).take ((padLetterCount.getD j []).getD i 0)).all (fun l => l != 0x3f#16) = true := by
    decide +kernel
  obtain ⟨h1, h2, h3, _, h5⟩ := key j' (List.mem_range.2 hj') i' (List.mem_range.2 hi')
  obtain ⟨_, _, _, h4, _⟩ := key j (List.mem_range.2 hj) i (List.mem_range.2 hi)
  rw [setPadError, h1, ok_bind, h2, ok_bind, cassert_ok h4, ok_bind, if_neg h3,
    padLoop_eq _ _ _ (fun l hl => by simpa using List.all_eq_true.1 h5 l hl), buttonPairs]

theorem padStep_eq [Build] (e : ErrorValues) (j i : Nat) (hj : j < 3) (hi : i < 3) :
    padStep j i e = setErrors e (padStepPairs j i) := by
  have key : ∀ j ∈ List.range 3, ∀ i ∈ List.range 3, at2 padNumbers j i = .ok ((padNumbers.getD j []).getD i 0) := by
    decide +kernel
  have s0 := fun e => setPadError_eq e j i j i 0 hj hi hj hi
  have s1 := fun (_ : 1 < i) e => setPadError_eq e j i j (i - 1) 50 hj hi hj (by omega)
  have s2 := fun (h : i + 1 < 3) e => setPadError_eq e j i j (i + 1) 50 hj hi hj h
  have s3 := fun (_ : 1 < j) e => setPadError_eq e j i (j - 1) i 50 hj hi (by omega) hi
  have s4 := fun (h : j + 1 < 3) e => setPadError_eq e j i (j + 1) i 50 hj hi h hi
  rw [padStep, key j (List.mem_range.2 hj) i (List.mem_range.2 hi), ok_bind, padStepPairs]
  by_cases c1 : 1 < i <;> by_cases c2 : i + 1 < 3 <;> by_cases c3 : 1 < j <;> by_cases c4 : j + 1 < 3 <;>
    simp only [c1, c2, c3, c4, if_true, if_false, s0, s1, s2, s3, s4, setErrors_append, List.nil_append,
      List.append_nil, ok_bind, bind_ok_self]

theorem padSteps_eq [Build] : ∀ (l : List (Nat × Nat)), (∀ p ∈ l, p.1 < 3 ∧ p.2 < 3) → ∀ e,
    padSteps e l = setErrors e (l.flatMap fun p => padStepPairs p.1 p.2) := by
  intro l
  induction l with
  | nil => intro _ e; rfl
  | cons p l ih =>
    intro h e
    obtain ⟨j, i⟩ := p
    have h0 := h (j, i) (by simp)
    rw [padSteps, padStep_eq e j i h0.1 h0.2, List.flatMap_cons, setErrors_append]
    cases setErrors e (padStepPairs j i) with
    | error f => rfl
    | ok e => exact ih (fun p hp => h p (by simp [hp])) e

/-- The pairs that `addNumberpadErrors` sets. -/
def allPadPairs : List (Letter × Letter × Int) :=
  [(0,0),(0,1),(0,2),(1,0),(1,1),(1,2),(2,0),(2,1),(2,2)].flatMap fun p => padStepPairs p.1 p.2

theorem addNumberpadErrors_eq [Build] (e : ErrorValues) : e.addNumberpadErrors = setErrors e allPadPairs := by
  rw [addNumberpadErrors, padSteps_eq _ (by decide), allPadPairs]

/-! ### Untouched pairs -/

/-- A basic change names the pair. -/
def Ev.Touches (a b : Letter) : Ev → Prop
  | .single x y _ => samePair a b x y = true
  | .group g _ => a ∈ g ∧ b ∈ g
  | .clear => True

theorem groupCost_group (h : List Ev) (g : List Letter) (v : Int) (a b : Letter) (hn : ¬ (a ∈ g ∧ b ∈ g)) :
    groupCost (.group g v :: h) a b = groupCost h a b := by
  rw [groupCost, groups, List.find?_append, groupCost]
  have : (List.find? (fun p : List Letter × Int => decide (a ∈ p.1) && decide (b ∈ p.1))
      [(g.takeWhile fun l => !inGroups (groups h) l, v)]) = none := by
    rw [List.find?_eq_none]
    intro p hp hc
    rw [List.mem_singleton] at hp; subst hp
    simp only [Bool.and_eq_true, decide_eq_true_eq] at hc
    exact hn ⟨(List.takeWhile_prefix _).subset hc.1, (List.takeWhile_prefix _).subset hc.2⟩
  rw [this, Option.or_none]

theorem cost_untouched {ev : Ev} {a b : Letter} (h : List Ev) (hn : ¬ ev.Touches a b) :
    cost (ev :: h) a b = cost h a b := by
  cases ev with
  | single x y v =>
    simp only [Ev.Touches, Bool.not_eq_true] at hn
    simp only [cost, tableCost, mapCost, singleCost, hn, groupCost, groups]
    simp
  | clear => exact absurd trivial hn
  | group g v =>
    simp only [Ev.Touches] at hn
    simp only [cost, tableCost, mapCost, singleCost, groupCost_group h g v a b hn]
    have : ¬ (accepted h g = true ∧ a ∈ g ∧ b ∈ g ∧ a ≠ b) := fun hc => hn ⟨hc.2.1, hc.2.2.1⟩
    rw [if_neg this]

theorem cost_untouched_list {evs : List Ev} {a b : Letter} (h : List Ev) (hn : ∀ ev ∈ evs, ¬ ev.Touches a b) :
    cost (evs ++ h) a b = cost h a b := by
  induction evs with
  | nil => rfl
  | cons ev evs ih =>
    rw [List.cons_append, cost_untouched _ (hn ev (by simp)), ih fun e he => hn e (by simp [he])]

/-! ### Calls -/

/-- What the events of a call can be. -/
def Makes [Build] [Icu] : ErrOp → Ev → Prop
  | .setError a b v, ev => ev = .single a b v
  | .setGroupError g v, ev => ev = .group g v
  | .clearErrors, ev => ev = .clear
  | .addAccents d greek, ev => ∃ g, IsAccentGroup d greek g ∧ ev = .group g 30
  | .addKeyboardErrors, ev => ∃ a b, (a, b) ∈ keyPairs ∧ ev = .single a b 30
  | .addNumberpadErrors, ev => ∃ a b v, (a, b, v) ∈ allPadPairs ∧ ev = .single a b v
  | .addStandardErrors d, ev => (∃ greek g, IsAccentGroup d greek g ∧ ev = .group g 30) ∨
      ∃ a b, (a, b) ∈ keyPairs ∧ ev = .single a b 30
  | _, _ => False

theorem accentLoop_inv [Build] [Icu] : ∀ (ls : List Bytes) {e : ErrorValues} {h : List Ev}, EInv e h →
    ∃ evs, EInv (accentLoop e ls).1 (evs ++ h) ∧ SameSettings e (accentLoop e ls).1 ∧
      ∀ ev ∈ evs, ∃ l ∈ ls, ∃ g, Word.ofUtf8 l = .ok g ∧ ev = .group g 30 := by
  intro ls
  induction ls with
  | nil => intro e h hi; exact ⟨[], hi, .refl e, by simp⟩
  | cons l ls ih =>
    intro e h hi
    rw [accentLoop]
    cases hw : Word.ofUtf8 l with
    | error f => exact ⟨[], hi, .refl e, by simp⟩
    | ok g =>
      simp only
      split
      · obtain ⟨evs, h1, h2, h3⟩ := ih hi
        refine ⟨evs, h1, h2, fun ev hev => ?_⟩
        obtain ⟨l', hl', r⟩ := h3 ev hev
        exact ⟨l', by simp [hl'], r⟩
      · obtain ⟨e', he, hi', hs⟩ := hi.setGroupError g DEFAULT_GROUP_ERROR
        rw [he]
        have one : ∃ l' ∈ l :: ls, ∃ g', Word.ofUtf8 l' = .ok g' ∧ Ev.group g 30 = .group g' 30 :=
          ⟨l, by simp, g, hw, rfl⟩
        cases ha : accepted h g with
        | false =>
          refine ⟨[.group g 30], hi', hs, ?_⟩
          intro ev hev; rw [List.mem_singleton] at hev; subst hev; exact one
        | true =>
          obtain ⟨evs, h1, h2, h3⟩ := ih hi'
          refine ⟨evs ++ [.group g 30], ?_, SameSettings.trans hs h2, ?_⟩
          · rw [List.append_assoc]; exact h1
          · intro ev hev
            rcases List.mem_append.1 hev with hev | hev
            · obtain ⟨l', hl', r⟩ := h3 ev hev
              exact ⟨l', by simp [hl'], r⟩
            · rw [List.mem_singleton] at hev; subst hev; exact one

theorem addAccents_inv [Build] [Icu] (d : DataDir) (greek : Bool) {e : ErrorValues} {h : List Ev} (hi : EInv e h) :
    ∃ evs, EInv (addAccents d e greek).1 (evs ++ h) ∧ SameSettings e (addAccents d e greek).1 ∧
      ∀ ev ∈ evs, ∃ g, IsAccentGroup d greek g ∧ ev = .group g 30 := by
  rw [addAccents]
  cases hd : d greek with
  | none => exact ⟨[], hi, .refl e, by simp⟩
  | some lines =>
    obtain ⟨evs, h1, h2, h3⟩ := accentLoop_inv (lines.map fun l => l.takeWhile (· != 0)) hi
    refine ⟨evs, h1, h2, fun ev hev => ?_⟩
    obtain ⟨l, hl, g, hg, he⟩ := h3 ev hev
    obtain ⟨l', hl', rfl⟩ := List.mem_map.1 hl
    exact ⟨g, ⟨lines, hd, l', hl', hg⟩, he⟩

theorem mem_singles {l : List (Letter × Letter × Int)} {ev : Ev} (h : ev ∈ singles l) :
    ∃ a b v, (a, b, v) ∈ l ∧ ev = .single a b v := by
  rw [singles, List.mem_reverse] at h
  obtain ⟨⟨a, b, v⟩, h1, h2⟩ := List.mem_map.1 h
  exact ⟨a, b, v, h1, h2.symm⟩

theorem keyboard_inv {e : ErrorValues} {h : List Ev} (hi : EInv e h) :
    ∃ e' evs, e.addKeyboardErrors = .ok e' ∧ evs = singles allKeyPairs ∧ EInv e' (evs ++ h) ∧ SameSettings e e' ∧
      ∀ ev ∈ evs, ∃ a b, (a, b) ∈ keyPairs ∧ ev = .single a b 30 := by
  obtain ⟨e', h1, h2, h3⟩ := hi.setErrors allKeyPairs
  refine ⟨e', _, by rw [addKeyboardErrors_eq, h1], rfl, h2, h3, ?_⟩
  intro ev hev
  obtain ⟨a, b, v, h4, rfl⟩ := mem_singles hev
  obtain ⟨h5, h6⟩ := (mem_allKeyPairs _).1 h4
  simp only at h6; subst h6
  exact ⟨a, b, h5, rfl⟩

/-- Every call is a sequence of basic changes. -/
theorem run_inv [Build] [Icu] (op : ErrOp) {e : ErrorValues} {h : List Ev} (hi : EInv e h) :
    ∃ evs, EInv (op.run e).1 (evs ++ h) ∧ ∀ ev ∈ evs, Makes op ev := by
  cases op with
  | setError a b v =>
    obtain ⟨e', h1, h2, _⟩ := hi.setError a b v
    refine ⟨[.single a b v], ?_, by intro ev hev; rw [List.mem_singleton] at hev; exact hev⟩
    rw [ErrOp.run, h1]; exact h2
  | setGroupError g v =>
    obtain ⟨e', h1, h2, _⟩ := hi.setGroupError g v
    refine ⟨[.group g v], ?_, by intro ev hev; rw [List.mem_singleton] at hev; exact hev⟩
    rw [ErrOp.run, h1]; exact h2
  | clearErrors => exact ⟨[.clear], hi.clear, by intro ev hev; rw [List.mem_singleton] at hev; exact hev⟩
  | addAccents d greek =>
    obtain ⟨evs, h1, _, h3⟩ := addAccents_inv d greek hi
    exact ⟨evs, h1, h3⟩
  | addKeyboardErrors =>
    obtain ⟨e', evs, h1, _, h2, _, h3⟩ := keyboard_inv hi
    refine ⟨evs, ?_, h3⟩
    rw [ErrOp.run, h1]; exact h2
  | addNumberpadErrors =>
    obtain ⟨e', h1, h2, _⟩ := hi.setErrors allPadPairs
    refine ⟨_, ?_, fun ev hev => mem_singles hev⟩
    rw [ErrOp.run, addNumberpadErrors_eq, h1]; exact h2
  | addStandardErrors d =>
    rw [ErrOp.run, addStandardErrors]
    obtain ⟨evs1, h1, _, h3⟩ := addAccents_inv d false hi
    have g1 : ∀ ev ∈ evs1, Makes (.addStandardErrors d) ev := fun ev hev => by
      obtain ⟨g, hg, e⟩ := h3 ev hev; exact Or.inl ⟨false, g, hg, e⟩
    generalize hA : addAccents d e false = A at h1
    obtain ⟨e1, o1⟩ := A
    cases o1 with
    | some f => exact ⟨evs1, h1, g1⟩
    | none =>
      simp only
      obtain ⟨evs2, h1', _, h3'⟩ := addAccents_inv d true h1
      have g2 : ∀ ev ∈ evs2, Makes (.addStandardErrors d) ev := fun ev hev => by
        obtain ⟨g, hg, e⟩ := h3' ev hev; exact Or.inl ⟨true, g, hg, e⟩
      generalize hB : addAccents d (e1, (none : Option Fault)).1 true = B at h1'
      simp only at hB
      obtain ⟨e2, o2⟩ := B
      cases o2 with
      | some f =>
        refine ⟨evs2 ++ evs1, by rw [List.append_assoc]; exact h1', ?_⟩
        intro ev hev
        rcases List.mem_append.1 hev with h | h
        · exact g2 ev h
        · exact g1 ev h
      | none =>
        simp only
        obtain ⟨e3, evs3, k1, _, k2, _, k3⟩ := keyboard_inv h1'
        simp only at k1
        rw [k1]
        refine ⟨evs3 ++ (evs2 ++ evs1), by rw [List.append_assoc, List.append_assoc]; exact k2, ?_⟩
        intro ev hev
        rcases List.mem_append.1 hev with h | h
        · exact Or.inr (k3 ev h)
        · rcases List.mem_append.1 h with h | h
          · exact g2 ev h
          · exact g1 ev h
  | _ => exact ⟨[], ⟨hi.sub, hi.lut, hi.single, hi.errors, hi.map⟩, by simp⟩

/-- Every history of calls is a history of basic changes. -/
theorem ops_inv [Build] [Icu] (ops : List ErrOp) : ∀ {e : ErrorValues} {h : List Ev}, EInv e h →
    ∃ evs, EInv (ops.foldl (fun e op => (op.run e).1) e) (evs ++ h) ∧ ∀ ev ∈ evs, ∃ op ∈ ops, Makes op ev := by
  induction ops with
  | nil => intro e h hi; exact ⟨[], hi, by simp⟩
  | cons op ops ih =>
    intro e h hi
    obtain ⟨evs1, h1, h2⟩ := run_inv op hi
    obtain ⟨evs2, h3, h4⟩ := ih h1
    refine ⟨evs2 ++ evs1, by rw [List.append_assoc]; exact h3, ?_⟩
    intro ev hev
    rcases List.mem_append.1 hev with h | h
    · obtain ⟨o, ho, r⟩ := h4 ev h
      exact ⟨o, by simp [ho], r⟩
    · exact ⟨op, by simp, h2 ev h⟩

theorem afterOps_inv [Build] [Icu] (ops : List ErrOp) :
    ∃ h, EInv (afterOps ops) h ∧ ∀ ev ∈ h, ∃ op ∈ ops, Makes op ev := by
  obtain ⟨evs, h1, h2⟩ := ops_inv ops new_inv
  rw [List.append_nil] at h1
  exact ⟨evs, h1, h2⟩

end ErrorValues
end Columbus
