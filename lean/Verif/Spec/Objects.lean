import Verif.Model.Objects
import Verif.Spec.Text
/-
Value semantics for objects: what a program would see if variables held values instead of pointers.
-/

namespace Columbus.Spec
open Columbus

/-! ### Words -/

/-- The words in the variables of a program, `none` where there is none. -/
abbrev WordValues := Vars (List Letter)

/-- The rules of C++: constructors make objects in unused variables, everything else needs objects. -/
def _root_.Columbus.WordOp.Valid (σ : WordValues) : WordOp → Prop
  | .default x | .text x _ => σ x = none
  | .copy x y | .move x y => σ x = none ∧ σ y ≠ none
  | .join x y z => σ x = none ∧ σ y ≠ none ∧ σ z ≠ none
  | .assign x y | .assignMove x y | .same x y | .before x y => σ x ≠ none ∧ σ y ≠ none
  | .assignText x _ | .destroy x | .letter x _ => σ x ≠ none

/-- One step with values. A word moved from is empty afterwards, also if it was moved to itself; memory may be refused to
every operation that needs some, and then the target of an assignment from text is empty. There is no rule for a copy
assignment that is refused memory and none for the assignment of text with blanks. -/
inductive WordStep [Build] [Icu] (σ : WordValues) : WordOp → WordRet → WordValues → Prop
  | default {x} : WordStep σ (.default x) .done (σ.set x (some []))
  | text {x t w} : Word.ofUtf8 t = .ok w → WordStep σ (.text x t) .done (σ.set x (some w))
  | textBad {x t f} : Word.ofUtf8 t = .error f → WordStep σ (.text x t) (.threw f) σ
  | textRefused {x t} : WordStep σ (.text x t) .badAlloc σ
  | copy {x y w} : σ y = some w → WordStep σ (.copy x y) .done (σ.set x (some w))
  | copyRefused {x y} : WordStep σ (.copy x y) .badAlloc σ
  | move {x y w} : σ y = some w → WordStep σ (.move x y) .done ((σ.set x (some w)).set y (some []))
  | join {x y z v w} : σ y = some v → σ z = some w → WordStep σ (.join x y z) .done (σ.set x (some (v ++ w)))
  | joinRefused {x y z} : WordStep σ (.join x y z) .badAlloc σ
  | assign {x y w} : σ y = some w → WordStep σ (.assign x y) .done (σ.set x (some w))
  | assignMove {x y w} : σ y = some w → WordStep σ (.assignMove x y) .done ((σ.set x (some w)).set y (some []))
  | assignText {x t w} : Word.ofUtf8 t = .ok w → WordStep σ (.assignText x t) .done (σ.set x (some w))
  | assignTextBad {x t} : ¬ WellFormed t → WordStep σ (.assignText x t) (.threw .runtimeError) (σ.set x (some []))
  | assignTextRefused {x t} : WordStep σ (.assignText x t) .badAlloc (σ.set x (some []))
  | destroy {x} : WordStep σ (.destroy x) .done (σ.set x none)
  | letter {x i w l} : σ x = some w → w[i]? = some l → WordStep σ (.letter x i) (.letter l) σ
  | letterOut {x i w} : σ x = some w → w.length ≤ i → WordStep σ (.letter x i) (.threw .outOfRange) σ
  | same {x y v w} {b : Bool} : σ x = some v → σ y = some w → (b = true ↔ v = w) → WordStep σ (.same x y) (.truth b) σ
  | before {x y v w} {b : Bool} : σ x = some v → σ y = some w →
      (b = true ↔ List.Lex (· < ·) (v.map BitVec.toNat) (w.map BitVec.toNat)) → WordStep σ (.before x y) (.truth b) σ

/-- `WordsRan grant tr s σ`: a program did the steps `tr`, all of them valid and with a rule; its memory is `s`, and with
values its variables would be `σ`. -/
inductive WordsRan [Build] [Icu] (grant : Nat → Bool) : List (WordOp × WordRet) → Words → WordValues → Prop
  | start : WordsRan grant [] .start fun _ => none
  | step {tr s σ op r s' σ'} : WordsRan grant tr s σ → op.Valid σ → s.run grant op = .ok (s', r) → WordStep σ op r σ' →
      WordsRan grant (tr ++ [(op, r)]) s' σ'

/-- The memory cell is in use. -/
def _root_.Columbus.Memory.Live {V : Type} (m : Memory V) (a : Nat) : Prop := ∃ v, m.cells[a]? = some (some v)

/-- The step converted ill-formed text. -/
def Failed (x : WordOp × WordRet) : Bool := match x with
  | (.text _ _, .threw .runtimeError) => true
  | (.assignText _ _, .threw .runtimeError) => true
  | _ => false

/-! ### Classes with a private part -/

section
variable {V R : Type}

/-- The contents in the variables of a program; `some none` is an object that was moved from. -/
abbrev PimplValues (V : Type) := Vars (Option V)

/-- The rules: as for words, and an object that was moved from may only be destroyed, moved from again, assigned by
moving, or copied to itself. -/
def _root_.Columbus.PimplOp.Valid (σ : PimplValues V) : PimplOp V R → Prop
  | .make x _ => σ x = none
  | .copy x y => σ x = none ∧ ∃ v, σ y = some (some v)
  | .move x y => σ x = none ∧ σ y ≠ none
  | .assign x y => σ x ≠ none ∧ (x = y ∨ (∃ v, σ x = some (some v)) ∧ ∃ v, σ y = some (some v))
  | .assignMove x y => σ x ≠ none ∧ σ y ≠ none
  | .destroy x => σ x ≠ none
  | .call x _ => ∃ v, σ x = some (some v)
  | .callWith x y alias _ => (∃ v, σ x = some (some v)) ∧ (∃ v, σ y = some (some v)) ∧ (x ≠ y ∨ alias = true)

/-- One step with values. -/
inductive PimplStep (σ : PimplValues V) : PimplOp V R → Option R → PimplValues V → Prop
  | make {x v} : PimplStep σ (.make x v) none (σ.set x (some (some v)))
  | copy {x y c} : σ y = some c → PimplStep σ (.copy x y) none (σ.set x (some c))
  | move {x y c} : σ y = some c → PimplStep σ (.move x y) none ((σ.set x (some c)).set y (some none))
  | assign {x y c} : σ y = some c → PimplStep σ (.assign x y) none (σ.set x (some c))
  | assignMove {x y c} : x ≠ y → σ y = some c → PimplStep σ (.assignMove x y) none ((σ.set x (some c)).set y (some none))
  | assignSelf {x} : PimplStep σ (.assignMove x x) none σ
  | destroy {x} : PimplStep σ (.destroy x) none (σ.set x none)
  | call {x f v} : σ x = some (some v) → PimplStep σ (.call x f) (some (f v).2) (σ.set x (some (some (f v).1)))
  | callWith {x y a f v w} : σ x = some (some v) → σ y = some (some w) →
      PimplStep σ (.callWith x y a f) (some (f v w).2) (σ.set x (some (some (f v w).1)))

/-- `PimplsRan step s σ`: a program of valid steps; its memory is `s`, and with values its variables would be `σ`. -/
inductive PimplsRan (step : Pimpls V → PimplOp V R → M (Pimpls V × Option R)) (allowed : PimplOp V R → Prop) :
    Pimpls V → PimplValues V → Prop
  | start : PimplsRan step allowed .start fun _ => none
  | step {s σ op r s' σ'} : PimplsRan step allowed s σ → op.Valid σ → allowed op → step s op = .ok (s', r) →
      PimplStep σ op r σ' → PimplsRan step allowed s' σ'

/-- The operation neither copies nor moves an object. -/
def _root_.Columbus.PimplOp.NoCopy : PimplOp V R → Prop
  | .copy .. | .move .. | .assign .. | .assignMove .. => False
  | _ => True

end
end Columbus.Spec
