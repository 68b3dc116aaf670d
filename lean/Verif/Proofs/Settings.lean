import Verif.Spec.Errors
import Verif.Proofs.Basic
/-
The calls that set substitution costs leave the other settings alone.
-/

namespace Columbus
namespace ErrorValues

/-- The settings other than substitution costs. -/
def scal (e : ErrorValues) : Int × Int × Int × Int × Int × Nat :=
  (e.insertionError, e.deletionError, e.endDeletionError, e.startInsertionError, e.transposeError, e.substringStartLimit)

/-- Every result has the settings `s`. -/
def Has (s : Int × Int × Int × Int × Int × Nat) (m : M ErrorValues) : Prop := ∀ e', m = .ok e' → e'.scal = s

theorem Has.ok {s e} (h : scal e = s) : Has s (.ok e) := by
  intro e' he; cases he; exact h

theorem Has.error {s f} : Has s (.error f) := by
  intro e' he; cases he

theorem Has.bind {s} {m : M ErrorValues} {k : ErrorValues → M ErrorValues} (h : Has s m)
    (hk : ∀ e, e.scal = s → Has s (k e)) : Has s (m >>= k) := by
  intro e' he
  cases hm : m with
  | error f => rw [hm] at he; cases he
  | ok e => rw [hm] at he; exact hk e (h e hm) e' he

theorem Has.bind' {α : Type} {s} {m : M α} {k : α → M ErrorValues} (hk : ∀ x, Has s (k x)) : Has s (m >>= k) := by
  intro e' he
  cases hm : m with
  | error f => rw [hm] at he; cases he
  | ok x => rw [hm] at he; exact hk x e' he

theorem has_lutStore {s e} (h : scal e = s) (o : Nat) (v : Int) : Has s (e.lutStore o v) := by
  unfold lutStore; split
  · exact .ok h
  · exact .error

theorem has_addToLUT {s e} (h : scal e = s) (a b : Letter) (v : Int) : Has s (e.addToLUT a b v) := by
  unfold addToLUT; split
  · exact (has_lutStore h _ _).bind fun e he => has_lutStore he _ _
  · exact .ok h

theorem has_setError {s e} (h : scal e = s) (a b : Letter) (v : Int) : Has s (e.setError a b v) := by
  unfold setError
  have h' : scal { e with singleErrors := SMap.set ltLL e.singleErrors (ordered a b) v } = s := h
  exact has_addToLUT h' _ _ _

theorem scal_groupLoop {s} (n : Nat) (g : List Letter) (e : ErrorValues) (h : e.scal = s) : (groupLoop n e g).1.scal = s := by
  induction g generalizing e with
  | nil => exact h
  | cons a g ih =>
    unfold groupLoop; split
    · split
      · exact h
      · exact ih e h
    · exact ih _ h

theorem has_lutGroupInner {s} (v : Int) (a : Letter) (g : List Letter) (e : ErrorValues) (h : e.scal = s) :
    Has s (lutGroupInner v a e g) := by
  induction g generalizing e with
  | nil => exact .ok h
  | cons b g ih =>
    unfold lutGroupInner; split
    · exact ih e h
    · exact (has_addToLUT h _ _ _).bind fun e he => ih e he

theorem has_addGroupErrorToLUT {s} (v : Int) (g : List Letter) (e : ErrorValues) (h : e.scal = s) :
    Has s (addGroupErrorToLUT v e g) := by
  induction g generalizing e with
  | nil => exact .ok h
  | cons b g ih => exact (has_lutGroupInner v b _ e h).bind fun e he => ih e he

theorem scal_setGroupError {s} (e : ErrorValues) (h : e.scal = s) (g : Word) (v : Int) :
    (e.setGroupError g v).1.scal = s := by
  unfold setGroupError
  have h1 := scal_groupLoop e.groupErrors.length g { e with groupErrors := e.groupErrors ++ [v] } h
  dsimp only
  split
  · rename_i e' hg; rw [hg] at h1; exact h1
  · rename_i e' hg
    rw [hg] at h1
    split
    · rename_i e'' ha; exact has_addGroupErrorToLUT v g e' h1 e'' ha
    · exact h1

theorem scal_accentLoop [Build] [Icu] {s} (ls : List Bytes) (e : ErrorValues) (h : e.scal = s) :
    (accentLoop e ls).1.scal = s := by
  induction ls generalizing e with
  | nil => exact h
  | cons l ls ih =>
    unfold accentLoop; split
    · exact h
    · rename_i g hg
      split
      · exact ih e h
      · have := scal_setGroupError e h g DEFAULT_GROUP_ERROR
        split
        · rename_i e' f he; rw [he] at this; exact this
        · rename_i e' he; rw [he] at this; exact ih e' this

theorem scal_addAccents [Build] [Icu] {s} (d : DataDir) (e : ErrorValues) (h : e.scal = s) (greek : Bool) :
    (addAccents d e greek).1.scal = s := by
  unfold addAccents; split
  · exact h
  · exact scal_accentLoop _ e h

theorem has_keyboardStep {s} (v : Int) (i j : Nat) (e : ErrorValues) (h : e.scal = s) : Has s (keyboardStep v i j e) := by
  unfold keyboardStep
  refine .bind' fun leni => .bind' fun lenn => .bind' fun l1 => ?_
  dsimp only
  repeat' first
    | exact .ok (by assumption)
    | exact has_setError (by assumption) _ _ _
    | refine Has.bind (has_setError (by assumption) _ _ _) fun e he => ?_
    | refine Has.bind (.ok (by assumption)) fun e he => ?_
    | refine .bind' fun l => ?_
    | split

theorem has_keyboardRow {s} (v : Int) (i : Nat) (js : List Nat) (e : ErrorValues) (h : e.scal = s) :
    Has s (keyboardRow v i e js) := by
  induction js generalizing e with
  | nil => exact .ok h
  | cons j js ih => exact (has_keyboardStep v i j e h).bind fun e he => ih e he

theorem has_keyboardRows {s} (v : Int) (is : List Nat) (e : ErrorValues) (h : e.scal = s) :
    Has s (keyboardRows v e is) := by
  induction is generalizing e with
  | nil => exact .ok h
  | cons i is ih => exact .bind' fun n => (has_keyboardRow v i _ e h).bind fun e he => ih e he

theorem has_addKeyboardErrors {s} (e : ErrorValues) (h : e.scal = s) : Has s e.addKeyboardErrors := by
  unfold addKeyboardErrors
  exact has_keyboardRows _ _ e h

theorem has_padLoop [Build] {s} (n : Letter) (v : Int) (ls : List Letter) (e : ErrorValues) (h : e.scal = s) :
    Has s (padLoop n v e ls) := by
  induction ls generalizing e with
  | nil => exact .ok h
  | cons l ls ih => exact .bind' fun _ => (has_setError h _ _ _).bind fun e he => ih e he

theorem has_setPadError [Build] {s} (e : ErrorValues) (h : e.scal = s) (n : Letter) (j i : Nat) (v : Int) :
    Has s (e.setPadError n j i v) := by
  unfold setPadError
  refine .bind' fun ls => .bind' fun c => .bind' fun _ => ?_
  split
  · exact .error
  · exact has_padLoop _ _ _ e h

theorem has_padStep [Build] {s} (j i : Nat) (e : ErrorValues) (h : e.scal = s) : Has s (padStep j i e) := by
  unfold padStep
  refine .bind' fun n => (has_setPadError e h _ _ _ _).bind fun e he => ?_
  dsimp only
  repeat' first
    | exact .ok (by assumption)
    | exact has_setPadError _ (by assumption) _ _ _ _
    | refine Has.bind (has_setPadError _ (by assumption) _ _ _ _) fun e he => ?_
    | refine Has.bind (.ok (by assumption)) fun e he => ?_
    | split

theorem has_padSteps [Build] {s} (r : List (Nat × Nat)) (e : ErrorValues) (h : e.scal = s) : Has s (padSteps e r) := by
  induction r generalizing e with
  | nil => exact .ok h
  | cons p r ih => exact (has_padStep p.1 p.2 e h).bind fun e he => ih e he

theorem has_addNumberpadErrors [Build] {s} (e : ErrorValues) (h : e.scal = s) : Has s e.addNumberpadErrors := by
  unfold addNumberpadErrors
  exact has_padSteps _ e h

theorem scal_addStandardErrors [Build] [Icu] {s} (d : DataDir) (e : ErrorValues) (h : e.scal = s) :
    (addStandardErrors d e).1.scal = s := by
  unfold addStandardErrors
  have h1 := scal_addAccents d e h false
  split
  · rename_i e' f he; rw [he] at h1; exact h1
  · rename_i e' he
    rw [he] at h1
    have h2 := scal_addAccents d e' h1 true
    split
    · rename_i e'' f he'; rw [he'] at h2; exact h2
    · rename_i e'' he'
      rw [he'] at h2
      split
      · rename_i e3 hk; exact has_addKeyboardErrors e'' h2 e3 hk
      · exact h2

theorem scal_ofM {s} (e : ErrorValues) (h : e.scal = s) (m : M ErrorValues) (hm : Has s m) :
    (Spec.ofM e m).1.scal = s := by
  cases m with
  | error f => exact h
  | ok e' => exact hm e' rfl

end ErrorValues
end Columbus
