import Mathlib.Data.List.Forall2
import Verif.Model.Containers
/-
The failure monad and the containers.
-/

namespace Columbus

@[simp] theorem ok_bind {α β : Type} (a : α) (f : α → M β) : ((Except.ok a : M α) >>= f) = f a := rfl
@[simp] theorem error_bind {α β : Type} (e : Fault) (f : α → M β) : ((Except.error e : M α) >>= f) = .error e := rfl

theorem bind_eq_ok {α β : Type} {x : M α} {f : α → M β} {b : β} :
    (x >>= f) = .ok b ↔ ∃ a, x = .ok a ∧ f a = .ok b := by
  cases x with
  | error e => simp
  | ok a => simp

theorem bind_eq_error {α β : Type} {x : M α} {f : α → M β} {e : Fault} :
    (x >>= f) = .error e ↔ x = .error e ∨ ∃ a, x = .ok a ∧ f a = .error e := by
  cases x with
  | error e => simp
  | ok a => simp

theorem cassert_ok [Build] {c : Bool} (h : c = true) : cassert c = .ok () := by
  simp [cassert, h]

theorem cassert_true [Build] : cassert true = .ok () := by simp [cassert]

theorem cassert_cases [Build] (c : Bool) : cassert c = .ok () ∨ cassert c = .error .assertion := by
  unfold cassert; split <;> simp

end Columbus
