/-!
Outcomes of modelled C++ functions.

`ok a`   the function returned `a`;
`error`  the function ended by `FError`, `Error`, a failed `Q_assert` or an exception
         (the tool reports an error and stops, or the caller catches the exception);
`ub`     the function performed an operation with undefined behaviour (for instance an
         out-of-bounds read or write).
-/

namespace Verif

inductive Outcome (α : Type) where
  | ok (a : α)
  | error
  | ub
  deriving Repr, DecidableEq

namespace Outcome

def bind {α β : Type} (x : Outcome α) (f : α → Outcome β) : Outcome β :=
  match x with
  | ok a => f a
  | error => error
  | ub => ub

instance : Monad Outcome where
  pure := ok
  bind := bind

@[simp] theorem ok_bind {α β : Type} (a : α) (f : α → Outcome β) : (ok a >>= f) = f a := rfl
@[simp] theorem error_bind {α β : Type} (f : α → Outcome β) :
    ((error : Outcome α) >>= f) = error := rfl
@[simp] theorem ub_bind {α β : Type} (f : α → Outcome β) :
    ((ub : Outcome α) >>= f) = ub := rfl
@[simp] theorem pure_eq {α : Type} (a : α) : (pure a : Outcome α) = ok a := rfl

theorem bind_eq_ok {α β : Type} {x : Outcome α} {f : α → Outcome β} {b : β} :
    (x >>= f) = ok b ↔ ∃ a, x = ok a ∧ f a = ok b := by
  cases x <;> simp

theorem bind_eq_ub {α β : Type} {x : Outcome α} {f : α → Outcome β} :
    (x >>= f) = ub ↔ x = ub ∨ ∃ a, x = ok a ∧ f a = ub := by
  cases x <;> simp

theorem bind_eq_error {α β : Type} {x : Outcome α} {f : α → Outcome β} :
    (x >>= f) = error ↔ x = error ∨ ∃ a, x = ok a ∧ f a = error := by
  cases x <;> simp

/-- Reading element `i` of a C array holding exactly the elements of `l`. -/
def readAt {α : Type} (l : List α) (i : Nat) : Outcome α :=
  match l[i]? with
  | some a => ok a
  | none => ub

/-- Writing element `i` of a C array holding exactly the elements of `l`. -/
def writeAt {α : Type} (l : List α) (i : Nat) (v : α) : Outcome (List α) :=
  if i < l.length then ok (l.set i v) else ub

end Outcome

end Verif
