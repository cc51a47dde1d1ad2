/-
Common vocabulary of the model: byte strings, C++ exceptions, outcomes.
-/
namespace QtPb

/-- A `QByteArray` / `std::string` payload. -/
abbrev Bytes := List UInt8

/-- Exception classes that the modelled code throws or lets through.
`outOfRange` = `std::out_of_range`, `invalidArgument` = `std::invalid_argument`,
`badFunctionCall` = `std::bad_function_call` (call of an empty `std::function`). -/
inductive Exn
  | outOfRange
  | invalidArgument
  | badFunctionCall
  deriving DecidableEq, Repr

/-- Outcome of a C++ function that may throw, run into undefined behaviour, or (in the model only)
exhaust the step budget that stands for "has not returned yet". -/
inductive Res (α : Type) where
  | ok (a : α)
  | throw (e : Exn)
  | ub
  | fuel
  deriving DecidableEq, Repr

namespace Res

/-- Sequencing: the first non-`ok` outcome ends the computation. -/
@[simp] def bind {α β : Type} : Res α → (α → Res β) → Res β
  | ok a, f => f a
  | throw e, _ => throw e
  | ub, _ => ub
  | fuel, _ => fuel

instance : Monad Res where
  pure := ok
  bind := bind

@[simp] theorem pure_eq {α : Type} (a : α) : (pure a : Res α) = ok a := rfl
@[simp] theorem bind_eq {α β : Type} (x : Res α) (f : α → Res β) : (x >>= f) = bind x f := rfl

theorem bind_eq_ok {α β : Type} {x : Res α} {f : α → Res β} {b : β} :
    bind x f = ok b ↔ ∃ a, x = ok a ∧ f a = ok b := by
  cases x <;> simp

end Res
end QtPb
