/-!
# Common definitions

Bytes, error codes and outcomes shared by all the models.
-/

namespace FreeCoAP

/-- A byte of a datagram, an option value, a payload or a text. -/
abbrev Byte := UInt8

/-- A sequence of bytes. -/
abbrev Bytes := List UInt8

/-- The `errno` values returned (negated) by the modelled functions, and the lexical and syntax errors of the
configuration parser. -/
inductive Err where
  | EINVAL | ENOMEM | EBADMSG | ENOSPC | ETIMEDOUT | ECONNRESET | EAGAIN | EIO | ELEXICAL | ESYNTAX
  deriving DecidableEq, Repr

/-- The outcome of a C function: a value, an error code, or undefined behaviour
(for example a read or a write outside an object). Undefined behaviour is a
separate value so that it can never be confused with a result. -/
inductive Out (α : Type) where
  | ok (a : α)
  | err (e : Err)
  | ub
  deriving DecidableEq, Repr

namespace Out

/-- Sequencing of C statements: an error or undefined behaviour ends the function. -/
@[inline] def bind {α β : Type} : Out α → (α → Out β) → Out β
  | ok a, f => f a
  | err e, _ => err e
  | ub, _ => ub

instance : Monad Out where
  pure := ok
  bind := bind

@[simp] theorem bind_ok {α β : Type} (a : α) (f : α → Out β) : (Out.ok a >>= f) = f a := rfl
@[simp] theorem bind_err {α β : Type} (e : Err) (f : α → Out β) : (Out.err e >>= f) = Out.err e := rfl
@[simp] theorem bind_ub {α β : Type} (f : α → Out β) : (Out.ub >>= f) = Out.ub := rfl
@[simp] theorem pure_eq {α : Type} (a : α) : (pure a : Out α) = Out.ok a := rfl

theorem bind_eq_ok {α β : Type} {x : Out α} {f : α → Out β} {b : β} :
    (x >>= f) = Out.ok b ↔ ∃ a, x = Out.ok a ∧ f a = Out.ok b := by
  cases x <;> simp

theorem bind_eq_ub {α β : Type} {x : Out α} {f : α → Out β} :
    (x >>= f) = Out.ub ↔ x = Out.ub ∨ ∃ a, x = Out.ok a ∧ f a = Out.ub := by
  cases x <;> simp

end Out

end FreeCoAP
