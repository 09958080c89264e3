import Verif.Server.ModelSep
import Verif.Server.Spec
import Verif.Mem.Spec

/-! # Specification of the registration of paths with separate responses -/

namespace FreeCoAP.Server.Sep

open FreeCoAP.Msg

/-- The paths whose registration succeeded, in order. -/
def registered : List Act → List (Option Err) → List Bytes
  | .add _ str :: xs, none :: rs => str :: registered xs rs
  | _ :: xs, _ :: rs => registered xs rs
  | _, _ => []

/-- The buffers of the pool that are in use. -/
def used (s : State) : List Nat := Mem.held [] s.small.log

/-- The buffers of the list. -/
def owned (l : List Path) : List Nat := l.flatMap (fun p => [p.node, p.str])

/-- The caller gives C strings to the registration and the buffers of the pool have `len` bytes; the others free only buffers that are in use
and not those of the list. -/
def Fair (len : Nat) (s : State) : Act → Prop
  | .add old str => old.length = len ∧ ∀ b ∈ str, b ≠ 0
  | .alloc _ => True
  | .free p => p ∈ used s ∧ p ∉ owned s.list

/-- Each call of the history is fair when it is made. -/
def AllFair (size len : Nat) : State → List Act → Prop
  | _, [] => True
  | s, x :: xs => Fair len s x ∧ ∀ r s', step size s x = .ok (r, s') → AllFair size len s' xs

end FreeCoAP.Server.Sep
