import Verif.Msg.Heap

/-!
# Specification of the use of buffers by messages

`held [] log` (in `Verif/Mem/Spec.lean`) are the buffers handed out and not given back
according to a log of calls and results.
-/

namespace FreeCoAP.Msg.Heap

open FreeCoAP.Mem (Pool Call Sys held)

/-- Every free in a log gives back a buffer that is handed out at that time: no double
free and no free of a foreign pointer. -/
def Clean : List Nat → List (Call × Option Nat) → Prop
  | _, [] => True
  | h, (.alloc _, some p) :: t => Clean (p :: h) t
  | h, (.alloc _, none) :: t => Clean h t
  | h, (.free p, _) :: t => p ∈ h ∧ Clean (h.filter (· ≠ p)) t

/-- The buffers the messages of a program point to. -/
def Prog.ownedSmall (p : Prog) : List Nat := p.msgs.flatMap HMsg.ownSmall
def Prog.ownedMedium (p : Prog) : List Nat := p.msgs.flatMap HMsg.ownMedium

/-- The two pools were created, as `ns` buffers of `ls` bytes and `nm` buffers of `lm`
bytes, and the blocks they got from the system do not overlap. -/
structure Created (ns ls nm lm : Nat) (small medium : Pool) : Prop where
  smallOk : ∃ W s s' r1 r2, Mem.create W s r1 r2 ns ls = (.ok small, s')
  mediumOk : ∃ W s s' r1 r2, Mem.create W s r1 r2 nm lm = (.ok medium, s')
  apart : small.buf + ns * ls ≤ medium.buf ∨ medium.buf + nm * lm ≤ small.buf

end FreeCoAP.Msg.Heap
