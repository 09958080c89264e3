import Verif.Mem.Model

/-!
# Specification of a buffer pool

Independent of the bitset: it speaks only about the geometry of a pool (base
address `base`, `num` buffers of `len` bytes) and the observable trace of calls
and returned pointers.
-/

namespace FreeCoAP.Mem

/-- The buffers handed out and not yet freed after an observable trace, given
those before it. -/
def held (h : List Nat) : List (Call × Option Nat) → List Nat
  | [] => h
  | (.alloc _, some p) :: t => held (p :: h) t
  | (.alloc _, none) :: t => held h t
  | (.free p, _) :: t => held (h.filter (· ≠ p)) t

/-- Start addresses of the buffers of a pool, in order. -/
def slots (base num len : Nat) : List Nat := (List.range num).map (fun i => base + i * len)

/-- The two byte ranges `[p, p + len)` and `[q, q + len)` have no byte in common. -/
def Disjoint (len p q : Nat) : Prop := ∀ a, ¬ ((p ≤ a ∧ a < p + len) ∧ (q ≤ a ∧ a < q + len))

/-- First-fit allocation from the buffers not in `h`. -/
def specAlloc (base num len : Nat) (h : List Nat) (l : Nat) : Option Nat :=
  if l > len then none else (slots base num len).find? (fun p => !h.contains p)

/-- The trace an ideal first-fit pool shows for a list of calls. -/
def specRun (base num len : Nat) (h : List Nat) : List Call → List (Call × Option Nat)
  | [] => []
  | .alloc l :: cs =>
    match specAlloc base num len h l with
    | some p => (.alloc l, some p) :: specRun base num len (p :: h) cs
    | none => (.alloc l, none) :: specRun base num len h cs
  | .free p :: cs => (.free p, none) :: specRun base num len (h.filter (· ≠ p)) cs

end FreeCoAP.Mem
