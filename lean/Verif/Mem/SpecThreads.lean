import Verif.Mem.ModelThreads
import Verif.Mem.Spec

/-!
# Specification of a pool that several threads use
-/

namespace FreeCoAP.Mem

/-- No two buffers that threads have at the same time have a byte in common, be it buffers of one thread or of two. -/
def Exclusive (len : Nat) (s : Shared) : Prop :=
  (∀ t, (s.th t).held.Pairwise (Disjoint len)) ∧ ∀ t u, t ≠ u → ∀ p ∈ (s.th t).held, ∀ q ∈ (s.th u).held, Disjoint len p q

/-- No thread is in a call. -/
def Quiet (s : Shared) : Prop := ∀ t, (s.th t).pc = .idle

/-- No buffer is lost: from now on the pool does what an ideal pool does in which the buffers that threads have are handed out and no others. -/
def NoneLost (base num len : Nat) (s : Shared) : Prop :=
  ∀ h : List Nat, h.Nodup → (∀ p, p ∈ h ↔ ∃ t, p ∈ (s.th t).held) → ∀ cs, (run s.pool cs).1 = specRun base num len h cs

/-- The byte of the bitset that a call works at. -/
def At.byte : At → Option Nat
  | .idle => none
  | .look b _ | .setR b _ | .setW b _ _ | .scan _ b _ | .clrR _ b _ | .clrW _ b _ _ => some b

/-- The byte of the bitset that a call is going to write. -/
def At.mid : At → Option Nat
  | .setR b _ | .setW b _ _ | .clrR _ b _ | .clrW _ b _ _ => some b
  | _ => none

/-- The thread does not work at a byte that another thread is going to write. -/
def Alone (s : Shared) (t : Nat) : Prop := ∀ u, u ≠ t → ∀ b, (s.th u).pc.mid = some b → (s.th t).pc.byte ≠ some b

/-- This is so at every step of a schedule. -/
def AloneAll : Shared → List (Nat × Call) → Prop
  | _, [] => True
  | s, e :: es => Alone s e.1 ∧ ∀ s', tstep s e.1 e.2 = .ok s' → AloneAll s' es

end FreeCoAP.Mem
