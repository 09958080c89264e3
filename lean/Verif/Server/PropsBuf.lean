import Verif.Server.LemmasBuf
import Verif.Msg.HeapProps

/-! # The buffers that the messages of the server use (C130) -/

namespace FreeCoAP.Server.Buf

open FreeCoAP.Msg.Heap
open FreeCoAP.Mem (Pool Call held)

/-- C130, in full: after any history of the server the buffers in use are those of the recorded requests and responses, and those that the
application had before. -/
def C130_statement : Prop :=
  ∀ (ns ls nm lm : Nat) (small medium : Pool), Created ns ls nm lm small medium →
    ∀ (S : Nat) (sx : Bool) (n : Nat) (es : List Event) (s : State), run S sx (init n (Heap.init small medium)) es = .ok s → Exact s [] []

/-- C130, proved part 1: nothing is lost but the structures of options whose value could not be allocated (the fault of property C13). The
application may have messages (`cs` are its calls before the server was created); they keep their buffers. -/
theorem C130_lost_partial {ns ls nm lm : Nat} {small medium : Pool} (c : Created ns ls nm lm small medium) (S : Nat) (sx : Bool) (cs : List Cmd)
    (n : Nat) (es : List Event) (s : State) : let p := Msg.Heap.run S sx (start small medium) cs
    run S sx (init n p.heap) es = .ok s →
    (held [] s.heap.smallLog).Perm (s.small ++ p.ownedSmall ++ s.heap.lost) ∧
    (held [] s.heap.mediumLog).Perm (s.medium ++ p.ownedMedium) ∧ Clean [] s.heap.smallLog := by
  intro p h
  obtain ⟨hg, i0⟩ := c.init
  have i := Msg.Heap.run_inv hg S sx cs (start small medium) i0
  have j := run_inv hg (init_inv (h0 := p.heap) n ⟨i, Le.refl _⟩) h
  exact ⟨j.heap.inv.permS, j.heap.inv.permM, j.heap.inv.cleanS⟩

/-- C130, proved part 2: the full statement for every history in which the medium pool refused no request. -/
theorem C130_exact_partial {ns ls nm lm : Nat} {small medium : Pool} (c : Created ns ls nm lm small medium) (S : Nat) (sx : Bool) (cs : List Cmd)
    (n : Nat) (es : List Event) (s : State) : let p := Msg.Heap.run S sx (start small medium) cs
    run S sx (init n p.heap) es = .ok s → (∀ l, (Call.alloc l, none) ∉ s.heap.mediumLog) → Exact s p.ownedSmall p.ownedMedium := by
  intro p h hr
  obtain ⟨hg, i0⟩ := c.init
  have i := Msg.Heap.run_inv hg S sx cs (start small medium) i0
  have j := run_inv hg (init_inv (h0 := start small medium |>.heap) n ⟨i, le_run S sx cs (start small medium)⟩) h
  have hl : s.heap.lost = [] := by
    apply Decidable.byContradiction
    intro hne
    rcases j.heap.le.2 hne with h | ⟨l, h⟩
    · exact h rfl
    · exact hr l h
  have hs := j.heap.inv.permS
  rw [hl, List.append_nil] at hs
  exact ⟨hs, j.heap.inv.permM, j.heap.inv.cleanS, j.heap.inv.cleanM hl⟩

/-- C130: when the server is destroyed it has no buffers any more. -/
theorem C130_destroy (S : Nat) (sx : Bool) (s s' : State) (h : step S sx s .destroy = .ok s') : s'.small = [] ∧ s'.medium = [] := by
  cases h
  unfold State.small State.medium
  dsimp only
  refine ⟨List.flatMap_eq_nil_iff.2 fun x hx => ?_, List.flatMap_eq_nil_iff.2 fun x hx => ?_⟩ <;>
    (obtain ⟨y, -, rfl⟩ := List.mem_map.1 hx; rfl)

/-- A turn in which every call succeeds. -/
def exTurn (known : Bool) (d : Bytes) : Turn :=
  { slot := 0, known := known, created := true, dtls := false, arrives := some (d ++ [0], d.length), again := false, sep := false, ackOk := true,
    sendOk := true, stopOk := true, startOk := true, edits := [.fields 0 2 5 0 [], .addOp 12 [0], .setPayload [1, 2, 3]], handleOk := true,
    msgId := 1, setOk := true }

/-- `GET /a`, twice, then another request, and the end of the server. -/
def exEvents : List Event :=
  [.turn (exTurn false [0x40, 1, 0, 9, 0xB1, 97]), .turn (exTurn true [0x40, 1, 0, 9, 0xB1, 97]), .turn (exTurn true [0x40, 1, 0, 10, 0xB1, 98])]

def exEnd (es : List Event) : State := match run 32 false (init 2 (Heap.init exSmall exMedium)) es with
  | .ok s => s
  | _ => init 2 (Heap.init exSmall exMedium)

theorem exEnd_of {es : List Event} (h : (match run 32 false (init 2 (Heap.init exSmall exMedium)) es with | .ok _ => true | _ => false) = true) :
    run 32 false (init 2 (Heap.init exSmall exMedium)) es = .ok (exEnd es) := by
  unfold exEnd
  split
  · assumption
  · rename_i hn
    split at h
    · rename_i s hs; exact absurd hs (hn s)
    · cases h

example : (exEnd exEvents).small.length = 2 ∧ (exEnd exEvents).medium.length = 3 ∧
    held [] (exEnd (exEvents ++ [.destroy])).heap.smallLog = [] := by decide +kernel

example : Exact (exEnd exEvents) [] [] :=
  C130_exact_partial ex_created 32 false [] 2 exEvents _ (exEnd_of (by decide +kernel)) (by
    intro l h
    have e : (exEnd exEvents).heap.mediumLog.all (fun e => e.2.isSome || match e.1 with | .free _ => true | .alloc _ => false) = true := by decide +kernel
    have := List.all_eq_true.1 e _ h
    simp at this)

/-- A request with an option of five bytes; the buffers of the medium pool have four. -/
def exLong : Bytes := [0x40, 1, 0, 9, 0xB5, 97, 97, 97, 97, 97]

/-- Eight such requests, each of which makes the server end the transaction, and the end of the server. -/
def exFlood : List Event := List.replicate 8 (.turn (exTurn false exLong)) ++ [.destroy]

theorem exFlood_run : run 32 false (init 2 (Heap.init exSmall exMedium)) exFlood = .ok (exEnd exFlood) := exEnd_of (by decide +kernel)

/-- C130 is violated: each datagram with an option that is longer than a buffer of the medium pool takes a buffer of the small pool for good. -/
theorem C130_violated : ¬ C130_statement := by
  intro h
  have := (h 8 32 8 4 exSmall exMedium ex_created 32 false 2 exFlood _ exFlood_run).small.length_eq
  revert this
  decide +kernel

/-- After eight datagrams the server, which holds no message, cannot receive any message with an option any more. -/
theorem C130_exhausted : (exEnd exFlood).small = [] ∧ (held [] (exEnd exFlood).heap.smallLog).length = 8 ∧
    (parse 32 false (exEnd exFlood).heap create [0x40, 1, 0, 9, 0xB1, 97, 0] 6).1 = .err .ENOMEM := by decide +kernel

end FreeCoAP.Server.Buf
