import Verif.Client.ModelBuf
import Verif.Msg.HeapSpec

/-! # Specification of the buffers that the messages of the client use -/

namespace FreeCoAP.Client.Buf

open FreeCoAP.Msg.Heap
open FreeCoAP.Mem (Pool Call held)

/-- What the application does: a call on one of its messages, or a blockwise exchange of the request `req` with the response in `resp`. -/
inductive Act where
  | cmd (c : Cmd)
  | blockwise (req resp : Nat) (get have_ more : Bool) (rs1 rs2 : List Round)

/-- One step; the status of an exchange that returns is recorded. Exchanges of messages that do not exist, of a message with itself and exchanges
that do not return are left out. -/
def step (S : Nat) (sx : Bool) (p : Prog) : Act → Out (Prog × List (Option Err))
  | .cmd c => .ok (Msg.Heap.step S sx p c, [])
  | .blockwise i j get have_ more rs1 rs2 =>
    match p.msgs[i]?, p.msgs[j]? with
    | some req, some resp =>
      if i = j then .ok (p, [])
      else
        match Buf.blockwise S sx p.heap req resp get have_ more rs1 rs2 with
        | .ub => .ub
        | .err e => .err e
        | .ok none => .ok (p, [])
        | .ok (some r) => .ok (⟨r.heap, p.msgs.set j r.resp⟩, [r.status])
    | _, _ => .ok (p, [])

/-- A history of the application. -/
def run (S : Nat) (sx : Bool) (p : Prog) : List Act → Out (Prog × List (Option Err))
  | [] => .ok (p, [])
  | a :: as =>
    match step S sx p a with
    | .ub => .ub
    | .err e => .err e
    | .ok (p, st) =>
      match run S sx p as with
      | .ub => .ub
      | .err e => .err e
      | .ok (p, sts) => .ok (p, st ++ sts)

/-- The buffers in use are exactly those of the messages of the application, and nothing was given back twice. -/
structure Exact (p : Prog) : Prop where
  small : (held [] p.heap.smallLog).Perm p.ownedSmall
  medium : (held [] p.heap.mediumLog).Perm p.ownedMedium
  cleanSmall : Clean [] p.heap.smallLog
  cleanMedium : Clean [] p.heap.mediumLog

end FreeCoAP.Client.Buf
