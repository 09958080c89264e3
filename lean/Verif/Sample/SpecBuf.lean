import Verif.Sample.ModelBuf
import Verif.Msg.HeapSpec

/-! # Specification of what the sample clients take and give back -/

namespace FreeCoAP.Sample.Buf

open FreeCoAP.Msg.Heap (Heap HMsg Clean)
open FreeCoAP.Mem (Call held)

/-- A call of one of the clients, with what the environment decides during it. -/
inductive Act where
  | register (buf : Bytes) (t : Talk)
  | time (t : Talk)
  | transfer (l : Load) (more : Bool) (rs1 rs2 : List Client.Buf.Round)

/-- A call of the file transfer client. -/
def Act.isTransfer : Act → Bool
  | .transfer .. => true
  | _ => false

/-- The call; `none`: it has not returned. -/
def Act.call (S : Nat) (sx : Bool) (h : Heap) : Act → Out (Option Ret)
  | .register buf t => match Buf.register S sx h buf t with
    | .ub => .ub
    | .err e => .err e
    | .ok r => .ok (some r)
  | .time t => match getTime S sx h t with
    | .ub => .ub
    | .err e => .err e
    | .ok r => .ok (some r)
  | .transfer l more rs1 rs2 => Buf.transfer S sx h l more rs1 rs2

/-- A history of calls, each with its status, and the pools after it. -/
inductive History (S : Nat) (sx : Bool) (h0 : Heap) : List (Act × Option Err) → Heap → Prop
  | nil : History S sx h0 [] h0
  | snoc {as : List (Act × Option Err)} {h : Heap} {a : Act} {r : Ret} :
      History S sx h0 as h → a.call S sx h = .ok (some r) → History S sx h0 (as ++ [(a, r.status)]) r.heap

/-- No buffer is in use, and none was given back twice. -/
structure GivenBack (h : Heap) : Prop where
  small : held [] h.smallLog = []
  medium : held [] h.mediumLog = []
  cleanSmall : Clean [] h.smallLog
  cleanMedium : Clean [] h.mediumLog

/-- The medium pool had a buffer for every request. -/
def NeverRefused (h : Heap) : Prop := ∀ l, (Call.alloc l, (none : Option Nat)) ∉ h.mediumLog

/-- The calls that give back what they took: those of the registration client and of the time client, and the transfers that failed, other than
for lack of memory. -/
def Clears : Act × Option Err → Prop
  | (a, st) => a.isTransfer = true → st ≠ none ∧ st ≠ some .ENOMEM

/-- A transfer that succeeded. -/
def succeeded : Act × Option Err → Bool
  | (a, st) => a.isTransfer && st.isNone

/-- The file and the memory: a file is closed, and memory freed, only while there is one, and opened or taken only while there is none.
The state tells whether the file is open and whether there is memory. -/
def replay : Bool × Bool → List Ev → Option (Bool × Bool)
  | s, [] => some s
  | (false, b), .opened :: es => replay (true, b) es
  | (true, b), .closed :: es => replay (false, b) es
  | (f, false), .taken :: es => replay (f, true) es
  | (f, true), .freed :: es => replay (f, false) es
  | _, _ => none

end FreeCoAP.Sample.Buf
