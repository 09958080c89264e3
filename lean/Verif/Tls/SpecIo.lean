import Verif.Tls.ModelIo

/-! # Specification of reading and writing on a TLS socket -/

namespace FreeCoAP.Tls.Io

/-- A call of the owner of the socket. -/
inductive Op where
  | read (len : Nat)
  | readFull (len : Nat)
  | write (buf : Bytes)
  | writeFull (buf : Bytes)
  | rehandshake (asked refuses : Bool)

/-- The result of a handshake as a result of a call. -/
def Hand.ret : Hand → Ret
  | .ok => .bytes []
  | .ended c => .ended c
  | .waiting => .waiting

/-- One call. -/
def call (s : Sock) (w : World) : Op → Out (Ret × World)
  | .read n => read s n w
  | .readFull n => readFull s n n [] w
  | .write b => write s b w
  | .writeFull b => writeFull s b.length [] b w
  | .rehandshake a r => rehandshake s a r w >>= fun x => .ok (x.1.ret, x.2)

/-- A history of calls: the results and the outside after it. -/
def history (s : Sock) : List Op → World → Out (List Ret × World)
  | [], w => .ok ([], w)
  | o :: os, w => call s w o >>= fun r => history s os r.2 >>= fun x => .ok (r.1 :: x.1, x.2)

/-- What the owner was given by a call. -/
def given : Op → Ret → Bytes
  | .read _, .bytes b => b
  | .readFull _, .bytes b => b
  | _, _ => []

/-- What the owner was told to be written by a call. -/
def taken : Op → Ret → Bytes
  | .write _, .bytes b => b
  | .writeFull _, .bytes b => b
  | _, _ => []

/-- A result that its call may have: bytes are at most as many as asked for and at least one, or exactly as many for the calls that do not give up. -/
def Fit : Op → Ret → Prop
  | .read n, .bytes b => b ≠ [] ∧ b.length ≤ n
  | .readFull n, .bytes b => b.length = n
  | .write buf, .bytes b => (b ≠ [] ∨ buf = []) ∧ ∃ rest, buf = b ++ rest
  | .writeFull buf, .bytes b => b = buf
  | _, _ => True

/-- A call for an exact number of bytes did not succeed. -/
def GaveUp : Op → Ret → Prop
  | .readFull _, .bytes _ => False
  | .writeFull _, .bytes _ => False
  | .readFull _, _ => True
  | .writeFull _, _ => True
  | _, _ => False

end FreeCoAP.Tls.Io
