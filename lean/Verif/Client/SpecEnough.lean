import Verif.Client.SpecBuf
import Verif.Server.SpecEnough

/-! # Specification of the number of buffers that a client needs -/

namespace FreeCoAP.Client.Buf

open FreeCoAP.Msg.Heap

/-- The block options, the pieces of the body and the datagrams of a round have nothing longer than `l` bytes, and the datagrams have at most `k`
options. -/
structure Small (sx : Bool) (k l : Nat) (r : Round) : Prop where
  val : r.val.length ≤ l
  val2 : r.val2.length ≤ l
  payload : r.payload.length ≤ l
  datagrams : ∀ mem len, (mem, len) ∈ r.datagrams → len < mem.length ∧ Few sx k l mem len

end FreeCoAP.Client.Buf
