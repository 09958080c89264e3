import Verif.Server.Spec

/-! # Specification of the blocks of a resource by RFC 7959 -/

namespace FreeCoAP.Server

open FreeCoAP.Msg

/-- RFC 7959 section 2.2: the message has one Block2 option, with blocks of at most `b2` bytes, and carries the block of the resource `R` that the option says; there
are more blocks exactly if the option says so. -/
def RfcBlock (R : Bytes) (b2 : Nat) (x : Msg) : Prop :=
  ∃ val num more size, x.ops.filter (fun o => o.num = BLOCK2) = [⟨BLOCK2, val⟩] ∧ blockSpec val = some ⟨num, more, size⟩ ∧ size ≤ b2 ∧
    x.payload = (R.drop (num * size)).take size ∧ (more = true ↔ (num + 1) * size < R.length)

/-- The datagram is a response with the code 2.05 (Content). RFC 7959 section 2.9.1: 2.31 (Continue) is only for the blocks of a request. -/
def IsContent (b : Bytes) : Prop := ∃ h, header b = some h ∧ h.cls = 2 ∧ h.detail = 5

end FreeCoAP.Server
