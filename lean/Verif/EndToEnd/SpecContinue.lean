import Verif.EndToEnd.SpecTurns

/-!
# Specification of a download that begins with an ordinary request

The client makes an ordinary GET request. The server answers with the first block of a body, and the client asks for the other blocks with
`coap_client_exchange_blockwise`, to which it gives the response that it has already.
-/

namespace FreeCoAP.EndToEnd

open FreeCoAP.Msg
open FreeCoAP.Server (Env Addr NoFault Formats CarriesBlock Separate nextMsgId cpath Srv)
open FreeCoAP.Client (stamped AckedBy)

/-- The client has sent the request without Block options, in the datagram `d`, waits for the response, has seen no acknowledgement, and the datagram arrives at the
server, where nothing fails and whose application provides `src` in blocks of `b2` bytes. -/
structure Begins (sx px : Bool) (req : Msg) (src : Bytes) (b2 : Nat) (env : Env) (x : Client.XEnv) (is : List Client.Input) (d : Bytes) : Prop where
  fine : NoFault env
  app : Provides (cpath 256 req.ops) src b2 env
  datagram : Formats (stamped x req) d
  short : d.length < 1152
  waits : ∃ obs, Client.exchange sx px { x with inputs := is } req = .ok (obs, none)
  unacked : ∀ i ∈ is, ¬ AckedBy sx (stamped x req).msgId i

/-- The ids are as in `Distinct`. -/
def DistinctFirst (s : Srv) (last : Option Nat) (env : Env) (m : Msg) : Prop :=
  m.msgId ≠ 0 ∧ last ≠ some m.msgId ∧ (¬ (m.type = CON ∧ ¬ Separate s.sepList m) → nextMsgId s.msgId env.idRand ≠ m.msgId)

/-- The response is block `num` of the body, and its only option says so. -/
structure IsBlock (src : Bytes) (num size : Nat) (r : Msg) : Prop where
  block : CarriesBlock src 5 num size r
  option : ∃ val, r.ops = [⟨BLOCK2, val⟩] ∧ val.length = 3

end FreeCoAP.EndToEnd
