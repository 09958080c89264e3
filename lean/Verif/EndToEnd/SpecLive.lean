import Verif.EndToEnd.SpecPlain

/-! # Specification of an exchange over a network that delivers -/

namespace FreeCoAP.EndToEnd

open FreeCoAP.Msg
open FreeCoAP.Server (Env Event Addr Built Formats)

/-- The datagrams for the client at `a`, in the order in which they were sent. -/
def toward (a : Addr) (o : List Server.Obs) : List Bytes := ((Server.sends o).filter (fun x => x.1 = a)).map (·.2)

/-- The datagram arrives at the client, and nothing fails there. -/
def gets (d : Bytes) : Client.Input := ⟨.datagram d, none, none, true⟩

/-- The answer of the application is a response that the client accepts and that can be sent and read back, with a token of four bytes, in a datagram that
leaves a byte of the buffer free. -/
structure Answerable (sx px : Bool) (resp : Msg) : Prop where
  response : Client.IsResponse resp
  options : Client.Acceptable px resp
  ordinary : Ordinary sx resp
  short : ∀ m : Msg, Says m resp → Built m → m.type ≠ RST → m.token.length = 4 → ∃ b, Formats m b ∧ b.length < 1152

end FreeCoAP.EndToEnd
