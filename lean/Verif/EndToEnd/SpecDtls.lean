import Verif.EndToEnd.SpecLive
import Verif.Client.SpecDtls
import Verif.Server.ModelRecords

/-! # Specification of an exchange over DTLS -/

namespace FreeCoAP.EndToEnd.Dtls

open FreeCoAP.Client.Dtls (Act)
open FreeCoAP.Server (Addr)

/-- The datagrams that wait in the socket of the client after these calls of `select`. Each call that finds a datagram has one of them read. -/
def left : List Act → List Bytes → List Bytes
  | [], queue => queue
  | a :: as, queue => left as (queue ++ a.arrive).tail

/-- The datagrams are the first to arrive, and each is there, before the timer has expired, when the client calls `select` for it. -/
structure InTime (ds : List Bytes) (as : List Act) : Prop where
  enough : ds.length ≤ as.length
  first : ds <+: as.flatMap Act.arrive
  next : ∀ k, k < ds.length → k < ((as.take (k + 1)).flatMap Act.arrive).length

/-- Each record in a datagram of its own. -/
def Sealed (opens : Bytes → List Bytes) (ds rs : List Bytes) : Prop := ds.map opens = rs.map (fun r => [r])

/-- A turn of the loop of the server in which the session of the client gets the records of the next datagram as `opens` gives them, and nothing else
happens: the session has kept no record from before, and to end the session the library sends nothing. -/
structure Turn (opens : Bytes → List Bytes) (x : Server.Dtls.Input) : Prop where
  ev : x.ev = .turn
  recv : x.calls.recv = (Server.Dtls.recordRecv opens []).fst
  bye : x.calls.bye = .done () id

end FreeCoAP.EndToEnd.Dtls
