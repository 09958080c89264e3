import Verif.Server.ModelRecords

/-!
# Specification of what a server over DTLS receives
-/

namespace FreeCoAP.Server.Dtls

/-- The records of the sender `a` in the datagrams. -/
def recordsOf (opens : Addr → Bytes → List Bytes) (a : Addr) (l : List Dgram) : List Bytes :=
  l.flatMap (fun d => if d.src = a then opens a d.data else [])

/-- The records of the sender that were given to the server. -/
def givenTo (a : Addr) (l : List (Addr × Bytes)) : List Bytes := (l.filter (fun p => p.1 = a)).map Prod.snd

/-- The datagrams are not longer than UDP allows. -/
def UdpAll (as : List (List Dgram)) : Prop := ∀ l ∈ as, ∀ d ∈ l, d.data.length ≤ 65535

end FreeCoAP.Server.Dtls
