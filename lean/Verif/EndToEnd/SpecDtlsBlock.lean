import Verif.EndToEnd.Spec
import Verif.EndToEnd.SpecPlain
import Verif.Server.SpecDtls
import Verif.Client.SpecDtlsBlock

/-!
# Specification of a transfer between the client and the server of the library over DTLS

Nothing is said about the datagrams: they may be read, changed, invented, lost, repeated and delayed by others. What is assumed is what DTLS promises: a record
that the TLS library delivers in a session is one that the peer has sent in it. The promise is taken as ideal: no datagram at all makes the library deliver
anything else.
-/

namespace FreeCoAP.EndToEnd.Dtls

open FreeCoAP.Msg
open FreeCoAP.Server (Addr Asks Carries)

/-- The rounds `rounds` of a transfer with the client at the address `a`, and two periods of the life of the server: the inputs `xs0` are before the transfer and
`xs` from its beginning on, `tr0` and `tr` are what the server does in them. -/
structure Session (sx : Bool) (a : Addr) (rounds : List (Client.Dtls.Round × List Client.Obs)) (xs0 xs : List Server.Dtls.Input)
    (tr0 tr : List (List Server.Obs)) : Prop where
  /-- No request with one of the tokens was delivered before. -/
  fresh : ∀ x ∈ xs0, ∀ d m, x.calls.Delivers a d → Carries sx d m → Asks m → ∀ r ∈ rounds, m.token ≠ token r.1.b
  /-- A request with one of the tokens that the library of the server delivers for `a` was sent by the client in that round. -/
  requests : ∀ x ∈ xs, ∀ d m, x.calls.Delivers a d → Carries sx d m → Asks m → ∀ r ∈ rounds, m.token = token r.1.b → d ∈ Client.sends r.2
  /-- What the library of the client delivers was sent to it by the server. -/
  responses : ∀ r ∈ rounds, ∀ i ∈ r.1.is, ∀ d, Client.Dtls.Delivers i.recv d → (a, d) ∈ Server.sends (tr0 ++ tr).flatten

end FreeCoAP.EndToEnd.Dtls
