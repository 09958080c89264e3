import Verif.Client.ModelDtlsBlock

/-!
# Model of the life of a client over DTLS

The client is created and then used for any number of exchanges. The socket and the session go on from one call to the next.
-/

namespace FreeCoAP.Client.Dtls

open FreeCoAP.Msg

/-- A call of `coap_client_exchange` (coap_client.c:1572-1633) or of `coap_client_exchange_blockwise` (coap_client.c:1966-2028). -/
inductive Call where
  | exchange (x : XEnv) (req : Msg) (is : List Input)
  | blockwise (req resp : Msg) (size1 size2 : Nat) (body : Bytes) (bodyLen : Nat) (haveResp : Bool) (rs1 rs2 : List Round)

/-- The socket and the session after the call. -/
def Call.after (sx px : Bool) (c : Call) (u : World) : World :=
  match c with
  | .exchange x req is => (Dtls.exchange sx px x req is u).2
  | .blockwise req resp size1 size2 body bodyLen haveResp rs1 rs2 =>
    (exchangeBlockwise sx px req resp size1 size2 body bodyLen haveResp rs1 rs2 u).2

/-- `coap_client_create` (the DTLS part, coap_client.c:407-523) and the calls of a program that uses the client until it is destroyed. When the client
cannot be created there are none. -/
def life (sx px : Bool) (setup : Bool) (handshake : Nat → Lib Shake) (verified : Bool) (cs : List Call) (u : World) : World :=
  match create setup handshake verified u with
  | (some _, u) => u
  | (none, u) => cs.foldl (fun u c => c.after sx px u) u

end FreeCoAP.Client.Dtls
