import Verif.Client.ModelDtlsBlock
import Verif.Client.SpecDtls

/-!
# Specification of blockwise transfers of the client over DTLS
-/

namespace FreeCoAP.Client.Dtls

/-- The rounds of a client without DTLS in place of rounds over DTLS: the environments differ only in what is received, which is what the TLS library has
delivered. -/
inductive InRounds : List Round → List BEnv → Prop where
  | nil : InRounds [] []
  | cons {r : Round} {js : List Client.Input} {rs : List Round} {bs : List BEnv} (h : Stand r.is js) (hs : InRounds rs bs) :
      InRounds (r :: rs) ({ r.b with x := { r.b.x with inputs := js } } :: bs)

end FreeCoAP.Client.Dtls
