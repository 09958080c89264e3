import Verif.Proxy.Spec
import Verif.EndToEnd.SpecPlain

/-!
# Specification of a request through the proxy to an application

The proxy, its CoAP client and the CoAP server are the ones of the other parts of the model.
-/

namespace FreeCoAP.Proxy

open FreeCoAP.Http (HMsg)
open FreeCoAP.Msg (Msg)
open FreeCoAP.Server (Addr Env)

/-- The status of an HTTP response is 2xx. -/
def Success (h : HMsg) : Prop := h.start1.head? = some 0x32

/-- The value that `coap_client_exchange` returns with the response. -/
def result : Except Err Msg → Out Msg
  | .ok m => .ok m
  | .error e => .err e

/-- The exchange of `req` in the world `w` is one of the CoAP client of the library, in the environment `b`; `obs` is what is seen of it. -/
def Through (sx px : Bool) (w : World) (req : Msg) (b : Client.BEnv) (obs : List Client.Obs) : Prop :=
  ∃ r, Client.exchange sx px b.x req = .ok (obs, some r) ∧ w.exchange req = result r

/-- The application answers each request of the client at `a` with one message: there are no blocks, and it does not ask for any. -/
def OneMessageEach (a : Addr) (env : Env) : Prop :=
  ∀ (t : Server.Trans) (m : Msg), t.addr = a → ∃ resp err, env.handle t m = .reply resp err ∧
    (∀ o ∈ resp.ops, o.num ≠ 23) ∧ ¬ (resp.codeClass = 4 ∧ resp.codeDetail = 13)

/-- `m` asks for what the HTTP request asks for: it was made from the conversion `req` of the request and has its method, options and body. -/
structure SameRequest (h : HMsg) (req m : Msg) : Prop where
  method : (h.start0, m.codeDetail) ∈ Cross.methods
  request : m.codeClass = 0
  options : m.ops = req.ops
  body : m.payload = Cross.bodyOf h

end FreeCoAP.Proxy
