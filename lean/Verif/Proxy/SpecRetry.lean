import Verif.Proxy.SpecReply
import Verif.Proxy.SpecConverse

/-!
# Specification of a body that fits into one message, is refused because it is too large, and is sent in blocks by the proxy
-/

namespace FreeCoAP.Proxy

open FreeCoAP.Http (HMsg)
open FreeCoAP.Msg (Msg)
open FreeCoAP.Server (Addr Env Event Srv cpath)
open FreeCoAP.Client (BEnv)
open FreeCoAP.EndToEnd (Waiting toward gets ReadyUp ReadyBoth Accepts Replies Delivered Distinct lastId courseUp)

/-- The request without its payload. -/
def bare (req : Msg) : Msg := { req with payload := [] }

/-- The first part of the situation: the proxy can make the message `req` from the HTTP request `h`, whose body fits into the message and is not empty, and can
reach the server; its CoAP client, at the address `a`, waits for the response; a copy `d` of the request reaches the server, which can have any history, and what the
server sends for it, `o`, reaches the client; the application answers with `resp`, which is 4.13 (Request Entity Too Large); then the events `mid` happen at the
server, which is in the state `s2` afterwards; there is memory. The exchange of the proxy is the one of the client of the library. -/
structure TooLarge (sx px : Bool) (w : World) (h : HMsg) (req resp : Msg) (host port : Bytes) (a : Addr) (evs : List (Env × Event)) (s s1 s2 : Srv)
    (tr : List (List Server.Obs)) (env : Env) (x : Client.XEnv) (is js : List Client.Input) (d : Bytes) (o : List Server.Obs) (e : Option Err)
    (mid : List (Env × Event)) (tr2 : List (List Server.Obs)) : Prop where
  goes : Goes w h req none host port
  memory : w.env'.Ample
  waiting : Waiting sx px a evs s tr env x is req resp d
  refused : resp.codeClass = 4 ∧ resp.codeDetail = 13
  step : Server.step sx s env (.datagram a d) = .ok (s1, o, e)
  client : ∀ obs r, Client.exchange sx px { x with inputs := is ++ ((toward a o).map gets ++ js) } req = .ok (obs, some r) → w.exchange req = result r
  between : Server.run sx s1 mid = .ok (s2, tr2)

/-- The second part: after the response `r` the client of the proxy sends the body in blocks; the requests with the blocks and the responses are delivered, in the
turns `bs`, after which the call of the library has returned; what the call returns is what the proxy gets. `app` is a condition on the application of the server, and
`ids` one on the ids in each turn. -/
structure Again (sx px : Bool) (w : World) (req r : Msg) (a : Addr) (app : Env → Prop) (s2 s3 : Srv) (last0 : Option Nat) (ids : Srv → Option Nat → EndToEnd.Turn → Prop)
    (bs : List BEnv) (last : Option Nat) (seen : List (List Server.Obs)) : Prop where
  turns : Delivered sx a (courseUp sx px (bare req) r 32 32 (bodyBuf (some req.payload)).1 req.payload.length) app ids s2 last0 bs s3 last seen
  returns : ∃ res x, courseUp sx px (bare req) r 32 32 (bodyBuf (some req.payload)).1 req.payload.length bs = .ok res ∧ res.ret = some x ∧
    w.blockwise (bare req) r 32 32 (bodyBuf (some req.payload)).1 req.payload.length false = outcome res x

/-- What the proxy asks of the CoAP server at `p`: the request with the body, and then the body in blocks. -/
def retrying (p : Bytes × Bytes) (req : Msg) : List ((Bytes × Bytes) × Call) := [(p, .plain req), (p, .blocks (bare req) 32 32 req.payload false)]

/-- The HTTP client sends the request completely and reads the response; the body is refused in one message, and then sent in blocks; the application answers
without a body, or with one that is not longer and has no zero byte. -/
structure Round.Retried (sx px : Bool) (x : Round) : Prop where
  fair : Fair x.req x.arrives x.turn
  retries : ∃ resp host port a evs s s1 s2 tr env c is js d o e mid tr2,
    TooLarge sx px x.turn.w x.req.msg x.coap resp host port a evs s s1 s2 tr env c is js d o e mid tr2 ∧
    Apart sx x.req.msg x.coap a evs s env c ∧
    ∃ b1 room id k, (k = 1 ∨ k = 4) ∧
      ((ReadyUp sx a (evs ++ (env, .datagram a d) :: mid) s2 (bare x.coap) 32 32 b1 room x.coap.payload.length (bodyBuf (some x.coap.payload)).1 ∧
        x.resp = taken k ∧
        ∀ obs r, Client.exchange sx px { c with inputs := is ++ ((toward a o).map gets ++ js) } x.coap = .ok (obs, some (.ok r)) → ∃ s3 bs last seen,
          Again sx px x.turn.w x.coap r a (Accepts (cpath 256 x.coap.ops) x.coap.codeDetail b1 room id k) s2 s3 (lastId sx a (evs ++ (env, .datagram a d) :: mid))
            Distinct bs last seen) ∨
       ∃ b2 f, ReadyBoth sx a (evs ++ (env, .datagram a d) :: mid) s2 (bare x.coap) 32 32 b1 b2 room x.coap.payload.length (bodyBuf (some x.coap.payload)).1
          (f x.coap.payload) ∧
        (f x.coap.payload).length ≤ x.coap.payload.length ∧ 0x00 ∉ f x.coap.payload ∧ x.resp = said k (f x.coap.payload) ∧
        ∀ obs r, Client.exchange sx px { c with inputs := is ++ ((toward a o).map gets ++ js) } x.coap = .ok (obs, some (.ok r)) → ∃ s3 bs last seen,
          Again sx px x.turn.w x.coap r a (Replies (cpath 256 x.coap.ops) x.coap.codeDetail b1 b2 room id k f) s2 s3
            (lastId sx a (evs ++ (env, .datagram a d) :: mid)) Distinct bs last seen)

end FreeCoAP.Proxy
