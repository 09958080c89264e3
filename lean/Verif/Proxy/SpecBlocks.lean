import Verif.Proxy.SpecReply
import Verif.EndToEnd.PropsContinue

/-!
# Specification of a resource in blocks that is fetched through the proxy
-/

namespace FreeCoAP.Proxy

open FreeCoAP.Http (HMsg RawMsg)
open FreeCoAP.Msg (Msg)
open FreeCoAP.Server (Addr Env Event Srv Kept OnlyRepeats cpath)
open FreeCoAP.Client (stamped BEnv)
open FreeCoAP.EndToEnd (toward gets Ready Begins DistinctFirst Distinct Delivered Provides continued lastId)

/-- The response with which an application could give `src` in one message, if that were possible. -/
def inOne (src : Bytes) : Msg := { Msg.create with codeClass := 2, codeDetail := 5, payload := src }

/-- The client of the proxy gets the response `r` to its request, and the blocks after it: there are the turns `bs`, one for each block that is missing, and what
the call of the library returns is what the proxy gets. `ids` is a condition on the ids in each turn. -/
structure Follows (sx px : Bool) (w : World) (req : Msg) (src : Bytes) (b2 : Nat) (a : Addr) (id : Nat) (ids : Srv → Option Nat → EndToEnd.Turn → Prop)
    (s2 : Srv) (r : Msg) (bs : List BEnv) : Prop where
  turns : ∃ s last seen, Delivered sx a (continued sx px req r b2 b2 (bodyBuf none).1 8192) (Provides (cpath 256 req.ops) src b2) ids s2 (some id) bs s last seen
  enough : bs.length = src.length / b2
  client : ∀ res n, continued sx px req r b2 b2 (bodyBuf none).1 8192 bs = .ok res → res.ret = some (.ok n) →
    w.blockwise req r b2 b2 (bodyBuf none).1 8192 true = .ok (n, res.resp, res.body)

/-- The situation: the proxy can make the message `req` from the HTTP request `h`, which is a GET request, and can reach the server; the application of the server
gives `src`, which has at most 8192 bytes, in blocks of `b2` bytes; the request, the responses and the requests for further blocks are delivered; there is memory. Between
the first request and the others the events `mid` happen at the server. The exchanges of the proxy are those of the client of the library. -/
structure Fetches (sx px : Bool) (w : World) (h : HMsg) (req : Msg) (src : Bytes) (b2 : Nat) (host port : Bytes) (a : Addr) (evs mid : List (Env × Event))
    (s0 s1 s2 : Srv) (tr : List (List Server.Obs)) (env : Env) (x : Client.XEnv) (is js : List Client.Input) (d : Bytes) (o : List Server.Obs) (e : Option Err)
    (ids : Srv → Option Nat → EndToEnd.Turn → Prop) : Prop where
  goes : Goes w h req none host port
  memory : w.env'.Ample
  ready : Ready sx a evs s0 req b2 b2 8192 src (bodyBuf none).1
  begins : Begins sx px req src b2 env x is d
  step : Server.step sx s0 env (.datagram a d) = .ok (s1, o, e)
  between : Server.run sx s1 mid = .ok (s2, tr)
  kept : Kept sx a s1 mid
  only : ∀ y ∈ mid, OnlyRepeats sx a (stamped x req).msgId y
  client : ∀ obs r, Client.exchange sx px { x with inputs := is ++ ((toward a o).map gets ++ js) } req = .ok (obs, some r) → w.exchange req = result r
  follows : ∀ obs r, Client.exchange sx px { x with inputs := is ++ ((toward a o).map gets ++ js) } req = .ok (obs, some (.ok r)) →
    ∃ bs, Follows sx px w req src b2 a (stamped x req).msgId ids s2 r bs

/-- The HTTP client sends the request completely and reads the response; the resource is fetched in blocks; its content is content that an HTTP message can have. The
text of the response does not have exactly the length of the buffer of the proxy, 4096 or 8192, for which it is not sent (C50). -/
structure Round.InBlocks (sx px : Bool) (x : Round) (src : Bytes) : Prop where
  fair : Fair x.req x.arrives x.turn
  answer : x.resp = inOne src
  fetches : ∃ b2 host port a evs mid s0 s1 s2 tr env c is js d o e,
    Fetches sx px x.turn.w x.req.msg x.coap src b2 host port a evs mid s0 s1 s2 tr env c is js d o e Distinct ∧
    DistinctFirst s0 (lastId sx a evs) env (stamped c x.coap)
  content : 0x00 ∉ src
  length : src.length ≠ 4055 ∧ src.length ≠ 8151

end FreeCoAP.Proxy
