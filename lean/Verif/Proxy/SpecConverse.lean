import Verif.Proxy.SpecUpload

/-!
# Specification of a large body that is sent through the proxy and answered with a body
-/

namespace FreeCoAP.Proxy

open FreeCoAP.Http (HMsg)
open FreeCoAP.Msg (Msg)
open FreeCoAP.Server (Addr Env Event Srv cpath)
open FreeCoAP.Client (BEnv)
open FreeCoAP.EndToEnd (ReadyBoth Replies Delivered Distinct lastId)

/-- The answer of an application that has taken the body: 2.`d`, with the body `out`. -/
def said (d : Nat) (out : Bytes) : Msg := { Msg.create with codeClass := 2, codeDetail := d, payload := out }

/-- The situation: the proxy can make the message `req` from the HTTP request `h`, whose body `b` is too large for one message, and can reach the server; the
application of the server takes bodies in blocks of `b1` bytes and answers a body `c` with 2.`d` and the body `f c`, which is not empty, in blocks of `b2` bytes; the
requests with the blocks and the responses are delivered, in the turns `bs`, after which the call of the library has returned; there is memory. What the call returns
is what the proxy gets. `ids` is a condition on the ids in each turn. -/
structure Converses (sx px : Bool) (w : World) (h : HMsg) (req : Msg) (b : Bytes) (b1 b2 room id d : Nat) (f : Bytes → Bytes) (host port : Bytes) (a : Addr)
    (evs : List (Env × Event)) (s0 s : Srv) (ids : Srv → Option Nat → EndToEnd.Turn → Prop) (bs : List BEnv) (last : Option Nat)
    (seen : List (List Server.Obs)) : Prop where
  goes : Goes w h req (some b) host port
  memory : w.env'.Ample
  ready : ReadyBoth sx a evs s0 req 32 32 b1 b2 room b.length (bodyBuf (some b)).1 (f b)
  code : d = 1 ∨ d = 4
  turns : Delivered sx a (sending sx px req b) (Replies (cpath 256 req.ops) req.codeDetail b1 b2 room id d f) ids s0 (lastId sx a evs) bs s last seen
  returns : ∃ res r, sending sx px req b bs = .ok res ∧ res.ret = some r ∧
    w.blockwise req Msg.create 32 32 (bodyBuf (some b)).1 b.length false = outcome res r

/-- The HTTP client sends the request completely and reads the response; the body is sent in blocks, and so is the answer, which is not longer and has no zero byte. Its
length is not one for which the response has exactly the length of the buffer of the proxy. -/
structure Round.Conversed (sx px : Bool) (x : Round) : Prop where
  fair : Fair x.req x.arrives x.turn
  converses : ∃ b b1 b2 room id d f host port a evs s0 s bs last seen, x.resp = said d (f b) ∧
    Converses sx px x.turn.w x.req.msg x.coap b b1 b2 room id d f host port a evs s0 s Distinct bs last seen ∧
    (f b).length ≤ b.length ∧ 0x00 ∉ f b ∧ (f b).length ≠ 4055 ∧ (f b).length ≠ 8151

end FreeCoAP.Proxy
