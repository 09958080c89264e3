import Verif.Proxy.SpecBlocks
import Verif.EndToEnd.PropsReach

/-!
# Specification of a large body that is sent through the proxy
-/

namespace FreeCoAP.Proxy

open FreeCoAP.Http (HMsg)
open FreeCoAP.Msg (Msg)
open FreeCoAP.Server (Addr Env Event Srv cpath)
open FreeCoAP.Client (BEnv)
open FreeCoAP.EndToEnd (ReadyUp Accepts Delivered Distinct courseUp lastId)

/-- The answer of an application that has taken the body: 2.`d`, without a body. -/
def taken (d : Nat) : Msg := { Msg.create with codeClass := 2, codeDetail := d }

/-- The call of the library with which the proxy sends the body `b`, in the turns it has. -/
abbrev sending (sx px : Bool) (req : Msg) (b : Bytes) : List BEnv → Out Client.BRes := courseUp sx px req Msg.create 32 32 (bodyBuf (some b)).1 b.length

/-- What a call of the library that returns `r` gives the proxy. -/
def outcome (res : Client.BRes) : Except Err Nat → Out (Nat × Msg × Bytes)
  | .ok n => .ok (n, res.resp, res.body)
  | .error e => .err e

/-- The situation: the proxy can make the message `req` from the HTTP request `h`, whose body `b` is too large for one message, and can reach the server; the
application of the server takes bodies in blocks of `b1` bytes and answers 2.`d`; the requests with the blocks, and the responses, are delivered, in the turns `bs`, after which the call of the library has returned; there is
memory. What the call returns is what the proxy gets. `ids` is a condition on the ids in each turn. -/
structure Sends (sx px : Bool) (w : World) (h : HMsg) (req : Msg) (b : Bytes) (b1 room id d : Nat) (host port : Bytes) (a : Addr) (evs : List (Env × Event))
    (s0 s : Srv) (ids : Srv → Option Nat → EndToEnd.Turn → Prop) (bs : List BEnv) (last : Option Nat) (seen : List (List Server.Obs)) : Prop where
  goes : Goes w h req (some b) host port
  memory : w.env'.Ample
  ready : ReadyUp sx a evs s0 req 32 32 b1 room b.length (bodyBuf (some b)).1
  code : d = 1 ∨ d = 4
  turns : Delivered sx a (sending sx px req b) (Accepts (cpath 256 req.ops) req.codeDetail b1 room id d) ids s0 (lastId sx a evs) bs s last seen
  returns : ∃ res r, sending sx px req b bs = .ok res ∧ res.ret = some r ∧
    w.blockwise req Msg.create 32 32 (bodyBuf (some b)).1 b.length false = outcome res r

/-- The HTTP client sends the request completely and reads the response; the body is sent in blocks. -/
structure Round.Sent (sx px : Bool) (x : Round) : Prop where
  fair : Fair x.req x.arrives x.turn
  sends : ∃ b b1 room id d host port a evs s0 s bs last seen, x.resp = taken d ∧
    Sends sx px x.turn.w x.req.msg x.coap b b1 room id d host port a evs s0 s Distinct bs last seen

end FreeCoAP.Proxy
