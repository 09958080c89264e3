import Verif.Proxy.SpecEnd
import Verif.Proxy.SpecConn
import Verif.Proxy.Props3
import Verif.EndToEnd.PropsLive

/-!
# Specification of a request through the proxy over a network that delivers
-/

namespace FreeCoAP.Proxy

open FreeCoAP.Http (HMsg RawMsg)
open FreeCoAP.Msg (Msg)
open FreeCoAP.Server (Addr Env Event Srv Separate lastRequest nextMsgId)
open FreeCoAP.Client (stamped)
open FreeCoAP.EndToEnd (Waiting toward gets)

/-- An answer that can be given to an HTTP client in one message: its code is one of RFC 7252, it does not ask for blocks and is not one of several blocks, no
option has 256 bytes or more, and there are at most 64 of them. -/
structure Convertible (resp : Msg) : Prop where
  code : (resp.codeClass, resp.codeDetail) ∈ Cross.registered
  whole : ¬ (resp.codeClass = 4 ∧ resp.codeDetail = 13) ∧ ∀ o ∈ resp.ops, o.num ≠ 23
  short : ∀ o ∈ resp.ops, o.val.length < 256
  few : resp.ops.length ≤ 64

/-- The situation: the proxy can make the message `req` from the HTTP request `h` and can reach the server; its CoAP client, at the address `a`, waits for the
response; a copy `d` of the request reaches the server, which can have any history, and what the server sends for it, `o`, reaches the client; the application
answers with `resp`; there is memory. The exchange of the proxy is the one of the client of the library. -/
structure Relays (sx px : Bool) (w : World) (h : HMsg) (req resp : Msg) (host port : Bytes) (a : Addr) (evs : List (Env × Event)) (s s1 : Srv)
    (tr : List (List Server.Obs)) (env : Env) (x : Client.XEnv) (is js : List Client.Input) (d : Bytes) (o : List Server.Obs) (e : Option Err) : Prop where
  goes : Goes w h req none host port
  memory : w.env'.Ample
  waiting : Waiting sx px a evs s tr env x is req resp d
  step : Server.step sx s env (.datagram a d) = .ok (s1, o, e)
  client : ∀ obs r, Client.exchange sx px { x with inputs := is ++ ((toward a o).map gets ++ js) } req = .ok (obs, some r) → w.exchange req = result r
  convertible : Convertible resp

/-- The id of the request, which is random, is neither 0 nor the id of the previous request from the proxy, and, if the response does not come with the
acknowledgement, not the id that the server chooses for it either. The method is not DELETE, for which the proxy makes no request at all (C65). -/
structure Apart (sx : Bool) (h : HMsg) (req : Msg) (a : Addr) (evs : List (Env × Event)) (s : Srv) (env : Env) (x : Client.XEnv) : Prop where
  zero : (stamped x req).msgId ≠ 0
  previous : ∀ m', lastRequest sx a evs = some m' → m'.msgId ≠ (stamped x req).msgId
  next : ¬ (req.type = Msg.CON ∧ ¬ Separate s.sepList req) → nextMsgId s.msgId env.idRand ≠ (stamped x req).msgId
  method : h.start0 ≠ str "DELETE"

/-- The HTTP response `h'` is the answer `resp` of the application, with the status that RFC 7252 and RFC 8075 have for its code. -/
structure Relayed (resp : Msg) (h' : HMsg) : Prop where
  content : Cross.ResponseFor resp [] h'
  status : ∀ code, ((resp.codeClass, resp.codeDetail), code) ∈ Cross.table → h'.start1 = str code

/-- The HTTP client gets an answer that it can read: the text `out` is one HTTP response, and it is `resp`. -/
def Understood (mem : Nat → Bool) (resp : Msg) (out : Bytes) : Prop :=
  ∃ h', Http.parse mem out = .ok (h', out.length) ∧ Relayed resp h'

/-- A request of an HTTP client, the events while it arrives, the turn of the proxy in which it is processed, the CoAP request and the answer
of the application. -/
structure Round where
  req : RawMsg
  arrives : List In
  turn : Turn
  coap : Msg
  resp : Msg

/-- The HTTP client sends the request completely and reads the response, and it is relayed; the answer has entity tags and
content that an HTTP message can have. -/
structure Round.OK (sx px : Bool) (x : Round) : Prop where
  fair : Fair x.req x.arrives x.turn
  relays : ∃ host port a evs s s1 tr env c is js d o e, Relays sx px x.turn.w x.req.msg x.coap x.resp host port a evs s s1 tr env c is js d o e ∧
    Apart sx x.req.msg x.coap a evs s env c
  tags : ∀ v ∈ Cross.values 4 x.resp, Http.Tidy (cstr v)
  content : 0x00 ∉ x.resp.payload

end FreeCoAP.Proxy
