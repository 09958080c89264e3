import Verif.Proxy.SpecReply

/-!
# Specification of a request through the proxy whose response is lost at first
-/

namespace FreeCoAP.Proxy

open FreeCoAP.Http (HMsg)
open FreeCoAP.Msg (Msg)
open FreeCoAP.Server (Addr Env Event Srv Separate)
open FreeCoAP.Client (stamped AckedBy)
open FreeCoAP.EndToEnd (Waiting toward gets)

/-- What makes the server send a response again that the client of the proxy at `a` has not got: if the response comes with the acknowledgement, another copy `d`
of the request; if not, the expiry of the timer of the response, which was not repeated four times so far. -/
def Repeats (a : Addr) (sepList : List Bytes) (m : Msg) (d : Bytes) (s2 : Srv) (tr2 : List (List Server.Obs)) (ev : Event) : Prop :=
  (¬ Separate sepList m ∧ ev = .datagram a d) ∨
  (Separate sepList m ∧ ∃ i t, ev = .timer i ∧ s2.trans[i]? = some t ∧ Server.ofAddr s2 a = some t ∧ t.armed = true ∧
    (Server.armsOf a (Server.obsOf tr2)).length < 4)

/-- The situation: as in `Relays` the request reaches the server at `s`, and the application answers it with `resp`; but the client of the proxy waits on, having
got `is2`; the server, at `s2` after the events `evs2`, still remembers the client, from which no other message has come but copies of the request; then it is made
to send the response again, and what it sends, `o3`, reaches the client. -/
structure Recovers (sx px : Bool) (w : World) (h : HMsg) (req resp : Msg) (host port : Bytes) (a : Addr) (evs evs2 : List (Env × Event)) (s s1 s2 s3 : Srv)
    (tr tr2 : List (List Server.Obs)) (env env3 : Env) (ev3 : Event) (x : Client.XEnv) (is is2 js : List Client.Input) (d : Bytes)
    (o o3 : List Server.Obs) (e e3 : Option Err) : Prop where
  goes : Goes w h req none host port
  memory : w.env'.Ample
  convertible : Convertible resp
  waiting : Waiting sx px a evs s tr env x is req resp d
  step : Server.step sx s env (.datagram a d) = .ok (s1, o, e)
  run : Server.run sx s1 evs2 = .ok (s2, tr2)
  kept : Server.Kept sx a s1 evs2
  only : ∀ y ∈ evs2, Server.OnlyAgain sx a (stamped x req) y
  timers : ∀ y ∈ evs2, y.1.timerErr = none
  waits : ∃ obs, Client.exchange sx px { x with inputs := is2 } req = .ok (obs, none)
  unacked : ¬ Separate s.sepList req → ∀ i ∈ is2, ¬ AckedBy sx (stamped x req).msgId i
  fine : Server.NoFault env3
  repeats : Repeats a s.sepList req d s2 tr2 ev3
  again : Server.step sx s2 env3 ev3 = .ok (s3, o3, e3)
  client : ∀ obs r, Client.exchange sx px { x with inputs := is2 ++ ((toward a o3).map gets ++ js) } req = .ok (obs, some r) → w.exchange req = result r

/-- As `Round.OK`, for a response that is lost at first. -/
structure Round.Lost (sx px : Bool) (x : Round) : Prop where
  fair : Fair x.req x.arrives x.turn
  recovers : ∃ host port a evs evs2 s s1 s2 s3 tr tr2 env env3 ev3 c is is2 js d o o3 e e3,
    Recovers sx px x.turn.w x.req.msg x.coap x.resp host port a evs evs2 s s1 s2 s3 tr tr2 env env3 ev3 c is is2 js d o o3 e e3 ∧
    Apart sx x.req.msg x.coap a evs s env c
  tags : ∀ v ∈ Cross.values 4 x.resp, Http.Tidy (cstr v)
  content : 0x00 ∉ x.resp.payload

end FreeCoAP.Proxy
