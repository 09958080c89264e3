import Verif.Proxy.SpecLost
import Verif.Proxy.PropsRetry

/-!
# C121: a response that is lost on its way to the proxy
-/

namespace FreeCoAP.Proxy

open FreeCoAP.Http (HMsg RawMsg)
open FreeCoAP.Msg (Msg Op)
open FreeCoAP.Server (Addr Env Event Srv Separate)
open FreeCoAP.EndToEnd (Waiting toward gets exAnswer exAnswer_ok)
open FreeCoAP.Client (stamped)

theorem lost_core {sx px : Bool} {w : World} {h : HMsg} {req resp : Msg} {host port : Bytes} {a : Addr} {evs evs2 : List (Env × Event)} {s s1 s2 s3 : Srv}
    {tr tr2 : List (List Server.Obs)} {env env3 : Env} {ev3 : Event} {x : Client.XEnv} {is is2 js : List Client.Input} {d : Bytes}
    {o o3 : List Server.Obs} {e e3 : Option Err}
    (hr : Recovers sx px w h req resp host port a evs evs2 s s1 s2 s3 tr tr2 env env3 ev3 x is is2 js d o o3 e e3) (ha : Apart sx h req a evs s env x) :
    Server.calls o = [(a, stamped x req)] ∧ Server.calls o3 = [] ∧ ∃ r, w.exchange req = .ok r ∧ EndToEnd.Says r resp := by
  obtain ⟨-, h2, -⟩ := EndToEnd.C109_answered_partial sx px a evs s s1 tr env x is js req resp d o e hr.waiting hr.step ha.zero ha.previous ha.next
  have hcon : req.type = Msg.CON := (Cross.C58_request hr.goes.headers hr.goes.conv).type
  refine ⟨h2, ?_⟩
  rcases hr.repeats with ⟨hs, hev⟩ | ⟨hs, i, t, hev, hi, hat, harm, hless⟩
  · have h3 := hr.again
    rw [hev] at h3
    obtain ⟨c1, obs, r, c2, c3⟩ := EndToEnd.C109_repeated_partial sx px a evs evs2 s s1 s2 s3 tr tr2 env env3 x is is2 js req resp d o o3 e e3 hr.waiting hr.step
      ha.zero ha.previous hcon hs hr.run hr.kept
      (fun y hy m hm hq => by rw [hr.only y hy m hm hq.1]) hr.fine h3 hr.waits (hr.unacked hs)
    exact ⟨c1, r, hr.client _ _ c2, c3⟩
  · have h3 := hr.again
    rw [hev] at h3
    obtain ⟨-, c1, obs, r, c2, c3⟩ := EndToEnd.C109_separate_partial sx px a evs evs2 s s1 s2 s3 tr tr2 env env3 x is is2 js req resp d o o3 e e3 i t hr.waiting
      hr.step ha.zero ha.previous hcon hs (ha.next (fun hn => hn.2 hs)) hr.run hr.kept hr.only hr.timers hless hi hat harm hr.fine h3 hr.waits
    exact ⟨c1, r, hr.client _ _ c2, c3⟩

/-- C121: the HTTP client gets the answer of the application, which was called once with the request, and not again when the response was repeated. -/
theorem C121_answered (sx px : Bool) (w : World) (peer : Peer) (h : HMsg) (req resp : Msg) (host port : Bytes) (a : Addr) (evs evs2 : List (Env × Event))
    (s s1 s2 s3 : Srv) (tr tr2 : List (List Server.Obs)) (env env3 : Env) (ev3 : Event) (x : Client.XEnv) (is is2 js : List Client.Input) (d : Bytes)
    (o o3 : List Server.Obs) (e e3 : Option Err)
    (hr : Recovers sx px w h req resp host port a evs evs2 s s1 s2 s3 tr tr2 env env3 ev3 x is is2 js d o o3 e e3) (ha : Apart sx h req a evs s env x) :
    (Server.calls o = [(a, stamped x req)] ∧ Server.calls o3 = [] ∧ SameRequest h req (stamped x req)) ∧
    ∃ h' p, Is p host port ∧ (process w peer h).calls = [(p, .plain req)] ∧ (process w peer h).res = .ok h' ∧ Relayed resp h' := by
  obtain ⟨h1, h2, r, h3, h4⟩ := lost_core hr ha
  obtain ⟨h', p, g1, g2, -, g4, -⟩ := relay_core hr.goes hr.memory hr.waiting.answer (waiting_built hr.waiting) hr.convertible h3 h4 ha.method peer
  have r58 := Cross.C58_request hr.goes.headers hr.goes.conv
  refine ⟨⟨h1, h2, r58.method.1, r58.method.2, rfl, ?_⟩, h', p, g1, by rw [g2], by rw [g2], g4⟩
  rcases r58.body with ⟨-, h1, -⟩ | ⟨-, -, -, h1⟩
  · exact h1
  · cases h1

theorem lost_answered {sx px : Bool} {x : Round} (h : x.Lost sx px) : x.Answered := by
  intro peer
  obtain ⟨host, port, a, evs, evs2, s, s1, s2, s3, tr, tr2, env, env3, ev3, c, is, is2, js, d, o, o3, e, e3, hr, ha⟩ := h.recovers
  obtain ⟨-, -, r, h3, h4⟩ := lost_core hr ha
  obtain ⟨h', p, -, g2, g3, g4, g5⟩ := relay_core hr.goes hr.memory hr.waiting.answer (waiting_built hr.waiting) hr.convertible h3 h4 ha.method peer
  refine ⟨_, _, h', g2, by show _ ≤ 32768; omega, fun hs => ?_, h', relayed_read hr.memory h4 g3 g4 g5 h.tags h.content, g4⟩
  simp only [IsSize, List.mem_cons, List.not_mem_nil, or_false] at hs
  omega

/-- C121 on a connection: an HTTP client that makes any number of requests, one after the other, gets for each the answer of the application as one HTTP response
that it can read, whether a response was lost or not. -/
theorem C121_connection (sx px : Bool) {W : Nat} {c : Conn} {l : List Round} (hW : 2 * MAX + 1 < W) (hc : connNew W true true true = .ok c)
    (hl : ∀ x ∈ l, x.OK sx px ∨ x.Lost sx px) :
    ∃ log, conversation W c (l.map (fun x => (x.req.text, x.arrives, x.turn))) = .ok (log, .done) ∧ log.length = l.length ∧
      ∀ (i : Nat) (x : Round) (e : Entry), l[i]? = some x → log[i]? = some e → Understood x.turn.w.env'.http x.resp e.out := by
  refine connection_answered hW hc (fun x hx => ?_)
  rcases hl x hx with h | h
  · exact ⟨h.fair, mixed_answered (sx := sx) (px := px) (Or.inl h)⟩
  · exact ⟨h.fair, lost_answered h⟩

/-! ## Examples -/

/-- The world of the examples makes the exchange of the client with the datagrams that arrive. -/
theorem lost_client {sx : Bool} (ds ds3 : List Bytes) :
    ∀ obs r, Client.exchange sx false { replyX [] with inputs := ds.map gets ++ (ds3.map gets ++ []) } endReq = .ok (obs, some r) →
      (replyWorld sx (ds ++ ds3)).exchange endReq = result r := by
  intro obs r hx
  rw [List.append_nil, ← List.map_append] at hx
  show (match Client.exchange sx false (replyX ((ds ++ ds3).map gets)) endReq with | .ok (_, some r) => result r | _ => .err .EIO) = _
  rw [show Client.exchange sx false (replyX ((ds ++ ds3).map gets)) endReq = .ok (obs, some r) from hx]

theorem lost_idle (sep : List Bytes) : ¬ Server.Transfer (Server.init 100 sep Server.exPool) [1] := by
  rintro ⟨t, ht, -⟩
  rw [Server.ofAddr_init] at ht
  cases ht

/-- What the server does while the response is lost: it answers another client. -/
def lostMid : List (Env × Event) := [(Server.exEnv, .datagram [2] Server.exGetB)]

theorem lostMid_only (m : Msg) : ∀ y ∈ lostMid, Server.OnlyAgain true [1] m y := by
  intro y hy
  rw [List.mem_singleton.1 hy]
  intro m' hm
  exact absurd hm (by simp [Server.arrived])

theorem lostMid_timers : ∀ y ∈ lostMid, y.1.timerErr = none := by
  intro y hy
  rw [List.mem_singleton.1 hy]
  rfl

theorem replyX_waits : ∃ obs, Client.exchange true false { replyX [] with inputs := [] } endReq = .ok (obs, none) :=
  ⟨[.sent endGram, .arm 2500], by decide +kernel⟩

theorem replyX_acked : ∃ obs, Client.exchange true false { replyX [] with inputs := [Server.emptyAck 261].map gets } endReq = .ok (obs, none) := by
  obtain ⟨obs, h⟩ := replyX_waits
  obtain ⟨hb, -⟩ := req_built (end_goes true endB).headers (end_goes true endB).conv
  have h := EndToEnd.exchange_acked hb rfl h (fun i hi => by cases hi)
  rw [show (stamped (replyX []) endReq).msgId = 261 by decide +kernel] at h
  exact h

/-- The hypotheses are met by a response with the acknowledgement: the proxy's client repeats its request, and gets the answer the second time. -/
theorem lostExample : ∃ s1 s2 s3 tr2 o o3, Recovers true false (replyWorld true ([] ++ toward [1] o3)) (request "GET" "coap://h:5683/a" none) endReq exAnswer
      (str "h") (str "5683") [1] [] lostMid Server.exInit s1 s2 s3 [] tr2 Server.exEnv Server.exEnv (.datagram [1] endGram) (replyX []) [] [] [] endGram o o3 none none ∧
    Apart true (request "GET" "coap://h:5683/a" none) endReq [1] [] Server.exInit Server.exEnv (replyX []) := by
  have key : Server.test (Server.step true Server.exInit Server.exEnv (.datagram [1] endGram)) (fun x1 => decide (x1.2.2 = none) &&
      (EndToEnd.keptB true [1] x1.1 lostMid && Server.test (Server.run true x1.1 lostMid) (fun x2 =>
        Server.test (Server.step true x2.1 Server.exEnv (.datagram [1] endGram)) (fun x3 => decide (x3.2.2 = none))))) = true := by decide +kernel
  obtain ⟨⟨s1, o, e⟩, h1, key⟩ := Server.test_ok key
  rw [Bool.and_eq_true, Bool.and_eq_true] at key
  obtain ⟨he, hkept, key⟩ := key
  obtain ⟨⟨s2, tr2⟩, h2, key⟩ := Server.test_ok key
  obtain ⟨⟨s3, o3, e3⟩, h3, key⟩ := Server.test_ok key
  replace key := of_decide_eq_true key
  replace he := of_decide_eq_true he
  dsimp only at he key h1 h2 h3 hkept
  subst key
  subst he
  have hsep : ¬ Separate Server.exInit.sepList endReq := by decide +kernel
  exact ⟨s1, s2, s3, tr2, o, o3, ⟨end_goes true _, Cross.ample_ample, answer_convertible, replyWaiting true ⟨100, Server.exSep, Server.exPool, rfl⟩ end_idle, h1, h2,
    EndToEnd.kept_of hkept, lostMid_only _, lostMid_timers, replyX_waits, fun _ i hi => (by cases hi), Server.exEnv_noFault, Or.inl ⟨hsep, rfl⟩, h3,
    lost_client [] (toward [1] o3)⟩,
    by decide, fun m' h => (by cases h), fun _ => by decide +kernel, by decide⟩

/-- They are met by a separate response, too, of which the acknowledgement arrives and the response is lost; the timer of the server sends it again. -/
theorem lostExampleSep : ∃ s1 s2 s3 tr2 o o3, Recovers true false (replyWorld true ([Server.emptyAck 261] ++ toward [1] o3))
      (request "GET" "coap://h:5683/a" none) endReq exAnswer (str "h") (str "5683") [1] [] lostMid (Server.init 100 [[47, 97]] Server.exPool) s1 s2 s3 [] tr2
      Server.exEnv Server.exEnv (.timer 0) (replyX []) [] ([Server.emptyAck 261].map gets) [] endGram o o3 none none ∧
    Apart true (request "GET" "coap://h:5683/a" none) endReq [1] [] (Server.init 100 [[47, 97]] Server.exPool) Server.exEnv (replyX []) := by
  have key : Server.test (Server.step true (Server.init 100 [[47, 97]] Server.exPool) Server.exEnv (.datagram [1] endGram)) (fun x1 => decide (x1.2.2 = none) &&
      (EndToEnd.keptB true [1] x1.1 lostMid && Server.test (Server.run true x1.1 lostMid) (fun x2 =>
        decide ((Server.armsOf [1] (Server.obsOf x2.2)).length = 0) &&
        (match x2.1.trans[0]? with
          | some t => decide (Server.ofAddr x2.1 [1] = some t) && t.armed
          | none => false) &&
        Server.test (Server.step true x2.1 Server.exEnv (.timer 0)) (fun x3 => decide (x3.2.2 = none))))) = true := by decide +kernel
  obtain ⟨⟨s1, o, e⟩, h1, key⟩ := Server.test_ok key
  rw [Bool.and_eq_true, Bool.and_eq_true] at key
  obtain ⟨he, hkept, key⟩ := key
  obtain ⟨⟨s2, tr2⟩, h2, key⟩ := Server.test_ok key
  rw [Bool.and_eq_true, Bool.and_eq_true] at key
  obtain ⟨⟨hlen, htr⟩, key⟩ := key
  obtain ⟨⟨s3, o3, e3⟩, h3, key⟩ := Server.test_ok key
  replace key := of_decide_eq_true key
  replace hlen := of_decide_eq_true hlen
  replace he := of_decide_eq_true he
  dsimp only at he key hlen h1 h2 h3 hkept htr
  subst key
  subst he
  cases hti : s2.trans[0]? with
  | none => rw [hti] at htr; cases htr
  | some t =>
    rw [hti] at htr
    dsimp only at htr
    rw [Bool.and_eq_true] at htr
    have hsep : Separate (Server.init 100 [[47, 97]] Server.exPool).sepList endReq := by decide +kernel
    exact ⟨s1, s2, s3, tr2, o, o3, ⟨end_goes true _, Cross.ample_ample, answer_convertible,
      replyWaiting true ⟨100, [[47, 97]], Server.exPool, rfl⟩ (lost_idle _), h1, h2, EndToEnd.kept_of hkept, lostMid_only _, lostMid_timers, replyX_acked,
      fun hn => absurd hsep hn, Server.exEnv_noFault, Or.inr ⟨hsep, 0, t, rfl, hti, of_decide_eq_true htr.1, htr.2, by rw [hlen]; decide⟩, h3,
      lost_client [Server.emptyAck 261] (toward [1] o3)⟩,
      by decide, fun m' h => (by cases h), fun _ => by decide +kernel, by decide⟩

/-- A connection with both. -/
example : ∃ t1 t2 : Turn, ∃ log, conversation (2 ^ 32) ⟨⟨0, BUF, MAX, List.replicate 4097 0⟩, ⟨0, BUF, MAX, List.replicate 4097 0⟩, none⟩
    [(get.text, List.replicate 40 (arrival 1), t1), (get.text, List.replicate 40 (arrival 1), t2)] = .ok (log, .done) ∧
    log.length = 2 ∧ ∀ e ∈ log, Understood Cross.ample.http exAnswer e.out := by
  obtain ⟨s1, s2, s3, tr2, o, o3, h2, h3⟩ := lostExample
  obtain ⟨u1, u2, u3, ur2, q, q3, k2, k3⟩ := lostExampleSep
  have hok1 : Round.Lost true false ⟨get, List.replicate 40 (arrival 1), turn (replyWorld true ([] ++ toward [1] o3)), endReq, exAnswer⟩ :=
    ⟨turn_fair (by decide), ⟨_, _, _, _, _, _, _, _, _, _, _, _, _, _, _, _, _, _, _, _, _, _, _, h2, h3⟩, fun v hv => (by cases hv),
      (by decide : (0 : Byte) ∉ exAnswer.payload)⟩
  have hok2 : Round.Lost true false ⟨get, List.replicate 40 (arrival 1), turn (replyWorld true ([Server.emptyAck 261] ++ toward [1] q3)), endReq, exAnswer⟩ :=
    ⟨turn_fair (by decide), ⟨_, _, _, _, _, _, _, _, _, _, _, _, _, _, _, _, _, _, _, _, _, _, _, k2, k3⟩, fun v hv => (by cases hv),
      (by decide : (0 : Byte) ∉ exAnswer.payload)⟩
  obtain ⟨log, g1, g2, g3⟩ := C121_connection true false (W := 2 ^ 32)
    (l := [⟨get, List.replicate 40 (arrival 1), turn (replyWorld true ([] ++ toward [1] o3)), endReq, exAnswer⟩,
      ⟨get, List.replicate 40 (arrival 1), turn (replyWorld true ([Server.emptyAck 261] ++ toward [1] q3)), endReq, exAnswer⟩]) (by decide) rfl
    (fun x hx => by
      simp only [List.mem_cons, List.not_mem_nil, or_false] at hx
      rcases hx with rfl | rfl
      · exact Or.inr hok1
      · exact Or.inr hok2)
  refine ⟨_, _, log, g1, g2, fun e he => ?_⟩
  obtain ⟨i, hi, rfl⟩ := List.getElem_of_mem he
  have hi' : i < 2 := by rw [g2] at hi; exact hi
  match i, hi, hi' with
  | 0, hi, _ => exact g3 0 _ _ rfl (List.getElem?_eq_getElem hi)
  | 1, hi, _ => exact g3 1 _ _ rfl (List.getElem?_eq_getElem hi)

end FreeCoAP.Proxy
