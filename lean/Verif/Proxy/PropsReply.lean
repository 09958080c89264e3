import Verif.Proxy.LemmasReply
import Verif.Proxy.PropsConn

/-!
# C115: a request through the proxy over a network that delivers

C90 says what holds if the HTTP client is told that its request succeeded. This file says when it gets the answer of the application.
-/

namespace FreeCoAP.Proxy

open FreeCoAP.Http (HMsg RawMsg)
open FreeCoAP.Msg (Msg Op)
open FreeCoAP.Server (Addr Env Event Srv Separate lastRequest nextMsgId)
open FreeCoAP.EndToEnd (Waiting toward gets exAnswer exAnswer_ok)
open FreeCoAP.Client (stamped)

/-- What a user expects of the proxy if the network delivers: the request is made at the server that the HTTP client names, the application is called with it,
and the HTTP client gets the answer of the application. -/
def C115_statement (sx : Bool) : Prop :=
  ∀ (px : Bool) (w : World) (peer : Peer) (h : HMsg) (req resp : Msg) (host port : Bytes) (a : Addr) (evs : List (Env × Event)) (s s1 : Srv)
    (tr : List (List Server.Obs)) (env : Env) (x : Client.XEnv) (is js : List Client.Input) (d : Bytes) (o : List Server.Obs) (e : Option Err),
    Relays sx px w h req resp host port a evs s s1 tr env x is js d o e →
    (Server.calls o = [(a, stamped x req)] ∧ SameRequest h req (stamped x req)) ∧
    ∃ h' p, Is p host port ∧ (process w peer h).calls = [(p, .plain req)] ∧ (process w peer h).res = .ok h' ∧ Relayed resp h'

/-- The exchange of the proxy returned the answer of the application. -/
theorem relay_core {sx px : Bool} {w : World} {h : HMsg} {req resp r : Msg} {host port : Bytes} (hg : Goes w h req none host port) (hm : w.env'.Ample)
    (hans : EndToEnd.Answerable sx px resp) (hb : Server.Built resp) (hcv : Convertible resp) (hx : w.exchange req = .ok r) (h4 : EndToEnd.Says r resp)
    (hd : h.start0 ≠ str "DELETE") (peer : Peer) :
    ∃ h' p, Is p host port ∧ process w peer h = ⟨some p, [(p, .plain req)], .ok h'⟩ ∧
      Cross.respToHttp w.env' r (bodyBuf none).1 0 = .ok h' ∧ Relayed resp h' ∧ (Http.text h').length < 4096 := by
  have hshort := answer_short hans hb
  obtain ⟨q1, q2, q3, q4⟩ := id h4
  have hc : Convertible r := by
    obtain ⟨c1, c2, c3, c4⟩ := hcv
    exact ⟨by rw [q1, q2]; exact c1, by rw [q1, q2, q3]; exact c2, by rw [q3]; exact c3, by rw [q3]; exact c4⟩
  obtain ⟨p, hp, ep⟩ := process_reply (peer := peer) hg hx hd ⟨hc.whole.2, hc.whole.1⟩
  obtain ⟨h', e1, e2, e3⟩ := respToHttp_goes hm hc (bodyBuf none).1
  refine ⟨h', p, hp, ?_, e1, ⟨?_, ?_⟩, ?_⟩
  · rw [ep]
    unfold respond
    dsimp only
    rw [e1]
  · have := Cross.C59_response e1
    rw [List.take_zero] at this
    exact responseFor_says h4 this
  · intro code ht
    exact e3 code (by rw [q1, q2]; exact ht)
  · rw [q3, q4] at e2
    omega

/-- The answer of the application is well-formed. -/
theorem waiting_built {sx px : Bool} {a : Addr} {evs : List (Env × Event)} {s : Srv} {tr : List (List Server.Obs)} {env : Env} {x : Client.XEnv}
    {is : List Client.Input} {req resp : Msg} {d : Bytes} (h : Waiting sx px a evs s tr env x is req resp d) : Server.Built resp := by
  have := h.app.handle { Server.Trans.zero with addr := a } (stamped x req)
  rw [h.handle _ rfl] at this
  exact this

theorem reply_core {sx px : Bool} {w : World} {h : HMsg} {req resp : Msg} {host port : Bytes} {a : Addr} {evs : List (Env × Event)} {s s1 : Srv}
    {tr : List (List Server.Obs)} {env : Env} {x : Client.XEnv} {is js : List Client.Input} {d : Bytes} {o : List Server.Obs} {e : Option Err}
    (hr : Relays sx px w h req resp host port a evs s s1 tr env x is js d o e) (ha : Apart sx h req a evs s env x) (peer : Peer) :
    Server.calls o = [(a, stamped x req)] ∧ ∃ r h' p, EndToEnd.Says r resp ∧ Is p host port ∧ process w peer h = ⟨some p, [(p, .plain req)], .ok h'⟩ ∧
      Cross.respToHttp w.env' r (bodyBuf none).1 0 = .ok h' ∧ Relayed resp h' ∧ (Http.text h').length < 4096 := by
  obtain ⟨-, h2, obs, r, h3, h4⟩ := EndToEnd.C109_answered_partial sx px a evs s s1 tr env x is js req resp d o e hr.waiting hr.step ha.zero ha.previous ha.next
  obtain ⟨h', p, g⟩ := relay_core hr.goes hr.memory hr.waiting.answer (waiting_built hr.waiting) hr.convertible (hr.client _ _ h3) h4 ha.method peer
  exact ⟨h2, r, h', p, h4, g⟩

/-- The HTTP client can read the text of an answer that was relayed. -/
theorem relayed_read {w : World} {r resp : Msg} {h' : HMsg} (hm : w.env'.Ample) (hsay : EndToEnd.Says r resp)
    (h5 : Cross.respToHttp w.env' r (bodyBuf none).1 0 = .ok h') (h6 : Relayed resp h') (h7 : (Http.text h').length < 4096)
    (ht : ∀ v ∈ Cross.values 4 resp, Http.Tidy (cstr v)) (hz : 0x00 ∉ resp.payload) :
    Http.parse w.env'.http (Http.text h') = .ok (h', (Http.text h').length) := by
  obtain ⟨q1, q2, q3, q4⟩ := hsay
  have hcon : Cross.contentOf ((bodyBuf none).1.take 0) r = resp.payload := by
    rw [List.take_zero]
    exact q4
  have hlen : (Http.text h').length < (List.replicate 4096 (0 : Byte)).length := by rw [List.length_replicate]; exact h7
  have hbody : resp.payload.length < 2 ^ 31 := by
    have h8 := h6.content.body
    unfold Cross.contentOf Cross.bodyOf at h8
    rw [if_pos rfl] at h8
    have h9 : (h'.body.getD []).length ≤ (Http.text h').length := by
      unfold Http.text
      rw [List.length_append]
      omega
    rw [h8] at h9
    omega
  obtain ⟨b, -, g2, g3⟩ := Cross.C59_text_partial (out := List.replicate 4096 0) (n := (List.replicate 4096 (0 : Byte)).length) hm
    (by rw [hcon]; exact hbody) h5
    (by
      unfold Cross.values
      rw [q3]
      exact ht) (by rw [hcon]; exact hz) (Nat.le_refl _) hlen []
  rw [List.append_nil, g2] at g3
  exact g3

/-- C115 for the requests of `Apart`. -/
theorem C115_answered_partial (sx px : Bool) (w : World) (peer : Peer) (h : HMsg) (req resp : Msg) (host port : Bytes) (a : Addr) (evs : List (Env × Event))
    (s s1 : Srv) (tr : List (List Server.Obs)) (env : Env) (x : Client.XEnv) (is js : List Client.Input) (d : Bytes) (o : List Server.Obs) (e : Option Err)
    (hr : Relays sx px w h req resp host port a evs s s1 tr env x is js d o e) (ha : Apart sx h req a evs s env x) :
    (Server.calls o = [(a, stamped x req)] ∧ SameRequest h req (stamped x req)) ∧
    ∃ h' p, Is p host port ∧ (process w peer h).calls = [(p, .plain req)] ∧ (process w peer h).res = .ok h' ∧ Relayed resp h' := by
  obtain ⟨h1, r, h', p, -, h3, h4, -, h6, -⟩ := reply_core hr ha peer
  have r58 := Cross.C58_request hr.goes.headers hr.goes.conv
  refine ⟨⟨h1, r58.method.1, r58.method.2, rfl, ?_⟩, h', p, h3, by rw [h4], by rw [h4], h6⟩
  rcases r58.body with ⟨-, h1, -⟩ | ⟨-, -, -, h1⟩
  · exact h1
  · cases h1

theorem rounds_core {sx px : Bool} : ∀ (l : List Round) (p : Peer), (∀ x ∈ l, x.OK sx px) →
    ∃ log, AllAnswered p (l.map (·.req)) (l.map (·.turn)) log ∧ log.length = l.length ∧
      ∀ (i : Nat) (x : Round) (e : Entry), l[i]? = some x → log[i]? = some e → e.out.length < 4096 ∧ Understood x.turn.w.env'.http x.resp e.out ∧ ∃ p, e.calls = [(p, .plain x.coap)]
  | [], p, _ => ⟨[], .nil, rfl, fun i x e h => by cases h⟩
  | x :: l, p, h => by
    have hx := h x (List.mem_cons_self ..)
    obtain ⟨host, port, a, evs, s, s1, tr, env, c, is, js, d, o, e, hr, ha⟩ := hx.relays
    obtain ⟨-, r, h', q, hsay, -, h4, h5, h6, h7⟩ := reply_core hr ha p
    obtain ⟨log, k1, k2, k3⟩ := rounds_core l (some q) (fun x hx => h x (List.mem_cons_of_mem _ hx))
    refine ⟨_ :: log, .cons h4 k1, by rw [List.length_cons, List.length_cons, k2], ?_⟩
    intro i y e' hy he
    cases i with
    | succ i => exact k3 i y e' hy he
    | zero =>
      rw [List.getElem?_cons_zero] at hy he
      cases hy
      cases he
      exact ⟨h7, ⟨h', relayed_read hr.memory hsay h5 h6 h7 hx.tags hx.content, h6⟩, q, rfl⟩

/-- C115 on a connection: an HTTP client that makes any number of requests, one after the other, gets for each the answer of the application, as one HTTP
response that it can read, and for each of them there is one request to a CoAP server. -/
theorem C115_connection_partial (sx px : Bool) {W : Nat} {c : Conn} {l : List Round} (hW : 2 * MAX + 1 < W) (hc : connNew W true true true = .ok c)
    (hl : ∀ x ∈ l, x.OK sx px) :
    ∃ log, conversation W c (l.map (fun x => (x.req.text, x.arrives, x.turn))) = .ok (log, .done) ∧ log.length = l.length ∧
      ∀ (i : Nat) (x : Round) (e : Entry), l[i]? = some x → log[i]? = some e →
        Understood x.turn.w.env'.http x.resp e.out ∧ ∃ p, e.calls = [(p, .plain x.coap)] := by
  obtain ⟨log, h1, h2, h3⟩ := rounds_core l none hl
  refine ⟨log, ?_, h2, fun i x e hx he => (h3 i x e hx he).2⟩
  have key := C77_answered_partial (l := l.map (fun x => (x.req, x.arrives, x.turn))) (log := log) hW hc
    (fun y hy => by
      obtain ⟨x, hx, rfl⟩ := List.mem_map.1 hy
      exact (hl x hx).fair)
    (by rw [List.map_map, List.map_map]; exact h1)
    (fun e he => by
      obtain ⟨i, hi, rfl⟩ := List.getElem_of_mem he
      have hlt := (h3 i (l[i]'(h2 ▸ hi)) log[i] (List.getElem?_eq_getElem _) (List.getElem?_eq_getElem hi)).1
      refine ⟨by show _ ≤ 32768; omega, ?_⟩
      intro hs
      simp only [IsSize, List.mem_cons, List.not_mem_nil, or_false] at hs
      omega)
  rw [List.map_map] at key
  exact key

/-! ## Examples -/

/-- The client of the proxy, before anything arrives. -/
def replyX (is : List Client.Input) : Client.XEnv := { endB.x with inputs := is }

/-- The world with this client, when the datagrams arrive. -/
def replyWorld (sx : Bool) (ds : List Bytes) : World := endWorld sx { endB with x := replyX (ds.map gets) }

theorem answer_convertible : Convertible exAnswer :=
  ⟨by decide, ⟨by decide, fun o ho => (by cases ho)⟩, fun o ho => (by cases ho), by decide⟩

theorem endReq_ordinary (sx : Bool) : EndToEnd.Ordinary sx endReq := by
  intro o ho
  simp only [endReq, exOps, List.mem_cons, List.not_mem_nil, or_false] at ho
  rcases ho with rfl | rfl | rfl <;> exact ⟨by decide, by decide, fun _ => by decide⟩

theorem replyWaiting (sx : Bool) {evs : List (Env × Event)} {s : Srv} {tr : List (List Server.Obs)} (hr : Server.Reach sx evs s tr)
    (ht : ¬ Server.Transfer s [1]) : Waiting sx false [1] evs s tr Server.exEnv (replyX []) [] endReq exAnswer endGram := by
  have hw : Client.exchange sx false { replyX [] with inputs := [] } endReq = .ok ([.sent endGram, .arm 2500], none) := by cases sx <;> decide +kernel
  obtain ⟨hb, hk⟩ := req_built (end_goes sx endB).headers (end_goes sx endB).conv
  refine ⟨hr, Server.exEnv_app, Server.exEnv_noFault, ht, hb, endReq_ordinary sx, hk, exAnswer_ok sx false, fun _ _ => rfl,
    Client.formats_iff.2 ⟨?_, by decide +kernel⟩, by decide, ⟨_, hw⟩, fun i hi => (by cases hi)⟩
  rcases Client.exchange_cases hb.type hw with ⟨-, e, he⟩ | ⟨-, -, o3, hs⟩
  · cases he
  · exact hs.send

theorem replyRelays_client {sx : Bool} {env : Env} {s s1 : Srv} {o : List Server.Obs} {e : Option Err}
    (_h : Server.step sx s env (.datagram [1] endGram) = .ok (s1, o, e)) :
    ∀ obs r, Client.exchange sx false { replyX [] with inputs := [] ++ ((toward [1] o).map gets ++ []) } endReq = .ok (obs, some r) →
      (replyWorld sx (toward [1] o)).exchange endReq = result r := by
  intro obs r hx
  rw [List.nil_append, List.append_nil] at hx
  show (match Client.exchange sx false (replyX ((toward [1] o).map gets)) endReq with | .ok (_, some r) => result r | _ => .err .EIO) = _
  rw [show Client.exchange sx false (replyX ((toward [1] o).map gets)) endReq = .ok (obs, some r) from hx]

theorem replyRelays {sx : Bool} {evs : List (Env × Event)} {s s1 : Srv} {tr : List (List Server.Obs)} {o : List Server.Obs} {e : Option Err}
    (hr : Server.Reach sx evs s tr) (ht : ¬ Server.Transfer s [1]) (h : Server.step sx s Server.exEnv (.datagram [1] endGram) = .ok (s1, o, e)) :
    Relays sx false (replyWorld sx (toward [1] o)) (request "GET" "coap://h:5683/a" none) endReq exAnswer (str "h") (str "5683") [1] evs s s1 tr
      Server.exEnv (replyX []) [] [] endGram o e := by
  exact ⟨end_goes sx _, Cross.ample_ample, replyWaiting sx hr ht, h, replyRelays_client h, answer_convertible⟩

/-- The hypotheses of the theorems are met, for the first request of a server, and for two requests of an HTTP client to such servers. -/
theorem replyExample : ∃ s1 o, Server.step true Server.exInit Server.exEnv (.datagram [1] endGram) = .ok (s1, o, none) ∧
    Relays true false (replyWorld true (toward [1] o)) (request "GET" "coap://h:5683/a" none) endReq exAnswer (str "h") (str "5683") [1] [] Server.exInit s1 []
      Server.exEnv (replyX []) [] [] endGram o none ∧
    Apart true (request "GET" "coap://h:5683/a" none) endReq [1] [] Server.exInit Server.exEnv (replyX []) := by
  have key : Server.test (Server.step true Server.exInit Server.exEnv (.datagram [1] endGram)) (fun x => decide (x.2.2 = none)) = true := by decide +kernel
  obtain ⟨⟨s1, o, e⟩, h1, key⟩ := Server.test_ok key
  replace key := of_decide_eq_true key
  dsimp only at key
  subst key
  refine ⟨s1, o, h1, replyRelays ⟨100, Server.exSep, Server.exPool, rfl⟩ end_idle h1, by decide, fun m' h => (by cases h), fun _ => by decide +kernel, by decide⟩

example : ∃ t : Turn, ∃ log, conversation (2 ^ 32) ⟨⟨0, BUF, MAX, List.replicate 4097 0⟩, ⟨0, BUF, MAX, List.replicate 4097 0⟩, none⟩
    [(get.text, List.replicate 40 (arrival 1), t), (get.text, List.replicate 40 (arrival 1), t)] = .ok (log, .done) ∧
    log.length = 2 ∧ ∀ e ∈ log, Understood Cross.ample.http exAnswer e.out := by
  obtain ⟨s1, o, -, h2, h3⟩ := replyExample
  have hok : Round.OK true false ⟨get, List.replicate 40 (arrival 1), turn (replyWorld true (toward [1] o)), endReq, exAnswer⟩ :=
    ⟨turn_fair (by decide), ⟨_, _, _, _, _, _, _, _, _, _, _, _, _, _, h2, h3⟩, fun v hv => (by cases hv), (by decide : (0 : Byte) ∉ exAnswer.payload)⟩
  obtain ⟨log, g1, g2, g3⟩ := C115_connection_partial true false (W := 2 ^ 32)
    (l := [⟨get, List.replicate 40 (arrival 1), turn (replyWorld true (toward [1] o)), endReq, exAnswer⟩,
      ⟨get, List.replicate 40 (arrival 1), turn (replyWorld true (toward [1] o)), endReq, exAnswer⟩]) (by decide) rfl
    (fun x hx => by
      simp only [List.mem_cons, List.not_mem_nil, or_false, or_self] at hx
      rw [hx]
      exact hok)
  refine ⟨_, log, g1, g2, fun e he => ?_⟩
  obtain ⟨i, hi, rfl⟩ := List.getElem_of_mem he
  have hi' : i < 2 := by rw [g2] at hi; exact hi
  match i, hi, hi' with
  | 0, hi, _ => exact (g3 0 _ _ rfl (List.getElem?_eq_getElem hi)).1
  | 1, hi, _ => exact (g3 1 _ _ rfl (List.getElem?_eq_getElem hi)).1

/-- A request from the proxy with the same id and another token. -/
def replyTwin : Bytes := [0x44, 1, 1, 5, 9, 9, 9, 9, 0xb1, 0x61]

/-- C115 is violated: the server takes a request whose id, which is random, is the one of the request before for its repetition. The application is not called,
and the HTTP client gets 502, although nothing failed. -/
theorem C115_violated (sx : Bool) : ¬ C115_statement sx ∧
    ∃ s1 s2 tr o h', Server.run sx Server.exInit [(Server.exEnv, .datagram [1] replyTwin)] = .ok (s1, tr) ∧
      Server.step sx s1 Server.exEnv (.datagram [1] endGram) = .ok (s2, o, none) ∧ Server.calls o = [] ∧
      (process (replyWorld sx (toward [1] o)) none (request "GET" "coap://h:5683/a" none)).res = .ok h' ∧ h'.start1 = str "502" := by
  have key : Server.test (Server.run sx Server.exInit [(Server.exEnv, .datagram [1] replyTwin)]) (fun x1 =>
      decide (x1.1.trans.all (fun t => decide (t.blk.type = .regular)) = true) &&
      Server.test (Server.step sx x1.1 Server.exEnv (.datagram [1] endGram)) (fun x2 =>
        decide (x2.2.2 = none) && decide (Server.calls x2.2.1 = []) &&
        decide (toward [1] x2.2.1 = [[0x64, 0x45, 1, 5, 9, 9, 9, 9, 0xff, 0x68, 0x69]]))) = true := by
    cases sx <;> decide +kernel
  obtain ⟨⟨s1, tr⟩, h1, key⟩ := Server.test_ok key
  rw [Bool.and_eq_true] at key
  obtain ⟨hreg, key⟩ := key
  obtain ⟨⟨s2, o, e⟩, h2, key⟩ := Server.test_ok key
  simp only [Bool.and_eq_true, decide_eq_true_eq] at key hreg
  obtain ⟨⟨rfl, hc⟩, hto⟩ := key
  have hbad : (process (replyWorld sx [[0x64, 0x45, 1, 5, 9, 9, 9, 9, 0xff, 0x68, 0x69]]) none (request "GET" "coap://h:5683/a" none)).res =
      .ok ⟨str "HTTP/1.1", str "502", str "Bad Gateway", [], none⟩ := by cases sx <;> decide +kernel
  refine ⟨fun h => ?_, s1, s2, tr, o, _, h1, h2, hc, by rw [hto]; exact hbad, rfl⟩
  have ht : ¬ Server.Transfer s1 [1] := by
    rintro ⟨t, ht, hn⟩
    obtain ⟨i, hi, -⟩ := Server.look_some ht
    have := List.all_eq_true.1 hreg t (List.mem_of_getElem? hi)
    exact hn (by simpa using this)
  have := (h false _ none _ _ _ _ _ _ _ _ _ _ _ _ _ _ _ _ _ (replyRelays ⟨100, Server.exSep, Server.exPool, h1⟩ ht h2)).1.1
  rw [hc] at this
  cases this

end FreeCoAP.Proxy
