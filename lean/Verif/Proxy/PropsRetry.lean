import Verif.Proxy.SpecRetry
import Verif.Proxy.PropsConverse

/-!
# C119: a body that is refused as too large is sent in blocks by the proxy
-/

namespace FreeCoAP.Proxy

open FreeCoAP.Http (HMsg RawMsg)
open FreeCoAP.Msg (Msg Op)
open FreeCoAP.Server (Addr Env Event Srv cpath bodiesOf)
open FreeCoAP.EndToEnd (toward gets Waiting Says ReadyUp ReadyBoth Accepts Replies Delivered Distinct courseUp lastId BlockRequest echo)
open FreeCoAP.Client (stamped BEnv)

/-- What a user expects of the proxy if the network delivers and the application refuses the body in one message: the application gets the body as a whole, once, in
blocks, and the HTTP client gets the answer of the application with its whole body. -/
def C119_statement (sx : Bool) : Prop :=
  ∀ (px : Bool) (w : World) (peer : Peer) (h : HMsg) (req resp : Msg) (host port : Bytes) (a : Addr) (evs : List (Env × Event)) (s s1 s2 : Srv)
    (tr : List (List Server.Obs)) (env : Env) (x : Client.XEnv) (is js : List Client.Input) (d : Bytes) (o : List Server.Obs) (e : Option Err)
    (mid : List (Env × Event)) (tr2 : List (List Server.Obs)) (b1 b2 room id k : Nat) (f : Bytes → Bytes), (k = 1 ∨ k = 4) →
    TooLarge sx px w h req resp host port a evs s s1 s2 tr env x is js d o e mid tr2 → Apart sx h req a evs s env x →
    ReadyBoth sx a (evs ++ (env, .datagram a d) :: mid) s2 (bare req) 32 32 b1 b2 room req.payload.length (bodyBuf (some req.payload)).1 (f req.payload) →
    Server.calls o = [(a, stamped x req)] ∧
    ∃ obs r, Client.exchange sx px { x with inputs := is ++ ((toward a o).map gets ++ js) } req = .ok (obs, some (.ok r)) ∧ Says r resp ∧
    ∀ s3 bs last seen, Again sx px w req r a (Replies (cpath 256 req.ops) req.codeDetail b1 b2 room id k f) s2 s3 (lastId sx a (evs ++ (env, .datagram a d) :: mid))
      Distinct bs last seen →
      seen.flatMap (bodiesOf a) = [(a, id, Cross.bodyOf h)] ∧
      ∃ h' p, Is p host port ∧ (process w peer h).calls = retrying p req ∧ (process w peer h).res = .ok h' ∧ Relayed (said k (f (Cross.bodyOf h))) h'

/-- Processing a request whose body is refused. -/
theorem process_retry {w : World} {peer : Peer} {h : HMsg} {req r : Msg} {host port : Bytes} {out : Out (Nat × Msg × Bytes)} (g : Goes w h req none host port)
    (hput : req.codeDetail = 2 ∨ req.codeDetail = 3) (hx : w.exchange req = .ok r) (hr : r.codeClass = 4 ∧ r.codeDetail = 13)
    (hk : w.blockwise (bare req) r 32 32 (bodyBuf (some req.payload)).1 req.payload.length false = out) :
    ∃ p, Is p host port ∧ process w peer h = ⟨some p, retrying p req, respond w (out >>= fun r => pure (r.2.1, r.2.2, r.1))⟩ := by
  obtain ⟨p, hp, ep⟩ := process_goes (peer := peer) g
  refine ⟨p, hp, ?_⟩
  have hlen : req.payload.length ≤ 8192 := by
    rcases (Cross.C58_request g.headers g.conv).body with ⟨h1, h2, -⟩ | ⟨-, -, -, hn⟩
    · rw [h2]; omega
    · cases hn
  have hkeep : keepPayload req (bodyBuf none).1 = .ok (bodyBuf (some req.payload)).1 := by
    unfold keepPayload bodyBuf
    dsimp only
    rw [List.length_replicate, if_pos (show req.payload.length ≤ BODY_LEN from hlen), List.drop_replicate]
  have hsend : exchangeSend w req (bodyBuf none).1 (bodyBuf none).2 =
      ⟨[.plain req, .blocks (bare req) 32 32 req.payload false], out >>= fun r => pure (r.2.1, r.2.2, r.1)⟩ := by
    unfold exchangeSend
    rw [show (bodyBuf none).2 = 0 from rfl, if_neg (by decide), hx]
    dsimp only
    rw [if_pos hr, hkeep]
    dsimp only
    unfold inBlocks
    rw [show ({ req with payload := [] } : Msg) = bare req from rfl, hk, show (bodyBuf (some req.payload)).1.take req.payload.length = req.payload from List.take_left ..]
    rfl
  have key : exchange w req (bodyBuf none).1 (bodyBuf none).2 =
      ⟨[.plain req, .blocks (bare req) 32 32 req.payload false], out >>= fun r => pure (r.2.1, r.2.2, r.1)⟩ := by
    unfold exchange
    rw [if_neg (by omega)]
    split
    · exact hsend
    · rw [if_pos (by omega)]
      exact hsend
  rw [ep, key]
  rfl

section

variable {sx px : Bool} {w : World} {h : HMsg} {req resp : Msg} {host port : Bytes} {a : Addr} {evs : List (Env × Event)} {s s1 s2 s3 : Srv}
  {tr : List (List Server.Obs)} {env : Env} {x : Client.XEnv} {is js : List Client.Input} {d : Bytes} {o : List Server.Obs} {e : Option Err}
  {mid : List (Env × Event)} {tr2 : List (List Server.Obs)} {b1 b2 room id k : Nat} {f : Bytes → Bytes} {bs : List BEnv} {last : Option Nat}
  {seen : List (List Server.Obs)}

theorem tooLarge_body (hf : TooLarge sx px w h req resp host port a evs s s1 s2 tr env x is js d o e mid tr2) : req.payload = Cross.bodyOf h := by
  rcases (Cross.C58_request hf.goes.headers hf.goes.conv).body with ⟨-, h2, -⟩ | ⟨-, -, -, hn⟩
  · exact h2
  · cases hn

/-- The refusal reaches the client. -/
theorem tooLarge_core (hf : TooLarge sx px w h req resp host port a evs s s1 s2 tr env x is js d o e mid tr2) (ha : Apart sx h req a evs s env x) :
    Server.calls o = [(a, stamped x req)] ∧
    ∃ obs r, Client.exchange sx px { x with inputs := is ++ ((toward a o).map gets ++ js) } req = .ok (obs, some (.ok r)) ∧ Says r resp ∧
      w.exchange req = .ok r ∧ r.codeClass = 4 ∧ r.codeDetail = 13 := by
  obtain ⟨-, h2, obs, r, h3, h4⟩ := EndToEnd.C109_answered_partial sx px a evs s s1 tr env x is js req resp d o e hf.waiting hf.step ha.zero ha.previous ha.next
  exact ⟨h2, obs, r, h3, h4, hf.client _ _ h3, h4.1.trans hf.refused.1, h4.2.1.trans hf.refused.2⟩

/-- The rest, if the application answers without a body. -/
theorem again_taken {r : Msg} {evs' : List (Env × Event)} (hg : Goes w h req none host port) (hm : w.env'.Ample) (hk : k = 1 ∨ k = 4) (hx : w.exchange req = .ok r)
    (hr : r.codeClass = 4 ∧ r.codeDetail = 13)
    (hR : ReadyUp sx a evs' s2 (bare req) 32 32 b1 room req.payload.length (bodyBuf (some req.payload)).1)
    (ht : Again sx px w req r a (Accepts (cpath 256 req.ops) req.codeDetail b1 room id k) s2 s3 (lastId sx a evs') Distinct bs last seen) (peer : Peer) :
    seen.flatMap (bodiesOf a) = [(a, id, req.payload)] ∧ ∃ h' p, Is p host port ∧ process w peer h = ⟨some p, retrying p req, .ok h'⟩ ∧
      Relayed (taken k) h' ∧ (Http.text h').length < 4096 ∧ Http.parse w.env'.http (Http.text h') = .ok (h', (Http.text h').length) := by
  obtain ⟨res, y, k1, k2, k3⟩ := ht.returns
  obtain ⟨p, hp, ep⟩ := process_retry (peer := peer) hg hR.put hx hr k3
  obtain ⟨hall, rp, hc, ho⟩ := send_outcome hk hR (List.take_left ..) ht.turns k1 k2
  obtain ⟨h', e1, e2, e3, e4⟩ := confirm_relayed hm hk hc (bodyBuf (some req.payload)).1
  refine ⟨hall, h', p, hp, ?_, e2, e3, e4⟩
  rw [ep, ho]
  show Processed.mk (some p) _ (respond w (.ok (rp, (bodyBuf (some req.payload)).1, 0))) = _
  unfold respond
  dsimp only
  rw [e1]

/-- The rest, if the application answers with a body. -/
theorem again_said {r : Msg} {evs' : List (Env × Event)} (hg : Goes w h req none host port) (hm : w.env'.Ample) (hk : k = 1 ∨ k = 4) (hx : w.exchange req = .ok r)
    (hr : r.codeClass = 4 ∧ r.codeDetail = 13)
    (hR : ReadyBoth sx a evs' s2 (bare req) 32 32 b1 b2 room req.payload.length (bodyBuf (some req.payload)).1 (f req.payload))
    (ht : Again sx px w req r a (Replies (cpath 256 req.ops) req.codeDetail b1 b2 room id k f) s2 s3 (lastId sx a evs') Distinct bs last seen) (peer : Peer) :
    seen.flatMap (bodiesOf a) = [(a, id, req.payload)] ∧ ∃ p, Is p host port ∧
      (((f req.payload).length ≤ req.payload.length ∧ ∃ rp rest, process w peer h = ⟨some p, retrying p req, .ok (whole (f req.payload))⟩ ∧
        Cross.respToHttp w.env' rp (f req.payload ++ rest) (f req.payload).length = .ok (whole (f req.payload)) ∧ (∀ o ∈ rp.ops, o.num = 23 ∨ o.num = 27) ∧
        Relayed (said k (f req.payload)) (whole (f req.payload))) ∨
       (req.payload.length < (f req.payload).length ∧ process w peer h = ⟨some p, retrying p req, errorResp w Cross.emptyHttp 501⟩)) := by
  obtain ⟨res, y, k1, k2, k3⟩ := ht.returns
  obtain ⟨p, hp, ep⟩ := process_retry (peer := peer) hg hR.up.put hx hr k3
  obtain ⟨hall, ⟨hle, rp, c1, c2, hops, ho⟩ | ⟨hlong, ho⟩⟩ := converse_outcome hk hR (List.take_left ..) ht.turns k1 k2
  · obtain ⟨e1, e2, e3⟩ := respond_whole (rest := (bodyBuf (some req.payload)).1.drop (f req.payload).length) hm hk c1 c2 hops hR.some
    refine ⟨hall, p, hp, Or.inl ⟨hle, rp, _, ?_, e2, fun o ho => (hops o ho).1, e3⟩⟩
    rw [ep, ho]
    exact congrArg _ e1
  · refine ⟨hall, p, hp, Or.inr ⟨hlong, ?_⟩⟩
    rw [ep, ho]
    rfl

end

/-- C119 if the answer of the application is not longer than the body. -/
theorem C119_answered_partial (sx px : Bool) (w : World) (peer : Peer) (h : HMsg) (req resp : Msg) (host port : Bytes) (a : Addr) (evs : List (Env × Event))
    (s s1 s2 : Srv) (tr : List (List Server.Obs)) (env : Env) (x : Client.XEnv) (is js : List Client.Input) (d : Bytes) (o : List Server.Obs) (e : Option Err)
    (mid : List (Env × Event)) (tr2 : List (List Server.Obs)) (b1 b2 room id k : Nat) (f : Bytes → Bytes) (hk : k = 1 ∨ k = 4)
    (hf : TooLarge sx px w h req resp host port a evs s s1 s2 tr env x is js d o e mid tr2) (ha : Apart sx h req a evs s env x)
    (hR : ReadyBoth sx a (evs ++ (env, .datagram a d) :: mid) s2 (bare req) 32 32 b1 b2 room req.payload.length (bodyBuf (some req.payload)).1 (f req.payload))
    (hlen : (f (Cross.bodyOf h)).length ≤ (Cross.bodyOf h).length) :
    Server.calls o = [(a, stamped x req)] ∧
    ∃ obs r, Client.exchange sx px { x with inputs := is ++ ((toward a o).map gets ++ js) } req = .ok (obs, some (.ok r)) ∧ Says r resp ∧
    ∀ s3 bs last seen, Again sx px w req r a (Replies (cpath 256 req.ops) req.codeDetail b1 b2 room id k f) s2 s3 (lastId sx a (evs ++ (env, .datagram a d) :: mid))
      Distinct bs last seen →
      seen.flatMap (bodiesOf a) = [(a, id, Cross.bodyOf h)] ∧
      ∃ h' p, Is p host port ∧ (process w peer h).calls = retrying p req ∧ (process w peer h).res = .ok h' ∧ Relayed (said k (f (Cross.bodyOf h))) h' := by
  have hb := tooLarge_body hf
  rw [← hb] at hlen ⊢
  obtain ⟨h1, obs, r, h2, h3, h4, h5⟩ := tooLarge_core hf ha
  refine ⟨h1, obs, r, h2, h3, fun s3 bs last seen ht => ?_⟩
  obtain ⟨g1, p, hp, ⟨-, rp, rest, g2, -, -, g3⟩ | ⟨hn, -⟩⟩ := again_said hf.goes hf.memory hk h4 h5 hR ht peer
  · exact ⟨g1, _, p, hp, by rw [g2], by rw [g2], g3⟩
  · omega

/-- C119 if the application answers without a body: the HTTP client gets its answer. -/
theorem C119_taken_partial (sx px : Bool) (w : World) (peer : Peer) (h : HMsg) (req resp : Msg) (host port : Bytes) (a : Addr) (evs : List (Env × Event))
    (s s1 s2 : Srv) (tr : List (List Server.Obs)) (env : Env) (x : Client.XEnv) (is js : List Client.Input) (d : Bytes) (o : List Server.Obs) (e : Option Err)
    (mid : List (Env × Event)) (tr2 : List (List Server.Obs)) (b1 room id k : Nat) (hk : k = 1 ∨ k = 4)
    (hf : TooLarge sx px w h req resp host port a evs s s1 s2 tr env x is js d o e mid tr2) (ha : Apart sx h req a evs s env x)
    (hR : ReadyUp sx a (evs ++ (env, .datagram a d) :: mid) s2 (bare req) 32 32 b1 room req.payload.length (bodyBuf (some req.payload)).1) :
    Server.calls o = [(a, stamped x req)] ∧
    ∃ obs r, Client.exchange sx px { x with inputs := is ++ ((toward a o).map gets ++ js) } req = .ok (obs, some (.ok r)) ∧ Says r resp ∧
    ∀ s3 bs last seen, Again sx px w req r a (Accepts (cpath 256 req.ops) req.codeDetail b1 room id k) s2 s3 (lastId sx a (evs ++ (env, .datagram a d) :: mid))
      Distinct bs last seen →
      seen.flatMap (bodiesOf a) = [(a, id, Cross.bodyOf h)] ∧
      ∃ h' p, Is p host port ∧ (process w peer h).calls = retrying p req ∧ (process w peer h).res = .ok h' ∧ Relayed (taken k) h' := by
  rw [← tooLarge_body hf]
  obtain ⟨h1, obs, r, h2, h3, h4, h5⟩ := tooLarge_core hf ha
  refine ⟨h1, obs, r, h2, h3, fun s3 bs last seen ht => ?_⟩
  obtain ⟨g1, h', p, hp, g2, g3, -⟩ := again_taken hf.goes hf.memory hk h4 h5 hR ht peer
  exact ⟨g1, h', p, hp, by rw [g2], by rw [g2], g3⟩

/-- C119: an answer that is longer than the body of the request never reaches the HTTP client. It gets the status 501, although the application has taken the body. -/
theorem C119_too_long (sx px : Bool) (w : World) (peer : Peer) (h : HMsg) (req resp : Msg) (host port : Bytes) (a : Addr) (evs : List (Env × Event))
    (s s1 s2 : Srv) (tr : List (List Server.Obs)) (env : Env) (x : Client.XEnv) (is js : List Client.Input) (d : Bytes) (o : List Server.Obs) (e : Option Err)
    (mid : List (Env × Event)) (tr2 : List (List Server.Obs)) (b1 b2 room id k : Nat) (f : Bytes → Bytes) (hk : k = 1 ∨ k = 4)
    (hf : TooLarge sx px w h req resp host port a evs s s1 s2 tr env x is js d o e mid tr2) (ha : Apart sx h req a evs s env x)
    (hR : ReadyBoth sx a (evs ++ (env, .datagram a d) :: mid) s2 (bare req) 32 32 b1 b2 room req.payload.length (bodyBuf (some req.payload)).1 (f req.payload))
    (hlen : (Cross.bodyOf h).length < (f (Cross.bodyOf h)).length) :
    ∃ obs r, Client.exchange sx px { x with inputs := is ++ ((toward a o).map gets ++ js) } req = .ok (obs, some (.ok r)) ∧
    ∀ s3 bs last seen, Again sx px w req r a (Replies (cpath 256 req.ops) req.codeDetail b1 b2 room id k f) s2 s3 (lastId sx a (evs ++ (env, .datagram a d) :: mid))
      Distinct bs last seen →
      seen.flatMap (bodiesOf a) = [(a, id, Cross.bodyOf h)] ∧ ∃ h', (process w peer h).res = .ok h' ∧ h'.start1 = str "501" ∧ h'.body = none := by
  have hb := tooLarge_body hf
  rw [← hb] at hlen ⊢
  obtain ⟨-, obs, r, h2, -, h4, h5⟩ := tooLarge_core hf ha
  refine ⟨obs, r, h2, fun s3 bs last seen ht => ?_⟩
  obtain ⟨g1, p, hp, ⟨hn, -⟩ | ⟨-, g2⟩⟩ := again_said hf.goes hf.memory hk h4 h5 hR ht peer
  · omega
  · have he : errorResp w Cross.emptyHttp 501 = .ok { Cross.emptyHttp with start0 := str "HTTP/1.1", start1 := str "501", start2 := Cross.respText 501 } := by
      unfold errorResp Cross.setStart Cross.strdup
      rw [if_pos (hf.memory.2.1 _), if_pos (hf.memory.2.1 _), if_pos (hf.memory.2.1 _)]
      rfl
    rw [he] at g2
    exact ⟨g1, _, by rw [g2], rfl, rfl⟩

/-- The rounds of C119 are answered. -/
theorem retried_answered {sx px : Bool} {x : Round} (h : x.Retried sx px) : x.Answered := by
  intro p
  obtain ⟨resp, host, port, a, evs, s, s1, s2, tr, env, c, is, js, d, o, e, mid, tr2, hf, ha, b1, room, id, k, hk, hcases⟩ := h.retries
  obtain ⟨-, obs, r, h2, -, h4, h5⟩ := tooLarge_core hf ha
  rcases hcases with ⟨hR, hr, hag⟩ | ⟨b2, f, hR, hlen, hz, hr, hag⟩
  · obtain ⟨s3, bs, last, seen, ht⟩ := hag obs r h2
    obtain ⟨-, h', q, -, g3, g4, g5, g6⟩ := again_taken hf.goes hf.memory hk h4 h5 hR ht p
    refine ⟨_, _, h', g3, by show _ ≤ 32768; omega, fun hs => ?_, h', g6, by rw [hr]; exact g4⟩
    simp only [IsSize, List.mem_cons, List.not_mem_nil, or_false] at hs
    omega
  · obtain ⟨s3, bs, last, seen, ht⟩ := hag obs r h2
    obtain ⟨-, q, -, ⟨-, rp, rest, g3, g4, g5, g6⟩ | ⟨hn, -⟩⟩ := again_said hf.goes hf.memory hk h4 h5 hR ht p
    · have hb : x.coap.payload.length ≤ 1024 := by
        rcases (Cross.C58_request hf.goes.headers hf.goes.conv).body with ⟨h1, h2, -⟩ | ⟨-, -, -, hn⟩
        · rw [h2]; exact h1
        · cases hn
      obtain ⟨w1, w2⟩ := whole_fits (src := f x.coap.payload) (by omega)
      refine ⟨_, _, _, g3, by show _ ≤ 32768; omega, w2 (by omega) (by omega), whole (f x.coap.payload), ?_, by rw [hr]; exact g6⟩
      exact whole_read hf.memory (by omega) hz g4 g5 (fun hn => absurd hn hR.some)
    · omega

/-- C119 on a connection: an HTTP client that makes any number of requests, one after the other, some of them with bodies that are refused in one message and sent
in blocks then, gets for each the answer of the application, as one HTTP response that it can read. -/
theorem C119_connection_partial (sx px : Bool) {W : Nat} {c : Conn} {l : List Round} (hW : 2 * MAX + 1 < W) (hc : connNew W true true true = .ok c)
    (hl : ∀ x ∈ l, x.OK sx px ∨ (∃ src, x.InBlocks sx px src) ∨ x.Sent sx px ∨ x.Conversed sx px ∨ x.Retried sx px) :
    ∃ log, conversation W c (l.map (fun x => (x.req.text, x.arrives, x.turn))) = .ok (log, .done) ∧ log.length = l.length ∧
      ∀ (i : Nat) (x : Round) (e : Entry), l[i]? = some x → log[i]? = some e → Understood x.turn.w.env'.http x.resp e.out := by
  refine connection_answered hW hc (fun x hx => ?_)
  rcases hl x hx with h | ⟨src, h⟩ | h | h | h
  · exact ⟨h.fair, mixed_answered (Or.inl h)⟩
  · exact ⟨h.fair, mixed_answered (Or.inr ⟨src, h⟩)⟩
  · exact ⟨h.fair, sent_answered h⟩
  · exact ⟨h.fair, conversed_answered h⟩
  · exact ⟨h.fair, retried_answered h⟩

/-! ## Examples -/

/-- The body, of 40 bytes, the request of the HTTP client, the message that the proxy makes of it, and its datagram. -/
def retryBody : Bytes := List.replicate 40 0x61
def retryPut : RawMsg := ⟨str "PUT", str "coap://h:5683/a", str "HTTP/1.1", [⟨str "Content-Length", str " 40"⟩], .plain retryBody⟩
def retryReq : Msg := { sendReq with payload := retryBody }
def retryGram : Bytes := [68, 3, 1, 5, 1, 2, 3, 5, 49, 104, 68, 53, 54, 56, 51, 65, 97, 255] ++ retryBody

/-- The refusal. -/
def refusal : Msg := { Msg.create with codeClass := 4, codeDetail := 13 }

/-- An application that refuses requests without a Block1 option. -/
def picky (env : Env) : Env := { env with handle := fun t m => if m.ops.any (fun o => o.num == 27) then env.handle t m else .reply refusal none }

/-- The world of the proxy, when these datagrams arrive in the first exchange and the call of the library has these turns. -/
def retryWorld (sx : Bool) (ds : List Bytes) (bs : List BEnv) : World := { sendWorld sx bs with exchange := (replyWorld sx ds).exchange }

theorem retry_goes (sx : Bool) (ds : List Bytes) (bs : List BEnv) : Goes (retryWorld sx ds bs) retryPut.msg retryReq none (str "h") (str "5683") :=
  ⟨by show Cross.reqToCoap Cross.ample BODY_LEN _ = _; decide +kernel,
    (by
      intro x hx
      rw [show retryPut.msg.headers = [⟨str "Content-Length", str "40"⟩] by decide +kernel] at hx
      rw [List.mem_singleton.1 hx]
      decide),
    ⟨_, exParse, rfl, rfl⟩, rfl, fun _ => rfl⟩

theorem picky_app {env : Env} (h : Server.AppOK env) : Server.AppOK (picky env) := by
  refine ⟨fun t m => ?_, h.rx⟩
  show Server.Built (if m.ops.any (fun o => o.num == 27) then env.handle t m else .reply refusal none).resp
  split
  · exact h.handle t m
  · exact ⟨rfl, by decide, by decide, by decide, by decide, by decide, List.Pairwise.nil⟩

theorem picky_safe {env : Env} (h : Server.AppSafe env) : Server.AppSafe (picky env) := by
  refine ⟨fun t m => ?_, fun t m resp b1 b2 body len rx he => ?_, h.rx, h.rxBody, h.rxEnd⟩
  · show Server.Plain (if m.ops.any (fun o => o.num == 27) then env.handle t m else .reply refusal none).resp
    split
    · exact h.handle t m
    · exact Server.plain_nil rfl
  · change (if m.ops.any (fun o => o.num == 27) then env.handle t m else .reply refusal none) = _ at he
    split at he
    · exact h.body t m resp b1 b2 body len rx he
    · cases he

theorem picky_replies {uri : Bytes} {method b1 b2 room id d : Nat} {f : Bytes → Bytes} {env : Env} (h : Replies uri method b1 b2 room id d f env) :
    Replies uri method b1 b2 room id d f (picky env) := by
  obtain ⟨⟨resp, body, len, h1, h2⟩, h3⟩ := h
  refine ⟨⟨resp, body, len, fun t m k1 k2 k3 => ?_, h2⟩, h3⟩
  have k4 := k3
  obtain ⟨o, ho, hn⟩ := k4
  show (if m.ops.any (fun o => o.num == 27) then env.handle t m else .reply refusal none) = _
  have hany : m.ops.any (fun o => o.num == 27) = true := List.any_eq_true.2 ⟨o, ho, beq_iff_eq.2 hn⟩
  rw [if_pos hany]
  exact h1 t m k1 k2 k3

theorem refusal_ok (sx px : Bool) : EndToEnd.Answerable sx px refusal := by
  refine ⟨Or.inr (Or.inl rfl), fun o ho => (by cases ho), fun o ho => (by cases ho), ?_⟩
  rintro m ⟨h1, h2, h3, h4⟩ hb hrst hl
  refine EndToEnd.small_fits hl ⟨fun h => ?_, fun h => absurd h hrst⟩ (by rw [h3]; decide) (fun o ho => ?_) (by rw [h4]; decide)
  · have : m.codeClass = 4 := h1
    omega
  · rw [h3] at ho
    cases ho

theorem retryWaiting (sx : Bool) {env : Env} (hok : Server.AppOK env) (hf : Server.NoFault env)
    (hh : ∀ t : Server.Trans, t.addr = [1] → env.handle t (stamped (replyX []) retryReq) = .reply refusal none) :
    Waiting sx false [1] [] sendInit [] env (replyX []) [] retryReq refusal retryGram := by
  have hw : Client.exchange sx false { replyX [] with inputs := [] } retryReq = .ok ([.sent retryGram, .arm 2500], none) := by cases sx <;> decide +kernel
  obtain ⟨hb, hk⟩ := req_built (retry_goes sx [] []).headers (retry_goes sx [] []).conv
  refine ⟨⟨100, Server.exSep, sendPool, rfl⟩, hok, hf, EndToEnd.idle_of (by decide +kernel) [1], hb, endReq_ordinary sx, hk, refusal_ok sx false, hh,
    Client.formats_iff.2 ⟨?_, by decide +kernel⟩, by decide, ⟨_, hw⟩, fun i hi => (by cases hi)⟩
  rcases Client.exchange_cases hb.type hw with ⟨-, e, he⟩ | ⟨-, -, o3, hs⟩
  · cases he
  · exact hs.send

theorem retryReady {sx : Bool} {evs : List (Env × Event)} {s : Srv} {tr : List (List Server.Obs)} (h : Server.run sx sendInit evs = .ok (s, tr))
    (hi : ¬ Server.Transfer s [1]) {out : Bytes} (ho : out ≠ []) (hn : out.length < 2 ^ 20 * 32) :
    ReadyBoth sx [1] evs s (bare retryReq) 32 32 64 64 1100 retryReq.payload.length (bodyBuf (some retryReq.payload)).1 out := by
  have hu := sendReady h hi
  exact ⟨⟨hu.server, hi, hu.built, hu.plain, hu.ordinary, hu.known, hu.put, hu.offered, hu.asked, hu.taken, by decide, by decide +kernel, by decide, by decide⟩,
    ⟨2, by decide, rfl⟩, ho, hn⟩

/-- The hypotheses of the theorems are met for applications that refuse the body in one message and take it in blocks. -/
theorem retryExample (sx : Bool) (env : Env) (f : Bytes → Bytes) (hf : Server.NoFault env) (hs : Server.AppSafe env) (hok : Server.AppOK env)
    (happ : Replies (cpath 256 sendReq.ops) 3 64 64 1100 1 4 f env) (h : f retryBody ≠ []) (hn : (f retryBody).length < 2 ^ 20 * 32)
    (hh : ∀ t : Server.Trans, t.addr = [1] → env.handle t (stamped (replyX []) retryReq) = .reply refusal none)
    (hstep : Server.test (Server.step sx sendInit env (.datagram [1] retryGram)) (fun y => y.1.trans.all (fun t => decide (t.blk.type = .regular))) = true)
    (hid : Server.nextMsgId sendInit.msgId env.idRand ≠ (stamped (replyX []) retryReq).msgId) :
    ∃ w s1 o e r s3 bs last seen obs,
      TooLarge sx false w retryPut.msg retryReq refusal (str "h") (str "5683") [1] [] sendInit s1 s1 [] env (replyX []) [] [] retryGram o e [] [] ∧
      Apart sx retryPut.msg retryReq [1] [] sendInit env (replyX []) ∧
      ReadyBoth sx [1] [(env, .datagram [1] retryGram)] s1 (bare retryReq) 32 32 64 64 1100 retryReq.payload.length (bodyBuf (some retryReq.payload)).1
        (f retryReq.payload) ∧
      Client.exchange sx false { replyX [] with inputs := [] ++ ((toward [1] o).map gets ++ []) } retryReq = .ok (obs, some (.ok r)) ∧
      Again sx false w retryReq r [1] (Replies (cpath 256 retryReq.ops) retryReq.codeDetail 64 64 1100 1 4 f) s1 s3
        (lastId sx [1] [(env, .datagram [1] retryGram)]) Distinct bs last seen ∧ w.env' = Cross.ample := by
  obtain ⟨⟨s1, o, e⟩, h1, key⟩ := Server.test_ok hstep
  have hw := retryWaiting sx hok hf hh
  have hidle := EndToEnd.idle_of key [1]
  have ha : Apart sx retryPut.msg retryReq [1] [] sendInit env (replyX []) := ⟨by decide, fun m' h => (by cases h), fun _ => hid, by decide⟩
  obtain ⟨rfl, -, obs, r, h3, -⟩ := EndToEnd.C109_answered_partial sx false [1] [] sendInit s1 [] env (replyX []) [] [] retryReq refusal retryGram o e hw h1 ha.zero
    ha.previous ha.next
  have hrun : Server.run sx sendInit [(env, .datagram [1] retryGram)] = .ok (s1, [o]) := by
    rw [Server.run, h1]
    rfl
  have hR := retryReady hrun hidle h hn
  have htake : (bodyBuf (some retryReq.payload)).1.take retryReq.payload.length = retryReq.payload := List.take_left ..
  have hharm : Server.Harmless sx retryGram := Server.harmless_of (by cases sx <;> decide +kernel)
  obtain ⟨bs, s3, last, seen, hl, hd⟩ := EndToEnd.C112_possible sx false [1] [(env, .datagram [1] retryGram)] s1 (bare retryReq) r 32 32 64 64 1100
    retryReq.payload.length 1 4 f _ (Or.inr rfl) (by rw [htake]; exact hR)
    (fun y hy => by
      rw [List.mem_singleton.1 hy]
      exact ⟨hs, fun a d he => by cases he; exact hharm⟩)
    env hf hs happ sendB (Or.inl rfl) rfl rfl rfl rfl rfl rfl converse_fits _ (Nat.le_refl _)
  obtain ⟨res, k1, k2⟩ := converse_returns (Or.inr rfl) hR htake hd
  have k3 := k2.2 (by rw [hl, htake]; exact Nat.le_refl _)
  cases hr : res.ret with
  | none => exact absurd hr k3
  | some y =>
    refine ⟨retryWorld sx (toward [1] o) bs, s1, o, none, r, s3, bs, last, seen, obs,
      ⟨retry_goes sx _ bs, Cross.ample_ample, hw, ⟨rfl, rfl⟩, h1, fun obs' r' hx => ?_, rfl⟩, ha, hR, h3, ⟨hd, res, y, k1, hr, ?_⟩, rfl⟩
    · rw [List.nil_append, List.append_nil] at hx
      show (match Client.exchange sx false (replyX ((toward [1] o).map gets)) retryReq with | .ok (_, some r) => result r | _ => .err .EIO) = _
      rw [show Client.exchange sx false (replyX ((toward [1] o).map gets)) retryReq = .ok (obs', some r') from hx]
    · exact sendResult_of k1 hr

theorem fullEnv_app : Server.AppOK fullEnv :=
  ⟨fun _ _ => EndToEnd.created_built, fun _ _ _ _ _ h => ⟨h.ver, h.type, by show 2 < 8; decide, by show 4 < 32; decide, h.msgId, h.token, h.sorted⟩⟩

/-- C119 is violated: the proxy passes the length of the body, which is also the limit of the answer. If the application answers a body of 40 bytes with 1100 bytes,
the HTTP client gets the status 501. -/
theorem C119_violated (sx : Bool) : ¬ C119_statement sx := by
  intro h
  obtain ⟨w, s1, o, e, r, s3, bs, last, seen, obs, h1, h2, h3, h4, h5, -⟩ := retryExample sx (picky fullEnv) _
    ⟨⟨rfl, rfl, rfl⟩, rfl, rfl, rfl, rfl, rfl, rfl, rfl, rfl, rfl, rfl⟩ (picky_safe fullEnv_safe) (picky_app fullEnv_app) (picky_replies fullReplies)
    (fun hn => absurd (congrArg List.length hn) (by rw [List.length_replicate]; decide)) (by rw [List.length_replicate]; decide) (fun _ _ => rfl)
    (by cases sx <;> decide +kernel) (by decide +kernel)
  have hb : (Cross.bodyOf retryPut.msg).length = 40 := by
    rw [← tooLarge_body h1]
    exact List.length_replicate
  obtain ⟨obs', r', k1, k2⟩ := C119_too_long _ _ _ none _ _ _ _ _ _ _ _ _ _ _ _ _ _ _ _ _ _ _ _ _ _ _ _ _ (fun _ => List.replicate 1100 7) (Or.inr rfl) h1 h2 h3
    (by rw [hb, List.length_replicate]; decide)
  rw [h4] at k1
  cases k1
  obtain ⟨-, h', k3, k4, -⟩ := k2 _ _ _ _ h5
  obtain ⟨-, obs', r', j1, -, j2⟩ := h _ _ none _ _ _ _ _ _ _ _ _ _ _ _ _ _ _ _ _ _ _ _ _ _ _ _ _ (fun _ => List.replicate 1100 7) (Or.inr rfl) h1 h2 h3
  rw [h4] at j1
  cases j1
  obtain ⟨-, h'', p', -, -, j3, j4⟩ := j2 _ _ _ _ h5
  rw [k3] at j3
  cases j3
  have := j4.status "200" (by show ((2, 4), "200") ∈ Cross.table; decide)
  rw [k4] at this
  exact absurd this (by decide)

theorem retryPut_wf : retryPut.WF := by
  refine ⟨by decide, by decide, by decide, ?_, ⟨?_, by decide, by decide +kernel, ?_⟩, by decide +kernel⟩
  · intro h hh
    rw [List.mem_singleton.1 (show h ∈ [_] from hh)]
    exact ⟨by decide, by decide, by decide⟩
  · rintro ⟨h, hh, hn, -⟩
    rw [List.mem_singleton.1 (show h ∈ [_] from hh)] at hn
    revert hn
    decide +kernel
  · exact ⟨[], _, [], rfl, by decide +kernel, fun h hh => (by cases hh), by decide +kernel, by decide +kernel, by decide +kernel⟩

theorem retry_fair (w : World) : Fair retryPut (List.replicate 1200 (arrival 1)) (turn w) := by
  have hl : retryPut.text.length = 92 := by decide +kernel
  refine ⟨retryPut_wf, by rw [hl]; decide, fun e he => ?_, by rw [hl, List.length_replicate]; decide, fun _ => heap_sized, fun i n h => ?_, fun x hx => ?_, ?_⟩
  · rw [List.eq_of_mem_replicate he]
    exact arrival_ok (by decide)
  · cases h
  · exact ⟨MAX - 1, List.eq_of_mem_replicate hx⟩
  · unfold turn
    rw [List.length_replicate]
    exact Nat.le_refl _

theorem exEcho_app (b1 b2 : Nat) : Server.AppOK (EndToEnd.exEcho b1 b2) :=
  ⟨fun _ _ => EndToEnd.created_built, fun _ _ _ _ _ h => ⟨h.ver, h.type, by show 2 < 8; decide, by show 4 < 32; decide, h.msgId, h.token, h.sorted⟩⟩

/-- An HTTP client sends a body that is refused in one message, and gets the answer to the body. -/
example : ∃ t : Turn, ∃ e, conversation (2 ^ 32) ⟨⟨0, BUF, MAX, List.replicate 4097 0⟩, ⟨0, BUF, MAX, List.replicate 4097 0⟩, none⟩
    [(retryPut.text, List.replicate 1200 (arrival 1), t)] = .ok ([e], .done) ∧ Understood Cross.ample.http (said 4 (List.replicate 40 0x62)) e.out := by
  have hecho : echo retryBody = List.replicate 40 0x62 := List.map_replicate
  obtain ⟨w, s1, o, e, r, s3, bs, last, seen, obs, h1, h2, h3, h4, h5, h6⟩ := retryExample true (picky (EndToEnd.exEcho 64 64)) echo
    ⟨⟨rfl, rfl, rfl⟩, rfl, rfl, rfl, rfl, rfl, rfl, rfl, rfl, rfl, rfl⟩ (picky_safe (EndToEnd.exEcho_safe 64 64)) (picky_app (exEcho_app 64 64))
    (picky_replies (EndToEnd.exEcho_replies ..)) (by decide) (by decide) (fun _ _ => rfl) (by decide +kernel) (by decide +kernel)
  have hok : Round.Retried true false ⟨retryPut, List.replicate 1200 (arrival 1), turn w, retryReq, said 4 (echo retryBody)⟩ := by
    refine ⟨retry_fair _, ⟨_, _, _, _, _, _, _, _, _, _, _, _, _, _, _, _, _, _, h1, h2, 64, 1100, 1, 4, Or.inr rfl, Or.inr ⟨64, echo, h3, (by decide : (echo retryBody).length ≤ retryBody.length),
      (by decide : (0 : Byte) ∉ echo retryBody), rfl, ?_⟩⟩⟩
    intro obs' r' hx
    have := h4.symm.trans hx
    cases this
    exact ⟨_, _, _, _, h5⟩
  obtain ⟨log, g1, g2, g3⟩ := C119_connection_partial true false (W := 2 ^ 32)
    (l := [⟨retryPut, List.replicate 1200 (arrival 1), turn w, retryReq, said 4 (echo retryBody)⟩]) (by decide) rfl
    (fun x hx => by
      rw [List.mem_singleton.1 hx]
      exact Or.inr (Or.inr (Or.inr (Or.inr hok))))
  match log, g2 with
  | [e], _ =>
    refine ⟨_, e, g1, ?_⟩
    rw [← hecho, ← h6]
    exact g3 0 _ _ rfl rfl

end FreeCoAP.Proxy
