import Verif.Proxy.SpecEnd
import Verif.Proxy.Props3
import Verif.EndToEnd.PropsPlain

/-!
# C90: a request through the proxy to an application
-/

namespace FreeCoAP.Proxy

open FreeCoAP.Http (HMsg)
open FreeCoAP.Msg (Msg Op)
open FreeCoAP.Server (Addr Env Event Srv AllKnown Built AppOK Transfer Carries Asks run init)
open FreeCoAP.Cross (RequestFor ResponseFor bodyOf methods)
open FreeCoAP.EndToEnd (Ordinary Network Says Direct Replied Remembers callsOf token)
open FreeCoAP.Client (stamped)

/-- C90: the HTTP client sends `h` to the proxy, and it is told that this succeeded. Then the application of the CoAP server was called once for the
proxy, with this request, and the HTTP response is its answer. (The body is not longer than 1024 bytes and the application does not use blocks; during the
exchange the server receives from the proxy nothing but this request; what the network does is described by `Network`.) -/
def C90_statement (sx : Bool) : Prop :=
  ∀ (px : Bool) (w : World) (peer : Peer) (h h' : HMsg) (req : Msg) (host port : Bytes) (a : Addr) (id : Nat) (sepList : List Bytes) (pool : Mem.Pool)
    (evs0 evs : List (Env × Event)) (s0 s1 : Srv) (tr0 tr : List (List Server.Obs)) (b : Client.BEnv) (obs : List Client.Obs),
    Goes w h req none host port → Through sx px w req b obs →
    run sx (init id sepList pool) evs0 = .ok (s0, tr0) → ¬ Transfer s0 a → run sx s0 evs = .ok (s1, tr) →
    (∀ x ∈ evs0 ++ evs, AppOK x.1) → (∀ x ∈ evs, OneMessageEach a x.1) → Network sx a [(b, obs)] evs0 evs tr0 tr →
    (∀ x ∈ evs, ∀ d, x.2 = .datagram a d → ∀ m, Carries sx d m → Asks m → m.token = token b) →
    (process w peer h).res = .ok h' → Success h' →
    ∃ m, callsOf a tr = [m] ∧ SameRequest h req m ∧ ∃ resp, Replied a evs tr m resp ∧ ResponseFor resp [] h'

/-- The message that is made from a request can be sent, and the server knows all of its options. -/
theorem req_built {env : Cross.Env} {space : Nat} {h : HMsg} {m : Msg} {blocks : Option Bytes} (hl : ∀ x ∈ h.headers, x.value.length < 2 ^ 32)
    (e : Cross.reqToCoap env space h = .ok (m, blocks)) : Built m ∧ AllKnown m := by
  have r := Cross.C58_request hl e
  obtain ⟨m1, m2, m3, e1, e2, k3, e4, -, r2⟩ := Cross.reqToCoap_steps hl e
  have hm1 := (Cross.method_ok e1).2
  have h3 : m.ver = 1 ∧ m.msgId = 0 ∧ m.token = [] := by
    have h1 : m1.ver = 1 ∧ m1.msgId = 0 ∧ m1.token = [] := by rw [hm1]; exact ⟨rfl, rfl, rfl⟩
    have h2 : m2.ver = 1 ∧ m2.msgId = 0 ∧ m2.token = [] := by rw [r2]; exact h1
    have h3 : m3.ver = 1 ∧ m3.msgId = 0 ∧ m3.token = [] := by rw [k3.rest]; exact h2
    rcases Cross.bodyToCoap_ok e4 with ⟨-, e5, -⟩ | ⟨-, -, e5, -⟩ <;> rw [e5] <;> exact h3
  have hd := (method_code r.method.1).2.2.2.2
  refine ⟨⟨h3.1, by rw [r.type]; decide, by rw [r.method.2]; decide, by omega, by rw [h3.2.1]; decide, by rw [h3.2.2]; decide, r.sorted⟩, ?_⟩
  intro o ho _
  have hv : Cross.values o.num m ≠ [] := by
    have : o.val ∈ Cross.values o.num m := List.mem_map.2 ⟨o, List.mem_filter.2 ⟨ho, by simp⟩, rfl⟩
    intro h0
    rw [h0] at this
    cases this
  have hn : ¬ (o.num ≠ 3 ∧ o.num ≠ 4 ∧ o.num ≠ 7 ∧ o.num ≠ 11 ∧ o.num ≠ 14 ∧ o.num ≠ 15 ∧ o.num ≠ 17) :=
    fun ⟨a1, a2, a3, a4, a5, a6, a7⟩ => hv (r.others o.num a1 a2 a3 a4 a5 a6 a7)
  have : o.num = 3 ∨ o.num = 4 ∨ o.num = 7 ∨ o.num = 11 ∨ o.num = 14 ∨ o.num = 15 ∨ o.num = 17 := by omega
  rcases this with e | e | e | e | e | e | e <;> rw [e] <;> decide

/-- Only the code, the options and the payload matter for the HTTP response. -/
theorem responseFor_says {r resp : Msg} {bl : Bytes} {h : HMsg} (hs : Says r resp) (h1 : ResponseFor r bl h) : ResponseFor resp bl h := by
  obtain ⟨s1, s2, s3, s4⟩ := hs
  obtain ⟨c1, c2, c3, c4, c5⟩ := h1
  unfold Cross.contentOf at c3 c4
  unfold Cross.values at c5
  rw [s1, s2] at c2
  rw [s4] at c3 c4
  rw [s3] at c5
  exact ⟨c1, c2, c3, c4, c5⟩

theorem respToHttp_fail {env : Cross.Env} {m : Msg} {buf : Bytes} {len : Nat} {x : Err} {c : Nat}
    (e : Cross.respToHttp env m buf len = .fail x c) : c = 502 := by
  unfold Cross.respToHttp Cross.coded at e
  split at e
  · cases e
  · cases e; rfl
  · cases e

/-- Errors that the proxy reports are no successes. -/
theorem status_error (e : Err) : (statusOf e).head? ≠ some 0x32 := by
  cases e <;> decide

theorem respond_success {w : World} {r : Out (Msg × Bytes × Nat)} {h' : HMsg} (e : respond w r = .ok h') (hs : Success h') :
    ∃ resp body n, r = .ok (resp, body, n) ∧ Cross.respToHttp w.env' resp body n = .ok h' := by
  unfold respond at e
  split at e
  · rename_i resp body n
    split at e
    · rename_i x hx
      cases e
      exact ⟨_, _, _, rfl, hx⟩
    · rename_i x code hx
      have := errorResp_ok e
      subst this
      have hcode := respToHttp_fail hx
      subst hcode
      exact absurd (show (Cross.digits 9 502).head? = some 0x32 from hs) (by decide)
    · cases e
  · rename_i x
    have := errorResp_ok e
    subst this
    unfold Success at hs
    dsimp only at hs
    rw [failure_status] at hs
    exact absurd hs (status_error x)
  · cases e

/-- A success comes from the plain exchange, if the CoAP response has no Block2 option and does not ask for blocks. -/
theorem process_success {w : World} {peer : Peer} {h h' : HMsg} {req : Msg} {host port : Bytes} (g : Goes w h req none host port)
    (e : (process w peer h).res = .ok h') (hs : Success h')
    (hn : ∀ r, w.exchange req = .ok r → (∀ o ∈ r.ops, o.num ≠ 23) ∧ ¬ (r.codeClass = 4 ∧ r.codeDetail = 13)) :
    ∃ p r, Is p host port ∧ (process w peer h).calls = [(p, .plain req)] ∧ w.exchange req = .ok r ∧ ResponseFor r [] h' := by
  obtain ⟨p, hp, ep⟩ := process_goes (peer := peer) g
  rw [ep] at e ⊢
  dsimp only at e ⊢
  obtain ⟨resp, body, n, e1, e2⟩ := respond_success e hs
  have key : ∃ r, w.exchange req = .ok r ∧ exchange w req (bodyBuf none).1 (bodyBuf none).2 = ⟨[.plain req], .ok (r, (bodyBuf none).1, 0)⟩ := by
    have hz : (bodyBuf none).2 = 0 := rfl
    have hblk : ∀ r, w.exchange req = .ok r → Msg.parseBlockOp Msg.BLOCK2 r.ops = .ok none := fun r hr => Server.parseBlockOp_none (hn r hr).1
    have hsend : (exchangeSend w req (bodyBuf none).1 (bodyBuf none).2).res = .ok (resp, body, n) → ∃ r, w.exchange req = .ok r ∧
        exchangeSend w req (bodyBuf none).1 (bodyBuf none).2 = ⟨[.plain req], .ok (r, (bodyBuf none).1, 0)⟩ := by
      intro e1
      unfold exchangeSend at e1 ⊢
      rw [hz, if_neg (by decide)] at e1 ⊢
      cases hx : w.exchange req with
      | ok r =>
        dsimp only
        rw [if_neg (hn r hx).2]
        exact ⟨r, rfl, rfl⟩
      | err x => rw [hx] at e1; cases e1
      | ub => rw [hx] at e1; cases e1
    unfold exchange at e1 ⊢
    split at e1
    · rename_i hd
      rw [if_pos hd]
      unfold exchangeGet at e1 ⊢
      cases hx : w.exchange req with
      | ok r =>
        dsimp only
        rw [hblk r hx]
        exact ⟨r, rfl, rfl⟩
      | err x => rw [hx] at e1; cases e1
      | ub => rw [hx] at e1; cases e1
    · rename_i hd1
      rw [if_neg hd1]
      split at e1
      · rename_i hd
        rw [if_pos hd]
        exact hsend e1
      · rename_i hd2
        rw [if_neg hd2]
        split at e1
        · rename_i hd
          rw [if_pos hd]
          exact hsend e1
        · cases e1
          obtain ⟨_, _, _, hst, -⟩ := Cross.respToHttp_ok e2
          cases hst
  obtain ⟨r, hr, hx⟩ := key
  rw [hx] at e1 ⊢
  cases e1
  exact ⟨p, _, hp, rfl, hr, Cross.C59_response e2⟩

/-- For both theorems. -/
theorem answer_core (sx px : Bool) (w : World) (peer : Peer) (h h' : HMsg) (req : Msg) (host port : Bytes) (a : Addr) (id : Nat)
    (sepList : List Bytes) (pool : Mem.Pool) (evs0 evs : List (Env × Event)) (s0 s1 : Srv) (tr0 tr : List (List Server.Obs)) (b : Client.BEnv)
    (obs : List Client.Obs) (g : Goes w h req none host port) (hthr : Through sx px w req b obs)
    (hr0 : run sx (init id sepList pool) evs0 = .ok (s0, tr0)) (htr : ¬ Transfer s0 a) (hr1 : run sx s0 evs = .ok (s1, tr))
    (happ : ∀ x ∈ evs0 ++ evs, AppOK x.1) (hone : ∀ x ∈ evs, OneMessageEach a x.1) (hnet : Network sx a [(b, obs)] evs0 evs tr0 tr)
    (e : (process w peer h).res = .ok h') (hs : Success h')
    (ho : Ordinary sx req) (ho' : ∀ resp, Replied a evs tr (stamped b.x req) resp → Ordinary sx resp) :
    (∃ r, Client.exchange sx px b.x req = .ok (obs, some (.ok r))) ∧ (∃ p, Is p host port ∧ (process w peer h).calls = [(p, .plain req)]) ∧
    ∃ m, m ∈ callsOf a tr ∧ (∀ m' ∈ callsOf a tr, m'.token = token b → m' = m) ∧ SameRequest h req m ∧
      ∃ resp, Replied a evs tr m resp ∧ ResponseFor resp [] h' := by
  obtain ⟨hb, hk⟩ := req_built g.headers g.conv
  obtain ⟨r, hex, hw⟩ := hthr
  have r58 := Cross.C58_request g.headers g.conv
  have hdir : ∀ x ∈ evs, Direct a x.1 := fun x hx t m ht => by
    obtain ⟨resp, err, h1, -⟩ := hone x hx t m ht
    exact ⟨resp, err, h1⟩
  have key : ∀ r', w.exchange req = .ok r' → stamped b.x req ∈ callsOf a tr ∧ (∀ m' ∈ callsOf a tr, m'.token = token b → m' = stamped b.x req) ∧
      ∃ resp, Replied a evs tr (stamped b.x req) resp ∧ Says r' resp := by
    intro r' hr'
    rw [hw] at hr'
    cases r with
    | error x => cases hr'
    | ok r0 =>
      cases hr'
      obtain ⟨h1, h2⟩ := EndToEnd.C87_answer_partial sx px a id sepList pool evs0 evs s0 s1 tr0 tr req _ b obs hr0 htr hr1 happ hdir hb ho hex hnet
      rcases h1 with ⟨-, g2, resp, g3, -, -, g6⟩ | ⟨g1, -⟩
      · exact ⟨g2, h2, resp, g3, g6 (ho' resp g3)⟩
      · exact absurd hk g1
  obtain ⟨p, r', hp, hc, hx, hresp⟩ := process_success g e hs (fun r' hr' => by
    obtain ⟨-, -, resp, ⟨x, hx, -, t, hta, hh⟩, q1, q2, q3, q4⟩ := key r' hr'
    obtain ⟨resp', err, e1, e2, e3⟩ := hone x.1 (List.of_mem_zip hx).1 t _ hta
    rw [hh] at e1
    cases e1
    rw [q1, q2, q3]
    exact ⟨e2, e3⟩)
  obtain ⟨k1, k2, resp, k3, k4⟩ := key r' hx
  refine ⟨?_, ⟨p, hp, hc⟩, _, k1, k2, ⟨r58.method.1, r58.method.2, rfl, ?_⟩, resp, k3, responseFor_says k4 hresp⟩
  · cases r with
    | ok r0 => exact ⟨r0, hex⟩
    | error x => rw [hw] at hx; cases hx
  rcases r58.body with ⟨-, h1, -⟩ | ⟨-, -, -, h1⟩
  · exact h1
  · cases h1

/-- C90 for requests and answers whose options survive transmission, without the claim that the application was called only once: it was called with
the request, and never with another one that has the token of the exchange. The HTTP response is its answer, and the proxy sent the request once, to the
server named in the URI. -/
theorem C90_answer_partial (sx px : Bool) (w : World) (peer : Peer) (h h' : HMsg) (req : Msg) (host port : Bytes) (a : Addr) (id : Nat)
    (sepList : List Bytes) (pool : Mem.Pool) (evs0 evs : List (Env × Event)) (s0 s1 : Srv) (tr0 tr : List (List Server.Obs)) (b : Client.BEnv)
    (obs : List Client.Obs) (g : Goes w h req none host port) (hthr : Through sx px w req b obs)
    (hr0 : run sx (init id sepList pool) evs0 = .ok (s0, tr0)) (htr : ¬ Transfer s0 a) (hr1 : run sx s0 evs = .ok (s1, tr))
    (happ : ∀ x ∈ evs0 ++ evs, AppOK x.1) (hone : ∀ x ∈ evs, OneMessageEach a x.1) (hnet : Network sx a [(b, obs)] evs0 evs tr0 tr)
    (e : (process w peer h).res = .ok h') (hs : Success h')
    (ho : Ordinary sx req) (ho' : ∀ resp, Replied a evs tr (stamped b.x req) resp → Ordinary sx resp) :
    (∃ p, Is p host port ∧ (process w peer h).calls = [(p, .plain req)]) ∧
    ∃ m, m ∈ callsOf a tr ∧ (∀ m' ∈ callsOf a tr, m'.token = token b → m' = m) ∧ SameRequest h req m ∧
      ∃ resp, Replied a evs tr m resp ∧ ResponseFor resp [] h' :=
  (answer_core sx px w peer h h' req host port a id sepList pool evs0 evs s0 s1 tr0 tr b obs g hthr hr0 htr hr1 happ hone hnet e hs ho ho').2

/-- C90 for requests and answers whose options survive transmission, if the server can send its response and does not forget the client. -/
theorem C90_once_partial (sx px : Bool) (w : World) (peer : Peer) (h h' : HMsg) (req : Msg) (host port : Bytes) (a : Addr) (id : Nat)
    (sepList : List Bytes) (pool : Mem.Pool) (evs0 evs : List (Env × Event)) (s0 s1 : Srv) (tr0 tr : List (List Server.Obs)) (b : Client.BEnv)
    (obs : List Client.Obs) (g : Goes w h req none host port) (hthr : Through sx px w req b obs)
    (hr0 : run sx (init id sepList pool) evs0 = .ok (s0, tr0)) (htr : ¬ Transfer s0 a) (hr1 : run sx s0 evs = .ok (s1, tr))
    (happ : ∀ x ∈ evs0 ++ evs, AppOK x.1) (hone : ∀ x ∈ evs, OneMessageEach a x.1) (hnet : Network sx a [(b, obs)] evs0 evs tr0 tr)
    (honly : ∀ x ∈ evs, ∀ d, x.2 = .datagram a d → ∀ m, Carries sx d m → Asks m → m.token = token b)
    (e : (process w peer h).res = .ok h') (hs : Success h')
    (ho : Ordinary sx req) (ho' : ∀ resp, Replied a evs tr (stamped b.x req) resp → Ordinary sx resp) (hrem : Remembers sx a s0 evs) :
    ∃ m, callsOf a tr = [m] ∧ SameRequest h req m ∧ ∃ resp, Replied a evs tr m resp ∧ ResponseFor resp [] h' := by
  obtain ⟨⟨r0, hex⟩, -, m, k1, -, k3, k4⟩ := answer_core sx px w peer h h' req host port a id sepList pool evs0 evs s0 s1 tr0 tr b obs g hthr hr0
    htr hr1 happ hone hnet e hs ho ho'
  obtain ⟨hb, hk⟩ := req_built g.headers g.conv
  have hdir : ∀ x ∈ evs, Direct a x.1 := fun x hx t m ht => by
    obtain ⟨resp, err, h1, -⟩ := hone x hx t m ht
    exact ⟨resp, err, h1⟩
  obtain ⟨h1, -⟩ := EndToEnd.C87_once_partial sx px a id sepList pool evs0 evs s0 s1 tr0 tr req r0 b obs hr0 htr hr1 happ hdir hb hk hex hnet honly
    ho ho' hrem
  rw [h1, List.mem_singleton] at k1
  exact ⟨m, by rw [h1, k1], k3, k4⟩

/-! ## An example -/

/-- The request `GET coap://h:5683/a` as a message and as a datagram. -/
def endReq : Msg := { Msg.create with codeDetail := 1, ops := exOps }
def endGram : Bytes := [68, 1, 1, 5, 1, 2, 3, 5, 0x31, 104, 0x44, 0x35, 0x36, 0x38, 0x33, 0x41, 97]

/-- A world with the CoAP client of the library. -/
def endWorld (sx : Bool) (b : Client.BEnv) : World :=
  { world hello with exchange := fun q =>
      match Client.exchange sx false b.x q with
      | .ok (_, some r) => result r
      | _ => .err .EIO }

def endEnv : Server.Env := Server.exEnv

/-- The request arrives twice, and another client is served in between. -/
def endEvs : List (Env × Event) :=
  [(endEnv, .datagram [1] endGram), (endEnv, .datagram [2] Server.exGetB), (endEnv, .datagram [1] endGram)]

def endB : Client.BEnv := EndToEnd.exRound 5 [Client.tick, Client.rcv EndToEnd.exHi]

theorem end_all {x : Env × Event} (hx : x ∈ endEvs) : x.1 = endEnv := by
  simp only [endEvs, List.mem_cons, List.not_mem_nil, or_false] at hx
  rcases hx with rfl | rfl | rfl <;> rfl

/-- The HTTP response of the example. -/
def endResp : HMsg := ⟨str "HTTP/1.1", str "200", str "OK", [⟨str "Content-Length", str "2"⟩], some (str "hi")⟩

theorem end_goes (sx : Bool) (b : Client.BEnv) : Goes (endWorld sx b) (request "GET" "coap://h:5683/a" none) endReq none (str "h") (str "5683") :=
  ⟨by show Cross.reqToCoap Cross.ample BODY_LEN _ = _; decide +kernel, by simp [request], ⟨_, exParse, rfl, rfl⟩, rfl, fun _ => rfl⟩

theorem end_through {sx : Bool} {b : Client.BEnv} {obs : List Client.Obs} {r : Msg}
    (h : Client.exchange sx false b.x endReq = .ok (obs, some (.ok r))) : Through sx false (endWorld sx b) endReq b obs := by
  refine ⟨.ok r, h, ?_⟩
  unfold endWorld
  dsimp only
  rw [h]

theorem end_one (b : Option Err) : OneMessageEach [1] { endEnv with sendErr := b } :=
  fun _ _ _ => ⟨_, _, rfl, (fun _ h => nomatch (show _ ∈ ([] : List Op) from h)), by decide⟩

theorem end_token (sx : Bool) {m : Msg} (hc : Carries sx endGram m) : m.token = token endB := by
  obtain ⟨hdr, e1, e2⟩ := EndToEnd.carries_token hc
  rw [← e2]
  cases e1
  rfl

theorem end_idle : ¬ Transfer Server.exInit [1] := by
  rintro ⟨t, ht, -⟩
  rw [Server.exInit, Server.ofAddr_init] at ht
  cases ht

/-- The hypotheses of both theorems are met. -/
example : ∃ m s1 tr, run true Server.exInit endEvs = .ok (s1, tr) ∧ callsOf [1] tr = [m] ∧
    SameRequest (request "GET" "coap://h:5683/a" none) endReq m := by
  have key : Client.test (Client.exchange true false endB.x endReq) (fun x => Client.test (run true Server.exInit endEvs) (fun r =>
      EndToEnd.isOk x.2 && EndToEnd.networkB true [1] [(endB, x.1)] [] endEvs [] r.2 &&
      EndToEnd.remembersB true [1] Server.exInit endEvs)) = true := by decide +kernel
  have hres : (process (endWorld true endB) none (request "GET" "coap://h:5683/a" none)).res = .ok endResp := by decide +kernel
  obtain ⟨⟨obs, res⟩, h1, h2⟩ := Client.test_ok key
  obtain ⟨⟨s1, tr⟩, h3, h4⟩ := Client.test_ok h2
  simp only [Bool.and_eq_true] at h4
  obtain ⟨⟨k1, k2⟩, k3⟩ := h4
  obtain ⟨r, e⟩ := EndToEnd.isOk_some k1
  subst e
  obtain ⟨m, g1, g2, -⟩ := C90_once_partial true false (endWorld true endB) none _ endResp endReq (str "h") (str "5683") [1] 100 Server.exSep
    Server.exPool [] endEvs Server.exInit s1 [] tr endB obs (end_goes true endB) (end_through h1) rfl end_idle h3
    (fun x hx => by rw [end_all hx]; exact Server.exEnv_app)
    (fun x hx => by rw [end_all hx]; exact end_one none) (EndToEnd.network_of k2)
    (fun x hx d hd m hc _ => by
      have hd' : d = endGram := by
        simp only [endEvs, List.mem_cons, List.not_mem_nil, or_false] at hx
        rcases hx with rfl | rfl | rfl <;> cases hd <;> rfl
      subst hd'
      exact end_token true hc)
    hres rfl
    (fun o ho => by
      simp only [endReq, exOps, List.mem_cons, List.not_mem_nil, or_false] at ho
      rcases ho with rfl | rfl | rfl <;> exact ⟨by decide, by decide, fun _ => by decide⟩)
    (fun resp ⟨x, hx, _, t, _, hh⟩ => by
      rw [end_all (List.of_mem_zip hx).1] at hh
      cases hh
      intro o ho
      cases ho)
    (EndToEnd.remembers_of k3)
  exact ⟨m, s1, tr, h3, g1, g2⟩

/-- C90 fails: if the server cannot send its response, the request that the proxy transmits again is executed again. The HTTP client is told that its
request succeeded, and it does not learn that it was executed twice. -/
theorem C90_violated (sx : Bool) : ¬ C90_statement sx := by
  intro h
  have key : Client.test (Client.exchange sx false endB.x endReq) (fun x =>
      Client.test (run sx Server.exInit [({ endEnv with sendErr := some .EIO }, .datagram [1] endGram), (endEnv, .datagram [1] endGram)]) (fun r =>
      EndToEnd.isOk x.2 && EndToEnd.networkB sx [1] [(endB, x.1)] [] [({ endEnv with sendErr := some .EIO }, .datagram [1] endGram),
        (endEnv, .datagram [1] endGram)] [] r.2 &&
      decide ((callsOf [1] r.2).length = 2))) = true := by cases sx <;> decide +kernel
  have hres : (process (endWorld sx endB) none (request "GET" "coap://h:5683/a" none)).res = .ok endResp := by cases sx <;> decide +kernel
  obtain ⟨⟨obs, res⟩, h1, h2⟩ := Client.test_ok key
  obtain ⟨⟨s1, tr⟩, h3, h4⟩ := Client.test_ok h2
  simp only [Bool.and_eq_true, decide_eq_true_eq] at h4
  obtain ⟨⟨k1, k2⟩, k3⟩ := h4
  obtain ⟨r, e⟩ := EndToEnd.isOk_some k1
  subst e
  obtain ⟨m, g1, -⟩ := h false (endWorld sx endB) none _ endResp endReq (str "h") (str "5683") [1] 100 Server.exSep
    Server.exPool [] _ Server.exInit s1 [] tr endB obs (end_goes sx endB) (end_through h1) rfl end_idle h3
    (fun x hx => by
      simp only [List.nil_append, List.mem_cons, List.not_mem_nil, or_false] at hx
      rcases hx with rfl | rfl
      · exact ⟨Server.exEnv_app.1, Server.exEnv_app.2⟩
      · exact Server.exEnv_app)
    (fun x hx => by
      simp only [List.mem_cons, List.not_mem_nil, or_false] at hx
      rcases hx with rfl | rfl
      · exact end_one _
      · exact end_one none)
    (EndToEnd.network_of k2)
    (fun x hx d hd m hc _ => by
      have hd' : d = endGram := by
        simp only [List.mem_cons, List.not_mem_nil, or_false] at hx
        rcases hx with rfl | rfl <;> cases hd <;> rfl
      subst hd'
      exact end_token sx hc)
    hres rfl
  rw [g1] at k3
  cases k3

end FreeCoAP.Proxy
