import Verif.Proxy.Spec
import Verif.Cross.Props4
import Verif.Server.LemmasSafe

/-!
# Properties of a connection of the proxy: processing requests
-/

namespace FreeCoAP.Proxy

open FreeCoAP.Http (HMsg)
open FreeCoAP.Msg (Msg)
open FreeCoAP.Uri (Uri)
open FreeCoAP.Cross (RequestFor ResponseFor bodyOf methods)

/-- The HTTP request `h` is converted to `req`, its URI names `host` and `port`, and this server can be reached. -/
structure Goes (w : World) (h : HMsg) (req : Msg) (blocks : Option Bytes) (host port : Bytes) : Prop where
  conv : Cross.reqToCoap w.env BODY_LEN h = .ok (req, blocks)
  headers : ∀ x ∈ h.headers, x.value.length < 2 ^ 32
  uri : ∃ u, Uri.parse w.env.sx w.uri h.start1 = .ok u ∧ u.host = some host ∧ u.port = some port
  connects : w.connect (some host) (some port) = .ok ()
  mem : ∀ n, w.mem n = true

/-- The server `p` is the one with this host and port. -/
def Is (p : Bytes × Bytes) (host port : Bytes) : Prop := p.1.map toLower = host.map toLower ∧ p.2 = port

theorem choose_goes {w : World} {peer : Peer} {u : Uri} {host port : Bytes} (hh : u.host = some host) (hp : u.port = some port)
    (hc : w.connect (some host) (some port) = .ok ()) (hm : ∀ n, w.mem n = true) :
    ∃ p, choose w peer u = (some p, .ok p) ∧ Is p host port := by
  have e : connect w u = .ok (host, port) := by
    unfold connect
    rw [hh, hp, hc, Out.bind_ok]
    dsimp only
    rw [hm, hm]
    rfl
  unfold choose
  rw [e, hh, hp]
  dsimp only
  cases peer with
  | none => exact ⟨_, rfl, rfl, rfl⟩
  | some q =>
    obtain ⟨h0, p0⟩ := q
    dsimp only
    cases hs : Http.sameText host h0 with
    | false => exact ⟨_, rfl, rfl, rfl⟩
    | true =>
      by_cases hpp : port = p0
      · rw [if_neg (by simp), if_neg (by simp [hpp])]
        refine ⟨_, rfl, ?_, hpp.symm⟩
        simp only [Http.sameText, beq_iff_eq] at hs
        exact hs.symm
      · rw [if_neg (by simp), if_pos hpp]
        exact ⟨_, rfl, rfl, rfl⟩

/-- A request that gets as far as the exchange. -/
theorem process_goes {w : World} {peer : Peer} {h : HMsg} {req : Msg} {blocks : Option Bytes} {host port : Bytes}
    (g : Goes w h req blocks host port) : ∃ p, Is p host port ∧
      process w peer h = ⟨some p, (exchange w req (bodyBuf blocks).1 (bodyBuf blocks).2).calls.map (fun x => (p, x)),
        respond w (exchange w req (bodyBuf blocks).1 (bodyBuf blocks).2).res⟩ := by
  obtain ⟨u, hu, hh, hp⟩ := g.uri
  obtain ⟨p, hc, his⟩ := choose_goes (peer := peer) hh hp g.connects g.mem
  refine ⟨p, his, ?_⟩
  unfold process
  rw [g.conv]
  dsimp only
  rw [hu]
  dsimp only
  rw [hc]

/-- The codes of the methods. -/
theorem method_code {h : HMsg} {req : Msg} (hm : (h.start0, req.codeDetail) ∈ methods) :
    (h.start0 = str "GET" ↔ req.codeDetail = 1) ∧ (h.start0 = str "POST" ↔ req.codeDetail = 2) ∧
    (h.start0 = str "PUT" ↔ req.codeDetail = 3) ∧ (h.start0 = str "DELETE" ↔ req.codeDetail = 4) ∧
    (req.codeDetail = 1 ∨ req.codeDetail = 2 ∨ req.codeDetail = 3 ∨ req.codeDetail = 4) := by
  simp only [methods, List.mem_cons, List.not_mem_nil, or_false, Prod.mk.injEq] at hm
  rcases hm with ⟨e1, e2⟩ | ⟨e1, e2⟩ | ⟨e1, e2⟩ | ⟨e1, e2⟩ <;> rw [e1, e2] <;> decide

/-- The buffer for the body after the conversion: the body, if it goes in blocks. -/
theorem bodyBuf_ok {h : HMsg} {req : Msg} {blocks : Option Bytes} (r : RequestFor h BODY_LEN req blocks) :
    (bodyBuf blocks).1.length = BODY_LEN ∧ (bodyBuf blocks).2 ≤ BODY_LEN ∧
    ((bodyOf h).length ≤ 1024 → (bodyBuf blocks).2 = 0 ∧ req.payload = bodyOf h) ∧
    (1024 < (bodyOf h).length → (bodyBuf blocks).2 = (bodyOf h).length ∧ (bodyBuf blocks).1.take (bodyBuf blocks).2 = bodyOf h ∧ req.payload = []) := by
  rcases r.body with ⟨h1, h2, rfl⟩ | ⟨h1, h2, h3, rfl⟩
  · refine ⟨?_, by simp [bodyBuf], fun _ => ⟨rfl, h2⟩, fun h => by omega⟩
    unfold bodyBuf
    exact List.length_replicate
  · refine ⟨?_, h2, fun h => by omega, fun _ => ⟨rfl, ?_, h3⟩⟩
    · unfold bodyBuf
      rw [List.length_append, List.length_replicate]
      omega
    · unfold bodyBuf
      dsimp only
      rw [List.take_left]

/-! ## C65: every request goes to the server named in its URI -/

/-- C65: every HTTP request that can be converted, and whose server can be reached, is sent to the server named in its URI, with its
method and options, whatever requests came before. -/
def C65_statement : Prop :=
  ∀ (w : World) (peer : Peer) (h : HMsg) (req : Msg) (blocks : Option Bytes) (host port : Bytes), Goes w h req blocks host port →
    (process w peer h).calls ≠ [] ∧ ∀ c ∈ (process w peer h).calls, Is c.1 host port ∧ c.2.head = { req with payload := [] }

theorem exchangeSend_calls {w : World} {req : Msg} {body : Bytes} {n : Nat} {content : Bytes}
    (h0 : n = 0 → req.payload = content) (h1 : 0 < n → body.take n = content) :
    (exchangeSend w req body n).calls ≠ [] ∧ ∀ c ∈ (exchangeSend w req body n).calls, c.head = { req with payload := [] } ∧ c.content = content := by
  unfold exchangeSend
  by_cases hn : n > 0
  · rw [if_pos hn]
    refine ⟨by simp [inBlocks], fun c hc => ?_⟩
    simp only [inBlocks, List.nil_append, List.mem_singleton] at hc
    subst hc
    exact ⟨rfl, h1 hn⟩
  · rw [if_neg hn]
    have hp := h0 (by omega)
    have hone : ∀ c ∈ [Call.plain req], c.head = { req with payload := [] } ∧ c.content = content := by
      intro c hc
      simp only [List.mem_singleton] at hc
      subst hc
      exact ⟨rfl, hp⟩
    split
    · split
      · split
        · rename_i b hb
          refine ⟨by simp [inBlocks], fun c hc => ?_⟩
          simp only [inBlocks] at hc
          rcases List.mem_append.1 hc with hc | hc
          · exact hone c hc
          · simp only [List.mem_singleton] at hc
            subst hc
            refine ⟨rfl, ?_⟩
            unfold keepPayload at hb
            split at hb
            · cases hb
              change List.take _ _ = _
              rw [List.take_left, hp]
            · cases hb
        · exact ⟨by simp, hone⟩
        · exact ⟨by simp, hone⟩
      · exact ⟨by simp, hone⟩
    · exact ⟨by simp, hone⟩
    · exact ⟨by simp, hone⟩

theorem exchangeGet_calls {w : World} {req : Msg} {body : Bytes} {n : Nat} :
    (exchangeGet w req body n).calls ≠ [] ∧ (exchangeGet w req body n).calls.head? = some (.plain req) ∧
    ∀ c ∈ (exchangeGet w req body n).calls, c.head = { req with payload := [] } := by
  have hone : ∀ c ∈ [Call.plain req], c.head = { req with payload := [] } := by
    intro c hc
    simp only [List.mem_singleton] at hc
    subst hc
    rfl
  unfold exchangeGet
  split
  · split
    · exact ⟨by simp, rfl, hone⟩
    · refine ⟨by simp [inBlocks], rfl, fun c hc => ?_⟩
      simp only [inBlocks] at hc
      rcases List.mem_append.1 hc with hc | hc
      · exact hone c hc
      · simp only [List.mem_singleton] at hc
        subst hc
        rfl
    · exact ⟨by simp, rfl, hone⟩
    · exact ⟨by simp, rfl, hone⟩
  · exact ⟨by simp, rfl, hone⟩
  · exact ⟨by simp, rfl, hone⟩

/-- C65 for GET, POST and PUT; the body of POST and PUT goes with the request, too, and the server stays connected. -/
theorem C65_sent_partial {w : World} {peer : Peer} {h : HMsg} {req : Msg} {blocks : Option Bytes} {host port : Bytes}
    (g : Goes w h req blocks host port) (hm : h.start0 ≠ str "DELETE") :
    RequestFor h 8192 req blocks ∧ (process w peer h).calls ≠ [] ∧ (∃ p, (process w peer h).peer = some p ∧ Is p host port) ∧
    ∀ c ∈ (process w peer h).calls, Is c.1 host port ∧ c.2.head = { req with payload := [] } ∧
      (h.start0 ≠ str "GET" → c.2.content = bodyOf h) := by
  have r := Cross.C58_request g.headers g.conv
  obtain ⟨p, hp, e⟩ := process_goes (peer := peer) g
  obtain ⟨c1, c2, c3, c4, c5⟩ := method_code r.method.1
  obtain ⟨b1, b2, b3, b4⟩ := bodyBuf_ok r
  refine ⟨r, ?_⟩
  rw [e]
  dsimp only
  have key : (exchange w req (bodyBuf blocks).1 (bodyBuf blocks).2).calls ≠ [] ∧
      ∀ c ∈ (exchange w req (bodyBuf blocks).1 (bodyBuf blocks).2).calls, c.head = { req with payload := [] } ∧
        (h.start0 ≠ str "GET" → c.content = bodyOf h) := by
    unfold exchange
    have hsend : (exchangeSend w req (bodyBuf blocks).1 (bodyBuf blocks).2).calls ≠ [] ∧
        ∀ c ∈ (exchangeSend w req (bodyBuf blocks).1 (bodyBuf blocks).2).calls, c.head = { req with payload := [] } ∧
          c.content = bodyOf h := by
      refine exchangeSend_calls (fun h0 => ?_) (fun h0 => ?_)
      · rcases Nat.lt_or_ge 1024 (bodyOf h).length with hl | hl
        · have := (b4 hl).1
          omega
        · exact (b3 hl).2
      · rcases Nat.lt_or_ge 1024 (bodyOf h).length with hl | hl
        · exact (b4 hl).2.1
        · have := (b3 hl).1
          omega
    by_cases k1 : req.codeDetail = 1
    · rw [if_pos k1]
      exact ⟨exchangeGet_calls.1, fun c hc => ⟨exchangeGet_calls.2.2 c hc, fun hg => absurd (c1.2 k1) hg⟩⟩
    · rw [if_neg k1]
      by_cases k3 : req.codeDetail = 3
      · rw [if_pos k3]
        exact ⟨hsend.1, fun c hc => ⟨(hsend.2 c hc).1, fun _ => (hsend.2 c hc).2⟩⟩
      · rw [if_neg k3]
        have k2 : req.codeDetail = 2 := by
          rcases c5 with c | c | c | c
          · exact absurd c k1
          · exact c
          · exact absurd c k3
          · exact absurd (c4.2 c) hm
        rw [if_pos k2]
        exact ⟨hsend.1, fun c hc => ⟨(hsend.2 c hc).1, fun _ => (hsend.2 c hc).2⟩⟩
  refine ⟨by simpa using key.1, ⟨p, rfl, hp⟩, fun c hc => ?_⟩
  obtain ⟨x, hx, rfl⟩ := List.mem_map.1 hc
  exact ⟨hp, key.2 x hx⟩

theorem parseBlockOp_none : ∀ {ops : List Msg.Op}, Msg.parseBlockOp Msg.BLOCK2 ops = .ok none → ∀ o ∈ ops, o.num ≠ 23
  | [], _, o, h => by simp at h
  | op :: ops, e, o, h => by
    unfold Msg.parseBlockOp at e
    split at e
    · obtain ⟨b, -, e⟩ := Out.bind_eq_ok.1 e
      cases e
    · rename_i hn
      rcases List.mem_cons.1 h with rfl | h
      · exact fun h => hn (.inr ⟨h, rfl⟩)
      · exact parseBlockOp_none e o h

/-- C65, how often: a GET, POST or PUT request is sent once, and again in blocks only if the server asks for it. -/
theorem C65_once_partial {w : World} {peer : Peer} {h : HMsg} {req : Msg} {blocks : Option Bytes} {host port : Bytes}
    (g : Goes w h req blocks host port) (hm : h.start0 ≠ str "DELETE") :
    Once w h.start0 (bodyOf h) ((process w peer h).calls.map Prod.snd) := by
  have r := Cross.C58_request g.headers g.conv
  obtain ⟨p, hp, e⟩ := process_goes (peer := peer) g
  obtain ⟨c1, c2, c3, c4, c5⟩ := method_code r.method.1
  obtain ⟨b1, b2, b3, b4⟩ := bodyBuf_ok r
  rw [e]
  dsimp only
  rw [List.map_map, show (Prod.snd ∘ fun x => (p, x)) = (id : Call → Call) from rfl, List.map_id]
  have hsend : h.start0 ≠ str "GET" → Once w h.start0 (bodyOf h) (exchangeSend w req (bodyBuf blocks).1 (bodyBuf blocks).2).calls := by
    intro hg
    unfold exchangeSend
    by_cases hn : (bodyBuf blocks).2 > 0
    · rw [if_pos hn]
      rcases Nat.lt_or_ge 1024 (bodyOf h).length with hl | hl
      · unfold inBlocks
        dsimp only
        rw [(b4 hl).2.1]
        exact .large hg hl
      · have := (b3 hl).1
        omega
    · rw [if_neg hn]
      have hl : (bodyOf h).length ≤ 1024 := by
        rcases Nat.lt_or_ge 1024 (bodyOf h).length with hl | hl
        · have := (b4 hl).1
          omega
        · exact hl
      cases hx : w.exchange req with
      | ok resp =>
        dsimp only
        by_cases hc : resp.codeClass = 4 ∧ resp.codeDetail = 13
        · rw [if_pos hc]
          have hk : keepPayload req (bodyBuf blocks).1 = .ok (req.payload ++ (bodyBuf blocks).1.drop req.payload.length) := by
            unfold keepPayload
            rw [if_pos (by rw [b1, (b3 hl).2]; unfold BODY_LEN; omega)]
          rw [hk]
          unfold inBlocks
          dsimp only
          rw [List.take_left, (b3 hl).2]
          exact .again hg hl hx hc.1 hc.2
        · rw [if_neg hc]
          exact .plain hx (fun h => absurd h hg) (fun _ => ⟨hl, hc⟩)
      | err x => exact .failed (fun resp h => by rw [hx] at h; cases h) (fun _ => hl)
      | ub => exact .failed (fun resp h => by rw [hx] at h; cases h) (fun _ => hl)
  unfold exchange
  by_cases k1 : req.codeDetail = 1
  · rw [if_pos k1]
    have hg := c1.2 k1
    unfold exchangeGet
    cases hx : w.exchange req with
    | ok resp =>
      dsimp only
      cases hb : Msg.parseBlockOp Msg.BLOCK2 resp.ops with
      | ok o =>
        cases o with
        | none => exact .plain hx (fun _ => parseBlockOp_none hb) (fun h => absurd hg h)
        | some b => exact .rest hg hx hb
      | err x => exact .unread hg hx (fun b h => by rw [show Msg.parseBlockOp 23 resp.ops = _ from hb] at h; cases h)
      | ub => exact .unread hg hx (fun b h => by rw [show Msg.parseBlockOp 23 resp.ops = _ from hb] at h; cases h)
    | err x => exact .failed (fun resp h => by rw [hx] at h; cases h) (fun h => absurd hg h)
    | ub => exact .failed (fun resp h => by rw [hx] at h; cases h) (fun h => absurd hg h)
  · rw [if_neg k1]
    have hg : h.start0 ≠ str "GET" := fun h => k1 (c1.1 h)
    by_cases k3 : req.codeDetail = 3
    · rw [if_pos k3]
      exact hsend hg
    · rw [if_neg k3]
      have k2 : req.codeDetail = 2 := by
        rcases c5 with c | c | c | c
        · exact absurd c k1
        · exact c
        · exact absurd c k3
        · exact absurd (c4.2 c) hm
      rw [if_pos k2]
      exact hsend hg

/-- A world in which everything works, and the server answers with `resp`. -/
def world (resp : Msg) : World :=
  ⟨Cross.ample, Cross.ample, fun _ => true, fun _ _ => .ok (), fun _ => true, fun _ => .ok resp,
    fun _ _ _ _ body _ _ => .ok (0, resp, body), Cross.emptyHttp⟩

/-- A request of the HTTP client. -/
def request (method uri : String) (body : Option Bytes) : HMsg := ⟨str method, str uri, str "HTTP/1.1", [], body⟩

/-- The response `hello`. -/
def hello : Msg := { Msg.create with codeClass := 2, codeDetail := 5, payload := str "hello" }

/-- What the URI of the examples becomes. -/
def exOps : List Msg.Op := [⟨3, str "h"⟩, ⟨7, str "5683"⟩, ⟨11, str "a"⟩]

theorem exParse : Uri.parse true (fun _ => true) (str "coap://h:5683/a") =
    .ok ⟨some (str "coap"), none, some (str "h"), some (str "5683"), some (str "/a"), none, none⟩ := by decide +kernel

/-- The hypotheses are met. -/
example : Goes (world hello) (request "PUT" "coap://h:5683/a" (some (str "on")))
    { Msg.create with codeDetail := 3, ops := exOps, payload := str "on" } none (str "h") (str "5683") :=
  ⟨by decide +kernel, by simp [request], ⟨_, exParse, rfl, rfl⟩, rfl, fun _ => rfl⟩

/-- C65 fails: a DELETE request is not sent to the CoAP server at all, although it is converted. -/
theorem C65_violated : ¬ C65_statement := by
  intro h
  have := (h (world hello) none (request "DELETE" "coap://h:5683/a" none) { Msg.create with codeDetail := 4, ops := exOps } none
    (str "h") (str "5683") ⟨by decide +kernel, by simp [request], ⟨_, exParse, rfl, rfl⟩, rfl, fun _ => rfl⟩).1
  exact this (by decide +kernel)

/-! ## C66: the HTTP response is the response of the CoAP server -/

/-- C66: if the CoAP server answers a request with a response that is not in blocks and can be converted, the HTTP response has its
status and content. -/
def C66_statement : Prop :=
  ∀ (w : World) (peer : Peer) (h : HMsg) (req : Msg) (blocks : Option Bytes) (host port : Bytes) (resp : Msg), Goes w h req blocks host port →
    h.start0 ≠ str "DELETE" → (∀ q, w.exchange q = .ok resp) →
    (∀ q r s1 s2 body len hv, w.blockwise q r s1 s2 body len hv = .ok (0, resp, body)) →
    (∀ o ∈ resp.ops, o.num ≠ Msg.BLOCK2) → w.env'.Ample → (∃ x, Cross.respToHttp w.env' resp [] 0 = .ok x) →
    ∃ h', (process w peer h).res = .ok h' ∧ ResponseFor resp [] h'

/-- What the HTTP response comes from, given the last call of the CoAP client. -/
inductive Reflects (w : World) (c : Call) (h' : HMsg) : Prop where
  /-- The response of the CoAP server. -/
  | response {resp bl} : Answered w c resp bl → ResponseFor resp bl h' → Reflects w c h'
  /-- A response that cannot be converted. -/
  | strange {resp body n e} : Answered w c resp (body.take n) → Cross.respToHttp w.env' resp body n = .fail e 502 → h'.start0 = str "HTTP/1.1" → h'.start1 = str "502" → Reflects w c h'
  /-- A response with a Block option that cannot be read. -/
  | block {resp bl e} : Answered w c resp bl → Msg.parseBlockOp Msg.BLOCK2 resp.ops = .err e → h'.start0 = str "HTTP/1.1" →
      h'.start1 = statusOf e → bodyOf h' = [] → Reflects w c h'
  /-- A failure of the CoAP client. -/
  | failed {e} : Failed w c e → h'.start0 = str "HTTP/1.1" → h'.start1 = statusOf e → bodyOf h' = [] → Reflects w c h'

theorem errorResp_ok {w : World} {m h' : HMsg} {code : Nat} (e : errorResp w m code = .ok h') :
    h' = { m with start0 := str "HTTP/1.1", start1 := Cross.digits 9 code, start2 := Cross.respText code } := by
  unfold errorResp Cross.setStart Cross.strdup at e
  obtain ⟨a, ha, e⟩ := Out.bind_eq_ok.1 e
  obtain ⟨b, hb, e⟩ := Out.bind_eq_ok.1 e
  obtain ⟨c, hc, e⟩ := Out.bind_eq_ok.1 e
  split at ha
  · cases ha
    split at hb
    · cases hb
      split at hc
      · cases hc
        cases e
        rfl
      · cases hc
    · cases hb
  · cases ha

theorem failure_status (e : Err) : Cross.digits 9 (failureCode e) = statusOf e := by
  cases e <;> decide +kernel

/-- The response for what the exchange gives. -/
theorem respond_ok {w : World} {c : Call} {h' : HMsg} {resp : Msg} {body : Bytes} {n : Nat} (ha : Answered w c resp (body.take n))
    (e : respond w (.ok (resp, body, n)) = .ok h') (hl : n ≤ body.length) : Reflects w c h' := by
  unfold respond at e
  dsimp only at e
  split at e
  · rename_i x hx
    cases e
    exact .response ha (Cross.C59_response hx)
  · rename_i x code hx
    have := errorResp_ok e
    have hcode := (Cross.C59_total w.env' resp hl).2 _ _ hx
    subst this
    subst hcode
    exact .strange ha hx rfl (show Cross.digits 9 502 = str "502" by decide +kernel)
  · cases e

theorem respond_err {w : World} {c : Call} {h' : HMsg} {x : Err} (hf : Failed w c x) (e : respond w (.err x) = .ok h') : Reflects w c h' := by
  have := errorResp_ok e
  subst this
  exact .failed hf rfl (failure_status x) rfl

theorem inBlocks_ok {w : World} {calls : List Call} {q r : Msg} {s1 s2 : Nat} {body : Bytes} {len : Nat} {hv : Bool} {h' : HMsg}
    (hsafe : ∀ n resp body', w.blockwise q r s1 s2 body len hv = .ok (n, resp, body') → n ≤ body'.length)
    (e : respond w (inBlocks w calls q r s1 s2 body len hv).res = .ok h') :
    ∃ c, (inBlocks w calls q r s1 s2 body len hv).calls.getLast? = some c ∧ Reflects w c h' := by
  refine ⟨.blocks q s1 s2 (body.take len) hv, by simp [inBlocks], ?_⟩
  unfold inBlocks at e
  dsimp only at e
  cases hb : w.blockwise q r s1 s2 body len hv with
  | ok x =>
    obtain ⟨n, resp, body'⟩ := x
    rw [hb, Out.bind_ok] at e
    exact respond_ok (.blocks hb) e (hsafe n resp body' hb)
  | err x =>
    rw [hb, Out.bind_err] at e
    exact respond_err (.blocks hb) e
  | ub =>
    rw [hb, Out.bind_ub] at e
    cases e

theorem exchangeSend_ok {w : World} {req : Msg} {body : Bytes} {n : Nat} {h' : HMsg}
    (hsafe : ∀ q r s1 s2 body len hv n resp body', w.blockwise q r s1 s2 body len hv = .ok (n, resp, body') → n ≤ body'.length)
    (hz : ∀ {resp : Msg} {n : Nat} {body : Bytes}, n = 0 → w.exchange req = .ok resp → respond w (.ok (resp, body, n)) = .ok h' →
      Reflects w (.plain req) h')
    (e : respond w (exchangeSend w req body n).res = .ok h') :
    ∃ c, (exchangeSend w req body n).calls.getLast? = some c ∧ Reflects w c h' := by
  unfold exchangeSend at e ⊢
  by_cases hn : n > 0
  · rw [if_pos hn] at e ⊢
    exact inBlocks_ok (hsafe _ _ _ _ _ _ _) e
  · rw [if_neg hn] at e ⊢
    cases hx : w.exchange req with
    | ok resp =>
      rw [hx] at e
      dsimp only at e ⊢
      by_cases hc : resp.codeClass = 4 ∧ resp.codeDetail = 13
      · rw [if_pos hc] at e ⊢
        cases hk : keepPayload req body with
        | ok b =>
          rw [hk] at e
          exact inBlocks_ok (hsafe _ _ _ _ _ _ _) e
        | err x =>
          unfold keepPayload at hk
          split at hk <;> cases hk
        | ub =>
          rw [hk] at e
          cases e
      · rw [if_neg hc] at e ⊢
        exact ⟨_, rfl, hz (by omega) hx e⟩
    | err x =>
      rw [hx] at e
      exact ⟨_, rfl, respond_err (.plain hx) e⟩
    | ub =>
      rw [hx] at e
      cases e

/-- C66 without the case of a GET request with a body of more than 1024 bytes: the HTTP response comes from the last call of the CoAP client:
it is the response of the server with its status, entity tags and content (together with what was received in blocks), or the failure is
reported. -/
theorem C66_response_partial {w : World} {peer : Peer} {h h' : HMsg} {req : Msg} {blocks : Option Bytes} {host port : Bytes}
    (g : Goes w h req blocks host port) (hm : h.start0 ≠ str "DELETE") (hl : h.start0 = str "GET" → (bodyOf h).length ≤ 1024)
    (hsafe : ∀ q r s1 s2 body len hv n resp body', w.blockwise q r s1 s2 body len hv = .ok (n, resp, body') → n ≤ body'.length)
    (e : (process w peer h).res = .ok h') :
    ∃ c, (process w peer h).calls.getLast? = some c ∧ Is c.1 host port ∧ Reflects w c.2 h' := by
  have r := Cross.C58_request g.headers g.conv
  obtain ⟨p, hp, ep⟩ := process_goes (peer := peer) g
  obtain ⟨c1, c2, c3, c4, c5⟩ := method_code r.method.1
  obtain ⟨b1, b2, b3, b4⟩ := bodyBuf_ok r
  rw [ep] at e ⊢
  dsimp only at e ⊢
  suffices key : ∃ c, (exchange w req (bodyBuf blocks).1 (bodyBuf blocks).2).calls.getLast? = some c ∧ Reflects w c h' by
    obtain ⟨c, hc, hr⟩ := key
    exact ⟨(p, c), by rw [List.getLast?_map, hc]; rfl, hp, hr⟩
  have hz : ∀ {resp : Msg} {n : Nat} {body : Bytes}, n = 0 → w.exchange req = .ok resp → respond w (.ok (resp, body, n)) = .ok h' →
      Reflects w (.plain req) h' := by
    intro resp n body hn hx e
    subst hn
    exact respond_ok (body := body) (n := 0) (by rw [List.take_zero]; exact .plain hx) e (Nat.zero_le _)
  have hsend := fun (e : respond w (exchangeSend w req (bodyBuf blocks).1 (bodyBuf blocks).2).res = .ok h') =>
    exchangeSend_ok hsafe hz e
  unfold exchange at e ⊢
  by_cases k1 : req.codeDetail = 1
  · rw [if_pos k1] at e ⊢
    have hn : (bodyBuf blocks).2 = 0 := (b3 (hl (c1.2 k1))).1
    unfold exchangeGet at e ⊢
    cases hx : w.exchange req with
    | ok resp =>
      rw [hx] at e
      dsimp only at e ⊢
      split at e
      · exact ⟨_, rfl, hz hn hx e⟩
      · exact inBlocks_ok (hsafe _ _ _ _ _ _ _) e
      · rename_i x hb
        have := errorResp_ok e
        subst this
        exact ⟨_, rfl, .block (.plain hx) hb rfl (failure_status x) rfl⟩
      · cases e
    | err x =>
      rw [hx] at e
      exact ⟨_, rfl, respond_err (.plain hx) e⟩
    | ub =>
      rw [hx] at e
      cases e
  · rw [if_neg k1] at e ⊢
    by_cases k3 : req.codeDetail = 3
    · rw [if_pos k3] at e ⊢
      exact hsend e
    · rw [if_neg k3] at e ⊢
      have k2 : req.codeDetail = 2 := by
        rcases c5 with c | c | c | c
        · exact absurd c k1
        · exact c
        · exact absurd c k3
        · exact absurd (c4.2 c) hm
      rw [if_pos k2] at e ⊢
      exact hsend e

/-- The hypotheses are met. -/
example : ∃ h', (process (world hello) none (request "GET" "coap://h:5683/a" none)).res = .ok h' ∧ h'.body = some (str "hello") :=
  ⟨⟨str "HTTP/1.1", str "200", str "OK", [⟨str "Content-Length", str "5"⟩], some (str "hello")⟩, by decide +kernel, rfl⟩

/-- A GET request with a body of 1025 bytes. -/
def withBody : HMsg := request "GET" "coap://h:5683/a" (some (List.replicate 1025 0x41))

/-- C66 fails: the body of a GET request that is too long for one message is in the buffer for the body, and comes back as the content of the
response. -/
theorem C66_violated : ¬ C66_statement := by
  intro h
  obtain ⟨h', e, hr⟩ := h (world hello) none withBody { Msg.create with codeDetail := 1, ops := exOps }
    (some (List.replicate 1025 0x41)) (str "h") (str "5683") hello
    ⟨by decide +kernel, fun x hx => absurd hx List.not_mem_nil, ⟨_, exParse, rfl, rfl⟩, rfl, fun _ => rfl⟩ (by decide)
    (fun _ => rfl) (fun _ _ _ _ _ _ _ => rfl) (fun x hx => absurd hx List.not_mem_nil) Cross.ample_ample
    ⟨⟨str "HTTP/1.1", str "200", str "OK", [⟨str "Content-Length", str "5"⟩], some (str "hello")⟩, by decide +kernel⟩
  have e2 : (process (world hello) none withBody).res = .ok ⟨str "HTTP/1.1", str "200", str "OK", [⟨str "Content-Length", str "1025"⟩],
      some (List.replicate 1025 0x41)⟩ := by decide +kernel
  have e3 := hr.body
  rw [← Out.ok.inj (e2.symm.trans e)] at e3
  exact absurd (congrArg List.length e3) (by decide +kernel)

/-- A response that says that it is the first block of sixteen bytes, and that there are more. -/
def firstBlock : Msg := { Msg.create with codeClass := 2, codeDetail := 4, ops := [⟨Msg.BLOCK2, [0x08]⟩], payload := str "0123456789abcdef" }

/-- The second witness of C66: the response to a POST request comes in blocks, but only the first is fetched; the HTTP client takes
it for all. -/
theorem C66_violated_first_block :
    Msg.parseBlockOp Msg.BLOCK2 firstBlock.ops = .ok (some ⟨0, true, 16⟩) ∧
    (process (world firstBlock) none (request "POST" "coap://h:5683/a" (some (str "x")))).calls.length = 1 ∧
    (process (world firstBlock) none (request "POST" "coap://h:5683/a" (some (str "x")))).res =
      .ok ⟨str "HTTP/1.1", str "200", str "OK", [⟨str "Content-Length", str "16"⟩], some (str "0123456789abcdef")⟩ :=
  ⟨by decide +kernel, by decide +kernel, by decide +kernel⟩

/-- A time-out is reported with a reason phrase that the proxy does not have. -/
theorem C66_violated_reason :
    (process { world hello with exchange := fun _ => .err .ETIMEDOUT } none (request "GET" "coap://h:5683/a" none)).res =
      .ok ⟨str "HTTP/1.1", str "504", str "(Unknown)", [], none⟩ := by decide +kernel

/-! ## C67: no request makes the proxy leave defined behaviour -/

/-- The CoAP client and the network keep to their contracts: no undefined behaviour, a body within the buffer that was given, and no
empty Block2 option in a response. -/
structure Tame (w : World) : Prop where
  connect : ∀ h p, w.connect h p ≠ .ub
  exchange : ∀ q, w.exchange q ≠ .ub ∧ ∀ resp, w.exchange q = .ok resp → ∀ o ∈ resp.ops, o.num = Msg.BLOCK1 ∨ o.num = Msg.BLOCK2 → o.val ≠ []
  blockwise : ∀ q r s1 s2 body len hv, len ≤ body.length → w.blockwise q r s1 s2 body len hv ≠ .ub ∧
    ∀ n resp body', w.blockwise q r s1 s2 body len hv = .ok (n, resp, body') → n ≤ body'.length

/-- C67: no HTTP request makes the proxy leave defined behaviour. -/
def C67_statement : Prop :=
  ∀ (w : World) (peer : Peer) (h : HMsg), Tame w → (∀ x ∈ h.headers, x.value.length < 2 ^ 32) → (process w peer h).res ≠ .ub

theorem errorResp_ne_ub (w : World) (m : HMsg) (code : Nat) : errorResp w m code ≠ .ub := by
  have hs : ∀ s, Cross.strdup w.env' s ≠ .ub := by
    intro s
    unfold Cross.strdup
    split <;> simp
  unfold errorResp Cross.setStart
  exact Cross.bind_ne_ub (hs _) (fun _ _ => Cross.bind_ne_ub (hs _) (fun _ _ => Cross.bind_ne_ub (hs _) (fun _ _ => Cross.pure_ne_ub _)))

theorem respond_ne_ub {w : World} {r : Out (Msg × Bytes × Nat)} (h : r ≠ .ub) (hl : ∀ m b n, r = .ok (m, b, n) → n ≤ b.length) :
    respond w r ≠ .ub := by
  unfold respond
  split
  · rename_i resp body n
    have ht := (Cross.C59_total w.env' resp (hl resp body n rfl)).1
    split
    · simp
    · exact errorResp_ne_ub _ _ _
    · rename_i hu
      exact absurd hu ht
  · exact errorResp_ne_ub _ _ _
  · exact absurd rfl h

theorem inBlocks_safe {w : World} (t : Tame w) {calls : List Call} {q r : Msg} {s1 s2 : Nat} {body : Bytes} {len : Nat} {hv : Bool}
    (hl : len ≤ body.length) : (inBlocks w calls q r s1 s2 body len hv).res ≠ .ub ∧
      ∀ m b n, (inBlocks w calls q r s1 s2 body len hv).res = .ok (m, b, n) → n ≤ b.length := by
  obtain ⟨h1, h2⟩ := t.blockwise q r s1 s2 body len hv hl
  unfold inBlocks
  dsimp only
  refine ⟨Cross.bind_ne_ub h1 (fun _ _ => Cross.pure_ne_ub _), fun m b n e => ?_⟩
  obtain ⟨⟨n', m', b'⟩, e1, e2⟩ := Out.bind_eq_ok.1 e
  cases e2
  exact h2 _ _ _ e1

theorem exchange_safe {w : World} (t : Tame w) {req : Msg} {body : Bytes} {n : Nat} (hb : body.length = BODY_LEN) (hn : n ≤ BODY_LEN)
    (hp : req.payload.length ≤ 1024) :
    (exchange w req body n).res ≠ .ub ∧ ∀ m b k, (exchange w req body n).res = .ok (m, b, k) → k ≤ b.length := by
  have hsend : (exchangeSend w req body n).res ≠ .ub ∧ ∀ m b k, (exchangeSend w req body n).res = .ok (m, b, k) → k ≤ b.length := by
    unfold exchangeSend
    split
    · exact inBlocks_safe t (by omega)
    · split
      · rename_i resp hx
        split
        · have hk : keepPayload req body = .ok (req.payload ++ body.drop req.payload.length) := by
            unfold keepPayload
            rw [if_pos (by unfold BODY_LEN at hb; omega)]
          rw [hk]
          exact inBlocks_safe t (by rw [List.length_append]; omega)
        · refine ⟨by simp, fun m b k e => ?_⟩
          cases e
          omega
      · exact ⟨by simp, fun m b k e => by cases e⟩
      · rename_i hx
        exact absurd hx (t.exchange req).1
  unfold exchange
  split
  · unfold exchangeGet
    split
    · rename_i resp hx
      have hg := Server.parseBlockOp_good (type := Msg.BLOCK2) ((t.exchange req).2 resp hx)
      split
      · refine ⟨by simp, fun m b k e => ?_⟩
        cases e
        omega
      · exact inBlocks_safe t (by omega)
      · exact ⟨by simp, fun m b k e => by cases e⟩
      · rename_i hu
        exact absurd hu hg
    · exact ⟨by simp, fun m b k e => by cases e⟩
    · rename_i hx
      exact absurd hx (t.exchange req).1
  · split
    · exact hsend
    · split
      · exact hsend
      · refine ⟨by simp, fun m b k e => ?_⟩
        cases e
        omega

/-- C67 for URIs with a host and a port. -/
theorem C67_defined_partial {w : World} {peer : Peer} {h : HMsg} (t : Tame w) (hl : ∀ x ∈ h.headers, x.value.length < 2 ^ 32)
    (hu : ∀ u, Uri.parse w.env.sx w.uri h.start1 = .ok u → u.host ≠ none ∧ u.port ≠ none) : (process w peer h).res ≠ .ub := by
  unfold process
  split
  · exact errorResp_ne_ub _ _ _
  · rename_i hx
    exact absurd hx (Cross.C58_total _ _ _).1
  · rename_i req blocks hx
    have r := Cross.C58_request hl hx
    obtain ⟨b1, b2, b3, b4⟩ := bodyBuf_ok r
    have hp : req.payload.length ≤ 1024 := by
      rcases r.body with ⟨h1, h2, -⟩ | ⟨-, -, h2, -⟩ <;> rw [h2]
      · exact h1
      · decide
    split
    · simp
    · rename_i hx
      exact absurd hx (Uri.C40_total _ _ _)
    · rename_i u hpu
      obtain ⟨hh, hpo⟩ := hu u hpu
      have hcon : connect w u ≠ .ub := by
        unfold connect
        refine Cross.bind_ne_ub (t.connect _ _) (fun _ _ => ?_)
        split
        · rename_i h0
          exact absurd h0 hh
        · split
          · simp
          · split
            · rename_i h0
              exact absurd h0 hpo
            · split <;> simp
      have hch : (choose w peer u).2 ≠ .ub := by
        have hfresh : (match connect w u with
            | .ok p => (some p, Out.ok p)
            | .err e => (none, .err e)
            | .ub => ((none : Peer), .ub)).2 ≠ .ub := by
          split
          · simp
          · simp
          · rename_i h0
            exact absurd h0 hcon
        unfold choose
        dsimp only
        split
        · exact hfresh
        · split
          · rename_i h0
            exact absurd h0 hh
          · split
            · exact hfresh
            · split
              · rename_i h0
                exact absurd h0 hpo
              · split
                · exact hfresh
                · simp
      dsimp only
      split
      · simp
      · rename_i h0
        exact absurd h0 hch
      · obtain ⟨s1, s2⟩ := exchange_safe t (req := req) b1 b2 hp
        exact respond_ne_ub s1 s2

/-- The hypotheses are met. -/
theorem world_tame : Tame (world hello) :=
  ⟨fun _ _ => by simp [world], fun q => ⟨by simp [world], fun resp e o ho => by
    cases e
    exact absurd ho List.not_mem_nil⟩,
    fun q r s1 s2 body len hv _ => ⟨by simp [world], fun n resp body' e => by
      cases e
      exact Nat.zero_le _⟩⟩

/-- C67 fails: a URI without a port (as `coap://h/a`, for which the port is the default one) has no string for the port, which is copied
nevertheless; and compared with that of the server before. -/
theorem C67_violated : ¬ C67_statement ∧ (process (world hello) (some (str "h", str "5683")) (request "GET" "coap://h/a" none)).res = .ub := by
  refine ⟨fun h => ?_, by decide +kernel⟩
  have := h (world hello) none (request "GET" "coap://h/a" none)
    world_tame (by simp [request])
  exact this (by decide +kernel)

end FreeCoAP.Proxy
