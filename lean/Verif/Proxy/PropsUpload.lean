import Verif.Proxy.LemmasUpload

/-!
# C117: a large body is sent through the proxy
-/

namespace FreeCoAP.Proxy

open FreeCoAP.Http (HMsg RawMsg)
open FreeCoAP.Msg (Msg Op)
open FreeCoAP.Server (Addr Env Event Srv cpath bodiesOf)
open FreeCoAP.EndToEnd (toward gets ReadyUp Accepts Delivered Distinct courseUp carried lastId BlockRequest seeing)
open FreeCoAP.Client (stamped BEnv)

/-- What a user expects of the proxy if the network delivers: the application gets the body of the HTTP request as a whole, once, and the HTTP client gets the answer
of the application. -/
def C117_statement (sx : Bool) : Prop :=
  ∀ (px : Bool) (w : World) (peer : Peer) (h : HMsg) (req : Msg) (b : Bytes) (b1 room id d : Nat) (host port : Bytes) (a : Addr) (evs : List (Env × Event))
    (s0 s : Srv) (bs : List BEnv) (last : Option Nat) (seen : List (List Server.Obs)),
    Sends sx px w h req b b1 room id d host port a evs s0 s (fun _ _ _ => True) bs last seen →
    seen.flatMap (bodiesOf a) = [(a, id, Cross.bodyOf h)] ∧
    ∃ h' p, Is p host port ∧ (process w peer h).calls = [(p, .blocks req 32 32 (Cross.bodyOf h) false)] ∧ (process w peer h).res = .ok h' ∧ Relayed (taken d) h'

/-- What a call that sends the body `b` gives the proxy. -/
theorem send_outcome {sx px : Bool} {req resp : Msg} {b buf : Bytes} {b1 room id d : Nat} {a : Addr} {evs : List (Env × Event)} {s0 s : Srv} {bs : List BEnv}
    {last : Option Nat} {seen : List (List Server.Obs)} {res : Client.BRes} {r : Except Err Nat} (hd : d = 1 ∨ d = 4)
    (hR : ReadyUp sx a evs s0 req 32 32 b1 room b.length buf) (hb : buf.take b.length = b)
    (h : Delivered sx a (courseUp sx px req resp 32 32 buf b.length) (Accepts (cpath 256 req.ops) req.codeDetail b1 room id d) Distinct s0 (lastId sx a evs) bs s last seen)
    (k1 : courseUp sx px req resp 32 32 buf b.length bs = .ok res) (k2 : res.ret = some r) :
    seen.flatMap (bodiesOf a) = [(a, id, b)] ∧ ∃ rp, EndToEnd.ConfirmsLast d rp ∧ outcome res r = .ok (0, rp, buf) := by
  rcases EndToEnd.up_states hd hR h with ⟨rfl, -, -, -⟩ | ⟨-, -, ⟨szx, os, -, -, rp, hgo⟩, -⟩ | ⟨-, -, -, -, ⟨os, rp, hc, hfin⟩, hall⟩
  · exfalso
    obtain ⟨szx, hz⟩ : ∃ szx, Msg.calcBlockSzx 32 = .ok szx := hR.offered.szx
    obtain ⟨-, -, rp, hgo⟩ := EndToEnd.up_start (px := px) (resp := resp) hR hz hz
    have := hgo []
    rw [List.append_nil] at this
    rw [this] at k1
    cases k1
    cases k2
  · exfalso
    have := hgo []
    rw [List.append_nil] at this
    rw [this] at k1
    cases k1
    cases k2
  · have := hfin []
    rw [List.append_nil] at this
    rw [this] at k1
    cases k1
    cases k2
    exact ⟨by rw [hall, hb], rp, hc, rfl⟩

theorem send_core {sx px : Bool} {w : World} {h : HMsg} {req : Msg} {b : Bytes} {b1 room id d : Nat} {host port : Bytes} {a : Addr}
    {evs : List (Env × Event)} {s0 s : Srv} {bs : List BEnv} {last : Option Nat} {seen : List (List Server.Obs)}
    (hf : Sends sx px w h req b b1 room id d host port a evs s0 s Distinct bs last seen) (peer : Peer) :
    seen.flatMap (bodiesOf a) = [(a, id, b)] ∧ ∃ h' p, Is p host port ∧ process w peer h = ⟨some p, [(p, .blocks req 32 32 b false)], .ok h'⟩ ∧
      Relayed (taken d) h' ∧ (Http.text h').length < 4096 ∧ Http.parse w.env'.http (Http.text h') = .ok (h', (Http.text h').length) := by
  obtain ⟨res, r, k1, k2, k3⟩ := hf.returns
  obtain ⟨p, hp, ep⟩ := process_sends (peer := peer) hf.goes hf.ready.put hf.ready.body k3
  obtain ⟨hall, rp, hc, ho⟩ := send_outcome hf.code hf.ready (List.take_left ..) hf.turns k1 k2
  obtain ⟨h', e1, e2, e3, e4⟩ := confirm_relayed hf.memory hf.code hc (bodyBuf (some b)).1
  refine ⟨hall, h', p, hp, ?_, e2, e3, e4⟩
  rw [ep, ho]
  show Processed.mk (some p) _ (respond w (.ok (rp, (bodyBuf (some b)).1, 0))) = _
  unfold respond
  dsimp only
  rw [e1]

/-- C117 if the ids, which are random, are all different from the ones that the server takes for something else. -/
theorem C117_sent_partial (sx px : Bool) (w : World) (peer : Peer) (h : HMsg) (req : Msg) (b : Bytes) (b1 room id d : Nat) (host port : Bytes) (a : Addr)
    (evs : List (Env × Event)) (s0 s : Srv) (bs : List BEnv) (last : Option Nat) (seen : List (List Server.Obs))
    (hf : Sends sx px w h req b b1 room id d host port a evs s0 s Distinct bs last seen) :
    seen.flatMap (bodiesOf a) = [(a, id, Cross.bodyOf h)] ∧
    ∃ h' p, Is p host port ∧ (process w peer h).calls = [(p, .blocks req 32 32 (Cross.bodyOf h) false)] ∧ (process w peer h).res = .ok h' ∧ Relayed (taken d) h' := by
  have hb : Cross.bodyOf h = b := by
    rcases (Cross.C58_request hf.goes.headers hf.goes.conv).body with ⟨-, -, hn⟩ | ⟨-, -, -, hn⟩
    · cases hn
    · exact (Option.some.inj hn).symm
  obtain ⟨h1, h', p, h2, h3, h4, -⟩ := send_core hf peer
  rw [hb]
  exact ⟨h1, h', p, h2, by rw [h3], by rw [h3], h4⟩

/-- C117: the call of the library returns in the turn in which the turns can have carried the whole body, and not before. -/
theorem C117_returns (sx px : Bool) (req : Msg) (b : Bytes) (b1 room id d : Nat) (a : Addr) (evs : List (Env × Event)) (s0 s : Srv) (bs : List BEnv)
    (last : Option Nat) (seen : List (List Server.Obs)) (hd : d = 1 ∨ d = 4) (hR : ReadyUp sx a evs s0 req 32 32 b1 room b.length (bodyBuf (some b)).1)
    (h : Delivered sx a (sending sx px req b) (Accepts (cpath 256 req.ops) req.codeDetail b1 room id d) Distinct s0 (lastId sx a evs) bs s last seen) :
    ∃ res, sending sx px req b bs = .ok res ∧ (res.ret ≠ none ↔ b.length ≤ carried 32 (min 32 b1) bs.length) := by
  obtain ⟨-, res, k1, k2, k3⟩ := EndToEnd.C111_upload_partial sx px a evs s0 s req Msg.create 32 32 b1 room b.length id d _ bs last seen hd hR h
  refine ⟨res, k1, fun hn => ?_, fun hn => ?_⟩
  · by_cases hl : b.length ≤ carried 32 (min 32 b1) bs.length
    · exact hl
    · exact absurd (k2 (by omega)).1 hn
  · rw [(k3 hn).1]
    exact fun hn => (by cases hn)

/-- The rounds of C117 are answered. -/
theorem sent_answered {sx px : Bool} {x : Round} (h : x.Sent sx px) : x.Answered := by
  intro p
  obtain ⟨b, b1, room, id, d, host, port, a, evs, s0, s, bs, last, seen, hr, hf⟩ := h.sends
  obtain ⟨-, h', q, -, h3, h4, h5, h6⟩ := send_core hf p
  refine ⟨_, _, h', h3, by show _ ≤ 32768; omega, fun hs => ?_, h', h6, by rw [hr]; exact h4⟩
  simp only [IsSize, List.mem_cons, List.not_mem_nil, or_false] at hs
  omega

/-- C117 on a connection: an HTTP client that makes any number of requests, one after the other, some of them with bodies that are sent in blocks, some for
resources that come in blocks, gets for each the answer of the application, as one HTTP response that it can read. -/
theorem C117_connection_partial (sx px : Bool) {W : Nat} {c : Conn} {l : List Round} (hW : 2 * MAX + 1 < W) (hc : connNew W true true true = .ok c)
    (hl : ∀ x ∈ l, x.OK sx px ∨ (∃ src, x.InBlocks sx px src) ∨ x.Sent sx px) :
    ∃ log, conversation W c (l.map (fun x => (x.req.text, x.arrives, x.turn))) = .ok (log, .done) ∧ log.length = l.length ∧
      ∀ (i : Nat) (x : Round) (e : Entry), l[i]? = some x → log[i]? = some e → Understood x.turn.w.env'.http x.resp e.out := by
  refine connection_answered hW hc (fun x hx => ?_)
  rcases hl x hx with h | ⟨src, h⟩ | h
  · exact ⟨h.fair, mixed_answered (Or.inl h)⟩
  · exact ⟨h.fair, mixed_answered (Or.inr ⟨src, h⟩)⟩
  · exact ⟨h.fair, sent_answered h⟩

/-! ## Examples -/

/-- The body, of 1050 bytes, the request of the HTTP client, and the message that the proxy makes of it. -/
def sendBody : Bytes := List.replicate 1050 0x61
def sendPut : RawMsg := ⟨str "PUT", str "coap://h:5683/a", str "HTTP/1.1", [⟨str "Content-Length", str " 1050"⟩], .plain sendBody⟩
def sendReq : Msg := { Msg.create with codeDetail := 3, ops := exOps }

/-- A server with buffers of 1100 bytes, whose application takes bodies in blocks of 64 bytes and answers 2.04. -/
def sendPool : Mem.Pool := ⟨1000, 8, 1100, 20000, [0]⟩
def sendInit : Srv := Server.init 100 Server.exSep sendPool
def sendEnv : Env := { Server.exEnv with
  handle := fun _ _ => .blockwise Msg.create 64 16 [] 0 (some 1)
  rx := fun _ body _ _ resp => ⟨none, { resp with codeClass := 2, codeDetail := 4 }, body, 0⟩ }

/-- The client of the proxy. -/
def sendB : BEnv := ⟨replyX [], true, true, true, true⟩

theorem sendEnv_fine : Server.NoFault sendEnv := ⟨⟨rfl, rfl, rfl⟩, rfl, rfl, rfl, rfl, rfl, rfl, rfl, rfl, rfl, rfl⟩

theorem sendEnv_safe : Server.AppSafe sendEnv := by
  refine ⟨fun t m => ?_, fun t m resp b1 b2 body len rx h => ?_, fun id body e req resp h => ?_, fun id body e req resp => ?_,
    fun id body e req resp h => ?_⟩
  · exact Server.plain_nil rfl
  · cases h; decide
  · exact Server.plain_of_ops h rfl
  · rfl
  · exact Nat.zero_le _

theorem sendAccepts : Accepts (cpath 256 sendReq.ops) 3 64 1100 1 4 sendEnv :=
  ⟨⟨Msg.create, 16, [], 0, fun _ _ _ _ _ => rfl, EndToEnd.created_built, rfl, rfl, Or.inr ⟨0, by decide, rfl⟩, by decide⟩, fun _ _ _ _ => ⟨rfl, rfl, rfl⟩⟩

/-- What the proxy gets from a call. -/
def sendResult : Out Client.BRes → Out (Nat × Msg × Bytes)
  | .ok res => match res.ret with | some x => outcome res x | none => .err .EIO
  | _ => .err .EIO

/-- The world of the proxy, when the call of the library has these turns. -/
def sendWorld (sx : Bool) (bs : List BEnv) : World :=
  { world hello with blockwise := fun q r z1 z2 body len _ => sendResult (courseUp sx false q r z1 z2 body len bs) }

theorem sendWorld_blockwise (sx : Bool) (bs : List BEnv) (q r : Msg) (z1 z2 : Nat) (body : Bytes) (len : Nat) (have_ : Bool) :
    (sendWorld sx bs).blockwise q r z1 z2 body len have_ = sendResult (courseUp sx false q r z1 z2 body len bs) := rfl

theorem sendResult_of {o : Out Client.BRes} {res : Client.BRes} {r : Except Err Nat} (h : o = .ok res) (hr : res.ret = some r) : sendResult o = outcome res r := by
  rw [h, sendResult, hr]

theorem send_goes (sx : Bool) (bs : List BEnv) : Goes (sendWorld sx bs) sendPut.msg sendReq (some sendBody) (str "h") (str "5683") :=
  ⟨by show Cross.reqToCoap Cross.ample BODY_LEN _ = _; decide +kernel,
    (by
      intro x hx
      rw [show sendPut.msg.headers = [⟨str "Content-Length", str "1050"⟩] by decide +kernel] at hx
      rw [List.mem_singleton.1 hx]
      decide),
    ⟨_, exParse, rfl, rfl⟩, rfl, fun _ => rfl⟩

theorem sendReady {sx : Bool} {evs : List (Env × Event)} {s : Srv} {tr : List (List Server.Obs)} (h : Server.run sx sendInit evs = .ok (s, tr))
    (hi : ¬ Server.Transfer s [1]) : ReadyUp sx [1] evs s sendReq 32 32 64 1100 sendBody.length (bodyBuf (some sendBody)).1 := by
  obtain ⟨hb, hk⟩ := req_built (send_goes sx []).headers (send_goes sx []).conv
  exact ⟨⟨100, Server.exSep, 8, sendPool, tr, ⟨2 ^ 64, [], _, some 1000, some 20000, rfl⟩, by decide, h⟩, hi, hb, (by unfold Client.NoBlocks; decide),
    endReq_ordinary sx, hk, Or.inr rfl, ⟨1, by decide, rfl⟩, ⟨1, by decide, rfl⟩, ⟨2, by decide, rfl⟩, by decide +kernel, by decide +kernel, by decide +kernel, by decide +kernel⟩

theorem send_fits (i j : Byte) (m : Msg) (h : BlockRequest sendReq 32 m) :
    ∃ d, Server.Formats (stamped { sendB.x with id0 := i, id1 := j } m) d ∧ d.length < 1152 := by
  have hx : ∀ k, Msg.extSize k ≤ 2 := by intro k; unfold Msg.extSize; split <;> (try split) <;> omega
  have hop : ∀ o prev, (Msg.encOp prev o).length ≤ o.val.length + 5 := by
    intro o prev
    rw [Msg.encOp_length]
    have h1 := hx prev
    have h2 := hx o.len
    have h3 : o.len = o.val.length := rfl
    omega
  have hpay : ∀ m : Msg, (Msg.encPayload m).length ≤ m.payload.length + 1 := by
    intro m
    unfold Msg.encPayload
    split <;> simp
  have key : ∀ m : Msg, m.token.length = 4 → m.ops.length ≤ 5 → (∀ o ∈ m.ops, o.val.length ≤ 4) → m.payload.length ≤ 32 →
      (Msg.enc m).length ≤ 100 := by
    intro m h1 h2 h3 h4
    have hops : ∀ (l : List Op) (prev : Nat), (∀ o ∈ l, o.val.length ≤ 4) → (Msg.encOps prev l).length ≤ 9 * l.length := by
      intro l
      induction l with
      | nil => exact fun _ _ => Nat.zero_le _
      | cons o l ih =>
        intro prev hl
        rw [Msg.encOps, List.length_append, List.length_cons]
        have := ih o.num (fun o ho => hl o (List.mem_cons_of_mem _ ho))
        have h5 := hop o (Msg.deltaOf o prev)
        have h6 := hl o (List.mem_cons_self ..)
        omega
    have h5 := hops m.ops 0 h3
    have h6 := hpay m
    rw [Msg.enc]
    simp only [List.length_append, Msg.encHdr_length]
    omega
  have hend : ∀ m : Msg, m.token.length = 4 → Msg.Shape m → m.ops.length ≤ 5 → (∀ o ∈ m.ops, o.val.length ≤ 4) → m.payload.length ≤ 32 →
      ∃ d, Server.Formats m d ∧ d.length < 1152 := by
    intro m h1 h2 h3 h4 h5
    have hl := key m h1 h3 h4 h5
    obtain ⟨b', hb⟩ := Msg.format_room (m := m) (buf := List.replicate Server.BUF_LEN 0) (len := Server.BUF_LEN)
      (by rw [List.length_replicate]; exact Nat.le_refl _) (by decide) h2 (fun o ho => by have := h4 o ho; omega)
      (by show _ ≤ 1152; omega)
    exact ⟨_, Client.formats_iff.2 ⟨⟨_, hb⟩, rfl⟩, by omega⟩
  obtain ⟨v1, p, l1, hp, rfl | ⟨v2, l2, rfl⟩⟩ := h
  · refine hend _ rfl ⟨fun h => (by cases h.2), fun h => (by cases h)⟩ (show 4 ≤ 5 by decide) ?_ hp
    intro o ho
    rw [show (stamped { sendB.x with id0 := i, id1 := j } (Msg.setPayload (Msg.addOp sendReq Msg.BLOCK1 v1) p)).ops = exOps ++ [⟨27, v1⟩] from rfl] at ho
    simp only [exOps, List.cons_append, List.nil_append, List.mem_cons, List.not_mem_nil, or_false] at ho
    rcases ho with rfl | rfl | rfl | rfl
    · decide
    · decide
    · decide
    · show v1.length ≤ 4; omega
  · refine hend _ rfl ⟨fun h => (by cases h.2), fun h => (by cases h)⟩ (show 5 ≤ 5 by decide) ?_ hp
    intro o ho
    rw [show (stamped { sendB.x with id0 := i, id1 := j } (Msg.setPayload (Msg.addOp (Msg.addOp sendReq Msg.BLOCK1 v1) Msg.BLOCK2 v2) p)).ops =
      exOps ++ [⟨23, v2⟩, ⟨27, v1⟩] from rfl] at ho
    simp only [exOps, List.cons_append, List.nil_append, List.mem_cons, List.not_mem_nil, or_false] at ho
    rcases ho with rfl | rfl | rfl | rfl | rfl
    · decide
    · decide
    · decide
    · show v2.length ≤ 4; omega
    · show v1.length ≤ 4; omega

theorem send_idle (sx : Bool) : ReadyUp sx [1] [] sendInit sendReq 32 32 64 1100 sendBody.length (bodyBuf (some sendBody)).1 :=
  sendReady rfl (EndToEnd.idle_of (by decide +kernel) [1])

/-- The hypotheses of the theorems are met: a body of 1050 bytes is sent in 33 turns. -/
theorem sendExample (sx : Bool) : ∃ s bs last seen, bs.length = 33 ∧
    Sends sx false (sendWorld sx bs) sendPut.msg sendReq sendBody 64 1100 1 4 (str "h") (str "5683") [1] [] sendInit s Distinct bs last seen := by
  obtain ⟨bs, s, last, seen, hl, hd⟩ := EndToEnd.C111_possible sx false [1] [] sendInit sendReq Msg.create 32 32 64 1100 sendBody.length 1 4 _ (Or.inr rfl) (send_idle sx)
    (fun x hx => by cases hx) sendEnv sendEnv_fine sendEnv_safe sendAccepts sendB (Or.inl rfl) rfl rfl rfl rfl rfl rfl (fun i => send_fits i 0) 33 (by decide +kernel)
  refine ⟨s, bs, last, seen, hl, send_goes sx bs, Cross.ample_ample, send_idle sx, Or.inr rfl, hd, ?_⟩
  obtain ⟨res, k1, k2⟩ := C117_returns sx false sendReq sendBody 64 1100 1 4 [1] [] sendInit s bs last seen (Or.inr rfl) (send_idle sx) hd
  have k3 := k2.2 (by rw [hl]; decide +kernel)
  cases hr : res.ret with
  | none => exact absurd hr k3
  | some r =>
    refine ⟨res, r, k1, hr, ?_⟩
    exact sendResult_of k1 hr

theorem sendPut_wf : sendPut.WF := by
  refine ⟨by decide, by decide, by decide, ?_, ⟨?_, by decide, by decide +kernel, ?_⟩, by decide +kernel⟩
  · intro h hh
    rw [List.mem_singleton.1 (show h ∈ [_] from hh)]
    exact ⟨by decide, by decide, by decide⟩
  · rintro ⟨h, hh, hn, -⟩
    rw [List.mem_singleton.1 (show h ∈ [_] from hh)] at hn
    revert hn
    decide +kernel
  · exact ⟨[], _, [], rfl, by decide +kernel, fun h hh => (by cases hh), by decide +kernel, by decide +kernel, by decide +kernel⟩

theorem send_fair (w : World) : Fair sendPut (List.replicate 1200 (arrival 1)) (turn w) := by
  have hl : sendPut.text.length = 1104 := by decide +kernel
  refine ⟨sendPut_wf, by rw [hl]; decide, fun e he => ?_, by rw [hl, List.length_replicate]; decide, fun _ => heap_sized, fun i n h => ?_, fun x hx => ?_, ?_⟩
  · rw [List.eq_of_mem_replicate he]
    exact arrival_ok (by decide)
  · cases h
  · exact ⟨MAX - 1, List.eq_of_mem_replicate hx⟩
  · unfold turn
    rw [List.length_replicate]
    exact Nat.le_refl _

/-- An HTTP client fetches a resource in blocks and then sends a large body. -/
example : ∃ t t' : Turn, ∃ log, conversation (2 ^ 32) ⟨⟨0, BUF, MAX, List.replicate 4097 0⟩, ⟨0, BUF, MAX, List.replicate 4097 0⟩, none⟩
    [(get.text, List.replicate 40 (arrival 1), t), (sendPut.text, List.replicate 1200 (arrival 1), t')] = .ok (log, .done) ∧
    ∃ e e', log = [e, e'] ∧ Understood Cross.ample.http (inOne fetchSrc) e.out ∧ Understood Cross.ample.http (taken 4) e'.out := by
  obtain ⟨w, s1, o, -, h2, h3, h4⟩ := fetchExample
  obtain ⟨s, bs, last, seen, -, hs⟩ := sendExample true
  have hok : Round.InBlocks true false ⟨get, List.replicate 40 (arrival 1), turn w, endReq, inOne fetchSrc⟩ fetchSrc :=
    ⟨turn_fair (by decide), rfl, ⟨_, _, _, _, _, _, _, _, _, _, _, _, _, _, _, _, _, h2, h3⟩, by decide, by decide⟩
  have hok' : Round.Sent true false ⟨sendPut, List.replicate 1200 (arrival 1), turn (sendWorld true bs), sendReq, taken 4⟩ :=
    ⟨send_fair _, ⟨_, _, _, _, _, _, _, _, _, _, _, _, _, _, rfl, hs⟩⟩
  obtain ⟨log, g1, g2, g3⟩ := C117_connection_partial true false (W := 2 ^ 32)
    (l := [⟨get, List.replicate 40 (arrival 1), turn w, endReq, inOne fetchSrc⟩,
      ⟨sendPut, List.replicate 1200 (arrival 1), turn (sendWorld true bs), sendReq, taken 4⟩]) (by decide) rfl
    (fun x hx => by
      simp only [List.mem_cons, List.not_mem_nil, or_false] at hx
      rcases hx with rfl | rfl
      · exact Or.inr (Or.inl ⟨_, hok⟩)
      · exact Or.inr (Or.inr hok'))
  match log, g2 with
  | [e, e'], _ =>
    refine ⟨_, _, _, g1, e, e', rfl, ?_, g3 1 _ _ rfl rfl⟩
    rw [← h4]
    exact g3 0 _ _ rfl rfl

/-- The first request, as a datagram and as a message. -/
def sendGram : Bytes := [68, 3, 1, 5, 1, 2, 3, 5, 49, 104, 68, 53, 54, 56, 51, 65, 97, 211, 3, 0, 0, 9, 255] ++ List.replicate 32 97
def sendMsg : Msg := ⟨1, Msg.CON, 0, 3, 261, [1, 2, 3, 5], exOps ++ [⟨27, [0, 0, 9]⟩], List.replicate 32 97⟩

/-- C117 is violated: the ids of the requests are random. If the id of the first request is the one of the previous request of the proxy, the server takes it for its
repetition, and the HTTP client gets the status 502. -/
theorem C117_violated (sx : Bool) : ¬ C117_statement sx := by
  have key : Server.test (Server.run sx sendInit [(Server.exEnv, .datagram [1] replyTwin)]) (fun x1 =>
      x1.1.trans.all (fun t => decide (t.blk.type = .regular)) &&
      Server.test (Server.step sx x1.1 sendEnv (.datagram [1] sendGram)) (fun x2 =>
        decide (toward [1] x2.2.1 = [[0x64, 0x45, 1, 5, 9, 9, 9, 9, 0xff, 0x68, 0x69]]))) = true := by
    cases sx <;> decide +kernel
  obtain ⟨⟨s1, tr⟩, h1, key⟩ := Server.test_ok key
  rw [Bool.and_eq_true] at key
  obtain ⟨hreg, key⟩ := key
  obtain ⟨⟨s2, o, e⟩, h2, key⟩ := Server.test_ok key
  replace key := of_decide_eq_true key
  dsimp only at h2 key
  have hR := sendReady h1 (EndToEnd.idle_of hreg [1])
  have hc : Server.Carries sx sendGram sendMsg := by unfold Server.Carries; cases sx <;> decide +kernel
  have hlast : Server.test (sending sx false sendReq sendBody [seeing sendB []]) (fun r => decide (EndToEnd.latest r.obs = some sendGram)) = true := by
    cases sx <;> decide +kernel
  obtain ⟨r0, hr0, hlast⟩ := Server.test_ok hlast
  replace hlast := of_decide_eq_true hlast
  have d0 : Delivered sx [1] (sending sx false sendReq sendBody) (Accepts (cpath 256 sendReq.ops) 3 64 1100 1 4) Distinct s1
    (lastId sx [1] [(Server.exEnv, .datagram [1] replyTwin)]) [] s1 (lastId sx [1] [(Server.exEnv, .datagram [1] replyTwin)]) [] := .start
  obtain ⟨res, d, m, g1, g2, g3, g4, -⟩ := EndToEnd.C111_goes_on sx false [1] _ s1 s1 sendReq Msg.create 32 32 64 1100 sendBody.length 1 4 _ [] _ [] (Or.inr rfl) hR d0
    (by decide +kernel) sendB (Or.inl rfl) rfl rfl rfl rfl rfl rfl (send_fits 5 1)
  have hsame : res = r0 := by
    have := g1 []
    rw [List.nil_append, show courseUp sx false sendReq Msg.create 32 32 _ sendBody.length [seeing sendB []] = .ok r0 from hr0] at this
    exact (Out.ok.inj this).symm
  rw [hsame, hlast] at g3
  cases Option.some.inj g3
  have hbad : Server.test (sending sx false sendReq sendBody [seeing sendB [gets [0x64, 0x45, 1, 5, 9, 9, 9, 9, 0xff, 0x68, 0x69]]])
      (fun r => decide (r.ret = some (.error .EBADMSG))) = true := by cases sx <;> decide +kernel
  obtain ⟨rb, hrb, hbad⟩ := Server.test_ok hbad
  replace hbad := of_decide_eq_true hbad
  have hdel := Delivered.turn (ids := fun _ _ _ => True) (s0 := s1) (last0 := lastId sx [1] [(Server.exEnv, .datagram [1] replyTwin)])
    (t := ⟨[], sendEnv, sendB, [], [], sendGram, sendMsg⟩) .start (fun _ => rfl) rfl (fun hn => absurd rfl hn)
    ⟨⟨res, g1, g2, by rw [hsame]; exact hlast⟩, g4, hc, fun i hi => (by cases hi), sendEnv_fine, sendAccepts⟩ trivial h2
  rw [key] at hdel
  have hw : (sendWorld sx [seeing sendB [gets [0x64, 0x45, 1, 5, 9, 9, 9, 9, 0xff, 0x68, 0x69]]]).blockwise sendReq Msg.create 32 32 (bodyBuf (some sendBody)).1
      sendBody.length false = outcome rb (.error .EBADMSG) := by
    rw [sendWorld_blockwise]
    exact sendResult_of hrb hbad
  intro h
  obtain ⟨-, h', p, -, -, k3, k4⟩ := h false (sendWorld sx [seeing sendB [gets [0x64, 0x45, 1, 5, 9, 9, 9, 9, 0xff, 0x68, 0x69]]]) none sendPut.msg sendReq sendBody 64 1100
    1 4 (str "h") (str "5683") [1] _ s1 s2 [seeing sendB [gets [0x64, 0x45, 1, 5, 9, 9, 9, 9, 0xff, 0x68, 0x69]]] _ _
    ⟨send_goes sx _, Cross.ample_ample, hR, Or.inr rfl, hdel, rb, _, hrb, hbad, hw⟩
  obtain ⟨q, -, hq⟩ := process_sends (peer := none) (send_goes sx _) (Or.inr rfl) hR.body hw
  rw [hq] at k3
  cases k3
  have := k4.status "200" (by show ((2, 4), "200") ∈ Cross.table; decide)
  exact absurd this (by decide)

theorem fetchEnv_safe : Server.AppSafe fetchEnv := by
  refine ⟨fun t m => ?_, fun t m resp b1 b2 body len rx h => ?_, fun id body e req resp h => ?_, fun id body e req resp => ?_,
    fun id body e req resp h => ?_⟩
  · exact Server.plain_nil rfl
  · cases h; decide
  · exact Server.plain_of_ops h rfl
  · rfl
  · exact h

/-- The hypotheses of `C116_possible` are met. -/
example : ∃ s1 r bs s last seen, bs.length = 1 ∧
    Delivered true [1] (EndToEnd.continued true false endReq r 16 16 (bodyBuf none).1 BODY_LEN) (EndToEnd.Provides (cpath 256 endReq.ops) fetchSrc 16) Distinct s1
      (some (stamped (replyX []) endReq).msgId) bs s last seen := by
  obtain ⟨w, s1, o, h1, h2, h3, -⟩ := fetchExample
  obtain ⟨obs, r, g1, -⟩ := EndToEnd.C116_first_partial true false [1] [] Server.exInit s1 endReq 16 BODY_LEN fetchSrc _ fetchEnv (replyX []) [] [] endGram o none
    h2.ready h2.begins h3 h1
  obtain ⟨bs, s, last, seen, k1, k2⟩ := EndToEnd.C116_possible true false [1] [] [] Server.exInit s1 s1 endReq r 16 16 BODY_LEN fetchSrc _ fetchEnv (replyX []) [] []
    endGram o none [] obs h2.ready h2.begins h3 h1 g1 rfl h2.kept h2.only (fun x hx => by cases hx) fetchEnv_safe (Server.harmless_of (by decide +kernel))
    (fun x hx => by cases hx) fetchB rfl rfl rfl
    (fun i val hv => by
      refine EndToEnd.small_fits rfl ⟨fun h => (by cases h.2), fun h => (by cases h)⟩ (show 4 ≤ 5 by decide) (fun o ho => ?_) (Nat.zero_le _)
      rcases EndToEnd.mem_addOp (show o ∈ (Msg.addOp endReq Msg.BLOCK2 val).ops from ho) with rfl | ho
      · show val.length ≤ 4; omega
      · exact (by decide : ∀ o ∈ endReq.ops, o.val.length ≤ 4) o ho) 1 (by decide)
  exact ⟨s1, r, bs, s, last, seen, k1, k2⟩

end FreeCoAP.Proxy
