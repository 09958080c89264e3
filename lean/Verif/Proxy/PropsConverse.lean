import Verif.Proxy.SpecConverse
import Verif.Proxy.PropsUpload

/-!
# C118: a large body is sent through the proxy and answered with a body
-/

namespace FreeCoAP.Proxy

open FreeCoAP.Http (HMsg RawMsg)
open FreeCoAP.Msg (Msg Op)
open FreeCoAP.Server (Addr Env Event Srv cpath bodiesOf)
open FreeCoAP.EndToEnd (toward gets ReadyUp ReadyBoth Replies Delivered Distinct courseUp carried upTurns lastId BlockRequest seeing echo)
open FreeCoAP.Client (stamped BEnv)

/-- What a user expects of the proxy if the network delivers: the application gets the body of the HTTP request as a whole, once, and the HTTP client gets the answer
of the application with its whole body. -/
def C118_statement (sx : Bool) (ids : Srv → Option Nat → EndToEnd.Turn → Prop) : Prop :=
  ∀ (px : Bool) (w : World) (peer : Peer) (h : HMsg) (req : Msg) (b : Bytes) (b1 b2 room id d : Nat) (f : Bytes → Bytes) (host port : Bytes) (a : Addr)
    (evs : List (Env × Event)) (s0 s : Srv) (bs : List BEnv) (last : Option Nat) (seen : List (List Server.Obs)),
    Converses sx px w h req b b1 b2 room id d f host port a evs s0 s ids bs last seen →
    seen.flatMap (bodiesOf a) = [(a, id, Cross.bodyOf h)] ∧
    ∃ h' p, Is p host port ∧ (process w peer h).calls = [(p, .blocks req 32 32 (Cross.bodyOf h) false)] ∧ (process w peer h).res = .ok h' ∧
      Relayed (said d (f (Cross.bodyOf h))) h'

theorem converses_body {sx px : Bool} {w : World} {h : HMsg} {req : Msg} {b : Bytes} {b1 b2 room id d : Nat} {f : Bytes → Bytes} {host port : Bytes} {a : Addr}
    {evs : List (Env × Event)} {s0 s : Srv} {ids : Srv → Option Nat → EndToEnd.Turn → Prop} {bs : List BEnv} {last : Option Nat} {seen : List (List Server.Obs)}
    (hf : Converses sx px w h req b b1 b2 room id d f host port a evs s0 s ids bs last seen) : Cross.bodyOf h = b := by
  rcases (Cross.C58_request hf.goes.headers hf.goes.conv).body with ⟨-, -, hn⟩ | ⟨-, -, -, hn⟩
  · cases hn
  · exact (Option.some.inj hn).symm

/-- What a call that sends the body `b` and receives an answer gives the proxy: the whole answer and the response with its last block, or the error. -/
theorem converse_outcome {sx px : Bool} {req resp : Msg} {b buf : Bytes} {b1 b2 room id d : Nat} {f : Bytes → Bytes} {a : Addr} {evs : List (Env × Event)}
    {s0 s : Srv} {bs : List BEnv} {last : Option Nat} {seen : List (List Server.Obs)} {res : Client.BRes} {r : Except Err Nat} (hd : d = 1 ∨ d = 4)
    (hR : ReadyBoth sx a evs s0 req 32 32 b1 b2 room b.length buf (f b)) (hb : buf.take b.length = b)
    (h : Delivered sx a (courseUp sx px req resp 32 32 buf b.length) (Replies (cpath 256 req.ops) req.codeDetail b1 b2 room id d f) Distinct s0 (lastId sx a evs)
      bs s last seen)
    (k1 : courseUp sx px req resp 32 32 buf b.length bs = .ok res) (k2 : res.ret = some r) :
    seen.flatMap (bodiesOf a) = [(a, id, b)] ∧
      (((f b).length ≤ b.length ∧ ∃ rp, rp.codeClass = 2 ∧ rp.codeDetail = d ∧ (∀ o ∈ rp.ops, (o.num = 23 ∨ o.num = 27) ∧ o.val.length = 3) ∧
        outcome res r = .ok ((f b).length, rp, f b ++ buf.drop (f b).length)) ∨
       (b.length < (f b).length ∧ outcome res r = .err .ENOSPC)) := by
  have hst := EndToEnd.both_states hd (f := f) (by rw [hb]; exact hR) h
  rw [hb] at hst
  rcases hst with ⟨rfl, -, -, -⟩ | ⟨-, -, ⟨szx, os, -, -, rp, hgo⟩, -⟩ | ⟨j, -, -, -, ⟨szx, os, -, -, rp, hgo⟩, -⟩ |
    ⟨j, -, -, hlt, hle, ⟨rp, hlb, os, hfin⟩, hall⟩ | ⟨j, -, -, -, hlong, ⟨os, rp, body, hfin⟩, hall⟩
  · exfalso
    obtain ⟨szx, hz⟩ : ∃ szx, Msg.calcBlockSzx 32 = .ok szx := hR.up.offered.szx
    obtain ⟨-, -, rp, hgo⟩ := EndToEnd.up_start (px := px) (resp := resp) hR.up hz hz
    have := hgo []
    rw [List.append_nil] at this
    rw [this] at k1
    cases k1
    cases k2
  · exfalso
    have := hgo []
    rw [List.append_nil] at this
    rw [this] at k1
    cases k1
    cases k2
  · exfalso
    have := hgo []
    rw [List.append_nil] at this
    rw [this] at k1
    cases k1
    cases k2
  · have := hfin []
    rw [List.append_nil] at this
    rw [this] at k1
    cases k1
    cases k2
    exact ⟨hall, Or.inl ⟨hle, rp, hlb.block.cls, by rw [hlb.block.detail, if_neg (by omega)], hlb.options, rfl⟩⟩
  · have := hfin []
    rw [List.append_nil] at this
    rw [this] at k1
    cases k1
    cases k2
    exact ⟨hall, Or.inr ⟨hlong, rfl⟩⟩

/-- The HTTP response for the response with the last block. -/
theorem respond_whole {w : World} (he : w.env'.Ample) {d : Nat} {rp : Msg} {out rest : Bytes} (hd : d = 1 ∨ d = 4) (h1 : rp.codeClass = 2) (h2 : rp.codeDetail = d)
    (ho : ∀ o ∈ rp.ops, (o.num = 23 ∨ o.num = 27) ∧ o.val.length = 3) (hne : out ≠ []) :
    respond w (.ok (rp, out ++ rest, out.length)) = .ok (whole out) ∧ Cross.respToHttp w.env' rp (out ++ rest) out.length = .ok (whole out) ∧
      Relayed (said d out) (whole out) := by
  have hd : rp.codeDetail = 1 ∨ rp.codeDetail = 4 ∨ rp.codeDetail = 5 := by omega
  have hn : out = [] → rp.payload = [] := fun hn => absurd hn hne
  have e1 := respToHttp_whole (rest := rest) he h1 hd ho hn
  refine ⟨?_, e1, whole_relayed e1 h1 hd ho hn rfl h2.symm rfl rfl⟩
  unfold respond
  dsimp only
  rw [e1]

/-- What the proxy has when the call has returned. -/
theorem converse_core {sx px : Bool} {w : World} {h : HMsg} {req : Msg} {b : Bytes} {b1 b2 room id d : Nat} {f : Bytes → Bytes} {host port : Bytes} {a : Addr}
    {evs : List (Env × Event)} {s0 s : Srv} {bs : List BEnv} {last : Option Nat} {seen : List (List Server.Obs)}
    (hf : Converses sx px w h req b b1 b2 room id d f host port a evs s0 s Distinct bs last seen) (peer : Peer) :
    seen.flatMap (bodiesOf a) = [(a, id, b)] ∧ ∃ p, Is p host port ∧
      (((f b).length ≤ b.length ∧ ∃ rp rest, process w peer h = ⟨some p, [(p, .blocks req 32 32 b false)], .ok (whole (f b))⟩ ∧
        Cross.respToHttp w.env' rp (f b ++ rest) (f b).length = .ok (whole (f b)) ∧ (∀ o ∈ rp.ops, o.num = 23 ∨ o.num = 27) ∧ Relayed (said d (f b)) (whole (f b))) ∨
       (b.length < (f b).length ∧ process w peer h = ⟨some p, [(p, .blocks req 32 32 b false)], errorResp w Cross.emptyHttp 501⟩)) := by
  obtain ⟨res, r, k1, k2, k3⟩ := hf.returns
  obtain ⟨p, hp, ep⟩ := process_sends (peer := peer) hf.goes hf.ready.up.put hf.ready.up.body k3
  obtain ⟨hall, ⟨hle, rp, c1, c2, hops, ho⟩ | ⟨hlong, ho⟩⟩ := converse_outcome hf.code hf.ready (List.take_left ..) hf.turns k1 k2
  · obtain ⟨e1, e2, e3⟩ := respond_whole (rest := (bodyBuf (some b)).1.drop (f b).length) hf.memory hf.code c1 c2 hops hf.ready.some
    refine ⟨hall, p, hp, Or.inl ⟨hle, rp, _, ?_, e2, fun o ho => (hops o ho).1, e3⟩⟩
    rw [ep, ho]
    exact congrArg _ e1
  · refine ⟨hall, p, hp, Or.inr ⟨hlong, ?_⟩⟩
    rw [ep, ho]
    rfl

/-- C118 if the answer is not longer than the body of the request, and the ids, which are random, are all different from the ones that the server takes for something
else. -/
theorem C118_answered_partial (sx px : Bool) (w : World) (peer : Peer) (h : HMsg) (req : Msg) (b : Bytes) (b1 b2 room id d : Nat) (f : Bytes → Bytes)
    (host port : Bytes) (a : Addr) (evs : List (Env × Event)) (s0 s : Srv) (bs : List BEnv) (last : Option Nat) (seen : List (List Server.Obs))
    (hf : Converses sx px w h req b b1 b2 room id d f host port a evs s0 s Distinct bs last seen) (hlen : (f (Cross.bodyOf h)).length ≤ (Cross.bodyOf h).length) :
    seen.flatMap (bodiesOf a) = [(a, id, Cross.bodyOf h)] ∧
    ∃ h' p, Is p host port ∧ (process w peer h).calls = [(p, .blocks req 32 32 (Cross.bodyOf h) false)] ∧ (process w peer h).res = .ok h' ∧
      Relayed (said d (f (Cross.bodyOf h))) h' := by
  have hb := converses_body hf
  rw [hb] at hlen ⊢
  obtain ⟨h1, p, hp, ⟨-, rp, rest, h2, -, -, h3⟩ | ⟨hn, -⟩⟩ := converse_core hf peer
  · exact ⟨h1, _, p, hp, by rw [h2], by rw [h2], h3⟩
  · omega

/-- C118: an answer that is longer than the body of the request never reaches the HTTP client. It gets the status 501, although the application has taken the body. -/
theorem C118_too_long (sx px : Bool) (w : World) (peer : Peer) (h : HMsg) (req : Msg) (b : Bytes) (b1 b2 room id d : Nat) (f : Bytes → Bytes)
    (host port : Bytes) (a : Addr) (evs : List (Env × Event)) (s0 s : Srv) (bs : List BEnv) (last : Option Nat) (seen : List (List Server.Obs))
    (hf : Converses sx px w h req b b1 b2 room id d f host port a evs s0 s Distinct bs last seen) (hlen : (Cross.bodyOf h).length < (f (Cross.bodyOf h)).length) :
    seen.flatMap (bodiesOf a) = [(a, id, Cross.bodyOf h)] ∧
    ∃ h' p, Is p host port ∧ (process w peer h).calls = [(p, .blocks req 32 32 (Cross.bodyOf h) false)] ∧ (process w peer h).res = .ok h' ∧
      h'.start1 = str "501" ∧ h'.body = none := by
  have hb := converses_body hf
  rw [hb] at hlen ⊢
  obtain ⟨h1, p, hp, ⟨hn, -⟩ | ⟨-, h2⟩⟩ := converse_core hf peer
  · omega
  · have he : errorResp w Cross.emptyHttp 501 = .ok { Cross.emptyHttp with start0 := str "HTTP/1.1", start1 := str "501", start2 := Cross.respText 501 } := by
      unfold errorResp Cross.setStart Cross.strdup
      rw [if_pos (hf.memory.2.1 _), if_pos (hf.memory.2.1 _), if_pos (hf.memory.2.1 _)]
      rfl
    rw [he] at h2
    exact ⟨h1, _, p, hp, by rw [h2], by rw [h2], rfl, rfl⟩

/-- The rounds of C118 are answered. -/
theorem conversed_answered {sx px : Bool} {x : Round} (h : x.Conversed sx px) : x.Answered := by
  intro p
  obtain ⟨b, b1, b2, room, id, d, f, host, port, a, evs, s0, s, bs, last, seen, hr, hf, hlen, hz, hl1, hl2⟩ := h.converses
  obtain ⟨-, q, -, ⟨-, rp, rest, h3, h4, h5, h6⟩ | ⟨hn, -⟩⟩ := converse_core hf p
  · have hb : b.length ≤ 8192 := (bodyBuf_ok (Cross.C58_request hf.goes.headers hf.goes.conv)).2.1
    obtain ⟨w1, w2⟩ := whole_fits (src := f b) (by omega)
    refine ⟨_, _, _, h3, by show _ ≤ 32768; omega, w2 hl1 hl2, whole (f b), ?_, by rw [hr]; exact h6⟩
    exact whole_read hf.memory (by omega) hz h4 h5 (fun hn => absurd hn hf.ready.some)
  · omega

/-- C118 on a connection: an HTTP client that makes any number of requests, one after the other, some of them with bodies that are sent in blocks and answered
with bodies, gets for each the answer of the application, as one HTTP response that it can read. -/
theorem C118_connection_partial (sx px : Bool) {W : Nat} {c : Conn} {l : List Round} (hW : 2 * MAX + 1 < W) (hc : connNew W true true true = .ok c)
    (hl : ∀ x ∈ l, x.OK sx px ∨ (∃ src, x.InBlocks sx px src) ∨ x.Sent sx px ∨ x.Conversed sx px) :
    ∃ log, conversation W c (l.map (fun x => (x.req.text, x.arrives, x.turn))) = .ok (log, .done) ∧ log.length = l.length ∧
      ∀ (i : Nat) (x : Round) (e : Entry), l[i]? = some x → log[i]? = some e → Understood x.turn.w.env'.http x.resp e.out := by
  refine connection_answered hW hc (fun x hx => ?_)
  rcases hl x hx with h | ⟨src, h⟩ | h | h
  · exact ⟨h.fair, mixed_answered (Or.inl h)⟩
  · exact ⟨h.fair, mixed_answered (Or.inr ⟨src, h⟩)⟩
  · exact ⟨h.fair, sent_answered h⟩
  · exact ⟨h.fair, conversed_answered h⟩

theorem at_last {n k : Nat} {α : Type} {r : Option α} (h0 : n ≤ k) (h1 : n < k → r = none) (h2 : n = k → r ≠ none) : r ≠ none ↔ k ≤ n := by
  refine ⟨fun hn => ?_, fun hn => h2 (by omega)⟩
  rcases Nat.lt_or_ge n k with h | h
  · exact absurd (h1 h) hn
  · exact h

/-- The call of the library returns in the turn in which the turns can have carried both bodies, or as much of the answer as the body is long, and not before. -/
theorem converse_returns {sx px : Bool} {req resp : Msg} {b buf : Bytes} {b1 b2 room id d : Nat} {f : Bytes → Bytes} {a : Addr} {evs : List (Env × Event)}
    {s0 s : Srv} {bs : List BEnv} {last : Option Nat} {seen : List (List Server.Obs)} (hd : d = 1 ∨ d = 4)
    (hR : ReadyBoth sx a evs s0 req 32 32 b1 b2 room b.length buf (f b)) (htake : buf.take b.length = b)
    (h : Delivered sx a (courseUp sx px req resp 32 32 buf b.length) (Replies (cpath 256 req.ops) req.codeDetail b1 b2 room id d f) Distinct s0 (lastId sx a evs)
      bs s last seen) :
    ∃ res, courseUp sx px req resp 32 32 buf b.length bs = .ok res ∧
      (res.ret ≠ none ↔ upTurns 32 (min 32 b1) b.length + min (f b).length b.length / min 32 b2 ≤ bs.length) := by
  have hR' : ReadyBoth sx a evs s0 req 32 32 b1 b2 room b.length buf (f (buf.take b.length)) := by
    rw [htake]
    exact hR
  by_cases hl : (f b).length ≤ b.length
  · obtain ⟨k0, res, k1, -, -, k2, k3⟩ := EndToEnd.C112_exchange_partial sx px a evs s0 s req resp 32 32 b1 b2 room b.length id d f _ bs last seen hd hR'
      (by rw [htake]; exact hl) h
    rw [htake] at k0 k2 k3
    rw [Nat.min_eq_left hl]
    exact ⟨res, k1, (at_last k0 k2 (fun he => by rw [(k3 he).1]; exact fun hn => (by cases hn)))⟩
  · obtain ⟨k0, res, k1, k2, k3⟩ := EndToEnd.C112_too_long sx px a evs s0 s req resp 32 32 b1 b2 room b.length id d f _ bs last seen hd hR'
      (by rw [htake]; omega) h
    rw [Nat.min_eq_right (show b.length ≤ (f b).length by omega)]
    exact ⟨res, k1, (at_last k0 k2 (fun he => by rw [(k3 he).1]; exact fun hn => (by cases hn)))⟩

/-- C118: the call of the library returns in the turn in which the turns can have carried both bodies, or as much of the answer as the body is long, and not before. -/
theorem C118_returns (sx px : Bool) (req : Msg) (b : Bytes) (b1 b2 room id d : Nat) (f : Bytes → Bytes) (a : Addr) (evs : List (Env × Event)) (s0 s : Srv)
    (bs : List BEnv) (last : Option Nat) (seen : List (List Server.Obs)) (hd : d = 1 ∨ d = 4)
    (hR : ReadyBoth sx a evs s0 req 32 32 b1 b2 room b.length (bodyBuf (some b)).1 (f b))
    (h : Delivered sx a (sending sx px req b) (Replies (cpath 256 req.ops) req.codeDetail b1 b2 room id d f) Distinct s0 (lastId sx a evs) bs s last seen) :
    ∃ res, sending sx px req b bs = .ok res ∧
      (res.ret ≠ none ↔ upTurns 32 (min 32 b1) b.length + min (f b).length b.length / min 32 b2 ≤ bs.length) :=
  converse_returns hd hR (List.take_left ..) h

/-! ## Examples -/

/-- Every request of the transfer of `sendReq` fits into a datagram. -/
theorem converse_fits (i : Byte) (m : Msg) (h : BlockRequest sendReq 32 m ∨ ∃ val : Bytes, val.length = 3 ∧ m = Msg.addOp sendReq Msg.BLOCK2 val) :
    ∃ d, Server.Formats (stamped { sendB.x with id0 := i, id1 := 0 } m) d ∧ d.length < 1152 := by
  rcases h with h | ⟨val, hv, rfl⟩
  · exact send_fits i 0 m h
  · refine EndToEnd.small_fits rfl ⟨fun h => (by cases h.2), fun h => (by cases h)⟩ (show 4 ≤ 5 by decide) (fun o ho => ?_) (Nat.zero_le _)
    rcases EndToEnd.mem_addOp (show o ∈ (Msg.addOp sendReq Msg.BLOCK2 val).ops from ho) with rfl | ho
    · show val.length ≤ 4; omega
    · exact (by decide : ∀ o ∈ sendReq.ops, o.val.length ≤ 4) o ho

theorem converseReady (sx : Bool) {out : Bytes} (h : out ≠ []) (hn : out.length < 2 ^ 20 * 32) :
    ReadyBoth sx [1] [] sendInit sendReq 32 32 64 64 1100 sendBody.length (bodyBuf (some sendBody)).1 out :=
  ⟨send_idle sx, ⟨2, by decide, rfl⟩, h, hn⟩

/-- The hypotheses of the theorems are met for every application that is well behaved: a body of 1050 bytes is sent in 33 turns, and its answer comes in the last of
them and the following ones. -/
theorem converseExample (sx : Bool) (env : Env) (f : Bytes → Bytes) (hf : Server.NoFault env) (hs : Server.AppSafe env)
    (happ : Replies (cpath 256 sendReq.ops) 3 64 64 1100 1 4 f env) (h : f sendBody ≠ []) (hn : (f sendBody).length < 2 ^ 20 * 32) :
    ∃ s bs last seen, bs.length = 33 + min (f sendBody).length 1050 / 32 ∧
    Converses sx false (sendWorld sx bs) sendPut.msg sendReq sendBody 64 64 1100 1 4 f (str "h") (str "5683") [1] [] sendInit s Distinct bs last seen := by
  have hlen : sendBody.length = 1050 := List.length_replicate
  have htake : (bodyBuf (some sendBody)).1.take sendBody.length = sendBody := List.take_left ..
  have hR := converseReady sx h hn
  have hup : upTurns 32 (min 32 64) sendBody.length = 33 := by rw [hlen]; decide
  obtain ⟨bs, s, last, seen, hl, hd⟩ := EndToEnd.C112_possible sx false [1] [] sendInit sendReq Msg.create 32 32 64 64 1100 sendBody.length 1 4 f _ (Or.inr rfl)
    (by rw [htake]; exact hR) (fun x hx => by cases hx) env hf hs happ sendB (Or.inl rfl) rfl rfl rfl rfl rfl rfl converse_fits
    (33 + min (f sendBody).length 1050 / 32) (by rw [htake, hup, hlen]; exact Nat.le_refl _)
  refine ⟨s, bs, last, seen, hl, send_goes sx bs, Cross.ample_ample, hR, Or.inr rfl, hd, ?_⟩
  obtain ⟨res, k1, k2⟩ := C118_returns sx false sendReq sendBody 64 64 1100 1 4 f [1] [] sendInit s bs last seen (Or.inr rfl) hR hd
  have k3 := k2.2 (by rw [hl, hup, hlen]; exact Nat.le_refl _)
  cases hr : res.ret with
  | none => exact absurd hr k3
  | some r =>
    refine ⟨res, r, k1, hr, ?_⟩
    exact sendResult_of k1 hr

/-- An application that answers with its whole buffer, of 1100 bytes. -/
def fullEnv : Env := { Server.exEnv with
  handle := fun _ _ => .blockwise Msg.create 64 64 [] 0 (some 1)
  rx := fun _ body _ _ resp => ⟨none, { resp with codeClass := 2, codeDetail := 4 }, List.replicate body.length 7, body.length⟩ }

theorem fullEnv_safe : Server.AppSafe fullEnv := by
  refine ⟨fun t m => ?_, fun t m resp b1 b2 body len rx h => ?_, fun id body e req resp h => ?_, fun id body e req resp => ?_,
    fun id body e req resp h => ?_⟩
  · exact Server.plain_nil rfl
  · cases h; decide
  · exact Server.plain_of_ops h rfl
  · exact List.length_replicate
  · exact Nat.le_refl _

theorem fullReplies : Replies (cpath 256 sendReq.ops) 3 64 64 1100 1 4 (fun _ => List.replicate 1100 7) fullEnv := by
  refine ⟨⟨Msg.create, [], 0, fun _ _ _ _ _ => rfl, EndToEnd.created_built, rfl, rfl, by decide⟩, fun bytes e req resp hb => ⟨rfl, ?_, ?_, rfl⟩⟩
  · exact Nat.le_of_eq List.length_replicate.symm
  · show (List.replicate bytes.length 7).take bytes.length = _
    rw [hb, List.take_of_length_le (Nat.le_of_eq List.length_replicate)]

/-- C118 is violated, even if the ids are different: the proxy passes the length of the body of the request, which is also the limit of the answer. If the application
answers a body of 1050 bytes with 1100 bytes, the HTTP client gets the status 501. -/
theorem C118_violated (sx : Bool) : ¬ C118_statement sx Distinct := by
  intro h
  obtain ⟨s, bs, last, seen, -, hc⟩ := converseExample sx fullEnv _ ⟨⟨rfl, rfl, rfl⟩, rfl, rfl, rfl, rfl, rfl, rfl, rfl, rfl, rfl, rfl⟩ fullEnv_safe fullReplies
    (fun hn => absurd (congrArg List.length hn) (by rw [List.length_replicate]; decide)) (by rw [List.length_replicate]; decide)
  have hb : (Cross.bodyOf sendPut.msg).length = 1050 := by
    rw [converses_body hc]
    exact List.length_replicate
  obtain ⟨-, h', p, -, -, k1, k2, -⟩ := C118_too_long _ _ _ none _ _ _ _ _ _ _ _ _ _ _ _ _ _ _ _ _ _ hc (by rw [hb, List.length_replicate]; decide)
  obtain ⟨-, h'', p', -, -, j1, j2⟩ := h _ _ none _ _ _ _ _ _ _ _ _ _ _ _ _ _ _ _ _ _ hc
  rw [k1] at j1
  cases j1
  have := j2.status "200" (by show ((2, 4), "200") ∈ Cross.table; decide)
  rw [k2] at this
  exact absurd this (by decide)

/-- An HTTP client sends a large body and gets a large answer. -/
example : ∃ t : Turn, ∃ e, conversation (2 ^ 32) ⟨⟨0, BUF, MAX, List.replicate 4097 0⟩, ⟨0, BUF, MAX, List.replicate 4097 0⟩, none⟩
    [(sendPut.text, List.replicate 1200 (arrival 1), t)] = .ok ([e], .done) ∧ Understood Cross.ample.http (said 4 (List.replicate 1050 0x62)) e.out := by
  have hecho : echo sendBody = List.replicate 1050 0x62 := List.map_replicate
  obtain ⟨s, bs, last, seen, -, hs⟩ := converseExample true (EndToEnd.exEcho 64 64) echo (EndToEnd.exEcho_fine 64 64) (EndToEnd.exEcho_safe 64 64)
    (EndToEnd.exEcho_replies ..) (fun hn => absurd (congrArg List.length hn) (by rw [hecho, List.length_replicate]; decide))
    (by rw [hecho, List.length_replicate]; decide)
  have hok : Round.Conversed true false ⟨sendPut, List.replicate 1200 (arrival 1), turn (sendWorld true bs), sendReq, said 4 (echo sendBody)⟩ := by
    refine ⟨send_fair _, ⟨_, _, _, _, _, _, _, _, _, _, _, _, _, _, _, _, rfl, hs, ?_⟩⟩
    rw [hecho, List.length_replicate, show sendBody.length = 1050 from List.length_replicate]
    exact ⟨by decide, fun hn => absurd (List.eq_of_mem_replicate hn) (by decide), by decide, by decide⟩
  obtain ⟨log, g1, g2, g3⟩ := C118_connection_partial true false (W := 2 ^ 32)
    (l := [⟨sendPut, List.replicate 1200 (arrival 1), turn (sendWorld true bs), sendReq, said 4 (echo sendBody)⟩]) (by decide) rfl
    (fun x hx => by
      rw [List.mem_singleton.1 hx]
      exact Or.inr (Or.inr (Or.inr hok)))
  match log, g2 with
  | [e], _ => exact ⟨_, e, g1, by rw [← hecho]; exact g3 0 _ _ rfl rfl⟩

end FreeCoAP.Proxy
