import Verif.Proxy.LemmasBlocks

/-!
# C116: a resource in blocks is fetched through the proxy
-/

namespace FreeCoAP.Proxy

open FreeCoAP.Http (HMsg RawMsg)
open FreeCoAP.Msg (Msg Op)
open FreeCoAP.Server (Addr Env Event Srv cpath)
open FreeCoAP.EndToEnd (toward gets Ready Begins DistinctFirst Distinct Delivered Provides continued lastId IsBlock seeing)
open FreeCoAP.Client (stamped)

/-- What a user expects of the proxy if the network delivers: the HTTP client gets a resource that the server gives in blocks as a whole. -/
def C116_statement (sx : Bool) : Prop :=
  ∀ (px : Bool) (w : World) (peer : Peer) (h : HMsg) (req : Msg) (src : Bytes) (b2 : Nat) (host port : Bytes) (a : Addr) (evs mid : List (Env × Event))
    (s0 s1 s2 : Srv) (tr : List (List Server.Obs)) (env : Env) (x : Client.XEnv) (is js : List Client.Input) (d : Bytes) (o : List Server.Obs) (e : Option Err),
    Fetches sx px w h req src b2 host port a evs mid s0 s1 s2 tr env x is js d o e (fun _ _ _ => True) →
    ∃ h' p, Is p host port ∧ (process w peer h).calls = [(p, .plain req), (p, .blocks req b2 b2 (bodyBuf none).1 true)] ∧ (process w peer h).res = .ok h' ∧
      Relayed (inOne src) h'

theorem blocks_core {sx px : Bool} {w : World} {h : HMsg} {req : Msg} {src : Bytes} {b2 : Nat} {host port : Bytes} {a : Addr} {evs mid : List (Env × Event)}
    {s0 s1 s2 : Srv} {tr : List (List Server.Obs)} {env : Env} {x : Client.XEnv} {is js : List Client.Input} {d : Bytes} {o : List Server.Obs} {e : Option Err}
    (hf : Fetches sx px w h req src b2 host port a evs mid s0 s1 s2 tr env x is js d o e Distinct)
    (hid : DistinctFirst s0 (lastId sx a evs) env (stamped x req)) (peer : Peer) :
    ∃ p rp val rest, Is p host port ∧ process w peer h = ⟨some p, [(p, .plain req), (p, .blocks req b2 b2 (bodyBuf none).1 true)], .ok (whole src)⟩ ∧
      Cross.respToHttp w.env' rp (src ++ rest) src.length = .ok (whole src) ∧ rp.ops = [⟨23, val⟩] ∧ (src = [] → rp.payload = []) ∧ Relayed (inOne src) (whole src) := by
  have hpos := hf.ready.given.pos
  obtain ⟨obs, r, h1, -, h3⟩ := EndToEnd.C116_first_partial sx px a evs s0 s1 req b2 BODY_LEN src _ env x is js d o e hf.ready hf.begins hid hf.step
  have hx : w.exchange req = .ok r := hf.client _ _ h1
  obtain ⟨bs, ⟨s, last, seen, hd⟩, hlen, hcl⟩ := hf.follows _ _ h1
  obtain ⟨-, res, k1, -, k3⟩ := EndToEnd.C116_continued_partial sx px a evs mid s0 s1 s2 s req r b2 b2 BODY_LEN src _ env x is js d o e tr seen obs bs last
    hf.ready hf.begins hid hf.step h1 hf.between hf.kept hf.only hd
  obtain ⟨k4, k5, k6⟩ := k3 hlen
  have hk := hcl res _ k1 k4
  rw [k5] at hk
  obtain ⟨p, hp, ep⟩ := process_blocks (peer := peer) hf.goes hf.ready.get hx h3 hk
  obtain ⟨val, ho, hv⟩ := k6.option
  have hlast : ¬ (src.length / b2 + 1) * b2 ≤ src.length := by
    intro hn
    have := (Nat.le_div_iff_mul_le hpos).2 hn
    omega
  have c2 : res.resp.codeDetail = 5 := by rw [k6.block.detail, if_neg hlast]
  have c3 : src = [] → res.resp.payload = [] := by
    rintro rfl
    rw [k6.block.payload]
    simp
  have hops : ∀ o ∈ res.resp.ops, (o.num = 23 ∨ o.num = 27) ∧ o.val.length = 3 := by
    rw [ho]
    intro o ho
    rw [List.mem_singleton.1 ho]
    exact ⟨Or.inl rfl, hv⟩
  have e1 := respToHttp_whole (rest := (bodyBuf none).1.drop src.length) hf.memory k6.block.cls (Or.inr (Or.inr c2)) hops c3
  refine ⟨p, res.resp, val, _, hp, ?_, e1, ho, c3, whole_relayed e1 k6.block.cls (Or.inr (Or.inr c2)) hops c3 rfl c2.symm rfl rfl⟩
  rw [ep]
  unfold respond
  dsimp only
  rw [e1]

/-- C116 if the ids, which are random, are all different from the ones that the server takes for something else. -/
theorem C116_fetched_partial (sx px : Bool) (w : World) (peer : Peer) (h : HMsg) (req : Msg) (src : Bytes) (b2 : Nat) (host port : Bytes) (a : Addr)
    (evs mid : List (Env × Event)) (s0 s1 s2 : Srv) (tr : List (List Server.Obs)) (env : Env) (x : Client.XEnv) (is js : List Client.Input) (d : Bytes)
    (o : List Server.Obs) (e : Option Err) (hf : Fetches sx px w h req src b2 host port a evs mid s0 s1 s2 tr env x is js d o e Distinct)
    (hid : DistinctFirst s0 (lastId sx a evs) env (stamped x req)) :
    ∃ h' p, Is p host port ∧ (process w peer h).calls = [(p, .plain req), (p, .blocks req b2 b2 (bodyBuf none).1 true)] ∧ (process w peer h).res = .ok h' ∧
      Relayed (inOne src) h' := by
  obtain ⟨p, rp, val, rest, h1, h2, -, -, -, h3⟩ := blocks_core hf hid peer
  exact ⟨_, p, h1, by rw [h2], by rw [h2], h3⟩

theorem mixed_core {sx px : Bool} : ∀ (l : List Round) (p : Peer), (∀ x ∈ l, x.OK sx px ∨ ∃ src, x.InBlocks sx px src) →
    ∃ log, AllAnswered p (l.map (·.req)) (l.map (·.turn)) log ∧ log.length = l.length ∧
      ∀ (i : Nat) (x : Round) (e : Entry), l[i]? = some x → log[i]? = some e →
        (e.out.length ≤ 32768 ∧ ¬ IsSize e.out.length) ∧ Understood x.turn.w.env'.http x.resp e.out ∧ ∃ p, e.calls.head? = some (p, .plain x.coap)
  | [], p, _ => ⟨[], .nil, rfl, fun i x e h => by cases h⟩
  | x :: l, p, h => by
    rcases h x (List.mem_cons_self ..) with hx | ⟨src, hx⟩
    · obtain ⟨log1, k1, k2, k3⟩ := rounds_core (sx := sx) (px := px) [x] p (fun y hy => by rw [List.mem_singleton.1 hy]; exact hx)
      cases k1 with
      | cons hp hn =>
        rename_i q calls h' log'
        cases hn
        obtain ⟨log, g1, g2, g3⟩ := mixed_core l q (fun x hx => h x (List.mem_cons_of_mem _ hx))
        refine ⟨_ :: log, .cons hp g1, by rw [List.length_cons, List.length_cons, g2], ?_⟩
        intro i y e' hy he
        cases i with
        | succ i => exact g3 i y e' hy he
        | zero =>
          obtain ⟨j1, j2, c, j3⟩ := k3 0 y e' hy he
          refine ⟨⟨by show _ ≤ 32768; omega, fun hs => ?_⟩, j2, c, by rw [j3]; rfl⟩
          simp only [IsSize, List.mem_cons, List.not_mem_nil, or_false] at hs
          omega
    · obtain ⟨b2, host, port, a, evs, mid, s0, s1, s2, tr, env, c, is, js, d, o, e, hf, hid⟩ := hx.fetches
      obtain ⟨q, rp, val, rest, -, h2, h3, h4, h5, h6⟩ := blocks_core hf hid p
      obtain ⟨log, g1, g2, g3⟩ := mixed_core l (some q) (fun x hx => h x (List.mem_cons_of_mem _ hx))
      refine ⟨_ :: log, .cons h2 g1, by rw [List.length_cons, List.length_cons, g2], ?_⟩
      intro i y e' hy he
      cases i with
      | succ i => exact g3 i y e' hy he
      | zero =>
        rw [List.getElem?_cons_zero] at hy he
        cases hy
        cases he
        have hroom : src.length ≤ 8192 := hf.ready.room
        obtain ⟨w1, w2⟩ := whole_fits hroom
        refine ⟨⟨by show _ ≤ 32768; dsimp only; omega, w2 hx.length.1 hx.length.2⟩, ⟨whole src, ?_, by rw [hx.answer]; exact h6⟩, q, rfl⟩
        exact whole_read hf.memory hroom hx.content h3 (fun o ho => by
          rw [h4] at ho
          rw [List.mem_singleton.1 ho]
          exact Or.inl rfl) h5

/-- C116 on a connection: an HTTP client that makes any number of requests, one after the other, some of them for resources that come in blocks, gets for each the
answer of the application, as one HTTP response that it can read. -/
theorem C116_connection_partial (sx px : Bool) {W : Nat} {c : Conn} {l : List Round} (hW : 2 * MAX + 1 < W) (hc : connNew W true true true = .ok c)
    (hl : ∀ x ∈ l, x.OK sx px ∨ ∃ src, x.InBlocks sx px src) :
    ∃ log, conversation W c (l.map (fun x => (x.req.text, x.arrives, x.turn))) = .ok (log, .done) ∧ log.length = l.length ∧
      ∀ (i : Nat) (x : Round) (e : Entry), l[i]? = some x → log[i]? = some e →
        Understood x.turn.w.env'.http x.resp e.out ∧ ∃ p, e.calls.head? = some (p, .plain x.coap) := by
  obtain ⟨log, h1, h2, h3⟩ := mixed_core l none hl
  refine ⟨log, ?_, h2, fun i x e hx he => (h3 i x e hx he).2⟩
  have key := C77_answered_partial (l := l.map (fun x => (x.req, x.arrives, x.turn))) (log := log) hW hc
    (fun y hy => by
      obtain ⟨x, hx, rfl⟩ := List.mem_map.1 hy
      rcases hl x hx with h | ⟨src, h⟩
      · exact h.fair
      · exact h.fair)
    (by rw [List.map_map, List.map_map]; exact h1)
    (fun e he => by
      obtain ⟨i, hi, rfl⟩ := List.getElem_of_mem he
      exact (h3 i (l[i]'(h2 ▸ hi)) log[i] (List.getElem?_eq_getElem _) (List.getElem?_eq_getElem hi)).1)
  rw [List.map_map] at key
  exact key

/-! ## Examples -/

/-- The body, of 20 bytes, and the server whose application gives it in blocks of 16 bytes. -/
def fetchSrc : Bytes := List.replicate 20 0x61
def fetchEnv : Env := { Server.exEnv with handle := fun _ _ => .blockwise Msg.create 0 16 fetchSrc 20 none }

theorem fetchEnv_fine : Server.NoFault fetchEnv := ⟨⟨rfl, rfl, rfl⟩, rfl, rfl, rfl, rfl, rfl, rfl, rfl, rfl, rfl, rfl⟩

theorem fetchProvides : Provides (cpath 256 endReq.ops) fetchSrc 16 fetchEnv :=
  ⟨Msg.create, 0, none, fun _ _ _ _ => rfl, EndToEnd.created_built, rfl, Or.inl rfl⟩

theorem fetchReady {sx : Bool} {evs : List (Env × Event)} {s : Srv} {tr : List (List Server.Obs)} (h : Server.run sx Server.exInit evs = .ok (s, tr))
    (hi : ¬ Server.Transfer s [1]) : Ready sx [1] evs s endReq 16 16 BODY_LEN fetchSrc (bodyBuf none).1 := by
  obtain ⟨hb, hk⟩ := req_built (end_goes sx endB).headers (end_goes sx endB).conv
  exact ⟨⟨100, Server.exSep, 8, 64, Server.exPool, tr, Server.exPool_of, by decide, h, by decide⟩, hi, hb, (by unfold Client.NoBlocks; decide),
    endReq_ordinary sx, hk, rfl, ⟨0, by decide, rfl⟩, ⟨0, by decide, rfl⟩, by decide, Nat.le_of_eq (List.length_replicate ..).symm, by decide⟩

theorem fetchBegins (sx : Bool) : Begins sx false endReq fetchSrc 16 fetchEnv (replyX []) [] endGram := by
  have hw : Client.exchange sx false { replyX [] with inputs := [] } endReq = .ok ([.sent endGram, .arm 2500], none) := by cases sx <;> decide +kernel
  obtain ⟨hb, hk⟩ := req_built (end_goes sx endB).headers (end_goes sx endB).conv
  refine ⟨fetchEnv_fine, fetchProvides, Client.formats_iff.2 ⟨?_, by decide +kernel⟩, by decide, ⟨_, hw⟩, fun i hi => (by cases hi)⟩
  rcases Client.exchange_cases hb.type hw with ⟨-, e, he⟩ | ⟨-, -, o3, hs⟩
  · cases he
  · exact hs.send

/-- The environment of the client in the second turn, and its request. -/
def fetchB : Client.BEnv := ⟨{ replyX [] with id0 := 9 }, true, true, true, true⟩
def fetchGram : Bytes := [68, 1, 1, 9, 1, 2, 3, 5, 0x31, 104, 0x44, 0x35, 0x36, 0x38, 0x33, 0x41, 97, 0xc3, 0, 0, 0x10]
def fetchMsg : Msg := ⟨1, Msg.CON, 0, 1, 265, [1, 2, 3, 5], exOps ++ [⟨23, [0, 0, 0x10]⟩], []⟩

/-- The world of the proxy, when these datagrams arrive. -/
def fetchWorld (sx : Bool) (ds : List Bytes) (bs : List Client.BEnv) : World :=
  { replyWorld sx ds with blockwise := fun q r z1 z2 body len have_ =>
      match Client.exchangeBlockwise sx false q r z1 z2 body len have_ [] bs with
      | .ok res => match res.ret with | some (.ok n) => .ok (n, res.resp, res.body) | _ => .err .EIO
      | _ => .err .EIO }

theorem fetch_fits (val : Bytes) (hl : val.length = 3) :
    ∃ d, Server.Formats (stamped fetchB.x (Msg.addOp endReq Msg.BLOCK2 val)) d ∧ d.length < 1152 := by
  match val, hl with
  | [x, y, z], _ =>
    have hops : (stamped fetchB.x (Msg.addOp endReq Msg.BLOCK2 [x, y, z])).ops = exOps ++ [⟨23, [x, y, z]⟩] := by
      rfl
    have hlen : (Msg.enc (stamped fetchB.x (Msg.addOp endReq Msg.BLOCK2 [x, y, z]))).length ≤ 60 := by
      have : ∀ k, Msg.extSize k ≤ 2 := by intro k; unfold Msg.extSize; split <;> (try split) <;> omega
      have h1 := this (Msg.deltaOf ⟨23, [x, y, z]⟩ 11)
      have h2 := this (0 + 1 + 1 + 1)
      have h3 : (Msg.encOps 0 exOps).length = 9 := by decide +kernel
      have h5 : (stamped fetchB.x (Msg.addOp endReq Msg.BLOCK2 [x, y, z])).token.length = 4 := rfl
      have h6 : Msg.encPayload (stamped fetchB.x (Msg.addOp endReq Msg.BLOCK2 [x, y, z])) = [] := rfl
      have h7 : Msg.encOps 0 (exOps ++ [⟨23, [x, y, z]⟩]) = Msg.encOps 0 exOps ++ Msg.encOps 11 [⟨23, [x, y, z]⟩] := by
        simp [exOps, Msg.encOps]
      rw [Msg.enc]
      simp only [List.length_append, Msg.encHdr_length]
      rw [hops, h5, h6, h7]
      simp only [Msg.encOps, List.length_append, Msg.encOp_length, Op.len, List.length_cons, List.length_nil] at h3 ⊢
      omega
    obtain ⟨b', hb⟩ := Msg.format_room (m := stamped fetchB.x (Msg.addOp endReq Msg.BLOCK2 [x, y, z])) (buf := List.replicate Server.BUF_LEN 0)
      (len := Server.BUF_LEN) (by rw [List.length_replicate]; exact Nat.le_refl _) (by decide)
      ⟨fun h => (by cases h.2), fun h => (by cases h)⟩ (by rw [hops]; simp [exOps, str])
      (by rw [hops]; simp only [exOps, Server.BUF_LEN, List.length_append, List.length_cons, List.length_nil]; omega)
    exact ⟨_, Client.formats_iff.2 ⟨⟨_, hb⟩, rfl⟩, by omega⟩

/-- The hypotheses of the theorems are met: the HTTP client fetches 20 bytes that the server gives in two blocks. -/
theorem fetchExample : ∃ w s1 o, Server.step true Server.exInit fetchEnv (.datagram [1] endGram) = .ok (s1, o, none) ∧
    Fetches true false w (request "GET" "coap://h:5683/a" none) endReq fetchSrc 16 (str "h") (str "5683") [1] [] [] Server.exInit s1 s1 []
      fetchEnv (replyX []) [] [] endGram o none Distinct ∧
    DistinctFirst Server.exInit (lastId true [1] []) fetchEnv (stamped (replyX []) endReq) ∧ w.env' = Cross.ample := by
  have key : Server.test (Server.step true Server.exInit fetchEnv (.datagram [1] endGram)) (fun x1 =>
      decide (x1.2.2 = none) && EndToEnd.keptB true [1] x1.1 [] &&
      Server.test (Client.exchange true false { replyX [] with inputs := [] ++ ((toward [1] x1.2.1).map gets ++ []) } endReq) (fun y =>
        match y.2 with
        | some (.ok r) => Server.test (continued true false endReq r 16 16 (bodyBuf none).1 BODY_LEN [seeing fetchB []])
            (fun res => decide (EndToEnd.latest res.obs = some fetchGram))
        | _ => false) &&
      Server.test (Server.step true x1.1 fetchEnv (.datagram [1] fetchGram)) (fun x2 => decide (x1.1.sepList = Server.exSep) && decide (x2.2.2 = none))) = true := by
    decide +kernel
  obtain ⟨⟨s1, o, e⟩, h1, key⟩ := Server.test_ok key
  rw [Bool.and_eq_true, Bool.and_eq_true, Bool.and_eq_true] at key
  obtain ⟨⟨⟨ke, kk⟩, kx⟩, key⟩ := key
  obtain ⟨⟨obs, y⟩, hx, ky⟩ := Server.test_ok kx
  obtain ⟨⟨s3, o3, e3⟩, h3, kz⟩ := Server.test_ok key
  clear key
  rw [Bool.and_eq_true, decide_eq_true_eq] at kz
  obtain ⟨kz, -⟩ := kz
  replace ke := of_decide_eq_true ke
  clear kx
  dsimp only at ke kk ky hx h3 kz
  subst ke
  match y, hx, ky with
  | some (.ok r), hx, ky =>
    obtain ⟨res, hres, kl⟩ := Server.test_ok ky
    replace kl := of_decide_eq_true kl
    have hR : Ready true [1] [] Server.exInit endReq 16 16 BODY_LEN fetchSrc (bodyBuf none).1 := fetchReady rfl end_idle
    have hid : DistinctFirst Server.exInit (lastId true [1] []) fetchEnv (stamped (replyX []) endReq) :=
      ⟨by decide, by decide, fun _ => by decide +kernel⟩
    have hkept := EndToEnd.kept_of kk
    have hc : Server.Carries true fetchGram fetchMsg := by unfold Server.Carries; decide +kernel
    have d0 : Delivered true [1] (continued true false endReq r 16 16 (bodyBuf none).1 BODY_LEN) (Provides (cpath 256 endReq.ops) fetchSrc 16) Distinct s1
      (some (stamped (replyX []) endReq).msgId) [] s1 (some (stamped (replyX []) endReq).msgId) [] := .start
    obtain ⟨res', d, m, g1, g2, g3, g4, -, -⟩ := EndToEnd.C116_goes_on true false [1] [] [] Server.exInit s1 s1 s1 endReq r 16 16 BODY_LEN fetchSrc _ fetchEnv
      (replyX []) [] [] endGram o none [] [] obs [] _ hR (fetchBegins true) hid h1 hx rfl hkept (fun y hy => by cases hy) d0 (by decide) fetchB rfl rfl rfl fetch_fits
    have hsame : res' = res := by
      have := g1 []
      rw [List.nil_append, hres] at this
      exact (Out.ok.inj this).symm
    rw [hsame, kl] at g3
    cases Option.some.inj g3
    have d1 := d0.turn (t := ⟨[], fetchEnv, fetchB, [], [], fetchGram, fetchMsg⟩) (fun _ => rfl) rfl (fun hn => absurd rfl hn)
      ⟨⟨res', g1, g2, by rw [hsame]; exact kl⟩, g4, hc, fun i hi => (by cases hi), fetchEnv_fine, fetchProvides⟩
      ⟨by decide, by decide, fun hn => absurd ⟨rfl, by rw [kz]; decide +kernel⟩ hn⟩ h3
    refine ⟨fetchWorld true (toward [1] o) ([] ++ [seeing fetchB ([] ++ ((toward [1] o3).map gets ++ []))]), s1, o, h1, ?_, hid, rfl⟩
    refine ⟨⟨(end_goes true endB).conv, (end_goes true endB).headers, (end_goes true endB).uri, rfl, fun _ => rfl⟩, Cross.ample_ample, hR, fetchBegins true, h1, rfl, hkept,
      fun y hy => (by cases hy), (replyRelays_client h1), ?_⟩
    intro obs' r' hx'
    rw [hx] at hx'
    cases hx'
    refine ⟨_, ⟨_, _, _, d1⟩, rfl, ?_⟩
    intro res n hr hn
    unfold fetchWorld
    dsimp only
    rw [show Client.exchangeBlockwise true false endReq r 16 16 (bodyBuf none).1 8192 true [] _ = .ok res from hr]
    dsimp only
    rw [hn]

example : ∃ t : Turn, ∃ log, conversation (2 ^ 32) ⟨⟨0, BUF, MAX, List.replicate 4097 0⟩, ⟨0, BUF, MAX, List.replicate 4097 0⟩, none⟩
    [(get.text, List.replicate 40 (arrival 1), t), (get.text, List.replicate 40 (arrival 1), t)] = .ok (log, .done) ∧
    log.length = 2 ∧ ∀ e ∈ log, Understood Cross.ample.http (inOne fetchSrc) e.out := by
  obtain ⟨w, s1, o, -, h2, h3, h4⟩ := fetchExample
  have hok : Round.InBlocks true false ⟨get, List.replicate 40 (arrival 1), turn w, endReq, inOne fetchSrc⟩ fetchSrc :=
    ⟨turn_fair (by decide), rfl, ⟨_, _, _, _, _, _, _, _, _, _, _, _, _, _, _, _, _, h2, h3⟩, by decide, by decide⟩
  obtain ⟨log, g1, g2, g3⟩ := C116_connection_partial true false (W := 2 ^ 32)
    (l := [⟨get, List.replicate 40 (arrival 1), turn w, endReq, inOne fetchSrc⟩, ⟨get, List.replicate 40 (arrival 1), turn w, endReq, inOne fetchSrc⟩]) (by decide) rfl
    (fun x hx => by
      simp only [List.mem_cons, List.not_mem_nil, or_false, or_self] at hx
      rw [hx]
      exact Or.inr ⟨_, hok⟩)
  refine ⟨_, log, g1, g2, fun e he => ?_⟩
  obtain ⟨i, hi, rfl⟩ := List.getElem_of_mem he
  have hi' : i < 2 := by rw [g2] at hi; exact hi
  rw [← h4]
  match i, hi, hi' with
  | 0, hi, _ => exact (g3 0 _ _ rfl (List.getElem?_eq_getElem hi)).1
  | 1, hi, _ => exact (g3 1 _ _ rfl (List.getElem?_eq_getElem hi)).1

/-- C116 is violated: the server takes a request whose id, which is random, is the one of the request before for its repetition. -/
theorem C116_violated (sx : Bool) : ¬ C116_statement sx := by
  have key : Server.test (Server.run sx Server.exInit [(Server.exEnv, .datagram [1] replyTwin)]) (fun x1 =>
      decide (x1.1.trans.all (fun t => decide (t.blk.type = .regular)) = true) && EndToEnd.keptB sx [1] x1.1 [] &&
      Server.test (Server.step sx x1.1 fetchEnv (.datagram [1] endGram)) (fun x2 =>
        decide (x2.2.2 = none) && EndToEnd.keptB sx [1] x2.1 [] && decide (toward [1] x2.2.1 = [[0x64, 0x45, 1, 5, 9, 9, 9, 9, 0xff, 0x68, 0x69]]))) = true := by
    cases sx <;> decide +kernel
  obtain ⟨⟨s1, tr⟩, h1, key⟩ := Server.test_ok key
  rw [Bool.and_eq_true, Bool.and_eq_true] at key
  obtain ⟨⟨hreg, -⟩, key⟩ := key
  obtain ⟨⟨s2, o, e⟩, h2, key⟩ := Server.test_ok key
  rw [Bool.and_eq_true, Bool.and_eq_true, decide_eq_true_eq, decide_eq_true_eq] at key
  obtain ⟨⟨rfl, hk⟩, hto⟩ := key
  have hbad : (process (replyWorld sx [[0x64, 0x45, 1, 5, 9, 9, 9, 9, 0xff, 0x68, 0x69]]) none (request "GET" "coap://h:5683/a" none)).res =
      .ok ⟨str "HTTP/1.1", str "502", str "Bad Gateway", [], none⟩ := by cases sx <;> decide +kernel
  have hex : Client.test (Client.exchange sx false { replyX [] with inputs := [] ++ ([[0x64, 0x45, 1, 5, 9, 9, 9, 9, 0xff, 0x68, 0x69]].map gets ++ []) } endReq)
      (fun y => decide (y.2 = some (.error .EBADMSG))) = true := by cases sx <;> decide +kernel
  intro h
  obtain ⟨h', p, -, -, k3, k4⟩ := h false (replyWorld sx (toward [1] o)) none (request "GET" "coap://h:5683/a" none) endReq fetchSrc 16 (str "h") (str "5683") [1] _ []
    s1 s2 s2 [] fetchEnv (replyX []) [] [] endGram o none
    ⟨⟨(end_goes sx endB).conv, (end_goes sx endB).headers, (end_goes sx endB).uri, rfl, fun _ => rfl⟩, Cross.ample_ample,
      fetchReady h1 (EndToEnd.idle_of (of_decide_eq_true hreg) [1]), fetchBegins sx, h2, rfl, EndToEnd.kept_of hk, fun y hy => (by cases hy), replyRelays_client h2, fun obs r hx => by
        rw [hto] at hx
        rw [hx] at hex
        exact absurd hex (by simp [Client.test])⟩
  rw [hto, hbad] at k3
  cases k3
  have := k4.status "200" (by show ((2, 5), "200") ∈ Cross.table; decide)
  exact absurd this (by decide)

end FreeCoAP.Proxy
