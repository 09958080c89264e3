import Verif.EndToEnd.LemmasTurnsUp
import Verif.EndToEnd.PropsTurns

/-!
# A blockwise upload over a network that delivers

C111. C38 says what holds if an upload succeeds. This file says when it does, and how many turns it takes.
-/

namespace FreeCoAP.EndToEnd

open FreeCoAP.Msg
open FreeCoAP.Server (Env Event Addr Asks Carries Built Srv Reach Transfer AllKnown Formats BlockSize SInv cpath Tidy run step init PoolOf bodiesOf Receiving)
open FreeCoAP.Client (stamped BEnv BRes NoBlocks)

/-- The situation when the client calls: the server, which has any history and a memory pool with a buffer of `room` bytes for every client, is not in a
transfer with the client at `a`; the request is a PUT or POST request without Block options; the block sizes are valid; the body, which is the first `bodyLen`
bytes of `buf`, is not empty, fits into the buffers of the server, and its blocks can be numbered. -/
structure ReadyUp (sx : Bool) (a : Addr) (evs : List (Env × Event)) (s : Srv) (req : Msg) (size1 size2 b1 room bodyLen : Nat) (buf : Bytes) : Prop where
  server : ∃ id sepList nbuf pool tr, PoolOf nbuf room pool ∧ 8 ≤ nbuf ∧ run sx (init id sepList pool) evs = .ok (s, tr)
  idle : ¬ Transfer s a
  built : Built req
  plain : NoBlocks req
  ordinary : Ordinary sx req
  known : AllKnown req
  put : req.codeDetail = 2 ∨ req.codeDetail = 3
  offered : BlockSize size1
  asked : BlockSize size2
  taken : BlockSize b1
  body : 0 < bodyLen
  buffer : bodyLen ≤ buf.length
  fits : bodyLen ≤ room
  blocks : bodyLen ≤ 2 ^ 20 * min size1 b1

/-- What a user expects of a network that delivers: the call goes on until all the blocks have been confirmed, and the application is passed nothing; then the
call succeeds with the response of the application, which has been passed the body once. -/
def C111_statement (sx : Bool) : Prop :=
  ∀ (px : Bool) (a : Addr) (evs : List (Env × Event)) (s0 s : Srv) (req resp : Msg) (size1 size2 b1 room bodyLen id d : Nat) (buf : Bytes) (bs : List BEnv)
    (last : Option Nat) (seen : List (List Server.Obs)), (d = 1 ∨ d = 4) →
    ReadyUp sx a evs s0 req size1 size2 b1 room bodyLen buf →
    Delivered sx a (courseUp sx px req resp size1 size2 buf bodyLen) (Accepts (cpath 256 req.ops) req.codeDetail b1 room id d) (fun _ _ _ => True) s0
      (lastId sx a evs) bs s last seen →
    ∃ res, courseUp sx px req resp size1 size2 buf bodyLen bs = .ok res ∧
      (carried size1 (min size1 b1) bs.length < bodyLen → res.ret = none ∧ seen.flatMap (bodiesOf a) = []) ∧
      (bodyLen ≤ carried size1 (min size1 b1) bs.length → res.ret = some (.ok 0) ∧ res.resp.codeClass = 2 ∧ res.resp.codeDetail = d ∧
        seen.flatMap (bodiesOf a) = [(a, id, buf.take bodyLen)])

/-- The client before the first turn. -/
theorem up_start {sx px : Bool} {a : Addr} {evs : List (Env × Event)} {s0 : Srv} {req resp : Msg} {size1 size2 b1 room bodyLen szx1 szx2 : Nat} {buf : Bytes}
    (hR : ReadyUp sx a evs s0 req size1 size2 b1 room bodyLen buf) (hz1 : calcBlockSzx size1 = .ok szx1) (hz2 : calcBlockSzx size2 = .ok szx2) :
    GoesUp sx px (courseUp sx px req resp size1 size2 buf bodyLen) req size2 buf bodyLen size1 szx1 0 [] [] :=
  ⟨hz1, rfl, resp, fun bs' => by rw [conses_nil, List.nil_append]; exact courseUp_eq bs' hR.put hz1 hz2⟩

/-- A turn later. -/
theorem carried_succ (size1 size k : Nat) : carried size1 size (k + 2) = carried size1 size (k + 1) + size := by
  simp only [carried, Nat.add_mul, Nat.one_mul]
  omega

/-- The states of client and server after some turns. -/
theorem up_states {sx px : Bool} {a : Addr} {evs : List (Env × Event)} {s0 : Srv} {req resp : Msg} {size1 size2 b1 room bodyLen id d : Nat} {buf : Bytes}
    (hd : d = 1 ∨ d = 4) (hR : ReadyUp sx a evs s0 req size1 size2 b1 room bodyLen buf) {bs : List BEnv} {s : Srv} {last : Option Nat}
    {seen : List (List Server.Obs)}
    (h : Delivered sx a (courseUp sx px req resp size1 size2 buf bodyLen) (Accepts (cpath 256 req.ops) req.codeDetail b1 room id d) Distinct s0
      (lastId sx a evs) bs s last seen) :
    ((bs = [] ∧ s = s0 ∧ last = lastId sx a evs ∧ seen = []) ∨
     (bs ≠ [] ∧ carried size1 (min size1 b1) bs.length < bodyLen ∧
      (∃ szx os, GoesUp sx px (courseUp sx px req resp size1 size2 buf bodyLen) req size2 buf bodyLen (min size1 b1) szx
        (carried size1 (min size1 b1) bs.length) os bs) ∧
      (∃ lid, last = some lid ∧ Receiving s a lid req.codeDetail (cpath 256 req.ops) (some id) room
        ((buf.take bodyLen).take (carried size1 (min size1 b1) bs.length)) (min size1 b1)) ∧ seen.flatMap (bodiesOf a) = []) ∨
     (∃ k, bs.length = k + 1 ∧ carried size1 (min size1 b1) k < bodyLen ∧ bodyLen ≤ carried size1 (min size1 b1) bs.length ∧
      CompletedUp (courseUp sx px req resp size1 size2 buf bodyLen) d buf bs ∧ seen.flatMap (bodiesOf a) = [(a, id, buf.take bodyLen)])) := by
  obtain ⟨id0, sepList, nbuf, pool, tr0, hpool, h8, hrun⟩ := hR.server
  have hreach : Reach sx evs s0 tr0 := ⟨id0, sepList, pool, hrun⟩
  obtain ⟨W, st, st', r1, r2, hpool⟩ := hpool
  obtain ⟨base, hi0⟩ := Server.init_sinv (id := id0) (sepList := sepList) hpool
  have hi := Server.run_sinv (Server.init_tidy _ _ _) hi0 hrun
  have hmin : BlockSize (min size1 b1) := hR.offered.min hR.taken
  have hpos := hmin.pos
  obtain ⟨szx1, hz1⟩ := hR.offered.szx
  obtain ⟨szx2, hz2⟩ := hR.asked.szx
  have hgo0 := up_start (px := px) (resp := resp) hR hz1 hz2
  suffices hsuff : Tidy s ∧ SInv base nbuf room s ∧ _ from hsuff.2.2
  induction h with
  | start => exact ⟨hreach.tidy, hi, Or.inl ⟨rfl, rfl, rfl, rfl⟩⟩
  | @turn bs s s1 s2 last seen tr o e t h first between quiet possible fresh served ih =>
    obtain ⟨ht, hi', ih⟩ := ih
    have ht1 := Server.run_tidy ht between
    have hi1 := Server.run_sinv' ht hi' between
    have hsr := Server.step_rel served
    refine ⟨hsr.tidy ht1, hsr.sinv ht1 hi1, Or.inr ?_⟩
    obtain ⟨n0, nl, nsep⟩ := fresh
    have hlen1 : (bs ++ [seeing t.b (t.before ++ ((toward a o).map gets ++ t.after))]).length = bs.length + 1 := by simp
    have hne : bs ++ [seeing t.b (t.before ++ ((toward a o).map gets ++ t.after))] ≠ [] := by simp
    rw [hlen1]
    have hflat : (seen ++ (tr ++ [o])).flatMap (bodiesOf a) = seen.flatMap (bodiesOf a) ++ (tr.flatMap (bodiesOf a) ++ bodiesOf a o) := by
      simp [List.flatMap_append]
    rw [hflat]
    rcases ih with ⟨rfl, rfl, rfl, rfl⟩ | ⟨hbs, hin, ⟨szx, os, hgo⟩, ⟨lid, rfl, hrec⟩, hnone⟩ | ⟨k, -, -, -, ⟨os, rp, -, hfin⟩, -⟩
    · rw [first rfl] at between
      cases between
      obtain ⟨msg, n, obs, g1, hM, g3, g4, g5⟩ := up_asks hR.built hR.plain hR.ordinary hgo0 possible
      have hmeth : t.m.codeDetail = req.codeDetail := by rw [g4]; exact hM.code.2
      have hpath : cpath 256 t.m.ops = cpath 256 req.ops := by
        rw [show t.m.ops = msg.ops by rw [g4]; rfl]
        exact cpath_others 256 hM.options
      obtain ⟨⟨rsp, b2, body, len, a1, a2, a3, a4, a5, a6⟩, arx⟩ := possible.app
      have hS : Server.Starts s t.env a t.m req.codeDetail (cpath 256 req.ops) (some id) room b1 :=
        ⟨hR.idle, hmeth, hR.put, hpath, rsp, b2, body, len, fun u => a1 u t.m hmeth hpath (made_block1 hM (by rw [g4]; rfl)), a3, by rw [a4]; exact Nat.zero_le _, a5, a6, by simp⟩
      have := up_round (num := 0) hR.built hR.plain hR.ordinary hR.known rfl hz2 hd hR.taken hR.buffer hR.body hR.fits (by decide) (by omega) (by omega) hgo0 possible
        hreach.tidy hi h8 (fun _ => n0) (Server.fresh_of_last hreach.lastOK n0 (fun m' hm' hn => nl (by rw [lastId, hm', ← hn]; rfl))) (Or.inr ⟨rfl, hS⟩)
        served nsep
      have hc1' : carried size1 (min size1 b1) (([] : List BEnv).length + 1) = 0 + size1 := by simp [carried]
      rw [hc1']
      simp only [List.flatMap_nil, List.nil_append]
      by_cases hm : 0 + size1 < bodyLen
      · obtain ⟨q1, q2, q3⟩ := this.1 hm
        exact Or.inl ⟨hne, hm, q3, ⟨_, rfl, q2⟩, q1⟩
      · obtain ⟨q1, q2⟩ := this.2 (by omega)
        exact Or.inr ⟨0, rfl, hR.body, by omega, q2, q1⟩
    · obtain ⟨q1, q2⟩ := quiet hbs
      have hrec1 := hrec.run ht between q1 (fun x hx => q2 x hx lid rfl)
      have hnb := Server.no_bodies (B := Server.CollectT _ _ _ _ _ _) hrec ht between q1 (fun x hx => q2 x hx lid rfl)
      have hrec2 := hrec1
      obtain ⟨u, r1, r2, r3, r4⟩ := hrec2
      obtain ⟨c, hc⟩ : min size1 b1 ∣ carried size1 (min size1 b1) bs.length := by
        cases hl : bs.length with
        | zero => exact Nat.dvd_zero _
        | succ k => exact Nat.dvd_add (Client.BlockSize.dvd hmin hR.offered (Nat.min_le_left _ _)) (Nat.dvd_mul_left _ _)
      rw [Nat.mul_comm] at hc
      have hc20 : c < 2 ^ 20 := by
        have := hR.blocks
        have h3 : c * min size1 b1 < 2 ^ 20 * min size1 b1 := by rw [← hc]; omega
        exact Nat.lt_of_mul_lt_mul_right h3
      have := up_round (num := c) hR.built hR.plain hR.ordinary hR.known rfl hz2 hd hmin hR.buffer hin hR.fits hc20 hc (by rw [Nat.min_self]; exact hc.symm) hgo possible
        ht1 hi1 h8 (fun hn => by rw [r1] at hn; cases hn)
        (fun u' hu' => by
          rw [r1] at hu'
          cases hu'
          cases hmr : Server.matchReq u t.m with
          | false => rfl
          | true => exact absurd ((Server.matchReq_iff.1 hmr).2.symm.trans r3) (fun hn => nl (by rw [hn])))
        (Or.inl ⟨lid, hrec1⟩) served nsep
      rw [Nat.min_self] at this
      have hcs : carried size1 (min size1 b1) (bs.length + 1) = carried size1 (min size1 b1) bs.length + min size1 b1 := by
        cases hl : bs.length with
        | zero => exact absurd (List.length_eq_zero_iff.1 hl) hbs
        | succ k => exact carried_succ _ _ _
      rw [hcs, hnone, hnb]
      simp only [List.nil_append]
      by_cases hm : carried size1 (min size1 b1) bs.length + min size1 b1 < bodyLen
      · obtain ⟨w1, w2, w3⟩ := this.1 hm
        exact Or.inl ⟨hne, hm, w3, ⟨_, rfl, w2⟩, w1⟩
      · obtain ⟨w1, w2⟩ := this.2 (by omega)
        exact Or.inr ⟨bs.length, rfl, hin, by omega, w2, w1⟩
    · exfalso
      obtain ⟨res, w1, w2, -⟩ := possible.waits
      have := w1 []
      rw [hfin] at this
      cases this
      cases w2

/-- C111, the part that holds if the ids, which are random, are all different from the ones that the server takes for something else. While the turns cannot
have carried the whole body the call goes on and the application is passed nothing. In the turn in which they have, the call returns 0, which means success without
a body in the response, with the response of the application, and the application has been passed the body, once. There is no further turn. -/
theorem C111_upload_partial (sx px : Bool) (a : Addr) (evs : List (Env × Event)) (s0 s : Srv) (req resp : Msg) (size1 size2 b1 room bodyLen id d : Nat)
    (buf : Bytes) (bs : List BEnv) (last : Option Nat) (seen : List (List Server.Obs)) (hd : d = 1 ∨ d = 4)
    (hR : ReadyUp sx a evs s0 req size1 size2 b1 room bodyLen buf)
    (h : Delivered sx a (courseUp sx px req resp size1 size2 buf bodyLen) (Accepts (cpath 256 req.ops) req.codeDetail b1 room id d) Distinct s0
      (lastId sx a evs) bs s last seen) :
    carried size1 (min size1 b1) (bs.length - 1) < bodyLen ∧
    ∃ res, courseUp sx px req resp size1 size2 buf bodyLen bs = .ok res ∧
      (carried size1 (min size1 b1) bs.length < bodyLen → res.ret = none ∧ seen.flatMap (bodiesOf a) = []) ∧
      (bodyLen ≤ carried size1 (min size1 b1) bs.length → res.ret = some (.ok 0) ∧ res.resp.codeClass = 2 ∧ res.resp.codeDetail = d ∧
        seen.flatMap (bodiesOf a) = [(a, id, buf.take bodyLen)]) := by
  have hpos := hR.body
  rcases up_states hd hR h with ⟨rfl, -, -, rfl⟩ | ⟨hbs, hin, ⟨szx, os, -, -, rp, hgo⟩, -, hnone⟩ | ⟨k, hk, hlt, hge, ⟨os, rp, ⟨c1, c2, -⟩, hfin⟩, hall⟩
  · obtain ⟨szx1, hz1⟩ := hR.offered.szx
    obtain ⟨szx2, hz2⟩ := hR.asked.szx
    obtain ⟨-, -, rp, hgo⟩ := up_start (px := px) (resp := resp) hR hz1 hz2
    exact ⟨hpos, _, hgo [], fun _ => ⟨rfl, rfl⟩, fun hn => absurd hn (Nat.not_le.2 hpos)⟩
  · have := hgo []
    rw [List.append_nil] at this
    refine ⟨?_, _, this, fun _ => ⟨rfl, hnone⟩, fun hn => absurd hn (Nat.not_le.2 hin)⟩
    cases hl : bs.length with
    | zero => exact absurd (List.length_eq_zero_iff.1 hl) hbs
    | succ k =>
      rw [hl] at hin
      cases k with
      | zero => exact hpos
      | succ k =>
        rw [carried_succ] at hin
        rw [Nat.add_sub_cancel]
        omega
  · have := hfin []
    rw [List.append_nil] at this
    refine ⟨by rw [hk, Nat.add_sub_cancel]; exact hlt, _, this, fun hn => absurd hge (Nat.not_le.2 hn), fun _ => ⟨rfl, c1, c2, hall⟩⟩

/-- C111: as long as blocks are missing, there is a next turn. If memory is available at the client and its datagram can be sent, it transmits a request that
leaves it waiting, and the server can read it. -/
theorem C111_goes_on (sx px : Bool) (a : Addr) (evs : List (Env × Event)) (s0 s : Srv) (req resp : Msg) (size1 size2 b1 room bodyLen id d : Nat)
    (buf : Bytes) (bs : List BEnv) (last : Option Nat) (seen : List (List Server.Obs)) (hd : d = 1 ∨ d = 4)
    (hR : ReadyUp sx a evs s0 req size1 size2 b1 room bodyLen buf)
    (h : Delivered sx a (courseUp sx px req resp size1 size2 buf bodyLen) (Accepts (cpath 256 req.ops) req.codeDetail b1 room id d) Distinct s0
      (lastId sx a evs) bs s last seen)
    (hmore : carried size1 (min size1 b1) bs.length < bodyLen) (b : BEnv) (ht : req.type = CON ∨ req.type = NON) (hcl : req.codeClass = 0)
    (h1 : b.copyMem = true) (h2 : b.opMem1 = true) (h3 : b.opMem2 = true) (h4 : b.payMem = true) (h5 : b.x.sendErr = none)
    (hfit : ∀ m, BlockRequest req size1 m → ∃ d, Formats (stamped b.x m) d ∧ d.length < 1152) :
    ∃ res d m, (∀ later, courseUp sx px req resp size1 size2 buf bodyLen (bs ++ seeing b [] :: later) = .ok res) ∧ res.ret = none ∧
      latest res.obs = some d ∧ d.length < 1152 ∧ Carries sx d m ∧ m.msgId = 256 * b.x.id1.toNat + b.x.id0.toNat ∧
      ∃ m', BlockRequest req size1 m' ∧ m = stamped b.x m' := by
  have hmin : BlockSize (min size1 b1) := hR.offered.min hR.taken
  obtain ⟨szx1, hz1⟩ := hR.offered.szx
  obtain ⟨szx2, hz2⟩ := hR.asked.szx
  obtain ⟨sz, szx, os, k, hle, hk, hk20, hz, hlen, rp, hgo⟩ : ∃ sz szx os k, sz ≤ size1 ∧ carried size1 (min size1 b1) bs.length = k * sz ∧ k < 2 ^ 20 ∧
      GoesUp sx px (courseUp sx px req resp size1 size2 buf bodyLen) req size2 buf bodyLen sz szx (carried size1 (min size1 b1) bs.length) os bs := by
    rcases up_states hd hR h with ⟨rfl, -⟩ | ⟨hbs, -, ⟨szx, os, hgo⟩, -⟩ | ⟨k, hk, -, hge, -⟩
    · exact ⟨_, _, _, 0, Nat.le_refl _, by simp [carried], by decide, up_start hR hz1 hz2⟩
    · obtain ⟨c, hc⟩ : min size1 b1 ∣ carried size1 (min size1 b1) bs.length := by
        cases hl : bs.length with
        | zero => exact Nat.dvd_zero _
        | succ k => exact Nat.dvd_add (Client.BlockSize.dvd hmin hR.offered (Nat.min_le_left _ _)) (Nat.dvd_mul_left _ _)
      rw [Nat.mul_comm] at hc
      have h3 : c * min size1 b1 < 2 ^ 20 * min size1 b1 := by have := hR.blocks; rw [← hc]; omega
      exact ⟨_, _, _, c, Nat.min_le_left _ _, hc, Nat.lt_of_mul_lt_mul_right h3, hgo⟩
    · omega
  obtain ⟨msg, n, hm, v1, p, q1, q2, q3⟩ := message1_makes (b := seeing b []) hR.built hz hz2 hk hk20 hmore hR.buffer h1 h2 h3 h4
  obtain ⟨dd, hdd, hdl⟩ := hfit msg ⟨v1, p, q1, Nat.le_trans q2 hle, q3⟩
  obtain ⟨hsend, rfl⟩ := Client.formats_iff.1 hdd
  have hM := Client.message1_ok hR.built hR.plain hz hm
  have hx := Client.exchange_eq (sx := sx) (px := px) (x := (seeing b []).x) (req := msg) (by rw [hM.type]; exact ht) (by rw [hM.code.1]; exact hcl) hsend h5
  rw [show (seeing b []).x.inputs = [] from rfl, Client.wait] at hx
  simp only at hx
  have key : ∀ later, courseUp sx px req resp size1 size2 buf bodyLen (bs ++ seeing b [] :: later) = .ok
      ⟨os ++ [[.sent (enc (stamped b.x msg))] ++ (Client.startWait b.x msg.type).1 ++ []], none, rp, buf⟩ := by
    intro later
    rw [hgo, Client.blockwise1, hm]
    simp only
    rw [hx]
    rfl
  refine ⟨_, enc (stamped b.x msg), stamped b.x msg, key, rfl, ?_, hdl,
    carries_of (stamped_built hM.built) (Or.inl (by show msg.codeClass = 0; rw [hM.code.1]; exact hcl)) ?_ (Client.formats_iff.2 ⟨hsend, rfl⟩) hdl, rfl,
    msg, ⟨v1, p, q1, Nat.le_trans q2 hle, q3⟩, rfl⟩
  · rw [latest_append]
    rfl
  · have := made_ordinary hM hR.ordinary
    exact this

theorem exUp_fits (i : Byte) (m : Msg) (h : BlockRequest Client.exPut 32 m) : ∃ d, Formats (stamped (exTurnEnv i).x m) d ∧ d.length < 1152 := by
  have hx : ∀ k, extSize k ≤ 2 := by intro k; unfold extSize; split <;> (try split) <;> omega
  obtain ⟨v1, p, l1, hp, rfl | ⟨v2, l2, rfl⟩⟩ := h
  · match v1, l1 with
    | [x, y, z], _ =>
      have hops : (stamped (exTurnEnv i).x (setPayload (addOp Client.exPut BLOCK1 [x, y, z]) p)).ops = [⟨11, [0x61]⟩, ⟨27, [x, y, z]⟩] := rfl
      have hlen : (enc (stamped (exTurnEnv i).x (setPayload (addOp Client.exPut BLOCK1 [x, y, z]) p))).length ≤ 100 := by
        have h1 := hx (deltaOf ⟨11, [0x61]⟩ 0)
        have h2 := hx (deltaOf ⟨27, [x, y, z]⟩ 11)
        have h3 := hx (0 + 1)
        have h4 := hx (0 + 1 + 1 + 1)
        have h5 : (stamped (exTurnEnv i).x (setPayload (addOp Client.exPut BLOCK1 [x, y, z]) p)).token.length = 4 := rfl
        have h6 : (encPayload (stamped (exTurnEnv i).x (setPayload (addOp Client.exPut BLOCK1 [x, y, z]) p))).length ≤ 33 := by
          unfold encPayload
          rw [show (stamped (exTurnEnv i).x (setPayload (addOp Client.exPut BLOCK1 [x, y, z]) p)).payload = p from rfl]
          split <;> simp <;> omega
        rw [enc]
        simp only [List.length_append, encHdr_length]
        rw [hops, h5]
        simp only [encOps, List.length_append, encOp_length, Op.len, List.length_cons, List.length_nil]
        omega
      obtain ⟨b', hb⟩ := format_room (m := stamped (exTurnEnv i).x (setPayload (addOp Client.exPut BLOCK1 [x, y, z]) p)) (buf := List.replicate Server.BUF_LEN 0)
        (len := Server.BUF_LEN) (by rw [List.length_replicate]; exact Nat.le_refl _) (by decide)
        ⟨fun h => (by cases h.2), fun h => (by cases h)⟩ (by rw [hops]; simp)
        (by rw [hops]; simp only [Server.BUF_LEN, List.length_cons, List.length_nil]; omega)
      exact ⟨_, Client.formats_iff.2 ⟨⟨_, hb⟩, rfl⟩, by omega⟩
  · match v1, l1, v2, l2 with
    | [x, y, z], _, [u, v, w], _ =>
      have hops : (stamped (exTurnEnv i).x (setPayload (addOp (addOp Client.exPut BLOCK1 [x, y, z]) BLOCK2 [u, v, w]) p)).ops =
        [⟨11, [0x61]⟩, ⟨23, [u, v, w]⟩, ⟨27, [x, y, z]⟩] := rfl
      have hlen : (enc (stamped (exTurnEnv i).x (setPayload (addOp (addOp Client.exPut BLOCK1 [x, y, z]) BLOCK2 [u, v, w]) p))).length ≤ 100 := by
        have h1 := hx (deltaOf ⟨11, [0x61]⟩ 0)
        have h2 := hx (deltaOf ⟨23, [u, v, w]⟩ 11)
        have h7 := hx (deltaOf ⟨27, [x, y, z]⟩ 23)
        have h3 := hx (0 + 1)
        have h4 := hx (0 + 1 + 1 + 1)
        have h5 : (stamped (exTurnEnv i).x (setPayload (addOp (addOp Client.exPut BLOCK1 [x, y, z]) BLOCK2 [u, v, w]) p)).token.length = 4 := rfl
        have h6 : (encPayload (stamped (exTurnEnv i).x (setPayload (addOp (addOp Client.exPut BLOCK1 [x, y, z]) BLOCK2 [u, v, w]) p))).length ≤ 33 := by
          unfold encPayload
          rw [show (stamped (exTurnEnv i).x (setPayload (addOp (addOp Client.exPut BLOCK1 [x, y, z]) BLOCK2 [u, v, w]) p)).payload = p from rfl]
          split <;> simp <;> omega
        rw [enc]
        simp only [List.length_append, encHdr_length]
        rw [hops, h5]
        simp only [encOps, List.length_append, encOp_length, Op.len, List.length_cons, List.length_nil]
        omega
      obtain ⟨b', hb⟩ := format_room (m := stamped (exTurnEnv i).x (setPayload (addOp (addOp Client.exPut BLOCK1 [x, y, z]) BLOCK2 [u, v, w]) p))
        (buf := List.replicate Server.BUF_LEN 0)
        (len := Server.BUF_LEN) (by rw [List.length_replicate]; exact Nat.le_refl _) (by decide)
        ⟨fun h => (by cases h.2), fun h => (by cases h)⟩ (by rw [hops]; simp)
        (by rw [hops]; simp only [Server.BUF_LEN, List.length_cons, List.length_nil]; omega)
      exact ⟨_, Client.formats_iff.2 ⟨⟨_, hb⟩, rfl⟩, by omega⟩

/-- An application that takes bodies in blocks of 16 bytes and answers 2.04, and the course of a call that begins with blocks of 32 bytes. -/
def exTaker : Env := { Server.exEnv with
  handle := fun _ _ => .blockwise create 16 16 [] 0 (some 1)
  rx := fun _ body _ _ resp => ⟨none, { resp with codeClass := 2, codeDetail := 4 }, body, 0⟩ }
abbrev exUpCourse (sx : Bool) : List BEnv → Out BRes := courseUp sx false Client.exPut create 32 16 exSrc 40

theorem exTaker_noFault : Server.NoFault exTaker := ⟨⟨rfl, rfl, rfl⟩, rfl, rfl, rfl, rfl, rfl, rfl, rfl, rfl, rfl, rfl⟩

theorem exAccepts : Accepts (cpath 256 Client.exPut.ops) 3 16 64 1 4 exTaker :=
  ⟨⟨create, 16, [], 0, fun _ _ _ _ _ => rfl, created_built, rfl, rfl, Or.inr ⟨0, by decide, rfl⟩, by decide⟩, fun _ _ _ _ => ⟨rfl, rfl, rfl⟩⟩

theorem exReadyUp {sx : Bool} {evs : List (Env × Event)} {s : Srv} {tr : List (List Server.Obs)} (h : run sx Server.exInit evs = .ok (s, tr))
    (hi : ¬ Transfer s [1]) : ReadyUp sx [1] evs s Client.exPut 32 16 16 64 40 exSrc :=
  ⟨⟨100, Server.exSep, 8, Server.exPool, tr, Server.exPool_of, by decide, h⟩, hi, Client.exPut_built, Client.exPut_plain,
    by unfold Ordinary; cases sx <;> decide, by decide, Or.inr rfl, ⟨1, by decide, rfl⟩, ⟨0, by decide, rfl⟩, ⟨0, by decide, rfl⟩, by decide, by decide, by decide, by decide⟩

theorem exPossibleUp {sx : Bool} {evs : List (Env × Event)} {s0 s : Srv} {bs : List BEnv} {last : Option Nat} {seen : List (List Server.Obs)}
    (hR : ReadyUp sx [1] evs s0 Client.exPut 32 16 16 64 40 exSrc)
    (h : Delivered sx [1] (exUpCourse sx) (Accepts (cpath 256 Client.exPut.ops) 3 16 64 1 4) Distinct s0 (lastId sx [1] evs) bs s last seen)
    (hmore : carried 32 16 bs.length < 40) (t : Turn) (i : Byte) (ht : t.b = exTurnEnv i) (he : t.env = exTaker) (hb : t.before = [])
    (hd : Server.test (exUpCourse sx (bs ++ [seeing (exTurnEnv i) []])) (fun r => decide (latest r.obs = some t.d)) = true) (hc : Carries sx t.d t.m) :
    Possible sx (exUpCourse sx) (Accepts (cpath 256 Client.exPut.ops) 3 16 64 1 4) bs t := by
  obtain ⟨res, d, m, h1, h2, h3, h4, -⟩ := C111_goes_on sx false [1] evs s0 s Client.exPut create 32 16 16 64 40 1 4 exSrc bs last seen (Or.inr rfl) hR h hmore
    (exTurnEnv i) (Or.inl rfl) rfl rfl rfl rfl rfl rfl (exUp_fits i)
  obtain ⟨r, hr, hd⟩ := Server.test_ok hd
  rw [show exUpCourse sx (bs ++ [seeing (exTurnEnv i) []]) = .ok res from h1 []] at hr
  cases Out.ok.inj hr
  rw [decide_eq_true_eq, h3] at hd
  cases Option.some.inj hd
  refine ⟨⟨res, by rw [ht, hb]; exact h1, h2, h3⟩, h4, hc, (by rw [hb]; intro i hi; cases hi), ?_, ?_⟩
  · rw [he]; exact exTaker_noFault
  · rw [he]; exact exAccepts

/-- The requests of the two turns, as datagrams and as messages. -/
def exSendA : Bytes := [0x44, 3, 1, 2, 1, 2, 3, 4, 0xb1, 0x61, 0xd3, 3, 0, 0, 9, 0xff] ++ exSrc.take 32
def exSendB : Bytes := [0x44, 3, 1, 3, 1, 2, 3, 4, 0xb1, 0x61, 0xc3, 0, 0, 0, 0x43, 0, 0, 0x20, 0xff] ++ exSrc.drop 32
def exSentMA : Msg := ⟨1, CON, 0, 3, 0x102, [1, 2, 3, 4], [⟨11, [0x61]⟩, ⟨27, [0, 0, 9]⟩], exSrc.take 32⟩
def exSentMB : Msg := ⟨1, CON, 0, 3, 0x103, [1, 2, 3, 4], [⟨11, [0x61]⟩, ⟨23, [0, 0, 0]⟩, ⟨27, [0, 0, 0x20]⟩], exSrc.drop 32⟩
def exUpT0 : Turn := ⟨[], exTaker, exTurnEnv 2, [], [], exSendA, exSentMA⟩
def exUpT1 (mid : List (Env × Event)) : Turn := ⟨mid, exTaker, exTurnEnv 3, [], [], exSendB, exSentMB⟩

theorem exUpCarried (sx : Bool) : Carries sx exSendA exSentMA ∧ Carries sx exSendB exSentMB := by
  refine ⟨?_, ?_⟩ <;> unfold Carries <;> cases sx <;> decide +kernel

/-- C111 is violated: the ids of the requests are random. If the id of the first request is the one of the previous request of this client, the server takes it for
its repetition, and the call fails with `EBADMSG`. -/
theorem C111_violated (sx : Bool) : ¬ C111_statement sx := by
  have key : Server.test (run sx Server.exInit [(Server.exEnv, .datagram [1] exTwin)]) (fun x1 =>
      x1.1.trans.all (fun t => decide (t.blk.type = .regular)) &&
      Server.test (step sx x1.1 exTaker (.datagram [1] exSendA)) (fun x2 =>
        decide (toward [1] x2.2.1 = [[0x64, 0x45, 1, 2, 9, 9, 9, 9, 0xff, 0x68, 0x69]]))) = true := by
    cases sx <;> decide +kernel
  obtain ⟨⟨s1, tr⟩, h1, key⟩ := Server.test_ok key
  rw [Bool.and_eq_true] at key
  obtain ⟨hreg, key⟩ := key
  obtain ⟨⟨s2, o, e⟩, h2, key⟩ := Server.test_ok key
  replace key := of_decide_eq_true key
  dsimp only at h2 key
  intro h
  have hR := exReadyUp h1 (idle_of hreg [1])
  have hp := exPossibleUp hR .start (show 0 < 40 by decide) exUpT0 2 rfl rfl rfl (by cases sx <;> decide +kernel) (exUpCarried sx).1
  obtain ⟨res, k1, k2, -⟩ := h false [1] _ s1 s2 Client.exPut create 32 16 16 64 40 1 4 exSrc _ _ _ (Or.inr rfl) hR
    (.turn exUpT0 .start (fun _ => rfl) rfl (fun hn => absurd rfl hn) hp trivial h2)
  have hbad : Server.test (exUpCourse sx [seeing (exTurnEnv 2) [gets [0x64, 0x45, 1, 2, 9, 9, 9, 9, 0xff, 0x68, 0x69]]])
      (fun r => decide (r.ret = some (.error .EBADMSG))) = true := by cases sx <;> decide +kernel
  obtain ⟨r, hr, hbad⟩ := Server.test_ok hbad
  rw [key] at k1
  rw [show exUpCourse sx [seeing (exTurnEnv 2) [gets [0x64, 0x45, 1, 2, 9, 9, 9, 9, 0xff, 0x68, 0x69]]] = .ok res from k1] at hr
  cases Out.ok.inj hr
  rw [decide_eq_true_eq, (k2 (show 32 < 40 by decide)).1] at hbad
  cases hbad

/-- The hypotheses of the theorems are met: a body of 40 bytes is sent in two turns, in a block of 32 bytes and one of 16. Between them the server serves another
client. -/
example : ∃ bs s last seen res, bs.length = 2 ∧
    Delivered true [1] (exUpCourse true) (Accepts (cpath 256 Client.exPut.ops) 3 16 64 1 4) Distinct Server.exInit none bs s last seen ∧
    exUpCourse true bs = .ok res ∧ res.ret = some (.ok 0) ∧ res.resp.codeDetail = 4 ∧ seen.flatMap (bodiesOf [1]) = [([1], 1, exSrc)] := by
  have key : Server.test (step true Server.exInit exTaker (.datagram [1] exSendA)) (fun x1 =>
      keptB true [1] x1.1 [(Server.exEnv, .datagram [2] Server.exGetB)] &&
      Server.test (run true x1.1 [(Server.exEnv, .datagram [2] Server.exGetB)]) (fun y1 =>
        Server.test (step true y1.1 exTaker (.datagram [1] exSendB)) (fun _ =>
          decide (y1.1.sepList = Server.exSep) &&
          Server.test (exUpCourse true [seeing (exTurnEnv 2) ([] ++ ((toward [1] x1.2.1).map gets ++ [])), seeing (exTurnEnv 3) []])
              (fun r => decide (latest r.obs = some exSendB))))) = true := by
    decide +kernel
  obtain ⟨⟨s1, o1, e1⟩, h1, key⟩ := Server.test_ok key
  rw [Bool.and_eq_true] at key
  obtain ⟨hkept, key⟩ := key
  obtain ⟨⟨s1', tr1⟩, h1', key⟩ := Server.test_ok key
  obtain ⟨⟨s2, o2, e2⟩, h2, key⟩ := Server.test_ok key
  rw [Bool.and_eq_true, decide_eq_true_eq] at key
  obtain ⟨q1, key⟩ := key
  dsimp only at h1 h1' h2 hkept key q1
  have hR : ReadyUp true [1] [] Server.exInit Client.exPut 32 16 16 64 40 exSrc := exReadyUp rfl (idle_of (by decide +kernel) [1])
  have d0 : Delivered true [1] (exUpCourse true) (Accepts (cpath 256 Client.exPut.ops) 3 16 64 1 4) Distinct Server.exInit none [] Server.exInit none [] := .start
  have hs : ∀ (s : Srv) (m : Msg), s.sepList = Server.exSep → m.type = CON → ¬ Server.Separate Server.exSep m →
      ¬ ¬ (m.type = CON ∧ ¬ Server.Separate s.sepList m) := by
    intro s m hs hm hn h
    exact h ⟨hm, by rw [hs]; exact hn⟩
  have d1 := d0.turn exUpT0 (fun _ => rfl) rfl (fun hn => absurd rfl hn)
    (exPossibleUp hR d0 (by decide) exUpT0 2 rfl rfl rfl (by decide +kernel) (exUpCarried true).1)
    ⟨by decide, by decide, fun hn => absurd hn (hs Server.exInit _ rfl rfl (by decide +kernel))⟩ h1
  have d2 := d1.turn (exUpT1 [(Server.exEnv, .datagram [2] Server.exGetB)]) (fun hn => by cases hn) h1'
    (fun _ => ⟨kept_of hkept, by
      intro x hx id _ m hm
      rw [List.mem_singleton.1 hx] at hm
      exact absurd hm (by simp [Server.arrived])⟩)
    (exPossibleUp hR d1 (show 32 + 0 * 16 < 40 by decide) (exUpT1 _) 3 rfl rfl rfl key (exUpCarried true).2)
    ⟨by decide, by decide, fun hn => absurd hn (hs s1' _ q1 rfl (by decide +kernel))⟩ h2
  obtain ⟨-, res, r1, -, r2⟩ := C111_upload_partial true false [1] [] Server.exInit _ Client.exPut create 32 16 16 64 40 1 4 exSrc _ _ _ (Or.inr rfl) hR d2
  obtain ⟨w1, -, w2, w3⟩ := r2 (show 40 ≤ 32 + 1 * 16 by decide)
  exact ⟨_, _, _, _, res, rfl, d2, r1, w1, w2, w3⟩

/-- The request for an empty body. -/
def exSendNone : Bytes := [68, 3, 1, 2, 1, 2, 3, 4, 177, 97, 195, 0, 0, 0, 67, 0, 0, 1]

/-- An empty body, which `ReadyUp` excludes, cannot be sent in blocks: the client sends one block without a payload, which the server refuses with 4.00. The
application is called for the request, but is not passed the body, and the call returns 0 as though it had been. -/
theorem C111_empty_violated (sx : Bool) : ∃ s1 o, (∃ res, courseUp sx false Client.exPut create 32 16 exSrc 0 [seeing (exTurnEnv 2) []] = .ok res ∧ res.ret = none ∧
      latest res.obs = some exSendNone) ∧
    step sx Server.exInit exTaker (.datagram [1] exSendNone) = .ok (s1, o, none) ∧ bodiesOf [1] o = [] ∧
    ∃ res, courseUp sx false Client.exPut create 32 16 exSrc 0 [seeing (exTurnEnv 2) ((toward [1] o).map gets)] = .ok res ∧ res.ret = some (.ok 0) ∧
      res.resp.codeClass = 4 ∧ res.resp.codeDetail = 0 := by
  have key : Server.test (step sx Server.exInit exTaker (.datagram [1] exSendNone)) (fun x =>
      decide (x.2.2 = none) && decide (bodiesOf [1] x.2.1 = []) &&
      Server.test (courseUp sx false Client.exPut create 32 16 exSrc 0 [seeing (exTurnEnv 2) ((toward [1] x.2.1).map gets)]) (fun r =>
        decide (r.ret = some (.ok 0)) && decide (r.resp.codeClass = 4) && decide (r.resp.codeDetail = 0))) = true := by
    cases sx <;> decide +kernel
  have key0 : Server.test (courseUp sx false Client.exPut create 32 16 exSrc 0 [seeing (exTurnEnv 2) []]) (fun r =>
      decide (r.ret = none) && decide (latest r.obs = some exSendNone)) = true := by
    cases sx <;> decide +kernel
  obtain ⟨r0, hr0, key0⟩ := Server.test_ok key0
  obtain ⟨⟨s1, o, e⟩, h1, key⟩ := Server.test_ok key
  simp only [Bool.and_eq_true, decide_eq_true_eq] at key key0
  obtain ⟨⟨rfl, h2⟩, key⟩ := key
  obtain ⟨r, hr, key⟩ := Server.test_ok key
  simp only [Bool.and_eq_true, decide_eq_true_eq] at key
  exact ⟨s1, o, ⟨r0, hr0, key0⟩, h1, h2, r, hr, key.1.1, key.1.2, key.2⟩

end FreeCoAP.EndToEnd
