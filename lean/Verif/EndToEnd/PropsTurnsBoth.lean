import Verif.EndToEnd.LemmasTurnsBoth
import Verif.EndToEnd.PropsTurnsUp

/-!
# A blockwise upload that is answered with a body, over a network that delivers

C112. C38 says what holds if such an exchange succeeds. This file says when it does, and how many turns it takes.
-/

namespace FreeCoAP.EndToEnd

open FreeCoAP.Msg
open FreeCoAP.Server (Env Event Addr Asks Carries Built Srv Reach Transfer AllKnown Formats BlockSize SInv cpath Tidy run step init PoolOf bodiesOf Serving
  InTransfer CollectB ExpectsB)
open FreeCoAP.Client (stamped BEnv BRes NoBlocks)

/-- The situation when the client calls: the one of C111, and the application answers with `out`, which is not empty and whose blocks can be numbered. -/
structure ReadyBoth (sx : Bool) (a : Addr) (evs : List (Env × Event)) (s : Srv) (req : Msg) (size1 size2 b1 b2 room bodyLen : Nat) (buf out : Bytes) : Prop where
  up : ReadyUp sx a evs s req size1 size2 b1 room bodyLen buf
  given : BlockSize b2
  some : out ≠ []
  numbered : out.length < 2 ^ 20 * min size2 b2

/-- What a user expects of a network that delivers: the call goes on until all the blocks of both bodies have been transferred. Then it returns the length of the
response, which is at the start of the buffer. The application is passed the body once, when all its blocks have arrived. `ids` restricts the message ids. -/
def C112_statement (sx : Bool) (ids : Srv → Option Nat → Turn → Prop) : Prop :=
  ∀ (px : Bool) (a : Addr) (evs : List (Env × Event)) (s0 s : Srv) (req resp : Msg) (size1 size2 b1 b2 room bodyLen id d : Nat) (f : Bytes → Bytes) (buf : Bytes)
    (bs : List BEnv) (last : Option Nat) (seen : List (List Server.Obs)), (d = 1 ∨ d = 4) →
    ReadyBoth sx a evs s0 req size1 size2 b1 b2 room bodyLen buf (f (buf.take bodyLen)) → (f (buf.take bodyLen)).length ≤ buf.length →
    Delivered sx a (courseUp sx px req resp size1 size2 buf bodyLen) (Replies (cpath 256 req.ops) req.codeDetail b1 b2 room id d f) ids s0
      (lastId sx a evs) bs s last seen →
    ∃ res, courseUp sx px req resp size1 size2 buf bodyLen bs = .ok res ∧
      (bs.length < upTurns size1 (min size1 b1) bodyLen → seen.flatMap (bodiesOf a) = []) ∧
      (upTurns size1 (min size1 b1) bodyLen ≤ bs.length → seen.flatMap (bodiesOf a) = [(a, id, buf.take bodyLen)]) ∧
      (bs.length < upTurns size1 (min size1 b1) bodyLen + (f (buf.take bodyLen)).length / min size2 b2 → res.ret = none) ∧
      (bs.length = upTurns size1 (min size1 b1) bodyLen + (f (buf.take bodyLen)).length / min size2 b2 →
        res.ret = some (.ok (f (buf.take bodyLen)).length) ∧ res.body = f (buf.take bodyLen) ++ buf.drop (f (buf.take bodyLen)).length)

/-- The states of client and server after some turns. -/
theorem both_states {sx px : Bool} {a : Addr} {evs : List (Env × Event)} {s0 : Srv} {req resp : Msg} {size1 size2 b1 b2 room bodyLen id d : Nat}
    {f : Bytes → Bytes} {buf : Bytes} (hd : d = 1 ∨ d = 4) (hR : ReadyBoth sx a evs s0 req size1 size2 b1 b2 room bodyLen buf (f (buf.take bodyLen)))
    {bs : List BEnv} {s : Srv} {last : Option Nat} {seen : List (List Server.Obs)}
    (h : Delivered sx a (courseUp sx px req resp size1 size2 buf bodyLen) (Replies (cpath 256 req.ops) req.codeDetail b1 b2 room id d f) Distinct s0
      (lastId sx a evs) bs s last seen) :
    ((bs = [] ∧ s = s0 ∧ last = lastId sx a evs ∧ seen = []) ∨
     (bs ≠ [] ∧ carried size1 (min size1 b1) bs.length < bodyLen ∧
      (∃ szx os, GoesUp sx px (courseUp sx px req resp size1 size2 buf bodyLen) req size2 buf bodyLen (min size1 b1) szx
        (carried size1 (min size1 b1) bs.length) os bs) ∧
      (∃ lid, last = some lid ∧ InTransfer (CollectB req.codeDetail (cpath 256 req.ops) (some id) room
        ((buf.take bodyLen).take (carried size1 (min size1 b1) bs.length)) (min size1 b1) b2) s a lid) ∧ seen.flatMap (bodiesOf a) = []) ∨
     (∃ j, bs.length = upTurns size1 (min size1 b1) bodyLen + j ∧ (j + 1) * min size2 b2 ≤ (f (buf.take bodyLen)).length ∧ (j + 1) * min size2 b2 ≤ bodyLen ∧
      (∃ szx os, Goes sx px (courseUp sx px req resp size1 size2 buf bodyLen) req (f (buf.take bodyLen)) buf bodyLen (min size2 b2) (min size2 b2) szx (j + 1) os bs) ∧
      (∃ lid, last = some lid ∧ Serving s a lid req.codeDetail (cpath 256 req.ops) (f (buf.take bodyLen)) d ((j + 1) * min size2 b2) (min size2 b2)) ∧
      seen.flatMap (bodiesOf a) = [(a, id, buf.take bodyLen)]) ∨
     (∃ j, bs.length = upTurns size1 (min size1 b1) bodyLen + j ∧ j * min size2 b2 ≤ (f (buf.take bodyLen)).length ∧
      (f (buf.take bodyLen)).length < (j + 1) * min size2 b2 ∧ (f (buf.take bodyLen)).length ≤ bodyLen ∧
      (∃ rp, LastBlock (f (buf.take bodyLen)) d j (min size2 b2) rp ∧
        CompletedBy (courseUp sx px req resp size1 size2 buf bodyLen) (f (buf.take bodyLen)) buf bs rp) ∧
      seen.flatMap (bodiesOf a) = [(a, id, buf.take bodyLen)]) ∨
     (∃ j, bs.length = upTurns size1 (min size1 b1) bodyLen + j ∧ j * min size2 b2 ≤ bodyLen ∧ bodyLen < (j + 1) * min size2 b2 ∧
      bodyLen < (f (buf.take bodyLen)).length ∧ Refused (courseUp sx px req resp size1 size2 buf bodyLen) bs ∧
      seen.flatMap (bodiesOf a) = [(a, id, buf.take bodyLen)])) := by
  obtain ⟨hR, hb2, hne', hnum⟩ := hR
  obtain ⟨id0, sepList, nbuf, pool, tr0, hpool, h8, hrun⟩ := hR.server
  have hreach : Reach sx evs s0 tr0 := ⟨id0, sepList, pool, hrun⟩
  obtain ⟨W, st, st', r1, r2, hpool⟩ := hpool
  obtain ⟨base, hi0⟩ := Server.init_sinv (id := id0) (sepList := sepList) hpool
  have hi := Server.run_sinv (Server.init_tidy _ _ _) hi0 hrun
  have hmin : BlockSize (min size1 b1) := hR.offered.min hR.taken
  have hmin2 : BlockSize (min size2 b2) := hR.asked.min hb2
  have hpos := hmin.pos
  have hput : req.codeDetail ≠ 1 := by have := hR.put; omega
  obtain ⟨szx1, hz1⟩ := hR.offered.szx
  obtain ⟨szx2, hz2⟩ := hR.asked.szx
  have hgo0 := up_start (px := px) (resp := resp) hR hz1 hz2
  have hturns := carried_turns (size1 := size1) (len := bodyLen) hpos hR.body
  suffices hsuff : Tidy s ∧ SInv base nbuf room s ∧ _ from hsuff.2.2
  induction h with
  | start => exact ⟨hreach.tidy, hi, Or.inl ⟨rfl, rfl, rfl, rfl⟩⟩
  | @turn bs s s1 s2 last seen tr o e t h first between quiet possible fresh served ih =>
    obtain ⟨ht, hi', ih⟩ := ih
    have ht1 := Server.run_tidy ht between
    have hi1 := Server.run_sinv' ht hi' between
    have hsr := Server.step_rel served
    refine ⟨hsr.tidy ht1, hsr.sinv ht1 hi1, Or.inr ?_⟩
    obtain ⟨n0, nl, nsep⟩ := fresh
    have hlen1 : (bs ++ [seeing t.b (t.before ++ ((toward a o).map gets ++ t.after))]).length = bs.length + 1 := by simp
    have hne : bs ++ [seeing t.b (t.before ++ ((toward a o).map gets ++ t.after))] ≠ [] := by simp
    rw [hlen1]
    have hflat : (seen ++ (tr ++ [o])).flatMap (bodiesOf a) = seen.flatMap (bodiesOf a) ++ (tr.flatMap (bodiesOf a) ++ bodiesOf a o) := by
      simp [List.flatMap_append]
    rw [hflat]
    rcases ih with ⟨rfl, rfl, rfl, rfl⟩ | ⟨hbs, hin, ⟨szx, os, hgo⟩, ⟨lid, rfl, hrec⟩, hnone⟩ | ⟨j, hj, hin, hinb, ⟨szx, os, hgo⟩, ⟨lid, rfl, hserv⟩, hall⟩ |
      ⟨j, -, -, -, -, ⟨rp, -, os, hfin⟩, -⟩ | ⟨j, -, -, -, -, ⟨os, rp, body, hfin⟩, -⟩
    · rw [first rfl] at between
      cases between
      obtain ⟨msg, n, obs, g1, hM, g3, g4, g5⟩ := up_asks hR.built hR.plain hR.ordinary hgo0 possible
      have hmeth : t.m.codeDetail = req.codeDetail := by rw [g4]; exact hM.code.2
      have hpath : cpath 256 t.m.ops = cpath 256 req.ops := by
        rw [show t.m.ops = msg.ops by rw [g4]; rfl]
        exact cpath_others 256 hM.options
      obtain ⟨⟨rsp, body, len, a1, a2, a3, a4, a5⟩, arx⟩ := possible.app
      have hE : ExpectsB s t.env a t.m req.codeDetail (cpath 256 req.ops) (some id) room ((buf.take bodyLen).take 0) b1 b2 :=
        Or.inr ⟨rfl, hR.idle, hmeth, hR.put, hpath, rsp, body, len, fun u => a1 u t.m hmeth hpath (made_block1 hM (by rw [g4]; rfl)), a3, by rw [a4]; exact Nat.zero_le _, a5, by simp⟩
      have := both_round (num := 0) hR.built hR.plain hR.ordinary hR.known hput hz2 hd hR.taken hb2 hR.buffer hR.body hR.fits hne' (by decide) (by omega)
        (by omega) hgo0 possible
        hreach.tidy hi h8 (fun _ => n0) (Server.fresh_of_last hreach.lastOK n0 (fun m' hm' hn => nl (by rw [lastId, hm', ← hn]; rfl))) hE
        served nsep
      have hc1' : carried size1 (min size1 b1) (([] : List BEnv).length + 1) = 0 + size1 := by simp [carried]
      have ht1' := hturns 1
      have ht0 := hturns 0
      rw [show carried size1 (min size1 b1) 1 = 0 + size1 by simp [carried]] at ht1'
      have h0lt := ht0.1 hR.body
      rw [hc1']
      simp only [List.flatMap_nil, List.nil_append, List.length_nil]
      by_cases hm : 0 + size1 < bodyLen
      · obtain ⟨q1, q2, q3⟩ := this.1 hm
        exact Or.inl ⟨hne, hm, q3, ⟨_, rfl, q2⟩, q1⟩
      · obtain ⟨q1, q0, q2, q3⟩ := this.2 (by omega)
        have hup : 0 + 1 = upTurns size1 (min size1 b1) bodyLen + 0 := by omega
        by_cases hrm : bodyLen < min (min size2 b2) (f (buf.take bodyLen)).length
        · exact Or.inr (Or.inr (Or.inr ⟨0, hup, by rw [Nat.zero_mul]; exact Nat.zero_le _, by rw [Nat.zero_add, Nat.one_mul]; omega, by omega, q0 hrm, q1⟩))
        by_cases hk : min size2 b2 ≤ (f (buf.take bodyLen)).length
        · obtain ⟨q4, q5⟩ := q2 hk (by omega)
          exact Or.inr (Or.inl ⟨0, hup, by rw [Nat.zero_add, Nat.one_mul]; exact hk, by rw [Nat.zero_add, Nat.one_mul]; omega, q5,
            ⟨_, rfl, by rw [Nat.zero_add, Nat.one_mul]; exact q4⟩, q1⟩)
        · exact Or.inr (Or.inr (Or.inl ⟨0, hup, by rw [Nat.zero_mul]; exact Nat.zero_le _, by rw [Nat.zero_add, Nat.one_mul]; omega, by omega,
            q3 (by omega) (by omega), q1⟩))
    · obtain ⟨q1, q2⟩ := quiet hbs
      have hrec1 := hrec.run ht between q1 (fun x hx => q2 x hx lid rfl)
      have hnb := Server.no_bodies hrec ht between q1 (fun x hx => q2 x hx lid rfl)
      have hrec2 := hrec1
      obtain ⟨u, r1, r2, r3, r4⟩ := hrec2
      obtain ⟨c, hc⟩ : min size1 b1 ∣ carried size1 (min size1 b1) bs.length := by
        cases hl : bs.length with
        | zero => exact Nat.dvd_zero _
        | succ k => exact Nat.dvd_add (Client.BlockSize.dvd hmin hR.offered (Nat.min_le_left _ _)) (Nat.dvd_mul_left _ _)
      rw [Nat.mul_comm] at hc
      have hc20 : c < 2 ^ 20 := by
        have := hR.blocks
        have h3 : c * min size1 b1 < 2 ^ 20 * min size1 b1 := by rw [← hc]; omega
        exact Nat.lt_of_mul_lt_mul_right h3
      have := both_round (num := c) hR.built hR.plain hR.ordinary hR.known hput hz2 hd hmin hb2 hR.buffer hin hR.fits hne' hc20 hc
        (by rw [Nat.min_self]; exact hc.symm) hgo possible
        ht1 hi1 h8 (fun hn => by rw [r1] at hn; cases hn)
        (fun u' hu' => by
          rw [r1] at hu'
          cases hu'
          cases hmr : Server.matchReq u t.m with
          | false => rfl
          | true => exact absurd ((Server.matchReq_iff.1 hmr).2.symm.trans r3) (fun hn => nl (by rw [hn])))
        (Or.inl ⟨lid, hrec1⟩) served nsep
      rw [Nat.min_self] at this
      have hcs : carried size1 (min size1 b1) (bs.length + 1) = carried size1 (min size1 b1) bs.length + min size1 b1 := by
        cases hl : bs.length with
        | zero => exact absurd (List.length_eq_zero_iff.1 hl) hbs
        | succ k => exact carried_succ _ _ _
      have ht1' := hturns (bs.length + 1)
      have ht0 := (hturns bs.length).1 hin
      rw [hcs] at ht1' ⊢
      rw [hnone, hnb]
      simp only [List.nil_append]
      by_cases hm : carried size1 (min size1 b1) bs.length + min size1 b1 < bodyLen
      · obtain ⟨w1, w2, w3⟩ := this.1 hm
        exact Or.inl ⟨hne, hm, w3, ⟨_, rfl, w2⟩, w1⟩
      · obtain ⟨q1, q0, q2, q3⟩ := this.2 (by omega)
        have hup : bs.length + 1 = upTurns size1 (min size1 b1) bodyLen + 0 := by omega
        by_cases hrm : bodyLen < min (min size2 b2) (f (buf.take bodyLen)).length
        · exact Or.inr (Or.inr (Or.inr ⟨0, hup, by rw [Nat.zero_mul]; exact Nat.zero_le _, by rw [Nat.zero_add, Nat.one_mul]; omega, by omega, q0 hrm, q1⟩))
        by_cases hk : min size2 b2 ≤ (f (buf.take bodyLen)).length
        · obtain ⟨q4, q5⟩ := q2 hk (by omega)
          exact Or.inr (Or.inl ⟨0, hup, by rw [Nat.zero_add, Nat.one_mul]; exact hk, by rw [Nat.zero_add, Nat.one_mul]; omega, q5,
            ⟨_, rfl, by rw [Nat.zero_add, Nat.one_mul]; exact q4⟩, q1⟩)
        · exact Or.inr (Or.inr (Or.inl ⟨0, hup, by rw [Nat.zero_mul]; exact Nat.zero_le _, by rw [Nat.zero_add, Nat.one_mul]; omega, by omega,
            q3 (by omega) (by omega), q1⟩))
    · have hbs : bs ≠ [] := by
        rintro rfl
        have := (hturns 0).1 hR.body
        simp only [List.length_nil] at hj
        omega
      have hk20 : j + 1 < 2 ^ 20 := Nat.lt_of_mul_lt_mul_right (Nat.lt_of_le_of_lt hin hnum)
      obtain ⟨q1, q2⟩ := quiet hbs
      have hserv1 := hserv.run ht between q1 (fun x hx => q2 x hx lid rfl)
      have hnb := Server.no_bodies (B := Server.ServingT _ _ _ _ _ _) hserv ht between q1 (fun x hx => q2 x hx lid rfl)
      obtain ⟨val, obs, g1, g2, g3, g4, g5⟩ := goes_asks hR.built hR.ordinary hk20 hgo possible
      obtain ⟨a1, a2⟩ := addOp_asks hR.built hR.plain hgo.exp hk20 g1
      have hk : AllKnown t.m := by rw [g4]; exact known_addOp hR.known
      have hops : t.m.ops = (addOp req BLOCK2 val).ops := by rw [g4]; rfl
      have hcd : t.m.codeDetail = req.codeDetail := by rw [g4]; rfl
      have hcp : cpath 256 t.m.ops = cpath 256 req.ops := by rw [hops]; exact cpath_addOp hR.plain
      have hsb := Server.serve_no_body ht1 hsr hserv1 possible.fine possible.carries g5 (fun hn => nl (by rw [hn])) hk
      obtain ⟨-, y, k1, k2, k3, k4, k5⟩ := Server.serve_next_final ht1 hsr hserv1 hmin2 possible.fine possible.carries g5
        (fun hn => nl (by rw [hn])) hk hcd hcp (by unfold Server.Block1OK; rw [hops]; exact a2) ⟨false, by rw [hops]; exact a1⟩ (by rw [Nat.min_self])
      rw [Nat.min_self] at k4 k5
      have := goes_turn_room hR.built hR.ordinary (Or.inr ⟨hput, hd⟩) hk20 hmin2 (Nat.le_refl _) hR.buffer hgo possible
        created_built rfl k1 k2 k3 k4 nsep
      have hmul : (j + 1 + 1) * min size2 b2 = (j + 1) * min size2 b2 + min size2 b2 := by rw [Nat.add_mul (j + 1), Nat.one_mul]
      rw [hall, hnb, hsb]
      simp only [List.append_nil]
      by_cases hrm : bodyLen < min ((j + 1 + 1) * min size2 b2) (f (buf.take bodyLen)).length
      · exact Or.inr (Or.inr (Or.inr ⟨j + 1, by omega, hinb, by omega, by omega, this.1 hrm, trivial⟩))
      by_cases hm : (j + 1 + 1) * min size2 b2 ≤ (f (buf.take bodyLen)).length
      · exact Or.inr (Or.inl ⟨j + 1, by omega, hm, by omega, this.2.1 hm (by omega), ⟨_, rfl, by rw [hmul]; exact k5 hm⟩, trivial⟩)
      · exact Or.inr (Or.inr (Or.inl ⟨j + 1, by omega, hin, by omega, by omega,
          ⟨_, (lastBlock_next (resp := create) rfl k3 k4).final, this.2.2 (by omega) (by omega)⟩, trivial⟩))
    · exfalso
      obtain ⟨res, w1, w2, -⟩ := possible.waits
      have := w1 []
      rw [hfin] at this
      cases this
      cases w2
    · exfalso
      obtain ⟨res, w1, w2, -⟩ := possible.waits
      have := w1 []
      rw [hfin] at this
      cases this
      cases w2

/-- C112, the part that holds if the ids, which are random, are all different from the ones that the server takes for something else, and if the response is not
longer than the body. There is no further turn. -/
theorem C112_exchange_partial (sx px : Bool) (a : Addr) (evs : List (Env × Event)) (s0 s : Srv) (req resp : Msg) (size1 size2 b1 b2 room bodyLen id d : Nat)
    (f : Bytes → Bytes) (buf : Bytes) (bs : List BEnv) (last : Option Nat) (seen : List (List Server.Obs)) (hd : d = 1 ∨ d = 4)
    (hR : ReadyBoth sx a evs s0 req size1 size2 b1 b2 room bodyLen buf (f (buf.take bodyLen))) (hroom : (f (buf.take bodyLen)).length ≤ bodyLen)
    (h : Delivered sx a (courseUp sx px req resp size1 size2 buf bodyLen) (Replies (cpath 256 req.ops) req.codeDetail b1 b2 room id d f) Distinct s0
      (lastId sx a evs) bs s last seen) :
    bs.length ≤ upTurns size1 (min size1 b1) bodyLen + (f (buf.take bodyLen)).length / min size2 b2 ∧
    ∃ res, courseUp sx px req resp size1 size2 buf bodyLen bs = .ok res ∧
      (bs.length < upTurns size1 (min size1 b1) bodyLen → seen.flatMap (bodiesOf a) = []) ∧
      (upTurns size1 (min size1 b1) bodyLen ≤ bs.length → seen.flatMap (bodiesOf a) = [(a, id, buf.take bodyLen)]) ∧
      (bs.length < upTurns size1 (min size1 b1) bodyLen + (f (buf.take bodyLen)).length / min size2 b2 → res.ret = none) ∧
      (bs.length = upTurns size1 (min size1 b1) bodyLen + (f (buf.take bodyLen)).length / min size2 b2 →
        res.ret = some (.ok (f (buf.take bodyLen)).length) ∧ res.body = f (buf.take bodyLen) ++ buf.drop (f (buf.take bodyLen)).length) := by
  have hU := hR.up
  have hpos := (hU.asked.min hR.given).pos
  have hturns := carried_turns (size1 := size1) (len := bodyLen) (hU.offered.min hU.taken).pos hU.body
  rcases both_states hd hR h with ⟨rfl, -, -, rfl⟩ | ⟨-, hin, ⟨szx, os, -, -, rp, hgo⟩, -, hnone⟩ | ⟨j, hj, hin, -, ⟨szx, os, -, -, rp, hgo⟩, -, hall⟩ |
    ⟨j, hj, hle, hlt, -, ⟨rp, -, os, hfin⟩, hall⟩ | ⟨j, -, -, -, hlong, -⟩
  · obtain ⟨szx1, hz1⟩ := hU.offered.szx
    obtain ⟨szx2, hz2⟩ := hU.asked.szx
    obtain ⟨-, -, rp, hgo⟩ := up_start (px := px) (resp := resp) hU hz1 hz2
    have h0 := (hturns 0).1 hU.body
    refine ⟨Nat.zero_le _, _, hgo [], fun _ => rfl, fun hn => absurd hn (Nat.not_le.2 h0), fun _ => rfl, fun hn => ?_⟩
    simp only [List.length_nil] at hn
    generalize (f (buf.take bodyLen)).length / min size2 b2 = q at hn
    omega
  · have h0 := (hturns _).1 hin
    have := hgo []
    rw [List.append_nil] at this
    generalize (f (buf.take bodyLen)).length / min size2 b2 = q
    exact ⟨by omega, _, this, fun _ => hnone, fun hn => absurd hn (Nat.not_le.2 h0), fun _ => rfl, fun hn => by omega⟩
  · have hq : j + 1 ≤ (f (buf.take bodyLen)).length / min size2 b2 := (Nat.le_div_iff_mul_le hpos).2 hin
    have := hgo []
    rw [List.append_nil] at this
    exact ⟨by omega, _, this, fun hn => by omega, fun _ => hall, fun _ => rfl, fun hn => by omega⟩
  · have hq : (f (buf.take bodyLen)).length / min size2 b2 = j := (Nat.div_eq_iff hpos).2 ⟨hle, by rw [Nat.add_mul, Nat.one_mul] at hlt; omega⟩
    have := hfin []
    rw [List.append_nil] at this
    exact ⟨by omega, _, this, fun hn => by omega, fun _ => hall, fun hn => by omega, fun _ => ⟨rfl, rfl⟩⟩
  · omega

/-- C112: a response that is longer than the body is always refused, by the turn in which its blocks exceed the length of the body. The call fails with `ENOSPC`,
after the application has been passed the body. There is no further turn. -/
theorem C112_too_long (sx px : Bool) (a : Addr) (evs : List (Env × Event)) (s0 s : Srv) (req resp : Msg) (size1 size2 b1 b2 room bodyLen id d : Nat)
    (f : Bytes → Bytes) (buf : Bytes) (bs : List BEnv) (last : Option Nat) (seen : List (List Server.Obs)) (hd : d = 1 ∨ d = 4)
    (hR : ReadyBoth sx a evs s0 req size1 size2 b1 b2 room bodyLen buf (f (buf.take bodyLen))) (hlong : bodyLen < (f (buf.take bodyLen)).length)
    (h : Delivered sx a (courseUp sx px req resp size1 size2 buf bodyLen) (Replies (cpath 256 req.ops) req.codeDetail b1 b2 room id d f) Distinct s0
      (lastId sx a evs) bs s last seen) :
    bs.length ≤ upTurns size1 (min size1 b1) bodyLen + bodyLen / min size2 b2 ∧
    ∃ res, courseUp sx px req resp size1 size2 buf bodyLen bs = .ok res ∧
      (bs.length < upTurns size1 (min size1 b1) bodyLen + bodyLen / min size2 b2 → res.ret = none) ∧
      (bs.length = upTurns size1 (min size1 b1) bodyLen + bodyLen / min size2 b2 →
        res.ret = some (.error .ENOSPC) ∧ seen.flatMap (bodiesOf a) = [(a, id, buf.take bodyLen)]) := by
  have hU := hR.up
  have hpos := (hU.asked.min hR.given).pos
  have hturns := carried_turns (size1 := size1) (len := bodyLen) (hU.offered.min hU.taken).pos hU.body
  rcases both_states hd hR h with ⟨rfl, -, -, rfl⟩ | ⟨-, hin, ⟨szx, os, -, -, rp, hgo⟩, -, hnone⟩ | ⟨j, hj, -, hin, ⟨szx, os, -, -, rp, hgo⟩, -, hall⟩ |
    ⟨j, -, -, -, hle, -⟩ | ⟨j, hj, hle, hlt, -, ⟨os, rp, body, hfin⟩, hall⟩
  · obtain ⟨szx1, hz1⟩ := hU.offered.szx
    obtain ⟨szx2, hz2⟩ := hU.asked.szx
    obtain ⟨-, -, rp, hgo⟩ := up_start (px := px) (resp := resp) hU hz1 hz2
    have h0 := (hturns 0).1 hU.body
    refine ⟨Nat.zero_le _, _, hgo [], fun _ => rfl, fun hn => ?_⟩
    simp only [List.length_nil] at hn
    generalize bodyLen / min size2 b2 = q at hn
    omega
  · have h0 := (hturns _).1 hin
    have := hgo []
    rw [List.append_nil] at this
    generalize bodyLen / min size2 b2 = q
    exact ⟨by omega, _, this, fun _ => rfl, fun hn => by omega⟩
  · have hq : j + 1 ≤ bodyLen / min size2 b2 := (Nat.le_div_iff_mul_le hpos).2 hin
    have := hgo []
    rw [List.append_nil] at this
    exact ⟨by omega, _, this, fun _ => rfl, fun hn => by omega⟩
  · omega
  · have hq : bodyLen / min size2 b2 = j := (Nat.div_eq_iff hpos).2 ⟨hle, by rw [Nat.add_mul, Nat.one_mul] at hlt; omega⟩
    have := hfin []
    rw [List.append_nil] at this
    exact ⟨by omega, _, this, fun hn => by omega, fun _ => ⟨rfl, hall⟩⟩

/-- C112: as long as blocks are missing, there is a next turn. If memory is available at the client and its datagram can be sent, it transmits a request that
leaves it waiting, and the server can read it. -/
theorem C112_goes_on (sx px : Bool) (a : Addr) (evs : List (Env × Event)) (s0 s : Srv) (req resp : Msg) (size1 size2 b1 b2 room bodyLen id d : Nat)
    (f : Bytes → Bytes) (buf : Bytes) (bs : List BEnv) (last : Option Nat) (seen : List (List Server.Obs)) (hd : d = 1 ∨ d = 4)
    (hR : ReadyBoth sx a evs s0 req size1 size2 b1 b2 room bodyLen buf (f (buf.take bodyLen)))
    (h : Delivered sx a (courseUp sx px req resp size1 size2 buf bodyLen) (Replies (cpath 256 req.ops) req.codeDetail b1 b2 room id d f) Distinct s0
      (lastId sx a evs) bs s last seen)
    (hmore : bs.length < upTurns size1 (min size1 b1) bodyLen + min (f (buf.take bodyLen)).length bodyLen / min size2 b2) (b : BEnv) (ht : req.type = CON ∨ req.type = NON)
    (hcl : req.codeClass = 0)
    (h1 : b.copyMem = true) (h2 : b.opMem1 = true) (h3 : b.opMem2 = true) (h4 : b.payMem = true) (h5 : b.x.sendErr = none)
    (hfit : ∀ m, (BlockRequest req size1 m ∨ ∃ val : Bytes, val.length = 3 ∧ m = addOp req BLOCK2 val) → ∃ d, Formats (stamped b.x m) d ∧ d.length < 1152) :
    ∃ res d m, (∀ later, courseUp sx px req resp size1 size2 buf bodyLen (bs ++ seeing b [] :: later) = .ok res) ∧ res.ret = none ∧
      latest res.obs = some d ∧ d.length < 1152 ∧ Carries sx d m ∧ m.msgId = 256 * b.x.id1.toNat + b.x.id0.toNat ∧
      ∃ m', (BlockRequest req size1 m' ∨ ∃ val : Bytes, val.length = 3 ∧ m' = addOp req BLOCK2 val) ∧ m = stamped b.x m' := by
  have hU := hR.up
  have hpos := (hU.asked.min hR.given).pos
  have hmin : BlockSize (min size1 b1) := hU.offered.min hU.taken
  obtain ⟨szx1, hz1⟩ := hU.offered.szx
  obtain ⟨szx2, hz2⟩ := hU.asked.szx
  have hup : ∀ sz, sz ≤ size1 → ∀ m, BlockRequest req sz m → BlockRequest req size1 m := by
    rintro sz hle m ⟨v1, p, q1, q2, q3⟩
    exact ⟨v1, p, q1, Nat.le_trans q2 hle, q3⟩
  rcases both_states hd hR h with ⟨rfl, -⟩ | ⟨-, hin, ⟨szx, os, hgo⟩, -⟩ | ⟨j, hj, hin, -, ⟨szx, os, hgo⟩, -⟩ | ⟨j, hj, hle, hlt, hin, -⟩ |
    ⟨j, hj, hle, hlt, hin, -⟩
  · have hgo := up_start (px := px) (resp := resp) hU hz1 hz2
    obtain ⟨res, d, m, r1, r2, r3, r4, r5, r6, m', r7, r8⟩ := up_goes_on (k := 0) hU.built hU.plain hU.ordinary hz2 (by rw [Nat.zero_mul]) (by decide) hU.body hU.buffer hgo ht hcl h1 h2 h3 h4 h5
      (fun m hm => hfit m (Or.inl hm))
    exact ⟨res, d, m, r1, r2, r3, r4, r5, r6, m', Or.inl r7, r8⟩
  · obtain ⟨c, hc⟩ : min size1 b1 ∣ carried size1 (min size1 b1) bs.length := by
      cases hl : bs.length with
      | zero => exact Nat.dvd_zero _
      | succ k => exact Nat.dvd_add (Client.BlockSize.dvd hmin hU.offered (Nat.min_le_left _ _)) (Nat.dvd_mul_left _ _)
    rw [Nat.mul_comm] at hc
    have h3' : c * min size1 b1 < 2 ^ 20 * min size1 b1 := by have := hU.blocks; rw [← hc]; omega
    obtain ⟨res, d, m, r1, r2, r3, r4, r5, r6, m', r7, r8⟩ := up_goes_on hU.built hU.plain hU.ordinary hz2 hc (Nat.lt_of_mul_lt_mul_right h3') hin hU.buffer hgo ht hcl h1 h2 h3 h4 h5
      (fun m hm => hfit m (Or.inl (hup _ (Nat.min_le_left _ _) m hm)))
    exact ⟨res, d, m, r1, r2, r3, r4, r5, r6, m', Or.inl (hup _ (Nat.min_le_left _ _) m' r7), r8⟩
  · obtain ⟨res, d, m, r1, r2, r3, r4, r5, r6, m', r7, r8⟩ := down_goes_on hU.built hU.ordinary (Nat.lt_of_mul_lt_mul_right (Nat.lt_of_le_of_lt hin hR.numbered)) hgo ht hcl h1 h3 h5
      (fun val hv => hfit _ (Or.inr ⟨val, hv, rfl⟩))
    exact ⟨res, d, m, r1, r2, r3, r4, r5, r6, m', Or.inr r7, r8⟩
  · have hq : (f (buf.take bodyLen)).length / min size2 b2 = j := (Nat.div_eq_iff hpos).2 ⟨hle, by rw [Nat.add_mul, Nat.one_mul] at hlt; omega⟩
    rw [Nat.min_eq_left hin] at hmore
    omega
  · have hq : bodyLen / min size2 b2 = j := (Nat.div_eq_iff hpos).2 ⟨hle, by rw [Nat.add_mul, Nat.one_mul] at hlt; omega⟩
    rw [Nat.min_eq_right (Nat.le_of_lt hin)] at hmore
    omega

theorem exBoth_fits (i : Byte) (m : Msg) (h : BlockRequest Client.exPut 32 m ∨ ∃ val : Bytes, val.length = 3 ∧ m = addOp Client.exPut BLOCK2 val) :
    ∃ d, Formats (stamped (exTurnEnv i).x m) d ∧ d.length < 1152 := by
  rcases h with h | ⟨val, hl, rfl⟩
  · exact exUp_fits i m h
  · match val, hl with
    | [x, y, z], _ =>
      have hops : (stamped (exTurnEnv i).x (addOp Client.exPut BLOCK2 [x, y, z])).ops = [⟨11, [0x61]⟩, ⟨23, [x, y, z]⟩] := rfl
      have hlen : (enc (stamped (exTurnEnv i).x (addOp Client.exPut BLOCK2 [x, y, z]))).length ≤ 40 := by
        have : ∀ k, extSize k ≤ 2 := by intro k; unfold extSize; split <;> (try split) <;> omega
        have h1 := this (deltaOf ⟨11, [0x61]⟩ 0)
        have h2 := this (deltaOf ⟨23, [x, y, z]⟩ 11)
        have h3 := this (0 + 1)
        have h4 := this (0 + 1 + 1 + 1)
        have h5 : (stamped (exTurnEnv i).x (addOp Client.exPut BLOCK2 [x, y, z])).token.length = 4 := rfl
        have h6 : encPayload (stamped (exTurnEnv i).x (addOp Client.exPut BLOCK2 [x, y, z])) = [] := rfl
        rw [enc]
        simp only [List.length_append, encHdr_length]
        rw [hops, h5, h6]
        simp only [encOps, List.length_append, encOp_length, Op.len, List.length_cons, List.length_nil]
        omega
      obtain ⟨b', hb⟩ := format_room (m := stamped (exTurnEnv i).x (addOp Client.exPut BLOCK2 [x, y, z])) (buf := List.replicate Server.BUF_LEN 0)
        (len := Server.BUF_LEN) (by rw [List.length_replicate]; exact Nat.le_refl _) (by decide)
        ⟨fun h => (by cases h.2), fun h => (by cases h)⟩ (by rw [hops]; simp)
        (by rw [hops]; simp only [Server.BUF_LEN, List.length_cons, List.length_nil]; omega)
      exact ⟨_, Client.formats_iff.2 ⟨⟨_, hb⟩, rfl⟩, by omega⟩

/-- An application that takes bodies in blocks of 16 bytes and answers each with the same 20 bytes, in blocks of `b2` bytes. -/
def exOut : Bytes := List.replicate 20 7
def exReplier (b2 : Nat) : Env := { Server.exEnv with
  handle := fun _ _ => .blockwise create 16 b2 [] 0 (some 1)
  rx := fun _ body _ _ resp => ⟨none, { resp with codeClass := 2, codeDetail := 4 }, exOut ++ body.drop 20, 20⟩ }

theorem exReplier_noFault (b2 : Nat) : Server.NoFault (exReplier b2) := ⟨⟨rfl, rfl, rfl⟩, rfl, rfl, rfl, rfl, rfl, rfl, rfl, rfl, rfl, rfl⟩

theorem exReplies (b2 : Nat) : Replies (cpath 256 Client.exPut.ops) 3 16 b2 64 1 4 (fun _ => exOut) (exReplier b2) := by
  refine ⟨⟨create, [], 0, fun _ _ _ _ _ => rfl, created_built, rfl, rfl, by decide⟩, fun bytes e req resp _ => ⟨rfl, ?_, ?_, rfl⟩⟩
  · show 20 ≤ (exOut ++ bytes.drop 20).length
    rw [List.length_append]
    exact Nat.le_add_right 20 _
  · exact List.take_left (l₁ := exOut)

/-- A call that fails although the network delivers: the body has 16 bytes, the response has 20, and the buffer has 32. -/
abbrev exShort (sx : Bool) : List BEnv → Out BRes := courseUp sx false Client.exPut create 16 32 (exSrc.take 32) 16
def exSendS : Bytes := [0x44, 3, 1, 2, 1, 2, 3, 4, 0xb1, 0x61, 0xc3, 0, 0, 1, 0x43, 0, 0, 0, 0xff] ++ exSrc.take 16
def exSentMS : Msg := ⟨1, CON, 0, 3, 0x102, [1, 2, 3, 4], [⟨11, [0x61]⟩, ⟨23, [0, 0, 1]⟩, ⟨27, [0, 0, 0]⟩], exSrc.take 16⟩
def exShortT : Turn := ⟨[], exReplier 32, exTurnEnv 2, [], [], exSendS, exSentMS⟩

/-- C112 is violated, even if the ids are different: the length that the caller passes is the length of the body and also the limit of the response. If the
application answers with more bytes than it is sent, the call fails with `ENOSPC`, although the buffer has room. -/
theorem C112_violated (sx : Bool) : ¬ C112_statement sx Distinct := by
  have key : Server.test (step sx Server.exInit (exReplier 32) (.datagram [1] exSendS)) (fun x =>
      Server.test (exShort sx [seeing (exTurnEnv 2) ([] ++ ((toward [1] x.2.1).map gets ++ []))]) (fun r => decide (r.ret = some (.error .ENOSPC)))) = true := by
    cases sx <;> decide +kernel
  have hsent : Server.test (exShort sx [seeing (exTurnEnv 2) []]) (fun r => decide (latest r.obs = some exSendS)) = true := by cases sx <;> decide +kernel
  have hcar : Carries sx exSendS exSentMS := by unfold Carries; cases sx <;> decide +kernel
  obtain ⟨⟨s1, o, e⟩, h1, key⟩ := Server.test_ok key
  obtain ⟨r, hr, key⟩ := Server.test_ok key
  replace key := of_decide_eq_true key
  dsimp only at h1 hr
  have hU : ReadyUp sx [1] [] Server.exInit Client.exPut 16 32 16 64 16 (exSrc.take 32) :=
    ⟨⟨100, Server.exSep, 8, Server.exPool, [], Server.exPool_of, by decide, rfl⟩, idle_of (by decide +kernel) [1], Client.exPut_built, Client.exPut_plain,
      by unfold Ordinary; cases sx <;> decide, by decide, Or.inr rfl, ⟨0, by decide, rfl⟩, ⟨1, by decide, rfl⟩, ⟨0, by decide, rfl⟩, by decide, by decide, by decide,
      by decide⟩
  have hR : ReadyBoth sx [1] [] Server.exInit Client.exPut 16 32 16 32 64 16 (exSrc.take 32) ((fun _ => exOut) ((exSrc.take 32).take 16)) :=
    ⟨hU, ⟨1, by decide, rfl⟩, by decide, by decide⟩
  have hp : Possible sx (exShort sx) (Replies (cpath 256 Client.exPut.ops) 3 16 32 64 1 4 (fun _ => exOut)) [] exShortT := by
    obtain ⟨res, d, m, w1, w2, w3, w4, -, -⟩ := up_goes_on (k := 0) (b := exTurnEnv 2) hU.built hU.plain hU.ordinary (szx2 := 1) rfl (by rw [Nat.zero_mul]) (by decide)
      hU.body hU.buffer (up_start (px := false) (resp := create) hU (szx1 := 0) rfl (szx2 := 1) rfl) (Or.inl rfl) rfl rfl rfl rfl rfl rfl
      (fun m hm => exUp_fits 2 m (by
        obtain ⟨v1, p, q1, q2, q3⟩ := hm
        exact ⟨v1, p, q1, by omega, q3⟩))
    obtain ⟨r, hr, hd⟩ := Server.test_ok hsent
    rw [show exShort sx [seeing (exTurnEnv 2) []] = .ok res from w1 []] at hr
    cases Out.ok.inj hr
    rw [decide_eq_true_eq, w3] at hd
    cases Option.some.inj hd
    exact ⟨⟨res, w1, w2, w3⟩, w4, hcar, (by intro i hi; cases hi), exReplier_noFault 32, exReplies 32⟩
  intro h
  obtain ⟨res, k1, -, -, -, k2⟩ := h false [1] [] Server.exInit s1 Client.exPut create 16 32 16 32 64 16 1 4 (fun _ => exOut) (exSrc.take 32) _ _ _ (Or.inr rfl) hR
    (by decide) (.turn exShortT .start (fun _ => rfl) rfl (fun hn => absurd rfl hn) hp
      ⟨by decide, (by intro hn; cases hn), fun hn => absurd ⟨rfl, by decide +kernel⟩ hn⟩ h1)
  rw [show exShort sx [seeing (exTurnEnv 2) ([] ++ ((toward [1] o).map gets ++ []))] = .ok res from k1] at hr
  cases Out.ok.inj hr
  have := (k2 rfl).1
  rw [key] at this
  cases this

/-- The third request of an exchange of 40 bytes for 20, as a datagram and as a message. -/
def exSendC : Bytes := [0x44, 3, 1, 4, 1, 2, 3, 4, 0xb1, 0x61, 0xc3, 0, 0, 0x10]
def exSentMC : Msg := ⟨1, CON, 0, 3, 0x104, [1, 2, 3, 4], [⟨11, [0x61]⟩, ⟨23, [0, 0, 0x10]⟩], []⟩

theorem exPossibleBoth {sx : Bool} {s : Srv} {bs : List BEnv} {last : Option Nat} {seen : List (List Server.Obs)}
    (hR : ReadyBoth sx [1] [] Server.exInit Client.exPut 32 16 16 16 64 40 exSrc exOut)
    (h : Delivered sx [1] (exUpCourse sx) (Replies (cpath 256 Client.exPut.ops) 3 16 16 64 1 4 (fun _ => exOut)) Distinct Server.exInit none bs s last seen)
    (hmore : bs.length < 3) (t : Turn) (i : Byte) (ht : t.b = exTurnEnv i) (he : t.env = exReplier 16) (hb : t.before = [])
    (hd : Server.test (exUpCourse sx (bs ++ [seeing (exTurnEnv i) []])) (fun r => decide (latest r.obs = some t.d)) = true) (hc : Carries sx t.d t.m) :
    Possible sx (exUpCourse sx) (Replies (cpath 256 Client.exPut.ops) 3 16 16 64 1 4 (fun _ => exOut)) bs t := by
  obtain ⟨res, d, m, h1, h2, h3, h4, -, -⟩ := C112_goes_on sx false [1] [] Server.exInit s Client.exPut create 32 16 16 16 64 40 1 4 (fun _ => exOut) exSrc bs last seen
    (Or.inr rfl) hR h hmore (exTurnEnv i) (Or.inl rfl) rfl rfl rfl rfl rfl rfl (exBoth_fits i)
  obtain ⟨r, hr, hd⟩ := Server.test_ok hd
  rw [show exUpCourse sx (bs ++ [seeing (exTurnEnv i) []]) = .ok res from h1 []] at hr
  cases Out.ok.inj hr
  rw [decide_eq_true_eq, h3] at hd
  cases Option.some.inj hd
  refine ⟨⟨res, by rw [ht, hb]; exact h1, h2, h3⟩, h4, hc, (by rw [hb]; intro i hi; cases hi), ?_, ?_⟩
  · rw [he]; exact exReplier_noFault 16
  · rw [he]; exact exReplies 16

/-- The hypotheses of the theorems are met: a body of 40 bytes is sent in two turns and the response of 20 bytes is received in the second and in a third. -/
example : ∃ bs s last seen res, bs.length = 3 ∧
    Delivered true [1] (exUpCourse true) (Replies (cpath 256 Client.exPut.ops) 3 16 16 64 1 4 (fun _ => exOut)) Distinct Server.exInit none bs s last seen ∧
    exUpCourse true bs = .ok res ∧ res.ret = some (.ok 20) ∧ res.body = exOut ++ exSrc.drop 20 ∧ seen.flatMap (bodiesOf [1]) = [([1], 1, exSrc)] := by
  have key : Server.test (step true Server.exInit (exReplier 16) (.datagram [1] exSendA)) (fun x1 =>
      Server.test (step true x1.1 (exReplier 16) (.datagram [1] exSendB)) (fun x2 =>
        Server.test (step true x2.1 (exReplier 16) (.datagram [1] exSendC)) (fun _ =>
          (decide (x1.1.sepList = Server.exSep ∧ x2.1.sepList = Server.exSep) && (keptB true [1] x1.1 [] && keptB true [1] x2.1 [])) &&
          (Server.test (exUpCourse true [seeing (exTurnEnv 2) ([] ++ ((toward [1] x1.2.1).map gets ++ [])), seeing (exTurnEnv 3) []])
              (fun r => decide (latest r.obs = some exSendB)) &&
           Server.test (exUpCourse true [seeing (exTurnEnv 2) ([] ++ ((toward [1] x1.2.1).map gets ++ [])),
              seeing (exTurnEnv 3) ([] ++ ((toward [1] x2.2.1).map gets ++ [])), seeing (exTurnEnv 4) []])
              (fun r => decide (latest r.obs = some exSendC)))))) = true := by
    decide +kernel
  obtain ⟨⟨s1, o1, e1⟩, h1, key⟩ := Server.test_ok key
  obtain ⟨⟨s2, o2, e2⟩, h2, key⟩ := Server.test_ok key
  obtain ⟨⟨s3, o3, e3⟩, h3, key⟩ := Server.test_ok key
  rw [Bool.and_eq_true, Bool.and_eq_true, Bool.and_eq_true, Bool.and_eq_true, decide_eq_true_eq] at key
  obtain ⟨⟨⟨q1, q2⟩, p1, p2⟩, key1, key2⟩ := key
  dsimp only at h1 h2 h3 key1 key2 q1 q2 p1 p2
  have hU : ReadyUp true [1] [] Server.exInit Client.exPut 32 16 16 64 40 exSrc := exReadyUp rfl (idle_of (by decide +kernel) [1])
  have hR : ReadyBoth true [1] [] Server.exInit Client.exPut 32 16 16 16 64 40 exSrc exOut := ⟨hU, ⟨0, by decide, rfl⟩, by decide, by decide⟩
  have d0 : Delivered true [1] (exUpCourse true) (Replies (cpath 256 Client.exPut.ops) 3 16 16 64 1 4 (fun _ => exOut)) Distinct Server.exInit none []
    Server.exInit none [] := .start
  have hs : ∀ (s : Srv) (m : Msg), s.sepList = Server.exSep → m.type = CON → ¬ Server.Separate Server.exSep m →
      ¬ ¬ (m.type = CON ∧ ¬ Server.Separate s.sepList m) := by
    intro s m hs hm hn h
    exact h ⟨hm, by rw [hs]; exact hn⟩
  have kept : ∀ (s : Srv) (l : Option Nat), keptB true [1] s [] = true → Server.Kept true [1] s [] ∧
      ∀ x ∈ ([] : List (Env × Event)), ∀ id, l = some id → Server.OnlyRepeats true [1] id x :=
    fun s l hk => ⟨kept_of hk, by intro x hx; cases hx⟩
  have d1 := d0.turn ⟨[], exReplier 16, exTurnEnv 2, [], [], exSendA, exSentMA⟩ (fun _ => rfl) rfl (fun hn => absurd rfl hn)
    (exPossibleBoth hR d0 (by decide) _ 2 rfl rfl rfl (by decide +kernel) (exUpCarried true).1)
    ⟨by decide, by decide, fun hn => absurd hn (hs Server.exInit _ rfl rfl (by decide +kernel))⟩ h1
  have d2 := d1.turn ⟨[], exReplier 16, exTurnEnv 3, [], [], exSendB, exSentMB⟩ (fun hn => by cases hn) rfl (fun _ => kept _ _ p1)
    (exPossibleBoth hR d1 (show 1 < 3 by decide) _ 3 rfl rfl rfl key1 (exUpCarried true).2)
    ⟨by decide, by decide, fun hn => absurd hn (hs s1 _ q1 rfl (by decide +kernel))⟩ h2
  have d3 := d2.turn ⟨[], exReplier 16, exTurnEnv 4, [], [], exSendC, exSentMC⟩ (fun hn => by cases hn) rfl (fun _ => kept _ _ p2)
    (exPossibleBoth hR d2 (show 2 < 3 by decide) _ 4 rfl rfl rfl key2 (by unfold Carries; decide +kernel))
    ⟨by decide, by decide, fun hn => absurd hn (hs s2 _ q2 rfl (by decide +kernel))⟩ h3
  obtain ⟨-, res, r1, -, r2, -, r3⟩ := C112_exchange_partial true false [1] [] Server.exInit _ Client.exPut create 32 16 16 16 64 40 1 4 (fun _ => exOut) exSrc _ _ _
    (Or.inr rfl) hR (by decide) d3
  obtain ⟨w1, w2⟩ := r3 rfl
  exact ⟨_, _, _, _, res, rfl, d3, r1, w1, w2, r2 (show 2 ≤ 3 by decide)⟩

end FreeCoAP.EndToEnd
