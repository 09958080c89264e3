import Verif.EndToEnd.LemmasTurns
import Verif.EndToEnd.PropsLive

/-!
# A blockwise download over a network that delivers

C110. C38 says what holds if a download succeeds. This file says when it does, and how many turns it takes.
-/

namespace FreeCoAP.EndToEnd

open FreeCoAP.Msg
open FreeCoAP.Server (Env Event Addr Asks Carries Built Srv Reach Transfer AllKnown Formats BlockSize Serving SInv cpath Tidy run step numOf sizeOf2 init PoolOf)
open FreeCoAP.Client (stamped BEnv BRes NoBlocks exchangeBlockwise)

/-- The situation when the client calls: the server, which has any history and a memory pool with a buffer for every client, is not in a transfer with the
client at `a`; the request is a GET request without Block options; the block sizes are valid; the body `src` fits into the buffers of the server and of the
client, and its blocks can be numbered. -/
structure Ready (sx : Bool) (a : Addr) (evs : List (Env × Event)) (s : Srv) (req : Msg) (size2 b2 bodyLen : Nat) (src buf : Bytes) : Prop where
  server : ∃ id sepList nbuf len pool tr, PoolOf nbuf len pool ∧ 8 ≤ nbuf ∧ run sx (init id sepList pool) evs = .ok (s, tr) ∧ src.length ≤ len
  idle : ¬ Transfer s a
  built : Built req
  plain : NoBlocks req
  ordinary : Ordinary sx req
  known : AllKnown req
  get : req.codeDetail = 1
  asked : BlockSize size2
  given : BlockSize b2
  room : src.length ≤ bodyLen
  buffer : bodyLen ≤ buf.length
  blocks : src.length < 2 ^ 20 * min size2 b2

/-- The course of the call. -/
abbrev course (sx px : Bool) (req resp : Msg) (size1 size2 : Nat) (buf : Bytes) (bodyLen : Nat) (bs : List BEnv) : Out BRes :=
  exchangeBlockwise sx px req resp size1 size2 buf bodyLen false [] bs

/-- What a user expects of a network that delivers: the call goes on until all the blocks have been received, and then it returns the whole body. -/
def C110_statement (sx : Bool) : Prop :=
  ∀ (px : Bool) (a : Addr) (evs : List (Env × Event)) (s0 s : Srv) (req resp : Msg) (size1 size2 b2 bodyLen : Nat) (src buf : Bytes) (bs : List BEnv)
    (last : Option Nat) (seen : List (List Server.Obs)),
    Ready sx a evs s0 req size2 b2 bodyLen src buf →
    Delivered sx a (course sx px req resp size1 size2 buf bodyLen) (Provides (cpath 256 req.ops) src b2) (fun _ _ _ => True) s0 (lastId sx a evs) bs s last seen →
    ∃ res, course sx px req resp size1 size2 buf bodyLen bs = .ok res ∧
      (bs.length * min size2 b2 ≤ src.length → res.ret = none) ∧
      (src.length < bs.length * min size2 b2 → res.ret = some (.ok src.length) ∧ res.body = src ++ buf.drop src.length)

theorem created_built : Built create := ⟨rfl, by decide, by decide, by decide, by decide, by decide, List.Pairwise.nil⟩

theorem known_addOp {req : Msg} {val : Bytes} (h : AllKnown req) : AllKnown (addOp req BLOCK2 val) := by
  intro o ho
  have : o ∈ ins ⟨BLOCK2, val⟩ req.ops := by rw [← opListAdd_eq]; exact ho
  rcases List.mem_cons.1 ((ins_perm _ _).mem_iff.1 this) with rfl | h'
  · exact fun _ => by show BLOCK2 ∈ known; decide
  · exact h o h'

theorem cpath_addOp {req : Msg} {val : Bytes} (h : NoBlocks req) : cpath 256 (addOp req BLOCK2 val).ops = cpath 256 req.ops :=
  cpath_others 256 (by rw [Client.others_addOp _ _ _ (Or.inr rfl), Client.others_plain h])

/-- The client before the first turn. -/
theorem goes_start {sx px : Bool} {a : Addr} {evs : List (Env × Event)} {s0 : Srv} {req resp : Msg} {size1 size2 b2 bodyLen szx2 : Nat} {src buf : Bytes}
    (hR : Ready sx a evs s0 req size2 b2 bodyLen src buf) (hz2 : calcBlockSzx size2 = .ok szx2) :
    Goes sx px (course sx px req resp size1 size2 buf bodyLen) req src buf bodyLen (min size2 b2) size2 szx2 0 [] [] := by
  refine ⟨hz2, by rw [Nat.zero_mul, Nat.zero_mul], resp, fun bs' => ?_⟩
  rw [conses_nil]
  show exchangeBlockwise sx px req resp size1 size2 buf bodyLen false [] bs' = _
  unfold exchangeBlockwise
  rw [if_pos hR.get]
  unfold Client.download
  rw [if_neg (by have := hR.asked.pos; omega), hz2]
  simp

/-- The states of client and server after some turns. -/
theorem down_states {sx px : Bool} {a : Addr} {evs : List (Env × Event)} {s0 : Srv} {req resp : Msg} {size1 size2 b2 bodyLen : Nat} {src buf : Bytes}
    (hR : Ready sx a evs s0 req size2 b2 bodyLen src buf) {bs : List BEnv} {s : Srv} {last : Option Nat} {seen : List (List Server.Obs)}
    (h : Delivered sx a (course sx px req resp size1 size2 buf bodyLen) (Provides (cpath 256 req.ops) src b2) Distinct s0 (lastId sx a evs) bs s last seen) :
    Tidy s ∧
    ((bs = [] ∧ s = s0 ∧ last = lastId sx a evs) ∨
     (bs ≠ [] ∧ bs.length * min size2 b2 ≤ src.length ∧
      (∃ szx os, Goes sx px (course sx px req resp size1 size2 buf bodyLen) req src buf bodyLen (min size2 b2) (min size2 b2) szx bs.length os bs) ∧
      ∃ id, last = some id ∧ Serving s a id 1 (cpath 256 req.ops) src 5 (bs.length * min size2 b2) (min size2 b2)) ∨
     (src.length < bs.length * min size2 b2 ∧ bs.length * min size2 b2 ≤ src.length + min size2 b2 ∧ Completed (course sx px req resp size1 size2 buf bodyLen) src buf bs)) := by
  obtain ⟨id0, sepList, nbuf, len, pool, tr0, hpool, h8, hrun, hlen⟩ := hR.server
  have hreach : Reach sx evs s0 tr0 := ⟨id0, sepList, pool, hrun⟩
  obtain ⟨W, st, st', r1, r2, hpool⟩ := hpool
  obtain ⟨base, hi0⟩ := Server.init_sinv (id := id0) (sepList := sepList) hpool
  have hi := Server.run_sinv (Server.init_tidy _ _ _) hi0 hrun
  have hmin : BlockSize (min size2 b2) := hR.asked.min hR.given
  have hpos := hmin.pos
  obtain ⟨szx2, hz2⟩ := hR.asked.szx
  have hgo0 := goes_start (px := px) (resp := resp) (size1 := size1) hR hz2
  induction h with
  | start => exact ⟨hreach.tidy, Or.inl ⟨rfl, rfl, rfl⟩⟩
  | @turn bs s s1 s2 last seen tr o e t h first between quiet possible fresh served ih =>
    obtain ⟨ht, ih⟩ := ih
    have ht1 := Server.run_tidy ht between
    refine ⟨(Server.step_rel served).tidy ht1, Or.inr ?_⟩
    obtain ⟨n0, nl, nsep⟩ := fresh
    have hlen1 : (bs ++ [seeing t.b (t.before ++ ((toward a o).map gets ++ t.after))]).length = bs.length + 1 := by simp
    have hne : bs ++ [seeing t.b (t.before ++ ((toward a o).map gets ++ t.after))] ≠ [] := by simp
    rw [hlen1]
    rcases ih with ⟨rfl, rfl, rfl⟩ | ⟨hbs, hin, ⟨szx, os, hgo⟩, id, rfl, hserv⟩ | ⟨hin, -, os, rp, hfin⟩
    · rw [first rfl] at between
      cases between
      obtain ⟨val, obs, g1, g2, g3, g4, g5⟩ := goes_asks hR.built hR.ordinary (by decide) hgo0 possible
      obtain ⟨a1, a2⟩ := addOp_asks hR.built hR.plain hz2 (by decide) g1
      obtain ⟨rsp, b1, rx, p1, p2, p3, p4⟩ := possible.app
      have hk : AllKnown t.m := by rw [g4]; exact known_addOp hR.known
      have hops : t.m.ops = (addOp req BLOCK2 val).ops := by rw [g4]; rfl
      have hcd : t.m.codeDetail = 1 := by rw [g4]; exact hR.get
      have hcp : cpath 256 t.m.ops = cpath 256 req.ops := by rw [hops]; exact cpath_addOp hR.plain
      obtain ⟨-, y, k1, k2, k3, k4, k5⟩ := Server.serve_start_final hreach.tidy hi h8 (Server.step_rel served) hR.idle possible.fine possible.carries g5 n0
        (Server.fresh_of_last hreach.lastOK n0 (fun m' hm' hn => nl (by rw [lastId, hm', ← hn]; rfl))) hk hcd (fun u => p1 u t.m hcd hcp) p3 p4 hR.given hlen
        (by unfold Server.Block1OK; rw [hops]; exact a2) _ (by rw [hops]; exact a1) rfl
      rw [List.take_of_length_le (Nat.le_refl _)] at k4 k5
      rw [hcp] at k5
      have := goes_turn (k := 0) hR.built hR.ordinary (Or.inl ⟨hR.get, rfl⟩) (by decide) hmin (Nat.min_le_left _ _) hR.room hR.buffer hgo0 possible p2 p3 k1 k2 k3 k4 nsep
      rw [Nat.zero_add, Nat.one_mul] at this
      simp only [List.length_nil, Nat.zero_add, Nat.one_mul]
      by_cases hm : min size2 b2 ≤ src.length
      · exact Or.inl ⟨hne, hm, this.1 hm, _, rfl, k5 hm⟩
      · exact Or.inr ⟨by omega, by omega, this.2 (by omega)⟩
    · have hk20 : bs.length < 2 ^ 20 := by
        have := hR.blocks
        exact Nat.lt_of_mul_lt_mul_right (Nat.lt_of_le_of_lt hin this)
      obtain ⟨q1, q2⟩ := quiet hbs
      have hserv1 := hserv.run ht between q1 (fun x hx => q2 x hx id rfl)
      obtain ⟨val, obs, g1, g2, g3, g4, g5⟩ := goes_asks hR.built hR.ordinary hk20 hgo possible
      obtain ⟨a1, a2⟩ := addOp_asks hR.built hR.plain hgo.exp hk20 g1
      have hk : AllKnown t.m := by rw [g4]; exact known_addOp hR.known
      have hops : t.m.ops = (addOp req BLOCK2 val).ops := by rw [g4]; rfl
      have hcd : t.m.codeDetail = 1 := by rw [g4]; exact hR.get
      have hcp : cpath 256 t.m.ops = cpath 256 req.ops := by rw [hops]; exact cpath_addOp hR.plain
      obtain ⟨-, y, k1, k2, k3, k4, k5⟩ := Server.serve_next_final ht1 (Server.step_rel served) hserv1 hmin possible.fine possible.carries g5
        (fun hn => nl (by rw [hn])) hk hcd hcp (by unfold Server.Block1OK; rw [hops]; exact a2) ⟨false, by rw [hops]; exact a1⟩ (by rw [Nat.min_self])
      rw [Nat.min_self] at k4 k5
      have := goes_turn hR.built hR.ordinary (Or.inl ⟨hR.get, rfl⟩) hk20 hmin (Nat.le_refl _) hR.room hR.buffer hgo possible
        created_built rfl k1 k2 k3 k4 nsep
      have hmul : (bs.length + 1) * min size2 b2 = bs.length * min size2 b2 + min size2 b2 := by rw [Nat.add_mul, Nat.one_mul]
      by_cases hm : (bs.length + 1) * min size2 b2 ≤ src.length
      · exact Or.inl ⟨hne, hm, this.1 hm, _, rfl, by rw [hmul]; exact k5 hm⟩
      · exact Or.inr ⟨by omega, by omega, this.2 (by omega)⟩
    · exfalso
      obtain ⟨res, w1, w2, -⟩ := possible.waits
      have := w1 []
      rw [hfin] at this
      cases this
      cases w2

/-- C110, the part that holds if the ids, which are random, are all different from the ones that the server takes for something else. The download takes
`src.length / size + 1` turns, with blocks of the smaller of the two sizes. -/
theorem C110_download_partial (sx px : Bool) (a : Addr) (evs : List (Env × Event)) (s0 s : Srv) (req resp : Msg) (size1 size2 b2 bodyLen : Nat) (src buf : Bytes)
    (bs : List BEnv) (last : Option Nat) (seen : List (List Server.Obs)) (hR : Ready sx a evs s0 req size2 b2 bodyLen src buf)
    (h : Delivered sx a (course sx px req resp size1 size2 buf bodyLen) (Provides (cpath 256 req.ops) src b2) Distinct s0 (lastId sx a evs) bs s last seen) :
    bs.length ≤ src.length / min size2 b2 + 1 ∧
    ∃ res, course sx px req resp size1 size2 buf bodyLen bs = .ok res ∧
      (bs.length ≤ src.length / min size2 b2 → res.ret = none) ∧
      (bs.length = src.length / min size2 b2 + 1 → res.ret = some (.ok src.length) ∧ res.body = src ++ buf.drop src.length) := by
  have hpos := (hR.asked.min hR.given).pos
  obtain ⟨-, hst⟩ := down_states hR h
  rcases hst with ⟨rfl, -⟩ | ⟨-, hin, ⟨szx, os, -, -, rp, hgo⟩, -⟩ | ⟨hin, hup, os, rp, hfin⟩
  · obtain ⟨szx, hz⟩ := hR.asked.szx
    obtain ⟨-, -, rp, hgo⟩ := goes_start (px := px) (resp := resp) (size1 := size1) hR hz
    exact ⟨Nat.zero_le _, _, hgo [], fun _ => rfl, fun hn => by simp at hn⟩
  · have hle : bs.length ≤ src.length / min size2 b2 := (Nat.le_div_iff_mul_le hpos).2 hin
    have := hgo []
    rw [List.append_nil] at this
    exact ⟨by omega, _, this, fun _ => rfl, fun hn => by omega⟩
  · have hlt : ¬ bs.length ≤ src.length / min size2 b2 := fun hn => by
      have := (Nat.le_div_iff_mul_le hpos).1 hn
      omega
    have hle : bs.length - 1 ≤ src.length / min size2 b2 := (Nat.le_div_iff_mul_le hpos).2 (by rw [Nat.sub_mul, Nat.one_mul]; omega)
    have := hfin []
    rw [List.append_nil] at this
    exact ⟨by omega, _, this, fun hn => absurd hn hlt, fun _ => ⟨rfl, rfl⟩⟩

/-- A client that goes on with a block transmits the request for it. -/
theorem goes_waits {sx px : Bool} {call : List BEnv → Out BRes} {req : Msg} {src buf : Bytes} {bodyLen size sz szx k : Nat} {os : List (List Client.Obs)}
    {bs : List BEnv} (hb : Built req) (ho : Ordinary sx req) (h : Goes sx px call req src buf bodyLen size sz szx k os bs) (hk : k < 2 ^ 20)
    (b : BEnv) (ht : req.type = CON ∨ req.type = NON) (hcl : req.codeClass = 0) (h1 : b.copyMem = true) (h2 : b.opMem2 = true) (h3 : b.x.sendErr = none)
    (hfit : ∀ val : Bytes, val.length = 3 → ∃ d, Formats (stamped b.x (addOp req BLOCK2 val)) d ∧ d.length < 1152) :
    ∃ res d m, (∀ later, call (bs ++ seeing b [] :: later) = .ok res) ∧ res.ret = none ∧
      latest res.obs = some d ∧ d.length < 1152 ∧ Carries sx d m ∧ m.msgId = 256 * b.x.id1.toNat + b.x.id0.toNat ∧
      ∃ m', (∃ val : Bytes, val.length = 3 ∧ m' = addOp req BLOCK2 val) ∧ m = stamped b.x m' := by
  obtain ⟨hz, hst, rp, hgo⟩ := h
  obtain ⟨val, hl, hm⟩ := message2_ok (b := seeing b []) hb hz hk h1 h2
  obtain ⟨d, hd, hdl⟩ := hfit val hl
  obtain ⟨hsend, rfl⟩ := Client.formats_iff.1 hd
  have hx := Client.exchange_eq (sx := sx) (px := px) (x := (seeing b []).x) (req := addOp req BLOCK2 val) ht hcl hsend h3
  rw [show (seeing b []).x.inputs = [] from rfl, Client.wait] at hx
  simp only at hx
  have hbm : Built (addOp req BLOCK2 val) := hb.addOp _ _
  have key : ∀ later, call (bs ++ seeing b [] :: later) = .ok
      ⟨os ++ [[.sent (enc (stamped b.x (addOp req BLOCK2 val)))] ++ (Client.startWait b.x req.type).1 ++ []], none, rp, src.take (k * size) ++ buf.drop (k * size)⟩ := by
    intro later
    rw [hgo, Client.blockwise2, hst, hm]
    simp only
    rw [hx]
    rfl
  refine ⟨_, enc (stamped b.x (addOp req BLOCK2 val)), stamped b.x (addOp req BLOCK2 val), key, rfl, ?_, hdl,
    carries_of (stamped_built hbm) (Or.inl hcl) (ordinary_addOp ho hl) (Client.formats_iff.2 ⟨hsend, rfl⟩) hdl, rfl, _,
    ⟨val, hl, rfl⟩, rfl⟩
  rw [latest_append]
  rfl

/-- C110: as long as blocks are missing, there is a next turn. If memory is available at the client and its datagram can be sent, it transmits a request that
leaves it waiting, and the server can read it. -/
theorem C110_goes_on (sx px : Bool) (a : Addr) (evs : List (Env × Event)) (s0 s : Srv) (req resp : Msg) (size1 size2 b2 bodyLen : Nat) (src buf : Bytes)
    (bs : List BEnv) (last : Option Nat) (seen : List (List Server.Obs)) (hR : Ready sx a evs s0 req size2 b2 bodyLen src buf)
    (h : Delivered sx a (course sx px req resp size1 size2 buf bodyLen) (Provides (cpath 256 req.ops) src b2) Distinct s0 (lastId sx a evs) bs s last seen)
    (hmore : bs.length ≤ src.length / min size2 b2) (b : BEnv) (ht : req.type = CON ∨ req.type = NON) (hcl : req.codeClass = 0)
    (h1 : b.copyMem = true) (h2 : b.opMem2 = true) (h3 : b.x.sendErr = none)
    (hfit : ∀ val : Bytes, val.length = 3 → ∃ d, Formats (stamped b.x (addOp req BLOCK2 val)) d ∧ d.length < 1152) :
    ∃ res d m, (∀ later, course sx px req resp size1 size2 buf bodyLen (bs ++ seeing b [] :: later) = .ok res) ∧ res.ret = none ∧
      latest res.obs = some d ∧ d.length < 1152 ∧ Carries sx d m ∧ m.msgId = 256 * b.x.id1.toNat + b.x.id0.toNat ∧
      ∃ m', (∃ val : Bytes, val.length = 3 ∧ m' = addOp req BLOCK2 val) ∧ m = stamped b.x m' := by
  have hpos := (hR.asked.min hR.given).pos
  have hk : bs.length < 2 ^ 20 := by
    have := hR.blocks
    rw [Nat.mul_comm] at this
    exact Nat.lt_of_le_of_lt hmore (Nat.div_lt_of_lt_mul this)
  obtain ⟨sz, szx, os, hgo⟩ : ∃ sz szx os, Goes sx px (course sx px req resp size1 size2 buf bodyLen) req src buf bodyLen (min size2 b2) sz szx
      bs.length os bs := by
    obtain ⟨-, hs⟩ := down_states hR h
    rcases hs with ⟨rfl, -⟩ | ⟨-, -, ⟨szx, os, hgo⟩, -⟩ | ⟨hin, -⟩
    · obtain ⟨szx, hz⟩ := hR.asked.szx
      exact ⟨_, _, _, goes_start hR hz⟩
    · exact ⟨_, _, _, hgo⟩
    · have := (Nat.le_div_iff_mul_le hpos).1 hmore
      omega
  exact goes_waits hR.built hR.ordinary hgo hk b ht hcl h1 h2 h3 hfit

/-- The environment of the client in a turn; the low byte of the id is `i`. -/
def exTurnEnv (i : Byte) : BEnv := ⟨{ Client.exEnv [] with id0 := i }, true, true, true, true⟩

theorem exTurn_fits (i : Byte) (val : Bytes) (hl : val.length = 3) :
    ∃ d, Formats (stamped (exTurnEnv i).x (addOp Client.exGet BLOCK2 val)) d ∧ d.length < 1152 := by
  match val, hl with
  | [x, y, z], _ =>
    have hops : (stamped (exTurnEnv i).x (addOp Client.exGet BLOCK2 [x, y, z])).ops = [⟨11, [0x61]⟩, ⟨23, [x, y, z]⟩] := rfl
    have hlen : (enc (stamped (exTurnEnv i).x (addOp Client.exGet BLOCK2 [x, y, z]))).length ≤ 40 := by
      have : ∀ k, extSize k ≤ 2 := by intro k; unfold extSize; split <;> (try split) <;> omega
      have h1 := this (deltaOf ⟨11, [0x61]⟩ 0)
      have h2 := this (deltaOf ⟨23, [x, y, z]⟩ 11)
      have h3 := this (0 + 1)
      have h4 := this (0 + 1 + 1 + 1)
      have h5 : (stamped (exTurnEnv i).x (addOp Client.exGet BLOCK2 [x, y, z])).token.length = 4 := rfl
      have h6 : encPayload (stamped (exTurnEnv i).x (addOp Client.exGet BLOCK2 [x, y, z])) = [] := rfl
      rw [enc]
      simp only [List.length_append, encHdr_length]
      rw [hops, h5, h6]
      simp only [encOps, List.length_append, encOp_length, Op.len, List.length_cons, List.length_nil]
      omega
    obtain ⟨b', hb⟩ := format_room (m := stamped (exTurnEnv i).x (addOp Client.exGet BLOCK2 [x, y, z])) (buf := List.replicate Server.BUF_LEN 0)
      (len := Server.BUF_LEN) (by rw [List.length_replicate]; exact Nat.le_refl _) (by decide)
      ⟨fun h => (by cases h.2), fun h => (by cases h)⟩ (by rw [hops]; simp)
      (by rw [hops]; simp only [Server.BUF_LEN, List.length_cons, List.length_nil]; omega)
    exact ⟨_, Client.formats_iff.2 ⟨⟨_, hb⟩, rfl⟩, by omega⟩

/-- The body, of 40 bytes, the buffer and the course of the call. -/
def exSrc : Bytes := (List.range 40).map UInt8.ofNat
def exBuf : Bytes := List.replicate 50 0
abbrev exCourse (sx : Bool) : List BEnv → Out BRes := course sx false Client.exGet create 16 16 exBuf 50

theorem exProvides : Provides (cpath 256 Client.exGet.ops) exSrc 16 Server.exBlock :=
  ⟨create, 16, some 1, fun _ _ _ _ => rfl, created_built, rfl, Or.inr ⟨0, by decide, rfl⟩⟩

theorem exReady {sx : Bool} {evs : List (Env × Event)} {s : Srv} {tr : List (List Server.Obs)} (h : run sx Server.exInit evs = .ok (s, tr))
    (hi : ¬ Transfer s [1]) : Ready sx [1] evs s Client.exGet 16 16 50 exSrc exBuf :=
  ⟨⟨100, Server.exSep, 8, 64, Server.exPool, tr, Server.exPool_of, by decide, h, by decide⟩, hi, Client.exGet_built, by unfold NoBlocks; decide,
    exGet_ordinary sx, exGet_known, rfl, ⟨0, by decide, rfl⟩, ⟨0, by decide, rfl⟩, by decide, by decide, by decide⟩

theorem exPossible {sx : Bool} {evs : List (Env × Event)} {s0 s : Srv} {bs : List BEnv} {last : Option Nat} {seen : List (List Server.Obs)}
    (hR : Ready sx [1] evs s0 Client.exGet 16 16 50 exSrc exBuf)
    (h : Delivered sx [1] (exCourse sx) (Provides (cpath 256 Client.exGet.ops) exSrc 16) Distinct s0 (lastId sx [1] evs) bs s last seen)
    (hmore : bs.length ≤ 2) (t : Turn) (i : Byte) (ht : t.b = exTurnEnv i) (he : t.env = Server.exBlock) (hb : t.before = [])
    (hd : Server.test (exCourse sx (bs ++ [seeing (exTurnEnv i) []])) (fun r => decide (latest r.obs = some t.d)) = true) (hc : Carries sx t.d t.m) :
    Possible sx (exCourse sx) (Provides (cpath 256 Client.exGet.ops) exSrc 16) bs t := by
  obtain ⟨res, d, m, h1, h2, h3, h4, -, -⟩ := C110_goes_on sx false [1] evs s0 s Client.exGet create 16 16 16 50 exSrc exBuf bs last seen hR h hmore (exTurnEnv i)
    (Or.inl rfl) rfl rfl rfl rfl (exTurn_fits i)
  obtain ⟨r, hr, hd⟩ := Server.test_ok hd
  rw [show exCourse sx (bs ++ [seeing (exTurnEnv i) []]) = .ok res from h1 []] at hr
  cases Out.ok.inj hr
  rw [decide_eq_true_eq, h3] at hd
  cases Option.some.inj hd
  refine ⟨⟨res, by rw [ht, hb]; exact h1, h2, h3⟩, h4, hc, (by rw [hb]; intro i hi; cases hi), ?_, ?_⟩
  · rw [he]; exact Server.exBlock_noFault
  · rw [he]; exact exProvides

/-- The request for the block with this option value, with the id `0x100 + i`, as a datagram and as a message. -/
def exDat (i v : Byte) : Bytes := [0x44, 1, 1, i, 1, 2, 3, 4, 0xb1, 0x61, 0xc3, 0, 0, v]
def exReq (i v : Byte) : Msg := ⟨1, CON, 0, 1, 256 + i.toNat, [1, 2, 3, 4], [⟨11, [0x61]⟩, ⟨23, [0, 0, v]⟩], []⟩
def exT (i v : Byte) (mid : List (Env × Event)) : Turn := ⟨mid, Server.exBlock, exTurnEnv i, [], [], exDat i v, exReq i v⟩

theorem exCarried (sx : Bool) : Carries sx (exDat 2 0) (exReq 2 0) ∧ Carries sx (exDat 3 0x10) (exReq 3 0x10) ∧ Carries sx (exDat 4 0x20) (exReq 4 0x20) := by
  refine ⟨?_, ?_, ?_⟩ <;> unfold Carries <;> cases sx <;> decide +kernel

theorem idle_of {s : Srv} (h : s.trans.all (fun t => decide (t.blk.type = .regular)) = true) (a : Addr) : ¬ Transfer s a := by
  rintro ⟨t, ht, hn⟩
  obtain ⟨i, hi, -⟩ := Server.look_some ht
  have := List.all_eq_true.1 h t (List.mem_of_getElem? hi)
  exact hn (by simpa using this)

/-- C110 is violated: the ids of the requests are random. If the id of the first request is the one of the previous request of this client, the server takes it for
its repetition, and the call fails with `EBADMSG`. -/
theorem C110_violated (sx : Bool) : ¬ C110_statement sx := by
  have key : Server.test (run sx Server.exInit [(Server.exEnv, .datagram [1] exTwin)]) (fun x1 =>
      x1.1.trans.all (fun t => decide (t.blk.type = .regular)) &&
      Server.test (step sx x1.1 Server.exBlock (.datagram [1] (exDat 2 0))) (fun x2 =>
        decide (toward [1] x2.2.1 = [[0x64, 0x45, 1, 2, 9, 9, 9, 9, 0xff, 0x68, 0x69]]))) = true := by
    cases sx <;> decide +kernel
  obtain ⟨⟨s1, tr⟩, h1, key⟩ := Server.test_ok key
  rw [Bool.and_eq_true] at key
  obtain ⟨hreg, key⟩ := key
  obtain ⟨⟨s2, o, e⟩, h2, key⟩ := Server.test_ok key
  replace key := of_decide_eq_true key
  dsimp only at h2 key
  intro h
  have hR := exReady h1 (idle_of hreg [1])
  have hp := exPossible hR .start (Nat.zero_le _) (exT 2 0 []) 2 rfl rfl rfl (by cases sx <;> decide +kernel) (exCarried sx).1
  obtain ⟨res, k1, k2, -⟩ := h false [1] _ s1 s2 Client.exGet create 16 16 16 50 exSrc exBuf _ _ _ hR
    (.turn (exT 2 0 []) .start (fun _ => rfl) rfl (fun hn => absurd rfl hn) hp trivial h2)
  have hbad : Server.test (exCourse sx [seeing (exTurnEnv 2) [gets [0x64, 0x45, 1, 2, 9, 9, 9, 9, 0xff, 0x68, 0x69]]])
      (fun r => decide (r.ret = some (.error .EBADMSG))) = true := by cases sx <;> decide +kernel
  obtain ⟨r, hr, hbad⟩ := Server.test_ok hbad
  rw [key] at k1
  rw [show exCourse sx [seeing (exTurnEnv 2) [gets [0x64, 0x45, 1, 2, 9, 9, 9, 9, 0xff, 0x68, 0x69]]] = .ok res from k1] at hr
  cases Out.ok.inj hr
  rw [decide_eq_true_eq, k2 (show 1 * 16 ≤ 40 by decide)] at hbad
  cases hbad

/-- The hypotheses of the theorems are met: a body of 40 bytes is received in three turns. Before the second turn the server serves another client. -/
example : ∃ bs s last seen res, bs.length = 3 ∧
    Delivered true [1] (exCourse true) (Provides (cpath 256 Client.exGet.ops) exSrc 16) Distinct Server.exInit none bs s last seen ∧
    exCourse true bs = .ok res ∧ res.ret = some (.ok 40) ∧ res.body = exSrc ++ List.replicate 10 0 := by
  have key : Server.test (step true Server.exInit Server.exBlock (.datagram [1] (exDat 2 0))) (fun x1 =>
      keptB true [1] x1.1 [(Server.exEnv, .datagram [2] Server.exGetB)] &&
      Server.test (run true x1.1 [(Server.exEnv, .datagram [2] Server.exGetB)]) (fun y1 =>
        Server.test (step true y1.1 Server.exBlock (.datagram [1] (exDat 3 0x10))) (fun x2 =>
          Server.test (step true x2.1 Server.exBlock (.datagram [1] (exDat 4 0x20))) (fun x3 =>
            decide (y1.1.sepList = Server.exSep) && decide (x2.1.sepList = Server.exSep) && keptB true [1] x2.1 [] &&
            (Server.test (exCourse true [seeing (exTurnEnv 2) ([] ++ ((toward [1] x1.2.1).map gets ++ [])), seeing (exTurnEnv 3) []])
              (fun r => decide (latest r.obs = some (exDat 3 0x10))) &&
            Server.test (exCourse true [seeing (exTurnEnv 2) ([] ++ ((toward [1] x1.2.1).map gets ++ [])),
                seeing (exTurnEnv 3) ([] ++ ((toward [1] x2.2.1).map gets ++ [])), seeing (exTurnEnv 4) []])
              (fun r => decide (latest r.obs = some (exDat 4 0x20)))))))) = true := by
    decide +kernel
  obtain ⟨⟨s1, o1, e1⟩, h1, key⟩ := Server.test_ok key
  rw [Bool.and_eq_true] at key
  obtain ⟨hkept, key⟩ := key
  obtain ⟨⟨s1', tr1⟩, h1', key⟩ := Server.test_ok key
  obtain ⟨⟨s2, o2, e2⟩, h2, key⟩ := Server.test_ok key
  obtain ⟨⟨s3, o3, e3⟩, h3, key⟩ := Server.test_ok key
  rw [Bool.and_eq_true, Bool.and_eq_true, Bool.and_eq_true, Bool.and_eq_true, decide_eq_true_eq, decide_eq_true_eq] at key
  obtain ⟨⟨⟨q1, q2⟩, q3⟩, key⟩ := key
  dsimp only at h1 h1' h2 h3 hkept key q1 q2
  have hR : Ready true [1] [] Server.exInit Client.exGet 16 16 50 exSrc exBuf := exReady rfl (idle_of (by decide +kernel) [1])
  have d0 : Delivered true [1] (exCourse true) (Provides (cpath 256 Client.exGet.ops) exSrc 16) Distinct Server.exInit none [] Server.exInit none [] := .start
  have hs : ∀ (s : Srv) (m : Msg), s.sepList = Server.exSep → m.type = CON → ¬ Server.Separate Server.exSep m →
      ¬ ¬ (m.type = CON ∧ ¬ Server.Separate s.sepList m) := by
    intro s m hs hm hn h
    exact h ⟨hm, by rw [hs]; exact hn⟩
  have d1 := d0.turn (exT 2 0 []) (fun _ => rfl) rfl (fun hn => absurd rfl hn)
    (exPossible hR d0 (Nat.zero_le _) (exT 2 0 []) 2 rfl rfl rfl (by decide +kernel) (exCarried true).1)
    ⟨by decide, by decide, fun hn => absurd hn (hs Server.exInit _ rfl rfl (by decide +kernel))⟩ h1
  have d2 := d1.turn (exT 3 0x10 [(Server.exEnv, .datagram [2] Server.exGetB)]) (fun hn => by cases hn) h1'
    (fun _ => ⟨kept_of hkept, by
      intro x hx id _ m hm
      rw [List.mem_singleton.1 hx] at hm
      exact absurd hm (by simp [Server.arrived])⟩)
    (exPossible hR d1 (Nat.le_succ _) (exT 3 0x10 _) 3 rfl rfl rfl key.1 (exCarried true).2.1)
    ⟨by decide, by decide, fun hn => absurd hn (hs s1' _ q1 rfl (by decide +kernel))⟩ h2
  have d3 := d2.turn (exT 4 0x20 []) (fun hn => by cases hn) rfl
    (fun _ => ⟨kept_of q3, fun x hx => by cases hx⟩)
    (exPossible hR d2 (Nat.le_refl _) (exT 4 0x20 _) 4 rfl rfl rfl key.2 (exCarried true).2.2)
    ⟨by decide, by decide, fun hn => absurd hn (hs s2 _ q2 rfl (by decide +kernel))⟩ h3
  obtain ⟨-, res, r1, -, r2⟩ := C110_download_partial true false [1] [] Server.exInit _ Client.exGet create 16 16 16 50 exSrc exBuf _ _ _ hR d3
  exact ⟨_, _, _, _, res, rfl, d3, r1, r2 (show 3 = 40 / 16 + 1 by decide)⟩

end FreeCoAP.EndToEnd
