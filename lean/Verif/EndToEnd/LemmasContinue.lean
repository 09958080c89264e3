import Verif.EndToEnd.SpecContinue
import Verif.EndToEnd.PropsTurns

/-! # Lemmas about a download that begins with an ordinary request -/

namespace FreeCoAP.EndToEnd

open FreeCoAP.Msg
open FreeCoAP.Server (Env Event Addr Asks Carries Built Srv Reach Transfer AllKnown Formats BlockSize Serving SInv cpath Tidy run step numOf sizeOf2 CarriesBlock
  Extends2 sends Kept OnlyRepeats)
open FreeCoAP.Client (stamped BEnv BRes NoBlocks exchangeBlockwise exchange take2)

/-- The course of the call that goes on from the response. -/
abbrev continued (sx px : Bool) (req r : Msg) (size1 size : Nat) (buf : Bytes) (bodyLen : Nat) (bs : List BEnv) : Out BRes :=
  exchangeBlockwise sx px req r size1 size buf bodyLen true [] bs

theorem isBlock {sepList : List Bytes} {env : Env} {id k size : Nat} {m resp y : Msg} {src : Bytes} (hro : resp.ops = []) (he : Extends2 resp y)
    (hy : CarriesBlock src 5 k size y) : IsBlock src k size (Server.final sepList env id m y) := by
  refine ⟨hy.final, ?_⟩
  obtain ⟨val, pl, d, rfl, hvl, -⟩ := he
  refine ⟨val, ?_, hvl⟩
  show (Server.withCode (setPayload (addOp resp BLOCK2 val) pl) 2 d).ops = _
  simp [Server.withCode, setPayload, addOp, hro, opListAdd]

/-- The response is a block of the same body, so what its option says is known. -/
theorem IsBlock.parse {src : Bytes} {k size : Nat} {r : Msg} (h : IsBlock src k size r) :
    parseBlockOp BLOCK2 r.ops = .ok (some ⟨k, (k + 1) * size ≤ src.length, size⟩) := by
  obtain ⟨v', hv, hsp⟩ := h.block.option
  obtain ⟨val, ho, hl⟩ := h.option
  have : v' = val := by
    rw [ho] at hv
    simpa using hv.symm
  subst this
  exact parseBlockOp_of (Or.inr rfl) hl hsp hv

/-- What the client does with the first block, which it has already. -/
theorem goes_have {sx px : Bool} {req r : Msg} {src buf : Bytes} {size1 size bodyLen : Nat} (hget : req.codeDetail = 1) (hr : IsBlock src 0 size r) (hs : BlockSize size)
    (h1 : src.length ≤ bodyLen) (h2 : bodyLen ≤ buf.length) :
    (size ≤ src.length → ∃ szx, Goes sx px (continued sx px req r size1 size buf bodyLen) req src buf bodyLen size size szx 1 [] []) ∧
    (src.length < size → CompletedBy (continued sx px req r size1 size buf bodyLen) src buf [] r) := by
  obtain ⟨szx, hz⟩ := hs.szx
  have ht := take2_block (buf := buf) (bodyLen := bodyLen) (size2 := size) (method := req.codeDetail) (Or.inl ⟨hget, rfl⟩) hr.block hr.parse (Nat.le_refl _) hz h1 h2
  rw [Nat.zero_mul, Nat.zero_add, Nat.one_mul, List.take_zero, List.drop_zero, List.nil_append] at ht
  have hall : ∀ bs', continued sx px req r size1 size buf bodyLen bs' = (match take2 req.codeDetail size 0 r buf bodyLen with
        | .ub => .ub
        | .err e => .err e
        | .ok (.ret q body) => .ok ⟨[], some q, r, body⟩
        | .ok (.next size2 szx start body) => Client.blockwise2 sx px req bodyLen size2 szx start create body bs') := by
    intro bs'
    show exchangeBlockwise sx px req r size1 size buf bodyLen true [] bs' = _
    unfold exchangeBlockwise
    rw [if_pos hget]
    unfold Client.download
    rw [if_neg (by have := hs.pos; omega), hz]
    rfl
  constructor
  · intro hm
    rw [if_pos hm] at ht
    refine ⟨szx, hz, rfl, create, fun bs' => ?_⟩
    rw [List.nil_append, hall, ht, conses_nil, Nat.one_mul]
  · intro hm
    rw [if_neg (Nat.not_le.2 hm)] at ht
    refine ⟨[], fun bs' => ?_⟩
    rw [List.nil_append, hall, ht]

/-- The ordinary request is answered with the first block. -/
theorem first_block {sx px : Bool} {a : Addr} {evs : List (Env × Event)} {s0 s1 : Srv} {req : Msg} {b2 bodyLen : Nat} {src buf : Bytes} {env : Env} {x : Client.XEnv}
    {is js : List Client.Input} {d : Bytes} {o : List Server.Obs} {e : Option Err} (hR : Ready sx a evs s0 req b2 b2 bodyLen src buf)
    (hb : Begins sx px req src b2 env x is d) (hid : DistinctFirst s0 (lastId sx a evs) env (stamped x req)) (h : step sx s0 env (.datagram a d) = .ok (s1, o, e)) :
    Tidy s1 ∧ ∃ obs r, exchange sx px { x with inputs := is ++ ((toward a o).map gets ++ js) } req = .ok (obs, some (.ok r)) ∧ IsBlock src 0 b2 r ∧
      (b2 ≤ src.length → Serving s1 a (stamped x req).msgId 1 (cpath 256 req.ops) src 5 b2 b2) := by
  obtain ⟨id0, sepList, nbuf, len, pool, tr0, hpool, h8, hrun, hlen⟩ := hR.server
  have hreach : Reach sx evs s0 tr0 := ⟨id0, sepList, pool, hrun⟩
  obtain ⟨W, st, st', r1, r2, hpool⟩ := hpool
  obtain ⟨base, hi0⟩ := Server.init_sinv (id := id0) (sepList := sepList) hpool
  have hi := Server.run_sinv (Server.init_tidy _ _ _) hi0 hrun
  obtain ⟨obs, hwait⟩ := hb.waits
  obtain ⟨rsp, b1, rx, p1, p2, p3, p4⟩ := hb.app
  obtain ⟨n0, nl, nsep⟩ := hid
  rcases Client.exchange_cases hR.built.type hwait with ⟨-, e, he⟩ | ⟨hty, hcl, o3, hs⟩
  · cases he
  have hc := carries_of (stamped_built hR.built) (Or.inl hcl) (show Ordinary sx (stamped x req) from hR.ordinary) hb.datagram hb.short
  have hq : Asks (stamped x req) := ⟨hty, hcl⟩
  have hops : (stamped x req).ops = req.ops := rfl
  have hcd : (stamped x req).codeDetail = 1 := hR.get
  have hn1 : parseBlockOp BLOCK1 (stamped x req).ops = .ok none := parseBlockOp_absent (fun o ho => (hR.plain o ho).1)
  have hn2 : parseBlockOp BLOCK2 (stamped x req).ops = .ok none := parseBlockOp_absent (fun o ho => (hR.plain o ho).2)
  obtain ⟨-, y, k1, k2, k3, k4, k5⟩ := Server.serve_start_final hreach.tidy hi h8 (Server.step_rel h) hR.idle hb.fine hc hq n0
    (Server.fresh_of_last hreach.lastOK n0 (fun m' hm' hn => nl (by rw [lastId, hm', ← hn]; rfl))) (show AllKnown (stamped x req) from hR.known) hcd
    (fun u => p1 u (stamped x req) hcd rfl) p3 p4 hR.given hlen ⟨none, hn1⟩ none hn2 rfl
  rw [List.take_of_length_le (Nat.le_refl _)] at k4 k5
  obtain ⟨c1, -, c3⟩ := block_carries (sx := sx) (by decide) p2 p3 k3 k4 hc.fields.1 rfl k2
  obtain ⟨obs', key⟩ := delivered (px := px) (js := js) hR.built hwait hb.unacked k1 c1 (Or.inl k4.cls) (c3 px) nsep
  exact ⟨(Server.step_rel h).tidy hreach.tidy, obs', _, key, isBlock p3 k3 k4, k5⟩

/-- The states of client and server after some turns. -/
theorem continue_states {sx px : Bool} {a : Addr} {evs : List (Env × Event)} {s0 s1 : Srv} {req r : Msg} {size1 b2 bodyLen id : Nat} {src buf : Bytes}
    (hR : Ready sx a evs s0 req b2 b2 bodyLen src buf) (hr : IsBlock src 0 b2 r) (ht1 : Tidy s1)
    (hs1 : b2 ≤ src.length → Serving s1 a id 1 (cpath 256 req.ops) src 5 b2 b2) {bs : List BEnv} {s : Srv} {last : Option Nat} {seen : List (List Server.Obs)}
    (h : Delivered sx a (continued sx px req r size1 b2 buf bodyLen) (Provides (cpath 256 req.ops) src b2) Distinct s1 (some id) bs s last seen) :
    Tidy s ∧
    (((bs.length + 1) * b2 ≤ src.length ∧
      (∃ szx os, Goes sx px (continued sx px req r size1 b2 buf bodyLen) req src buf bodyLen b2 b2 szx (bs.length + 1) os bs) ∧
      ∃ id, last = some id ∧ Serving s a id 1 (cpath 256 req.ops) src 5 ((bs.length + 1) * b2) b2) ∨
     (src.length < (bs.length + 1) * b2 ∧ bs.length * b2 ≤ src.length ∧
      ∃ rp, IsBlock src bs.length b2 rp ∧ CompletedBy (continued sx px req r size1 b2 buf bodyLen) src buf bs rp)) := by
  have hpos := hR.given.pos
  obtain ⟨hh1, hh2⟩ := goes_have (sx := sx) (px := px) (size1 := size1) hR.get hr hR.given hR.room hR.buffer
  induction h with
  | start =>
    refine ⟨ht1, ?_⟩
    simp only [List.length_nil, Nat.zero_add, Nat.one_mul, Nat.zero_mul]
    by_cases hm : b2 ≤ src.length
    · obtain ⟨szx, hg⟩ := hh1 hm
      exact Or.inl ⟨hm, ⟨szx, [], hg⟩, id, rfl, hs1 hm⟩
    · exact Or.inr ⟨by omega, Nat.zero_le _, r, hr, hh2 (by omega)⟩
  | @turn bs s s2 s3 last seen tr o e t h first between quiet possible fresh served ih =>
    obtain ⟨ht, ih⟩ := ih
    have ht2 := Server.run_tidy ht between
    refine ⟨(Server.step_rel served).tidy ht2, ?_⟩
    obtain ⟨n0, nl, nsep⟩ := fresh
    have hlen1 : (bs ++ [seeing t.b (t.before ++ ((toward a o).map gets ++ t.after))]).length = bs.length + 1 := by simp
    rw [hlen1]
    rcases ih with ⟨hin, ⟨szx, os, hgo⟩, id, rfl, hserv⟩ | ⟨-, -, rp, -, os, hfin⟩
    · have hk20 : bs.length + 1 < 2 ^ 20 := by
        have := hR.blocks
        rw [Nat.min_self] at this
        exact Nat.lt_of_mul_lt_mul_right (Nat.lt_of_le_of_lt hin this)
      have hserv1 : Serving s2 a id 1 (cpath 256 req.ops) src 5 ((bs.length + 1) * b2) b2 := by
        by_cases hbs : bs = []
        · rw [first hbs] at between
          cases between
          exact hserv
        · obtain ⟨q1, q2⟩ := quiet hbs
          exact hserv.run ht between q1 (fun x hx => q2 x hx id rfl)
      obtain ⟨val, obs, g1, g2, g3, g4, g5⟩ := goes_asks hR.built hR.ordinary hk20 hgo possible
      obtain ⟨a1, a2⟩ := addOp_asks hR.built hR.plain hgo.exp hk20 g1
      have hk : AllKnown t.m := by rw [g4]; exact known_addOp hR.known
      have hops : t.m.ops = (addOp req BLOCK2 val).ops := by rw [g4]; rfl
      have hcd : t.m.codeDetail = 1 := by rw [g4]; exact hR.get
      have hcp : cpath 256 t.m.ops = cpath 256 req.ops := by rw [hops]; exact cpath_addOp hR.plain
      obtain ⟨-, y, k1, k2, k3, k4, k5⟩ := Server.serve_next_final ht2 (Server.step_rel served) hserv1 hR.given possible.fine possible.carries g5
        (fun hn => nl (by rw [hn])) hk hcd hcp (by unfold Server.Block1OK; rw [hops]; exact a2) ⟨false, by rw [hops]; exact a1⟩ (by rw [Nat.min_self])
      rw [Nat.min_self] at k4 k5
      have := goes_turn_by hR.built hR.ordinary (Or.inl ⟨hR.get, rfl⟩) hk20 hR.given (Nat.le_refl _) hR.room hR.buffer hgo possible
        created_built rfl k1 k2 k3 k4 nsep
      have hmul : (bs.length + 1 + 1) * b2 = (bs.length + 1) * b2 + b2 := by rw [Nat.add_mul, Nat.one_mul]
      by_cases hm : (bs.length + 1 + 1) * b2 ≤ src.length
      · exact Or.inl ⟨hm, this.1 hm, _, rfl, by rw [hmul]; exact k5 hm⟩
      · exact Or.inr ⟨by omega, hin, _, isBlock rfl k3 k4, this.2 (by omega)⟩
    · exfalso
      obtain ⟨res, w1, w2, -⟩ := possible.waits
      have := w1 []
      rw [hfin] at this
      cases this
      cases w2

end FreeCoAP.EndToEnd
