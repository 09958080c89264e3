import Verif.Server.LemmasReply
import Verif.EndToEnd.LemmasTurnsUp
import Verif.EndToEnd.SpecTurnsBoth

/-! # Lemmas about a blockwise upload that is answered with a body, over a network that delivers -/

namespace FreeCoAP.EndToEnd

open FreeCoAP.Msg
open FreeCoAP.Server (Env Event Addr Asks Carries Built Srv AllKnown NoFault Separate sends emptyAck CarriesBlock Extends2
  BlockSize SInv cpath Tidy run step numOf moreOf sizeOf2 withCode Serving InTransfer CollectB ExpectsB)
open FreeCoAP.Client (stamped exchange BEnv BRes message1 take2 blockwise1 blockwise2 NoBlocks download endRound values Made1)

/-- The number of turns. -/
theorem carried_turns {size1 size len : Nat} (hs : 0 < size) (hl : 0 < len) (k : Nat) : carried size1 size k < len ↔ k < upTurns size1 size len := by
  unfold upTurns
  cases k with
  | zero =>
    simp only [carried]
    generalize (len - size1 + (size - 1)) / size = q
    omega
  | succ k =>
    simp only [carried]
    have h1 : k + 1 < 1 + (len - size1 + (size - 1)) / size ↔ k + 1 ≤ (len - size1 + (size - 1)) / size := by omega
    rw [h1, Nat.le_div_iff_mul_le hs, Nat.add_mul, Nat.one_mul]
    omega

/-- A response that confirms a block and carries another one is read back by the client. -/
theorem reply_carries {sx : Bool} {sepList : List Bytes} {env : Env} {id k size d fin : Nat} {m resp y : Msg} {src val : Bytes} {blk : Block} (hd : d < 32)
    (hfin : fin < 32) (hb : Built resp) (hro : resp.ops = []) (hvl : val.length = 3) (hv : blockSpec val = some blk)
    (he : Extends2 (withCode (addOp resp BLOCK1 val) 2 d) y) (hy : CarriesBlock src fin k size y) (hf : Fields m) (hl : m.token.length = 4)
    (hs : Server.Sendable (Server.final sepList env id m y)) :
    Carries sx (enc (Server.final sepList env id m y)) (Server.final sepList env id m y) ∧
    parseBlockOp BLOCK1 y.ops = .ok (some blk) ∧
    parseBlockOp BLOCK2 y.ops = .ok (some ⟨k, (k + 1) * size ≤ src.length, size⟩) ∧ ∀ px, Client.Acceptable px y := by
  obtain ⟨v', hv2, hsp⟩ := hy.option
  have hcd := hy.detail_lt hfin
  obtain ⟨v2, pl, dd, rfl, hvl2, hpl⟩ := he
  have hops : (withCode (setPayload (addOp (withCode (addOp resp BLOCK1 val) 2 d) BLOCK2 v2) pl) 2 dd).ops = [⟨BLOCK2, v2⟩, ⟨BLOCK1, val⟩] := by
    simp [withCode, setPayload, addOp, hro, opListAdd, BLOCK1, BLOCK2]
  have hvv : v' = v2 := by
    rw [hops] at hv2
    simpa [BLOCK1, BLOCK2] using hv2.symm
  subst hvv
  have hmem : ∀ o ∈ (withCode (setPayload (addOp (withCode (addOp resp BLOCK1 val) 2 d) BLOCK2 v') pl) 2 dd).ops, o = ⟨BLOCK2, v'⟩ ∨ o = ⟨BLOCK1, val⟩ := by
    intro o ho
    rw [hops] at ho
    simpa using ho
  have hbf : Built (Server.final sepList env id m (withCode (setPayload (addOp (withCode (addOp resp BLOCK1 val) 2 d) BLOCK2 v') pl) 2 dd)) :=
    ((((hb.addOp _ _).withCode (by decide) hd).addOp _ _).setPayload _).withCode (by decide) hcd |>.final hf
  have hsend := Server.sendable_two (x := Server.final sepList env id m (withCode (setPayload (addOp (withCode (addOp resp BLOCK1 val) 2 d) BLOCK2 v') pl) 2 dd))
    (op1 := ⟨BLOCK2, v'⟩) (op2 := ⟨BLOCK1, val⟩) hops hvl2 hvl (show 13 ≤ BLOCK2 by decide) (show BLOCK2 ≤ BLOCK1 by decide) (Server.final_shape rfl)
    (by show m.token.length ≤ 8; omega) hpl
  refine ⟨carries_of hbf (Or.inr (Or.inl rfl)) ?_ (Client.formats_iff.2 ⟨hs, rfl⟩) ?_, parseBlockOp_of (Or.inl rfl) hvl hv ?_,
    parseBlockOp_of (Or.inr rfl) hvl2 hsp ?_, ?_⟩
  · intro o ho
    rcases hmem o ho with rfl | rfl
    · show BLOCK2 < 65536 ∧ v'.length < 65536 ∧ (sx = true → BLOCK2 < 141 ∧ v'.length < 141)
      rw [hvl2]
      exact ⟨by decide, by decide, fun _ => ⟨by decide, by decide⟩⟩
    · show BLOCK1 < 65536 ∧ val.length < 65536 ∧ (sx = true → BLOCK1 < 141 ∧ val.length < 141)
      rw [hvl]
      exact ⟨by decide, by decide, fun _ => ⟨by decide, by decide⟩⟩
  · have h2 : (Server.final sepList env id m (withCode (setPayload (addOp (withCode (addOp resp BLOCK1 val) 2 d) BLOCK2 v') pl) 2 dd)).token.length = 4 := hl
    have := hsend.2
    omega
  · rw [hops]
    simp [BLOCK1, BLOCK2]
  · rw [hops]
    simp [BLOCK1, BLOCK2]
  · intro px o ho _
    rcases hmem o ho with rfl | rfl
    · show BLOCK2 ∈ known; decide
    · show BLOCK1 ∈ known; decide

/-- The response that ends the transfer of `out` carries block `k`, and has only Block options. -/
structure LastBlock (out : Bytes) (d k size : Nat) (rp : Msg) : Prop where
  block : CarriesBlock out d k size rp
  options : ∀ op ∈ rp.ops, (op.num = BLOCK2 ∨ op.num = BLOCK1) ∧ op.val.length = 3
  few : rp.ops.length ≤ 2

theorem LastBlock.final {out : Bytes} {d k size id : Nat} {y m : Msg} {sepList : List Bytes} {env : Env} (h : LastBlock out d k size y) :
    LastBlock out d k size (Server.final sepList env id m y) := ⟨h.block.final, h.options, h.few⟩

theorem lastBlock_next {out : Bytes} {d k size : Nat} {resp y : Msg} (hro : resp.ops = []) (he : Extends2 resp y) (hy : CarriesBlock out d k size y) :
    LastBlock out d k size y := by
  obtain ⟨val, pl, dd, rfl, hvl, -⟩ := he
  have hops : (withCode (setPayload (addOp resp BLOCK2 val) pl) 2 dd).ops = [⟨BLOCK2, val⟩] := by
    simp [withCode, setPayload, addOp, hro, opListAdd]
  refine ⟨hy, fun op ho => ?_, by rw [hops]; exact (by decide : 1 ≤ 2)⟩
  rw [hops] at ho
  rw [List.mem_singleton.1 ho]
  exact ⟨Or.inl rfl, hvl⟩

theorem lastBlock_reply {out val : Bytes} {d d' size : Nat} {resp y : Msg} (hro : resp.ops = []) (hvl : val.length = 3)
    (he : Extends2 (withCode (addOp resp BLOCK1 val) 2 d') y) (hy : CarriesBlock out d 0 size y) : LastBlock out d 0 size y := by
  obtain ⟨v2, pl, dd, rfl, hvl2, -⟩ := he
  have hops : (withCode (setPayload (addOp (withCode (addOp resp BLOCK1 val) 2 d') BLOCK2 v2) pl) 2 dd).ops = [⟨BLOCK2, v2⟩, ⟨BLOCK1, val⟩] := by
    simp [withCode, setPayload, addOp, hro, opListAdd, BLOCK1, BLOCK2]
  refine ⟨hy, fun op ho => ?_, by rw [hops]; exact (by decide : 2 ≤ 2)⟩
  rw [hops] at ho
  simp only [List.mem_cons, List.not_mem_nil, or_false] at ho
  rcases ho with rfl | rfl
  · exact ⟨Or.inl rfl, hvl2⟩
  · exact ⟨Or.inr rfl, hvl⟩

/-- The last turn of an upload that is answered with a body. -/
theorem last_turn {sx px : Bool} {a : Addr} {call : List BEnv → Out BRes} {app : Env → Prop} {req resp y : Msg} {buf out : Bytes}
    {bodyLen size size2 sz szx szx2 start id num width d : Nat} {val : Bytes} {sepList : List Bytes} {os : List (List Client.Obs)} {bs : List BEnv}
    {t : Turn} {o : List Server.Obs} (hr : Built req) (hnb : NoBlocks req) (ho : Ordinary sx req) (hex : Expected req.codeDetail d) (hput : req.codeDetail ≠ 1)
    (hsz : BlockSize size) (hle : size ≤ size2) (hz2 : calcBlockSzx size2 = .ok szx2) (hws : BlockSize width) (hwle : width ≤ sz) (hst : start < bodyLen)
    (h : GoesUp sx px call req size2 buf bodyLen sz szx start os bs) (hp : Possible sx call app bs t) (hb : Built resp)
    (hro : resp.ops = []) (hvl : val.length = 3) (hv : blockSpec val = some ⟨num, false, width⟩) (hnum : num * width = start)
    (hs : sends o = (if t.m.type = CON ∧ Separate sepList t.m then [(a, emptyAck t.m.msgId)] else []) ++ [(a, enc (Server.final sepList t.env id t.m y))])
    (hsend : Server.Sendable (Server.final sepList t.env id t.m y)) (he : Extends2 (withCode (addOp resp BLOCK1 val) 2 d) y)
    (hy : CarriesBlock out d 0 size y) (hne : out ≠ []) (h2 : bodyLen ≤ buf.length)
    (hid : ¬ (t.m.type = CON ∧ ¬ Separate sepList t.m) → Server.nextMsgId id t.env.idRand ≠ t.m.msgId) (hlast : bodyLen ≤ start + sz) :
    (bodyLen < min size out.length → Refused call (bs ++ [seeing t.b (t.before ++ ((toward a o).map gets ++ t.after))])) ∧
    (size ≤ out.length → size ≤ bodyLen → ∃ szx' os', Goes sx px call req out buf bodyLen size size szx' 1 os'
      (bs ++ [seeing t.b (t.before ++ ((toward a o).map gets ++ t.after))])) ∧
    (out.length < size → out.length ≤ bodyLen →
      ∃ rp, LastBlock out d 0 size rp ∧ CompletedBy call out buf (bs ++ [seeing t.b (t.before ++ ((toward a o).map gets ++ t.after))]) rp) := by
  obtain ⟨msg, n, obs, g1, g2, g3, g4, g5⟩ := up_asks hr hnb ho h hp
  have hl : t.m.token.length = 4 := by rw [g4]; rfl
  obtain ⟨c1, c2, c3, c4⟩ := reply_carries (sx := sx) hex.lt hex.lt hb hro hvl hv he hy hp.carries.fields.1 hl hsend
  have hun := hp.unacked
  rw [g4] at hs c1 hid hun
  obtain ⟨obs', key⟩ := delivered (px := px) (js := t.after) g2.built g3 hun hs c1 (Or.inl hy.cls) (c4 px) hid
  obtain ⟨hz, hlen, rp, hcall⟩ := h
  obtain ⟨szx', hz'⟩ := hsz.szx
  obtain ⟨szxw, hzw⟩ := hws.szx
  have hdet : y.codeDetail = 31 ∨ y.codeDetail = 1 ∨ y.codeDetail = 4 := by
    rw [hy.detail]
    unfold Expected at hex
    split <;> omega
  have ht := take1_confirms (size1 := sz) (start := start) (n := n) (bodyLen := bodyLen)
    (r := Server.final sepList t.env id (stamped t.b.x msg) y) hy.cls rfl hdet c2 hwle hnum hzw
  have hn := g2.len
  rw [if_pos hlast] at hn
  rw [if_pos (by omega)] at ht
  have hpos := hsz.pos
  have hpay : (Server.final sepList t.env id (stamped t.b.x msg) y).payload ≠ [] := by
    show y.payload ≠ []
    rw [hy.payload, Nat.zero_mul, List.drop_zero]
    intro h0
    have := congrArg List.length h0
    rw [List.length_take, List.length_nil] at this
    have : 0 < out.length := List.length_pos_iff.2 hne
    omega
  have ht2 := take2_room (buf := buf) (bodyLen := bodyLen) (size2 := size2) hex
    (show CarriesBlock out d 0 size (Server.final sepList t.env id (stamped t.b.x msg) y) from hy.final) c3 hle hz' h2
  have e0 : ∀ (c : BEnv) (later : List BEnv), (bs ++ [c] ++ later).drop (os ++ [obs']).length = later := by
    intro c later
    rw [List.length_append, hlen, List.length_singleton, show bs.length + 1 = (bs ++ [c]).length by simp, List.drop_left]
  have hp2 := Server.BlockSize.pos (Client.BlockSize.of_szx hz2)
  have hall : ∀ bs', call ((bs ++ [seeing t.b (t.before ++ ((toward a o).map gets ++ t.after))]) ++ bs') =
      conses (os ++ [obs']) (match take2 req.codeDetail size2 (0 * size) (Server.final sepList t.env id (stamped t.b.x msg) y)
          (out.take (0 * size) ++ buf.drop (0 * size)) bodyLen with
        | .ub => .ub
        | .err e => .err e
        | .ok (.ret r body) => .ok ⟨[], some r, Server.final sepList t.env id (stamped t.b.x msg) y, body⟩
        | .ok (.next size2 szx start body) => blockwise2 sx px req bodyLen size2 szx start create body bs') := by
    intro bs'
    have e1 : call ((bs ++ [seeing t.b (t.before ++ ((toward a o).map gets ++ t.after))]) ++ bs') =
        post sx px req size2 bodyLen ((bs ++ [seeing t.b (t.before ++ ((toward a o).map gets ++ t.after))]) ++ bs')
          (.ok ⟨os ++ [obs'], some (.ok (start + n)), Server.final sepList t.env id (stamped t.b.x msg) y, buf⟩) := by
      rw [List.append_assoc, hcall, List.singleton_append, blockwise1_took (g1 _) key, ht]
      rfl
    rw [e1]
    unfold post
    simp only
    rw [if_neg (by omega), if_neg hpay, e0]
    unfold download
    rw [if_neg (by omega), hz2]
    simp only [Nat.zero_mul, List.take_zero, List.drop_zero, List.nil_append]
    rw [if_neg (by decide)]
    cases take2 req.codeDetail size2 0 (Server.final sepList t.env id (stamped t.b.x msg) y) buf bodyLen with
    | ub => rfl
    | err e => rfl
    | ok x => cases x <;> rfl
  rw [Nat.zero_add, Nat.one_mul] at ht2
  refine ⟨fun hm => ?_, fun hm hroom => ?_, fun hm hroom => ?_⟩
  · rw [if_pos hm] at ht2
    refine ⟨os ++ [obs'], Server.final sepList t.env id (stamped t.b.x msg) y, out.take (0 * size) ++ buf.drop (0 * size), fun bs' => ?_⟩
    rw [hall, ht2]
    simp [conses]
  · rw [if_neg (by omega), if_pos hm] at ht2
    refine ⟨szx', os ++ [obs'], hz', rfl, create, fun bs' => ?_⟩
    rw [hall, ht2, Nat.one_mul]
  · rw [if_neg (by omega), if_neg (Nat.not_le.2 hm)] at ht2
    refine ⟨Server.final sepList t.env id (stamped t.b.x msg) y, (lastBlock_reply hro hvl he hy).final, os ++ [obs'], fun bs' => ?_⟩
    rw [hall, ht2]
    simp [conses]

/-- A turn of the upload, at the client and at the server. -/
theorem both_round {sx px : Bool} {a : Addr} {call : List BEnv → Out BRes} {req : Msg} {buf : Bytes} {base nbuf room width : Nat}
    {bodyLen size2 sz szx szx2 start num b1 b2 id d : Nat} {f : Bytes → Bytes} {s1 s2 : Srv} {os : List (List Client.Obs)} {bs : List BEnv} {t : Turn}
    {o : List Server.Obs} {e : Option Err} (hr : Built req) (hnb : NoBlocks req) (ho : Ordinary sx req) (hk : AllKnown req)
    (hput : req.codeDetail ≠ 1) (hz2 : calcBlockSzx size2 = .ok szx2) (hd : d = 1 ∨ d = 4)
    (hwsz : BlockSize width) (hb2 : BlockSize b2) (h2 : bodyLen ≤ buf.length) (hst : start < bodyLen) (hroom : bodyLen ≤ room)
    (hne : f (buf.take bodyLen) ≠ [])
    (h20 : num < 2 ^ 20) (hn1 : start = num * sz) (hn2 : num * min sz width = start)
    (h : GoesUp sx px call req size2 buf bodyLen sz szx start os bs)
    (hp : Possible sx call (Replies (cpath 256 req.ops) req.codeDetail b1 b2 room id d f) bs t)
    (ht : Tidy s1) (hi : SInv base nbuf room s1) (h8 : 8 ≤ nbuf) (h0 : Server.ofAddr s1 a = none → t.m.msgId ≠ 0)
    (hnew : ∀ u, Server.ofAddr s1 a = some u → Server.matchReq u t.m = false)
    (hE : ExpectsB s1 t.env a t.m req.codeDetail (cpath 256 req.ops) (some id) room ((buf.take bodyLen).take start) width b2)
    (hserved : step sx s1 t.env (.datagram a t.d) = .ok (s2, o, e))
    (hid : ¬ (t.m.type = CON ∧ ¬ Separate s1.sepList t.m) → Server.nextMsgId s1.msgId t.env.idRand ≠ t.m.msgId) :
    (start + sz < bodyLen → Server.bodiesOf a o = [] ∧
      InTransfer (CollectB req.codeDetail (cpath 256 req.ops) (some id) room ((buf.take bodyLen).take (start + sz)) (min sz width) b2) s2 a t.m.msgId ∧
      ∃ szx' os', GoesUp sx px call req size2 buf bodyLen (min sz width) szx' (start + sz) os'
        (bs ++ [seeing t.b (t.before ++ ((toward a o).map gets ++ t.after))])) ∧
    (bodyLen ≤ start + sz → Server.bodiesOf a o = [(a, id, buf.take bodyLen)] ∧
      (bodyLen < min (min size2 b2) (f (buf.take bodyLen)).length →
        Refused call (bs ++ [seeing t.b (t.before ++ ((toward a o).map gets ++ t.after))])) ∧
      (min size2 b2 ≤ (f (buf.take bodyLen)).length → min size2 b2 ≤ bodyLen →
        Serving s2 a t.m.msgId req.codeDetail (cpath 256 req.ops) (f (buf.take bodyLen)) d (min size2 b2) (min size2 b2) ∧
        ∃ szx' os', Goes sx px call req (f (buf.take bodyLen)) buf bodyLen (min size2 b2) (min size2 b2) szx' 1 os'
          (bs ++ [seeing t.b (t.before ++ ((toward a o).map gets ++ t.after))])) ∧
      ((f (buf.take bodyLen)).length < min size2 b2 → (f (buf.take bodyLen)).length ≤ bodyLen →
        ∃ rp, LastBlock (f (buf.take bodyLen)) d 0 (min size2 b2) rp ∧
          CompletedBy call (f (buf.take bodyLen)) buf (bs ++ [seeing t.b (t.before ++ ((toward a o).map gets ++ t.after))]) rp)) := by
  obtain ⟨msg, n, obs, g1, hM, g3, g4, g5⟩ := up_asks hr hnb ho h hp
  have hszb : BlockSize sz := Client.BlockSize.of_szx h.exp
  have hpos := Server.BlockSize.pos hszb
  have hlen : (buf.take bodyLen).length = bodyLen := by rw [List.length_take]; omega
  have hlen2 : ((buf.take bodyLen).take start).length = start := by rw [List.length_take, hlen]; omega
  have hops : t.m.ops = msg.ops := by rw [g4]; rfl
  have hkn := Client.div_of_szx h.exp hn1
  obtain ⟨val1, v1, v2, v3⟩ := hM.block1
  have v3 := v3 szx h.exp (by rw [hkn]; exact h20)
  rw [hkn] at v3
  have hb1 : parseBlockOp BLOCK1 t.m.ops = .ok (some ⟨num, ¬ (start + sz ≥ bodyLen), sz⟩) := by
    rw [hops]
    exact parseBlockOp_of (Or.inl rfl) v2 v3 (filter_values v1)
  have hbl2 : parseBlockOp BLOCK2 t.m.ops = .ok (if start + sz ≥ bodyLen then some ⟨0, false, size2⟩ else none) := by
    rw [hops]
    have := hM.block2
    split at this
    · rename_i hc
      rw [if_pos hc]
      obtain ⟨w, w1, w2, w3⟩ := this
      exact parseBlockOp_of (Or.inr rfl) w2 (w3 szx2 hz2) (filter_values w1)
    · rename_i hc
      rw [if_neg hc]
      refine parseBlockOp_absent ?_
      intro op hop hn
      have hv : op.val ∈ values BLOCK2 msg := List.mem_map.2 ⟨op, List.mem_filter.2 ⟨hop, by simpa using hn⟩, rfl⟩
      rw [this] at hv
      cases hv
  have hpay : t.m.payload = (buf.drop start).take n := by rw [g4]; exact hM.payload
  have hn := hM.len
  have hnp : 0 < n := by split at hn <;> omega
  have hin : start + n ≤ bodyLen := by split at hn <;> omega
  have hgot : (buf.take bodyLen).take start ++ t.m.payload = (buf.take bodyLen).take (start + n) := by
    rw [hpay, List.take_take, List.take_take, Nat.min_eq_left (by omega), Nat.min_eq_left hin, List.take_add]
  have hpl : t.m.payload.length = n := by rw [hpay, List.length_take, List.length_drop]; omega
  have hcont : Server.Continues req.codeDetail (cpath 256 req.ops) ((buf.take bodyLen).take start).length width
      (some ⟨num, ¬ (start + sz ≥ bodyLen), sz⟩) t.m := by
    refine ⟨hb1, ?_, ?_, ?_, ?_⟩
    · rw [g4]; exact hM.code.2
    · rw [hops]; exact cpath_others 256 hM.options
    · rw [hlen2]; exact hn2
    · intro hz
      rw [hz] at hpl
      simp only [List.length_nil] at hpl
      omega
  have hkm : AllKnown t.m := by
    intro op hop
    rw [hops] at hop
    exact made_known hM hk op hop
  obtain ⟨⟨rsp0, body, len, a1, a2, a3, a4, -⟩, arx⟩ := hp.app
  obtain ⟨k1, k2⟩ := Server.receive_reply (f := f) (d := d) ht hi h8 (Server.step_rel hserved) hp.fine hp.carries g5 h0 hnew hkm hwsz hb2 hE hcont hbl2
    (by rw [hlen2, hpl]; omega)
  have hresp : ∀ resp, (resp = create ∨ ∀ u, ∃ b2 body bodyLen, t.env.handle u t.m = .blockwise resp width b2 body bodyLen (some id)) →
      Built resp ∧ resp.payload = [] := by
    rintro resp (rfl | c3)
    · exact ⟨⟨rfl, by decide, by decide, by decide, by decide, by decide, List.Pairwise.nil⟩, rfl⟩
    · obtain ⟨y1, y2, y3, hy⟩ := c3 Server.Trans.zero
      rw [a1 _ _ hcont.meth hcont.path (made_block1 hM hops)] at hy
      cases hy
      exact ⟨a2, a4⟩
  constructor
  · intro hm
    obtain ⟨q1, q2, resp, val, c1, -, c3, c4, c5, c6, c7⟩ := k1 (by simp [moreOf]; omega)
    rw [hgot, hn, if_neg (by omega), if_neg (by omega)] at q2
    obtain ⟨r1, r2⟩ := hresp resp c3
    exact ⟨q1, q2, (up_turn hr hnb ho (hszb.min hwsz) (Nat.min_le_left _ _) hst h hp r1 c1 r2 (Or.inl rfl) c4 c5 hn2 c6 c7 hid).1 hm⟩
  · intro hm
    have hwhole : (buf.take bodyLen).take start ++ t.m.payload = buf.take bodyLen := by
      rw [hgot, List.take_of_length_le (by rw [hlen, hn, if_pos hm]; omega)]
    rw [hwhole, if_pos hm] at k2
    obtain ⟨q1, ⟨resp, val, y, c1, c2, c3, c4, c5, c6, c7, c8⟩, q3⟩ := k2 (by simp [moreOf]; omega) rfl (by omega) arx hne
    obtain ⟨r1, r2⟩ := hresp resp c2
    have hsz2 : BlockSize size2 := Client.BlockSize.of_szx hz2
    have := last_turn hr hnb ho (Or.inr ⟨hput, hd⟩) hput (hsz2.min hb2) (Nat.min_le_left _ _) hz2 (hszb.min hwsz) (Nat.min_le_left _ _) hst h hp r1 c1 c3 c4 hn2 c5
      c6 c7 c8 hne h2 hid hm
    exact ⟨q1, this.1, fun hle hroom => ⟨q3 hle, this.2.1 hle hroom⟩, this.2.2⟩

/-- The client transmits the next block of the body. -/
theorem up_goes_on {sx px : Bool} {call : List BEnv → Out BRes} {req : Msg} {buf : Bytes} {bodyLen size2 sz szx szx2 start k : Nat}
    {os : List (List Client.Obs)} {bs : List BEnv} {b : BEnv} (hr : Built req) (hnb : NoBlocks req) (ho : Ordinary sx req)
    (hz2 : calcBlockSzx size2 = .ok szx2) (hk : start = k * sz) (hk20 : k < 2 ^ 20) (hst : start < bodyLen) (hbuf : bodyLen ≤ buf.length)
    (h : GoesUp sx px call req size2 buf bodyLen sz szx start os bs) (ht : req.type = CON ∨ req.type = NON) (hcl : req.codeClass = 0)
    (h1 : b.copyMem = true) (h2 : b.opMem1 = true) (h3 : b.opMem2 = true) (h4 : b.payMem = true) (h5 : b.x.sendErr = none)
    (hfit : ∀ m, BlockRequest req sz m → ∃ d, Server.Formats (stamped b.x m) d ∧ d.length < 1152) :
    ∃ res d m, (∀ later, call (bs ++ seeing b [] :: later) = .ok res) ∧ res.ret = none ∧
      latest res.obs = some d ∧ d.length < 1152 ∧ Carries sx d m ∧ m.msgId = 256 * b.x.id1.toNat + b.x.id0.toNat ∧
      ∃ m', BlockRequest req sz m' ∧ m = stamped b.x m' := by
  obtain ⟨hz, hlen, rp, hgo⟩ := h
  obtain ⟨msg, n, hm, v1, p, q1, q2, q3⟩ := message1_makes (b := seeing b []) hr hz hz2 hk hk20 hst hbuf h1 h2 h3 h4
  obtain ⟨dd, hdd, hdl⟩ := hfit msg ⟨v1, p, q1, q2, q3⟩
  obtain ⟨hsend, rfl⟩ := Client.formats_iff.1 hdd
  have hM := Client.message1_ok hr hnb hz hm
  have hx := Client.exchange_eq (sx := sx) (px := px) (x := (seeing b []).x) (req := msg) (by rw [hM.type]; exact ht) (by rw [hM.code.1]; exact hcl) hsend h5
  rw [show (seeing b []).x.inputs = [] from rfl, Client.wait] at hx
  simp only at hx
  have key : ∀ later, call (bs ++ seeing b [] :: later) = .ok
      ⟨os ++ [[.sent (enc (stamped b.x msg))] ++ (Client.startWait b.x msg.type).1 ++ []], none, rp, buf⟩ := by
    intro later
    rw [hgo, Client.blockwise1, hm]
    simp only
    rw [hx]
    rfl
  refine ⟨_, enc (stamped b.x msg), stamped b.x msg, key, rfl, ?_, hdl,
    carries_of (stamped_built hM.built) (Or.inl (by show msg.codeClass = 0; rw [hM.code.1]; exact hcl)) ?_ (Client.formats_iff.2 ⟨hsend, rfl⟩) hdl, rfl,
    msg, ⟨v1, p, q1, q2, q3⟩, rfl⟩
  · rw [latest_append]
    rfl
  · have := made_ordinary hM ho
    exact this

/-- The client asks for the next block of the response. -/
theorem down_goes_on {sx px : Bool} {call : List BEnv → Out BRes} {req : Msg} {src buf : Bytes} {bodyLen size sz szx k : Nat}
    {os : List (List Client.Obs)} {bs : List BEnv} {b : BEnv} (hr : Built req) (ho : Ordinary sx req) (hk : k < 2 ^ 20)
    (h : Goes sx px call req src buf bodyLen size sz szx k os bs) (ht : req.type = CON ∨ req.type = NON) (hcl : req.codeClass = 0)
    (h1 : b.copyMem = true) (h2 : b.opMem2 = true) (h3 : b.x.sendErr = none)
    (hfit : ∀ val : Bytes, val.length = 3 → ∃ d, Server.Formats (stamped b.x (addOp req BLOCK2 val)) d ∧ d.length < 1152) :
    ∃ res d m, (∀ later, call (bs ++ seeing b [] :: later) = .ok res) ∧ res.ret = none ∧
      latest res.obs = some d ∧ d.length < 1152 ∧ Carries sx d m ∧ m.msgId = 256 * b.x.id1.toNat + b.x.id0.toNat ∧
      ∃ m', (∃ val : Bytes, val.length = 3 ∧ m' = addOp req BLOCK2 val) ∧ m = stamped b.x m' := by
  obtain ⟨hz, hst, rp, hgo⟩ := h
  obtain ⟨val, hl, hm⟩ := message2_ok (b := seeing b []) hr hz hk h1 h2
  obtain ⟨d, hd, hdl⟩ := hfit val hl
  obtain ⟨hsend, rfl⟩ := Client.formats_iff.1 hd
  have hx := Client.exchange_eq (sx := sx) (px := px) (x := (seeing b []).x) (req := addOp req BLOCK2 val) ht hcl hsend h3
  rw [show (seeing b []).x.inputs = [] from rfl, Client.wait] at hx
  simp only at hx
  have hbm : Built (addOp req BLOCK2 val) := hr.addOp _ _
  have key : ∀ later, call (bs ++ seeing b [] :: later) = .ok
      ⟨os ++ [[.sent (enc (stamped b.x (addOp req BLOCK2 val)))] ++ (Client.startWait b.x req.type).1 ++ []], none, rp, src.take (k * size) ++ buf.drop (k * size)⟩ := by
    intro later
    rw [hgo, Client.blockwise2, hst, hm]
    simp only
    rw [hx]
    rfl
  refine ⟨_, enc (stamped b.x (addOp req BLOCK2 val)), stamped b.x (addOp req BLOCK2 val), key, rfl, ?_, hdl,
    carries_of (stamped_built hbm) (Or.inl hcl) (ordinary_addOp ho hl) (Client.formats_iff.2 ⟨hsend, rfl⟩) hdl, rfl,
    _, ⟨val, hl, rfl⟩, rfl⟩
  rw [latest_append]
  rfl

end FreeCoAP.EndToEnd
