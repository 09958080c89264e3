import Verif.EndToEnd.LemmasLive
import Verif.EndToEnd.LemmasUp
import Verif.EndToEnd.SpecTurns

/-! # Lemmas about a blockwise transfer over a network that delivers -/

namespace FreeCoAP.EndToEnd

open FreeCoAP.Msg
open FreeCoAP.Server (Env Event Addr arrived Asks Carries Built Srv Reach AppOK Transfer AllKnown NoFault Formats Separate sends emptyAck CarriesBlock
  BlockSize Serving SInv cpath Extends2 Tidy run step numOf sizeOf2)
open FreeCoAP.Client (stamped exchange Gives AckedBy BEnv BRes message2 take2 blockwise2 Wants NoBlocks Taken exchangeBlockwise values others)

/-- The result with what was seen in earlier turns. -/
def conses (os : List (List Client.Obs)) : Out BRes → Out BRes
  | .ok r => .ok { r with obs := os ++ r.obs }
  | .err e => .err e
  | .ub => .ub

theorem conses_cons (os : List (List Client.Obs)) (o : List Client.Obs) (x : Out BRes) :
    conses os (BRes.cons o x) = conses (os ++ [o]) x := by
  cases x <;> simp [conses, BRes.cons]

theorem conses_nil (x : Out BRes) : conses [] x = x := by cases x <;> rfl

theorem latest_append (os : List (List Client.Obs)) (o : List Client.Obs) : latest (os ++ [o]) = (Client.sends o).head? := by
  unfold latest
  rw [List.getLast?_append]
  rfl

theorem wrs_mid {p r y : Bytes} (h : y.length ≤ r.length) : wrs (p ++ r) p.length y = .ok (p ++ y ++ r.drop y.length) := by
  rw [wrs_eq_ok]
  refine ⟨by rw [List.length_append]; omega, ?_⟩
  rw [List.take_left, List.drop_append, List.drop_of_length_le (l := p) (by omega), List.nil_append, Nat.add_sub_cancel_left]

/-- The codes of responses with a body that the client expects: 2.05 for GET, 2.01 and 2.04 for PUT and POST. -/
def Expected (method fin : Nat) : Prop := (method = 1 ∧ fin = 5) ∨ (method ≠ 1 ∧ (fin = 1 ∨ fin = 4))

theorem Expected.lt {method fin : Nat} (h : Expected method fin) : fin < 32 := by
  rcases h with ⟨-, h⟩ | ⟨-, h | h⟩ <;> omega

/-- What the client does with a block of the body. -/
theorem take2_room {src buf : Bytes} {method fin size2 size k bodyLen : Nat} {y : Msg} {sz : Nat} (hex : Expected method fin) (hy : CarriesBlock src fin k size y)
    (hp : parseBlockOp BLOCK2 y.ops = .ok (some ⟨k, (k + 1) * size ≤ src.length, size⟩)) (hle : size ≤ size2)
    (hz : calcBlockSzx size = .ok sz) (h2 : bodyLen ≤ buf.length) :
    take2 method size2 (k * size) y (src.take (k * size) ++ buf.drop (k * size)) bodyLen =
      if bodyLen < min ((k + 1) * size) src.length then .ok (.ret (.error .ENOSPC) (src.take (k * size) ++ buf.drop (k * size)))
      else if (k + 1) * size ≤ src.length then .ok (.next size sz ((k + 1) * size) (src.take ((k + 1) * size) ++ buf.drop ((k + 1) * size)))
      else .ok (.ret (.ok src.length) (src ++ buf.drop src.length)) := by
  have hin := hy.inside
  have hpl := hy.payload
  have hd := hy.detail
  have hlen : y.payload.length = min size (src.length - k * size) := by rw [hpl, List.length_take, List.length_drop]
  have hmul : (k + 1) * size = k * size + size := by rw [Nat.add_mul, Nat.one_mul]
  have htk : (src.take (k * size)).length = k * size := by rw [List.length_take]; omega
  unfold take2
  rw [if_neg (by rw [hy.cls]; decide), if_neg (by rw [hd]; unfold Expected at hex; split <;> omega), hp]
  have e1 : (if size < size2 then size else size2) = size := by split <;> omega
  simp only [e1]
  rw [if_neg (by omega), hz]
  simp only
  rw [if_neg (by omega)]
  by_cases hm : (k + 1) * size ≤ src.length
  · have hl : y.payload.length = size := by omega
    have hw : ¬ bodyLen < min ((k + 1) * size) src.length → wrs (src.take (k * size) ++ buf.drop (k * size)) (k * size) y.payload =
        .ok (src.take ((k + 1) * size) ++ buf.drop ((k + 1) * size)) := by
      intro hroom
      have := wrs_mid (p := src.take (k * size)) (r := buf.drop (k * size)) (y := y.payload) (by rw [List.length_drop]; omega)
      rw [htk, hl, List.drop_drop, ← hmul, hpl] at this
      rw [hpl, this, hmul, List.take_add]
    rw [if_neg (by rintro ⟨-, h⟩; exact h hl)]
    by_cases hroom : bodyLen < min ((k + 1) * size) src.length
    · rw [if_pos (by omega), if_pos hroom]
    rw [if_neg (by omega), if_neg hroom, hw hroom]
    simp only
    rw [if_neg (by simp [hm]), if_pos hm, hl, hmul]
  · have hl : k * size + y.payload.length = src.length := by omega
    have hw : ¬ bodyLen < min ((k + 1) * size) src.length →
        wrs (src.take (k * size) ++ buf.drop (k * size)) (k * size) y.payload = .ok (src ++ buf.drop src.length) := by
      intro hroom
      have := wrs_mid (p := src.take (k * size)) (r := buf.drop (k * size)) (y := y.payload) (by rw [List.length_drop]; omega)
      rw [htk, List.drop_drop, hl, hpl, List.take_of_length_le (l := src.drop (k * size)) (by rw [List.length_drop]; omega),
        List.take_append_drop] at this
      rw [hpl, List.take_of_length_le (l := src.drop (k * size)) (by rw [List.length_drop]; omega)]
      exact this
    rw [if_neg (by rintro ⟨h, -⟩; exact hm (of_decide_eq_true h))]
    by_cases hroom : bodyLen < min ((k + 1) * size) src.length
    · rw [if_pos (by omega), if_pos hroom]
    rw [if_neg (by omega), if_neg hroom, hw hroom]
    simp only
    rw [if_pos (by simp [hm]), if_neg hm, hl]

theorem take2_block {src buf : Bytes} {method fin size2 size k bodyLen : Nat} {y : Msg} {sz : Nat} (hex : Expected method fin) (hy : CarriesBlock src fin k size y)
    (hp : parseBlockOp BLOCK2 y.ops = .ok (some ⟨k, (k + 1) * size ≤ src.length, size⟩)) (hle : size ≤ size2)
    (hz : calcBlockSzx size = .ok sz) (h1 : src.length ≤ bodyLen) (h2 : bodyLen ≤ buf.length) :
    take2 method size2 (k * size) y (src.take (k * size) ++ buf.drop (k * size)) bodyLen =
      if (k + 1) * size ≤ src.length then .ok (.next size sz ((k + 1) * size) (src.take ((k + 1) * size) ++ buf.drop ((k + 1) * size)))
      else .ok (.ret (.ok src.length) (src ++ buf.drop src.length)) := by
  rw [take2_room hex hy hp hle hz h2, if_neg (by omega)]

/-- The request for a block. -/
theorem message2_ok {b : BEnv} {req : Msg} {size2 szx k : Nat} (hr : Built req) (hz : calcBlockSzx size2 = .ok szx) (hlt : k < 2 ^ 20)
    (h1 : b.copyMem = true) (h2 : b.opMem2 = true) :
    ∃ val, val.length = 3 ∧ message2 b req size2 szx (k * size2) = .ok (.ok (addOp req BLOCK2 val)) := by
  obtain ⟨v, e, hl, -⟩ := formatBlockVal_ok (num := k) (more := false) (len := 3) hz (by decide) (by simpa using hlt)
  refine ⟨v, hl, ?_⟩
  unfold message2
  rw [hr.copy]
  simp only
  rw [if_neg (by simp [h1]), Client.div_of_szx hz rfl, e]
  simp only
  rw [if_neg (by simp [h2])]

/-- A message with a Block2 option added has this option and no Block1 option. -/
theorem addOp_asks {req : Msg} {k size szx : Nat} {val : Bytes} (hr : Built req) (hb : NoBlocks req) (hz : calcBlockSzx size = .ok szx) (hlt : k < 2 ^ 20)
    (hv : formatBlockVal 3 k false size = .ok val) :
    parseBlockOp BLOCK2 (addOp req BLOCK2 val).ops = .ok (some ⟨k, false, size⟩) ∧ Server.Block1OK (addOp req BLOCK2 val) := by
  obtain ⟨h1, h2⟩ := Server.blockVal_spec hlt hz hv
  refine ⟨parseBlockOp_of (Or.inr rfl) h2 h1 (filter_values ?_), none, parseBlockOp_absent ?_⟩
  · rw [Client.values_addOp _ _ _ hr.sorted, Client.values_plain hb _ (Or.inr rfl)]; rfl
  · intro o ho
    have : o ∈ ins ⟨BLOCK2, val⟩ req.ops := by rw [← opListAdd_eq]; exact ho
    rcases List.mem_cons.1 ((ins_perm _ _).mem_iff.1 this) with rfl | h
    · show BLOCK2 ≠ BLOCK1; decide
    · exact (hb o h).1

/-- The call has had `k` turns and goes on with block `k`: it has received the first `k` blocks of `size` bytes. -/
structure Goes (sx px : Bool) (call : List BEnv → Out BRes) (req : Msg) (src buf : Bytes) (bodyLen size sz szx k : Nat) (os : List (List Client.Obs))
    (bs : List BEnv) : Prop where
  exp : calcBlockSzx sz = .ok szx
  start : k * size = k * sz
  course : ∃ rp, ∀ bs', call (bs ++ bs') =
    conses os (blockwise2 sx px req bodyLen sz szx (k * size) rp (src.take (k * size) ++ buf.drop (k * size)) bs')

/-- The call has returned with the whole body. -/
def Completed (call : List BEnv → Out BRes) (src buf : Bytes) (bs : List BEnv) : Prop :=
  ∃ os rp, ∀ bs', call (bs ++ bs') = .ok ⟨os, some (.ok src.length), rp, src ++ buf.drop src.length⟩

/-- The call has returned with the whole body and this response. -/
def CompletedBy (call : List BEnv → Out BRes) (src buf : Bytes) (bs : List BEnv) (rp : Msg) : Prop :=
  ∃ os, ∀ bs', call (bs ++ bs') = .ok ⟨os, some (.ok src.length), rp, src ++ buf.drop src.length⟩

/-- The call has failed because the response is longer than the buffer. -/
def Refused (call : List BEnv → Out BRes) (bs : List BEnv) : Prop :=
  ∃ os rp body, ∀ bs', call (bs ++ bs') = .ok ⟨os, some (.error .ENOSPC), rp, body⟩

theorem CompletedBy.completed {call : List BEnv → Out BRes} {src buf : Bytes} {bs : List BEnv} {rp : Msg} (h : CompletedBy call src buf bs rp) :
    Completed call src buf bs := by
  obtain ⟨os, h⟩ := h
  exact ⟨os, rp, h⟩

theorem blockwise2_obs {sx px : Bool} {req resp : Msg} {bodyLen size szx start : Nat} {body : Bytes} {b : BEnv} {bs : List BEnv} {r : BRes}
    (h : blockwise2 sx px req bodyLen size szx start resp body (b :: bs) = .ok r) : r.obs.length ≠ 0 := by
  rw [blockwise2] at h
  split at h
  · cases h
  · cases h
  · cases h; simp
  · split at h
    · cases h
    · cases h
    · cases h; simp
    · cases h; simp
    · split at h
      · cases h
      · cases h
      · cases h; simp
      · unfold BRes.cons at h
        split at h
        · cases h; simp
        · cases h
        · cases h

theorem ordinary_addOp {sx : Bool} {req : Msg} {x : Client.XEnv} {v : Bytes} (ho : Ordinary sx req) (hl : v.length = 3) :
    Ordinary sx (stamped x (addOp req BLOCK2 v)) := by
  intro op hop
  have : op ∈ ins ⟨BLOCK2, v⟩ req.ops := by rw [← opListAdd_eq]; exact hop
  rcases List.mem_cons.1 ((ins_perm _ _).mem_iff.1 this) with rfl | h
  · show BLOCK2 < 65536 ∧ v.length < 65536 ∧ (sx = true → BLOCK2 < 141 ∧ v.length < 141)
    rw [hl]
    exact ⟨by decide, by decide, fun _ => ⟨by decide, by decide⟩⟩
  · exact ho op h

/-- The request of a turn. -/
theorem goes_asks {sx px : Bool} {call : List BEnv → Out BRes} {app : Env → Prop} {req : Msg} {src buf : Bytes} {bodyLen size sz szx k : Nat}
    {os : List (List Client.Obs)} {bs : List BEnv} {t : Turn} (hr : Built req) (ho : Ordinary sx req) (hk : k < 2 ^ 20)
    (h : Goes sx px call req src buf bodyLen size sz szx k os bs) (hp : Possible sx call app bs t) :
    ∃ val obs, formatBlockVal 3 k false sz = .ok val ∧
      (∀ is, message2 (seeing t.b is) req sz szx (k * size) = .ok (.ok (addOp req BLOCK2 val))) ∧
      exchange sx px { t.b.x with inputs := t.before } (addOp req BLOCK2 val) = .ok (obs, none) ∧ t.m = stamped t.b.x (addOp req BLOCK2 val) ∧ Asks t.m := by
  obtain ⟨hz, hst, rp, hcall⟩ := h
  obtain ⟨res, h1, h2, h3⟩ := hp.waits
  obtain ⟨v, e, hl, -⟩ := formatBlockVal_ok (num := k) (more := false) (len := 3) hz (by decide) (by simpa using hk)
  have hmsg : ∀ is, message2 (seeing t.b is) req sz szx (k * size) = (if t.b.copyMem = false then .ok (.error .ENOMEM) else
      if t.b.opMem2 = false then .ok (.error .ENOMEM) else .ok (.ok (addOp req BLOCK2 v))) := by
    intro is
    unfold message2
    rw [hr.copy]
    simp only
    rw [hst, Client.div_of_szx hz rfl, e]
    rfl
  have h0 := h1 [t.b]
  replace h1 := h1 []
  rw [hcall, blockwise2, hmsg] at h0 h1
  by_cases m1 : t.b.copyMem = false
  · rw [if_pos m1] at h1
    cases h1
    cases h2
  by_cases m2 : t.b.opMem2 = false
  · rw [if_neg m1, if_pos m2] at h1
    cases h1
    cases h2
  rw [if_neg m1, if_neg m2] at h0 h1
  simp only at h0 h1
  have hbm : Built (addOp req BLOCK2 v) := hr.addOp _ _
  cases hx : exchange sx px (seeing t.b t.before).x (addOp req BLOCK2 v) with
  | ub => rw [hx] at h1; cases h1
  | err e => rw [hx] at h1; cases h1
  | ok p =>
    obtain ⟨obs, r⟩ := p
    rw [hx] at h0 h1
    cases r with
    | some r =>
      exfalso
      cases r with
      | error e => cases h1; cases h2
      | ok r =>
        simp only at h0 h1
        cases ht : take2 req.codeDetail sz (k * size) r (src.take (k * size) ++ buf.drop (k * size)) bodyLen with
        | ub => rw [ht] at h1; cases h1
        | err e => rw [ht] at h1; cases h1
        | ok x =>
          rw [ht] at h0 h1
          cases x with
          | ret r b => cases h1; cases h2
          | next s2 z2 st b =>
            simp only [conses_cons] at h0 h1
            cases h1
            cases hb : blockwise2 sx px req bodyLen s2 z2 st create b [t.b] with
            | ub => rw [hb] at h0; cases h0
            | err e => rw [hb] at h0; cases h0
            | ok y =>
              rw [hb] at h0
              have := congrArg List.length (congrArg BRes.obs (Out.ok.inj h0))
              simp only [List.length_append, List.length_cons, List.length_nil] at this
              have := blockwise2_obs hb
              omega
    | none =>
      cases h1
      rw [latest_append] at h3
      refine ⟨v, obs, e, fun is => by rw [hmsg, if_neg m1, if_neg m2], hx, ?_⟩
      rcases Client.exchange_cases hbm.type hx with ⟨-, e, he⟩ | ⟨ht, hcl, o3, hs⟩
      · cases he
      have ho' : Ordinary sx (stamped t.b.x (addOp req BLOCK2 v)) := by
        exact ordinary_addOp ho hl
      have hd : t.d = enc (stamped t.b.x (addOp req BLOCK2 v)) := by
        rw [hs.obs] at h3
        exact (Option.some.inj h3).symm
      have hc := carries_of (stamped_built hbm) (Or.inl hcl) ho' (Client.formats_iff.2 ⟨hs.send, hd⟩) hp.short
      have := hp.carries.unique hc
      rw [this]
      exact ⟨rfl, ht, hcl⟩

/-- A response with a block is read back by the client. -/
theorem block_carries {sx : Bool} {sepList : List Bytes} {env : Env} {id k size : Nat} {m resp y : Msg} {src : Bytes} {fin : Nat} (hfin : fin < 32) (hb : Built resp) (hro : resp.ops = [])
    (he : Extends2 resp y) (hy : CarriesBlock src fin k size y) (hf : Fields m) (hl : m.token.length = 4)
    (hs : Server.Sendable (Server.final sepList env id m y)) :
    Carries sx (enc (Server.final sepList env id m y)) (Server.final sepList env id m y) ∧
    parseBlockOp BLOCK2 y.ops = .ok (some ⟨k, (k + 1) * size ≤ src.length, size⟩) ∧ ∀ px, Client.Acceptable px y := by
  obtain ⟨v', hv, hsp⟩ := hy.option
  obtain ⟨val, pl, d, rfl, hvl, hpl⟩ := he
  have hops : (Server.withCode (setPayload (addOp resp BLOCK2 val) pl) 2 d).ops = [⟨BLOCK2, val⟩] := by
    simp [Server.withCode, setPayload, addOp, hro, opListAdd]
  have hvv : v' = val := by
    rw [hops] at hv
    simpa using hv.symm
  subst hvv
  have hmem : ∀ o ∈ (Server.withCode (setPayload (addOp resp BLOCK2 v') pl) 2 d).ops, o = ⟨BLOCK2, v'⟩ := by
    intro o ho
    rw [hops] at ho
    exact List.mem_singleton.1 ho
  have hd : d < 32 := hy.detail_lt hfin
  have hbf : Built (Server.final sepList env id m (Server.withCode (setPayload (addOp resp BLOCK2 v') pl) 2 d)) :=
    ((((hb.addOp _ _).setPayload _).withCode (by decide) hd)).final hf
  refine ⟨carries_of hbf (Or.inr (Or.inl rfl)) ?_ (Client.formats_iff.2 ⟨hs, rfl⟩) ?_, parseBlockOp_of (Or.inr rfl) hvl hsp ?_, ?_⟩
  · intro o ho
    rw [hmem o ho]
    show BLOCK2 < 65536 ∧ v'.length < 65536 ∧ (sx = true → BLOCK2 < 141 ∧ v'.length < 141)
    rw [hvl]
    exact ⟨by decide, by decide, fun _ => ⟨by decide, by decide⟩⟩
  · have e1 : (Server.final sepList env id m (Server.withCode (setPayload (addOp resp BLOCK2 v') pl) 2 d)).ops = [⟨BLOCK2, v'⟩] := hops
    have e2 : (Server.final sepList env id m (Server.withCode (setPayload (addOp resp BLOCK2 v') pl) 2 d)).token.length = 4 := hl
    have e3 : (Server.final sepList env id m (Server.withCode (setPayload (addOp resp BLOCK2 v') pl) 2 d)).payload = pl := rfl
    have e4 : (encPayload (Server.final sepList env id m (Server.withCode (setPayload (addOp resp BLOCK2 v') pl) 2 d))).length ≤ 1025 := by
      unfold encPayload
      rw [e3]
      split <;> simp <;> omega
    have e5 : (encOps 0 [⟨BLOCK2, v'⟩]).length ≤ 20 := by
      simp only [encOps, List.append_nil, encOp_length, Op.len]
      have : ∀ k, extSize k ≤ 2 := by intro k; unfold extSize; split <;> (try split) <;> omega
      have h1 := this (deltaOf ⟨BLOCK2, v'⟩ 0)
      have h2 := this v'.length
      omega
    simp only [enc, List.length_append, encHdr_length, e1, e2]
    omega
  · rw [hops]
    simp
  · intro px o ho _
    rw [hmem o ho]
    show BLOCK2 ∈ known
    decide

/-- A turn of a download: the client gets the block. -/
theorem goes_turn_room {sx px : Bool} {a : Addr} {call : List BEnv → Out BRes} {app : Env → Prop} {req resp y : Msg} {src buf : Bytes}
    {bodyLen size sz szx k id : Nat} {sepList : List Bytes} {os : List (List Client.Obs)} {bs : List BEnv} {t : Turn} {o : List Server.Obs} (hr : Built req)
    (ho : Ordinary sx req) {fin : Nat} (hget : Expected req.codeDetail fin) (hk : k < 2 ^ 20) (hsz : BlockSize size) (hle : size ≤ sz)
    (h2 : bodyLen ≤ buf.length) (h : Goes sx px call req src buf bodyLen size sz szx k os bs) (hp : Possible sx call app bs t) (hb : Built resp)
    (hro : resp.ops = [])
    (hs : sends o = (if t.m.type = CON ∧ Separate sepList t.m then [(a, emptyAck t.m.msgId)] else []) ++
      [(a, enc (Server.final sepList t.env id t.m y))])
    (hsend : Server.Sendable (Server.final sepList t.env id t.m y)) (he : Extends2 resp y) (hy : CarriesBlock src fin k size y)
    (hid : ¬ (t.m.type = CON ∧ ¬ Separate sepList t.m) → Server.nextMsgId id t.env.idRand ≠ t.m.msgId) :
    (bodyLen < min ((k + 1) * size) src.length → Refused call (bs ++ [seeing t.b (t.before ++ ((toward a o).map gets ++ t.after))])) ∧
    ((k + 1) * size ≤ src.length → (k + 1) * size ≤ bodyLen → ∃ szx' os', Goes sx px call req src buf bodyLen size size szx' (k + 1) os'
      (bs ++ [seeing t.b (t.before ++ ((toward a o).map gets ++ t.after))])) ∧
    (src.length < (k + 1) * size → src.length ≤ bodyLen → CompletedBy call src buf (bs ++ [seeing t.b (t.before ++ ((toward a o).map gets ++ t.after))]) (Server.final sepList t.env id t.m y)) := by
  obtain ⟨val, obs, g1, g2, g3, g4, g5⟩ := goes_asks hr ho hk h hp
  have hl : t.m.token.length = 4 := by rw [g4]; rfl
  obtain ⟨c1, c2, c3⟩ := block_carries (sx := sx) hget.lt hb hro he hy hp.carries.fields.1 hl hsend
  have hun := hp.unacked
  rw [g4] at hs c1 hid hun
  obtain ⟨obs', key⟩ := delivered (px := px) (js := t.after) (hr.addOp BLOCK2 val) g3 hun hs c1 (Or.inl hy.cls) (c3 px) hid
  obtain ⟨hz, hst, rp, hcall⟩ := h
  obtain ⟨szx', hz'⟩ := hsz.szx
  have ht := take2_room (buf := buf) (bodyLen := bodyLen) (size2 := sz) hget
    (show CarriesBlock src fin k size (Server.final sepList t.env id (stamped t.b.x (addOp req BLOCK2 val)) y) from hy.final) c2 hle hz' h2
  have hall : ∀ bs', call ((bs ++ [seeing t.b (t.before ++ ((toward a o).map gets ++ t.after))]) ++ bs') =
      conses os (match take2 req.codeDetail sz (k * size) (Server.final sepList t.env id (stamped t.b.x (addOp req BLOCK2 val)) y)
          (src.take (k * size) ++ buf.drop (k * size)) bodyLen with
        | .ub => .ub
        | .err e => .err e
        | .ok (.ret r body) => Client.endRound obs' r (Server.final sepList t.env id (stamped t.b.x (addOp req BLOCK2 val)) y) body
        | .ok (.next size2 szx start body) => BRes.cons obs' (blockwise2 sx px req bodyLen size2 szx start create body bs')) := by
    intro bs'
    rw [List.append_assoc, hcall, List.singleton_append, blockwise2, g2]
    simp only
    rw [show (seeing t.b (t.before ++ ((toward a o).map gets ++ t.after))).x =
      { t.b.x with inputs := t.before ++ ((toward a o).map gets ++ t.after) } from rfl, key]
    rfl
  refine ⟨fun hm => ?_, fun hm hroom => ?_, fun hm hroom => ?_⟩
  · rw [if_pos hm] at ht
    refine ⟨os ++ [obs'], Server.final sepList t.env id (stamped t.b.x (addOp req BLOCK2 val)) y, src.take (k * size) ++ buf.drop (k * size), fun bs' => ?_⟩
    rw [hall, ht]
    rfl
  · rw [if_neg (by omega), if_pos hm] at ht
    refine ⟨szx', os ++ [obs'], hz', rfl, create, fun bs' => ?_⟩
    rw [hall, ht]
    simp only
    rw [conses_cons]
  · rw [if_neg (by omega), if_neg (Nat.not_le.2 hm)] at ht
    refine ⟨os ++ [obs'], fun bs' => ?_⟩
    rw [hall, ht, g4]
    rfl

/-- A turn of a download: the client gets the block. -/
theorem goes_turn_by {sx px : Bool} {a : Addr} {call : List BEnv → Out BRes} {app : Env → Prop} {req resp y : Msg} {src buf : Bytes}
    {bodyLen size sz szx k id : Nat} {sepList : List Bytes} {os : List (List Client.Obs)} {bs : List BEnv} {t : Turn} {o : List Server.Obs} (hr : Built req)
    (ho : Ordinary sx req) {fin : Nat} (hget : Expected req.codeDetail fin) (hk : k < 2 ^ 20) (hsz : BlockSize size) (hle : size ≤ sz) (h1 : src.length ≤ bodyLen)
    (h2 : bodyLen ≤ buf.length) (h : Goes sx px call req src buf bodyLen size sz szx k os bs) (hp : Possible sx call app bs t) (hb : Built resp)
    (hro : resp.ops = [])
    (hs : sends o = (if t.m.type = CON ∧ Separate sepList t.m then [(a, emptyAck t.m.msgId)] else []) ++
      [(a, enc (Server.final sepList t.env id t.m y))])
    (hsend : Server.Sendable (Server.final sepList t.env id t.m y)) (he : Extends2 resp y) (hy : CarriesBlock src fin k size y)
    (hid : ¬ (t.m.type = CON ∧ ¬ Separate sepList t.m) → Server.nextMsgId id t.env.idRand ≠ t.m.msgId) :
    ((k + 1) * size ≤ src.length → ∃ szx' os', Goes sx px call req src buf bodyLen size size szx' (k + 1) os'
      (bs ++ [seeing t.b (t.before ++ ((toward a o).map gets ++ t.after))])) ∧
    (src.length < (k + 1) * size → CompletedBy call src buf (bs ++ [seeing t.b (t.before ++ ((toward a o).map gets ++ t.after))]) (Server.final sepList t.env id t.m y)) := by
  obtain ⟨-, h3, h4⟩ := goes_turn_room hr ho hget hk hsz hle h2 h hp hb hro hs hsend he hy hid
  exact ⟨fun hm => h3 hm (by omega), fun hm => h4 hm h1⟩

/-- A turn of a download: the client gets the block. -/
theorem goes_turn {sx px : Bool} {a : Addr} {call : List BEnv → Out BRes} {app : Env → Prop} {req resp y : Msg} {src buf : Bytes}
    {bodyLen size sz szx k id : Nat} {sepList : List Bytes} {os : List (List Client.Obs)} {bs : List BEnv} {t : Turn} {o : List Server.Obs} (hr : Built req)
    (ho : Ordinary sx req) {fin : Nat} (hget : Expected req.codeDetail fin) (hk : k < 2 ^ 20) (hsz : BlockSize size) (hle : size ≤ sz) (h1 : src.length ≤ bodyLen)
    (h2 : bodyLen ≤ buf.length) (h : Goes sx px call req src buf bodyLen size sz szx k os bs) (hp : Possible sx call app bs t) (hb : Built resp)
    (hro : resp.ops = [])
    (hs : sends o = (if t.m.type = CON ∧ Separate sepList t.m then [(a, emptyAck t.m.msgId)] else []) ++
      [(a, enc (Server.final sepList t.env id t.m y))])
    (hsend : Server.Sendable (Server.final sepList t.env id t.m y)) (he : Extends2 resp y) (hy : CarriesBlock src fin k size y)
    (hid : ¬ (t.m.type = CON ∧ ¬ Separate sepList t.m) → Server.nextMsgId id t.env.idRand ≠ t.m.msgId) :
    ((k + 1) * size ≤ src.length → ∃ szx' os', Goes sx px call req src buf bodyLen size size szx' (k + 1) os'
      (bs ++ [seeing t.b (t.before ++ ((toward a o).map gets ++ t.after))])) ∧
    (src.length < (k + 1) * size → Completed call src buf (bs ++ [seeing t.b (t.before ++ ((toward a o).map gets ++ t.after))])) := by
  obtain ⟨h3, h4⟩ := goes_turn_by hr ho hget hk hsz hle h1 h2 h hp hb hro hs hsend he hy hid
  exact ⟨h3, fun hm => (h4 hm).completed⟩

end FreeCoAP.EndToEnd
