import Verif.EndToEnd.LemmasTurns
import Verif.EndToEnd.LemmasPlan
import Verif.EndToEnd.SpecTurnsUp

/-! # Lemmas about a blockwise upload over a network that delivers -/

namespace FreeCoAP.EndToEnd

open FreeCoAP.Msg
open FreeCoAP.Server (Env Event Addr arrived Asks Carries Built Srv Reach Transfer AllKnown NoFault Formats Separate sends emptyAck
  BlockSize SInv cpath Tidy run step numOf moreOf sizeOf2 withCode)
open FreeCoAP.Client (stamped exchange BEnv BRes message1 take2 blockwise1 blockwise2 NoBlocks upload download endRound exchangeBlockwise values others Made1)

/-- What the call does after the upload. -/
def post (sx px : Bool) (req : Msg) (size2 bodyLen : Nat) (bs : List BEnv) : Out BRes → Out BRes
  | .ub => .ub
  | .err e => .err e
  | .ok r =>
    match r.ret with
    | none => .ok r
    | some (.error _) => .ok r
    | some (.ok n) =>
      if n = 0 then .ok r
      else if r.resp.payload = [] then .ok { r with ret := some (.ok 0) }
      else
        match download sx px req r.resp size2 r.body bodyLen true (bs.drop r.obs.length) with
        | .ok r2 => .ok { r2 with obs := r.obs ++ r2.obs }
        | .err e => .err e
        | .ub => .ub

theorem courseUp_eq {sx px : Bool} {req resp : Msg} {size1 size2 bodyLen szx szx2 : Nat} {buf : Bytes} (bs : List BEnv)
    (hm : req.codeDetail = 2 ∨ req.codeDetail = 3) (hz : calcBlockSzx size1 = .ok szx) (hz2 : calcBlockSzx size2 = .ok szx2) :
    courseUp sx px req resp size1 size2 buf bodyLen bs =
      post sx px req size2 bodyLen bs (blockwise1 sx px req size2 buf bodyLen size1 szx 0 resp bs) := by
  have hp1 := Server.BlockSize.pos (Client.BlockSize.of_szx hz)
  have hp2 := Server.BlockSize.pos (Client.BlockSize.of_szx hz2)
  have hu : upload sx px req resp size1 size2 buf bodyLen bs = blockwise1 sx px req size2 buf bodyLen size1 szx 0 resp bs := by
    unfold upload
    rw [if_neg (by omega), hz, hz2]
  unfold courseUp exchangeBlockwise
  rw [hu]
  cases hb : blockwise1 sx px req size2 buf bodyLen size1 szx 0 resp bs with
  | ub => rfl
  | err e => rfl
  | ok r =>
    dsimp only
    rw [if_neg (by omega), if_pos (by omega)]
    rfl

/-- What a turn of an upload does with a response. -/
inductive Taken1 where
  | ret (r : Except Err Nat)
  | next (size1 szx start : Nat)

def take1 (size1 start n bodyLen : Nat) (resp : Msg) : Out Taken1 :=
  if resp.codeClass ≠ 2 then .ok (.ret (.ok 0))
  else if resp.codeDetail ≠ 31 ∧ resp.codeDetail ≠ 1 ∧ resp.codeDetail ≠ 4 then .ok (.ret (.ok 0))
  else
    match parseBlockOp BLOCK1 resp.ops with
    | .ub => .ub
    | .err _ => .ok (.ret (.error .EBADMSG))
    | .ok none => .ok (.ret (.error .EBADMSG))
    | .ok (some blk) =>
      let size1 := if blk.size < size1 then blk.size else size1
      if blk.num * size1 ≠ start then .ok (.ret (.error .EBADMSG))
      else
        match calcBlockSzx size1 with
        | .ub => .ub
        | .err _ => .ok (.ret (.error .EBADMSG))
        | .ok szx => if start + n ≥ bodyLen then .ok (.ret (.ok (start + n))) else .ok (.next size1 szx (start + n))

theorem blockwise1_took {sx px : Bool} {req resp r msg : Msg} {size1 size2 szx start bodyLen n : Nat} {buf : Bytes} {b : BEnv} {bs : List BEnv}
    {o : List Client.Obs} (h1 : message1 b req size1 size2 szx start buf bodyLen = .ok (.ok (msg, n)))
    (h2 : exchange sx px b.x msg = .ok (o, some (.ok r))) :
    blockwise1 sx px req size2 buf bodyLen size1 szx start resp (b :: bs) =
      match take1 size1 start n bodyLen r with
      | .ub => .ub
      | .err e => .err e
      | .ok (.ret x) => endRound o x r buf
      | .ok (.next size1 szx start) => BRes.cons o (blockwise1 sx px req size2 buf bodyLen size1 szx start create bs) := by
  rw [blockwise1, h1]
  simp only
  rw [h2]
  simp only
  unfold take1
  split
  · rfl
  split
  · rfl
  cases parseBlockOp BLOCK1 r.ops with
  | ub => rfl
  | err e => rfl
  | ok x =>
    cases x with
    | none => rfl
    | some blk =>
      dsimp only
      by_cases hq : blk.num * (if blk.size < size1 then blk.size else size1) ≠ start
      · rw [if_pos hq, if_pos hq]
      rw [if_neg hq, if_neg hq]
      cases calcBlockSzx (if blk.size < size1 then blk.size else size1) with
      | ub => rfl
      | err e => rfl
      | ok szx =>
        dsimp only
        split <;> rfl

theorem blockwise1_obs {sx px : Bool} {req resp : Msg} {bodyLen size1 size2 szx start : Nat} {buf : Bytes} {b : BEnv} {bs : List BEnv} {r : BRes}
    (h : blockwise1 sx px req size2 buf bodyLen size1 szx start resp (b :: bs) = .ok r) : r.obs.length ≠ 0 := by
  cases hm : message1 b req size1 size2 szx start buf bodyLen with
  | ub => rw [blockwise1, hm] at h; cases h
  | err e => rw [blockwise1, hm] at h; cases h
  | ok x =>
    cases x with
    | error e => rw [blockwise1, hm] at h; cases h; simp
    | ok x =>
      obtain ⟨msg, n⟩ := x
      cases hx : exchange sx px b.x msg with
      | ub => rw [blockwise1, hm] at h; simp only at h; rw [hx] at h; cases h
      | err e => rw [blockwise1, hm] at h; simp only at h; rw [hx] at h; cases h
      | ok p =>
        obtain ⟨o, p⟩ := p
        cases p with
        | none => rw [blockwise1, hm] at h; simp only at h; rw [hx] at h; cases h; simp
        | some p =>
          cases p with
          | error e => rw [blockwise1, hm] at h; simp only at h; rw [hx] at h; cases h; simp
          | ok rr =>
            rw [blockwise1_took hm hx] at h
            split at h
            · cases h
            · cases h
            · cases h; simp
            · unfold BRes.cons at h
              split at h
              · cases h; simp
              · cases h
              · cases h

/-- What the call does after the upload shows nothing less. -/
theorem post_obs {sx px : Bool} {req : Msg} {size2 bodyLen : Nat} {bs : List BEnv} {r x : BRes} (h : post sx px req size2 bodyLen bs (.ok r) = .ok x) :
    r.obs.length ≤ x.obs.length := by
  unfold post at h
  simp only at h
  split at h
  · cases h; exact Nat.le_refl _
  · cases h; exact Nat.le_refl _
  · split at h
    · cases h; exact Nat.le_refl _
    split at h
    · cases h; exact Nat.le_refl _
    split at h
    · cases h; simp
    · cases h
    · cases h

/-- The call has had the turns `bs` and goes on with the block at `start`, in blocks of `sz` bytes. -/
structure GoesUp (sx px : Bool) (call : List BEnv → Out BRes) (req : Msg) (size2 : Nat) (buf : Bytes) (bodyLen sz szx start : Nat)
    (os : List (List Client.Obs)) (bs : List BEnv) : Prop where
  exp : calcBlockSzx sz = .ok szx
  len : os.length = bs.length
  course : ∃ rp, ∀ bs', call (bs ++ bs') =
    post sx px req size2 bodyLen (bs ++ bs') (conses os (blockwise1 sx px req size2 buf bodyLen sz szx start rp bs'))

/-- The client waits only for a response to a block of the upload. -/
theorem up_waits {sx px : Bool} {call : List BEnv → Out BRes} {req r msg : Msg} {buf : Bytes} {bodyLen size2 sz szx start n : Nat}
    {os : List (List Client.Obs)} {bs : List BEnv} {b : BEnv} {res : BRes} {o : List Client.Obs}
    (h : GoesUp sx px call req size2 buf bodyLen sz szx start os bs) (h1 : message1 b req sz size2 szx start buf bodyLen = .ok (.ok (msg, n)))
    (h2 : exchange sx px b.x msg = .ok (o, some (.ok r))) (hall : ∀ later, call (bs ++ b :: later) = .ok res) (hret : res.ret = none) : False := by
  obtain ⟨-, hlen, rp, hcall⟩ := h
  have h0 := hall [b]
  replace hall := hall []
  rw [hcall, blockwise1_took h1 h2] at h0 hall
  cases ht : take1 sz start n bodyLen r with
  | ub => rw [ht] at hall; cases hall
  | err e => rw [ht] at hall; cases hall
  | ok x =>
    rw [ht] at h0 hall
    cases x with
    | ret x =>
      cases x with
      | error e => cases hall; cases hret
      | ok k =>
        simp only [endRound, conses, post] at h0 hall
        by_cases hk : k = 0
        · rw [if_pos hk] at hall; cases hall; cases hret
        by_cases hp : r.payload = []
        · rw [if_neg hk, if_pos hp] at hall; cases hall; cases hret
        rw [if_neg hk, if_neg hp] at h0 hall
        have e0 : ∀ later : List BEnv, (bs ++ b :: later).drop (os ++ [o]).length = later := by
          intro later
          rw [List.length_append, hlen, List.drop_append, List.drop_of_length_le (l := bs) (by simp), List.nil_append]
          simp
        rw [e0] at h0 hall
        unfold download at h0 hall
        by_cases hz : size2 = 0
        · rw [if_pos hz] at hall
          cases hall
          cases hret
        rw [if_neg hz] at h0 hall
        cases hc : calcBlockSzx size2 with
        | ub => rw [hc] at hall; cases hall
        | err e => rw [hc] at hall; cases hall; cases hret
        | ok szx2 =>
          rw [hc] at h0 hall
          dsimp only at h0 hall
          rw [if_neg (by decide)] at h0 hall
          cases hT : take2 req.codeDetail size2 0 r buf bodyLen with
          | ub => rw [hT] at hall; cases hall
          | err e => rw [hT] at hall; cases hall
          | ok y =>
            rw [hT] at h0 hall
            cases y with
            | ret x body => cases hall; cases hret
            | next s z st body =>
              dsimp only at h0 hall
              rw [blockwise2] at hall
              cases hb : blockwise2 sx px req bodyLen s z st create body [b] with
              | ub => rw [hb] at h0; cases h0
              | err e => rw [hb] at h0; cases h0
              | ok y =>
                rw [hb] at h0
                cases hall
                have := congrArg List.length (congrArg BRes.obs (Out.ok.inj h0))
                simp only [List.length_append, List.length_cons, List.length_nil] at this
                have := blockwise2_obs hb
                omega
    | next s z st =>
      simp only [conses_cons] at h0 hall
      rw [blockwise1] at hall
      cases hall
      cases hb : blockwise1 sx px req size2 buf bodyLen s z st create [b] with
      | ub => rw [hb] at h0; cases h0
      | err e => rw [hb] at h0; cases h0
      | ok y =>
        rw [hb] at h0
        have h3 := blockwise1_obs hb
        have h4 := post_obs h0
        simp only [List.length_append, List.length_cons, List.length_nil] at h4
        omega

theorem made_ordinary {sx : Bool} {req m : Msg} {size1 size2 start bodyLen n : Nat} {body : Bytes} (h : Made1 req size1 size2 start bodyLen body m n)
    (ho : Ordinary sx req) : Ordinary sx m := by
  obtain ⟨val, h1, h2, -⟩ := h.block1
  refine others_ordinary h.options ho ?_ ?_
  · rw [h1]
    intro v hv
    rw [List.mem_singleton.1 hv, h2]
    decide
  · have := h.block2
    split at this
    · obtain ⟨v, g1, g2, -⟩ := this
      rw [g1]
      intro w hw
      rw [List.mem_singleton.1 hw, g2]
      decide
    · rw [this]
      intro w hw
      cases hw

/-- A request of an upload carries a block. -/
theorem made_block1 {req m m' : Msg} {size1 size2 start bodyLen n : Nat} {body : Bytes} (h : Client.Made1 req size1 size2 start bodyLen body m n)
    (ho : m'.ops = m.ops) : HasBlock1 m' := by
  obtain ⟨val, hv, -⟩ := h.block1
  have hmem : val ∈ Client.values BLOCK1 m := by rw [hv]; exact List.mem_singleton.2 rfl
  unfold Client.values at hmem
  obtain ⟨o, ho', -⟩ := List.mem_map.1 hmem
  obtain ⟨h1, h2⟩ := List.mem_filter.1 ho'
  exact ⟨o, by rw [ho]; exact h1, by simpa using h2⟩

theorem made_known {req m : Msg} {size1 size2 start bodyLen n : Nat} {body : Bytes} (h : Made1 req size1 size2 start bodyLen body m n)
    (hk : AllKnown req) : AllKnown m := by
  intro o ho hc
  by_cases e1 : o.num = BLOCK1
  · rw [e1]; decide
  by_cases e2 : o.num = BLOCK2
  · rw [e2]; decide
  · refine hk o ?_ hc
    rw [← h.options]
    exact List.mem_filter.2 ⟨ho, by simp [e1, e2]⟩

/-- The request of a turn can be made. -/
theorem message1_makes {b : BEnv} {req : Msg} {size1 size2 szx szx2 start k bodyLen : Nat} {body : Bytes} (hr : Built req)
    (hz : calcBlockSzx size1 = .ok szx) (hz2 : calcBlockSzx size2 = .ok szx2) (hk : start = k * size1) (hlt : k < 2 ^ 20) (hst : start < bodyLen)
    (hl : bodyLen ≤ body.length) (h1 : b.copyMem = true) (h2 : b.opMem1 = true) (h3 : b.opMem2 = true) (h4 : b.payMem = true) :
    ∃ m n, message1 b req size1 size2 szx start body bodyLen = .ok (.ok (m, n)) ∧ BlockRequest req size1 m := by
  generalize hmo : (decide (¬ (start + size1 ≥ bodyLen))) = more
  obtain ⟨v1, e1, l1, -⟩ := formatBlockVal_ok (num := k) (more := more) (len := 3) hz (by decide) (by simpa using hlt)
  obtain ⟨v2, e2, l2, -⟩ := formatBlockVal_ok (num := 0) (more := false) (len := 3) hz2 (by decide) (by decide)
  generalize hn : (if more = true then size1 else bodyLen - start) = n
  have hle : n ≤ size1 ∧ start + n ≤ bodyLen := by
    subst hn
    cases more with
    | true =>
      have := of_decide_eq_true hmo
      simp only [if_true]
      omega
    | false =>
      have := of_decide_eq_false hmo
      simp only [Bool.false_eq_true, if_false]
      omega
  have hrd : rds (body.drop start) n = .ok ((body.drop start).take n) := rds_ok (by rw [List.length_drop]; omega)
  have hpl : ((body.drop start).take n).length ≤ size1 := by rw [List.length_take]; omega
  unfold message1
  rw [hr.copy]
  dsimp only
  rw [if_neg (by simp [h1]), Client.div_of_szx hz hk, hmo, e1]
  dsimp only
  rw [if_neg (by simp [h2]), hn]
  cases more with
  | true =>
    rw [if_pos rfl]
    dsimp only
    rw [hrd]
    dsimp only
    rw [if_neg (by simp [h4])]
    exact ⟨_, _, rfl, v1, _, l1, hpl, Or.inl rfl⟩
  | false =>
    rw [if_neg (by decide), e2]
    dsimp only
    rw [if_neg (by simp [h3])]
    dsimp only
    rw [hrd]
    dsimp only
    rw [if_neg (by simp [h4])]
    exact ⟨_, _, rfl, v1, _, l1, hpl, Or.inr ⟨v2, l2, rfl⟩⟩

/-- The request of a turn. -/
theorem up_asks {sx px : Bool} {call : List BEnv → Out BRes} {app : Env → Prop} {req : Msg} {buf : Bytes} {bodyLen size2 sz szx start : Nat}
    {os : List (List Client.Obs)} {bs : List BEnv} {t : Turn} (hr : Built req) (hb : NoBlocks req) (ho : Ordinary sx req)
    (h : GoesUp sx px call req size2 buf bodyLen sz szx start os bs) (hp : Possible sx call app bs t) :
    ∃ msg n obs, (∀ is, message1 (seeing t.b is) req sz size2 szx start buf bodyLen = .ok (.ok (msg, n))) ∧ Made1 req sz size2 start bodyLen buf msg n ∧
      exchange sx px { t.b.x with inputs := t.before } msg = .ok (obs, none) ∧ t.m = stamped t.b.x msg ∧ Asks t.m := by
  obtain ⟨res, h1, h2, h3⟩ := hp.waits
  have hseen : ∀ is, message1 (seeing t.b is) req sz size2 szx start buf bodyLen = message1 t.b req sz size2 szx start buf bodyLen := fun _ => rfl
  cases hm : message1 t.b req sz size2 szx start buf bodyLen with
  | ub => 
    obtain ⟨-, -, rp, hcall⟩ := h
    have := h1 []
    rw [hcall, blockwise1, hseen, hm] at this
    cases this
  | err e =>
    obtain ⟨-, -, rp, hcall⟩ := h
    have := h1 []
    rw [hcall, blockwise1, hseen, hm] at this
    cases this
  | ok x =>
    cases x with
    | error e =>
      obtain ⟨-, -, rp, hcall⟩ := h
      have := h1 []
      rw [hcall, blockwise1, hseen, hm] at this
      cases this
      cases h2
    | ok x =>
      obtain ⟨msg, n⟩ := x
      have hM := Client.message1_ok hr hb h.exp hm
      have hbm := hM.built
      cases hx : exchange sx px (seeing t.b t.before).x msg with
      | ub =>
        obtain ⟨-, -, rp, hcall⟩ := h
        have := h1 []
        rw [hcall, blockwise1, hseen, hm] at this
        simp only at this
        rw [hx] at this
        cases this
      | err e =>
        obtain ⟨-, -, rp, hcall⟩ := h
        have := h1 []
        rw [hcall, blockwise1, hseen, hm] at this
        simp only at this
        rw [hx] at this
        cases this
      | ok p =>
        obtain ⟨obs, r⟩ := p
        cases r with
        | some r =>
          exfalso
          cases r with
          | error e =>
            obtain ⟨-, -, rp, hcall⟩ := h
            have := h1 []
            rw [hcall, blockwise1, hseen, hm] at this
            simp only at this
            rw [hx] at this
            cases this
            cases h2
          | ok r => exact up_waits h (by rw [hseen]; exact hm) hx h1 h2
        | none =>
          obtain ⟨-, -, rp, hcall⟩ := h
          have := h1 []
          rw [hcall, blockwise1, hseen, hm] at this
          simp only at this
          rw [hx] at this
          cases this
          rw [latest_append] at h3
          refine ⟨msg, n, obs, fun is => by rw [hseen, hm], hM, hx, ?_⟩
          rcases Client.exchange_cases hbm.type hx with ⟨-, e, he⟩ | ⟨ht, hcl, o3, hs⟩
          · cases he
          have ho' : Ordinary sx (stamped t.b.x msg) := by
            have := made_ordinary hM ho
            exact this
          have hd : t.d = enc (stamped t.b.x msg) := by
            rw [hs.obs] at h3
            exact (Option.some.inj h3).symm
          have hc := carries_of (stamped_built hbm) (Or.inl hcl) ho' (Client.formats_iff.2 ⟨hs.send, hd⟩) hp.short
          have := hp.carries.unique hc
          rw [this]
          exact ⟨rfl, ht, hcl⟩

/-- A response that confirms a block is read back by the client. -/
theorem confirm_carries {sx : Bool} {sepList : List Bytes} {env : Env} {id d : Nat} {m resp : Msg} {val : Bytes} {blk : Block} (hb : Built resp)
    (hro : resp.ops = []) (hrp : resp.payload = []) (hd : d < 32) (hvl : val.length = 3) (hv : blockSpec val = some blk) (hf : Fields m) (hl : m.token.length = 4)
    (hs : Server.Sendable (Server.final sepList env id m (withCode (addOp resp BLOCK1 val) 2 d))) :
    Carries sx (enc (Server.final sepList env id m (withCode (addOp resp BLOCK1 val) 2 d))) (Server.final sepList env id m (withCode (addOp resp BLOCK1 val) 2 d)) ∧
    parseBlockOp BLOCK1 (withCode (addOp resp BLOCK1 val) 2 d).ops = .ok (some blk) ∧ ∀ px, Client.Acceptable px (withCode (addOp resp BLOCK1 val) 2 d) := by
  have hops : (withCode (addOp resp BLOCK1 val) 2 d).ops = [⟨BLOCK1, val⟩] := by
    simp [withCode, addOp, hro, opListAdd]
  have hmem : ∀ o ∈ (withCode (addOp resp BLOCK1 val) 2 d).ops, o = ⟨BLOCK1, val⟩ := by
    intro o ho
    rw [hops] at ho
    exact List.mem_singleton.1 ho
  have hbf : Built (Server.final sepList env id m (withCode (addOp resp BLOCK1 val) 2 d)) :=
    ((hb.addOp _ _).withCode (by decide) hd).final hf
  refine ⟨carries_of hbf (Or.inr (Or.inl rfl)) ?_ (Client.formats_iff.2 ⟨hs, rfl⟩) ?_, parseBlockOp_of (Or.inl rfl) hvl hv ?_, ?_⟩
  · intro o ho
    rw [hmem o ho]
    show BLOCK1 < 65536 ∧ val.length < 65536 ∧ (sx = true → BLOCK1 < 141 ∧ val.length < 141)
    rw [hvl]
    exact ⟨by decide, by decide, fun _ => ⟨by decide, by decide⟩⟩
  · have e1 : (Server.final sepList env id m (withCode (addOp resp BLOCK1 val) 2 d)).ops = [⟨BLOCK1, val⟩] := hops
    have e2 : (Server.final sepList env id m (withCode (addOp resp BLOCK1 val) 2 d)).token.length = 4 := hl
    have e3 : (Server.final sepList env id m (withCode (addOp resp BLOCK1 val) 2 d)).payload = [] := hrp
    have e4 : (encPayload (Server.final sepList env id m (withCode (addOp resp BLOCK1 val) 2 d))).length ≤ 1025 := by
      unfold encPayload
      rw [e3]
      simp
    have e5 : (encOps 0 [⟨BLOCK1, val⟩]).length ≤ 20 := by
      simp only [encOps, List.append_nil, encOp_length, Op.len]
      have : ∀ k, extSize k ≤ 2 := by intro k; unfold extSize; split <;> (try split) <;> omega
      have h1 := this (deltaOf ⟨BLOCK1, val⟩ 0)
      have h2 := this val.length
      omega
    simp only [enc, List.length_append, encHdr_length, e1, e2]
    omega
  · rw [hops]
    simp
  · intro px o ho _
    rw [hmem o ho]
    show BLOCK1 ∈ known
    decide

/-- The response of the application to an upload: 2.`d` without a payload, and no option but the confirmation of the last block. -/
def ConfirmsLast (d : Nat) (rp : Msg) : Prop :=
  rp.codeClass = 2 ∧ rp.codeDetail = d ∧ rp.payload = [] ∧ ∃ val, rp.ops = [⟨BLOCK1, val⟩] ∧ val.length = 3

/-- The call has returned without a body, with a response 2.`d`. -/
def CompletedUp (call : List BEnv → Out BRes) (d : Nat) (buf : Bytes) (bs : List BEnv) : Prop :=
  ∃ os rp, ConfirmsLast d rp ∧ ∀ bs', call (bs ++ bs') = .ok ⟨os, some (.ok 0), rp, buf⟩

/-- What the client does with a response that confirms a block. -/
theorem take1_confirms {size1 start n bodyLen num size d szx : Nat} {more : Bool} {r : Msg} (hc : r.codeClass = 2) (hd : r.codeDetail = d)
    (hdd : d = 31 ∨ d = 1 ∨ d = 4) (hp : parseBlockOp BLOCK1 r.ops = .ok (some ⟨num, more, size⟩)) (hle : size ≤ size1) (hs : num * size = start)
    (hz : calcBlockSzx size = .ok szx) :
    take1 size1 start n bodyLen r = if start + n ≥ bodyLen then .ok (.ret (.ok (start + n))) else .ok (.next size szx (start + n)) := by
  unfold take1
  rw [if_neg (by rw [hc]; decide), if_neg (by rw [hd]; omega), hp]
  dsimp only
  rw [show (if size < size1 then size else size1) = size by split <;> omega, if_neg (by omega), hz]

/-- A turn of an upload: the client gets the confirmation. -/
theorem up_turn {sx px : Bool} {a : Addr} {call : List BEnv → Out BRes} {app : Env → Prop} {req resp : Msg} {buf : Bytes}
    {bodyLen size size2 sz szx start id num d : Nat} {more : Bool} {val : Bytes} {sepList : List Bytes} {os : List (List Client.Obs)} {bs : List BEnv} {t : Turn}
    {o : List Server.Obs} (hr : Built req) (hnb : NoBlocks req) (ho : Ordinary sx req)
    (hsz : BlockSize size) (hle : size ≤ sz) (hst : start < bodyLen)
    (h : GoesUp sx px call req size2 buf bodyLen sz szx start os bs) (hp : Possible sx call app bs t) (hb : Built resp)
    (hro : resp.ops = []) (hrp : resp.payload = []) (hd : d = 31 ∨ d = 1 ∨ d = 4) (hvl : val.length = 3) (hv : blockSpec val = some ⟨num, more, size⟩)
    (hnum : num * size = start)
    (hs : sends o = (if t.m.type = CON ∧ Separate sepList t.m then [(a, emptyAck t.m.msgId)] else []) ++
      [(a, enc (Server.final sepList t.env id t.m (withCode (addOp resp BLOCK1 val) 2 d)))])
    (hsend : Server.Sendable (Server.final sepList t.env id t.m (withCode (addOp resp BLOCK1 val) 2 d)))
    (hid : ¬ (t.m.type = CON ∧ ¬ Separate sepList t.m) → Server.nextMsgId id t.env.idRand ≠ t.m.msgId) :
    (start + sz < bodyLen → ∃ szx' os', GoesUp sx px call req size2 buf bodyLen size szx' (start + sz) os'
      (bs ++ [seeing t.b (t.before ++ ((toward a o).map gets ++ t.after))])) ∧
    (bodyLen ≤ start + sz → CompletedUp call d buf (bs ++ [seeing t.b (t.before ++ ((toward a o).map gets ++ t.after))])) := by
  obtain ⟨msg, n, obs, g1, g2, g3, g4, g5⟩ := up_asks hr hnb ho h hp
  have hl : t.m.token.length = 4 := by rw [g4]; rfl
  obtain ⟨c1, c2, c3⟩ := confirm_carries (sx := sx) hb hro hrp (by omega) hvl hv hp.carries.fields.1 hl hsend
  have hun := hp.unacked
  rw [g4] at hs c1 hid hun
  obtain ⟨obs', key⟩ := delivered (px := px) (js := t.after) g2.built g3 hun hs c1 (Or.inl rfl) (c3 px) hid
  obtain ⟨hz, hlen, rp, hcall⟩ := h
  obtain ⟨szx', hz'⟩ := hsz.szx
  have ht := take1_confirms (size1 := sz) (start := start) (n := n) (bodyLen := bodyLen)
    (r := Server.final sepList t.env id (stamped t.b.x msg) (withCode (addOp resp BLOCK1 val) 2 d)) rfl rfl hd c2 hle hnum hz'
  have hn := g2.len
  have hall : ∀ bs', call ((bs ++ [seeing t.b (t.before ++ ((toward a o).map gets ++ t.after))]) ++ bs') =
      post sx px req size2 bodyLen ((bs ++ [seeing t.b (t.before ++ ((toward a o).map gets ++ t.after))]) ++ bs')
        (conses os (match take1 sz start n bodyLen (Server.final sepList t.env id (stamped t.b.x msg) (withCode (addOp resp BLOCK1 val) 2 d)) with
        | .ub => .ub
        | .err e => .err e
        | .ok (.ret r) => endRound obs' r (Server.final sepList t.env id (stamped t.b.x msg) (withCode (addOp resp BLOCK1 val) 2 d)) buf
        | .ok (.next size1 szx start) => BRes.cons obs' (blockwise1 sx px req size2 buf bodyLen size1 szx start create bs'))) := by
    intro bs'
    rw [List.append_assoc, hcall, List.singleton_append, blockwise1_took (g1 _) key]
  constructor
  · intro hm
    rw [if_neg (by omega)] at hn
    rw [if_neg (by omega)] at ht
    refine ⟨szx', os ++ [obs'], hz', by simp [hlen], create, fun bs' => ?_⟩
    rw [hall, ht]
    simp only
    rw [conses_cons, hn]
  · intro hm
    rw [if_pos hm] at hn
    rw [if_pos (by omega)] at ht
    refine ⟨os ++ [obs'], Server.final sepList t.env id (stamped t.b.x msg) (withCode (addOp resp BLOCK1 val) 2 d),
      ⟨rfl, rfl, hrp, val, by show opListAdd ⟨BLOCK1, val⟩ resp.ops = _; rw [hro]; rfl, hvl⟩, fun bs' => ?_⟩
    rw [hall, ht]
    simp only [endRound, conses, post]
    rw [if_neg (by omega), if_pos (show (Server.final sepList t.env id (stamped t.b.x msg) (withCode (addOp resp BLOCK1 val) 2 d)).payload = [] from hrp)]

/-- A turn of an upload, at the client and at the server. -/
theorem up_round {sx px : Bool} {a : Addr} {call : List BEnv → Out BRes} {req : Msg} {buf : Bytes} {base nbuf room width : Nat}
    {bodyLen size2 sz szx szx2 start num method b1 id d : Nat} {s1 s2 : Srv} {os : List (List Client.Obs)} {bs : List BEnv} {t : Turn}
    {o : List Server.Obs} {e : Option Err} (hr : Built req) (hnb : NoBlocks req) (ho : Ordinary sx req) (hk : AllKnown req)
    (hmeth : req.codeDetail = method) (hz2 : calcBlockSzx size2 = .ok szx2) (hd : d = 1 ∨ d = 4)
    (hwsz : BlockSize width) (h2 : bodyLen ≤ buf.length) (hst : start < bodyLen) (hroom : bodyLen ≤ room)
    (h20 : num < 2 ^ 20) (hn1 : start = num * sz) (hn2 : num * min sz width = start)
    (h : GoesUp sx px call req size2 buf bodyLen sz szx start os bs)
    (hp : Possible sx call (Accepts (cpath 256 req.ops) method b1 room id d) bs t)
    (ht : Tidy s1) (hi : SInv base nbuf room s1) (h8 : 8 ≤ nbuf) (h0 : Server.ofAddr s1 a = none → t.m.msgId ≠ 0)
    (hnew : ∀ u, Server.ofAddr s1 a = some u → Server.matchReq u t.m = false)
    (hE : Server.Expects s1 t.env a t.m method (cpath 256 req.ops) (some id) room ((buf.take bodyLen).take start) width)
    (hserved : step sx s1 t.env (.datagram a t.d) = .ok (s2, o, e))
    (hid : ¬ (t.m.type = CON ∧ ¬ Separate s1.sepList t.m) → Server.nextMsgId s1.msgId t.env.idRand ≠ t.m.msgId) :
    (start + sz < bodyLen → Server.bodiesOf a o = [] ∧
      Server.Receiving s2 a t.m.msgId method (cpath 256 req.ops) (some id) room ((buf.take bodyLen).take (start + sz)) (min sz width) ∧
      ∃ szx' os', GoesUp sx px call req size2 buf bodyLen (min sz width) szx' (start + sz) os'
        (bs ++ [seeing t.b (t.before ++ ((toward a o).map gets ++ t.after))])) ∧
    (bodyLen ≤ start + sz → Server.bodiesOf a o = [(a, id, buf.take bodyLen)] ∧
      CompletedUp call d buf (bs ++ [seeing t.b (t.before ++ ((toward a o).map gets ++ t.after))])) := by
  obtain ⟨msg, n, obs, g1, hM, g3, g4, g5⟩ := up_asks hr hnb ho h hp
  have hszb : BlockSize sz := Client.BlockSize.of_szx h.exp
  have hpos := Server.BlockSize.pos hszb
  have hlen : (buf.take bodyLen).length = bodyLen := by rw [List.length_take]; omega
  have hlen2 : ((buf.take bodyLen).take start).length = start := by rw [List.length_take, hlen]; omega
  have hops : t.m.ops = msg.ops := by rw [g4]; rfl
  have hkn := Client.div_of_szx h.exp hn1
  obtain ⟨val1, v1, v2, v3⟩ := hM.block1
  have v3 := v3 szx h.exp (by rw [hkn]; exact h20)
  rw [hkn] at v3
  have hb1 : parseBlockOp BLOCK1 t.m.ops = .ok (some ⟨num, ¬ (start + sz ≥ bodyLen), sz⟩) := by
    rw [hops]
    exact parseBlockOp_of (Or.inl rfl) v2 v3 (filter_values v1)
  have hb2 : Server.Block2OK t.m := by
    unfold Server.Block2OK
    rw [hops]
    have := hM.block2
    split at this
    · obtain ⟨w, w1, w2, w3⟩ := this
      exact ⟨_, parseBlockOp_of (Or.inr rfl) w2 (w3 szx2 hz2) (filter_values w1)⟩
    · refine ⟨none, parseBlockOp_absent ?_⟩
      intro op hop hn
      have : op.val ∈ values BLOCK2 msg := List.mem_map.2 ⟨op, List.mem_filter.2 ⟨hop, by simpa using hn⟩, rfl⟩
      rename_i hv
      rw [hv] at this
      cases this
  have hpay : t.m.payload = (buf.drop start).take n := by rw [g4]; exact hM.payload
  have hn := hM.len
  have hnp : 0 < n := by split at hn <;> omega
  have hin : start + n ≤ bodyLen := by split at hn <;> omega
  have hgot : (buf.take bodyLen).take start ++ t.m.payload = (buf.take bodyLen).take (start + n) := by
    rw [hpay, List.take_take, List.take_take, Nat.min_eq_left (by omega), Nat.min_eq_left hin, List.take_add]
  have hpl : t.m.payload.length = n := by rw [hpay, List.length_take, List.length_drop]; omega
  have hcont : Server.Continues method (cpath 256 req.ops) ((buf.take bodyLen).take start).length width
      (some ⟨num, ¬ (start + sz ≥ bodyLen), sz⟩) t.m := by
    refine ⟨hb1, ?_, ?_, ?_, ?_⟩
    · rw [g4, ← hmeth]; exact hM.code.2
    · rw [hops]; exact cpath_others 256 hM.options
    · rw [hlen2]; exact hn2
    · intro hz
      rw [hz] at hpl
      simp only [List.length_nil] at hpl
      omega
  have hkm : AllKnown t.m := by
    intro op hop
    rw [hops] at hop
    exact made_known hM hk op hop
  obtain ⟨k1, k2⟩ := Server.receive_next_final ht hi h8 (Server.step_rel hserved) hp.fine hp.carries g5 h0 hnew hkm hwsz hE hcont hb2 (by rw [hlen2, hpl]; omega)
  obtain ⟨⟨rsp0, b2, body, len, a1, a2, a3, a4, -⟩, arx⟩ := hp.app
  have hconf : ∀ dd, (dd = 31 ∨ dd = 1 ∨ dd = 4) → Server.Confirmation s1 t.env a t.m width (some id) (some ⟨num, ¬ (start + sz ≥ bodyLen), sz⟩) dd o →
      (start + sz < bodyLen → ∃ szx' os', GoesUp sx px call req size2 buf bodyLen (min sz width) szx' (start + sz) os'
        (bs ++ [seeing t.b (t.before ++ ((toward a o).map gets ++ t.after))])) ∧
      (bodyLen ≤ start + sz → CompletedUp call dd buf (bs ++ [seeing t.b (t.before ++ ((toward a o).map gets ++ t.after))])) := by
    rintro dd hdd ⟨resp, val, c1, -, c3, c4, c5, c6, c7⟩
    have hresp : Built resp ∧ resp.payload = [] := by
      rcases c3 with rfl | c3
      · exact ⟨⟨rfl, by decide, by decide, by decide, by decide, by decide, List.Pairwise.nil⟩, rfl⟩
      · obtain ⟨y1, y2, y3, hy⟩ := c3 Server.Trans.zero
        rw [a1 _ _ hcont.meth hcont.path (made_block1 hM hops)] at hy
        cases hy
        exact ⟨a2, a4⟩
    exact up_turn hr hnb ho (hszb.min hwsz) (Nat.min_le_left _ _) hst h hp hresp.1 c1 hresp.2 hdd c4 c5 hn2 c6 c7 hid
  constructor
  · intro hm
    obtain ⟨-, q1, q2, q3⟩ := k1 (by simp [moreOf]; omega)
    rw [hgot, hn, if_neg (by omega)] at q2
    exact ⟨q1, q2, (hconf 31 (Or.inl rfl) q3).1 hm⟩
  · intro hm
    obtain ⟨id', q1, q2, q3⟩ := k2 (by simp [moreOf]; omega)
    cases q1
    obtain ⟨-, q3⟩ := q3 d (by omega) arx
    rw [hgot, List.take_of_length_le (by rw [hlen, hn, if_pos hm]; omega)] at q2
    exact ⟨q2, (hconf d (Or.inr hd) q3).2 hm⟩

end FreeCoAP.EndToEnd
