import Verif.Server.LemmasCollect

/-! # Receiving a body in blocks and answering with another one -/

namespace FreeCoAP.Server

open FreeCoAP.Msg

/-- The transfer state of a sender from which `got` has been received; if the response has a body, its first block will have `b2` bytes. -/
def CollectB (method : Nat) (uri : Bytes) (rx : Option Nat) (room : Nat) (got : Bytes) (size b2 : Nat) (b : Blk) : Prop :=
  CollectT method uri rx room got size b ∧ b.block2Next = 0 ∧ b.block2Size = b2

theorem sizeOf2_twice (o : Option Block) (n : Nat) : sizeOf2 o (sizeOf2 o n) = sizeOf2 o n := by
  cases o with
  | none => rfl
  | some o => simp only [sizeOf2]; omega

theorem sizeOf2_block {o : Option Block} {n t : Nat} {ops : List Op} (h : parseBlockOp t ops = .ok o) (hn : BlockSize n) : BlockSize (sizeOf2 o n) := by
  cases o with
  | none => exact hn
  | some b => exact (parseBlockOp_size h).min hn

/-- What is known of the blocks of the response while the body is received. -/
theorem collect_keeps {env : Env} {opMem : Bool} {b : Blk} {L : Large} {req resp : Msg} {x : BRes} {o2 : Option Block}
    {method room size : Nat} {uri got : Bytes} {rx : Option Nat} (hs : CollectT method uri rx room got size b)
    (h : NextStep env opMem (fun b L resp => nextBlockStep env env.opMem2 (fun _ _ _ => .ub) b L req resp) b L req resp x)
    (h2 : parseBlockOp BLOCK2 req.ops = .ok o2) (ht : x.blk.type = .put1 ∨ x.blk.type = .post1) :
    x.blk.block2Next = b.block2Next ∧ x.blk.block2Size = sizeOf2 o2 b.block2Size := by
  have hno : ∀ {c : Blk}, NotTaking c → ¬ (c.type = .put1 ∨ c.type = .post1) := by
    rintro c ⟨n1, n2⟩ (h | h)
    · exact n1 h
    · exact n2 h
  cases h with
  | badOp h => exact absurd ht (hno NotTaking.none)
  | regular o1 o2 h1 h2 hty => exact absurd hty hs.not_regular
  | two o1 o2 h1 h2 ht x hx => exact two_not ht hs.type
  | one o1 o2' h1 h2' ht' x hx =>
    rw [h2] at h2'
    cases h2'
    cases hx with
    | bad => exact absurd ht (hno NotTaking.none)
    | order => exact absurd ht (hno NotTaking.none)
    | large => exact absurd ht (hno NotTaking.none)
    | fail => exact absurd ht (hno NotTaking.none)
    | more => cases o2 <;> exact ⟨rfl, rfl⟩
    | whole g1 g2 g3 g4 g5 hm szx hz val hv p bytes bytes' hb hw id hrx rr hr hlen y hy =>
      refine absurd ht (hno ?_)
      show NotTaking y.blk
      rcases hy with ⟨e, -, rfl⟩ | ⟨-, -, rfl⟩ | ⟨-, -, -, hy⟩ | ⟨-, -, -, ⟨-, rfl⟩ | ⟨-, rfl⟩⟩
      · exact NotTaking.none
      · exact NotTaking.none
      · refine (idle_step ?_ (nextBlockStep_cases hy)).2
        constructor <;> simp only <;> split <;> simp
      · exact NotTaking.none
      · exact NotTaking.none

/-- The receiver `id`, which is given buffers of `room` bytes, answers the body `c` with 2.`d` and the body `f c`. -/
def AnswersBody (env : Env) (room id d : Nat) (f : Bytes → Bytes) : Prop :=
  ∀ bytes e req resp, bytes.length = room → (env.rx id bytes e req resp).err = none ∧ (env.rx id bytes e req resp).bodyEnd ≤ (env.rx id bytes e req resp).body.length ∧
    (env.rx id bytes e req resp).body.take (env.rx id bytes e req resp).bodyEnd = f (bytes.take e) ∧
    (env.rx id bytes e req resp).resp = withCode resp 2 d

/-- The last block of a body that is answered with another body. -/
theorem collect_reply {env : Env} {opMem : Bool} {b : Blk} {L : Large} {req resp : Msg} {x : BRes} {ob o2 : Option Block}
    {method room size b2 id d : Nat} {uri got : Bytes} {f : Bytes → Bytes} (hs : CollectB method uri (some id) room got size b2 b)
    (h : NextStep env opMem (fun b L resp => nextBlockStep env env.opMem2 (fun _ _ _ => .ub) b L req resp) b L req resp x)
    (hsz : BlockSize size) (hb2 : BlockSize b2)
    (hc : Continues method uri got.length size ob req) (h2 : parseBlockOp BLOCK2 req.ops = .ok o2) (hn2 : numOf o2 = 0) (hm : moreOf ob = false)
    (hl : got.length + req.payload.length ≤ room) (hf1 : env.opMem1 = true) (hf2 : env.opMem2 = true) (hf3 : env.payMem = true) (hro : resp.ops = [])
    (hd : d < 32) (hrx : AnswersBody env room id d f) (hne : f (got ++ req.payload) ≠ []) :
    x.rx = [(id, got ++ req.payload)] ∧ x.err = none ∧ ∃ val, val.length = 3 ∧ blockSpec val = some ⟨numOf ob, false, sizeOf2 ob size⟩ ∧
      CarriesBlock (f (got ++ req.payload)) d 0 (sizeOf2 o2 b2) x.resp ∧ Extends2 (withCode (addOp resp BLOCK1 val) 2 d) x.resp ∧
      (sizeOf2 o2 b2 ≤ (f (got ++ req.payload)).length →
        ServingT method uri (f (got ++ req.payload)) d (sizeOf2 o2 b2) (sizeOf2 o2 b2) x.blk) := by
  obtain ⟨hs, hs0, hs2⟩ := hs
  cases h with
  | badOp h =>
    exfalso
    rcases h with ⟨e, h⟩ | ⟨e, h⟩
    · rw [hc.option] at h; cases h
    · rw [h2] at h; cases h
  | regular o1 o2 h1 h2 ht => exact absurd ht hs.not_regular
  | two o1 o2 h1 h2 ht x hx => exact two_not ht hs.type
  | one o1 o2' h1 h2' ht x hx =>
    rw [hc.option] at h1
    cases h1
    rw [h2] at h2'
    cases h2'
    have hS := hs.shrink ob o2
    have em : (Server.shrink b ob o2).type.method = method := hS.meth
    have eu : (Server.shrink b ob o2).blockUri = uri := hS.path
    have ew : (Server.shrink b ob o2).block1Size = sizeOf2 ob size := hS.width
    have es : (Server.shrink b ob o2).block1Next = got.length := hS.start
    have ef : (Server.shrink b ob o2).bodyEnd = got.length := hS.stop
    have ec : (Server.shrink b ob o2).bodyLen = room := hS.cap
    have e0 : (Server.shrink b ob o2).block2Next = 0 := hs0
    have e2 : (Server.shrink b ob o2).block2Size = sizeOf2 o2 b2 := by
      rw [← hs2]
      cases o2 <;> rfl
    have hn := parseBlockOp_num hc.option
    have hmin : BlockSize (sizeOf2 ob size) := sizeOf2_block hc.option hsz
    have hmin2 : BlockSize (sizeOf2 o2 b2) := sizeOf2_block h2 hb2
    obtain ⟨szx2, hszx2⟩ := hmin2.szx
    have hnum : ∀ szx, calcBlockSzx (sizeOf2 ob size) = .ok szx → got.length >>> (szx + 4) = numOf ob := by
      intro szx hz
      have e := (calcBlockSzx_ok.1 hz).2
      rw [Nat.shiftRight_eq_div_pow, ← e, ← hc.start]
      exact Nat.mul_div_cancel _ hmin.pos
    cases hx with
    | bad h =>
      exfalso
      rw [em, eu] at h
      rcases h with h | h | ⟨-, h⟩
      · exact h hc.meth
      · exact h hc.path
      · exact hc.payload h
    | order g1 g2 g3 =>
      rw [ew, es] at g3
      exact absurd hc.start g3
    | large g1 g2 g3 g4 g5 =>
      rw [ec, es] at g5
      omega
    | fail g1 g2 g3 g4 e hf =>
      exfalso
      obtain ⟨szx, hz⟩ := hmin.szx
      have := hf hf1 szx (by rw [ew]; exact hz)
      rw [es, hnum szx hz] at this
      omega
    | more g1 g2 g3 g4 g5 hm' => rw [hm] at hm'; cases hm'
    | whole g1 g2 g3 g4 g5 hm' szx hz val hv p bytes bytes' hb hw id' hrx' rr hr hlen y hy =>
      have hid : id' = id := by
        rw [hS.callback] at hrx'
        exact (Option.some.inj hrx').symm
      subst hid
      rw [es] at hw
      rw [ew] at hz
      rw [es, ew, hnum szx hz] at hv
      obtain ⟨v1, v2⟩ := blockVal_spec hn hz hv
      have c2 : bytes'.length = room ∧ bytes'.take (got.length + req.payload.length) = got ++ req.payload := by
        obtain ⟨p', bytes0, k1, k2, k3⟩ := hS.buf
        rw [hb] at k1
        cases k1
        obtain ⟨w1, w2⟩ := wrs_eq_ok.1 hw
        refine ⟨by rw [wrs_length hw, k2], ?_⟩
        rw [w2, k3, List.take_append_of_le_length (by simp), List.take_of_length_le (by simp)]
      obtain ⟨c1, c2⟩ := c2
      obtain ⟨r1, r2, r3, r4⟩ := hrx bytes' ((Server.shrink b ob o2).bodyEnd + req.payload.length) req (addOp resp BLOCK1 val) c1
      rw [← hr] at r1 r2 r3 r4
      rw [ef, c2] at r3
      have hpos : 0 < rr.bodyEnd := by
        apply Nat.pos_of_ne_zero
        intro h0
        rw [h0] at r3
        exact hne r3.symm
      rcases hy with ⟨e, q, -⟩ | ⟨-, q, -⟩ | ⟨-, -, -, hy⟩ | ⟨-, -, q, -⟩
      · rw [r1] at q; cases q
      · rw [r4] at q; exact absurd rfl q
      · have hT : ServingT method uri (f (got ++ req.payload)) d 0 (sizeOf2 o2 b2) { Server.shrink b ob o2 with
            body := some (p, rr.body), block1Next := (Server.shrink b ob o2).block1Next + req.payload.length, bodyEnd := rr.bodyEnd
            type := if (Server.shrink b ob o2).type = .put1 then .put2 else .post2, blockDetail := rr.resp.codeDetail } := by
          refine ⟨?_, ?_, eu, ⟨p, rr.body, rfl, r2, r3⟩, e0, Nat.zero_le _, e2, ?_, ?_⟩
          · simp only
            split
            · exact Or.inr (Or.inl rfl)
            · exact Or.inr (Or.inr rfl)
          · rw [← em]
            simp only
            rcases hS.type with ht | ht <;> rw [ht] <;> rfl
          · show (if (if (Server.shrink b ob o2).type = .put1 then TType.put2 else TType.post2) = .get then 5 else rr.resp.codeDetail) = d
            rw [if_neg (by split <;> simp), r4]
            rfl
          · rw [r4]; exact hd
        rw [r4] at hy hT
        have hops : (withCode (addOp resp BLOCK1 val) 2 d).ops = [⟨BLOCK1, val⟩] := by simp [withCode, addOp, hro, opListAdd]
        obtain ⟨hrx0, hh⟩ := serve_step hT (resp := withCode (addOp resp BLOCK1 val) 2 d)
          (by intro o ho; rw [hops] at ho; rw [List.mem_singleton.1 ho]; show BLOCK1 ≠ BLOCK2; decide) (by rw [hops]; simp [Sorted]) (nextBlockStep_cases hy)
        refine ⟨?_, ?_⟩
        · simp only [hrx0, ef]
          rw [c2]
        rcases hh with ⟨-, -, -, k4⟩ | ⟨-, -, k3⟩ | ⟨o2', k1, k2, k3, k4, k5, k6⟩
        · exact absurd ⟨ob, o2, hc.option, h2, hc.meth, hc.path, by rw [hn2, Nat.zero_mul]⟩ k4
        · exact absurd ⟨hf2, hf3, o2, szx2, h2, by rw [sizeOf2_twice]; exact hszx2⟩ k3
        · rw [h2] at k1
          cases k1
          rw [hn2, sizeOf2_twice] at k4 k6
          refine ⟨k2, val, v2, v1, k4, k5, ?_⟩
          intro hle
          rw [Nat.zero_add, Nat.zero_add, Nat.one_mul] at k6
          rcases k6 with ⟨-, k6⟩ | ⟨k6, -⟩
          · exact k6
          · omega
      · omega

theorem sendable_two {x : Msg} {op1 op2 : Op} (hops : x.ops = [op1, op2]) (hv1 : op1.val.length = 3) (hv2 : op2.val.length = 3)
    (hk : 13 ≤ op1.num) (hle : op1.num ≤ op2.num) (hs : Shape x)
    (htk : x.token.length ≤ 8) (hp : x.payload.length ≤ 1024) : Sendable x ∧ (enc x).length ≤ 1063 + x.token.length := by
  have hlen : (enc x).length = 4 + x.token.length + (encOps 0 x.ops).length + (encPayload x).length := by
    simp only [enc, List.length_append, encHdr_length]
  have hpl : (encPayload x).length ≤ 1025 := by
    unfold encPayload
    split <;> simp <;> omega
  have hol : (encOps 0 x.ops).length ≤ 20 := by
    rw [hops]
    simp only [encOps, List.append_nil, List.length_append, encOp_length, Op.len]
    have : ∀ k, extSize k ≤ 2 := by intro k; unfold extSize; split <;> (try split) <;> omega
    have h1 := this (deltaOf op1 0)
    have h2 := this op1.val.length
    have h3 := this (deltaOf op2 op1.num)
    have h4 : extSize op1.val.length = 0 := by rw [hv1]; rfl
    have h5 : extSize op2.val.length = 0 := by rw [hv2]; rfl
    omega
  obtain ⟨b', hb⟩ := format_room (m := x) (buf := List.replicate BUF_LEN 0) (len := BUF_LEN)
    (by rw [List.length_replicate]; exact Nat.le_refl _) (by decide) hs
    (by rw [hops]; simp; omega) (by rw [hops] at *; simp only [BUF_LEN, List.length_cons, List.length_nil]; omega)
  exact ⟨⟨_, hb⟩, by omega⟩

/-- The beginning of the answer to a PUT or POST request, with what is known of the blocks of the response. -/
theorem handleBlockwise_put2 {env : Env} {b : Blk} {L : Large} {req resp : Msg} {b1 b2 : Nat} {body : Bytes} {bodyLen : Nat}
    {rx : Option Nat} {x : BRes} (hg : req.codeDetail = 2 ∨ req.codeDetail = 3)
    (h : handleBlockwise env b L req resp b1 b2 body bodyLen rx = .ok x) :
    (badSize b1 = true ∨ badSize b2 = true ∨ bodyLen > (clearBlockwise b L).2.pool.len ∨
        ((clearBlockwise b L).2.alloc bodyLen).1 = none ∨ rx = none) ∨
    ∃ blk L', CollectB req.codeDetail (cpath 256 req.ops) rx (clearBlockwise b L).2.pool.len [] b1 b2 blk ∧
      nextBlock env blk L' req resp = .ok x := by
  unfold handleBlockwise at h
  simp only at h
  split at h
  · rename_i hb; exact Or.inl (Or.inl hb)
  split at h
  · rename_i hb; exact Or.inl (Or.inr (Or.inl hb))
  split at h
  · rename_i hb; exact Or.inl (Or.inr (Or.inr (Or.inl hb)))
  split at h
  · rename_i hb; exact Or.inl (Or.inr (Or.inr (Or.inr (Or.inl (by rw [hb])))))
  rename_i hlen _ p L' hal
  rw [if_neg (by omega), if_pos (by omega)] at h
  split at h
  · exact Or.inl (Or.inr (Or.inr (Or.inr (Or.inr rfl))))
  rename_i id
  rw [uriStr_eq _ _ (by decide)] at h
  refine Or.inr ⟨_, L', ⟨?_, rfl, rfl⟩, h⟩
  refine ⟨?_, ?_, rfl, rfl, alloc_len hal, ⟨p, _, rfl, ?_, rfl⟩, Nat.zero_le _, rfl, rfl, rfl⟩
  · simp only
    split
    · exact Or.inl rfl
    · exact Or.inr rfl
  · rcases hg with hg | hg <;> simp [hg, TType.method]
  · rw [List.length_replicate]; exact alloc_len hal

/-- When the request `m` arrives from `a` the server is in an upload in which it has received `got`, or the request begins one; if the response has a body,
its first block will have `b2` bytes. -/
def ExpectsB (s : Srv) (env : Env) (a : Addr) (m : Msg) (method : Nat) (uri : Bytes) (rx : Option Nat) (room : Nat) (got : Bytes)
    (size b2 : Nat) : Prop :=
  (∃ id, InTransfer (CollectB method uri rx room got size b2) s a id) ∨
  (got = [] ∧ ¬ Transfer s a ∧ m.codeDetail = method ∧ (method = 2 ∨ method = 3) ∧ cpath 256 m.ops = uri ∧
    ∃ resp body bodyLen, (∀ t, env.handle t m = .blockwise resp size b2 body bodyLen rx) ∧ resp.ops = [] ∧
      resp.payload.length ≤ 1024 ∧ bodyLen ≤ room ∧ rx ≠ none)

/-- What the server does with a request in an upload. -/
theorem receive_step {sx : Bool} {s s' : Srv} {env : Env} {a : Addr} {d : Bytes} {o : List Obs} {e : Option Err} {m : Msg}
    {base nbuf room method size b2 : Nat} {uri got : Bytes} {rx : Option Nat} (ht : Tidy s) (hi : SInv base nbuf room s) (h8 : 8 ≤ nbuf)
    (h : StepRel sx s env (.datagram a d) s' o e) (hf : NoFault env) (hm : Carries sx d m)
    (hq : Asks m) (h0 : ofAddr s a = none → m.msgId ≠ 0) (hnew : ∀ t, ofAddr s a = some t → matchReq t m = false) (hk : AllKnown m)
    (hsz : BlockSize size) (hb2 : BlockSize b2) (hE : ExpectsB s env a m method uri rx room got size b2) :
    ∃ resp b L r, resp.ops = [] ∧ resp.payload.length ≤ 1024 ∧
      (resp = create ∨ ∀ t, ∃ b2 body bodyLen, env.handle t m = .blockwise resp size b2 body bodyLen rx) ∧
      CollectB method uri rx room got size b2 b ∧
      NextStep env env.opMem1 (fun b L resp => nextBlockStep env env.opMem2 (fun _ _ _ => .ub) b L m resp) b L m resp r ∧
      bodiesOf a o = r.rx.map (fun x => (a, x)) ∧
      (r.err = none → r.resp.codeClass < 8 → r.resp.codeDetail < 32 → Sendable (final s.sepList env s.msgId m r.resp) →
        e = none ∧ sends o = (if m.type = CON ∧ Separate s.sepList m then [(a, emptyAck m.msgId)] else []) ++
          [(a, enc (final s.sepList env s.msgId m r.resp))] ∧
        ∃ t, ofAddr s' a = some t ∧ t.req.ver ≠ 0 ∧ t.req.msgId = m.msgId ∧ t.blk = r.blk) := by
  obtain ⟨u, L, r, o2, hu', hta, hg, -, hbod, hres⟩ := new_request ht h hm hf.arrives hf.create (fun _ => hf.ack) hq h0 hnew
  have key : ∃ resp b L, resp.ops = [] ∧ resp.payload.length ≤ 1024 ∧
      (resp = create ∨ ∀ t, ∃ b2 body bodyLen, env.handle t m = .blockwise resp size b2 body bodyLen rx) ∧
      CollectB method uri rx room got size b2 b ∧
      NextStep env env.opMem1 (fun b L resp => nextBlockStep env env.opMem2 (fun _ _ _ => .ub) b L m resp) b L m resp r := by
    rcases hE with ⟨id, t, hat, -, -, hT⟩ | ⟨rfl, i1, i2, i3, i4, resp, body, bodyLen, g1, g2, g3, g5, g6⟩
    · have hut : u = t := by
        rcases hu' with ⟨hu', -⟩ | ⟨hu', -⟩
        · rw [hat] at hu'; cases hu'; rfl
        · rw [hat] at hu'; cases hu'
      subst hut
      have hn := (generate_next hk (t := cleared env u) hT.1.not_regular hg).1
      exact ⟨create, _, _, rfl, by simp [create, destroyed], Or.inl rfl, hT, nextBlockStep_cases hn⟩
    · have hreg : u.blk.type = .regular := by
        rcases hu' with ⟨h1, -⟩ | ⟨-, rfl, -⟩
        · apply Classical.byContradiction
          intro hne
          exact i1 ⟨u, h1, hne⟩
        · rfl
      obtain ⟨r1, r2, p, L', r3⟩ := room_for (l := bodyLen) ht hi h8 hu' hreg g5
      have hg' := generate_app (t := cleared env u) hreg hk (g1 _) hg
      rcases handleBlockwise_put2 (by rw [i2]; exact i3) hg' with hx | ⟨blk, L2, hT, hnb⟩
      · exfalso
        change badSize size = true ∨ badSize b2 = true ∨ bodyLen > (clearBlockwise u.blk L).2.pool.len ∨
            ((clearBlockwise u.blk L).2.alloc bodyLen).1 = none ∨ rx = none at hx
        rw [r1, r2, r3, badSize_ok hsz, badSize_ok hb2] at hx
        rcases hx with hx | hx | hx | hx | hx
        · cases hx
        · cases hx
        · omega
        · cases hx
        · exact g6 hx
      · have e1 : (clearBlockwise (cleared env u).blk L).2.pool.len = room := by
          change (clearBlockwise u.blk L).2.pool.len = room
          rw [r1, r2]
        rw [e1, i2, i4] at hT
        exact ⟨resp, _, _, g2, g3, Or.inr (fun t => ⟨_, _, _, g1 t⟩), hT, nextBlockStep_cases hnb⟩
  obtain ⟨resp, b, L1, hro, hrp, hwh, hT, hN⟩ := key
  refine ⟨resp, b, L1, r, hro, hrp, hwh, hT, hN, by unfold bodiesOf; rw [hbod, bodiesOf_map], ?_⟩
  intro he hc1 hc2 hsend
  rcases hres with ⟨x, k1, -⟩ | ⟨-, k1, -⟩ | ⟨-, k1, k2, k3, k4, k5, q, p, k6, k7, k8⟩
  · rw [he] at k1; cases k1
  · exact absurd hsend (k1 hf.send hf.copyReq hf.copyResp hf.timer hc1 hc2)
  · obtain ⟨q1, q2⟩ := copy_req hm.fields.1 k6
    exact ⟨k1, k3, _, k8, q1, q2, rfl⟩

theorem final_shape {sepList : List Bytes} {env : Env} {id : Nat} {m x : Msg} (h : x.codeClass = 2) : Shape (final sepList env id m x) := by
  refine ⟨?_, ?_⟩
  · rintro ⟨h', -⟩
    simp only [final] at h'
    rw [h] at h'
    cases h'
  · intro h
    simp only [final] at h
    split at h
    · split at h <;> cases h
    · cases h

/-- The response to the last request of an upload: it confirms the block and carries the first block of the body `out`. -/
def Reply (s : Srv) (env : Env) (a : Addr) (m : Msg) (size : Nat) (rx : Option Nat) (ob : Option Block) (out : Bytes) (d size2 : Nat) (o : List Obs) : Prop :=
  ∃ resp val y, resp.ops = [] ∧ (resp = create ∨ ∀ t, ∃ b2 body bodyLen, env.handle t m = .blockwise resp size b2 body bodyLen rx) ∧
    val.length = 3 ∧ blockSpec val = some ⟨numOf ob, false, sizeOf2 ob size⟩ ∧
    sends o = (if m.type = CON ∧ Separate s.sepList m then [(a, emptyAck m.msgId)] else []) ++ [(a, enc (final s.sepList env s.msgId m y))] ∧
    Sendable (final s.sepList env s.msgId m y) ∧ Extends2 (withCode (addOp resp BLOCK1 val) 2 d) y ∧ CarriesBlock out d 0 size2 y

/-- The request carries the next block of a body that is answered with another one. -/
theorem receive_reply {sx : Bool} {s s' : Srv} {env : Env} {a : Addr} {dg : Bytes} {o : List Obs} {e : Option Err} {m : Msg}
    {base nbuf room method size b2 id d : Nat} {uri got : Bytes} {f : Bytes → Bytes} {ob o2 : Option Block} (ht : Tidy s) (hi : SInv base nbuf room s)
    (h8 : 8 ≤ nbuf) (h : StepRel sx s env (.datagram a dg) s' o e) (hf : NoFault env) (hm : Carries sx dg m)
    (hq : Asks m) (h0 : ofAddr s a = none → m.msgId ≠ 0) (hnew : ∀ t, ofAddr s a = some t → matchReq t m = false) (hk : AllKnown m)
    (hsz : BlockSize size) (hb2 : BlockSize b2) (hE : ExpectsB s env a m method uri (some id) room got size b2)
    (hc : Continues method uri got.length size ob m) (h2 : parseBlockOp BLOCK2 m.ops = .ok o2) (hl : got.length + m.payload.length ≤ room) :
    (moreOf ob = true → bodiesOf a o = [] ∧ InTransfer (CollectB method uri (some id) room (got ++ m.payload) (sizeOf2 ob size) (sizeOf2 o2 b2)) s' a m.msgId ∧
      Confirmation s env a m size (some id) ob 31 o) ∧
    (moreOf ob = false → numOf o2 = 0 → d < 32 → AnswersBody env room id d f → f (got ++ m.payload) ≠ [] →
      bodiesOf a o = [(a, id, got ++ m.payload)] ∧ Reply s env a m size (some id) ob (f (got ++ m.payload)) d (sizeOf2 o2 b2) o ∧
      (sizeOf2 o2 b2 ≤ (f (got ++ m.payload)).length →
        Serving s' a m.msgId method uri (f (got ++ m.payload)) d (sizeOf2 o2 b2) (sizeOf2 o2 b2))) := by
  obtain ⟨resp, b, L, r, hro, hrp, hwh, hT, hN, hbod, hfin⟩ := receive_step ht hi h8 h hf hm hq h0 hnew hk hsz hb2 hE
  constructor
  · intro hmo
    have hmin : BlockSize (sizeOf2 ob size) := sizeOf2_block hc.option hsz
    obtain ⟨szx, hszx⟩ := hmin.szx
    have hkeep := collect_keeps hT.1 hN h2
    cases collect_step hT.1 hN with
    | badOp hb g1 g2 g3 g4 =>
      rcases hb with ⟨e, hb⟩ | ⟨e, hb⟩
      · rw [hc.option] at hb; cases hb
      · rw [h2] at hb; cases hb
    | bad ob' ho hb g1 g2 g3 g4 =>
      rw [hc.option] at ho
      cases ho
      rcases hb with hb | hb | ⟨-, hb⟩
      · exact absurd hc.meth hb
      · exact absurd hc.path hb
      · exact absurd hb hc.payload
    | order ob' ho hb g1 g2 g3 g4 =>
      rw [hc.option] at ho
      cases ho
      exact absurd hc.start hb.2.2
    | large ob' hb hl' g1 g2 g3 g4 => omega
    | fail ob' hb g1 hff g4 =>
      have := hb.option
      rw [hc.option] at this
      cases this
      exact absurd ⟨hf.op1, szx, hszx⟩ hff
    | more ob' hb hl' hmo' g1 val hv hvl g2 g3 g4 =>
      have := hb.option
      rw [hc.option] at this
      cases this
      have hsend : Sendable (final s.sepList env s.msgId m r.resp) := by
        refine sendable_one (op := ⟨BLOCK1, val⟩) ?_ (by simp only; omega) (final_shape (by rw [g2]; rfl)) hm.fields.1.token ?_
        · rw [g2]; simp [final, withCode, addOp, hro, opListAdd]
        · rw [g2]; exact hrp
      obtain ⟨k1, k2, t, k3, k4, k5, k6⟩ := hfin g1 (by rw [g2]; show (2 : Nat) < 8; decide) (by rw [g2]; show (31 : Nat) < 32; decide) hsend
      obtain ⟨w1, w2⟩ := hkeep g3.type
      rw [hT.2.1] at w1
      rw [hT.2.2] at w2
      rw [g2] at k2 hsend
      exact ⟨by rw [hbod, g4]; rfl, ⟨t, k3, k4, k5, by rw [k6]; exact ⟨g3, w1, w2⟩⟩, resp, val, hro, hrp, hwh, hvl, by rw [hmo]; exact hv, k2, hsend⟩
    | whole ob' hb hl' hmo' =>
      have := hb.option
      rw [hc.option] at this
      cases this
      rw [hmo] at hmo'
      cases hmo'
  · intro hmo hn2 hd hrx hne
    obtain ⟨g1, g2, val, g3, g4, g5, g6, g7⟩ := collect_reply hT hN hsz hb2 hc h2 hn2 hmo hl hf.op1 hf.op2 hf.pay hro hd hrx hne
    have hsend : Sendable (final s.sepList env s.msgId m r.resp) := by
      obtain ⟨v2, pl, dd, k1, k2, k3⟩ := g6
      refine (sendable_two (op1 := ⟨BLOCK2, v2⟩) (op2 := ⟨BLOCK1, val⟩) ?_ k2 g3 (show 13 ≤ BLOCK2 by decide) (show BLOCK2 ≤ BLOCK1 by decide) (final_shape (by rw [k1]; rfl)) hm.fields.1.token ?_).1
      · rw [k1]; simp [final, withCode, setPayload, addOp, hro, opListAdd, BLOCK1, BLOCK2]
      · rw [k1]; exact k3
    obtain ⟨k1, k2, t, k3, k4, k5, k6⟩ := hfin g2 (by rw [g5.cls]; decide) (g5.detail_lt hd) hsend
    exact ⟨by rw [hbod, g1]; rfl, ⟨resp, val, r.resp, hro, hwh, g3, g4, k2, hsend, g6, g5⟩, fun hle => ⟨t, k3, k4, k5, by rw [k6]; exact g7 hle⟩⟩

/-- A request for the next block of a response passes nothing to the application. -/
theorem serve_no_body {sx : Bool} {s s' : Srv} {env : Env} {a : Addr} {d : Bytes} {o : List Obs} {e : Option Err} {m : Msg}
    {id method fin next size : Nat} {uri body : Bytes} (ht : Tidy s) (h : StepRel sx s env (.datagram a d) s' o e)
    (hs : Serving s a id method uri body fin next size) (hf : NoFault env) (hm : Carries sx d m)
    (hq : Asks m) (hid : m.msgId ≠ id) (hk : AllKnown m) : bodiesOf a o = [] := by
  obtain ⟨t, hat, hv, hti, hT⟩ := hs
  obtain ⟨u, L, r, o2, hu', hta, hg, -, hb, -⟩ := new_request ht h hm hf.arrives hf.create (fun _ => hf.ack) hq
    (fun hnone => by rw [hat] at hnone; cases hnone)
    (fun t' ht' => by
      rw [hat] at ht'
      cases ht'
      cases hmr : matchReq t m with
      | false => rfl
      | true => exact absurd ((matchReq_iff.1 hmr).2.symm.trans hti) hid)
  have hut : u = t := by
    rcases hu' with ⟨hu', -⟩ | ⟨hu', -⟩
    · rw [hat] at hu'; cases hu'; rfl
    · rw [hat] at hu'; cases hu'
  subst hut
  have hnb := (generate_next hk (t := cleared env u) hT.not_regular hg).1
  have := (serve_step (b := (cleared env u).blk) hT NoBlock2.create (by simp [create, destroyed, Sorted]) (nextBlockStep_cases hnb)).1
  unfold bodiesOf
  rw [hb, this]
  rfl

end FreeCoAP.Server
