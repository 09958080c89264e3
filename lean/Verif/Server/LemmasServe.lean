import Verif.Server.LemmasPool
import Verif.Server.LemmasTrack

/-! # Sending a body in blocks -/

namespace FreeCoAP.Server

open FreeCoAP.Msg

theorem parseBlockVal_num {val : Bytes} {len : Nat} {b : Block} (h : parseBlockVal val len = .ok b) : b.num < 2 ^ 20 := by
  unfold parseBlockVal at h
  obtain ⟨c, hc, h⟩ := Out.bind_eq_ok.1 h
  split at h
  · cases h
  cases h
  have hnib : ∀ v : UInt8, (v.toNat &&& 0xf0) >>> 4 < 2 ^ 4 := by
    intro v
    have := v.toNat_lt
    have h2 : v.toNat &&& 0xf0 ≤ v.toNat := Nat.and_le_left
    rw [Nat.shiftRight_eq_div_pow]
    omega
  have hsh : ∀ (v : UInt8) (k n : Nat), 8 + k ≤ n → v.toNat <<< k < 2 ^ n := by
    intro v k n hk
    have := v.toNat_lt
    rw [Nat.shiftLeft_eq]
    calc v.toNat * 2 ^ k < 2 ^ 8 * 2 ^ k := Nat.mul_lt_mul_of_pos_right (by omega) (Nat.two_pow_pos k)
      _ = 2 ^ (8 + k) := by rw [Nat.pow_add]
      _ ≤ 2 ^ n := Nat.pow_le_pow_right (by decide) hk
  split at hc
  · obtain ⟨v0, -, hc⟩ := Out.bind_eq_ok.1 hc
    cases hc
    have := hnib v0
    simp only
    omega
  · obtain ⟨v1, -, hc⟩ := Out.bind_eq_ok.1 hc
    obtain ⟨v0, -, hc⟩ := Out.bind_eq_ok.1 hc
    cases hc
    have h1 := hnib v1
    exact Nat.or_lt_two_pow (hsh v0 4 20 (by decide)) (by omega)
  · obtain ⟨v2, -, hc⟩ := Out.bind_eq_ok.1 hc
    obtain ⟨v0, -, hc⟩ := Out.bind_eq_ok.1 hc
    obtain ⟨v1, -, hc⟩ := Out.bind_eq_ok.1 hc
    cases hc
    have h1 := hnib v2
    exact Nat.or_lt_two_pow (Nat.or_lt_two_pow (hsh v0 12 20 (by decide)) (hsh v1 4 20 (by decide))) (by omega)

theorem parseBlockOp_num : ∀ {ops : List Op} {type : Nat} {o : Option Block}, parseBlockOp type ops = .ok o → numOf o < 2 ^ 20
  | [], _, _, h => by cases h; decide
  | op :: ops, type, o, h => by
    unfold parseBlockOp at h
    split at h
    · obtain ⟨b, hb, h⟩ := Out.bind_eq_ok.1 h
      cases h
      exact parseBlockVal_num hb
    · exact parseBlockOp_num h

/-- The option value written for a block number that was read. -/
theorem blockVal_spec {num szx : Nat} {more : Bool} (hn : num < 2 ^ 20) {size : Nat} (hz : calcBlockSzx size = .ok szx) {val : Bytes}
    (hv : formatBlockVal 3 num more size = .ok val) : blockSpec val = some ⟨num, more, size⟩ ∧ val.length = 3 := by
  obtain ⟨v, e, hl, hu⟩ := formatBlockVal_ok (num := num) (more := more) (len := 3) hz (by decide) (by simpa using hn)
  obtain ⟨h7, rfl⟩ := calcBlockSzx_ok.1 hz
  rw [e] at hv
  cases hv
  refine ⟨?_, hl⟩
  unfold blockSpec
  cases more
  · rw [hu, if_neg (by simp; omega)]
    congr 1
    have e1 : (16 * num + 8 * (if (false : Bool) = true then 1 else 0) + szx) / 16 = num := by simp; omega
    have e2 : (16 * num + 8 * (if (false : Bool) = true then 1 else 0) + szx) % 8 = szx := by simp; omega
    have e3 : (16 * num + 8 * (if (false : Bool) = true then 1 else 0) + szx) / 8 % 2 = 0 := by simp; omega
    rw [e1, e2, e3]; rfl
  · rw [hu, if_neg (by simp; omega)]
    congr 1
    have e1 : (16 * num + 8 * (if (true : Bool) = true then 1 else 0) + szx) / 16 = num := by simp; omega
    have e2 : (16 * num + 8 * (if (true : Bool) = true then 1 else 0) + szx) % 8 = szx := by simp; omega
    have e3 : (16 * num + 8 * (if (true : Bool) = true then 1 else 0) + szx) / 8 % 2 = 1 := by simp; omega
    rw [e1, e2, e3]; rfl

theorem ServingT.shrink {method : Nat} {uri body : Bytes} {fin next size : Nat} {b : Blk} (o1 o2 : Option Block)
    (h : ServingT method uri body fin next size b) :
    ServingT method uri body fin next (sizeOf2 o2 size) (shrink b o1 o2) := by
  refine ⟨h.type, h.meth, h.path, h.buf, h.start, h.inside, ?_, h.last, h.detail⟩
  have := h.width
  cases o2 with
  | none => exact this
  | some o => simp only [Server.shrink, sizeOf2, this]

/-- The message is a response with one more option and a payload. -/
def Extends2 (resp x : Msg) : Prop :=
  ∃ val pl d, x = withCode (setPayload (addOp resp BLOCK2 val) pl) 2 d ∧ val.length = 3 ∧ pl.length ≤ 1024

theorem block2_filter {resp : Msg} (hr : NoBlock2 resp) (hs : Sorted resp.ops) (val : Bytes) :
    (addOp resp BLOCK2 val).ops.filter (fun o => o.num = BLOCK2) = [⟨BLOCK2, val⟩] := by
  simp only [addOp, opListAdd_eq]
  rw [ins_filter _ _ _ hs, List.filter_append]
  have : resp.ops.filter (fun o => o.num = BLOCK2) = [] := by
    rw [List.filter_eq_nil_iff]
    intro o ho
    simpa using hr o ho
  rw [this]
  simp

theorem serve_next2 {opMem payMem : Bool} {b : Blk} {L : Large} {req resp : Msg} {num2 : Nat} {uri0 uri body : Bytes} {x : BRes}
    {method fin next size : Nat} (hs : ServingT method uri0 body fin next size b) (hn : num2 < 2 ^ 20) (hr : NoBlock2 resp)
    (hso : Sorted resp.ops) (h : Next2 opMem payMem b L req resp num2 uri x) : x.rx = [] ∧
    ((x.err = none ∧ x.blk = Blk.none ∧ x.resp = withCode resp 4 0 ∧
        ¬ (req.codeDetail = method ∧ uri = uri0 ∧ num2 * size = next)) ∨
     (x.err ≠ none ∧ x.blk = Blk.none ∧ ¬ (opMem = true ∧ payMem = true ∧ ∃ szx, calcBlockSzx size = .ok szx)) ∨
     (x.err = none ∧ num2 * size = next ∧ CarriesBlock body fin num2 size x.resp ∧ Extends2 resp x.resp ∧
       (((num2 + 1) * size ≤ body.length ∧ ServingT method uri0 body fin (next + size) size x.blk) ∨
        (body.length < (num2 + 1) * size ∧ x.blk = Blk.none)))) := by
  obtain ⟨p, bytes, hbuf, hbl, hbt⟩ := hs.buf
  have hlen : body.length = b.bodyEnd := by rw [← hbt, List.length_take]; omega
  have hin := hs.inside
  have hw := hs.width
  have hst := hs.start
  have hfit : Fits2 b req num2 uri ↔ (req.codeDetail = method ∧ uri = uri0 ∧ num2 * size = next) := by
    unfold Fits2
    rw [hs.meth, hs.path, hw, hst]
  have hnum : ∀ szx, calcBlockSzx b.block2Size = .ok szx → num2 * size = next → b.block2Next >>> (szx + 4) = num2 := by
    intro szx hz hf
    have e := (calcBlockSzx_ok.1 hz).2
    rw [Nat.shiftRight_eq_div_pow, ← e, hst, ← hf, hw]
    refine Nat.mul_div_cancel _ ?_
    rw [← hw, e]
    exact Nat.two_pow_pos _
  have h1024 : ∀ szx, calcBlockSzx b.block2Size = .ok szx → b.block2Size ≤ 1024 := by
    intro szx hz
    obtain ⟨h7, e⟩ := calcBlockSzx_ok.1 hz
    rw [e]
    calc 2 ^ (szx + 4) ≤ 2 ^ 10 := Nat.pow_le_pow_right (by decide) (by omega)
      _ = 1024 := by decide
  cases h with
  | bad h => exact ⟨rfl, Or.inl ⟨rfl, rfl, rfl, fun h' => h (hfit.2 h')⟩⟩
  | fail h e resp' _ hf =>
    refine ⟨rfl, Or.inr (Or.inl ⟨by simp, rfl, ?_⟩)⟩
    rintro ⟨h1, h2, szx, hz⟩
    rw [← hw] at hz
    have h3 := hf h1 h2 hs.detail szx hz
    rw [hnum szx hz (hfit.1 h).2.2] at h3
    omega
  | more h szx hz hm val hv p' bytes' hb hl =>
    rw [hbuf] at hb
    cases hb
    have hf := (hfit.1 h).2.2
    rw [hnum szx hz hf] at hv
    obtain ⟨hsp, hvl⟩ := blockVal_spec hn hz hv
    have hm' : (num2 + 1) * size ≤ body.length := by rw [Nat.add_mul, hf, hlen]; rw [hst, hw] at hm; omega
    have hpay : (bytes.drop b.block2Next).take b.block2Size = (body.drop (num2 * size)).take size := by
      rw [hst, hw, hf, ← hbt, List.drop_take, List.take_take, Nat.min_eq_left (by omega)]
    refine ⟨rfl, Or.inr (Or.inr ⟨rfl, hf, ?_, ?_, Or.inl ⟨hm', ?_⟩⟩)⟩
    · refine ⟨rfl, ?_, ⟨val, block2_filter hr hso val, ?_⟩, by omega, hpay⟩
      · rw [if_pos hm']; rfl
      · rw [hsp, hw, decide_eq_true hm']
    · refine ⟨val, _, 31, rfl, hvl, ?_⟩
      rw [List.length_take]
      have := h1024 szx hz
      omega
    · refine ⟨hs.type, hs.meth, hs.path, ⟨p, bytes, hbuf, hbl, hbt⟩, ?_, ?_, hw, hs.last, hs.detail⟩
      · simp only [hst, hw]
      · rw [hst, hw] at hm; omega
  | last h szx hz hm val hv p' bytes' hb hl hd =>
    rw [hbuf] at hb
    cases hb
    have hf := (hfit.1 h).2.2
    rw [hnum szx hz hf] at hv
    obtain ⟨hsp, hvl⟩ := blockVal_spec hn hz hv
    have hm' : body.length < (num2 + 1) * size := by rw [Nat.add_mul, hf, hlen]; rw [hst, hw] at hm; omega
    have hpay : (bytes.drop b.block2Next).take (b.bodyEnd - b.block2Next) = (body.drop (num2 * size)).take size := by
      rw [hst, hf, ← hbt, List.drop_take, List.take_take, Nat.min_eq_right (by rw [Nat.add_mul, hf, hlen] at hm'; omega)]
    refine ⟨rfl, Or.inr (Or.inr ⟨rfl, hf, ?_, ?_, Or.inr ⟨hm', rfl⟩⟩)⟩
    · refine ⟨rfl, ?_, ⟨val, block2_filter hr hso val, ?_⟩, by omega, hpay⟩
      · rw [if_neg (c := (num2 + 1) * size ≤ body.length) (by omega), ← hs.last]; rfl
      · rw [hsp, hw, decide_eq_false (by omega)]
    · refine ⟨val, _, _, rfl, hvl, ?_⟩
      rw [List.length_take]
      have := h1024 szx hz
      rw [hst, hw] at hm
      omega

theorem two_not {P : Prop} {b : Blk} (h2 : b.type = .get ∨ b.type = .put2 ∨ b.type = .post2)
    (h1 : b.type = .put1 ∨ b.type = .post1) : P := by
  rcases h2 with h | h | h <;> rw [h] at h1 <;> simp at h1

/-- A request handled while the body is being sent. -/
theorem serve_step {env : Env} {opMem : Bool} {again : Blk → Large → Msg → Out BRes} {b : Blk} {L : Large} {req resp : Msg} {x : BRes}
    {uri0 body : Bytes} {method fin next size : Nat} (hs : ServingT method uri0 body fin next size b) (hr : NoBlock2 resp)
    (hso : Sorted resp.ops) (h : NextStep env opMem again b L req resp x) : x.rx = [] ∧
    ((x.err = none ∧ x.blk = Blk.none ∧ x.resp = withCode resp 4 0 ∧
        ¬ (∃ o1 o2, parseBlockOp BLOCK1 req.ops = .ok o1 ∧ parseBlockOp BLOCK2 req.ops = .ok o2 ∧
          req.codeDetail = method ∧ cpath 256 req.ops = uri0 ∧ numOf o2 * sizeOf2 o2 size = next)) ∨
     (x.err ≠ none ∧ x.blk = Blk.none ∧ ¬ (opMem = true ∧ env.payMem = true ∧ ∃ o2 szx,
        parseBlockOp BLOCK2 req.ops = .ok o2 ∧ calcBlockSzx (sizeOf2 o2 size) = .ok szx)) ∨
     (∃ o2, parseBlockOp BLOCK2 req.ops = .ok o2 ∧
       x.err = none ∧ numOf o2 * sizeOf2 o2 size = next ∧ CarriesBlock body fin (numOf o2) (sizeOf2 o2 size) x.resp ∧
       Extends2 resp x.resp ∧
       (((numOf o2 + 1) * sizeOf2 o2 size ≤ body.length ∧
          ServingT method uri0 body fin (next + sizeOf2 o2 size) (sizeOf2 o2 size) x.blk) ∨
        (body.length < (numOf o2 + 1) * sizeOf2 o2 size ∧ x.blk = Blk.none)))) := by
  cases h with
  | badOp h =>
    refine ⟨rfl, Or.inl ⟨rfl, rfl, rfl, ?_⟩⟩
    rintro ⟨o1, o2, h1, h2, -⟩
    rcases h with ⟨e, h⟩ | ⟨e, h⟩
    · rw [h1] at h; cases h
    · rw [h2] at h; cases h
  | regular o1 o2 h1 h2 ht =>
    have := hs.type
    rw [ht] at this
    simp at this
  | one o1 o2 h1 h2 ht x hx => exact two_not hs.type ht
  | two o1 o2 h1 h2 ht x hx =>
    obtain ⟨hrx, hh⟩ := serve_next2 (hs.shrink o1 o2) (parseBlockOp_num h2) hr hso hx
    refine ⟨hrx, ?_⟩
    rcases hh with ⟨e1, e2, e3, e4⟩ | ⟨e1, e2, e3⟩ | ⟨e1, e2, e3⟩
    · refine Or.inl ⟨e1, e2, e3, ?_⟩
      rintro ⟨p1, p2, g1, g2, g3, g4, g5⟩
      rw [h2] at g2
      cases g2
      exact e4 ⟨g3, g4, g5⟩
    · refine Or.inr (Or.inl ⟨e1, e2, ?_⟩)
      rintro ⟨g1, g2, p2, szx, g3, g4⟩
      rw [h2] at g3
      cases g3
      exact e3 ⟨g1, g2, szx, g4⟩
    · exact Or.inr (Or.inr ⟨o2, h2, e1, e2, e3⟩)

theorem generate_next {env : Env} {t : Trans} {L : Large} {m : Msg} {r : BRes} {o : List Obs} (hk : AllKnown m)
    (hb : t.blk.type ≠ .regular) (h : generate env t L m = .ok (r, o)) :
    nextBlock env t.blk L m create = .ok r ∧ o = [] := by
  unfold generate at h
  rw [if_neg (by rw [checkCritical_ne]; exact fun h => h hk), if_pos hb] at h
  split at h
  · rename_i r' hr
    cases h
    exact ⟨hr, rfl⟩
  · cases h
  · cases h

theorem NoBlock2.create : NoBlock2 Msg.create := by intro o ho; cases ho

/-- The responses while a body is sent. -/
def ServeMsg (body : Bytes) (fin limit : Nat) (x : Msg) : Prop :=
  x.codeClass = 4 ∨ ∃ num size, size ≤ limit ∧ CarriesBlock body fin num size x

/-- The transfer while a body is sent. -/
def ServeBlk (body : Bytes) (fin limit : Nat) (b : Blk) : Prop :=
  b.type = .regular ∨ ∃ method uri next size, size ≤ limit ∧ ServingT method uri body fin next size b

theorem CarriesBlock.final {body : Bytes} {fin num size : Nat} {x : Msg} {sepList : List Bytes} {env : Env} {id : Nat} {m : Msg}
    (h : CarriesBlock body fin num size x) : CarriesBlock body fin num size (Server.final sepList env id m x) :=
  ⟨h.cls, h.detail, h.option, h.inside, h.payload⟩

theorem sizeOf2_le (o : Option Block) (size : Nat) : sizeOf2 o size ≤ size := by
  unfold sizeOf2
  split <;> omega

theorem ServingT.not_regular {method : Nat} {uri body : Bytes} {fin next size : Nat} {b : Blk}
    (h : ServingT method uri body fin next size b) : b.type ≠ .regular := by
  intro h'
  have := h.type
  rw [h'] at this
  simp at this

theorem serve_res {env : Env} {opMem : Bool} {again : Blk → Large → Msg → Out BRes} {b : Blk} {L : Large} {req resp : Msg} {x : BRes}
    {uri0 body : Bytes} {method fin next size limit : Nat} (hs : ServingT method uri0 body fin next size b) (hl : size ≤ limit)
    (hr : NoBlock2 resp) (hso : Sorted resp.ops) (h : NextStep env opMem again b L req resp x) (he : x.err = none) :
    ServeMsg body fin limit x.resp ∧ ServeBlk body fin limit x.blk := by
  obtain ⟨-, ⟨e1, e2, e3, -⟩ | ⟨e1, -⟩ | ⟨o2, -, e1, -, e3, -, e5⟩⟩ := serve_step hs hr hso h
  · rw [e2, e3]
    exact ⟨Or.inl rfl, Or.inl rfl⟩
  · exact absurd he e1
  · have := sizeOf2_le o2 size
    refine ⟨Or.inr ⟨_, _, by omega, e3⟩, ?_⟩
    rcases e5 with ⟨-, h⟩ | ⟨-, h⟩
    · exact Or.inr ⟨_, _, _, _, by omega, h⟩
    · rw [h]; exact Or.inl rfl

theorem serve_track (body : Bytes) (fin limit : Nat) (env : Env) :
    TrackOK (ServeMsg body fin limit) (ServeBlk body fin limit) env := by
  refine ⟨Or.inl rfl, ?_, ?_⟩
  · intro t L m r hB hg he
    by_cases hk : AllKnown m
    · rcases hB with hB | ⟨method, uri, next, size, hl, hs⟩
      · have := generate_call hk hB hg
        cases this
      · have hn := (generate_next hk hs.not_regular hg).1
        exact serve_res hs hl NoBlock2.create (by simp [create, destroyed, Sorted]) (nextBlockStep_cases hn) he
    · obtain ⟨-, -, h3, -, h5⟩ := generate_bad hk hg
      rw [h3]
      refine ⟨?_, hB⟩
      rcases h5 with ⟨-, -, h⟩ | ⟨-, h⟩
      · rw [h]; exact Or.inl rfl
      · rw [h] at he; cases he
  · intro sepList id m x hx
    rcases hx with hx | ⟨num, size, h1, h2⟩
    · exact Or.inl hx
    · exact Or.inr ⟨num, size, h1, h2.final⟩

/-- The beginning of the answer to a GET request. -/
theorem handleBlockwise_get {env : Env} {b : Blk} {L : Large} {req resp : Msg} {b1 b2 : Nat} {body : Bytes} {bodyLen : Nat}
    {rx : Option Nat} {x : BRes} (hg : req.codeDetail = 1)
    (h : handleBlockwise env b L req resp b1 b2 body bodyLen rx = .ok x) :
    (x.err ≠ none ∧ x.blk = Blk.none ∧ x.rx = [] ∧
      (badSize b1 = true ∨ badSize b2 = true ∨ bodyLen > (clearBlockwise b L).2.pool.len ∨
        ((clearBlockwise b L).2.alloc bodyLen).1 = none)) ∨
    ∃ blk L', ServingT 1 (cpath 256 req.ops) (body.take bodyLen) 5 0 b2 blk ∧ nextBlock env blk L' req resp = .ok x := by
  unfold handleBlockwise at h
  simp only at h
  split at h
  · rename_i hb; cases h; exact Or.inl ⟨by simp, rfl, rfl, Or.inl hb⟩
  split at h
  · rename_i hb; cases h; exact Or.inl ⟨by simp, rfl, rfl, Or.inr (Or.inl hb)⟩
  split at h
  · rename_i hb; cases h; exact Or.inl ⟨by simp, rfl, rfl, Or.inr (Or.inr (Or.inl hb))⟩
  split at h
  · rename_i hb; cases h; exact Or.inl ⟨by simp, rfl, rfl, Or.inr (Or.inr (Or.inr (by rw [hb])))⟩
  rename_i hlen _ p L' hal
  split at h
  · cases h
  · cases h
  rename_i src hsrc
  split at h
  · cases h
  · cases h
  rename_i bytes hbytes
  rw [uriStr_eq _ _ (by decide)] at h
  refine Or.inr ⟨_, L', ?_, h⟩
  have hsrc' : bodyLen ≤ body.length ∧ src = body.take bodyLen := by
    unfold rds at hsrc
    split at hsrc
    · rename_i hle; cases hsrc; exact ⟨hle, rfl⟩
    · cases hsrc
  obtain ⟨g1, g2⟩ := wrs_eq_ok.1 hbytes
  have hsl : src.length = bodyLen := by rw [hsrc'.2, List.length_take]; omega
  have hbl := wrs_length hbytes
  refine ⟨Or.inl rfl, rfl, rfl, ⟨p, bytes, rfl, ?_, ?_⟩, rfl, Nat.zero_le _, rfl, rfl, (show (0 : Nat) < 32 by decide)⟩
  · simp only
    omega
  · simp only
    rw [g2, ← hsrc'.2, ← hsl]
    simp

theorem generate_app {env : Env} {t : Trans} {L : Large} {m : Msg} {r : BRes} {o : List Obs} {resp : Msg} {b1 b2 : Nat} {body : Bytes}
    {bodyLen : Nat} {rx : Option Nat} (hb : t.blk.type = .regular) (hk : AllKnown m)
    (hh : env.handle t m = .blockwise resp b1 b2 body bodyLen rx)
    (h : generate env t L m = .ok (r, o)) : handleBlockwise env t.blk L m resp b1 b2 body bodyLen rx = .ok r := by
  unfold generate at h
  rw [if_neg (by rw [checkCritical_ne]; exact fun h => h hk), if_neg (by simp [hb]), hh] at h
  simp only at h
  split at h
  · rename_i r' hr
    cases h
    exact hr
  · cases h
  · cases h

/-- A response with one short option fits if its payload is short. -/
theorem sendable_one {x : Msg} {op : Op} (hops : x.ops = [op]) (hv : op.val.length ≤ 12) (hs : Shape x) (htk : x.token.length ≤ 8)
    (hp : x.payload.length ≤ 1024) : Sendable x := by
  have hlen : (enc x).length = 4 + x.token.length + (encOps 0 x.ops).length + (encPayload x).length := by
    simp only [enc, List.length_append, encHdr_length]
  have hpl : (encPayload x).length ≤ 1025 := by
    unfold encPayload
    split <;> simp <;> omega
  have hol : (encOps 0 x.ops).length ≤ 20 := by
    rw [hops]
    simp only [encOps, List.append_nil, encOp_length, Op.len]
    have : ∀ k, extSize k ≤ 2 := by intro k; unfold extSize; split <;> (try split) <;> omega
    have h1 := this (deltaOf op 0)
    have h2 := this op.val.length
    omega
  obtain ⟨b', hb⟩ := format_room (m := x) (buf := List.replicate BUF_LEN 0) (len := BUF_LEN)
    (by rw [List.length_replicate]; exact Nat.le_refl _) (by decide) hs
    (by rw [hops]; simp; omega) (by rw [hops] at *; simp only [BUF_LEN, List.length_cons, List.length_nil]; omega)
  exact ⟨_, hb⟩

theorem Extends2.sendable {m x : Msg} (he : Extends2 m x) (ho : m.ops = []) {sepList : List Bytes} {env : Env} {id : Nat}
    {req : Msg} (hf : Fields req) : Sendable (final sepList env id req x) := by
  obtain ⟨val, pl, d, rfl, hv, hp⟩ := he
  refine sendable_one (op := ⟨BLOCK2, val⟩) (by simp [final, withCode, setPayload, addOp, ho, opListAdd]) (by simp only; omega)
    ⟨?_, ?_⟩ hf.token hp
  · rintro ⟨h, -⟩; cases h
  · intro h
    simp only [final] at h
    split at h
    · split at h <;> cases h
    · cases h

theorem parseBlockOp_size : ∀ {ops : List Op} {type : Nat} {b : Block}, parseBlockOp type ops = .ok (some b) → BlockSize b.size
  | [], _, _, h => by cases h
  | op :: ops, type, b, h => by
    unfold parseBlockOp at h
    split at h
    · obtain ⟨c, hb, h⟩ := Out.bind_eq_ok.1 h
      cases h
      have fin : ∀ k, 1 <<< (k + 4) ≤ 1024 → BlockSize (1 <<< (k + 4)) := by
        intro k hk
        refine ⟨k, ?_, by rw [Nat.shiftLeft_eq, Nat.one_mul]⟩
        apply Classical.byContradiction
        intro hn
        have : 2 ^ 11 ≤ 2 ^ (k + 4) := Nat.pow_le_pow_right (by decide) (by omega)
        rw [Nat.shiftLeft_eq, Nat.one_mul] at hk
        omega
      unfold parseBlockVal at hb
      obtain ⟨c', hc, h⟩ := Out.bind_eq_ok.1 hb
      split at h
      · cases h
      cases h
      split at hc
      · obtain ⟨v0, -, hc⟩ := Out.bind_eq_ok.1 hc
        cases hc
        exact fin _ (by simp only at *; omega)
      · obtain ⟨v1, -, hc⟩ := Out.bind_eq_ok.1 hc
        obtain ⟨v0, -, hc⟩ := Out.bind_eq_ok.1 hc
        cases hc
        exact fin _ (by simp only at *; omega)
      · obtain ⟨v2, -, hc⟩ := Out.bind_eq_ok.1 hc
        obtain ⟨v0, -, hc⟩ := Out.bind_eq_ok.1 hc
        obtain ⟨v1, -, hc⟩ := Out.bind_eq_ok.1 hc
        cases hc
        exact fin _ (by simp only at *; omega)
    · exact parseBlockOp_size h

theorem BlockSize.min {x y : Nat} (hx : BlockSize x) (hy : BlockSize y) : BlockSize (min x y) := by
  by_cases h : x ≤ y
  · rw [Nat.min_eq_left h]; exact hx
  · rw [Nat.min_eq_right (by omega)]; exact hy

theorem BlockSize.szx {x : Nat} (h : BlockSize x) : ∃ szx, calcBlockSzx x = .ok szx := by
  obtain ⟨k, h⟩ := h
  exact ⟨k, calcBlockSzx_ok.2 h⟩

theorem BlockSize.pos {x : Nat} (h : BlockSize x) : 0 < x := by
  obtain ⟨k, -, rfl⟩ := h
  exact Nat.two_pow_pos _

/-- The blocks in order make up the body. -/
theorem blocks_concat (body : Bytes) (size : Nat) (hs : 0 < size) :
    (List.range (body.length / size + 1)).flatMap (fun i => (body.drop (i * size)).take size) = body := by
  have key : ∀ n, (List.range n).flatMap (fun i => (body.drop (i * size)).take size) = body.take (n * size) := by
    intro n
    induction n with
    | zero => simp
    | succ n ih =>
      rw [List.range_succ, List.flatMap_append, ih, Nat.add_mul, Nat.one_mul, List.take_add]
      simp
  rw [key, List.take_of_length_le]
  have := Nat.lt_div_mul_add (a := body.length) hs
  rw [Nat.add_mul]
  omega

theorem CarriesBlock.detail_lt {body : Bytes} {fin num size : Nat} {x : Msg} (h : CarriesBlock body fin num size x) (hf : fin < 32) :
    x.codeDetail < 32 := by
  rw [h.detail]; split <;> omega

theorem ServingT.fin_lt {method : Nat} {uri body : Bytes} {fin next size : Nat} {b : Blk}
    (h : ServingT method uri body fin next size b) : fin < 32 := by
  have h1 := h.last
  have h2 := h.detail
  split at h1 <;> omega

theorem final_answers' {sepList : List Bytes} {env : Env} {id : Nat} {m resp : Msg} (hf : Fields m) (ha : Asks m) :
    ∃ h, header (enc (final sepList env id m resp)) = some h ∧ Answers sepList m h :=
  ⟨_, final_header hf, (final_answers ha.1).1⟩

theorem copy_req {m q : Msg} (hf : Fields m) (h : copy create m = .ok q) : q.ver ≠ 0 ∧ q.msgId = m.msgId := by
  obtain ⟨c1, -, -, -, c5, -⟩ := copy_ok_fields h
  rw [c1, hf.ver]
  exact ⟨by decide, c5⟩

/-- A request for the next block: the response before its id and type are chosen. -/
theorem serve_next_final {sx : Bool} {s s' : Srv} {env : Env} {a : Addr} {d : Bytes} {o : List Obs} {e : Option Err} {m : Msg}
    {id method fin next size num sz : Nat} {uri body : Bytes} (ht : Tidy s) (h : StepRel sx s env (.datagram a d) s' o e)
    (hs : Serving s a id method uri body fin next size) (hsz : BlockSize size) (hf : NoFault env) (hm : Carries sx d m)
    (hq : Asks m) (hid : m.msgId ≠ id) (hk : AllKnown m) (hme : m.codeDetail = method) (hu : cpath 256 m.ops = uri)
    (h1 : Block1OK m) (h2 : AsksBlock2 m num sz) (hn : num * min sz size = next) :
    e = none ∧ ∃ y, sends o = (if m.type = CON ∧ Separate s.sepList m then [(a, emptyAck m.msgId)] else []) ++
        [(a, enc (final s.sepList env s.msgId m y))] ∧
      Sendable (final s.sepList env s.msgId m y) ∧ Extends2 create y ∧ CarriesBlock body fin num (min sz size) y ∧
      ((num + 1) * min sz size ≤ body.length →
        Serving s' a m.msgId method uri body fin (next + min sz size) (min sz size)) := by
  obtain ⟨t, hat, hv, hti, hT⟩ := hs
  obtain ⟨u, L, r, o2, hu', hta, hg, -, -, hres⟩ := new_request ht h hm hf.arrives hf.create (fun _ => hf.ack) hq
    (fun hnone => by rw [hat] at hnone; cases hnone)
    (fun t' ht' => by
      rw [hat] at ht'
      cases ht'
      cases hmr : matchReq t m with
      | false => rfl
      | true => exact absurd ((matchReq_iff.1 hmr).2.symm.trans hti) hid)
  have hut : u = t := by
    rcases hu' with ⟨hu', -⟩ | ⟨hu', -⟩
    · rw [hat] at hu'; cases hu'; rfl
    · rw [hat] at hu'; cases hu'
  subst hut
  obtain ⟨more, h2⟩ := h2
  obtain ⟨o1, h1⟩ := h1
  have hmin : BlockSize (min sz size) := (parseBlockOp_size h2).min hsz
  obtain ⟨szx, hszx⟩ := hmin.szx
  have hnb := (generate_next hk (t := cleared env u) hT.not_regular hg).1
  obtain ⟨-, ⟨e1, e2, e3, e4⟩ | ⟨e1, e2, e3⟩ | ⟨o2', g1, g2, g3, g4, g5, g6⟩⟩ :=
    serve_step (b := (cleared env u).blk) hT NoBlock2.create (by simp [create, destroyed, Sorted]) (nextBlockStep_cases hnb)
  · exact absurd ⟨o1, _, h1, h2, hme, hu, hn⟩ e4
  · exact absurd ⟨hf.op1, hf.pay, _, szx, h2, hszx⟩ e3
  · rw [h2] at g1
    cases g1
    have hsend := g5.sendable (sepList := s.sepList) (env := env) (id := s.msgId) (req := m) rfl hm.fields.1
    rcases hres with ⟨x, k1, -⟩ | ⟨-, k1, -⟩ | ⟨-, k1, k2, k3, k4, k5, q, p, k6, k7, k8⟩
    · rw [g2] at k1; cases k1
    · exfalso
      have c2 := g4.cls
      have d2 := g4.detail_lt hT.fin_lt
      exact k1 hf.send hf.copyReq hf.copyResp hf.timer (by omega) d2 hsend
    · refine ⟨k1, _, k3, hsend, g5, g4, ?_⟩
      intro hle
      rcases g6 with ⟨-, g6⟩ | ⟨g6, -⟩
      · obtain ⟨q1, q2⟩ := copy_req hm.fields.1 k6
        exact ⟨_, k8, q1, q2, g6⟩
      · exact absurd hle (Nat.not_le.2 g6)

/-- A request for the next block. -/
theorem serve_next {sx : Bool} {s s' : Srv} {env : Env} {a : Addr} {d : Bytes} {o : List Obs} {e : Option Err} {m : Msg}
    {id method fin next size num sz : Nat} {uri body : Bytes} (ht : Tidy s) (h : StepRel sx s env (.datagram a d) s' o e)
    (hs : Serving s a id method uri body fin next size) (hsz : BlockSize size) (hf : NoFault env) (hm : Carries sx d m)
    (hq : Asks m) (hid : m.msgId ≠ id) (hk : AllKnown m) (hme : m.codeDetail = method) (hu : cpath 256 m.ops = uri)
    (h1 : Block1OK m) (h2 : AsksBlock2 m num sz) (hn : num * min sz size = next) :
    e = none ∧ ∃ x r, sends o = (if m.type = CON ∧ Separate s.sepList m then [(a, emptyAck m.msgId)] else []) ++ [(a, r)] ∧
      Formats x r ∧ (∃ h, header r = some h ∧ Answers s.sepList m h) ∧ CarriesBlock body fin num (min sz size) x ∧
      ((num + 1) * min sz size ≤ body.length →
        Serving s' a m.msgId method uri body fin (next + min sz size) (min sz size)) := by
  obtain ⟨h1, y, h2, h3, -, h4, h5⟩ := serve_next_final ht h hs hsz hf hm hq hid hk hme hu h1 h2 hn
  exact ⟨h1, _, _, h2, h3.formats, final_answers' hm.fields.1 hq, h4.final, h5⟩

theorem room_for {base nbuf len : Nat} {s : Srv} {env : Env} {a : Addr} {t : Trans} {L : Large} (hT : Tidy s) (hi : SInv base nbuf len s) (h8 : 8 ≤ nbuf)
    (ht : (ofAddr s a = some t ∧ L = s.large) ∨ (ofAddr s a = none ∧ t = fresh env a ∧ L = (makeRoom s).2.large))
    (hr : t.blk.type = .regular) {l : Nat} (hl : l ≤ len) :
    (clearBlockwise t.blk L).2 = L ∧ L.pool.len = len ∧ ∃ p L', L.alloc l = (some p, L') := by
  have gen : ∀ (s1 : Srv) (u : Trans), SInv base nbuf len s1 → s1.trans.length = NUM_TRANS → u ∈ s1.trans → own u.blk = [] →
      s1.large.pool.len = len ∧ ∃ p L', s1.large.alloc l = (some p, L') := by
    intro s1 u hs1 hlen hu hn
    refine ⟨hs1.inv.rel.len_eq, hs1.inv.room ?_ hl⟩
    obtain ⟨as, bs, e⟩ := List.append_of_mem hu
    rw [e] at hlen ⊢
    have h1 := owned_length as
    have h2 := owned_length bs
    unfold owned at h1 h2 ⊢
    rw [List.flatMap_append, List.flatMap_cons, hn]
    simp only [List.length_append, List.length_cons, List.length_nil] at hlen ⊢
    have : NUM_TRANS = 8 := rfl
    omega
  rcases ht with ⟨ht, rfl⟩ | ⟨-, rfl, rfl⟩
  · obtain ⟨i, hi', -, -⟩ := look_some ht
    have hmem := List.mem_of_getElem? hi'
    have hb := (hi.hold t hmem).1 hr
    refine ⟨by simp [clearBlockwise, hb], gen s t hi hT.len hmem (by simp [own, hb])⟩
  · obtain ⟨h1, u, h2, h3⟩ := hi.makeRoom hT
    refine ⟨rfl, gen _ u h1 ?_ (List.mem_of_getElem? h2) (by rw [h3]; rfl)⟩
    rw [(makeRoom_eq s).2.2.1, hT.len]

theorem badSize_ok {n : Nat} (h : BlockSize n) : badSize n = false := by
  obtain ⟨k, hk⟩ := h.szx
  simp [badSize, hk]

/-- The first block: the response before its id and type are chosen. -/
theorem serve_start_final {sx : Bool} {s s' : Srv} {env : Env} {a : Addr} {d : Bytes} {o : List Obs} {e : Option Err} {m resp : Msg}
    {base nbuf len b1 b2 bodyLen : Nat} {body : Bytes} {rx : Option Nat} (ht : Tidy s) (hi : SInv base nbuf len s) (h8 : 8 ≤ nbuf)
    (h : StepRel sx s env (.datagram a d) s' o e) (htr : ¬ Transfer s a) (hf : NoFault env) (hm : Carries sx d m)
    (hq : Asks m) (h0 : m.msgId ≠ 0) (hnew : ∀ t, ofAddr s a = some t → matchReq t m = false) (hk : AllKnown m)
    (hme : m.codeDetail = 1) (hh : ∀ t, env.handle t m = .blockwise resp b1 b2 body bodyLen rx) (hro : resp.ops = [])
    (hb1 : b1 = 0 ∨ BlockSize b1) (hb2 : BlockSize b2) (hlen : bodyLen ≤ len)
    (h1 : Block1OK m) (o2 : Option Block) (h2 : parseBlockOp BLOCK2 m.ops = .ok o2) (hn : numOf o2 = 0) :
    e = none ∧ ∃ y, sends o = (if m.type = CON ∧ Separate s.sepList m then [(a, emptyAck m.msgId)] else []) ++
        [(a, enc (final s.sepList env s.msgId m y))] ∧
      Sendable (final s.sepList env s.msgId m y) ∧ Extends2 resp y ∧ CarriesBlock (body.take bodyLen) 5 0 (sizeOf2 o2 b2) y ∧
      (sizeOf2 o2 b2 ≤ (body.take bodyLen).length →
        Serving s' a m.msgId 1 (cpath 256 m.ops) (body.take bodyLen) 5 (sizeOf2 o2 b2) (sizeOf2 o2 b2)) := by
  obtain ⟨u, L, r, o2', hu', hta, hg, -, -, hres⟩ := new_request ht h hm hf.arrives hf.create (fun _ => hf.ack) hq
    (fun _ => h0) hnew
  have hreg : u.blk.type = .regular := by
    rcases hu' with ⟨h1, -⟩ | ⟨-, rfl, -⟩
    · apply Classical.byContradiction
      intro hne
      exact htr ⟨u, h1, hne⟩
    · rfl
  obtain ⟨r1, r2, p, L', r3⟩ := room_for (l := bodyLen) ht hi h8 hu' hreg hlen
  have hg' := generate_app (t := cleared env u) hreg hk (hh _) hg
  have hmin : BlockSize (sizeOf2 o2 b2) := by
    cases o2 with
    | none => exact hb2
    | some b => exact (parseBlockOp_size h2).min hb2
  obtain ⟨szx, hszx⟩ := hmin.szx
  rcases handleBlockwise_get hme hg' with ⟨-, -, -, hx⟩ | ⟨blk, L2, hT, hnb⟩
  · exfalso
    change badSize b1 = true ∨ badSize b2 = true ∨ bodyLen > (clearBlockwise u.blk L).2.pool.len ∨
        ((clearBlockwise u.blk L).2.alloc bodyLen).1 = none at hx
    rw [r1, r2, r3, badSize_ok hb2] at hx
    rcases hx with hx | hx | hx | hx
    · rcases hb1 with rfl | hb1
      · simp [badSize] at hx
      · rw [badSize_ok hb1] at hx; cases hx
    · cases hx
    · omega
    · cases hx
  obtain ⟨o1, h1⟩ := h1
  obtain ⟨-, ⟨e1, e2, e3, e4⟩ | ⟨e1, e2, e3⟩ | ⟨o2'', g1, g2, g3, g4, g5, g6⟩⟩ :=
    serve_step hT (resp := resp) (by intro o ho; rw [hro] at ho; cases ho) (by rw [hro]; simp [Sorted]) (nextBlockStep_cases hnb)
  · exact absurd ⟨o1, _, h1, h2, hme, rfl, by rw [hn, Nat.zero_mul]⟩ e4
  · exact absurd ⟨hf.op1, hf.pay, _, szx, h2, hszx⟩ e3
  · rw [h2] at g1
    cases g1
    rw [hn] at g3 g4 g6
    have hsend := g5.sendable (sepList := s.sepList) (env := env) (id := s.msgId) (req := m) hro hm.fields.1
    rcases hres with ⟨x, k1, -⟩ | ⟨-, k1, -⟩ | ⟨-, k1, k2, k3, k4, k5, q, p, k6, k7, k8⟩
    · rw [g2] at k1; cases k1
    · exfalso
      have c2 := g4.cls
      have d2 := g4.detail_lt hT.fin_lt
      exact k1 hf.send hf.copyReq hf.copyResp hf.timer (by omega) d2 hsend
    · refine ⟨k1, _, k3, hsend, g5, g4, ?_⟩
      intro hle
      rcases g6 with ⟨-, g6⟩ | ⟨g6, -⟩
      · obtain ⟨q1, q2⟩ := copy_req hm.fields.1 k6
        rw [Nat.zero_add] at g6
        exact ⟨_, k8, q1, q2, g6⟩
      · rw [Nat.zero_add, Nat.one_mul] at g6
        exact absurd hle (Nat.not_le.2 g6)

/-- The first block. -/
theorem serve_start {sx : Bool} {s s' : Srv} {env : Env} {a : Addr} {d : Bytes} {o : List Obs} {e : Option Err} {m resp : Msg}
    {base nbuf len b1 b2 bodyLen : Nat} {body : Bytes} {rx : Option Nat} (ht : Tidy s) (hi : SInv base nbuf len s) (h8 : 8 ≤ nbuf)
    (h : StepRel sx s env (.datagram a d) s' o e) (htr : ¬ Transfer s a) (hf : NoFault env) (hm : Carries sx d m)
    (hq : Asks m) (h0 : m.msgId ≠ 0) (hnew : ∀ t, ofAddr s a = some t → matchReq t m = false) (hk : AllKnown m)
    (hme : m.codeDetail = 1) (hh : ∀ t, env.handle t m = .blockwise resp b1 b2 body bodyLen rx) (hro : resp.ops = [])
    (hb1 : b1 = 0 ∨ BlockSize b1) (hb2 : BlockSize b2) (hlen : bodyLen ≤ len)
    (h1 : Block1OK m) (o2 : Option Block) (h2 : parseBlockOp BLOCK2 m.ops = .ok o2) (hn : numOf o2 = 0) :
    e = none ∧ ∃ x r, sends o = (if m.type = CON ∧ Separate s.sepList m then [(a, emptyAck m.msgId)] else []) ++ [(a, r)] ∧
      Formats x r ∧ (∃ h, header r = some h ∧ Answers s.sepList m h) ∧
      CarriesBlock (body.take bodyLen) 5 0 (sizeOf2 o2 b2) x ∧
      (sizeOf2 o2 b2 ≤ (body.take bodyLen).length →
        Serving s' a m.msgId 1 (cpath 256 m.ops) (body.take bodyLen) 5 (sizeOf2 o2 b2) (sizeOf2 o2 b2)) := by
  obtain ⟨h1, y, h2, h3, -, h4, h5⟩ := serve_start_final ht hi h8 h htr hf hm hq h0 hnew hk hme hh hro hb1 hb2 hlen h1 o2 h2 hn
  exact ⟨h1, _, _, h2, h3.formats, final_answers' hm.fields.1 hq, h4.final, h5⟩

/-- The transfer of `a` has the property `B`. -/
def InTransfer (B : Blk → Prop) (s : Srv) (a : Addr) (id : Nat) : Prop :=
  ∃ t, ofAddr s a = some t ∧ t.req.ver ≠ 0 ∧ t.req.msgId = id ∧ B t.blk

/-- Repetitions of the last request, other messages from the sender, the timer and other
senders do not disturb a transfer, as long as the sender is remembered. -/
theorem InTransfer.undisturbed {sx : Bool} {s s' : Srv} {env : Env} {ev : Event} {o : List Obs} {e : Option Err} {a : Addr}
    {id : Nat} {B : Blk → Prop} (hs : InTransfer B s a id) (ht : Tidy s)
    (h : StepRel sx s env ev s' o e) (hk : ofAddr s' a ≠ none) (hm : OnlyRepeats sx a id (env, ev)) :
    InTransfer B s' a id := by
  obtain ⟨t, hat, h1, h2, h3⟩ := hs
  have same : ∀ v, ofAddr s' a = some v → v.req = t.req → v.blk = t.blk →
      InTransfer B s' a id := by
    intro v hv e1 e2
    exact ⟨v, hv, by rw [e1]; exact h1, by rw [e1]; exact h2, by rw [e2]; exact h3⟩
  cases step_view h ht a with
  | untouched h1 ho hd _ => exact same t (h1.trans hat) rfl rfl
  | evicted b d hb hev h1 => exact absurd h1 hk
  | timer i u r hev hi hu hta hact har hout ho he h' hid =>
    rw [hat] at hu
    cases hu
    by_cases hra : r.trans.active = true
    · rw [if_pos hra] at h'
      have : r.trans.req = t.req ∧ r.trans.blk = t.blk := by
        cases hout <;> first | exact ⟨rfl, rfl⟩ | simp [Trans.zero] at hra
      exact same _ h' this.1 this.2
    · rw [if_neg hra] at h'; exact absurd h' hk
  | exchange d u r L hev h0 hu hta hact hout ho he h' hid =>
    subst hev
    have hu : ofAddr s a = some u := by
      rcases hu with hu | ⟨hu, -⟩
      · exact hu
      · rw [hat] at hu; cases hu
    rw [hat] at hu
    cases hu
    by_cases hra : r.trans.active = true
    · rw [if_pos hra] at h'
      cases hout with
      | again h => exact same _ h' rfl rfl
      | dupAck => exact same _ h' rfl rfl
      | dupResp => exact same _ h' rfl rfl
      | dupNon => exact same _ h' rfl rfl
      | acked => exact same _ h' rfl rfl
      | done m hgot hn hp r' o2 hg he hs q p hq hp2 =>
        have hi := hm m (arrived_got h0 hgot) ⟨hn.type, hn.cls⟩
        have hf := hn.fresh
        rw [matchReq_of h1 h2 hi] at hf
        cases hf
      | _ => simp [Trans.zero] at hra
    · rw [if_neg hra] at h'; exact absurd h' hk

theorem InTransfer.run {sx : Bool} {s s' : Srv} {evs : List (Env × Event)} {tr : List (List Obs)} {a : Addr}
    {id : Nat} {B : Blk → Prop} (hs : InTransfer B s a id)
    (ht : Tidy s) (h : run sx s evs = .ok (s', tr)) (hk : Kept sx a s evs)
    (hm : ∀ x ∈ evs, OnlyRepeats sx a id x) : InTransfer B s' a id := by
  induction evs generalizing s tr with
  | nil => cases h; exact hs
  | cons x xs ih =>
    obtain ⟨env, ev⟩ := x
    obtain ⟨s1, o, e, t', h1, h2, rfl⟩ := run_cons h
    have hk1 := hk.2 s1 o e h1
    have hr := step_rel h1
    exact ih (hs.undisturbed ht hr hk1.now (hm _ (by simp))) (hr.tidy ht) h2 hk1 (fun x hx => hm x (by simp [hx]))

theorem Serving.run {sx : Bool} {s s' : Srv} {evs : List (Env × Event)} {tr : List (List Obs)} {a : Addr}
    {id method fin next size : Nat} {uri body : Bytes} (hs : Serving s a id method uri body fin next size)
    (ht : Tidy s) (h : run sx s evs = .ok (s', tr)) (hk : Kept sx a s evs)
    (hm : ∀ x ∈ evs, OnlyRepeats sx a id x) : Serving s' a id method uri body fin next size :=
  InTransfer.run (B := ServingT method uri body fin next size) hs ht h hk hm

theorem parseBlockOp_none : ∀ {ops : List Op}, (∀ o ∈ ops, o.num ≠ BLOCK2) → parseBlockOp BLOCK2 ops = .ok none
  | [], _ => rfl
  | op :: ops, h => by
    unfold parseBlockOp
    rw [if_neg]
    · exact parseBlockOp_none (fun o ho => h o (by simp [ho]))
    · rintro (⟨-, h'⟩ | ⟨h', -⟩)
      · revert h'; decide
      · exact h op (by simp) h'

theorem Kept.append {sx : Bool} {a : Addr} : ∀ {xs ys : List (Env × Event)} {s s1 : Srv} {t : List (List Obs)},
    Kept sx a s (xs ++ ys) → run sx s xs = .ok (s1, t) → Kept sx a s xs ∧ Kept sx a s1 ys
  | [], ys, s, s1, t, hk, h => by cases h; exact ⟨hk.now, hk⟩
  | (env, ev) :: xs, ys, s, s1, t, hk, h => by
    obtain ⟨s2, o, e, t', h1, h2, rfl⟩ := run_cons h
    obtain ⟨g1, g2⟩ := Kept.append (hk.2 s2 o e h1) h2
    refine ⟨⟨hk.1, ?_⟩, g2⟩
    intro s3 o3 e3 h3
    rw [h1] at h3
    cases h3
    exact g1

theorem run_tidy {sx : Bool} : ∀ {xs : List (Env × Event)} {s s1 : Srv} {t : List (List Obs)}, Tidy s → run sx s xs = .ok (s1, t) → Tidy s1
  | [], s, s1, t, ht, h => by cases h; exact ht
  | (env, ev) :: xs, s, s1, t, ht, h => by
    obtain ⟨s2, o, e, t', h1, h2, rfl⟩ := run_cons h
    exact run_tidy ((step_rel h1).tidy ht) h2

/-- The rest of a download. -/
theorem serve_all {sx : Bool} {a : Addr} {uri body : Bytes} {fin method size : Nat} (hsz : BlockSize size) :
    ∀ (rs : List Asked) (s s' : Srv) (tr : List (List Obs)) (id i : Nat), Tidy s →
    Serving s a id method uri body fin (i * size) size → i + rs.length = body.length / size + 1 →
    (∀ j q, rs[j]? = some q → AsksFor sx method uri q ∧ AsksBlock2 q.m (i + j) size) →
    Chain sx a id rs → Kept sx a s (script a rs) → run sx s (script a rs) = .ok (s', tr) →
    ∃ xs : List Msg, xs.length = rs.length ∧
      ∀ j x, xs[j]? = some x → CarriesBlock body fin (i + j) size x ∧ ∃ o ∈ tr, ∃ r, (a, r) ∈ sends o ∧ Formats x r
  | [], s, s', tr, id, i, _, _, _, _, _, _, _ => ⟨[], rfl, by simp⟩
  | q :: rs, s, s', tr, id, i, ht, hs, hlen, hq, hch, hk, hrun => by
    obtain ⟨hA, hB⟩ := hq 0 q rfl
    obtain ⟨c1, c2, c3⟩ := hch
    have e1 : script a (q :: rs) = (q.env, .datagram a q.d) :: (q.mid ++ script a rs) := by simp [script]
    rw [e1] at hrun hk
    obtain ⟨s1, o, e, tr1, g1, g2, rfl⟩ := run_cons hrun
    obtain ⟨s2, t2, t3, g3, g4, rfl, -⟩ := run_append g2
    have hr := step_rel g1
    obtain ⟨-, x, r, f1, f2, -, f4, f5⟩ := serve_next ht hr hs hsz hA.noFault hA.carries hA.request.1 c1 hA.known hA.method hA.path
      hA.block1 hB (by rw [Nat.min_self, Nat.add_zero])
    rw [Nat.min_self, Nat.add_zero] at f4
    have hx : CarriesBlock body fin i size x ∧ ∃ o' ∈ o :: (t2 ++ t3), ∃ r, (a, r) ∈ sends o' ∧ Formats x r :=
      ⟨f4, o, by simp, r, by rw [f1]; simp, f2⟩
    by_cases hmore : (i + 1) * size ≤ body.length
    · have hk1 := hk.2 s1 o e g1
      obtain ⟨hkm, hkr⟩ := hk1.append g3
      have hs1 := f5 (by rw [Nat.min_self, Nat.add_zero]; exact hmore)
      rw [Nat.min_self] at hs1
      have hs2 := hs1.run (hr.tidy ht) g3 hkm c2
      have hs2' : Serving s2 a q.m.msgId method uri body fin ((i + 1) * size) size := by
        rw [Nat.add_mul, Nat.one_mul]; exact hs2
      obtain ⟨xs, y1, y2⟩ := serve_all hsz rs s2 s' t3 q.m.msgId (i + 1) (run_tidy (hr.tidy ht) g3) hs2'
        (by simp only [List.length_cons] at hlen; omega)
        (fun j q' hj => by
          have := hq (j + 1) q' (by simpa using hj)
          rw [show i + 1 + j = i + (j + 1) by omega]
          exact this) c3 hkr g4
      refine ⟨x :: xs, by simp [y1], ?_⟩
      intro j y hj
      cases j with
      | zero => simp at hj; subst hj; exact hx
      | succ j =>
        simp at hj
        obtain ⟨z1, o', z2, z3⟩ := y2 j y hj
        rw [show i + (j + 1) = i + 1 + j by omega]
        exact ⟨z1, o', by simp [z2], z3⟩
    · have hrs : rs = [] := by
        have h1 : body.length / size ≤ i := by
          have : body.length / size < i + 1 := by
            rw [Nat.div_lt_iff_lt_mul hsz.pos]
            omega
          omega
        simp only [List.length_cons] at hlen
        exact List.eq_nil_of_length_eq_zero (by omega)
      subst hrs
      refine ⟨[x], rfl, ?_⟩
      intro j y hj
      cases j with
      | zero => simp at hj; subst hj; exact hx
      | succ j => simp at hj

end FreeCoAP.Server
