import Verif.Client.Props
import Verif.Server.LemmasServe

/-! # Blockwise transfers of the client -/

namespace FreeCoAP.Client

open FreeCoAP.Msg
open FreeCoAP.Server (header Header emptyAck reset Built Carries Formats BlockSize joined)

/-- A successful exchange. -/
theorem exchanged {sx px : Bool} {x : XEnv} {req resp : Msg} {o : List Obs} (hr : Built req)
    (h : exchange sx px x req = .ok (o, some (.ok resp))) : Exchanged sx x req resp o := by
  obtain ⟨⟨b, hd, h1, h2, h3, h4, h5⟩, -, h7⟩ := C31_matching_response hr h
  rcases C35_transmitted hr h with ⟨-, e, he⟩ | ⟨b', g1, g2, g3⟩
  · cases he
  rw [g2] at h1
  cases h1
  refine ⟨⟨_, g1, g2, g3⟩, ?_, h7⟩
  rw [(formats_iff.1 g1).2, (built_stamped hr x).header] at h2
  cases h2
  exact ⟨h4.symm, h5⟩

theorem ins_filter_ne (op : Op) (p : Op → Bool) (hp : p op = false) : ∀ l, (ins op l).filter p = l.filter p
  | [] => by simp [ins, hp]
  | x :: xs => by
    unfold ins
    split
    · rw [List.filter_cons, hp]; simp
    · rw [List.filter_cons, List.filter_cons, ins_filter_ne op p hp xs]

theorem others_addOp (m : Msg) (k : Nat) (v : Bytes) (hk : k = BLOCK1 ∨ k = BLOCK2) : others (addOp m k v) = others m := by
  unfold others
  simp only [addOp, opListAdd_eq]
  apply ins_filter_ne
  simp only [decide_eq_false_iff_not]
  rcases hk with rfl | rfl <;> simp

theorem values_addOp_ne (m : Msg) (k j : Nat) (v : Bytes) (h : j ≠ k) : values k (addOp m j v) = values k m := by
  unfold values
  simp only [addOp, opListAdd_eq]
  rw [ins_filter_ne]
  simpa using h

theorem values_addOp (m : Msg) (k : Nat) (v : Bytes) (h : Sorted m.ops) : values k (addOp m k v) = values k m ++ [v] := by
  unfold values
  simp only [addOp, opListAdd_eq]
  rw [ins_filter _ _ _ h, List.filter_append]
  simp

theorem others_plain {m : Msg} (h : NoBlocks m) : others m = m.ops := by
  unfold others
  rw [List.filter_eq_self]
  intro o ho
  simpa using h o ho

theorem values_plain {m : Msg} (h : NoBlocks m) (k : Nat) (hk : k = BLOCK1 ∨ k = BLOCK2) : values k m = [] := by
  unfold values
  rw [List.map_eq_nil_iff, List.filter_eq_nil_iff]
  intro o ho
  have := h o ho
  rcases hk with rfl | rfl
  · simpa using this.1
  · simpa using this.2

theorem div_of_szx {size szx start k : Nat} (hz : calcBlockSzx size = .ok szx) (h : start = k * size) :
    start >>> (szx + 4) = k := by
  have e := (calcBlockSzx_ok.1 hz).2
  have : 0 < size := by rw [e]; exact Nat.two_pow_pos _
  rw [Nat.shiftRight_eq_div_pow, ← e, h, Nat.mul_div_cancel _ this]

theorem BlockSize.of_szx {size szx : Nat} (hz : calcBlockSzx size = .ok szx) : BlockSize size := ⟨szx, calcBlockSzx_ok.1 hz⟩

/-- Of two block sizes the smaller one divides the larger one. -/
theorem BlockSize.dvd {x y : Nat} (hx : BlockSize x) (hy : BlockSize y) (h : x ≤ y) : x ∣ y := by
  obtain ⟨i, -, rfl⟩ := hx
  obtain ⟨j, -, rfl⟩ := hy
  exact Nat.pow_dvd_pow 2 ((Nat.pow_le_pow_iff_right (by decide)).1 h)

theorem rds_eq_ok {mem p : Bytes} {n : Nat} (h : rds mem n = .ok p) : n ≤ mem.length ∧ p = mem.take n := by
  unfold rds at h
  by_cases hl : n ≤ mem.length
  · rw [if_pos hl] at h; cases h; exact ⟨hl, rfl⟩
  · rw [if_neg hl] at h; cases h

theorem formatBlockVal_len {num size : Nat} {more : Bool} {v : Bytes} (h : formatBlockVal 3 num more size = .ok v) : v.length = 3 := by
  unfold formatBlockVal at h
  rw [Out.bind_eq_ok] at h
  obtain ⟨szx, -, h⟩ := h
  simp only at h
  split at h
  · cases h
  · cases h; rfl

/-- The message of a round of an upload. -/
structure Made1 (req : Msg) (size1 size2 start bodyLen : Nat) (body : Bytes) (m : Msg) (n : Nat) : Prop where
  built : Built m
  type : m.type = req.type
  code : m.codeClass = req.codeClass ∧ m.codeDetail = req.codeDetail
  options : others m = req.ops
  len : n = if start + size1 ≥ bodyLen then bodyLen - start else size1
  inside : start + n ≤ body.length ∨ n = 0
  payload : m.payload = (body.drop start).take n
  block1 : ∃ val, values BLOCK1 m = [val] ∧ val.length = 3 ∧ (∀ szx, calcBlockSzx size1 = .ok szx → start >>> (szx + 4) < 2 ^ 20 →
    blockSpec val = some ⟨start >>> (szx + 4), ¬ (start + size1 ≥ bodyLen), size1⟩)
  block2 : if start + size1 ≥ bodyLen then ∃ val, values BLOCK2 m = [val] ∧ val.length = 3 ∧
    (∀ szx, calcBlockSzx size2 = .ok szx → blockSpec val = some ⟨0, false, size2⟩) else values BLOCK2 m = []

theorem message1_ok {b : BEnv} {req m : Msg} {size1 size2 szx start bodyLen n : Nat} {body : Bytes} (hr : Built req)
    (hb : NoBlocks req) (hz : calcBlockSzx size1 = .ok szx)
    (h : message1 b req size1 size2 szx start body bodyLen = .ok (.ok (m, n))) :
    Made1 req size1 size2 start bodyLen body m n := by
  unfold message1 at h
  rw [hr.copy] at h
  simp only at h
  split at h
  · cases h
  split at h
  · cases h
  · cases h
  rename_i val1 hv1
  split at h
  · cases h
  split at h
  · cases h
  · cases h
  rename_i msg hm
  split at h
  · cases h
  · cases h
  rename_i payload hp
  split at h
  · cases h
  cases h
  have hs1 : Built (addOp req BLOCK1 val1) := hr.addOp _ _
  have ho : others (addOp req BLOCK1 val1) = req.ops := by rw [others_addOp _ _ _ (Or.inl rfl), others_plain hb]
  have hv : values BLOCK1 (addOp req BLOCK1 val1) = [val1] := by
    rw [values_addOp _ _ _ hr.sorted, values_plain hb _ (Or.inl rfl)]; rfl
  have hv2 : values BLOCK2 (addOp req BLOCK1 val1) = [] := by
    rw [values_addOp_ne _ _ _ _ (by decide), values_plain hb _ (Or.inr rfl)]
  obtain ⟨hle, hp⟩ := rds_eq_ok hp
  subst hp
  rw [List.length_drop] at hle
  · skip
    by_cases hl : start + size1 ≥ bodyLen
    · simp only [hl, not_true_eq_false, decide_false, Bool.false_eq_true, if_false] at hm hle hv1 ⊢
      split at hm
      · cases hm
      · cases hm
      rename_i val2 hv3
      split at hm
      · cases hm
      cases hm
      refine ⟨(hs1.addOp _ _).setPayload _, rfl, ⟨rfl, rfl⟩, ?_, (if_pos hl).symm, by omega, rfl, ⟨val1, ?_, formatBlockVal_len hv1, ?_⟩, ?_⟩
      · show others (addOp (addOp req BLOCK1 val1) BLOCK2 val2) = _
        rw [others_addOp _ _ _ (Or.inr rfl), ho]
      · show values BLOCK1 (addOp (addOp req BLOCK1 val1) BLOCK2 val2) = _
        rw [values_addOp_ne _ _ _ _ (by decide), hv]
      · intro szx' hz' hlt
        rw [hz] at hz'
        cases hz'
        rw [(Server.blockVal_spec hlt hz hv1).1]
        simp [hl]
      · rw [if_pos hl]
        refine ⟨val2, ?_, formatBlockVal_len hv3, ?_⟩
        · show values BLOCK2 (addOp (addOp req BLOCK1 val1) BLOCK2 val2) = _
          rw [values_addOp _ _ _ hs1.sorted, hv2]; rfl
        · intro szx' hz'
          exact (Server.blockVal_spec (by decide) hz' hv3).1
    · simp only [hl, not_false_eq_true, decide_true, if_true] at hm hle hv1 ⊢
      cases hm
      refine ⟨hs1.setPayload _, rfl, ⟨rfl, rfl⟩, ho, (if_neg hl).symm, by omega, rfl, ⟨val1, hv, formatBlockVal_len hv1, ?_⟩, ?_⟩
      · intro szx' hz' hlt
        rw [hz] at hz'
        cases hz'
        rw [(Server.blockVal_spec hlt hz hv1).1]
        simp [hl]
      · rw [if_neg hl]
        exact hv2

/-- A successful upload from offset `start` on. -/
theorem blockwise1_ok {sx px : Bool} {req : Msg} {size2 bodyLen szx2 : Nat} {body : Bytes} (hr : Built req) (hb : NoBlocks req)
    (hz2 : calcBlockSzx size2 = .ok szx2) :
    ∀ (bs : List BEnv) (size1 szx start k n : Nat) (resp : Msg) (res : BRes), calcBlockSzx size1 = .ok szx → start = k * size1 →
    (start < bodyLen ∨ start = 0) → blockwise1 sx px req size2 body bodyLen size1 szx start resp bs = .ok res →
    res.ret = some (.ok n) → Confirmed res.resp ∨ n ≠ 0 →
    n = bodyLen ∧ res.body = body ∧ ∃ ms rs, Parts req size2 start ms ∧ Rounds sx bs ms rs res.obs ∧
      joined ms = (body.take bodyLen).drop start ∧ rs.getLast? = some res.resp
  | [], size1, szx, start, k, n, resp, res, hz, hk, hs, h, hret, hcf => by
    cases h; cases hret
  | b :: bs, size1, szx, start, k, n, resp, res, hz, hk, hs, h, hret, hcf => by
    unfold blockwise1 at h
    split at h
    · cases h
    · cases h
    · cases h; cases hret
    rename_i m pl hm
    have hM := message1_ok hr hb hz hm
    split at h
    · cases h
    · cases h
    · cases h; cases hret
    · cases h; cases hret
    rename_i o r hx
    have hX := exchanged hM.built hx
    by_cases h1 : r.codeClass ≠ 2
    · rw [if_pos h1] at h; cases h; cases hret
      rcases hcf with hcf | hcf
      · exact absurd hcf.1 h1
      · exact absurd rfl hcf
    rw [if_neg h1] at h
    by_cases h2 : r.codeDetail ≠ 31 ∧ r.codeDetail ≠ 1 ∧ r.codeDetail ≠ 4
    · rw [if_pos h2] at h; cases h
      cases hret
      rcases hcf with ⟨-, hcf⟩ | hcf
      · simp only at hcf
        omega
      · exact absurd rfl hcf
    rw [if_neg h2] at h
    split at h
    · cases h
    · cases h; cases hret
    · cases h; cases hret
    rename_i blk hblk
    have hnum : blk.num < 2 ^ 20 := Server.parseBlockOp_num hblk
    have hbs : BlockSize blk.size := Server.parseBlockOp_size hblk
    have hs1 := BlockSize.of_szx hz
    simp only at h
    obtain ⟨size', hsz'⟩ : ∃ s', s' = if blk.size < size1 then blk.size else size1 := ⟨_, rfl⟩
    rw [← hsz'] at h
    by_cases hst : blk.num * size' ≠ start
    · rw [if_pos hst] at h; cases h; cases hret
    rw [if_neg hst] at h
    have hst : blk.num * size' = start := Classical.byContradiction hst
    have hs' : BlockSize size' := by rw [hsz']; split <;> assumption
    have hle : size' ≤ size1 := by rw [hsz']; split <;> omega
    obtain ⟨q, hq⟩ := BlockSize.dvd hs' hs1 hle
    have hq0 : 0 < q := by
      apply Nat.pos_of_ne_zero
      rintro rfl
      have := Server.BlockSize.pos hs1
      omega
    have hkn : k = start >>> (szx + 4) := (div_of_szx hz hk).symm
    have hk20 : start >>> (szx + 4) < 2 ^ 20 := by
      rw [← hkn]
      have e : blk.num = q * k := by
        have : blk.num * size' = (q * k) * size' := by rw [hst, hk, hq, Nat.mul_comm, Nat.mul_comm q k, Nat.mul_comm (k * q), ← Nat.mul_assoc, Nat.mul_right_comm]
        exact Nat.eq_of_mul_eq_mul_right (Server.BlockSize.pos hs') this
      have : k ≤ q * k := Nat.le_mul_of_pos_left k hq0
      omega
    obtain ⟨szx', hszx'⟩ := Server.BlockSize.szx hs'
    rw [hszx'] at h
    simp only at h
    obtain ⟨val1, hv1, hv3, hv1'⟩ := hM.block1
    have hv1' := hv1' szx hz hk20
    have hnk : start >>> (szx + 4) * size1 = start := by rw [← hkn, hk]
    have hpl : m.payload.length = pl := by
      rw [hM.payload, List.length_take, List.length_drop]
      have := hM.inside
      omega
    have hcode : Confirmed r := ⟨by omega, by omega⟩
    have hlen := hM.len
    by_cases hl : start + size1 ≥ bodyLen
    · rw [if_pos hl] at hlen
      rw [decide_eq_false (by omega)] at hv1'
      rw [if_pos (by omega)] at h
      cases h
      cases hret
      have hn : start + pl = bodyLen := by omega
      refine ⟨hn, rfl, [m], [r], .last ⟨hM.built, hM.type, hM.code, hM.options, ⟨val1, _, size1, hv1, hv3, hv1', hnk, ?_⟩, ?_⟩, .round hX .done, ?_, rfl⟩
      · rw [if_pos rfl]; omega
      · have := hM.block2
        rw [if_pos hl] at this
        obtain ⟨val, g1, g3, g2⟩ := this
        exact ⟨val, g1, g3, g2 _ hz2⟩
      · simp only [joined, List.flatMap_cons, List.flatMap_nil, List.append_nil]
        rw [hM.payload, List.drop_take, hlen]
    · rw [if_neg hl] at hlen
      rw [decide_eq_true (by omega)] at hv1'
      rw [if_neg (by omega)] at h
      unfold BRes.cons at h
      split at h
      · rename_i res' h'
        cases h
        obtain ⟨e1, e2, ms, rs, e3, e4, e5, e6⟩ := blockwise1_ok hr hb hz2 bs size' szx' (start + pl) (blk.num + q) n create res' hszx'
          (by rw [Nat.add_mul, hst, hlen, hq, Nat.mul_comm q]) (Or.inl (by omega)) h' hret hcf
        have hne : rs ≠ [] := by rintro rfl; cases e6
        refine ⟨e1, e2, m :: ms, r :: rs, .next ⟨hM.built, hM.type, hM.code, hM.options, ⟨val1, _, size1, hv1, hv3, hv1', hnk, ?_⟩, ?_⟩ (by rw [hpl]; exact e3),
          .round hX e4, ?_, ?_⟩
        · rw [if_neg (by decide)]; omega
        · have := hM.block2
          rw [if_neg hl] at this
          exact this
        · simp only [joined, List.flatMap_cons] at e5 ⊢
          have e : (body.drop start).take pl = ((body.take bodyLen).drop start).take pl := by
            rw [List.drop_take, List.take_take, Nat.min_eq_left (by omega)]
          rw [e5, hM.payload, ← List.drop_drop, e, List.take_append_drop]
        · rw [List.getLast?_cons_of_ne_nil hne]
          exact e6
      · cases h
      · cases h

/-! ## Downloads -/

/-- The response is taken: its payload is copied to its place in the buffer. -/
structure Took (method size2 start bodyLen : Nat) (body : Bytes) (r : Msg) (last : Bool) (size : Nat) (body' : Bytes) : Prop where
  piece : Piece method start last r
  inside : start + r.payload.length ≤ bodyLen
  write : wrs body start r.payload = .ok body'
  blk : BlockSize size
  le : size ≤ size2
  num : ∃ num, num < 2 ^ 20 ∧ num * size = start
  full : last = false → r.payload.length = size

theorem take2_cases {method size2 szx start bodyLen : Nat} {r : Msg} {body : Bytes} {t : Taken} (hz : calcBlockSzx size2 = .ok szx)
    (h : take2 method size2 start r body bodyLen = .ok t) :
    (t = .ret (.ok 0) body ∧ ¬ Content method r) ∨ (∃ e, t = .ret (.error e) body) ∨
    (∃ body' size, t = .ret (.ok (start + r.payload.length)) body' ∧ Took method size2 start bodyLen body r true size body') ∨
    (∃ body' size szx', t = .next size szx' (start + r.payload.length) body' ∧ calcBlockSzx size = .ok szx' ∧
      Took method size2 start bodyLen body r false size body') := by
  unfold take2 at h
  by_cases h1 : r.codeClass ≠ 2
  · rw [if_pos h1] at h; cases h; exact Or.inl ⟨rfl, fun hc => h1 hc.1⟩
  rw [if_neg h1] at h
  by_cases h2 : (method = 1 ∧ r.codeDetail ≠ 31 ∧ r.codeDetail ≠ 5) ∨
      (method ≠ 1 ∧ r.codeDetail ≠ 31 ∧ r.codeDetail ≠ 1 ∧ r.codeDetail ≠ 4)
  · rw [if_pos h2] at h; cases h
    refine Or.inl ⟨rfl, fun hc => ?_⟩
    have := hc.2
    split at this <;> omega
  rw [if_neg h2] at h
  have hcont : Content method r := by
    refine ⟨by omega, ?_⟩
    split <;> omega
  split at h
  · cases h
  · cases h; exact Or.inr (Or.inl ⟨_, rfl⟩)
  · cases h; exact Or.inr (Or.inl ⟨_, rfl⟩)
  rename_i blk hblk
  have hnum : blk.num < 2 ^ 20 := Server.parseBlockOp_num hblk
  have hbs : BlockSize blk.size := Server.parseBlockOp_size hblk
  have hs1 := BlockSize.of_szx hz
  simp only at h
  obtain ⟨size', hsz'⟩ : ∃ s', s' = if blk.size < size2 then blk.size else size2 := ⟨_, rfl⟩
  rw [← hsz'] at h
  have hs' : BlockSize size' := by rw [hsz']; split <;> assumption
  have hle : size' ≤ size2 := by rw [hsz']; split <;> omega
  have hle2 : size' ≤ blk.size := by rw [hsz']; split <;> omega
  obtain ⟨szx', hszx'⟩ := Server.BlockSize.szx hs'
  by_cases hst : blk.num * size' ≠ start
  · rw [if_pos hst] at h; cases h; exact Or.inr (Or.inl ⟨_, rfl⟩)
  rw [if_neg hst, hszx'] at h
  have hst : blk.num * size' = start := Classical.byContradiction hst
  simp only at h
  by_cases h3 : r.payload.length > size'
  · rw [if_pos h3] at h; cases h; exact Or.inr (Or.inl ⟨_, rfl⟩)
  rw [if_neg h3] at h
  by_cases h4 : blk.more = true ∧ r.payload.length ≠ size'
  · rw [if_pos h4] at h; cases h; exact Or.inr (Or.inl ⟨_, rfl⟩)
  rw [if_neg h4] at h
  by_cases h5 : start + r.payload.length > bodyLen
  · rw [if_pos h5] at h; cases h; exact Or.inr (Or.inl ⟨_, rfl⟩)
  rw [if_neg h5] at h
  split at h
  · cases h
  · cases h
  rename_i body' hw
  cases hm : blk.more with
  | false =>
    rw [if_pos hm] at h
    cases h
    exact Or.inr (Or.inr (Or.inl ⟨body', size', rfl, ⟨hcont, _, size', blk, hblk, rfl, by rw [hm]; rfl, hle2, hs', hst,
      by rw [if_pos rfl]; omega⟩, by omega, hw, hs', hle, ⟨_, hnum, hst⟩, fun h => by cases h⟩))
  | true =>
    rw [if_neg (by rw [hm]; decide)] at h
    cases h
    have hf : r.payload.length = size' := by
      apply Classical.byContradiction
      exact fun hn => h4 ⟨hm, hn⟩
    exact Or.inr (Or.inr (Or.inr ⟨body', size', szx', rfl, hszx', ⟨hcont, _, size', blk, hblk, rfl, by rw [hm]; rfl, hle2, hs', hst,
      by rw [if_neg (by decide)]; exact hf⟩, by omega, hw, hs', hle, ⟨_, hnum, hst⟩, fun _ => hf⟩))

theorem message2_ok {b : BEnv} {req m : Msg} {size2 szx start k : Nat} (hr : Built req) (hb : NoBlocks req)
    (hz : calcBlockSzx size2 = .ok szx) (hk : start = k * size2) (hlt : k < 2 ^ 20) (h : message2 b req size2 szx start = .ok (.ok m)) :
    Built m ∧ Wants req start m ∧ ∃ val, values BLOCK2 m = [val] ∧ val.length = 3 ∧ blockSpec val = some ⟨k, false, size2⟩ := by
  unfold message2 at h
  rw [hr.copy] at h
  simp only at h
  split at h
  · cases h
  split at h
  · cases h
  · cases h
  rename_i val hv
  split at h
  · cases h
  cases h
  rw [div_of_szx hz hk] at hv
  have hval : values BLOCK2 (addOp req BLOCK2 val) = [val] := by
    rw [values_addOp _ _ _ hr.sorted, values_plain hb _ (Or.inr rfl)]; rfl
  refine ⟨hr.addOp _ _, ⟨hr.addOp _ _, rfl, ?_, ?_, val, k, size2, hval, (Server.blockVal_spec hlt hz hv).2, (Server.blockVal_spec hlt hz hv).1, hk.symm⟩,
    val, hval, (Server.blockVal_spec hlt hz hv).2, (Server.blockVal_spec hlt hz hv).1⟩
  · rw [others_addOp _ _ _ (Or.inr rfl), others_plain hb]
  · rw [values_addOp_ne _ _ _ _ (by decide), values_plain hb _ (Or.inl rfl)]

theorem message2_built {b : BEnv} {req m : Msg} {size2 szx start : Nat} (hr : Built req)
    (h : message2 b req size2 szx start = .ok (.ok m)) : Built m := by
  unfold message2 at h
  rw [hr.copy] at h
  simp only at h
  split at h
  · cases h
  split at h
  · cases h
  · cases h
  split at h
  · cases h
  cases h
  exact hr.addOp _ _

/-- The buffer after pieces have been written from `start` on. -/
theorem wrs_split {body body' p : Bytes} {start : Nat} (h : wrs body start p = .ok body') :
    start + p.length ≤ body.length ∧ body'.length = body.length ∧ body'.take (start + p.length) = body.take start ++ p ∧
      body'.drop (start + p.length) = body.drop (start + p.length) := by
  have hl := wrs_length h
  obtain ⟨h1, rfl⟩ := wrs_eq_ok.1 h
  have e : start + p.length = (body.take start ++ p).length := by rw [List.length_append, List.length_take]; omega
  refine ⟨h1, hl, ?_, ?_⟩
  · rw [e, List.take_left]
  · rw [List.drop_append_of_le_length (by omega), List.drop_of_length_le (by omega), List.nil_append]

theorem blockwise2_ok {sx px : Bool} {req : Msg} {bodyLen : Nat} (hr : Built req) (hb : NoBlocks req) :
    ∀ (bs : List BEnv) (size2 szx start k n : Nat) (resp : Msg) (body : Bytes) (res : BRes), calcBlockSzx size2 = .ok szx →
    start = k * size2 → blockwise2 sx px req bodyLen size2 szx start resp body bs = .ok res →
    res.ret = some (.ok n) → Content req.codeDetail res.resp ∨ n ≠ 0 →
    ∃ ms rs, Pieces req.codeDetail start rs ∧ WantsAll req start ms rs ∧ Rounds sx bs ms rs res.obs ∧
      n = start + (joined rs).length ∧ n ≤ bodyLen ∧ n ≤ body.length ∧ res.body = body.take start ++ joined rs ++ body.drop n
  | [], size2, szx, start, k, n, resp, body, res, hz, hk, h, hret, hcf => by
    cases h; cases hret
  | b :: bs, size2, szx, start, k, n, resp, body, res, hz, hk, h, hret, hcf => by
    unfold blockwise2 at h
    split at h
    · cases h
    · cases h
    · cases h; cases hret
    rename_i m hm
    split at h
    · cases h
    · cases h
    · cases h; cases hret
    · cases h; cases hret
    rename_i o r hx
    have hX := exchanged (message2_built hr hm) hx
    have hk20 : ∀ {last size body'}, Took req.codeDetail size2 start bodyLen body r last size body' → k < 2 ^ 20 := by
      intro last size body' hT
      obtain ⟨num, h1, h2⟩ := hT.num
      have hs1 := BlockSize.of_szx hz
      obtain ⟨q, hq⟩ := BlockSize.dvd hT.blk hs1 hT.le
      have hq0 : 0 < q := by
        apply Nat.pos_of_ne_zero
        rintro rfl
        have := Server.BlockSize.pos hs1
        omega
      have e : num = q * k := by
        have : num * size = (q * k) * size := by rw [h2, hk, hq, Nat.mul_comm, Nat.mul_comm q k, Nat.mul_comm (k * q), ← Nat.mul_assoc, Nat.mul_right_comm]
        exact Nat.eq_of_mul_eq_mul_right (Server.BlockSize.pos hT.blk) this
      have : k ≤ q * k := Nat.le_mul_of_pos_left k hq0
      omega
    split at h
    · cases h
    · cases h
    · rename_i r' body' ht
      cases h
      cases hret
      rcases take2_cases hz ht with ⟨h1, h2⟩ | ⟨e, h1⟩ | ⟨body2, size, h1, hT⟩ | ⟨body2, size, szx', h1, -⟩
      · cases h1
        rcases hcf with hcf | hcf
        · exact absurd hcf h2
        · exact absurd rfl hcf
      · cases h1
      · cases h1
        obtain ⟨g1, g2, g3, g4⟩ := wrs_split hT.write
        refine ⟨[m], [r], .last hT.piece, .next (message2_ok hr hb hz hk (hk20 hT) hm).2.1 .done, .round hX .done, by simp [joined],
          hT.inside, g1, ?_⟩
        simp only [joined, List.flatMap_cons, List.flatMap_nil, List.append_nil]
        rw [← g3, ← g4, List.take_append_drop]
      · cases h1
    · rename_i size' szx' start' body' ht
      rcases take2_cases hz ht with ⟨h1, h2⟩ | ⟨e, h1⟩ | ⟨body2, size, h1, hT⟩ | ⟨body2, size, szx', h1, hz', hT⟩
      · cases h1
      · cases h1
      · cases h1
      cases h1
      obtain ⟨g1, g2, g3, g4⟩ := wrs_split hT.write
      unfold BRes.cons at h
      split at h
      · rename_i res' h'
        cases h
        obtain ⟨num, k1, k2⟩ := hT.num
        obtain ⟨ms, rs, e1, e2, e3, e4, e5, e6, e7⟩ := blockwise2_ok hr hb bs size' szx' (start + r.payload.length) (num + 1) n create body'
          res' hz' (by rw [Nat.add_mul, k2, hT.full rfl, Nat.one_mul]) h' hret hcf
        refine ⟨m :: ms, r :: rs, .next hT.piece e1, .next (message2_ok hr hb hz hk (hk20 hT) hm).2.1 e2, .round hX e3, ?_, e5, by omega, ?_⟩
        · simp only [joined, List.flatMap_cons, List.length_append] at e4 ⊢
          omega
        · simp only at e7 ⊢
          rw [e7, g3]
          simp only [joined, List.flatMap_cons, List.append_assoc]
          congr 3
          have this := congrArg (List.drop (joined rs).length) g4
          rw [List.drop_drop, List.drop_drop, ← e4] at this
          exact this
      · cases h
      · cases h

/-! ## The buffer beyond its length is not used -/

theorem more_cons (e : Bytes) (o : List Obs) (x : Out BRes) : more e (BRes.cons o x) = BRes.cons o (more e x) := by
  cases x <;> rfl

theorem rds_more {body e : Bytes} {start n : Nat} (h : start + n ≤ body.length) :
    rds ((body ++ e).drop start) n = rds (body.drop start) n := by
  unfold rds
  rw [if_pos (by simp; omega), if_pos (by simp; omega), List.drop_append_of_le_length (by omega), List.take_append_of_le_length (by simp; omega)]

theorem message1_more {b : BEnv} {req : Msg} {size1 size2 szx start bodyLen : Nat} {body : Bytes} (e : Bytes)
    (hl : bodyLen ≤ body.length) (hs : start ≤ bodyLen) :
    message1 b req size1 size2 szx start (body ++ e) bodyLen = message1 b req size1 size2 szx start body bodyLen := by
  unfold message1
  simp only
  rw [rds_more]
  by_cases h : start + size1 ≥ bodyLen
  · simp only [h, not_true_eq_false, decide_false, Bool.false_eq_true, if_false]
    omega
  · simp only [h, not_false_eq_true, decide_true, if_true]
    omega

theorem message1_len {b : BEnv} {req m : Msg} {size1 size2 szx start bodyLen n : Nat} {body : Bytes} (hs : start ≤ bodyLen)
    (h : message1 b req size1 size2 szx start body bodyLen = .ok (.ok (m, n))) : start + n ≤ bodyLen := by
  unfold message1 at h
  split at h
  · cases h
  · cases h
  split at h
  · cases h
  simp only at h
  split at h
  · cases h
  · cases h
  split at h
  · cases h
  split at h
  · cases h
  · cases h
  split at h
  · cases h
  · cases h
  split at h
  · cases h
  cases h
  split <;> rename_i hd
  · simp only [ge_iff_le, Nat.not_le, decide_eq_true_eq] at hd; omega
  · omega

theorem blockwise1_more {sx px : Bool} {req : Msg} {size2 bodyLen : Nat} {body : Bytes} (e : Bytes) (hl : bodyLen ≤ body.length) :
    ∀ (bs : List BEnv) (size1 szx start : Nat) (resp : Msg), start ≤ bodyLen →
    blockwise1 sx px req size2 (body ++ e) bodyLen size1 szx start resp bs =
      more e (blockwise1 sx px req size2 body bodyLen size1 szx start resp bs)
  | [], _, _, _, _, _ => rfl
  | b :: bs, size1, szx, start, resp, hs => by
    unfold blockwise1
    rw [message1_more e hl hs]
    cases hm : message1 b req size1 size2 szx start body bodyLen with
    | ub => rfl
    | err _ => rfl
    | ok v =>
      cases v with
      | error _ => rfl
      | ok v =>
        obtain ⟨m, n⟩ := v
        have hn := message1_len hs hm
        simp only
        cases exchange sx px b.x m with
        | ub => rfl
        | err _ => rfl
        | ok v =>
          obtain ⟨o, v⟩ := v
          cases v with
          | none => rfl
          | some v =>
            cases v with
            | error _ => rfl
            | ok r =>
              simp only
              split
              · rfl
              split
              · rfl
              cases parseBlockOp BLOCK1 r.ops with
              | ub => rfl
              | err _ => rfl
              | ok v =>
                cases v with
                | none => rfl
                | some blk =>
                  simp only
                  generalize (if blk.size < size1 then blk.size else size1) = size1
                  split
                  · rfl
                  cases calcBlockSzx size1 with
                  | ub => rfl
                  | err _ => rfl
                  | ok szx =>
                    simp only
                    split
                    · rfl
                    · rw [more_cons, blockwise1_more e hl bs size1 szx (start + n) create hn]

/-- The same for what is done with a response. -/
def moreT (e : Bytes) : Out Taken → Out Taken
  | .ok (.ret r b) => .ok (.ret r (b ++ e))
  | .ok (.next s z n b) => .ok (.next s z n (b ++ e))
  | .err x => .err x
  | .ub => .ub

theorem take2_more {method size2 start bodyLen : Nat} {r : Msg} {body : Bytes} (e : Bytes) (hl : bodyLen ≤ body.length) :
    take2 method size2 start r (body ++ e) bodyLen = moreT e (take2 method size2 start r body bodyLen) := by
  unfold take2
  split
  · rfl
  split
  · rfl
  cases parseBlockOp BLOCK2 r.ops with
  | ub => rfl
  | err _ => rfl
  | ok v =>
    cases v with
    | none => rfl
    | some blk =>
      simp only
      generalize (if blk.size < size2 then blk.size else size2) = size1
      split
      · rfl
      cases calcBlockSzx size1 with
      | ub => rfl
      | err _ => rfl
      | ok szx =>
        simp only
        split
        · rfl
        split
        · rfl
        split
        · rfl
        rename_i h
        rw [wrs_ok (buf := body ++ e) (by rw [List.length_append]; omega), wrs_ok (buf := body) (by omega), List.take_append_of_le_length (by omega),
          List.drop_append_of_le_length (by omega), ← List.append_assoc]
        simp only
        split <;> rfl

theorem take2_len {method size2 start bodyLen : Nat} {r : Msg} {body body' : Bytes} {s z n : Nat}
    (h : take2 method size2 start r body bodyLen = .ok (.next s z n body')) : body'.length = body.length := by
  unfold take2 at h
  split at h
  · cases h
  split at h
  · cases h
  cases hp : parseBlockOp BLOCK2 r.ops with
  | ub => rw [hp] at h; cases h
  | err _ => rw [hp] at h; cases h
  | ok v =>
    rw [hp] at h
    cases v with
    | none => cases h
    | some blk =>
      simp only at h
      generalize (if blk.size < size2 then blk.size else size2) = size1 at h
      split at h
      · cases h
      cases hz : calcBlockSzx size1 with
      | ub => rw [hz] at h; cases h
      | err _ => rw [hz] at h; cases h
      | ok szx =>
        rw [hz] at h
        simp only at h
        split at h
        · cases h
        split at h
        · cases h
        split at h
        · cases h
        cases hw : wrs body start r.payload with
        | ub => rw [hw] at h; cases h
        | err _ => rw [hw] at h; cases h
        | ok b' =>
          rw [hw] at h
          simp only at h
          split at h
          · cases h
          cases h
          exact wrs_length hw

theorem blockwise2_more {sx px : Bool} {req : Msg} {bodyLen : Nat} (e : Bytes) :
    ∀ (bs : List BEnv) (size2 szx start : Nat) (resp : Msg) (body : Bytes), bodyLen ≤ body.length →
    blockwise2 sx px req bodyLen size2 szx start resp (body ++ e) bs =
      more e (blockwise2 sx px req bodyLen size2 szx start resp body bs)
  | [], _, _, _, _, _, _ => rfl
  | b :: bs, size2, szx, start, resp, body, hl => by
    unfold blockwise2
    cases hm : message2 b req size2 szx start with
    | ub => rfl
    | err _ => rfl
    | ok v =>
      cases v with
      | error _ => rfl
      | ok m =>
        simp only
        cases exchange sx px b.x m with
        | ub => rfl
        | err _ => rfl
        | ok v =>
          obtain ⟨o, v⟩ := v
          cases v with
          | none => rfl
          | some v =>
            cases v with
            | error _ => rfl
            | ok r =>
              simp only
              rw [take2_more e hl]
              cases ht : take2 req.codeDetail size2 start r body bodyLen with
              | ub => rfl
              | err _ => rfl
              | ok v =>
                cases v with
                | ret => rfl
                | next s z n b' =>
                  simp only [moreT]
                  rw [more_cons, blockwise2_more e bs s z n create b' (by rw [take2_len ht]; exact hl)]

theorem upload_more {sx px : Bool} {req resp : Msg} {size1 size2 bodyLen : Nat} {body : Bytes} {bs : List BEnv} (e : Bytes)
    (hl : bodyLen ≤ body.length) : upload sx px req resp size1 size2 (body ++ e) bodyLen bs =
      more e (upload sx px req resp size1 size2 body bodyLen bs) := by
  unfold upload
  split
  · rfl
  cases calcBlockSzx size1 with
  | ub => rfl
  | err _ => rfl
  | ok szx =>
    simp only
    cases calcBlockSzx size2 with
    | ub => rfl
    | err _ => rfl
    | ok _ => exact blockwise1_more e hl bs size1 szx 0 resp (Nat.zero_le _)

theorem download_more {sx px : Bool} {req resp : Msg} {size2 bodyLen : Nat} {body : Bytes} {have' : Bool} {bs : List BEnv} (e : Bytes)
    (hl : bodyLen ≤ body.length) : download sx px req resp size2 (body ++ e) bodyLen have' bs =
      more e (download sx px req resp size2 body bodyLen have' bs) := by
  unfold download
  split
  · rfl
  cases calcBlockSzx size2 with
  | ub => rfl
  | err _ => rfl
  | ok szx =>
    simp only
    split
    · exact blockwise2_more e bs size2 szx 0 resp body hl
    rw [take2_more e hl]
    cases ht : take2 req.codeDetail size2 0 resp body bodyLen with
    | ub => rfl
    | err _ => rfl
    | ok v =>
      cases v with
      | ret => rfl
      | next s z n b' =>
        simp only [moreT]
        exact blockwise2_more e bs s z n create b' (by rw [take2_len ht]; exact hl)

theorem blockwise1_body {sx px : Bool} {req : Msg} {size2 bodyLen : Nat} {body : Bytes} :
    ∀ (bs : List BEnv) (size1 szx start : Nat) (resp : Msg) (res : BRes),
    blockwise1 sx px req size2 body bodyLen size1 szx start resp bs = .ok res → res.body = body
  | [], _, _, _, _, _, h => by cases h; rfl
  | b :: bs, size1, szx, start, resp, res, h => by
    unfold blockwise1 at h
    split at h
    · cases h
    · cases h
    · cases h; rfl
    split at h
    · cases h
    · cases h
    · cases h; rfl
    · cases h; rfl
    split at h
    · cases h; rfl
    split at h
    · cases h; rfl
    split at h
    · cases h
    · cases h; rfl
    · cases h; rfl
    rename_i blk _
    simp only at h
    generalize (if blk.size < size1 then blk.size else size1) = size1 at h
    split at h
    · cases h; rfl
    split at h
    · cases h
    · cases h; rfl
    split at h
    · cases h; rfl
    unfold BRes.cons at h
    split at h
    · rename_i h'
      cases h
      exact show _ from (blockwise1_body bs _ _ _ _ _ h' :)
    · cases h
    · cases h

theorem upload_body {sx px : Bool} {req resp : Msg} {size1 size2 bodyLen : Nat} {body : Bytes} {bs : List BEnv} {res : BRes}
    (h : upload sx px req resp size1 size2 body bodyLen bs = .ok res) : res.body = body := by
  unfold upload at h
  split at h
  · cases h; rfl
  split at h
  · cases h
  · cases h; rfl
  split at h
  · cases h
  · cases h; rfl
  exact blockwise1_body _ _ _ _ _ _ h

theorem upload_ok {sx px : Bool} {req resp : Msg} {size1 size2 bodyLen n : Nat} {body : Bytes} {bs : List BEnv} {res : BRes}
    (hr : Built req) (hb : NoBlocks req) (h : upload sx px req resp size1 size2 body bodyLen bs = .ok res)
    (hret : res.ret = some (.ok n)) (hcf : Confirmed res.resp ∨ n ≠ 0) :
    n = bodyLen ∧ res.body = body ∧ ∃ ms rs, Parts req size2 0 ms ∧ Rounds sx bs ms rs res.obs ∧
      joined ms = body.take bodyLen ∧ rs.getLast? = some res.resp := by
  unfold upload at h
  split at h
  · cases h; cases hret
  split at h
  · cases h
  · cases h; cases hret
  rename_i szx hz
  split at h
  · cases h
  · cases h; cases hret
  rename_i szx2 hz2
  have := blockwise1_ok hr hb hz2 bs size1 szx 0 0 n resp res hz (by simp) (Or.inr rfl) h hret hcf
  simpa using this

theorem download_ok {sx px : Bool} {req resp : Msg} {size2 bodyLen n : Nat} {body : Bytes} {bs : List BEnv} {res : BRes} {have' : Bool}
    (hr : Built req) (hb : NoBlocks req) (h : download sx px req resp size2 body bodyLen have' bs = .ok res)
    (hret : res.ret = some (.ok n)) (hcf : Content req.codeDetail res.resp ∨ n ≠ 0) :
    ∃ ms rs first, first = (if have' = true then [resp] else []) ∧ Pieces req.codeDetail 0 (first ++ rs) ∧
      WantsAll req (joined first).length ms rs ∧ Rounds sx bs ms rs res.obs ∧
      n = (joined (first ++ rs)).length ∧ n ≤ bodyLen ∧ n ≤ body.length ∧ res.body = joined (first ++ rs) ++ body.drop n := by
  unfold download at h
  split at h
  · cases h; cases hret
  split at h
  · cases h
  · cases h; cases hret
  rename_i szx hz
  cases have' with
  | false =>
    rw [if_pos rfl] at h
    obtain ⟨ms, rs, h1, h2, h3, h4, h5, h6, h7⟩ := blockwise2_ok hr hb bs size2 szx 0 0 n resp body res hz (by simp) h hret hcf
    exact ⟨ms, rs, [], rfl, h1, h2, h3, by simpa using h4, h5, h6, by simpa using h7⟩
  | true =>
    rw [if_neg (by decide)] at h
    split at h
    · cases h
    · cases h
    · rename_i r' body' ht
      cases h
      cases hret
      rcases take2_cases hz ht with ⟨h1, h2⟩ | ⟨e, h1⟩ | ⟨body2, size, h1, hT⟩ | ⟨body2, size, szx', h1, -⟩
      · cases h1
        rcases hcf with hcf | hcf
        · exact absurd hcf h2
        · exact absurd rfl hcf
      · cases h1
      · cases h1
        obtain ⟨g1, g2, g3, g4⟩ := wrs_split hT.write
        refine ⟨[], [], [resp], rfl, .last hT.piece, .done, .done, by simp [joined], hT.inside, g1, ?_⟩
        simp only [joined, List.append_nil, List.flatMap_cons, List.flatMap_nil]
        rw [List.take_zero, List.nil_append] at g3
        conv => lhs; rw [← List.take_append_drop (0 + resp.payload.length) body', g3, g4]
      · cases h1
    · rename_i size' szx' start' body' ht
      rcases take2_cases hz ht with ⟨h1, h2⟩ | ⟨e, h1⟩ | ⟨body2, size, h1, hT⟩ | ⟨body2, size, szx', h1, hz', hT⟩
      · cases h1
      · cases h1
      · cases h1
      cases h1
      obtain ⟨g1, g2, g3, g4⟩ := wrs_split hT.write
      obtain ⟨num, k1, k2⟩ := hT.num
      obtain ⟨ms, rs, e1, e2, e3, e4, e5, e6, e7⟩ := blockwise2_ok hr hb bs size' szx' (0 + resp.payload.length) (num + 1) n create body'
        res hz' (by rw [Nat.add_mul, k2, hT.full rfl, Nat.one_mul]) h hret hcf
      refine ⟨ms, rs, [resp], rfl, .next hT.piece e1, ?_, e3, ?_, e5, by omega, ?_⟩
      · simpa [joined] using e2
      · simp only [joined, List.flatMap_append, List.flatMap_cons, List.flatMap_nil, List.append_nil, List.length_append] at e4 ⊢
        omega
      · rw [e7, g3]
        simp only [joined, List.flatMap_append, List.flatMap_cons, List.flatMap_nil, List.append_nil, List.take_zero, List.nil_append, List.append_assoc]
        congr 2
        have this := congrArg (List.drop (joined rs).length) g4
        rw [List.drop_drop, List.drop_drop, ← e4] at this
        exact this

end FreeCoAP.Client
