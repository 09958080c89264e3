import Verif.Client.LemmasSafe
import Verif.Client.Spec2

/-! # The course of blockwise transfers -/

namespace FreeCoAP.Client

open FreeCoAP.Msg
open FreeCoAP.Server (header Header emptyAck reset Built Carries Formats BlockSize joined)

theorem parseBlockVal_take {val : Bytes} (h : 3 < val.length) : parseBlockVal val val.length = parseBlockVal (val.take 3) 3 := by
  match val, h with
  | a :: b :: c :: d :: t, _ => rfl

/-- Reading a Block option of a message. -/
theorem parseBlockOp_blockOf {k : Nat} (hk : k = BLOCK1 ∨ k = BLOCK2) {m : Msg} : ∀ {ops : List Op}, m.ops = ops →
    parseBlockOp k ops ≠ .ub → (∃ e, parseBlockOp k ops = .err e ∧ blockOf k m = none) ∨ parseBlockOp k ops = .ok (blockOf k m) := by
  intro ops hm
  have gen : ∀ ops : List Op, parseBlockOp k ops ≠ .ub → (∃ e, parseBlockOp k ops = .err e ∧
      (match (ops.filter (fun o => o.num = k)).map (·.val) with | [] => none | v :: _ => blockSpec (v.take 3)) = none) ∨
      parseBlockOp k ops = .ok (match (ops.filter (fun o => o.num = k)).map (·.val) with | [] => none | v :: _ => blockSpec (v.take 3)) := by
    intro ops
    induction ops with
    | nil => intro _; exact Or.inr rfl
    | cons op ops ih =>
      unfold parseBlockOp
      by_cases hn : op.num = k
      · have hc : (op.num = BLOCK1 ∧ k = BLOCK1) ∨ (op.num = BLOCK2 ∧ k = BLOCK2) := by
          rcases hk with h | h
          · exact Or.inl ⟨hn.trans h, h⟩
          · exact Or.inr ⟨hn.trans h, h⟩
        rw [if_pos hc, List.filter_cons, if_pos (by simpa using hn), List.map_cons]
        simp only
        intro hne
        have key : parseBlockVal op.val op.len = (match blockSpec (op.val.take 3) with | none => .err .EINVAL | some b => .ok b) := by
          have hl : op.len = op.val.length := rfl
          rw [hl] at hne ⊢
          by_cases h0 : op.val = []
          · exfalso
            apply hne
            rw [h0]
            rfl
          by_cases h3 : op.val.length ≤ 3
          · rw [parseBlockVal_eq (List.length_pos_iff.2 h0) h3, List.take_of_length_le h3]
            cases blockSpec op.val <;> rfl
          · have ht : (op.val.take 3).length = 3 := by rw [List.length_take]; omega
            rw [parseBlockVal_take (by omega)]
            have := parseBlockVal_eq (val := op.val.take 3) (by omega) (by omega)
            rw [ht] at this
            rw [this]
            cases blockSpec (op.val.take 3) <;> rfl
        rw [key]
        cases hb : blockSpec (op.val.take 3) with
        | none => exact Or.inl ⟨_, rfl, rfl⟩
        | some b => exact Or.inr rfl
      · have hc : ¬ ((op.num = BLOCK1 ∧ k = BLOCK1) ∨ (op.num = BLOCK2 ∧ k = BLOCK2)) := by
          rintro (⟨h1, h2⟩ | ⟨h1, h2⟩)
          · exact hn (h1.trans h2.symm)
          · exact hn (h1.trans h2.symm)
        rw [if_neg hc, List.filter_cons, if_neg (by simpa using hn)]
        exact ih
  intro h
  have := gen ops h
  unfold blockOf values
  rw [hm]
  exact this

/-- The message of a round of an upload cannot be made. -/
theorem message1_err {b : BEnv} {req : Msg} {size1 size2 szx szx2 start bodyLen : Nat} {body : Bytes} {e : Err} (hr : Built req)
    (hz : calcBlockSzx size1 = .ok szx) (hz2 : calcBlockSzx size2 = .ok szx2) {k : Nat} (hk : start = k * size1)
    (h : message1 b req size1 size2 szx start body bodyLen = .ok (.error e)) : Unable b size1 start e := by
  have hpos := Server.BlockSize.pos (BlockSize.of_szx hz)
  unfold message1 at h
  rw [hr.copy] at h
  simp only at h
  split at h
  · rename_i hc; cases h; exact .memory (by rw [hc]; rfl)
  split at h
  · cases h
  · rename_i e' he
    cases h
    have hgt := Server.formatBlockVal_err hz he
    rw [div_of_szx hz hk] at hgt
    have : e = .EINVAL := by
      unfold formatBlockVal at he
      rw [hz, Out.bind_ok] at he
      simp only at he
      split at he
      · cases he; rfl
      · cases he
    subst this
    refine .number ?_
    rw [hk]
    exact Nat.mul_lt_mul_of_pos_right (by omega) hpos
  rename_i val1 hv1
  split at h
  · rename_i hc; cases h; exact .memory (by rw [hc]; cases b.copyMem <;> rfl)
  split at h
  · cases h
  · rename_i e' he
    cases h
    split at he
    · cases he
    split at he
    · cases he
    · rename_i e'' he'
      cases he
      have hgt := Server.formatBlockVal_err hz2 he'
      omega
    split at he
    · rename_i hc; cases he; exact .memory (by rw [hc]; simp)
    · cases he
  split at h
  · cases h
  · cases h
  split at h
  · rename_i hc; cases h; exact .memory (by rw [hc]; simp)
  · cases h

theorem blockOf_values {k : Nat} {m : Msg} {val : Bytes} {blk : Block} (h1 : values k m = [val]) (h2 : val.length = 3)
    (h3 : blockSpec val = some blk) : blockOf k m = some blk := by
  unfold blockOf
  rw [h1]
  show blockSpec (val.take 3) = _
  rw [List.take_of_length_le (by omega), h3]

/-- The message of a round of an upload. -/
theorem message1_block {b : BEnv} {req m : Msg} {size1 size2 szx szx2 start bodyLen n : Nat} {body : Bytes} (hr : Built req)
    (hb : NoBlocks req) (hz : calcBlockSzx size1 = .ok szx) (hz2 : calcBlockSzx size2 = .ok szx2) {k : Nat} (hk : start = k * size1)
    (hbl : bodyLen ≤ body.length)
    (h : message1 b req size1 size2 szx start body bodyLen = .ok (.ok (m, n))) :
    IsBlock req size1 size2 start (body.take bodyLen) m ∧ m.payload.length = n ∧
      n = if start + size1 ≥ bodyLen then bodyLen - start else size1 := by
  have hM := message1_ok hr hb hz h
  have hpos := Server.BlockSize.pos (BlockSize.of_szx hz)
  have hlen : (body.take bodyLen).length = bodyLen := by rw [List.length_take]; omega
  have hn := hM.len
  have hpl : m.payload.length = n := by
    rw [hM.payload, List.length_take, List.length_drop]
    split at hn <;> omega
  refine ⟨⟨hM.built, ?_, ?_⟩, hpl, hn⟩
  · rw [hM.payload, List.drop_take, List.take_take]
    congr 1
    split at hn <;> omega
  · intro hlt
    have hkn : start >>> (szx + 4) = k := div_of_szx hz hk
    have hk20 : k < 2 ^ 20 := by
      rw [hk] at hlt
      exact Nat.lt_of_mul_lt_mul_right hlt
    obtain ⟨val1, hv1, hv3, hv1'⟩ := hM.block1
    have hv1' := hv1' szx hz (by rw [hkn]; exact hk20)
    rw [hlen]
    have hd : (decide (bodyLen ≤ start + size1) = true) ↔ start + size1 ≥ bodyLen := by simp
    refine ⟨⟨hM.built, hM.type, hM.code, hM.options, ⟨val1, k, size1, hv1, hv3, ?_, hk.symm, ?_⟩, ?_⟩, ?_⟩
    · rw [hv1', hkn]
      by_cases hc : start + size1 ≥ bodyLen <;> simp [hc]
    · rw [hpl]
      split
      · rename_i hc
        have := hd.1 hc
        rw [if_pos this] at hn
        omega
      · rename_i hc
        rw [if_neg (fun hq => hc (hd.2 hq))] at hn
        exact hn
    · have h2 := hM.block2
      by_cases hc : start + size1 ≥ bodyLen
      · rw [if_pos hc] at h2
        rw [if_pos (hd.2 hc)]
        obtain ⟨val, g1, g2, g3⟩ := h2
        exact ⟨val, g1, g2, g3 _ hz2⟩
      · rw [if_neg hc] at h2
        rw [if_neg (fun hq => hc (hd.1 hq))]
        exact h2
    · exact ⟨_, _, blockOf_values hv1 hv3 hv1'⟩

theorem ite_min (a b : Nat) : (if a < b then a else b) = min a b := by
  split <;> omega

theorem BlockSize.min {a b : Nat} (ha : BlockSize a) (hb : BlockSize b) : BlockSize (min a b) := by
  rw [← ite_min]
  split <;> assumption

theorem blockOf_size {k : Nat} (hk : k = BLOCK1 ∨ k = BLOCK2) {m : Msg} {blk : Block} (h : parseBlockOp k m.ops = .ok (some blk)) :
    blockOf k m = some blk := by
  rcases parseBlockOp_blockOf hk (m := m) rfl (by rw [h]; simp) with ⟨e, h1, -⟩ | h1
  · rw [h] at h1; cases h1
  · rw [h] at h1; exact (Out.ok.inj h1).symm

/-- The course of an upload. -/
theorem blockwise1_course {sx px : Bool} {req : Msg} {size2 bodyLen szx2 : Nat} {body : Bytes} (hr : Built req) (hb : NoBlocks req)
    (hz2 : calcBlockSzx size2 = .ok szx2) (hbl : bodyLen ≤ body.length) :
    ∀ (bs : List BEnv) (size1 szx start k : Nat) (resp : Msg) (res : BRes), calcBlockSzx size1 = .ok szx → start = k * size1 →
    (start < bodyLen ∨ start = 0) → blockwise1 sx px req size2 body bodyLen size1 szx start resp bs = .ok res →
    Uploads sx px req size2 (body.take bodyLen) size1 start bs res.obs res.outcome ∧ res.body = body
  | [], size1, szx, start, k, resp, res, hz, hk, hs, h => by
    cases h; exact ⟨.begin, rfl⟩
  | b :: bs, size1, szx, start, k, resp, res, hz, hk, hs, h => by
    have hlen : (body.take bodyLen).length = bodyLen := by rw [List.length_take]; omega
    unfold blockwise1 at h
    split at h
    · cases h
    · cases h
    · rename_i e he
      cases h
      exact ⟨.unable (message1_err hr hz hz2 hk he), rfl⟩
    rename_i m pl hm
    obtain ⟨hB, hpl, hpn⟩ := message1_block hr hb hz hz2 hk hbl hm
    split at h
    · cases h
    · cases h
    · rename_i o hx
      cases h
      exact ⟨.waits hB hx, rfl⟩
    · rename_i o e hx
      cases h
      exact ⟨.fails hB hx, rfl⟩
    rename_i o r hx
    by_cases h1 : r.codeClass ≠ 2
    · rw [if_pos h1] at h; cases h
      exact ⟨.refused hB hx (fun hc => h1 hc.1), rfl⟩
    rw [if_neg h1] at h
    by_cases h2 : r.codeDetail ≠ 31 ∧ r.codeDetail ≠ 1 ∧ r.codeDetail ≠ 4
    · rw [if_pos h2] at h; cases h
      have hn : ¬ Confirmed r := by
        rintro ⟨-, h3⟩
        omega
      exact ⟨.refused hB hx hn, rfl⟩
    rw [if_neg h2] at h
    have hcf : Confirmed r := ⟨by omega, by omega⟩
    split at h
    · cases h
    · rename_i e he
      cases h
      refine ⟨.wrong hB hx hcf ?_, rfl⟩
      rintro s ⟨blk, hq, -⟩
      rcases parseBlockOp_blockOf (Or.inl rfl) (m := r) rfl (by rw [he]; simp) with ⟨e', -, h3⟩ | h3
      · rw [h3] at hq; cases hq
      · rw [he] at h3; cases h3
    · rename_i he
      cases h
      refine ⟨.wrong hB hx hcf ?_, rfl⟩
      rintro s ⟨blk, hq, -⟩
      rcases parseBlockOp_blockOf (Or.inl rfl) (m := r) rfl (by rw [he]; simp) with ⟨e', h3, -⟩ | h3
      · rw [he] at h3; cases h3
      · rw [he] at h3; rw [← Out.ok.inj h3] at hq; cases hq
    rename_i blk hblk
    have hof := blockOf_size (Or.inl rfl) hblk
    have hbs : BlockSize blk.size := Server.parseBlockOp_size hblk
    have hs1 := BlockSize.of_szx hz
    simp only at h
    rw [ite_min] at h
    have hs' : BlockSize (min blk.size size1) := BlockSize.min hbs hs1
    by_cases hst : blk.num * min blk.size size1 ≠ start
    · rw [if_pos hst] at h; cases h
      refine ⟨.wrong hB hx hcf ?_, rfl⟩
      rintro s ⟨blk', hq, rfl, h3⟩
      rw [hof] at hq
      cases hq
      exact hst h3
    rw [if_neg hst] at h
    have hst : blk.num * min blk.size size1 = start := Classical.byContradiction hst
    have hcs : Confirms size1 start r (min blk.size size1) := ⟨blk, hof, rfl, hst⟩
    obtain ⟨szx', hszx'⟩ := Server.BlockSize.szx hs'
    rw [hszx'] at h
    simp only at h
    by_cases hl : start + pl ≥ bodyLen
    · rw [if_pos hl] at h
      cases h
      have e : start + pl = (body.take bodyLen).length := by
        rw [hlen]
        split at hpn <;> omega
      refine ⟨?_, rfl⟩
      have := Uploads.last (bs := bs) hB hx hcf hcs (by rw [hpl, hlen]; omega)
      rw [← e] at this
      exact this
    · rw [if_neg hl] at h
      unfold BRes.cons at h
      split at h
      · rename_i res' h'
        cases h
        have hpl' : pl = size1 := by split at hpn <;> omega
        obtain ⟨q, hq⟩ := BlockSize.dvd hs' hs1 (Nat.min_le_right _ _)
        obtain ⟨g1, g2⟩ := blockwise1_course hr hb hz2 hbl bs (min blk.size size1) szx' (start + pl) (blk.num + q) create res' hszx'
          (by rw [Nat.add_mul, hst, hpl', Nat.mul_comm q, ← hq]) (by omega) h'
        refine ⟨.next hB hx hcf hcs (by rw [hpl, hlen]; omega) (by rw [hpl]; exact g1), g2⟩
      · cases h
      · cases h

theorem message2_err {b : BEnv} {req : Msg} {size2 szx start : Nat} {e : Err} (hr : Built req)
    (hz : calcBlockSzx size2 = .ok szx) {k : Nat} (hk : start = k * size2)
    (h : message2 b req size2 szx start = .ok (.error e)) : Unable b size2 start e := by
  have hpos := Server.BlockSize.pos (BlockSize.of_szx hz)
  unfold message2 at h
  rw [hr.copy] at h
  simp only at h
  split at h
  · rename_i hc; cases h; exact .memory (by rw [hc]; rfl)
  split at h
  · cases h
  · rename_i e' he
    cases h
    have hgt := Server.formatBlockVal_err hz he
    rw [div_of_szx hz hk] at hgt
    have : e = .EINVAL := by
      unfold formatBlockVal at he
      rw [hz, Out.bind_ok] at he
      simp only at he
      split at he
      · cases he; rfl
      · cases he
    subst this
    refine .number ?_
    rw [hk]
    exact Nat.mul_lt_mul_of_pos_right (by omega) hpos
  split at h
  · rename_i hc; cases h; exact .memory (by rw [hc]; simp)
  · cases h

/-- What a response does to a download. -/
theorem take2_course {method size2 szx start bodyLen : Nat} {r : Msg} {body : Bytes} {t : Taken} (hz : calcBlockSzx size2 = .ok szx)
    (h : take2 method size2 start r body bodyLen = .ok t) :
    (∃ n body', t = .ret (.ok n) body' ∧ Finishes method bodyLen size2 start r body (.ok (n, r)) body') ∨
    (∃ e, t = .ret (.error e) body ∧ Finishes method bodyLen size2 start r body (.error e) body) ∨
    (∃ size' szx', t = .next size' szx' (start + r.payload.length) (written start r body) ∧ calcBlockSzx size' = .ok szx' ∧
      Content method r ∧ Fits size2 start r false size' ∧ start + r.payload.length ≤ bodyLen ∧
      ∃ k, start + r.payload.length = k * size') := by
  unfold take2 at h
  by_cases h1 : r.codeClass ≠ 2
  · rw [if_pos h1] at h; cases h; exact Or.inl ⟨_, _, rfl, .other fun hc => h1 hc.1⟩
  rw [if_neg h1] at h
  by_cases h2 : (method = 1 ∧ r.codeDetail ≠ 31 ∧ r.codeDetail ≠ 5) ∨
      (method ≠ 1 ∧ r.codeDetail ≠ 31 ∧ r.codeDetail ≠ 1 ∧ r.codeDetail ≠ 4)
  · rw [if_pos h2] at h; cases h
    refine Or.inl ⟨_, _, rfl, .other fun hc => ?_⟩
    have := hc.2
    split at this <;> omega
  rw [if_neg h2] at h
  have hcont : Content method r := by
    refine ⟨by omega, ?_⟩
    split <;> omega
  have none_wrong : blockOf BLOCK2 r = none → Finishes method bodyLen size2 start r body (.error .EBADMSG) body := by
    intro hn
    refine .wrong hcont ?_
    rintro l s ⟨blk, hq, -⟩
    rw [hn] at hq; cases hq
  split at h
  · cases h
  · rename_i e he
    cases h
    refine Or.inr (Or.inl ⟨_, rfl, none_wrong ?_⟩)
    rcases parseBlockOp_blockOf (Or.inr rfl) (m := r) rfl (by rw [he]; simp) with ⟨e', -, h3⟩ | h3
    · exact h3
    · rw [he] at h3; cases h3
  · rename_i he
    cases h
    refine Or.inr (Or.inl ⟨_, rfl, none_wrong ?_⟩)
    rcases parseBlockOp_blockOf (Or.inr rfl) (m := r) rfl (by rw [he]; simp) with ⟨e', h3, -⟩ | h3
    · rw [he] at h3; cases h3
    · rw [he] at h3; exact (Out.ok.inj h3).symm
  rename_i blk hblk
  have hof := blockOf_size (Or.inr rfl) hblk
  have hbs : BlockSize blk.size := Server.parseBlockOp_size hblk
  have hs1 := BlockSize.of_szx hz
  simp only at h
  rw [ite_min] at h
  have hs' : BlockSize (min blk.size size2) := BlockSize.min hbs hs1
  obtain ⟨szx', hszx'⟩ := Server.BlockSize.szx hs'
  have wrong : (∀ l s, Fits size2 start r l s → False) → Finishes method bodyLen size2 start r body (.error .EBADMSG) body :=
    fun hw => .wrong hcont hw
  by_cases hst : blk.num * min blk.size size2 ≠ start
  · rw [if_pos hst] at h; cases h
    refine Or.inr (Or.inl ⟨_, rfl, wrong ?_⟩)
    rintro l s ⟨blk', hq, rfl, h3, -⟩
    rw [hof] at hq
    cases hq
    exact hst h3
  rw [if_neg hst, hszx'] at h
  have hst : blk.num * min blk.size size2 = start := Classical.byContradiction hst
  simp only at h
  by_cases h3 : r.payload.length > min blk.size size2
  · rw [if_pos h3] at h; cases h
    refine Or.inr (Or.inl ⟨_, rfl, wrong ?_⟩)
    rintro l s ⟨blk', hq, rfl, -, -, h5, -⟩
    rw [hof] at hq
    cases hq
    omega
  rw [if_neg h3] at h
  by_cases h4 : blk.more = true ∧ r.payload.length ≠ min blk.size size2
  · rw [if_pos h4] at h; cases h
    refine Or.inr (Or.inl ⟨_, rfl, wrong ?_⟩)
    rintro l s ⟨blk', hq, rfl, -, h5, -, h6⟩
    rw [hof] at hq
    cases hq
    rw [h4.1] at h5
    cases l with
    | true => cases h5
    | false => exact h4.2 (h6 rfl)
  rw [if_neg h4] at h
  have hf : blk.more = true → r.payload.length = min blk.size size2 := by
    intro hm
    apply Classical.byContradiction
    exact fun hn => h4 ⟨hm, hn⟩
  have hfit : Fits size2 start r (!blk.more) (min blk.size size2) :=
    ⟨blk, hof, rfl, hst, by simp, by omega, fun hm => hf (by simpa using hm)⟩
  by_cases h5 : start + r.payload.length > bodyLen
  · rw [if_pos h5] at h; cases h
    exact Or.inr (Or.inl ⟨_, rfl, .full hcont hfit h5⟩)
  rw [if_neg h5] at h
  split at h
  · cases h
  · cases h
  rename_i body' hw
  obtain ⟨g1, g2, g3, g4⟩ := wrs_split hw
  have hwr : body' = written start r body := by
    unfold written
    rw [← g3, ← g4, List.take_append_drop]
  subst hwr
  cases hm : blk.more with
  | false =>
    rw [if_pos hm] at h
    cases h
    rw [hm] at hfit
    exact Or.inl ⟨_, _, rfl, .last hcont hfit (by omega)⟩
  | true =>
    rw [if_neg (by rw [hm]; decide)] at h
    cases h
    rw [hm] at hfit
    refine Or.inr (Or.inr ⟨_, szx', rfl, hszx', hcont, hfit, by omega, blk.num + 1, ?_⟩)
    rw [Nat.add_mul, hst, Nat.one_mul, hf hm]

/-- The course of a download. -/
theorem blockwise2_course {sx px : Bool} {req : Msg} {bodyLen : Nat} (hr : Built req) (hb : NoBlocks req) :
    ∀ (bs : List BEnv) (size2 szx start k : Nat) (resp : Msg) (body : Bytes) (res : BRes), calcBlockSzx size2 = .ok szx →
    start = k * size2 → blockwise2 sx px req bodyLen size2 szx start resp body bs = .ok res →
    Downloads sx px req bodyLen size2 start body bs res.obs res.outcome res.body
  | [], size2, szx, start, k, resp, body, res, hz, hk, h => by
    cases h; exact .begin
  | b :: bs, size2, szx, start, k, resp, body, res, hz, hk, h => by
    unfold blockwise2 at h
    split at h
    · cases h
    · cases h
    · rename_i e he
      cases h
      exact .unable (message2_err hr hz hk he)
    rename_i m hm
    have hA : AsksFor req size2 start m := ⟨message2_built hr hm, fun hlt => by
      have hk20 : k < 2 ^ 20 := by
        rw [hk] at hlt
        exact Nat.lt_of_mul_lt_mul_right hlt
      obtain ⟨-, hw, val, h1, h2, h3⟩ := message2_ok hr hb hz hk hk20 hm
      exact ⟨hw, k, blockOf_values h1 h2 h3⟩⟩
    split at h
    · cases h
    · cases h
    · rename_i o hx
      cases h
      exact .waits hA hx
    · rename_i o e hx
      cases h
      exact .fails hA hx
    rename_i o r hx
    split at h
    · cases h
    · cases h
    · rename_i r' body' ht
      cases h
      rcases take2_course hz ht with ⟨n, b', h1, h2⟩ | ⟨e, h1, h2⟩ | ⟨s, z, h1, -⟩
      · cases h1
        exact .ends hA hx h2
      · cases h1
        exact .ends hA hx h2
      · cases h1
    · rename_i size' szx' start' body' ht
      rcases take2_course hz ht with ⟨n, b', h1, h2⟩ | ⟨e, h1, h2⟩ | ⟨s, z, h1, h2, h3, h4, h5, k', h6⟩
      · cases h1
      · cases h1
      · cases h1
        unfold BRes.cons at h
        split at h
        · rename_i res' h'
          cases h
          exact .next hA hx h3 h4 h5 (blockwise2_course hr hb bs _ _ _ k' _ _ res' h2 h6 h')
        · cases h
        · cases h

end FreeCoAP.Client
