import Verif.Client.SpecAny
import Verif.Client.Props4

/-! # A download from any server (C124) -/

namespace FreeCoAP.Client

open FreeCoAP.Msg
open FreeCoAP.Server (Built BlockSize)

/-- C124, in full: the body returned by a download is one representation of the resource, though the resource may change. -/
def C124_statement : Prop :=
  ∀ (sx px : Bool) (req resp : Msg) (size1 size2 bodyLen n : Nat) (body : Bytes) (have' : Bool) (bs1 bs2 : List BEnv) (res : BRes)
    (reps : Bytes → Bytes), Built req → NoBlocks req → req.codeDetail = 1 →
    exchangeBlockwise sx px req resp size1 size2 body bodyLen have' bs1 bs2 = .ok res → res.ret = some (.ok n) → Content 1 res.resp ∨ n ≠ 0 →
    (have' = true → Content 1 resp → TaggedFrom reps resp) → Serves sx px req (TaggedFrom reps) bs2 →
    ∃ tag, n = (reps tag).length ∧ res.body.take n = reps tag

theorem foldl_lt : ∀ (v : Bytes) (a : Nat), v.foldl (fun a b => 256 * a + b.toNat) a < (a + 1) * 256 ^ v.length
  | [], a => by simp
  | b :: v, a => by
    have h := foldl_lt v (256 * a + b.toNat)
    have hb : b.toNat < 256 := b.toNat_lt
    have h2 : (256 * a + b.toNat + 1) * 256 ^ v.length ≤ (256 * (a + 1)) * 256 ^ v.length := Nat.mul_le_mul_right _ (by omega)
    rw [List.foldl_cons, List.length_cons, Nat.pow_succ]
    calc _ < _ := h
      _ ≤ _ := h2
      _ = _ := by rw [Nat.mul_comm 256 (a + 1), Nat.mul_assoc, Nat.mul_comm 256]

theorem uintVal_lt (v : Bytes) : uintVal v < 256 ^ v.length := by
  have := foldl_lt v 0
  rwa [Nat.zero_add, Nat.one_mul] at this

theorem blockOf_bounds {k : Nat} {m : Msg} {blk : Block} (h : blockOf k m = some blk) : blk.num < 2 ^ 20 ∧ 16 ≤ blk.size := by
  unfold blockOf at h
  split at h
  · cases h
  · rename_i v vs _
    unfold blockSpec at h
    split at h
    · cases h
    · cases h
      have h1 := uintVal_lt (v.take 3)
      have h2 : 256 ^ (v.take 3).length ≤ 256 ^ 3 := Nat.pow_le_pow_right (by decide) (List.length_take_le 3 v)
      refine ⟨by dsimp only; omega, ?_⟩
      show 2 ^ 4 ≤ _
      exact Nat.pow_le_pow_right (by decide) (Nat.le_add_left _ _)

/-- The bytes after a block was written. -/
theorem take_written {off : Nat} {r : Msg} {buf : Bytes} (h : off ≤ buf.length) :
    (written off r buf).take (off + r.payload.length) = buf.take off ++ r.payload := by
  unfold written
  have hl : (buf.take off ++ r.payload).length = off + r.payload.length := by
    rw [List.length_append, List.length_take]; omega
  rw [← hl, List.take_left]

/-- What a block at the offset in its turn is. -/
theorem fits_from {R : Bytes} {size off size' : Nat} {r : Msg} {last : Bool} (hf : Fits size off r last size') (hB : BlockFrom R r)
    (hle : ∀ blk, blockOf BLOCK2 r = some blk → blk.size ≤ size) :
    0 < size' ∧ (if last = true then r.payload = R.drop off else off + r.payload.length < R.length ∧ r.payload = (R.drop off).take r.payload.length) := by
  obtain ⟨blk, h1, h2, h3, h4, h5, h6⟩ := hf
  obtain ⟨blk', g1, g2, g3⟩ := hB
  rw [h1] at g1
  cases g1
  have hs : size' = blk.size := h2.trans (Nat.min_eq_left (hle _ h1))
  subst hs
  rw [h3] at g2
  rw [Nat.succ_mul, h3] at g3
  refine ⟨Nat.lt_of_lt_of_le (by decide) (blockOf_bounds h1).2, ?_⟩
  cases last with
  | true =>
    rw [if_pos rfl, g2, List.take_of_length_le]
    rw [List.length_drop]
    have : ¬ off + blk.size < R.length := fun h => by
      have := g3.2 h
      rw [h4] at this
      cases this
    omega
  | false =>
    rw [if_neg (by decide), h6 rfl]
    exact ⟨g3.1 h4, g2⟩

/-- A block in its turn is asked for with the number that it has. -/
theorem fits_asked {req m r : Msg} {size off size' : Nat} {last : Bool} (hm : AsksFor req size off m) (hf : Fits size off r last size') (hpos : 0 < size) :
    Wants req off m ∧ ∃ num, blockOf BLOCK2 m = some ⟨num, false, size⟩ := by
  obtain ⟨blk, h1, h2, h3, -⟩ := hf
  obtain ⟨hnum, -⟩ := blockOf_bounds h1
  refine hm.2 ?_
  rw [← h3, h2]
  calc blk.num * min blk.size size ≤ blk.num * size := Nat.mul_le_mul_left _ (Nat.min_le_right _ _)
    _ < 2 ^ 20 * size := Nat.mul_lt_mul_of_pos_right hnum hpos

/-- The buffer after a block in its turn. -/
theorem take_block {R : Bytes} {off : Nat} {r : Msg} {buf : Bytes} (hB : off ≤ buf.length) (hE : buf.take off = R.take off) :
    (written off r buf).take (off + r.payload.length) = R.take off ++ r.payload := by
  rw [take_written hB, hE]

theorem written_length {off : Nat} {r : Msg} {buf : Bytes} (hB : off ≤ buf.length) : off + r.payload.length ≤ (written off r buf).length := by
  unfold written
  simp only [List.length_append, List.length_take, List.length_drop]
  omega

/-- The last block completes the representation. -/
theorem last_block {R : Bytes} {off : Nat} {r : Msg} {buf : Bytes} (hR : off ≤ R.length) (hB : off ≤ buf.length) (hE : buf.take off = R.take off)
    (h : r.payload = R.drop off) : off + r.payload.length = R.length ∧ (written off r buf).take (off + r.payload.length) = R := by
  refine ⟨by rw [h, List.length_drop]; omega, ?_⟩
  rw [take_block hB hE, h, List.take_append_drop]

/-- Another block extends what there is. -/
theorem next_block {R : Bytes} {off : Nat} {r : Msg} {buf : Bytes} (hB : off ≤ buf.length) (hE : buf.take off = R.take off)
    (h : r.payload = (R.drop off).take r.payload.length) :
    (written off r buf).take (off + r.payload.length) = R.take (off + r.payload.length) := by
  rw [take_block hB hE, List.take_add, ← h]

theorem downloads_all {sx px : Bool} {req : Msg} {R : Bytes} {bodyLen : Nat} {size off : Nat} {buf buf' : Bytes} {bs : List BEnv}
    {os : List (List Obs)} {ret : Option (Except Err (Nat × Msg))} (h : Downloads sx px req bodyLen size off buf bs os ret buf') :
    Serves sx px req (BlockFrom R) bs → 0 < size → off ≤ R.length → off ≤ buf.length → buf.take off = R.take off →
    ∀ {n : Nat} {r : Msg}, ret = some (.ok (n, r)) → Content req.codeDetail r ∨ n ≠ 0 → n = R.length ∧ buf'.take n = R := by
  induction h with
  | begin => intro _ _ _ _ _ n r h; cases h
  | unable h' => intro _ _ _ _ _ n r h; cases h
  | waits hm h' => intro _ _ _ _ _ n r h; cases h
  | fails hm h' => intro _ _ _ _ _ n r h; cases h
  | @ends size off buf buf' b bs m r o ret hm hx hf =>
    intro hS hpos hR hB hE n r' hret hc
    cases hf with
    | other h => cases hret; exact hc.elim (absurd · h) (absurd rfl ·)
    | wrong h hf => cases hret
    | full h hf hl => cases hret
    | last h hf hl =>
      cases hret
      obtain ⟨hw, num, hq⟩ := fits_asked hm hf hpos
      obtain ⟨gB, gN⟩ := hS b (by simp) off m o r hw hx h
      have hfr := (fits_from hf gB (fun blk hb => gN _ _ hq hb)).2
      rw [if_pos rfl] at hfr
      exact last_block hR hB hE hfr
  | @next size off size' buf buf' b bs m r o os ret hm hx hc hf hl ht ih =>
    intro hS hpos hR hB hE n r' hret hc'
    obtain ⟨hw, num, hq⟩ := fits_asked hm hf hpos
    obtain ⟨gB, gN⟩ := hS b (by simp) off m o r hw hx hc
    obtain ⟨hpos', hfr⟩ := fits_from hf gB (fun blk hb => gN _ _ hq hb)
    rw [if_neg (by decide)] at hfr
    exact ih (fun b' hb' => hS b' (List.mem_cons_of_mem _ hb')) hpos' (by omega) (written_length hB) (next_block hB hE hfr.2) hret hc'

theorem resumes_all {sx px : Bool} {req r0 : Msg} {R : Bytes} {bodyLen : Nat} {size : Nat} {buf buf' : Bytes} {bs : List BEnv}
    {os : List (List Obs)} {ret : Option (Except Err (Nat × Msg))} (h : Resumes sx px req bodyLen size r0 buf bs os ret buf')
    (h0 : Content req.codeDetail r0 → BlockFrom R r0) (hS : Serves sx px req (BlockFrom R) bs) (hpos : 0 < size) {n : Nat} {r : Msg}
    (hret : ret = some (.ok (n, r))) (hc : Content req.codeDetail r ∨ n ≠ 0) : n = R.length ∧ buf'.take n = R := by
  have first : ∀ {last size'}, Content req.codeDetail r0 → Fits size 0 r0 last size' →
      0 < size' ∧ (if last = true then r0.payload = R.drop 0 else 0 + r0.payload.length < R.length ∧ r0.payload = (R.drop 0).take r0.payload.length) := by
    intro last size' hc hf
    obtain ⟨blk, h1, h2, h3, h4, h5, h6⟩ := hf
    obtain ⟨blk', g1, g2, g3⟩ := h0 hc
    rw [h1] at g1
    cases g1
    have hsz := (blockOf_bounds h1).2
    have hs' : 0 < size' := by omega
    have hnum : blk.num = 0 := by
      rcases Nat.mul_eq_zero.1 h3 with h | h
      · exact h
      · omega
    rw [hnum, Nat.zero_mul] at g2
    rw [hnum, Nat.zero_add, Nat.one_mul] at g3
    refine ⟨hs', ?_⟩
    have hl : r0.payload.length = min blk.size R.length := by rw [g2, List.length_take, List.drop_zero]
    cases last with
    | true =>
      rw [if_pos rfl, g2, List.take_of_length_le]
      rw [List.drop_zero]
      have : ¬ blk.size < R.length := fun h => by
        have := g3.2 h
        rw [h4] at this
        cases this
      omega
    | false =>
      rw [if_neg (by decide)]
      have := g3.1 h4
      have hb : r0.payload.length = blk.size := by omega
      exact ⟨by omega, by rw [hb]; exact g2⟩
  cases h with
  | ends hf =>
    cases hf with
    | other h => cases hret; exact hc.elim (absurd · h) (absurd rfl ·)
    | wrong h hf => cases hret
    | full h hf hl => cases hret
    | last h hf hl =>
      cases hret
      have := (first h hf).2
      rw [if_pos rfl] at this
      exact last_block (Nat.zero_le _) (Nat.zero_le _) rfl this
  | next hc0 hf hl ht =>
    obtain ⟨hpos', hfr⟩ := first hc0 hf
    rw [if_neg (by decide)] at hfr
    have hb := written_length (r := r0) (Nat.zero_le buf.length)
    have hn := next_block (R := R) (r := r0) (Nat.zero_le buf.length) rfl hfr.2
    rw [Nat.zero_add] at hb hn
    exact downloads_all ht hS hpos' (by omega) hb hn hret hc

theorem outcome_of {res : BRes} {n : Nat} (h : res.ret = some (.ok n)) : res.outcome = some (.ok (n, res.resp)) := by
  unfold BRes.outcome
  rw [h]

/-- C124, partial: a download from any server whose resource does not change in the meantime returns the resource. -/
theorem C124_download_partial {sx px : Bool} {req resp : Msg} {size1 size2 bodyLen n : Nat} {body R : Bytes} {have' : Bool}
    {bs1 bs2 : List BEnv} {res : BRes} (hr : Built req) (hb : NoBlocks req) (hm : req.codeDetail = 1)
    (h : exchangeBlockwise sx px req resp size1 size2 body bodyLen have' bs1 bs2 = .ok res) (hret : res.ret = some (.ok n))
    (hc : Content 1 res.resp ∨ n ≠ 0) (hfirst : have' = true → Content 1 resp → BlockFrom R resp) (hS : Serves sx px req (BlockFrom R) bs2) :
    n = R.length ∧ res.body.take n = R := by
  have ho := outcome_of hret
  have hc' : Content req.codeDetail res.resp ∨ n ≠ 0 := by rw [hm]; exact hc
  rcases C73_get hr hb hm h with ⟨-, -, h2, -⟩ | ⟨hz, h2⟩
  · rw [ho] at h2; cases h2
  · have hpos := hz.pos
    split at h2
    · rename_i hh
      exact resumes_all h2 (fun h => hfirst hh (by rw [hm] at h; exact h)) hS hpos ho hc'
    · exact downloads_all h2 hS hpos (Nat.zero_le _) (Nat.zero_le _) rfl ho hc'

theorem uploads_reply {sx px : Bool} {req : Msg} {size2 : Nat} {body : Bytes} {size off : Nat} {bs : List BEnv} {os : List (List Obs)}
    {ret : Option (Except Err (Nat × Msg))} (h : Uploads sx px req size2 body size off bs os ret) :
    ∀ {n : Nat} {r : Msg}, ret = some (.ok (n, r)) → n ≠ 0 → Confirmed r ∧ ∃ b ∈ bs, ∃ m o, Built m ∧ exchange sx px b.x m = .ok (o, some (.ok r)) := by
  induction h with
  | begin => intro n r h; cases h
  | unable h' => intro n r h; cases h
  | waits hm h' => intro n r h; cases h
  | fails hm h' => intro n r h; cases h
  | refused hm h' hr => intro n r h hn; cases h; exact absurd rfl hn
  | wrong hm h' hr hc => intro n r h; cases h
  | last hm h' hr hc hl => intro n r h hn; cases h; exact ⟨hr, _, by simp, _, _, hm.1, h'⟩
  | next hm h' hr hc hl ht ih =>
    intro n r h hn
    obtain ⟨h1, b, hb, h2⟩ := ih h hn
    exact ⟨h1, b, List.mem_cons_of_mem _ hb, h2⟩

/-- C124 for the body that a server returns to a PUT or POST in blocks. -/
theorem C124_after_upload_partial {sx px : Bool} {req resp : Msg} {size1 size2 bodyLen n : Nat} {body R : Bytes} {have' : Bool}
    {bs1 bs2 : List BEnv} {res : BRes} (hr : Built req) (hb : NoBlocks req) (hm : req.codeDetail = 2 ∨ req.codeDetail = 3)
    (hl : bodyLen ≤ body.length)
    (h : exchangeBlockwise sx px req resp size1 size2 body bodyLen have' bs1 bs2 = .ok res) (hret : res.ret = some (.ok n)) (hn : n ≠ 0)
    (hfirst : Replies sx px (BlockFrom R) bs1) (hS : Serves sx px req (BlockFrom R) bs2) :
    n = R.length ∧ res.body.take n = R := by
  have ho := outcome_of hret
  rcases C73_put hr hb hm hl h with ⟨-, -, h2, -⟩ | ⟨-, hz, h2⟩
  · rw [ho] at h2; cases h2
  · generalize hob : res.obs = os at h2
    generalize hbo : res.body = buf' at h2 ⊢
    generalize hou : res.outcome = ret at h2 ho
    cases h2 with
    | ends hu h0 => exact absurd (h0 _ _ ho) hn
    | done hu h0 hp => cases ho; exact absurd rfl hn
    | fetch hu h0 hp hd =>
      obtain ⟨k1, b, hb', m, o, hbm, k2⟩ := uploads_reply hu rfl h0
      exact resumes_all hd (fun _ => hfirst b hb' m o _ hbm k2 k1 hp) hS hz.pos ho (Or.inr hn)

/-! ## Examples -/

/-- What a round with one datagram, and possibly an expiration of the timer before, can return. -/
theorem round_returns {sx px : Bool} {is : List Input} {d : Bytes} {m r r' : Msg} {o : List Obs} (hb : Built m)
    (his : ∀ i ∈ is, ∀ d', i.ev = .datagram d' → d' = d) (hd : Server.Carries sx d r')
    (h : exchange sx px (exRound is).x m = .ok (o, some (.ok r))) : r = r' := by
  obtain ⟨-, -, i, hi, d', h1, h2⟩ := exchanged hb h
  rw [his i hi d' h1] at h2
  exact h2.unique hd

def exPieceMsg0 : Msg := ⟨1, ACK, 2, 31, 0x0102, [1, 2, 3, 4], [⟨23, [0x08]⟩], List.replicate 16 7⟩
def exPieceMsg1 : Msg := ⟨1, ACK, 2, 5, 0x0102, [1, 2, 3, 4], [⟨23, [0x10]⟩], [8, 9]⟩

/-- Blocks of 16 bytes are never too large. -/
theorem notLarger {m r : Msg} {blk : Block} (hk : blockOf BLOCK2 r = some blk) (h16 : blk.size = 16) : NotLarger m r := by
  intro q blk' hq hk'
  rw [hk] at hk'
  cases hk'
  rw [h16]
  exact (blockOf_bounds hq).2

/-- Two rounds with a datagram each. -/
theorem serves_two {d0 d1 : Bytes} {r0 r1 : Msg} {P : Msg → Prop} (h0 : Server.Carries true d0 r0) (h1 : Server.Carries true d1 r1)
    {blk0 blk1 : Block} (k0 : blockOf BLOCK2 r0 = some blk0 ∧ blk0.size = 16) (k1 : blockOf BLOCK2 r1 = some blk1 ∧ blk1.size = 16) (p0 : P r0) (p1 : P r1) :
    Serves true false exGet P [exRound [rcv d0], exRound [tick, rcv d1]] := by
  intro b hb off m o r hw hx _
  rcases List.mem_cons.1 hb with rfl | hb
  · have := round_returns hw.built (d := d0) (by intro i hi d h; simp only [List.mem_singleton] at hi; subst hi; cases h; rfl) h0 hx
    subst this
    exact ⟨p0, notLarger k0.1 k0.2⟩
  · rw [List.mem_singleton] at hb
    subst hb
    have := round_returns hw.built (d := d1) (by
      intro i hi d h
      rcases List.mem_cons.1 hi with rfl | hi
      · cases h
      · simp only [List.mem_singleton] at hi; subst hi; cases h; rfl) h1 hx
    subst this
    exact ⟨p1, notLarger k1.1 k1.2⟩

/-- A server with a resource of 18 bytes. -/
theorem exServes : Serves true false exGet (BlockFrom (List.replicate 16 7 ++ [8, 9])) [exRound [rcv exPiece0], exRound [tick, rcv exPiece1]] :=
  serves_two (r0 := exPieceMsg0) (r1 := exPieceMsg1) (blk0 := ⟨0, true, 16⟩) (blk1 := ⟨1, false, 16⟩)
    (by unfold Server.Carries; decide +kernel) (by unfold Server.Carries; decide +kernel)
    ⟨by decide +kernel, rfl⟩ ⟨by decide +kernel, rfl⟩
    ⟨⟨0, true, 16⟩, by decide +kernel, by decide +kernel, by decide +kernel⟩ ⟨⟨1, false, 16⟩, by decide +kernel, by decide +kernel, by decide +kernel⟩

/-- The download of this resource. -/
example : ∃ res, exDownload = .ok res ∧ res.ret = some (.ok 18) ∧ res.body.take 18 = List.replicate 16 7 ++ [8, 9] := by
  obtain ⟨res, h1, h2, -⟩ := exDownload_run
  exact ⟨res, h1, h2, (C124_download_partial exGet_built exGet_plain rfl h1 h2 (Or.inr (by decide)) (fun h => absurd h (by decide)) exServes).2⟩

/-- 2.04 to the only block of an upload, with block 0 of the response. -/
def exReply0 : Bytes := [0x64, 0x44, 1, 2, 1, 2, 3, 4, 0xd1, 10, 0x08, 0x41, 0x02, 0xff] ++ List.replicate 16 7
/-- 2.04 with block 1 of the response, the last one. -/
def exReply1 : Bytes := [0x64, 0x44, 1, 2, 1, 2, 3, 4, 0xd1, 10, 0x10, 0xff, 8, 9]
def exReplyMsg0 : Msg := ⟨1, ACK, 2, 4, 0x0102, [1, 2, 3, 4], [⟨23, [0x08]⟩, ⟨27, [0x02]⟩], List.replicate 16 7⟩
def exReplyMsg1 : Msg := ⟨1, ACK, 2, 4, 0x0102, [1, 2, 3, 4], [⟨23, [0x10]⟩], [8, 9]⟩

def exReplied : Out BRes :=
  exchangeBlockwise true false exPut create 64 32 exBody 40 false [exRound [rcv exReply0]] [exRound [rcv exReply1]]

/-- An upload that a server answers with a body of 18 bytes. -/
example : ∃ res, exReplied = .ok res ∧ res.ret = some (.ok 18) ∧ res.body.take 18 = List.replicate 16 7 ++ [8, 9] := by
  have : test exReplied (fun r => decide (r.ret = some (.ok 18))) = true := by decide +kernel
  obtain ⟨res, h, h'⟩ := test_ok this
  have h' := of_decide_eq_true h'
  have one : ∀ {d : Bytes}, ∀ i ∈ [rcv d], ∀ d', i.ev = .datagram d' → d' = d := by
    intro d i hi d' h
    simp only [List.mem_singleton] at hi
    subst hi
    cases h
    rfl
  refine ⟨res, h, h', (C124_after_upload_partial exPut_built exPut_plain (Or.inr rfl) (by decide) h h' (by decide) ?_ ?_).2⟩
  · intro b hb m o r hbm hx _ _
    rw [List.mem_singleton] at hb
    subst hb
    have := round_returns hbm one (r' := exReplyMsg0) (by unfold Server.Carries; decide +kernel) hx
    subst this
    exact ⟨⟨0, true, 16⟩, by decide +kernel, by decide +kernel, by decide +kernel⟩
  · intro b hb off m o r hw hx _
    rw [List.mem_singleton] at hb
    subst hb
    have := round_returns hw.built one (r' := exReplyMsg1) (by unfold Server.Carries; decide +kernel) hx
    subst this
    exact ⟨⟨⟨1, false, 16⟩, by decide +kernel, by decide +kernel, by decide +kernel⟩, notLarger (blk := ⟨1, false, 16⟩) (by decide +kernel) rfl⟩

/-- 2.05 with block 0 of 16 bytes of the representation with ETag 1. -/
def exTag0 : Bytes := [0x64, 0x45, 1, 2, 1, 2, 3, 4, 0x41, 1, 0xd1, 6, 0x08, 0xff] ++ List.replicate 16 7
/-- 2.05 with block 1 of 16 bytes, the last one, of the representation with ETag 2. -/
def exTag1 : Bytes := [0x64, 0x45, 1, 2, 1, 2, 3, 4, 0x41, 2, 0xd1, 6, 0x10, 0xff, 8, 9]
def exTagMsg0 : Msg := ⟨1, ACK, 2, 5, 0x0102, [1, 2, 3, 4], [⟨4, [1]⟩, ⟨23, [0x08]⟩], List.replicate 16 7⟩
def exTagMsg1 : Msg := ⟨1, ACK, 2, 5, 0x0102, [1, 2, 3, 4], [⟨4, [2]⟩, ⟨23, [0x10]⟩], [8, 9]⟩

/-- The two representations. -/
def exReps (tag : Bytes) : Bytes :=
  if tag = [1] then List.replicate 18 7 else if tag = [2] then List.replicate 16 5 ++ [8, 9] else []

def exChanged : Out BRes :=
  exchangeBlockwise true false exGet create 32 32 exBody 40 false [] [exRound [rcv exTag0], exRound [tick, rcv exTag1]]

/-- C124 is violated: the client does not look at the ETag. If the resource changes during the download, the result is neither the one representation nor the
other. -/
theorem C124_violated : ¬ C124_statement := by
  intro hst
  have : test exChanged (fun r => decide (r.ret = some (.ok 18) ∧ r.body.take 18 = List.replicate 16 7 ++ [8, 9])) = true := by decide +kernel
  obtain ⟨res, h, h'⟩ := test_ok this
  have h' := of_decide_eq_true h'
  have hS : Serves true false exGet (TaggedFrom exReps) [exRound [rcv exTag0], exRound [tick, rcv exTag1]] :=
    serves_two (r0 := exTagMsg0) (r1 := exTagMsg1) (blk0 := ⟨0, true, 16⟩) (blk1 := ⟨1, false, 16⟩)
      (by unfold Server.Carries; decide +kernel) (by unfold Server.Carries; decide +kernel)
      ⟨by decide +kernel, rfl⟩ ⟨by decide +kernel, rfl⟩
      ⟨[1], by decide +kernel, ⟨0, true, 16⟩, by decide +kernel, by decide +kernel, by decide +kernel⟩
      ⟨[2], by decide +kernel, ⟨1, false, 16⟩, by decide +kernel, by decide +kernel, by decide +kernel⟩
  obtain ⟨tag, -, ht⟩ := hst true false exGet create 32 32 40 18 exBody false [] _ res exReps exGet_built exGet_plain rfl h h'.1 (Or.inr (by decide))
    (fun h => absurd h (by decide)) hS
  rw [h'.2] at ht
  unfold exReps at ht
  split at ht
  · exact absurd ht (by decide)
  · split at ht
    · exact absurd ht (by decide)
    · exact absurd ht (by decide)

end FreeCoAP.Client
