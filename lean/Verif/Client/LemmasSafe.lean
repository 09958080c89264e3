import Verif.Client.Props2
import Verif.Server.LemmasSafe

/-! # Lemmas for the absence of undefined behaviour in the client (C71) -/

namespace FreeCoAP.Client

open FreeCoAP.Msg
open FreeCoAP.Server (Built Carries Plain NoEmptyBlock Harmless Good)

theorem send_good {e : Option Err} {m : Msg} (h : Plain m) : ∃ o r, send e m = .ok (o, r) := by
  have hf := Server.format_plain h
  unfold send
  cases hx : format m (List.replicate BUF_LEN 0) BUF_LEN with
  | ub => exact absurd hx hf
  | err e => exact ⟨_, _, rfl⟩
  | ok y =>
    obtain ⟨b, n⟩ := y
    simp only
    split <;> exact ⟨_, _, rfl⟩

theorem formatError_good {e : Option Err} {mem : Bytes} {len : Nat} (h : 4 ≤ mem.length) : ∃ o, formatError e mem len = .ok o := by
  unfold formatError
  cases ht : parseTypeMsgId mem len with
  | ub => exact absurd ht (Server.parseTypeMsgId_ne h)
  | err e => exact ⟨_, rfl⟩
  | ok y =>
    obtain ⟨type, id⟩ := y
    simp only
    split
    · obtain ⟨o, r, hs⟩ := send_good (e := e) (m := emptyMsg RST id) (Server.plain_nil rfl)
      rw [hs]
      exact ⟨_, rfl⟩
    · exact ⟨_, rfl⟩

theorem recv_good {sx : Bool} {i : Input} {d : Bytes} (hd : d.length < BUF_LEN) : ∃ o r, recv sx i d = .ok (o, r) := by
  unfold recv
  split
  · exact ⟨_, _, rfl⟩
  have hlen : (recvBuf d).length = BUF_LEN := Server.recvBuf_length d
  cases hp : parse sx (recvBuf d) (min d.length BUF_LEN) with
  | ub => exact absurd hp (parse_ne_ub (by rw [hlen]; omega))
  | ok m => exact ⟨_, _, rfl⟩
  | err e =>
    simp only
    split
    · obtain ⟨o, ho⟩ := formatError_good (e := i.sendErr) (mem := recvBuf d) (len := min d.length BUF_LEN) (by rw [hlen]; decide)
      rw [ho]
      exact ⟨_, _, rfl⟩
    · exact ⟨_, _, rfl⟩

theorem step_good {sx px : Bool} {req : Msg} {w : Wait} {i : Input} (hr : Plain req) (hi : Short i) :
    ∃ o n, step sx px req w i = .ok (o, n) := by
  unfold step
  cases he : i.ev with
  | selectErr e => exact ⟨_, _, rfl⟩
  | recvErr e => simp only; split <;> exact ⟨_, _, rfl⟩
  | timer =>
    simp only
    unfold expire
    split
    · split
      · exact ⟨_, _, rfl⟩
      · obtain ⟨o, r, hs⟩ := send_good (e := i.sendErr) hr
        rw [hs]
        cases r <;> exact ⟨_, _, rfl⟩
    · exact ⟨_, _, rfl⟩
  | datagram d =>
    simp only
    obtain ⟨o, r, hr'⟩ := recv_good (sx := sx) (i := i) (hi d he)
    rw [hr']
    cases r with
    | error e => simp only; split <;> exact ⟨_, _, rfl⟩
    | ok m =>
      simp only
      rcases recv_cases hr' with ⟨m', h1, -, hc, -⟩ | ⟨e, h1, -⟩
      · cases h1
        obtain ⟨o2, n, h2, -⟩ := handle_cases (px := px) (req := req) (w := w) (i := i) hc
        rw [h2]
        exact ⟨_, _, rfl⟩
      · cases h1

theorem wait_good {sx px : Bool} {req : Msg} {is : List Input} (hr : Plain req) : ∀ {w : Wait}, (∀ i ∈ is, Short i) →
    ∃ o r, wait sx px req w is = .ok (o, r) := by
  induction is with
  | nil => intro w _; exact ⟨_, _, rfl⟩
  | cons i is ih =>
    intro w h
    obtain ⟨o, n, hs⟩ := step_good (sx := sx) (px := px) (w := w) hr (h i List.mem_cons_self)
    rw [wait, hs]
    cases n with
    | done r => exact ⟨_, _, rfl⟩
    | go w' =>
      simp only
      obtain ⟨o2, r, h2⟩ := ih (w := w') (fun j hj => h j (List.mem_cons_of_mem _ hj))
      rw [h2]
      exact ⟨_, _, rfl⟩

theorem exchange_good {sx px : Bool} {x : XEnv} {req : Msg} (hr : Plain req) (hi : ∀ i ∈ x.inputs, Short i) :
    ∃ o r, exchange sx px x req = .ok (o, r) := by
  unfold exchange
  split
  · exact ⟨_, _, rfl⟩
  rw [(stamp_eq x req).1]
  simp only
  rw [(stamp_eq x req).2]
  simp only
  have hp : Plain (stamped x req) := hr
  obtain ⟨o, r, hs⟩ := send_good (e := x.sendErr) hp
  rw [hs]
  cases r with
  | some e => exact ⟨_, _, rfl⟩
  | none =>
    simp only
    split
    · obtain ⟨o3, r, hw⟩ := wait_good (sx := sx) (px := px) (is := x.inputs) hp (w := (startWait x (stamped x req).type).2) hi
      rw [hw]
      exact ⟨_, _, rfl⟩
    · exact ⟨_, _, rfl⟩

/-! ## Blockwise transfers -/

theorem Quiet.short {sx : Bool} {b : BEnv} (h : Quiet sx b) : ∀ i ∈ b.x.inputs, Short i :=
  fun i hi d hd => (h i hi d hd).1

theorem exchange_noEmpty {sx px : Bool} {b : BEnv} {req resp : Msg} {o : List Obs} (hr : Built req) (hq : Quiet sx b)
    (h : exchange sx px b.x req = .ok (o, some (.ok resp))) : NoEmptyBlock resp := by
  obtain ⟨-, -, i, hi, d, hd, hc⟩ := C31_matching_response hr h
  exact (hq i hi d hd).2 resp hc

theorem message1_good {b : BEnv} {req : Msg} {size1 size2 szx start bodyLen : Nat} {body : Bytes} (hp : Plain req)
    (hl : bodyLen ≤ body.length) (hs : start ≤ bodyLen) :
    (∃ e, message1 b req size1 size2 szx start body bodyLen = .ok (.error e)) ∨
    ∃ m n, message1 b req size1 size2 szx start body bodyLen = .ok (.ok (m, n)) ∧ Plain m := by
  unfold message1
  cases hc : copy create req with
  | ub => exact absurd hc Server.copy_good.1
  | err e => exact Or.inl ⟨_, rfl⟩
  | ok msg =>
    have hpm := Server.copy_good.2 _ hc hp
    simp only
    split
    · exact Or.inl ⟨_, rfl⟩
    generalize hmore : (decide ¬ (start + size1 ≥ bodyLen)) = more
    have hf := Server.formatBlockVal_good (num := start >>> (szx + 4)) (size := size1) (more := more)
    cases hv : formatBlockVal 3 (start >>> (szx + 4)) more size1 with
    | ub => exact absurd hv hf.1
    | err e => exact Or.inl ⟨_, rfl⟩
    | ok val =>
      have hv3 := hf.2 _ hv
      simp only
      split
      · exact Or.inl ⟨_, rfl⟩
      have hp1 : Plain (addOp msg BLOCK1 val) := hpm.addOp (by omega)
      have hrd : ∀ n, start + n ≤ bodyLen → rds (body.drop start) n = .ok ((body.drop start).take n) := by
        intro n hn
        exact rds_ok (by simp; omega)
      have hn : start + (if more = true then size1 else bodyLen - start) ≤ bodyLen := by
        rw [← hmore]
        split <;> rename_i hq
        · have := of_decide_eq_true hq; omega
        · omega
      rw [hrd _ hn]
      cases more with
      | true =>
        simp only [if_true]
        split
        · exact Or.inl ⟨_, rfl⟩
        · exact Or.inr ⟨_, _, rfl, Server.plain_of_ops hp1 rfl⟩
      | false =>
        simp only [Bool.false_eq_true, if_false]
        have hf2 := Server.formatBlockVal_good (num := 0) (size := size2) (more := false)
        cases hv2 : formatBlockVal 3 0 false size2 with
        | ub => exact absurd hv2 hf2.1
        | err e => exact Or.inl ⟨_, rfl⟩
        | ok val2 =>
          have := hf2.2 _ hv2
          simp only
          by_cases hm2 : b.opMem2 = false
          · rw [if_pos hm2]; exact Or.inl ⟨_, rfl⟩
          · rw [if_neg hm2]
            simp only
            split
            · exact Or.inl ⟨_, rfl⟩
            · exact Or.inr ⟨_, _, rfl, Server.plain_of_ops (hp1.addOp (val := val2) (by omega)) rfl⟩

theorem message2_good {b : BEnv} {req : Msg} {size2 szx start : Nat} (hp : Plain req) :
    (∃ e, message2 b req size2 szx start = .ok (.error e)) ∨
    ∃ m, message2 b req size2 szx start = .ok (.ok m) ∧ Plain m := by
  unfold message2
  cases hc : copy create req with
  | ub => exact absurd hc Server.copy_good.1
  | err e => exact Or.inl ⟨_, rfl⟩
  | ok msg =>
    have hpm := Server.copy_good.2 _ hc hp
    simp only
    split
    · exact Or.inl ⟨_, rfl⟩
    have hf := Server.formatBlockVal_good (num := start >>> (szx + 4)) (size := size2) (more := false)
    cases hv : formatBlockVal 3 (start >>> (szx + 4)) false size2 with
    | ub => exact absurd hv hf.1
    | err e => exact Or.inl ⟨_, rfl⟩
    | ok val =>
      have hv3 := hf.2 _ hv
      simp only
      split
      · exact Or.inl ⟨_, rfl⟩
      · exact Or.inr ⟨_, rfl, hpm.addOp (by omega)⟩

theorem take2_good {method size2 start bodyLen : Nat} {resp : Msg} {body : Bytes} (hn : NoEmptyBlock resp) (hl : bodyLen ≤ body.length) :
    (∃ r b, take2 method size2 start resp body bodyLen = .ok (.ret r b) ∧ b.length = body.length) ∨
    ∃ s z st b, take2 method size2 start resp body bodyLen = .ok (.next s z st b) ∧ b.length = body.length := by
  unfold take2
  split
  · exact Or.inl ⟨_, _, rfl, rfl⟩
  split
  · exact Or.inl ⟨_, _, rfl, rfl⟩
  cases hb : parseBlockOp BLOCK2 resp.ops with
  | ub => exact absurd hb (Server.parseBlockOp_good hn)
  | err e => exact Or.inl ⟨_, _, rfl, rfl⟩
  | ok o =>
    cases o with
    | none => exact Or.inl ⟨_, _, rfl, rfl⟩
    | some blk =>
      simp only
      generalize (if blk.size < size2 then blk.size else size2) = sz
      split
      · exact Or.inl ⟨_, _, rfl, rfl⟩
      cases hz : calcBlockSzx sz with
      | ub => exact absurd hz (Server.calcBlockSzx_ne _)
      | err e => exact Or.inl ⟨_, _, rfl, rfl⟩
      | ok szx =>
        simp only
        split
        · exact Or.inl ⟨_, _, rfl, rfl⟩
        split
        · exact Or.inl ⟨_, _, rfl, rfl⟩
        split
        · exact Or.inl ⟨_, _, rfl, rfl⟩
        rename_i hs
        have hw := wrs_ok (buf := body) (bs := resp.payload) (p := start) (by omega)
        have hlen := wrs_length hw
        rw [hw]
        simp only
        split
        · exact Or.inl ⟨_, _, rfl, hlen⟩
        · exact Or.inr ⟨_, _, _, _, rfl, hlen⟩

/-- A blockwise function came to an end or is waiting, with a buffer of the same size, and a
response without empty Block options. -/
def Ends (n : Nat) (x : Out BRes) : Prop := ∃ r, x = .ok r ∧ r.body.length = n

theorem Ends.cons {n : Nat} {x : Out BRes} (h : Ends n x) (o : List Obs) : Ends n (BRes.cons o x) := by
  obtain ⟨r, rfl, h⟩ := h
  exact ⟨_, rfl, h⟩

theorem blockwise2_good {sx px : Bool} {req : Msg} {bodyLen : Nat} (hr : Built req) (hp : Plain req) {bs : List BEnv} :
    ∀ {size2 szx start : Nat} {resp : Msg} {body : Bytes}, (∀ b ∈ bs, Quiet sx b) → bodyLen ≤ body.length →
      Ends body.length (blockwise2 sx px req bodyLen size2 szx start resp body bs) := by
  induction bs with
  | nil => intro size2 szx start resp body _ _; exact ⟨_, rfl, rfl⟩
  | cons b bs ih =>
    intro size2 szx start resp body hq hl
    rw [blockwise2]
    rcases message2_good (b := b) (size2 := size2) (szx := szx) (start := start) hp with ⟨e, h1⟩ | ⟨m, h1, hpm⟩
    · rw [h1]; exact ⟨_, rfl, rfl⟩
    rw [h1]
    simp only
    have hqb := hq b List.mem_cons_self
    obtain ⟨o, r, h2⟩ := exchange_good (sx := sx) (px := px) (x := b.x) hpm hqb.short
    rw [h2]
    rcases r with - | r
    · exact ⟨_, rfl, rfl⟩
    rcases r with e | resp'
    · exact ⟨_, rfl, rfl⟩
    simp only
    have hne := exchange_noEmpty (message2_built hr h1) hqb h2
    rcases take2_good (method := req.codeDetail) (size2 := size2) (start := start) hne hl with ⟨r, b', h3, hb⟩ | ⟨s, z, st, b', h3, hb⟩
    · rw [h3]; exact ⟨_, rfl, hb⟩
    · rw [h3]
      simp only
      have := ih (size2 := s) (szx := z) (start := st) (resp := create) (body := b')
        (fun c hc => hq c (List.mem_cons_of_mem _ hc)) (by omega)
      rw [hb] at this
      exact this.cons o

theorem download_good {sx px : Bool} {req resp : Msg} {size2 bodyLen : Nat} {body : Bytes} {have' : Bool} {bs : List BEnv}
    (hr : Built req) (hp : Plain req) (hn : have' = true → NoEmptyBlock resp) (hq : ∀ b ∈ bs, Quiet sx b)
    (hl : bodyLen ≤ body.length) : Ends body.length (download sx px req resp size2 body bodyLen have' bs) := by
  unfold download
  split
  · exact ⟨_, rfl, rfl⟩
  cases hz : calcBlockSzx size2 with
  | ub => exact absurd hz (Server.calcBlockSzx_ne _)
  | err e => exact ⟨_, rfl, rfl⟩
  | ok szx =>
    simp only
    split
    · exact blockwise2_good hr hp hq hl
    · rename_i hh
      rcases take2_good (method := req.codeDetail) (size2 := size2) (start := 0) (hn (by simpa using hh)) hl with
        ⟨r, b', h3, hb⟩ | ⟨s, z, st, b', h3, hb⟩
      · rw [h3]; exact ⟨_, rfl, hb⟩
      · rw [h3]
        simp only
        rw [← hb]
        exact blockwise2_good hr hp hq (by omega)

theorem message1_built {b : BEnv} {req m : Msg} {size1 size2 szx start bodyLen n : Nat} {body : Bytes} (hr : Built req)
    (h : message1 b req size1 size2 szx start body bodyLen = .ok (.ok (m, n))) : Built m := by
  unfold message1 at h
  rw [hr.copy] at h
  simp only at h
  split at h
  · cases h
  split at h
  · cases h
  · cases h
  split at h
  · cases h
  split at h
  · cases h
  · cases h
  rename_i msg hm
  have hmsg : Built msg := by
    split at hm
    · cases hm
      exact hr.addOp _ _
    · split at hm
      · cases hm
      · cases hm
      split at hm
      · cases hm
      cases hm
      exact (hr.addOp _ _).addOp _ _
  split at h
  · cases h
  · cases h
  split at h
  · cases h
  cases h
  exact ⟨hmsg.ver, hmsg.type, hmsg.cls, hmsg.detail, hmsg.msgId, hmsg.token, hmsg.sorted⟩

theorem blockwise1_good {sx px : Bool} {req : Msg} {size2 bodyLen : Nat} {body : Bytes} (hr : Built req) (hp : Plain req)
    (hl : bodyLen ≤ body.length) {bs : List BEnv} :
    ∀ {size1 szx start : Nat} {resp : Msg}, (∀ b ∈ bs, Quiet sx b) → start ≤ bodyLen →
      ∃ r, blockwise1 sx px req size2 body bodyLen size1 szx start resp bs = .ok r ∧ r.body = body ∧
        (∀ n, r.ret = some (.ok n) → NoEmptyBlock r.resp) := by
  induction bs with
  | nil => intro size1 szx start resp _ _; exact ⟨_, rfl, rfl, by intro n h; cases h⟩
  | cons b bs ih =>
    intro size1 szx start resp hq hs
    rw [blockwise1]
    rcases message1_good (b := b) (size1 := size1) (size2 := size2) (szx := szx) (start := start) hp hl hs with
      ⟨e, h1⟩ | ⟨m, n, h1, hpm⟩
    · rw [h1]; exact ⟨_, rfl, rfl, by intro n h; cases h⟩
    rw [h1]
    simp only
    have hqb := hq b List.mem_cons_self
    obtain ⟨o, r, h2⟩ := exchange_good (sx := sx) (px := px) (x := b.x) hpm hqb.short
    rw [h2]
    rcases r with - | r
    · exact ⟨_, rfl, rfl, by intro n h; cases h⟩
    rcases r with e | resp'
    · exact ⟨_, rfl, rfl, by intro n h; cases h⟩
    simp only
    have hne := exchange_noEmpty (message1_built hr h1) hqb h2
    split
    · exact ⟨_, rfl, rfl, fun _ _ => hne⟩
    split
    · exact ⟨_, rfl, rfl, fun _ _ => hne⟩
    cases hb : parseBlockOp BLOCK1 resp'.ops with
    | ub => exact absurd hb (Server.parseBlockOp_good hne)
    | err e => exact ⟨_, rfl, rfl, fun _ _ => hne⟩
    | ok q =>
      cases q with
      | none => exact ⟨_, rfl, rfl, fun _ _ => hne⟩
      | some blk =>
        simp only
        generalize (if blk.size < size1 then blk.size else size1) = sz
        split
        · exact ⟨_, rfl, rfl, fun _ _ => hne⟩
        cases hz : calcBlockSzx sz with
        | ub => exact absurd hz (Server.calcBlockSzx_ne _)
        | err e => exact ⟨_, rfl, rfl, fun _ _ => hne⟩
        | ok szx' =>
          simp only
          split
          · exact ⟨_, rfl, rfl, fun _ _ => hne⟩
          · obtain ⟨r, h3, h4, h5⟩ := ih (size1 := sz) (szx := szx') (start := start + n) (resp := create)
              (fun c hc => hq c (List.mem_cons_of_mem _ hc)) (message1_len hs h1)
            rw [h3]
            exact ⟨_, rfl, h4, h5⟩

theorem upload_good {sx px : Bool} {req resp : Msg} {size1 size2 bodyLen : Nat} {body : Bytes} {bs : List BEnv} (hr : Built req)
    (hp : Plain req) (hl : bodyLen ≤ body.length) (hq : ∀ b ∈ bs, Quiet sx b) :
    ∃ r, upload sx px req resp size1 size2 body bodyLen bs = .ok r ∧ r.body = body ∧
      (∀ n, r.ret = some (.ok n) → NoEmptyBlock r.resp) := by
  unfold upload
  split
  · exact ⟨_, rfl, rfl, by intro n h; cases h⟩
  cases hz : calcBlockSzx size1 with
  | ub => exact absurd hz (Server.calcBlockSzx_ne _)
  | err e => exact ⟨_, rfl, rfl, by intro n h; cases h⟩
  | ok szx =>
    simp only
    cases hz2 : calcBlockSzx size2 with
    | ub => exact absurd hz2 (Server.calcBlockSzx_ne _)
    | err e => exact ⟨_, rfl, rfl, by intro n h; cases h⟩
    | ok szx2 => exact blockwise1_good hr hp hl hq (Nat.zero_le _)

theorem exchangeBlockwise_good {sx px : Bool} {req resp : Msg} {size1 size2 bodyLen : Nat} {body : Bytes} {have' : Bool}
    {bs1 bs2 : List BEnv} (hr : Built req) (hp : Plain req) (hn : have' = true → NoEmptyBlock resp) (hl : bodyLen ≤ body.length)
    (hq1 : ∀ b ∈ bs1, Quiet sx b) (hq2 : ∀ b ∈ bs2, Quiet sx b) :
    ∃ r, exchangeBlockwise sx px req resp size1 size2 body bodyLen have' bs1 bs2 = .ok r := by
  unfold exchangeBlockwise
  split
  · obtain ⟨r, h, -⟩ := download_good (px := px) (size2 := size2) hr hp hn hq2 hl
    exact ⟨r, h⟩
  split
  · obtain ⟨r, h1, h2, h3⟩ := upload_good (px := px) (resp := resp) (size1 := size1) (size2 := size2) hr hp hl hq1
    rw [h1]
    simp only
    cases hret : r.ret with
    | none => exact ⟨_, rfl⟩
    | some y =>
      cases y with
      | error e => exact ⟨_, rfl⟩
      | ok n =>
        simp only
        split
        · exact ⟨_, rfl⟩
        split
        · exact ⟨_, rfl⟩
        obtain ⟨r2, h4, -⟩ := download_good (sx := sx) (px := px) (resp := r.resp) (size2 := size2) (body := r.body) (have' := true)
          hr hp (fun _ => h3 n hret) hq2 (by rw [h2]; exact hl)
        rw [h4]
        exact ⟨_, rfl⟩
  · exact ⟨_, rfl⟩

end FreeCoAP.Client
