import Verif.Server.LemmasCollect

/-! # Every event has an outcome: lemmas for C54 -/

namespace FreeCoAP.Server

open FreeCoAP.Msg
open FreeCoAP.Mem (Pool Call)

/-- The computation has a result with the property. -/
def Good {α : Type} (P : α → Prop) (o : Out α) : Prop := ∃ a, o = .ok a ∧ P a

theorem Good.ok {α : Type} {P : α → Prop} {a : α} (h : P a) : Good P (.ok a) := ⟨a, rfl, h⟩

theorem plain_nil {m : Msg} (h : m.ops = []) : Plain m := by intro o ho; rw [h] at ho; cases ho

theorem plain_of_ops {m m' : Msg} (h : Plain m) (e : m'.ops = m.ops) : Plain m' := by
  intro o ho; rw [e] at ho; exact h o ho

theorem Plain.addOp {m : Msg} (h : Plain m) {num : Nat} {val : Bytes} (hv : val.length < 13) : Plain (Msg.addOp m num val) := by
  intro o ho
  have ho : o ∈ opListAdd ⟨num, val⟩ m.ops := ho
  rw [opListAdd_eq] at ho
  have := (ins_perm (⟨num, val⟩ : Op) m.ops).mem_iff.1 ho
  rcases List.mem_cons.1 this with rfl | h'
  · exact ⟨fun _ => Or.inl hv, by show val.length + 5 < _; omega⟩
  · exact h o h'

theorem format_plain {m : Msg} (h : Plain m) : format m (List.replicate BUF_LEN 0) BUF_LEN ≠ .ub :=
  (C09_writes_inside_partial m (List.replicate BUF_LEN 0) BUF_LEN (by rw [List.length_replicate]; decide) (by decide)
    (fun o ho => (h o ho).1) (fun o ho => (h o ho).2)).1

theorem send_good {now : Nat} {e : Option Err} {t : Trans} {m : Msg} (h : Plain m) :
    Good (fun x => x.1.blk = t.blk ∧ x.1.resp = t.resp) (send now e t m) := by
  have hf := format_plain h
  unfold send
  cases hx : format m (List.replicate BUF_LEN 0) BUF_LEN with
  | ub => exact absurd hx hf
  | err e' => exact .ok ⟨rfl, rfl⟩
  | ok x =>
    obtain ⟨b, n⟩ := x
    cases e with
    | some e' => exact .ok ⟨rfl, rfl⟩
    | none => exact .ok ⟨rfl, rfl⟩

theorem formatBlockVal_good {num size : Nat} {more : Bool} : formatBlockVal 3 num more size ≠ .ub ∧
    ∀ v, formatBlockVal 3 num more size = .ok v → v.length = 3 := by
  unfold formatBlockVal
  cases hz : calcBlockSzx size with
  | ub => exact absurd hz (by unfold calcBlockSzx; repeat' split
                              all_goals simp)
  | err e => exact ⟨by simp, by intro v h; cases h⟩
  | ok szx =>
    rw [Out.bind_ok]
    simp only
    split
    · exact ⟨by simp, by intro v h; cases h⟩
    · exact ⟨by simp [Out.pure_eq], by intro v h; cases h; rfl⟩

theorem calcBlockSzx_ne (size : Nat) : calcBlockSzx size ≠ .ub := by
  unfold calcBlockSzx; repeat' split
  all_goals simp

/-- The transfer keeps inside its buffer. -/
def BlkOK (b : Blk) : Prop :=
  b.type = .regular ∨ ∃ p bytes, b.body = some (p, bytes) ∧ bytes.length = b.bodyLen ∧ b.bodyEnd ≤ b.bodyLen ∧
    ((b.type = .put1 ∨ b.type = .post1) → b.block1Next = b.bodyEnd ∧ b.block2Next = 0 ∧ b.blockRx ≠ none) ∧
    ((b.type = .get ∨ b.type = .put2 ∨ b.type = .post2) → b.block2Next ≤ b.bodyEnd)

/-- A result that can be sent. -/
def BOK (x : BRes) : Prop := BlkOK x.blk ∧ Plain x.resp

theorem BlkOK.none : BlkOK Blk.none := Or.inl rfl

theorem finishCode_good {b : Blk} {L : Large} {resp : Msg} {c d : Nat} (hc : c < 8) (hb : BlkOK b) (hr : Plain resp) :
    Good BOK (finishCode b L resp c d) := by
  rw [finishCode_cases b L resp c d hc]
  split
  · exact .ok ⟨hb, plain_of_ops hr rfl⟩
  · exact .ok ⟨hb, hr⟩

theorem clearCode_good {b : Blk} {L : Large} {resp : Msg} {c d : Nat} (hc : c < 8) (hr : Plain resp) :
    Good BOK (clearCode b L resp c d) := by
  unfold clearCode
  rw [clearBlockwise_fst]
  exact finishCode_good hc .none hr

theorem failClear_good {b : Blk} {L : Large} {resp : Msg} {e : Err} (hr : Plain resp) : Good BOK (failClear b L resp e) := by
  rw [failClear_eq]
  exact .ok ⟨.none, hr⟩

theorem nextBlock2_good {opMem payMem : Bool} {b : Blk} {L : Large} {req resp : Msg} {num2 : Nat} {uri : Bytes}
    (ht : b.type = .get ∨ b.type = .put2 ∨ b.type = .post2) (hb : BlkOK b) (hr : Plain resp) :
    Good BOK (nextBlock2 opMem payMem b L req resp num2 uri) := by
  obtain ⟨p, bytes, h1, h2, h3, -, h5⟩ := hb.resolve_left (by rcases ht with h | h | h <;> rw [h] <;> simp)
  have h5 := h5 ht
  unfold nextBlock2
  split
  · exact clearCode_good (by decide) hr
  · cases hz : calcBlockSzx b.block2Size with
    | ub => exact absurd hz (calcBlockSzx_ne _)
    | err e => exact failClear_good hr
    | ok szx =>
      simp only
      have hmore : ∀ more : Bool, (more = true → b.block2Next + b.block2Size ≤ b.bodyEnd) →
          Good BOK (match formatBlockVal 3 (b.block2Next >>> (szx + 4)) more b.block2Size with
            | .ub => .ub
            | .err e => failClear b L resp e
            | .ok val =>
              if opMem = false then failClear b L resp .ENOMEM
              else
                match b.body with
                | none => .ub
                | some (_, bytes) =>
                  if more = false ∧ b.bodyEnd < b.block2Next then .ub
                  else
                  match rds (bytes.drop b.block2Next) (if more then b.block2Size else b.bodyEnd - b.block2Next) with
                  | .ub => .ub
                  | .err e => .err e
                  | .ok payload =>
                    if payMem = false then failClear b L { addOp resp BLOCK2 val with payload := [] } .ENOMEM
                    else
                      if more then
                        finishCode { b with block2Next := b.block2Next + (if more then b.block2Size else b.bodyEnd - b.block2Next) } L
                          (setPayload (addOp resp BLOCK2 val) payload) 2 31
                      else
                        clearCode { b with block2Next := b.block2Next + (if more then b.block2Size else b.bodyEnd - b.block2Next) } L
                          (setPayload (addOp resp BLOCK2 val) payload) 2 (if b.type = .get then 5 else b.blockDetail)) := by
        intro more hm
        obtain ⟨hn, hl⟩ := @formatBlockVal_good (b.block2Next >>> (szx + 4)) b.block2Size more
        cases hv : formatBlockVal 3 (b.block2Next >>> (szx + 4)) more b.block2Size with
        | ub => exact absurd hv hn
        | err e => exact failClear_good hr
        | ok val =>
          have hr' : Plain (addOp resp BLOCK2 val) := hr.addOp (by rw [hl val hv]; decide)
          simp only
          split
          · exact failClear_good hr
          · rw [h1]
            simp only
            have : rds (bytes.drop b.block2Next) (if more then b.block2Size else b.bodyEnd - b.block2Next) =
                .ok ((bytes.drop b.block2Next).take (if more then b.block2Size else b.bodyEnd - b.block2Next)) := by
              unfold rds
              rw [if_pos]
              rw [List.length_drop]
              split
              · have := hm ‹_›; omega
              · omega
            rw [if_neg (by omega), this]
            simp only
            split
            · exact failClear_good (plain_of_ops hr' rfl)
            · split
              · rename_i hmm
                refine finishCode_good (by decide) (Or.inr ⟨p, bytes, rfl, h2, h3, ?_, ?_⟩) (plain_of_ops hr' rfl)
                · intro h; exfalso; simp only at h; rcases h with h | h <;> rw [h] at ht <;> simp at ht
                · intro _; exact hm hmm
              · exact clearCode_good (by decide) (plain_of_ops hr' rfl)
      exact hmore _ (by simp)

theorem rx_good {again : Blk → Large → Msg → Out BRes} {b : Blk} {L : Large} {p : Nat} {r : RxRes} {seen : List (Nat × Bytes)}
    (hag : ∀ b L resp, (b.type = .put2 ∨ b.type = .post2) → BlkOK b → Plain resp → Good BOK (again b L resp))
    (hbl : r.body.length = b.bodyLen) (hbe : r.bodyEnd ≤ b.bodyLen) (h5 : b.block2Next = 0) (hbp : Plain r.resp) :
    Good BOK
      (match r.err with
      | some e => .ok ⟨(clearBlockwise { b with body := some (p, r.body), bodyEnd := r.bodyEnd } L).1,
          (clearBlockwise { b with body := some (p, r.body), bodyEnd := r.bodyEnd } L).2, r.resp, some e, seen⟩
      | none =>
        if r.resp.codeClass ≠ 2 then
          .ok ⟨(clearBlockwise { b with body := some (p, r.body), bodyEnd := r.bodyEnd } L).1,
            (clearBlockwise { b with body := some (p, r.body), bodyEnd := r.bodyEnd } L).2, r.resp, none, seen⟩
        else if r.bodyEnd > 0 then
          match again { b with
              body := some (p, r.body), bodyEnd := r.bodyEnd
              type := if b.type = .put1 then .put2 else .post2
              blockDetail := r.resp.codeDetail } L r.resp with
          | .ok x => .ok { x with rx := seen ++ x.rx }
          | .err e => .err e
          | .ub => .ub
        else
          match clearCode { b with body := some (p, r.body), bodyEnd := r.bodyEnd } L r.resp 2 r.resp.codeDetail with
          | .ok x => .ok { x with rx := seen ++ x.rx }
          | .err e => .err e
          | .ub => .ub) := by
  cases he : r.err with
  | some e => exact .ok ⟨by rw [clearBlockwise_fst]; exact .none, hbp⟩
  | none =>
    dsimp only
    by_cases hc : r.resp.codeClass ≠ 2
    · rw [if_pos hc]
      exact .ok ⟨by rw [clearBlockwise_fst]; exact .none, hbp⟩
    rw [if_neg hc]
    by_cases hz : r.bodyEnd > 0
    · rw [if_pos hz]
      have hg := hag { b with
          body := some (p, r.body), bodyEnd := r.bodyEnd,
          type := if b.type = .put1 then .put2 else .post2,
          blockDetail := r.resp.codeDetail } L r.resp ?_ ?_ hbp
      · obtain ⟨x, hx, hp⟩ := hg
        rw [hx]
        exact .ok hp
      · dsimp only
        split
        · exact Or.inl rfl
        · exact Or.inr rfl
      · refine Or.inr ⟨p, r.body, rfl, hbl, hbe, ?_, ?_⟩
        · intro h; exfalso; dsimp only at h; split at h <;> rcases h with h | h <;> cases h
        · intro _
          show b.block2Next ≤ r.bodyEnd
          rw [h5]
          exact Nat.zero_le _
    · rw [if_neg hz]
      obtain ⟨x, hx, hp⟩ := clearCode_good (b := { b with body := some (p, r.body), bodyEnd := r.bodyEnd })
          (L := L) (resp := r.resp) (c := 2) (d := r.resp.codeDetail) (by decide) hbp
      rw [hx]
      exact .ok hp

theorem nextBlock1_good {env : Env} {again : Blk → Large → Msg → Out BRes} {b : Blk} {L : Large} {req resp : Msg}
    {num1 : Nat} {more1 : Bool} {uri : Bytes} (ha : AppSafe env)
    (hag : ∀ b L resp, (b.type = .put2 ∨ b.type = .post2) → BlkOK b → Plain resp → Good BOK (again b L resp))
    (ht : b.type = .put1 ∨ b.type = .post1) (hb : BlkOK b) (hr : Plain resp) :
    Good BOK (nextBlock1 env again b L req resp num1 more1 uri) := by
  obtain ⟨p, bytes, h1, h2, h3, h4, -⟩ := hb.resolve_left (by rcases ht with h | h <;> rw [h] <;> simp)
  obtain ⟨h4, h5, h6⟩ := h4 ht
  obtain ⟨id, h6⟩ := Option.ne_none_iff_exists'.1 h6
  unfold nextBlock1
  split
  · exact clearCode_good (by decide) hr
  split
  · exact clearCode_good (by decide) hr
  split
  · exact clearCode_good (by decide) hr
  cases hz : calcBlockSzx b.block1Size with
  | ub => exact absurd hz (calcBlockSzx_ne _)
  | err e => exact failClear_good hr
  | ok szx =>
    simp only
    split
    · exact clearCode_good (by decide) hr
    rename_i hfit
    obtain ⟨hn, hl⟩ := @formatBlockVal_good (b.block1Next >>> (szx + 4)) b.block1Size more1
    cases hv : formatBlockVal 3 (b.block1Next >>> (szx + 4)) more1 b.block1Size with
    | ub => exact absurd hv hn
    | err e => exact failClear_good hr
    | ok val =>
      have hr' : Plain (addOp resp BLOCK1 val) := hr.addOp (by rw [hl val hv]; decide)
      simp only
      split
      · exact failClear_good hr
      rw [h1]
      simp only
      have hw := wrs_ok (buf := bytes) (p := b.block1Next) (bs := req.payload) (by omega)
      have hwl := wrs_length hw
      rw [hw]
      simp only
      generalize bytes.take b.block1Next ++ req.payload ++ bytes.drop (b.block1Next + req.payload.length) = bytes' at hwl ⊢
      split
      · refine finishCode_good (by decide) (Or.inr ⟨p, bytes', rfl, ?_, ?_, ?_, ?_⟩) hr'
        · simp only; omega
        · simp only; omega
        · intro _; exact ⟨by simp only; omega, h5, by simp only [h6]; simp⟩
        · intro h; exfalso; simp only at h; rcases ht with h' | h' <;> rw [h'] at h <;> simp at h
      · rw [h6]
        simp only
        have hbl := ha.rxBody id bytes' (b.bodyEnd + req.payload.length) req (addOp resp BLOCK1 val)
        have hbe := ha.rxEnd id bytes' (b.bodyEnd + req.payload.length) req (addOp resp BLOCK1 val)
          (by rw [hwl]; omega)
        have hbp := ha.rx id bytes' (b.bodyEnd + req.payload.length) req (addOp resp BLOCK1 val) hr'
        generalize env.rx id bytes' (b.bodyEnd + req.payload.length) req (addOp resp BLOCK1 val) = r at hbl hbe hbp ⊢
        rw [if_neg (fun h => h hbl)]
        exact rx_good hag (b := { b with
          body := some (p, bytes'), block1Next := b.block1Next + req.payload.length, bodyEnd := b.bodyEnd + req.payload.length,
          blockRx := some id })
          (hbl.trans (hwl.trans h2)) (Nat.le_trans hbe (Nat.le_of_eq (hwl.trans h2))) h5 hbp

theorem parseBlockOp_good : ∀ {ops : List Op} {type : Nat},
    (∀ o ∈ ops, (o.num = BLOCK1 ∨ o.num = BLOCK2) → o.val ≠ []) → parseBlockOp type ops ≠ .ub
  | [], _, _ => by simp [parseBlockOp]
  | op :: rest, type, h => by
    unfold parseBlockOp
    split
    · rename_i hc
      have hv := h op List.mem_cons_self (by rcases hc with h | h; exact Or.inl h.1; exact Or.inr h.1)
      intro hu
      rcases Out.bind_eq_ub.1 hu with hu | ⟨a, -, hu⟩
      · exact parseBlockVal_ne hv hu
      · cases hu
    · exact parseBlockOp_good fun o ho => h o (List.mem_cons_of_mem _ ho)
where
  parseBlockVal_ne {val : Bytes} (hv : val ≠ []) : parseBlockVal val val.length ≠ .ub := by
    unfold parseBlockVal
    match val, hv with
    | [a], _ => simp [rd]; split <;> simp
    | [a, b], _ => simp [rd]; split <;> simp
    | a :: b :: c :: r, _ => simp [rd]; split <;> simp

theorem BlkOK.shrink1 {b : Blk} (h : BlkOK b) (o : Option Block) : BlkOK (Server.shrink1 b o) ∧ (Server.shrink1 b o).type = b.type := by
  unfold Server.shrink1
  cases o with
  | none => exact ⟨h, rfl⟩
  | some o => simp only; split <;> exact ⟨h, rfl⟩

theorem BlkOK.shrink2 {b : Blk} (h : BlkOK b) (o : Option Block) : BlkOK (Server.shrink2 b o) ∧ (Server.shrink2 b o).type = b.type := by
  unfold Server.shrink2
  cases o with
  | none => exact ⟨h, rfl⟩
  | some o => simp only; split <;> exact ⟨h, rfl⟩

theorem nextBlockStep_good {env : Env} {opMem : Bool} {again : Blk → Large → Msg → Out BRes} {b : Blk} {L : Large} {req resp : Msg}
    (ha : AppSafe env) (hq : NoEmptyBlock req)
    (hag : (b.type = .put1 ∨ b.type = .post1) →
      ∀ b L resp, (b.type = .put2 ∨ b.type = .post2) → BlkOK b → Plain resp → Good BOK (again b L resp))
    (hb : BlkOK b) (hr : Plain resp) : Good BOK (nextBlockStep env opMem again b L req resp) := by
  unfold nextBlockStep
  cases h1 : parseBlockOp BLOCK1 req.ops with
  | ub => exact absurd h1 (parseBlockOp_good hq)
  | err e => exact clearCode_good (by decide) hr
  | ok o1 =>
    simp only
    cases h2 : parseBlockOp BLOCK2 req.ops with
    | ub => exact absurd h2 (parseBlockOp_good hq)
    | err e => exact clearCode_good (by decide) hr
    | ok o2 =>
      simp only
      rw [uriStr_eq 257 req.ops (by decide)]
      simp only
      have e1 := hb.shrink1 o1
      have e2 := e1.1.shrink2 o2
      rw [e1.2] at e2
      rw [← e2.2] at hag
      have hb' := e2.1
      generalize Server.shrink2 (Server.shrink1 b o1) o2 = b' at hb' hag
      cases ht : b'.type with
      | regular => exact .ok ⟨hb', hr⟩
      | get => exact nextBlock2_good (Or.inl ht) hb' hr
      | put2 => exact nextBlock2_good (Or.inr (Or.inl ht)) hb' hr
      | post2 => exact nextBlock2_good (Or.inr (Or.inr ht)) hb' hr
      | put1 => exact nextBlock1_good ha (hag (Or.inl ht)) (Or.inl ht) hb' hr
      | post1 => exact nextBlock1_good ha (hag (Or.inr ht)) (Or.inr ht) hb' hr

theorem nextBlock_good {env : Env} {b : Blk} {L : Large} {req resp : Msg}
    (ha : AppSafe env) (hq : NoEmptyBlock req) (hb : BlkOK b) (hr : Plain resp) : Good BOK (nextBlock env b L req resp) := by
  refine nextBlockStep_good ha hq (fun _ b L resp ht hb hr => ?_) hb hr
  refine nextBlockStep_good ha hq (fun h => ?_) hb hr
  exfalso
  rcases ht with ht | ht <;> rw [ht] at h <;> simp at h

theorem handleBlockwise_good {env : Env} {b : Blk} {L : Large} {req resp : Msg} {b1 b2 : Nat} {body : Bytes} {bodyLen : Nat}
    {rx : Option Nat} (ha : AppSafe env) (hq : NoEmptyBlock req) (hl : bodyLen ≤ body.length) (hr : Plain resp) :
    Good BOK (handleBlockwise env b L req resp b1 b2 body bodyLen rx) := by
  unfold handleBlockwise
  simp only
  generalize (clearBlockwise b L).2 = L
  split
  · exact .ok ⟨.none, hr⟩
  split
  · exact .ok ⟨.none, hr⟩
  split
  · exact .ok ⟨.none, hr⟩
  rename_i hlen
  cases hal : L.alloc bodyLen with
  | mk q L' =>
    cases q with
    | none => exact .ok ⟨.none, hr⟩
    | some p =>
      have hL : L'.pool.len = L.pool.len := alloc_len hal
      simp only
      rw [uriStr_eq 257 req.ops (by decide)]
      split
      · have e1 : rds body bodyLen = .ok (body.take bodyLen) := by unfold rds; rw [if_pos hl]
        rw [e1]
        simp only
        have hw := wrs_ok (buf := List.replicate L'.pool.len (0 : UInt8)) (p := 0) (bs := body.take bodyLen)
          (by rw [List.length_replicate, List.length_take]; omega)
        have hwl := wrs_length hw
        rw [hw]
        simp only
        refine nextBlock_good ha hq (Or.inr ⟨p, _, rfl, ?_, ?_, ?_, ?_⟩) hr
        · simp only
          rw [hwl, List.length_replicate]
        · simp only; omega
        · intro h; simp at h
        · intro _; exact Nat.zero_le _
      · split
        · cases rx with
          | none => exact .ok ⟨.none, hr⟩
          | some r =>
            simp only
            refine nextBlock_good ha hq (Or.inr ⟨p, List.replicate L'.pool.len 0, rfl, ?_, ?_, ?_, ?_⟩) hr
            · simp only [List.length_replicate]
            · exact Nat.zero_le _
            · intro _; exact ⟨rfl, rfl, by simp⟩
            · intro h; exfalso; simp only at h; split at h <;> simp at h
        · exact clearCode_good (by decide) hr

theorem badOption_good {env : Env} {num : Nat} : Good (fun x => Plain x.1) (badOption env create num) := by
  have h : setOut (setCode create 4 2) create = .ok (withCode create 4 2, none) := rfl
  unfold badOption
  rw [h]
  simp only
  split
  · exact .ok (plain_nil rfl)
  · exact .ok (plain_nil rfl)

theorem generate_good {env : Env} {t : Trans} {L : Large} {req : Msg} (ha : AppSafe env) (hq : NoEmptyBlock req)
    (hb : BlkOK t.blk) : Good (fun x => BOK x.1) (generate env t L req) := by
  unfold generate
  split
  · obtain ⟨⟨r, e⟩, h, hp⟩ := badOption_good (env := env) (num := checkCriticalOps req.ops)
    rw [h]
    exact .ok ⟨hb, hp⟩
  split
  · obtain ⟨r, h, hp⟩ := nextBlock_good (L := L) ha hq hb (plain_nil (m := create) rfl)
    rw [h]
    exact .ok hp
  cases hh : env.handle t req with
  | reply resp err =>
    have := ha.handle t req
    rw [hh] at this
    exact .ok ⟨hb, this⟩
  | blockwise resp b1 b2 body bodyLen rx =>
    have : Plain resp := by have := ha.handle t req; rw [hh] at this; exact this
    obtain ⟨r, h, hp⟩ := handleBlockwise_good (b := t.blk) (L := L) (b1 := b1) (b2 := b2) (rx := rx) ha hq
      (ha.body t req _ _ _ _ _ _ hh) this
    simp only
    rw [h]
    exact .ok hp

/-- What the server needs of a transaction. -/
def TOK (t : Trans) : Prop := BlkOK t.blk ∧ Plain t.resp

theorem TOK.zero : TOK Trans.zero := ⟨.none, plain_nil rfl⟩

theorem failT_good {t : Trans} {L : Large} {id : Nat} {o : List Obs} {e : Option Err} : Good (fun r => TOK r.trans) (failT t L id o e) :=
  .ok .zero

theorem copy_good {m : Msg} : copy create m ≠ .ub ∧ ∀ m', copy create m = .ok m' → Plain m → Plain m' := by
  unfold copy setType setCode setMsgId setToken
  refine ⟨?_, ?_⟩
  · repeat' split
    all_goals simp
  · intro m' h hp
    repeat' split at h
    all_goals first | cases h | skip
    have : ∀ (ops : List Op) (d : Msg), Plain d → (∀ o ∈ ops, (o.num < 13 → o.val.length < 13 ∨ 269 ≤ o.val.length) ∧
        o.val.length + 5 < 2 ^ 32) → Plain (copyOps d ops) := by
      intro ops
      induction ops with
      | nil => intro d hd _; exact hd
      | cons o r ih =>
        intro d hd ho
        refine ih _ ?_ (fun o' ho' => ho o' (List.mem_cons_of_mem _ ho'))
        intro o' ho'
        have ho' : o' ∈ opListAdd ⟨o.num, o.val⟩ d.ops := ho'
        rw [opListAdd_eq] at ho'
        rcases List.mem_cons.1 ((ins_perm (⟨o.num, o.val⟩ : Op) d.ops).mem_iff.1 ho') with rfl | h'
        · exact ho o List.mem_cons_self
        · exact hd o' h'
    exact plain_of_ops (this m.ops _ (plain_nil rfl) hp) rfl

theorem record_good {env : Env} {t : Trans} {L : Large} {id : Nat} {o : List Obs} {req resp : Msg}
    (hb : BlkOK t.blk) (hr : Plain resp) : Good (fun r => TOK r.trans) (record env t L id o req resp) := by
  unfold record
  cases h1 : copy create req with
  | ub => exact absurd h1 copy_good.1
  | err e => exact failT_good
  | ok q =>
    simp only
    split
    · exact failT_good
    cases h2 : copy create resp with
    | ub => exact absurd h2 copy_good.1
    | err e => exact failT_good
    | ok r =>
      have hp := copy_good.2 r h2 hr
      simp only
      split
      · exact failT_good
      split
      · unfold startAckTimer
        cases env.timerErr with
        | some e => exact failT_good
        | none => exact .ok ⟨hb, hp⟩
      · exact .ok ⟨hb, hp⟩

theorem finish_good {env : Env} {t : Trans} {L : Large} {id : Nat} {o : List Obs} {sep : Bool} {req resp : Msg}
    (hb : BlkOK t.blk) (hr : Plain resp) : Good (fun r => TOK r.trans) (finish env t L id o sep req resp) := by
  unfold finish
  simp only
  generalize (if decide (req.type = CON ∧ sep = false) = true then id else nextMsgId id env.idRand) = id'
  generalize (if decide (req.type = CON ∧ sep = false) = true then req.msgId else id') = i2
  generalize (if req.type = CON then (if sep = false then ACK else CON) else NON) = ty
  unfold setMsgId
  by_cases hi : i2 > (1 <<< 16) - 1
  · rw [if_pos hi]; exact failT_good
  rw [if_neg hi]
  simp only
  unfold setToken
  by_cases hk : req.token.length > 8
  · rw [if_pos hk]; exact failT_good
  rw [if_neg hk]
  simp only
  unfold setType
  by_cases hy : ty ≠ CON ∧ ty ≠ NON ∧ ty ≠ ACK ∧ ty ≠ RST
  · rw [if_pos hy]; exact failT_good
  rw [if_neg hy]
  simp only
  have hr' : Plain { resp with msgId := i2, token := req.token, type := ty } := plain_of_ops hr rfl
  obtain ⟨⟨t', o2, e⟩, h, h1, -⟩ := send_good (now := env.now) (e := env.sendErr) (t := t) hr'
  rw [h]
  cases e with
  | some e => exact failT_good
  | none => exact record_good (by rw [h1]; exact hb) hr'

theorem respond_good {env : Env} {t : Trans} {L : Large} {id : Nat} {o : List Obs} {sep : Bool} {req : Msg} (ha : AppSafe env)
    (hq : NoEmptyBlock req) (hb : BlkOK t.blk) : Good (fun r => TOK r.trans) (respond env t L id o sep req) := by
  unfold respond
  obtain ⟨⟨r, o2⟩, h, hp⟩ := generate_good (L := L) ha hq hb
  rw [h]
  simp only
  cases he : r.err with
  | some e => exact failT_good
  | none => exact finish_good hp.1 hp.2

theorem emptyMsg_plain (type id : Nat) : Plain (emptyMsg type id) := plain_nil rfl

theorem request_good {sepList : List Bytes} {env : Env} {t : Trans} {L : Large} {id : Nat} {o : List Obs} {req : Msg}
    (ha : AppSafe env) (hq : NoEmptyBlock req) (hb : BlkOK t.blk) :
    Good (fun r => TOK r.trans) (request sepList env t L id o req) := by
  unfold request
  simp only
  split
  · rw [isSep_eq]
    by_cases hs : Separate sepList req
    · rw [decide_eq_true hs]
      simp only
      obtain ⟨⟨t', o2, e⟩, h, h1, -⟩ := send_good (now := env.now) (e := env.ackErr)
        (t := { t with req := destroyed, resp := destroyed }) (emptyMsg_plain ACK req.msgId)
      unfold sendAck
      rw [h]
      cases e with
      | some e => exact failT_good
      | none => exact respond_good ha hq (by rw [h1]; exact hb)
    · rw [decide_eq_false hs]
      exact respond_good ha hq hb
  · exact respond_good ha hq hb

theorem duplicate_good {sepList : List Bytes} {env : Env} {t : Trans} {L : Large} {id : Nat} {o : List Obs} {m : Msg}
    (ht : TOK t) : Good (fun r => TOK r.trans) (duplicate sepList env t L id o m) := by
  unfold duplicate
  rw [isSep_eq]
  by_cases hs : Separate sepList m
  · rw [decide_eq_true hs]
    simp only
    obtain ⟨⟨t', o2, e⟩, h, h1, h2⟩ := send_good (now := env.now) (e := env.ackErr) (t := t) (emptyMsg_plain ACK m.msgId)
    unfold sendAck
    rw [h]
    cases e with
    | some e => exact failT_good
    | none => exact .ok ⟨by rw [h1]; exact ht.1, by rw [h2]; exact ht.2⟩
  · rw [decide_eq_false hs]
    simp only
    obtain ⟨⟨t', o2, e⟩, h, h1, h2⟩ := send_good (now := env.now) (e := env.sendErr) (t := t) ht.2
    rw [h]
    cases e with
    | some e => exact failT_good
    | none => exact .ok ⟨by rw [h1]; exact ht.1, by rw [h2]; exact ht.2⟩

theorem received_good {sepList : List Bytes} {env : Env} {t : Trans} {L : Large} {id : Nat} {o : List Obs} {m : Msg}
    (ha : AppSafe env) (hq : NoEmptyBlock m) (ht : TOK t) : Good (fun r => TOK r.trans) (received sepList env t L id o m) := by
  unfold received
  split
  · exact duplicate_good ht
  split
  · exact .ok ht
  split
  · unfold stopAckTimer
    cases env.timerErr with
    | some e => exact failT_good
    | none => exact .ok ht
  split
  · unfold reject
    by_cases hc : m.type = CON
    · obtain ⟨⟨t', o2, e⟩, h, h1, h2⟩ := send_good (now := env.now) (e := env.rstErr) (t := t) (emptyMsg_plain RST m.msgId)
      rw [if_pos hc, h]
      exact failT_good
    · rw [if_neg hc]
      exact failT_good
  · exact request_good ha hq ht.1

theorem parseTypeMsgId_ne {mem : Bytes} {len : Nat} (h : 4 ≤ mem.length) : parseTypeMsgId mem len ≠ .ub := by
  unfold parseTypeMsgId
  split
  · simp
  · match mem, h with
    | a :: b :: c :: d :: r, _ => simp [rd, Out.pure_eq]

theorem recv_good {sx : Bool} {env : Env} {t : Trans} {d : Bytes} (hd : d.length < BUF_LEN) :
    Good (fun x => x.1.blk = t.blk ∧ x.1.resp = t.resp ∧ ∀ m, x.2.2 = .ok m → Carries sx d m) (recv sx env t d) := by
  unfold recv
  cases env.recvErr with
  | some e => exact .ok ⟨rfl, rfl, by intro m h; cases h⟩
  | none =>
    simp only
    split
    · exact .ok ⟨rfl, rfl, by intro m h; cases h⟩
    have hmin : min d.length BUF_LEN < (recvBuf d).length := by rw [recvBuf_length]; omega
    cases hp : parse sx (recvBuf d) (min d.length BUF_LEN) with
    | ub => exact absurd hp (parse_ne_ub hmin)
    | ok m => exact .ok ⟨rfl, rfl, by intro m' h; cases h; exact hp⟩
    | err e =>
      simp only
      split
      · unfold formatError
        cases ht : parseTypeMsgId (recvBuf d) (min d.length BUF_LEN) with
        | ub => exact absurd ht (parseTypeMsgId_ne (by rw [recvBuf_length]; decide))
        | err e => exact .ok ⟨rfl, rfl, by intro m h; cases h⟩
        | ok x =>
          obtain ⟨type, id⟩ := x
          simp only
          split
          · rename_i hx
            split at hx
            · obtain ⟨⟨t', o2, e'⟩, h, h1, h2⟩ := send_good (now := env.now) (e := env.rstErr) (t := t) (emptyMsg_plain RST id)
              rw [h] at hx
              cases hx
              exact .ok ⟨h1, h2, by intro m h; cases h⟩
            · cases hx
              exact .ok ⟨rfl, rfl, by intro m h; cases h⟩
          · rename_i hx
            split at hx
            · obtain ⟨⟨t', o2, e'⟩, h, h1, h2⟩ := send_good (now := env.now) (e := env.rstErr) (t := t) (emptyMsg_plain RST id)
              rw [h] at hx
              cases hx
            · cases hx
          · rename_i hx
            split at hx
            · obtain ⟨⟨t', o2, e'⟩, h, h1, h2⟩ := send_good (now := env.now) (e := env.rstErr) (t := t) (emptyMsg_plain RST id)
              rw [h] at hx
              cases hx
            · cases hx
      · exact .ok ⟨rfl, rfl, by intro m h; cases h⟩

theorem exchangeT_good {sx : Bool} {sepList : List Bytes} {env : Env} {t : Trans} {L : Large} {id : Nat} {d : Bytes}
    (ha : AppSafe env) (hd : Harmless sx d) (ht : TOK t) :
    Good (fun r => TOK r.trans) (exchangeT sx sepList env t L id d) := by
  unfold exchangeT
  obtain ⟨⟨t', o, x⟩, h, h1, h2, h3⟩ := recv_good (sx := sx) (env := env) (t := t) hd.1
  have ht' : TOK t' := by simp only at h1 h2; exact ⟨by rw [h1]; exact ht.1, by rw [h2]; exact ht.2⟩
  rw [h]
  cases x with
  | error e =>
    simp only
    split
    · exact .ok ht'
    · exact failT_good
  | ok m => exact received_good ha (hd.2 m (h3 m rfl)) ht'

theorem ackTimeout_good {env : Env} {t : Trans} {L : Large} {id : Nat} (ht : TOK t) :
    Good (fun r => TOK r.trans) (ackTimeout env t L id) := by
  unfold ackTimeout updateAckTimer
  split
  · rename_i hx
    split at hx
    · cases hx
    · simp only at hx
      split at hx
      · cases hx
      · cases hx
        obtain ⟨⟨t', o2, e⟩, h, h1, h2⟩ := send_good (now := env.now) (e := env.sendErr)
          (t := { t with timeout := (2 * t.timeout) % 2 ^ 32, armed := true, numRetrans := t.numRetrans + 1 }) (m := t.resp) ht.2
        rw [h]
        exact .ok ⟨by rw [h1]; exact ht.1, by rw [h2]; exact ht.2⟩
  · rename_i hx
    split at hx
    · cases hx
      exact failT_good
    · simp only at hx
      split at hx
      · cases hx
        split
        · exact failT_good
        · exact .ok ht
      · cases hx

/-- What the server needs of its state. -/
def SOK (s : Srv) : Prop := s.trans.length = NUM_TRANS ∧ ∀ t ∈ s.trans, TOK t

theorem SOK.set {s : Srv} (h : SOK s) {t : Trans} (ht : TOK t) {i id : Nat} {L : Large} :
    SOK { s with msgId := id, trans := s.trans.set i t, large := L } := by
  refine ⟨by simp only [List.length_set]; exact h.1, ?_⟩
  intro t' ht'
  rcases List.mem_or_eq_of_mem_set ht' with h' | rfl
  · exact h.2 t' h'
  · exact ht

theorem exchangeAt_good {sx : Bool} {env : Env} {s : Srv} {i : Nat} {d : Bytes} (ha : AppSafe env) (hd : Harmless sx d)
    (hs : SOK s) (hi : i < NUM_TRANS) : Good (fun r => SOK r.1) (exchangeAt sx env s i d) := by
  unfold exchangeAt
  cases hg : s.trans[i]? with
  | none => rw [List.getElem?_eq_none_iff, hs.1] at hg; omega
  | some t =>
    obtain ⟨r, h, hp⟩ := exchangeT_good (sepList := s.sepList) (L := s.large) (id := s.msgId) ha hd (hs.2 t (List.mem_of_getElem? hg))
    simp only
    rw [h]
    exact .ok (hs.set hp)

theorem findOldestLoop_lt : ∀ (ts : List Trans) (i mu old : Nat), old < i + ts.length → (ts = [] ∨ i + ts.length > 0) →
    findOldestLoop ts i mu old < i + ts.length
  | [], i, mu, old, h, _ => h
  | t :: ts, i, mu, old, h, _ => by
    unfold findOldestLoop
    simp only [List.length_cons] at h ⊢
    split
    · have := findOldestLoop_lt ts (i + 1) t.lastUse i (by omega) (Or.inr (by omega)); omega
    · have := findOldestLoop_lt ts (i + 1) mu old (by omega) (Or.inr (by omega)); omega

theorem makeRoom_good {s : Srv} (hs : SOK s) : (makeRoom s).1 < NUM_TRANS ∧ SOK (makeRoom s).2 := by
  unfold makeRoom
  cases hf : findEmpty s.trans with
  | some i =>
    refine ⟨?_, hs⟩
    have := (List.findIdx?_eq_some_iff_findIdx_eq.1 hf).1
    rw [hs.1] at this
    exact this
  | none =>
    have hlt : findOldest s.trans < NUM_TRANS := by
      have := findOldestLoop_lt s.trans 0 0 0 (by rw [hs.1]; decide) (Or.inr (by rw [hs.1]; decide))
      rw [hs.1] at this
      unfold findOldest
      omega
    simp only
    split
    · exact ⟨hlt, hs⟩
    · exact ⟨hlt, hs.set .zero⟩

theorem step_good {sx : Bool} {s : Srv} {env : Env} {ev : Event} (ha : AppSafe env)
    (hd : ∀ a d, ev = .datagram a d → Harmless sx d) (hs : SOK s) : Good (fun r => SOK r.1) (step sx s env ev) := by
  cases ev with
  | appId => exact .ok ⟨hs.1, hs.2⟩
  | timer i =>
    change Good _ (Server.timer env s i)
    unfold Server.timer
    cases hg : s.trans[i]? with
    | none => exact .ok hs
    | some t =>
      simp only
      split
      · obtain ⟨r, h, hp⟩ := ackTimeout_good (env := env) (L := s.large) (id := s.msgId) (hs.2 t (List.mem_of_getElem? hg))
        rw [h]
        exact .ok (hs.set hp)
      · exact .ok hs
  | datagram a d =>
    change Good _ (exchange sx env s a d)
    unfold exchange
    cases env.acceptErr with
    | some e => exact .ok hs
    | none =>
      simp only
      cases hf : findTrans s.trans a with
      | some i =>
        have := (List.findIdx?_eq_some_iff_findIdx_eq.1 hf).1
        rw [hs.1] at this
        exact exchangeAt_good ha (hd a d rfl) hs this
      | none =>
        have hm := makeRoom_good hs
        generalize makeRoom s = x at hm
        obtain ⟨i, s'⟩ := x
        simp only at hm ⊢
        unfold createT
        cases env.createErr with
        | some e => exact .ok (hm.2.set .zero)
        | none =>
          simp only
          refine exchangeAt_good ha (hd a d rfl) (hm.2.set ⟨.none, plain_nil rfl⟩) hm.1

theorem run_good {sx : Bool} : ∀ {evs : List (Env × Event)} {s : Srv},
    (∀ x ∈ evs, AppSafe x.1 ∧ ∀ a d, x.2 = .datagram a d → Harmless sx d) → SOK s → Good (fun r => SOK r.1) (run sx s evs)
  | [], s, _, hs => .ok hs
  | (env, ev) :: rest, s, h, hs => by
    obtain ⟨⟨s1, o, e⟩, h1, hp⟩ := step_good (h _ List.mem_cons_self).1 (h _ List.mem_cons_self).2 hs
    obtain ⟨⟨s2, os⟩, h2, hp2⟩ := run_good (evs := rest) (fun x hx => h x (List.mem_cons_of_mem _ hx)) hp
    unfold run
    rw [h1]
    simp only at h2 ⊢
    rw [h2]
    exact .ok hp2

theorem init_sok (id : Nat) (sepList : List Bytes) (pool : Pool) : SOK (init id sepList pool) := by
  refine ⟨List.length_replicate, ?_⟩
  intro t ht
  rw [List.eq_of_mem_replicate ht]
  exact .zero

end FreeCoAP.Server
