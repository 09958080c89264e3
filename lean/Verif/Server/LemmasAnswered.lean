import Verif.Server.SpecAnswered
import Verif.Server.LemmasReply

/-! # Every request is answered -/

namespace FreeCoAP.Server

open FreeCoAP.Msg

/-- The block sizes and the code of a transfer are valid. -/
def Sizes (b : Blk) : Prop :=
  b.type ≠ .regular → BlockSize b.block2Size ∧ b.blockDetail < 32 ∧ (b.type = .put1 ∨ b.type = .post1 → BlockSize b.block1Size)

theorem Sizes.none : Sizes Blk.none := fun h => absurd rfl h

theorem Sizes.shrink {b : Blk} {o1 o2 : Option Block} {ops : List Op} (hb : Sizes b) (h1 : parseBlockOp BLOCK1 ops = .ok o1)
    (h2 : parseBlockOp BLOCK2 ops = .ok o2) : Sizes (shrink b o1 o2) := by
  intro ht
  obtain ⟨g1, g2, g3⟩ := hb ht
  exact ⟨sizeOf2_block h2 g1, g2, fun h => sizeOf2_block h1 (g3 h)⟩

/-- A response with the Block options only. -/
structure Neat (x : Msg) : Prop where
  built : Built x
  code : x.codeClass ≠ 0
  payload : x.payload.length ≤ 1024
  ops : x.ops = [] ∨ (∃ v, v.length = 3 ∧ x.ops = [⟨BLOCK1, v⟩]) ∨ (∃ v, v.length = 3 ∧ x.ops = [⟨BLOCK2, v⟩]) ∨
    (∃ v w, v.length = 3 ∧ w.length = 3 ∧ x.ops = [⟨BLOCK2, v⟩, ⟨BLOCK1, w⟩])

/-- The response before the code is set. -/
structure Begun (x : Msg) : Prop where
  built : Built x
  payload : x.payload.length ≤ 1024
  ops : x.ops = [] ∨ (∃ v, v.length = 3 ∧ x.ops = [⟨BLOCK1, v⟩])

theorem Begun.withCode {x : Msg} {c d : Nat} (h : Begun x) (h0 : c ≠ 0) (hc : c < 8) (hd : d < 32) : Neat (withCode x c d) :=
  ⟨h.built.withCode hc hd, h0, h.payload, by
    rcases h.ops with h | ⟨v, h1, h2⟩
    · exact Or.inl h
    · exact Or.inr (Or.inl ⟨v, h1, h2⟩)⟩

theorem Begun.block2 {x : Msg} {d : Nat} {val pl : Bytes} (h : Begun x) (hv : val.length = 3) (hp : pl.length ≤ 1024) (hd : d < 32) :
    Neat (Server.withCode (setPayload (addOp x BLOCK2 val) pl) 2 d) := by
  refine ⟨((h.built.addOp _ _).setPayload _).withCode (by decide) hd, show (2 : Nat) ≠ 0 by decide, hp, ?_⟩
  show (addOp x BLOCK2 val).ops = [] ∨ (∃ v, v.length = 3 ∧ (addOp x BLOCK2 val).ops = [⟨BLOCK1, v⟩]) ∨
    (∃ v, v.length = 3 ∧ (addOp x BLOCK2 val).ops = [⟨BLOCK2, v⟩]) ∨
    (∃ v w, v.length = 3 ∧ w.length = 3 ∧ (addOp x BLOCK2 val).ops = [⟨BLOCK2, v⟩, ⟨BLOCK1, w⟩])
  simp only [addOp, opListAdd_eq]
  rcases h.ops with h | ⟨v, h1, h2⟩
  · rw [h]; exact Or.inr (Or.inr (Or.inl ⟨val, hv, rfl⟩))
  · rw [h2]; exact Or.inr (Or.inr (Or.inr ⟨val, v, hv, h1, rfl⟩))

theorem Neat.canBeSent {x : Msg} (h : Neat x) : CanBeSent x := by
  intro type id token ht hl
  have hs : Shape { x with type := type, msgId := id, token := token } :=
    ⟨fun hc => absurd hc.1 h.code, fun hr => absurd hr ht⟩
  have : Sendable { x with type := type, msgId := id, token := token } := by
    rcases h.ops with h1 | ⟨v, hv, h1⟩ | ⟨v, hv, h1⟩ | ⟨v, w, hv, hw, h1⟩
    · exact sendable_plain hs h1 hl h.payload
    · exact sendable_one (op := ⟨BLOCK1, v⟩) h1 (by simp only; omega) hs hl h.payload
    · exact sendable_one (op := ⟨BLOCK2, v⟩) h1 (by simp only; omega) hs hl h.payload
    · exact (sendable_two (x := { x with type := type, msgId := id, token := token }) (op1 := ⟨BLOCK2, v⟩) (op2 := ⟨BLOCK1, w⟩) h1 hv hw
        (show 13 ≤ 23 by decide) (show 23 ≤ 27 by decide) hs hl h.payload).1
  exact ⟨_, this.formats⟩

theorem CanBeSent.final {x m : Msg} {sepList : List Bytes} {env : Env} {id : Nat} (h : CanBeSent x) (hf : Fields m) :
    Sendable (final sepList env id m x) := by
  obtain ⟨r, buf, n, h, -⟩ := h (if m.type = CON then (if sepB sepList m = false then ACK else CON) else NON)
    (if m.type = CON ∧ sepB sepList m = false then m.msgId else nextMsgId id env.idRand) m.token
    (by split <;> (try split) <;> decide) hf.token
  exact ⟨_, h⟩

theorem shift_num {num size next szx : Nat} (hz : calcBlockSzx size = .ok szx) (h : num * size = next) : next >>> (szx + 4) = num := by
  have e := (calcBlockSzx_ok.1 hz).2
  rw [Nat.shiftRight_eq_div_pow, ← e, ← h]
  refine Nat.mul_div_cancel _ ?_
  rw [e]
  exact Nat.two_pow_pos _

theorem BlockSize.le {n : Nat} (h : BlockSize n) : n ≤ 1024 := by
  obtain ⟨k, hk, rfl⟩ := h
  have : 2 ^ (k + 4) ≤ 2 ^ 10 := Nat.pow_le_pow_right (by decide) (by omega)
  exact this

/-- A block of the body is sent. -/
theorem next2_answer {opMem payMem : Bool} {b : Blk} {L : Large} {req resp : Msg} {num : Nat} {uri : Bytes} {x : BRes}
    (h : Next2 opMem payMem b L req resp num uri x) (hs : BlockSize b.block2Size) (hd : b.blockDetail < 32) (hn : num < 2 ^ 20)
    (hr : Begun resp) (hb1 : b.type ≠ .put1 ∧ b.type ≠ .post1) :
    (x.err = none → Sizes x.blk ∧ Neat x.resp) ∧ (opMem = true → payMem = true → x.err = none) := by
  obtain ⟨szx, hszx⟩ := hs.szx
  cases h with
  | bad h => exact ⟨fun _ => ⟨Sizes.none, hr.withCode (by decide) (by decide) (by decide)⟩, fun _ _ => rfl⟩
  | fail h e resp' hb hf =>
    refine ⟨fun h => (by cases h), fun h1 h2 => ?_⟩
    have := hf h1 h2 hd szx hszx
    rw [shift_num hszx h.2.2] at this
    omega
  | more h szx' hz hm val hv p bytes hb hl =>
    rw [shift_num hz h.2.2] at hv
    refine ⟨fun _ => ⟨fun _ => ⟨hs, hd, fun h => ?_⟩, hr.block2 (blockVal_spec hn hz hv).2 ?_ (by decide)⟩, fun _ _ => rfl⟩
    · rcases h with h | h
      · exact absurd h hb1.1
      · exact absurd h hb1.2
    · exact Nat.le_trans (List.length_take_le _ _) hs.le
  | last h szx' hz hm val hv p bytes hb hl hd' =>
    rw [shift_num hz h.2.2] at hv
    refine ⟨fun _ => ⟨Sizes.none, hr.block2 (blockVal_spec hn hz hv).2 ?_ ?_⟩, fun _ _ => rfl⟩
    · refine Nat.le_trans (List.length_take_le _ _) ?_
      have := hs.le
      omega
    · split
      · decide
      · exact hd

theorem begun_block1 {resp : Msg} {val : Bytes} (hr : resp.ops = []) (hb : Built resp) (hp : resp.payload.length ≤ 1024) (hv : val.length = 3) :
    Begun (addOp resp BLOCK1 val) :=
  ⟨hb.addOp _ _, hp, Or.inr ⟨val, hv, by simp only [addOp, opListAdd_eq, hr]; rfl⟩⟩

/-- A request while a transfer is in progress. -/
theorem nextStep_answer {env : Env} {opMem : Bool} {again : Blk → Large → Msg → Out BRes} {b : Blk} {L : Large} {req resp : Msg} {x : BRes}
    (hx : ∀ id body e req resp, Built resp → FitResult resp (env.rx id body e req resp)) (h : NextStep env opMem again b L req resp x)
    (hs : Sizes b) (hr : Begun resp) (hro : (b.type = .put1 ∨ b.type = .post1) → resp.ops = []) (hreg : b.type ≠ .regular)
    (hag : ∀ b' L' resp' y, again b' L' resp' = .ok y → Sizes b' → b'.type = .put2 ∨ b'.type = .post2 → Begun resp' →
      (y.err = none → Sizes y.blk ∧ Neat y.resp) ∧ (env.opMem2 = true → env.payMem = true → y.err = none)) :
    (x.err = none → Sizes x.blk ∧ Neat x.resp) ∧
      (opMem = true → env.opMem1 = true → env.opMem2 = true → env.payMem = true → x.err = none) := by
  cases h with
  | badOp h => exact ⟨fun _ => ⟨Sizes.none, hr.withCode (by decide) (by decide) (by decide)⟩, fun _ _ _ _ => rfl⟩
  | regular o1 o2 h1 h2 ht => exact absurd ht hreg
  | two o1 o2 h1 h2 ht x hx =>
    obtain ⟨g1, g2, -⟩ := hs.shrink h1 h2 hreg
    obtain ⟨k1, k2⟩ := next2_answer hx g1 g2 (parseBlockOp_num h2) hr (by
      show b.type ≠ .put1 ∧ b.type ≠ .post1
      constructor <;> (intro h; rw [h] at ht; simp at ht))
    exact ⟨k1, fun a _ _ c => k2 a c⟩
  | one o1 o2 h1 h2 ht x hx1 =>
    obtain ⟨g1, g2, g3⟩ := hs.shrink h1 h2 hreg
    have g3 := g3 ht
    have hn := parseBlockOp_num h1
    obtain ⟨szx, hszx⟩ := g3.szx
    cases hx1 with
    | bad h => exact ⟨fun _ => ⟨Sizes.none, hr.withCode (by decide) (by decide) (by decide)⟩, fun _ _ _ _ => rfl⟩
    | order k1 k2 k3 => exact ⟨fun _ => ⟨Sizes.none, hr.withCode (by decide) (by decide) (by decide)⟩, fun _ _ _ _ => rfl⟩
    | large k1 k2 k3 k4 k5 => exact ⟨fun _ => ⟨Sizes.none, hr.withCode (by decide) (by decide) (by decide)⟩, fun _ _ _ _ => rfl⟩
    | fail k1 k2 k3 k4 e hf =>
      refine ⟨fun h => (by cases h), fun _ h1 _ _ => ?_⟩
      have := hf h1 szx hszx
      rw [shift_num hszx k3] at this
      omega
    | more k1 k2 k3 k4 k5 hm szx' hz val hv p bytes bytes' hb hw =>
      rw [shift_num hz k3] at hv
      exact ⟨fun _ => ⟨fun _ => ⟨g1, g2, fun _ => g3⟩,
        (begun_block1 (hro ht) hr.built hr.payload (blockVal_spec hn hz hv).2).withCode (by decide) (by decide) (by decide)⟩, fun _ _ _ _ => rfl⟩
    | whole k1 k2 k3 k4 k5 hm szx' hz val hv p bytes bytes' hb hw id hrx rr hrr hlen y hy =>
      rw [shift_num hz k3] at hv
      have hbeg := begun_block1 (hro ht) hr.built hr.payload (blockVal_spec hn hz hv).2
      have hfit := hx id bytes' ((shrink b o1 o2).bodyEnd + req.payload.length) req (addOp resp BLOCK1 val) hbeg.built
      rw [← hrr] at hfit
      have hbeg2 : Begun rr.resp := ⟨hfit.built, (hfit.payload hbeg.payload), by rw [hfit.ops]; exact hbeg.ops⟩
      have hneat : ∀ c d, c ≠ 0 → c < 8 → d < 32 → Neat (Server.withCode rr.resp c d) := fun c d => hbeg2.withCode
      rcases hy with ⟨e, he, -⟩ | ⟨-, -, rfl⟩ | ⟨-, -, -, hy⟩ | ⟨-, -, -, ⟨hd, rfl⟩ | ⟨hd, rfl⟩⟩
      · rw [hfit.err] at he; cases he
      · refine ⟨fun _ => ⟨Sizes.none, hfit.built, hfit.code, (hfit.payload hbeg.payload), ?_⟩, fun _ _ _ _ => rfl⟩
        rcases hbeg2.ops with h | ⟨v, h1, h2⟩
        · exact Or.inl h
        · exact Or.inr (Or.inl ⟨v, h1, h2⟩)
      · have ht2 : (if (shrink b o1 o2).type = TType.put1 then TType.put2 else TType.post2) = TType.put2 ∨
            (if (shrink b o1 o2).type = TType.put1 then TType.put2 else TType.post2) = TType.post2 := by
          split
          · exact Or.inl rfl
          · exact Or.inr rfl
        obtain ⟨y1, y2⟩ := hag _ _ _ _ hy (fun _ => ⟨g1, hfit.built.detail, fun h => by
          simp only at h
          split at h <;> simp at h⟩) ht2 hbeg2
        exact ⟨y1, fun _ _ a b => y2 a b⟩
      · exact ⟨fun _ => ⟨Sizes.none, hneat _ _ (by decide) (by decide) hd⟩, fun _ _ _ _ => rfl⟩
      · exact absurd hfit.built.detail hd

theorem nextBlock_answer {env : Env} {b : Blk} {L : Large} {req resp : Msg} {x : BRes}
    (hx : ∀ id body e req resp, Built resp → FitResult resp (env.rx id body e req resp)) (h : nextBlock env b L req resp = .ok x)
    (hs : Sizes b) (hr : Built resp) (hro : resp.ops = []) (hp : resp.payload.length ≤ 1024) (hreg : b.type ≠ .regular) :
    (x.err = none → Sizes x.blk ∧ Neat x.resp) ∧
      (env.opMem1 = true → env.opMem2 = true → env.payMem = true → x.err = none) := by
  have := nextStep_answer hx (nextBlockStep_cases h) hs ⟨hr, hp, Or.inl hro⟩ (fun _ => hro) hreg (by
    intro b' L' resp' y hy hs' ht' hr'
    cases nextBlockStep_cases hy with
    | badOp h => exact ⟨fun _ => ⟨Sizes.none, hr'.withCode (by decide) (by decide) (by decide)⟩, fun _ _ => rfl⟩
    | regular o1 o2 h1 h2 ht => rcases ht' with h' | h' <;> rw [ht] at h' <;> cases h'
    | one o1 o2 h1 h2 ht x hx => rcases ht' with h' | h' <;> rw [h'] at ht <;> simp at ht
    | two o1 o2 h1 h2 ht x hx =>
      obtain ⟨g1, g2, -⟩ := hs'.shrink h1 h2 (by
        show b'.type ≠ .regular
        intro h; rcases ht' with h' | h' <;> rw [h] at h' <;> cases h')
      exact next2_answer hx g1 g2 (parseBlockOp_num h2) hr' (by
        show b'.type ≠ .put1 ∧ b'.type ≠ .post1
        constructor <;> (intro h; rw [h] at ht; simp at ht)))
  exact ⟨this.1, fun a b c => this.2 a a b c⟩

/-- The beginning of a transfer. -/
theorem handleBlockwise_answer {env : Env} {b : Blk} {L : Large} {req resp : Msg} {b1 b2 : Nat} {body : Bytes} {len room : Nat}
    {rx : Option Nat} {x : BRes} (hx : ∀ id body e req resp, Built resp → FitResult resp (env.rx id body e req resp))
    (hfit : FitAction room req (.blockwise resp b1 b2 body len rx))
    (h : handleBlockwise env b L req resp b1 b2 body len rx = .ok x) :
    (x.err = none → Sizes x.blk ∧ Neat x.resp) ∧
      (env.opMem1 = true → env.opMem2 = true → env.payMem = true → room = (clearBlockwise b L).2.pool.len →
        (∃ p L', (clearBlockwise b L).2.alloc len = (some p, L')) → x.err = none) := by
  obtain ⟨f1, f2, f3, f4, f5, f6, f7⟩ := hfit
  have hb1 : badSize b1 = false := by
    rcases f6 with h | ⟨rfl, -⟩
    · exact badSize_ok h
    · rfl
  have hb2 := badSize_ok f5
  unfold handleBlockwise at h
  simp only [hb1, hb2, Bool.false_eq_true, if_false] at h
  split at h
  · rename_i hl
    cases h
    exact ⟨fun h => (by cases h), fun _ _ _ hroom _ => by omega⟩
  split at h
  · rename_i hal
    cases h
    refine ⟨fun h => (by cases h), fun _ _ _ _ hp => ?_⟩
    obtain ⟨p, L', hp⟩ := hp
    rw [hal] at hp
    cases hp
  rename_i p L' hal
  split at h
  · rename_i hg
    split at h
    · cases h
    · cases h
    split at h
    · cases h
    · cases h
    split at h
    · cases h
    · cases h
    obtain ⟨k1, k2⟩ := nextBlock_answer hx h (fun _ => ⟨f5, show 0 < 32 by decide, fun h => by simp at h⟩) f1 f2 f3 (by simp)
    exact ⟨k1, fun a b c _ _ => k2 a b c⟩
  rename_i hg
  have hb1' : BlockSize b1 := by
    rcases f6 with h | ⟨-, h⟩
    · exact h
    · exact absurd h hg
  split at h
  · rename_i hm
    split at h
    · exact absurd rfl (f7 (by omega))
    split at h
    · cases h
    · cases h
    obtain ⟨k1, k2⟩ := nextBlock_answer hx h (fun _ => ⟨f5, show 0 < 32 by decide, fun h => hb1'⟩) f1 f2 f3 (by
      simp only; split <;> simp)
    exact ⟨k1, fun a b c _ _ => k2 a b c⟩
  · rw [clearCode_eq (by decide) (by decide)] at h
    cases h
    refine ⟨fun _ => ⟨Sizes.none, ?_⟩, fun _ _ _ _ _ => rfl⟩
    exact Begun.withCode ⟨f1, f3, Or.inl f2⟩ (by decide) (by decide) (by decide)

/-- What a response generated by the server is like. -/
theorem generate_answer {env : Env} {t : Trans} {L : Large} {m : Msg} {r : BRes} {o : List Obs} {room : Nat} (ha : FitApp room env)
    (hs : Sizes t.blk) (h : generate env t L m = .ok (r, o)) :
    (r.err = none → Sizes r.blk ∧ Built r.resp ∧ CanBeSent r.resp) ∧
    (NoFault env → (t.blk.type = .regular → (∃ resp b1 b2 body len rx, env.handle t m = .blockwise resp b1 b2 body len rx) →
        room = (clearBlockwise t.blk L).2.pool.len ∧ ∀ len, len ≤ room → ∃ p L', (clearBlockwise t.blk L).2.alloc len = (some p, L')) → r.err = none) := by
  by_cases hk : AllKnown m
  · by_cases hreg : t.blk.type = .regular
    · unfold generate at h
      rw [if_neg (by rw [checkCritical_ne]; exact fun h => h hk), if_neg (by simp [hreg])] at h
      have hfit := ha.handle t m
      split at h
      · rename_i resp err hh
        cases h
        rw [hh] at hfit
        exact ⟨fun _ => ⟨hs, hfit.2.1, hfit.2.2⟩, fun _ _ => hfit.1⟩
      · rename_i resp b1 b2 body len rx hh
        rw [hh] at hfit
        split at h
        · rename_i r' hr
          cases h
          obtain ⟨k1, k2⟩ := handleBlockwise_answer ha.rx hfit hr
          refine ⟨fun h => ⟨(k1 h).1, (k1 h).2.built, (k1 h).2.canBeSent⟩, fun hf hroom => ?_⟩
          obtain ⟨j1, j2⟩ := hroom hreg ⟨_, _, _, _, _, _, hh⟩
          exact k2 hf.op1 hf.op2 hf.pay j1 (j2 _ hfit.2.2.2.1)
        · cases h
        · cases h
    · obtain ⟨h, -⟩ := generate_next hk hreg h
      obtain ⟨k1, k2⟩ := nextBlock_answer ha.rx h hs Built.create rfl (Nat.zero_le _) hreg
      exact ⟨fun h => ⟨(k1 h).1, (k1 h).2.built, (k1 h).2.canBeSent⟩, fun hf _ => k2 hf.op1 hf.op2 hf.pay⟩
  · obtain ⟨-, -, g3, -, g5⟩ := generate_bad hk h
    rcases g5 with ⟨-, g5, g6⟩ | ⟨g4, g5⟩
    · refine ⟨fun _ => ⟨by rw [g3]; exact hs, ?_⟩, fun _ _ => g5⟩
      have : Neat r.resp := by
        rw [g6]
        refine ⟨(Built.create.withCode (by decide) (by decide)).setPayload _, show (4 : Nat) ≠ 0 by decide, ?_, Or.inl rfl⟩
        exact Nat.le_trans (List.length_take_le _ _) (by decide)
      exact ⟨this.built, this.canBeSent⟩
    · refine ⟨fun h => (by rw [g5] at h; cases h), fun hf => ?_⟩
      rw [hf.pay] at g4
      cases g4

/-- The sizes are valid in every state. -/
theorem sizes_step {sx : Bool} {s s' : Srv} {env : Env} {ev : Event} {o : List Obs} {e : Option Err} {room : Nat} (ha : FitApp room env)
    (ht : Tidy s) (hs : StepRel sx s env ev s' o e) (hP : ∀ a t, ofAddr s a = some t → Sizes t.blk) :
    ∀ a t, ofAddr s' a = some t → Sizes t.blk := by
  intro a t hat
  cases step_view hs ht a with
  | untouched hu => rw [hu] at hat; exact hP a t hat
  | evicted b d hb hev h1 => rw [h1] at hat; cases hat
  | timer i u r hev hi hu hta hact har hout ho he h' =>
    rw [h'] at hat
    have := zero_inactive hat
    have hu' := hP a u hu
    cases hout <;> simp_all [Trans.zero]
  | exchange d u r L hev h0 hu hta hact hout ho he h' =>
    rw [h'] at hat
    have hz := zero_inactive hat
    have hu' : Sizes u.blk := by
      rcases hu with hu | ⟨-, rfl, -⟩
      · exact hP a u hu
      · exact Sizes.none
    cases hout with
    | done m hm hn hp r' o2 hg hre hsd q p hq hp2 =>
      obtain ⟨rfl, -⟩ := hz
      exact ((generate_answer (t := cleared env u) ha hu' hg).1 hre).1
    | _ => simp_all [Trans.zero, touched]

theorem sizes_run {sx : Bool} {evs : List (Env × Event)} {s : Srv} {tr : List (List Obs)} {room : Nat} (hr : Reach sx evs s tr)
    (ha : ∀ x ∈ evs, FitApp room x.1) : ∀ a t, ofAddr s a = some t → Sizes t.blk := by
  refine (reach_induction (P := fun evs s _ => Tidy s ∧ ((∀ x ∈ evs, FitApp room x.1) → ∀ a t, ofAddr s a = some t → Sizes t.blk))
    ?_ ?_ hr).2 ha
  · intro id sepList pool
    refine ⟨init_tidy _ _ _, fun _ a t h => ?_⟩
    rw [ofAddr_init] at h
    cases h
  · intro evs s tr env ev s' o e hP hs
    refine ⟨hs.tidy hP.1, fun hall => ?_⟩
    exact sizes_step (hall (env, ev) (by simp)) hP.1 hs (hP.2 (fun x hx => hall x (List.mem_append_left _ hx)))

/-! ## Transfers that cannot be started -/

theorem badSize_iff {n : Nat} : badSize n = true ↔ ¬ SizeOrNone n := by
  by_cases h0 : n = 0
  · subst h0
    simp [SizeOrNone, badSize]
  · have hp : 0 < n := by omega
    cases hz : calcBlockSzx n with
    | ok k =>
      have : SizeOrNone n := Or.inr ⟨k, (calcBlockSzx_ok.1 hz).1, (calcBlockSzx_ok.1 hz).2⟩
      simp [badSize, hz, this]
    | err e =>
      have : ¬ SizeOrNone n := by
        rintro (h | h)
        · exact h0 h
        · obtain ⟨k, hk⟩ := h.szx
          rw [hz] at hk
          cases hk
      simp [badSize, hz, this, hp]
    | ub =>
      have : ¬ SizeOrNone n := by
        rintro (h | h)
        · exact h0 h
        · obtain ⟨k, hk⟩ := h.szx
          rw [hz] at hk
          cases hk
      simp [badSize, hz, this, hp]

theorem badSize_not {n : Nat} (h : SizeOrNone n) : badSize n = false := by
  cases hb : badSize n with
  | false => rfl
  | true => exact absurd h (badSize_iff.1 hb)

theorem parseBlockOp_missing : ∀ {ops : List Op} {type : Nat}, (∀ o ∈ ops, o.num ≠ type) → parseBlockOp type ops = .ok none
  | [], _, _ => rfl
  | op :: ops, type, h => by
    unfold parseBlockOp
    have := h op (by simp)
    rw [if_neg (by rintro (⟨h1, h2⟩ | ⟨h1, h2⟩) <;> exact this (by rw [h1, h2]))]
    exact parseBlockOp_missing (fun o ho => h o (by simp [ho]))

/-- A transfer that cannot be started. -/
theorem handleBlockwise_bad {env : Env} {b : Blk} {L : Large} {req resp : Msg} {b1 b2 : Nat} {body : Bytes} {len room : Nat}
    {rx : Option Nat} {x : BRes} {err : Err} (hbad : BadStart room req b1 b2 len rx err) (hroom : room = (clearBlockwise b L).2.pool.len)
    (hal : len ≤ room → ∃ p L', (clearBlockwise b L).2.alloc len = (some p, L'))
    (h : handleBlockwise env b L req resp b1 b2 body len rx = .ok x) : x.err = some err ∧ x.rx = [] := by
  unfold handleBlockwise at h
  simp only at h
  cases hbad with
  | size hb =>
    rcases hb with hb | hb
    · rw [if_pos (badSize_iff.2 hb)] at h
      cases h
      exact ⟨rfl, rfl⟩
    · split at h
      · cases h; exact ⟨rfl, rfl⟩
      rw [if_pos (badSize_iff.2 hb)] at h
      cases h
      exact ⟨rfl, rfl⟩
  | space h1 h2 hl =>
    simp only [badSize_not h1, badSize_not h2, Bool.false_eq_true, if_false] at h
    rw [if_pos (by omega)] at h
    cases h
    exact ⟨rfl, rfl⟩
  | callback h1 h2 h3 hm h4 =>
    obtain ⟨p, L', hp⟩ := hal h3
    simp only [badSize_not h1, badSize_not h2, Bool.false_eq_true, if_false] at h
    rw [if_neg (by omega), hp] at h
    simp only at h
    rw [if_neg (by omega), if_pos (by omega), h4] at h
    cases h
    exact ⟨rfl, rfl⟩
  | noSize2 h1 h2 h3 hm hops =>
    obtain ⟨p, L', hp⟩ := hal h3
    subst h2
    simp only [badSize_not h1, badSize_not (Or.inl rfl), Bool.false_eq_true, if_false] at h
    rw [if_neg (by omega), hp] at h
    simp only at h
    rw [if_pos hm] at h
    split at h
    · cases h
    · cases h
    split at h
    · cases h
    · cases h
    rw [uriStr_eq _ _ (by decide)] at h
    simp only at h
    unfold nextBlock nextBlockStep at h
    rw [parseBlockOp_missing (fun o ho => (hops o ho).1), parseBlockOp_missing (fun o ho => (hops o ho).2), uriStr_eq _ _ (by decide)] at h
    simp only [shrink1, shrink2] at h
    unfold nextBlock2 at h
    rw [if_neg (by simp [TType.method, hm, Blk.none])] at h
    have : calcBlockSzx 0 = .err .EINVAL := by decide
    simp only [this, failClear_eq] at h
    cases h
    exact ⟨rfl, rfl⟩
  | noSize1 h1 h2 h3 hm h4 h5 hops =>
    obtain ⟨p, L', hp⟩ := hal h3
    subst h1
    simp only [badSize_not h2, badSize_not (Or.inl rfl), Bool.false_eq_true, if_false] at h
    rw [if_neg (by omega), hp] at h
    simp only at h
    rw [if_neg (by omega), if_pos (by omega)] at h
    split at h
    · exact absurd rfl h4
    rw [uriStr_eq _ _ (by decide)] at h
    simp only at h
    unfold nextBlock nextBlockStep at h
    rw [parseBlockOp_missing (fun o ho => (hops o ho).1), parseBlockOp_missing (fun o ho => (hops o ho).2), uriStr_eq _ _ (by decide)] at h
    simp only [shrink1, shrink2] at h
    have hz : calcBlockSzx 0 = .err .EINVAL := by decide
    rcases hm with hm | hm
    · simp only [hm, show ¬ (2 : Nat) = 3 by decide, if_false] at h
      unfold nextBlock1 at h
      rw [if_neg (by simp [TType.method, hm]), if_neg (by simp [Blk.none]), if_neg h5] at h
      simp only [hz, failClear_eq] at h
      cases h
      exact ⟨rfl, rfl⟩
    · simp only [hm, if_true] at h
      unfold nextBlock1 at h
      rw [if_neg (by simp [TType.method, hm]), if_neg (by simp [Blk.none]), if_neg h5] at h
      simp only [hz, failClear_eq] at h
      cases h
      exact ⟨rfl, rfl⟩

end FreeCoAP.Server
