import Verif.Server.LemmasView
import Verif.Server.LemmasSafe
import Verif.Server.LemmasHist
import Verif.Msg.LemmasErr

/-!
# Lemmas: what exactly is sent when a datagram is refused
-/

namespace FreeCoAP.Server

open FreeCoAP.Msg

/-- A datagram is handled in the transaction of its sender, or in a new one. -/
theorem step_exchangeT {sx : Bool} {s s' : Srv} {env : Env} {a : Addr} {d : Bytes} {o : List Obs} {e : Option Err} (hT : Tidy s) (h0 : env.acceptErr = none)
    (h1 : env.createErr = none) (h : step sx s env (.datagram a d) = .ok (s', o, e)) :
    ∃ t L r, (ofAddr s a = some t ∨ (ofAddr s a = none ∧ t = fresh env a)) ∧ t.addr = a ∧ exchangeT sx s.sepList env t L s.msgId d = .ok r ∧ o = r.obs := by
  have key : ∀ (s0 : Srv) (i : Nat) (t : Trans), s0.sepList = s.sepList → s0.msgId = s.msgId → s0.trans[i]? = some t → exchangeAt sx env s0 i d = .ok (s', o, e) →
      ∃ L r, exchangeT sx s.sepList env t L s.msgId d = .ok r ∧ o = r.obs := by
    intro s0 i t e1 e2 e3 hx
    unfold exchangeAt at hx
    rw [e3] at hx
    dsimp only at hx
    rw [e1, e2] at hx
    split at hx
    · cases hx
    · cases hx
    · rename_i r hr
      cases hx
      exact ⟨_, r, hr, rfl⟩
  change exchange sx env s a d = _ at h
  unfold exchange at h
  rw [h0] at h
  dsimp only at h
  cases hf : findTrans s.trans a with
  | some i =>
    rw [hf] at h
    dsimp only at h
    unfold findTrans at hf
    obtain ⟨hl, hp, -⟩ := List.findIdx?_eq_some_iff_getElem.1 hf
    have hp : s.trans[i].active = true ∧ s.trans[i].addr = a := by simpa using hp
    have hget := List.getElem?_eq_getElem hl
    obtain ⟨L, r, k1, k2⟩ := key s i _ rfl rfl hget h
    refine ⟨_, L, r, Or.inl ?_, hp.2, k1, k2⟩
    have := look_eq hT.distinct hget hp.1
    rw [hp.2] at this
    exact this
  | none =>
    rw [hf] at h
    have hc : createT env a = .ok (fresh env a) := by
      unfold createT
      rw [h1]
      rfl
    dsimp only at h
    rw [hc] at h
    dsimp only at h
    obtain ⟨m1, m2, m4, m3⟩ := makeRoom_eq s
    have hlen : (makeRoom s).1 < (makeRoom s).2.trans.length := by
      cases hi : (decide ((makeRoom s).1 < (makeRoom s).2.trans.length)) with
      | true => exact of_decide_eq_true hi
      | false =>
        exfalso
        have hi := of_decide_eq_false hi
        unfold exchangeAt at h
        rw [List.getElem?_eq_none (by rw [List.length_set]; omega)] at h
        cases h
    obtain ⟨L, r, k1, k2⟩ := key { (makeRoom s).2 with trans := (makeRoom s).2.trans.set (makeRoom s).1 (fresh env a) } (makeRoom s).1 (fresh env a) m2 m1
      (by rw [List.getElem?_set, if_pos rfl, if_pos hlen]) h
    exact ⟨_, L, r, Or.inr ⟨look_findTrans.1 hf, rfl⟩, rfl, k1, k2⟩

/-- What is sent in reply to a datagram that cannot be read: a reset if it has the header of a confirmable message of version 1. -/
def refusal (a : Addr) : Bytes → List Obs
  | b0 :: _ :: b2 :: b3 :: _ => if b0.toNat / 16 = 4 then [.sent a [0x70, 0, b2, b3]] else []
  | _ => []

theorem nat_version : ∀ n < 256, (n >>> 6) &&& 0x03 = n / 64 := by decide +kernel

theorem reset_bytes (b2 b3 : Byte) : reset (256 * b2.toNat + b3.toNat) = [0x70, 0, b2, b3] := by
  have l2 := b2.toNat_lt
  have l3 := b3.toNat_lt
  unfold reset
  rw [show (256 * b2.toNat + b3.toNat) / 256 = b2.toNat by omega, show (256 * b2.toNat + b3.toNat) % 256 = b3.toNat by omega]
  simp

theorem formatError_sent {env : Env} {t t' : Trans} {d : Bytes} {o : List Obs} (h2 : env.rstErr = none) (hv : ∀ b0 l, d = b0 :: l → 4 ≤ d.length → b0.toNat / 64 = 1)
    (h : formatError env t (recvBuf d) (min d.length BUF_LEN) = .ok (t', o)) : o = refusal t.addr d := by
  have hB : BUF_LEN = 1152 := rfl
  unfold formatError at h
  by_cases h4 : d.length < 4
  · rw [show parseTypeMsgId (recvBuf d) (min d.length BUF_LEN) = .err .EBADMSG by unfold parseTypeMsgId; rw [if_pos (by omega)]] at h
    cases h
    match d, h4 with
    | [], _ => rfl
    | [_], _ => rfl
    | [_, _], _ => rfl
    | [_, _, _], _ => rfl
  · match d, h4 with
    | [], h4 => exact absurd (by simp) h4
    | [_], h4 => exact absurd (by simp) h4
    | [_, _], h4 => exact absurd (by simp) h4
    | [_, _, _], h4 => exact absurd (by simp) h4
    | b0 :: b1 :: b2 :: b3 :: rest, h4 =>
      have h4' : 4 ≤ min (b0 :: b1 :: b2 :: b3 :: rest).length BUF_LEN := by omega
      have ht := recvBuf_take4 h4'
      have hver := hv b0 _ rfl (by omega)
      have hty : ∃ ty i, parseTypeMsgId (recvBuf (b0 :: b1 :: b2 :: b3 :: rest)) (min (b0 :: b1 :: b2 :: b3 :: rest).length BUF_LEN) = .ok (ty, i) := by
        cases hp : parseTypeMsgId (recvBuf (b0 :: b1 :: b2 :: b3 :: rest)) (min (b0 :: b1 :: b2 :: b3 :: rest).length BUF_LEN) with
        | ok x => exact ⟨x.1, x.2, rfl⟩
        | ub => exact absurd hp (parseTypeMsgId_ne (by rw [recvBuf_length]; decide))
        | err e =>
          exfalso
          unfold parseTypeMsgId at hp
          rw [if_neg (by omega)] at hp
          have hl : (recvBuf (b0 :: b1 :: b2 :: b3 :: rest)).length = BUF_LEN := recvBuf_length _
          match hb : recvBuf (b0 :: b1 :: b2 :: b3 :: rest) with
          | [] => rw [hb] at hl; cases hl
          | [_] => rw [hb] at hl; cases hl
          | [_, _] => rw [hb] at hl; cases hl
          | [_, _, _] => rw [hb] at hl; cases hl
          | c0 :: c1 :: c2 :: c3 :: r =>
            rw [hb] at hp
            simp [rd, Out.pure_eq] at hp
      obtain ⟨ty, i, hty⟩ := hty
      obtain ⟨hi, hd, e1, e2, e3⟩ := typeMsgId_header hty
      cases e1
      dsimp only at e2 e3
      rw [hty] at h
      dsimp only at h
      show o = if b0.toNat / 16 = 4 then [.sent t.addr [0x70, 0, b2, b3]] else []
      have hcon : ty = CON ↔ b0.toNat / 16 = 4 := by
        rw [← e2]
        unfold CON
        omega
      by_cases hc : ty = CON
      · rw [if_pos hc] at h
        rw [if_pos (hcon.1 hc)]
        split at h
        · rename_i t1 o1 r1 hs
          obtain ⟨-, ⟨-, -, ho⟩ | ⟨hn, -⟩⟩ := send_empty (by decide) hs
          · cases h
            rw [ho, enc_rst hi, ← e3, reset_bytes]
          · exact absurd h2 hn
        · cases h
        · cases h
      · rw [if_neg hc] at h
        rw [if_neg (fun hx => hc (hcon.2 hx))]
        cases h
        rfl

theorem refusal_version {a : Addr} {d : Bytes} (h : ∀ b0 l, d = b0 :: l → b0.toNat / 64 ≠ 1) : refusal a d = [] := by
  unfold refusal
  split
  · rename_i b0 b1 b2 b3 l
    have := h b0 _ rfl
    exact if_neg (by omega)
  · rfl

/-- What the parser reports tells whether the version is 1. -/
theorem parse_error_version {sx : Bool} {d : Bytes} {x : Err} (h : parse sx (recvBuf d) (min d.length BUF_LEN) = .err x) (h4 : 4 ≤ d.length) :
    ∃ b0 l, d = b0 :: l ∧ (x = .EBADMSG ↔ b0.toNat / 64 = 1) := by
  have hB : BUF_LEN = 1152 := rfl
  match d, h4 with
  | b0 :: l, h4 =>
    refine ⟨b0, l, rfl, ?_⟩
    have ht := recvBuf_take4 (d := b0 :: l) (by omega)
    have hl : (recvBuf (b0 :: l)).length = BUF_LEN := recvBuf_length _
    match hb : recvBuf (b0 :: l) with
    | [] => rw [hb] at hl; cases hl
    | c0 :: r =>
      rw [hb] at h ht
      rw [List.take_succ_cons, List.take_succ_cons] at ht
      cases (List.cons.inj ht).1
      have hver := nat_version b0.toNat b0.toNat_lt
      by_cases hv : (b0.toNat >>> 6) &&& 0x03 = 1
      · exact iff_of_true (parse_only hv h) (by omega)
      · rw [parse_version hv (by omega)] at h
        cases h
        exact iff_of_false (by decide) (by omega)

/-- A datagram that cannot be read. -/
theorem junk_sent {sx : Bool} {sepList : List Bytes} {env : Env} {t : Trans} {L : Large} {id : Nat} {d : Bytes} {r : TRes} {x : Err} (h0 : env.recvErr = none)
    (h1 : env.parseMem = true) (h2 : env.rstErr = none) (hp : parse sx (recvBuf d) (min d.length BUF_LEN) = .err x) (h : exchangeT sx sepList env t L id d = .ok r) :
    r.obs = refusal t.addr d := by
  have key : ∃ t' o, recv sx env t d = .ok (t', o, .error x) ∧ o = refusal t.addr d := by
    cases hr : recv sx env t d with
    | ub => unfold exchangeT at h; rw [hr] at h; cases h
    | err e => unfold exchangeT at h; rw [hr] at h; cases h
    | ok y =>
      unfold recv at hr
      rw [h0] at hr
      dsimp only at hr
      rw [if_neg (by rw [h1]; decide), hp] at hr
      dsimp only at hr
      by_cases hx : x = .EBADMSG
      · rw [if_pos hx] at hr
        split at hr
        · rename_i t' o hfe
          cases hr
          refine ⟨t', o, rfl, formatError_sent h2 (fun b0 l hd h4 => ?_) hfe⟩
          obtain ⟨c0, l', hd', hiff⟩ := parse_error_version hp h4
          rw [hd] at hd'
          cases hd'
          exact hiff.1 hx
        · cases hr
        · cases hr
      · rw [if_neg hx] at hr
        cases hr
        refine ⟨t, [], rfl, ?_⟩
        by_cases h4 : 4 ≤ d.length
        · obtain ⟨c0, l', hd', hiff⟩ := parse_error_version hp h4
          rw [refusal_version]
          intro b0 l hd hv
          rw [hd] at hd'
          cases hd'
          exact hx (hiff.2 hv)
        · match d, h4 with
          | [], _ => rfl
          | [_], _ => rfl
          | [_, _], _ => rfl
          | [_, _, _], _ => rfl
          | _ :: _ :: _ :: _ :: _, h4 => exact absurd (by simp) h4
  obtain ⟨t', o, hr, ho⟩ := key
  unfold exchangeT at h
  rw [hr] at h
  dsimp only at h
  split at h
  · cases h; exact ho
  · unfold failT at h
    cases h
    exact ho

/-- A confirmable or non-confirmable message that is no request. -/
theorem odd_sent {sx : Bool} {sepList : List Bytes} {env : Env} {t : Trans} {L : Large} {id : Nat} {d : Bytes} {m : Msg} {r : TRes} (h0 : env.recvErr = none)
    (h1 : env.parseMem = true) (h2 : env.rstErr = none) (hp : Carries sx d m) (hty : m.type = CON ∨ m.type = NON) (hcl : m.codeClass ≠ 0)
    (hid : t.req.msgId ≠ m.msgId) (h : exchangeT sx sepList env t L id d = .ok r) :
    r.obs = (if m.type = CON then [.sent t.addr (reset m.msgId)] else []) ∧ r.trans = Trans.zero ∧ r.msgId = id := by
  have hr : recv sx env t d = .ok (touched env t, [], .ok m) := by
    unfold recv
    rw [h0]
    dsimp only
    rw [if_neg (by rw [h1]; decide), show parse sx (recvBuf d) (min d.length BUF_LEN) = .ok m from hp]
    rfl
  have hna : ¬ (m.type = ACK ∨ m.type = RST) := by rcases hty with h | h <;> rw [h] <;> decide
  have hnm : matchReq (touched env t) m = false := by
    cases hx : matchReq (touched env t) m with
    | false => rfl
    | true => exact absurd (matchReq_iff.1 hx).2 hid
  unfold exchangeT at h
  rw [hr] at h
  dsimp only at h
  unfold received at h
  rw [if_neg (fun hx => by rw [hnm] at hx; cases hx.1), if_neg (fun hx => by rw [hnm] at hx; cases hx.1), if_neg (fun hx => hna hx.2),
    if_pos (Or.inr (Or.inr hcl))] at h
  split at h
  · rename_i t1 o2 hj
    unfold failT at h
    cases h
    refine ⟨?_, rfl, rfl⟩
    unfold reject at hj
    by_cases hc : m.type = CON
    · rw [if_pos hc] at hj
      rw [if_pos hc]
      split at hj
      · rename_i t1 o1 r1 hs
        obtain ⟨-, ⟨-, -, ho⟩ | ⟨hn, -⟩⟩ := send_empty (by decide) hs
        · cases hj
          rw [ho, enc_rst hp.fields.1.msgId]
          rfl
        · exact absurd h2 hn
      · cases hj
      · cases hj
    · rw [if_neg hc] at hj
      rw [if_neg hc]
      cases hj
      rfl
  · cases h
  · cases h

end FreeCoAP.Server
