import Verif.Server.LemmasDup
import Verif.Msg.Props

/-! # New requests -/

namespace FreeCoAP.Server

open FreeCoAP.Msg

/-- The request is not the repetition of one the server remembers. -/
theorem fresh_of_last {sx : Bool} {evs : List (Env × Event)} {s : Srv} {a : Addr} {m : Msg} (hl : LastOK sx evs s)
    (h0 : m.msgId ≠ 0) (hp : ∀ m', lastRequest sx a evs = some m' → m'.msgId ≠ m.msgId) :
    ∀ t, ofAddr s a = some t → matchReq t m = false := by
  intro t ht
  cases h : matchReq t m with
  | false => rfl
  | true =>
    obtain ⟨-, h2⟩ := matchReq_iff.1 h
    rcases hl a t ht with hc | ⟨-, m', h3, h4⟩
    · rw [hc] at h2; exact absurd h2.symm h0
    · exact absurd (h4.symm.trans h2) (hp m' h3)

theorem calls_sent (a : Addr) (b : Bytes) : calls [.sent a b] = [] := rfl
theorem bodies_sent (a : Addr) (b : Bytes) : bodies [.sent a b] = [] := rfl

/-- The outcome of a new request that arrives. -/
theorem new_request {sx : Bool} {s s' : Srv} {env : Env} {a : Addr} {d : Bytes} {o : List Obs} {e : Option Err} {m : Msg}
    (ht : Tidy s) (h : StepRel sx s env (.datagram a d) s' o e) (hm : Carries sx d m) (harr : Arrives env)
    (hcr : env.createErr = none) (hack : Separate s.sepList m → env.ackErr = none) (hq : Asks m)
    (h0 : ofAddr s a = none → m.msgId ≠ 0) (hf : ∀ t, ofAddr s a = some t → matchReq t m = false) :
    ∃ t L r o2, ((ofAddr s a = some t ∧ L = s.large) ∨ (ofAddr s a = none ∧ t = fresh env a ∧ L = (makeRoom s).2.large)) ∧
      t.addr = a ∧
      generate env (cleared env t) L m = .ok (r, o2) ∧ calls o = calls o2 ∧ bodies o = r.rx.map (fun x => (a, x)) ∧
      ((∃ x, r.err = some x ∧ e = some x ∧ ofAddr s' a = none ∧
          sends o = if m.type = CON ∧ Separate s.sepList m then [(a, emptyAck m.msgId)] else []) ∨
       (r.err = none ∧ (env.sendErr = none → env.copyReqMem = true → env.copyRespMem = true → env.timerErr = none →
          r.resp.codeClass < 8 → r.resp.codeDetail < 32 → ¬ Sendable (final s.sepList env s.msgId m r.resp)) ∧
          ofAddr s' a = none) ∨
       (r.err = none ∧ e = none ∧ s'.msgId = newId s.sepList env s.msgId m ∧
          sends o = (if m.type = CON ∧ Separate s.sepList m then [(a, emptyAck m.msgId)] else []) ++
            [(a, enc (final s.sepList env s.msgId m r.resp))] ∧
          arms o = (if m.type = CON ∧ Separate s.sepList m then [(a, ACK_TIMEOUT + env.rand % 1000)] else []) ∧
          Sendable (final s.sepList env s.msgId m r.resp) ∧
          ∃ q p, copy create m = .ok q ∧ copy create (final s.sepList env s.msgId m r.resp) = .ok p ∧
            ofAddr s' a = some (recorded env t r.blk q p (final s.sepList env s.msgId m r.resp)))) := by
  have hbad : ¬ (env.recvErr = none → env.parseMem = true → ∃ x, parse sx (recvBuf d) (min d.length BUF_LEN) = .err x) := by
    intro hx
    obtain ⟨-, g1, g2⟩ := harr
    obtain ⟨x, hx⟩ := hx g1 g2
    unfold Carries at hm
    rw [hm] at hx
    cases hx
  cases step_view h ht a with
  | untouched hu ho hd _ =>
    rcases hd d rfl with h | ⟨-, h⟩
    · exact absurd harr.1 h
    · exact absurd hcr h
  | evicted b d hb hev => cases hev; exact absurd rfl hb
  | timer i u r hev => cases hev
  | exchange d' u r' L hev hh0 hu hta hact hout ho he h' hid hu' =>
    cases hev
    subst ho he
    have hmr : matchReq u m = false := by
      rcases hu with hu | ⟨hno, rfl, -⟩
      · exact hf u hu
      · cases h : matchReq (fresh env a) m with
        | false => rfl
        | true => exact absurd (matchReq_iff.1 h).2.symm (h0 hno)
    have hnoack : ¬ (m.type = ACK ∨ m.type = RST) := by
      intro h
      have := hq.1
      simp only [CON, NON, ACK, RST] at h this
      omega
    cases hout with
    | again hx => exact absurd hx hbad
    | lost e hx o ho => exact absurd hx hbad
    | dupAck m' hm' g1 => have := hm.unique hm'.1; subst this; rw [hmr] at g1; cases g1
    | dupResp m' hm' g1 => have := hm.unique hm'.1; subst this; rw [hmr] at g1; cases g1
    | dupFail m' hm' g1 => have := hm.unique hm'.1; subst this; rw [hmr] at g1; cases g1
    | dupNon m' hm' g1 => have := hm.unique hm'.1; subst this; rw [hmr] at g1; cases g1
    | acked m' hm' g1 g2 => have := hm.unique hm'.1; subst this; exact absurd g2 hnoack
    | ackFail m' hm' g1 g2 => have := hm.unique hm'.1; subst this; exact absurd g2 hnoack
    | rejected m' hm' g1 =>
      have := hm.unique hm'.1
      subst this
      exfalso
      rcases g1 with g | g | g
      · exact hnoack (Or.inl g)
      · exact hnoack (Or.inr g)
      · exact g hq.2
    | ackLost m' hm' hn hsb x hx =>
      have := hm.unique hm'.1
      subst this
      simp only [sepB, decide_eq_true_eq] at hsb
      rw [hack hsb.2] at hx
      cases hx
    | genFail m' hm' hn hp r o2 hg x hx =>
      have := hm.unique hm'.1
      subst this
      refine ⟨u, L, r, o2, hu', hta, hg, ?_, ?_, Or.inl ⟨x, hx, rfl, by simpa [Trans.zero] using h', ?_⟩⟩
      · simp [calls_append, calls_pre, calls_rx]
      · simp [bodies_append, bodies_pre, bodies_rx, (generate_sends hg).2.2, hta]
      · simp only [sends_append, sends_pre, sends_rx, (generate_sends hg).1, List.append_nil, hta, sepB,
          decide_eq_true_eq, enc_ack hm.fields.1.msgId]
    | sendFail m' hm' hn hp r o2 hg hx o3 x ho hff =>
      have := hm.unique hm'.1
      subst this
      refine ⟨u, L, r, o2, hu', hta, hg, ?_, ?_, Or.inr (Or.inl ⟨hx, hff, by simpa [Trans.zero] using h'⟩)⟩
      · rcases ho with rfl | ⟨rfl, -⟩ <;> simp [calls_append, calls_pre, calls_rx] <;> rfl
      · rcases ho with rfl | ⟨rfl, -⟩ <;>
          simp [bodies_append, bodies_pre, bodies_rx, (generate_sends hg).2.2, hta] <;> rfl
    | done m' hm' hn hp r o2 hg hx hs q p hq hp2 =>
      have := hm.unique hm'.1
      subst this
      have hct : (final s.sepList env s.msgId m r.resp).type = CON ↔ m.type = CON ∧ Separate s.sepList m := by
        simp only [final, sepB]
        by_cases h1 : m.type = CON
        · by_cases h2 : Separate s.sepList m <;> simp [h1, h2]
        · simp [h1]
      refine ⟨u, L, r, o2, hu', hta, hg, ?_, ?_, Or.inr (Or.inr ⟨hx, rfl, hid, ?_, ?_, hs, q, p, hq, hp2, ?_⟩)⟩
      · simp only [calls_append, calls_pre, calls_rx, calls_arm, calls_sent, List.append_nil, List.nil_append]
      · simp only [bodies_append, bodies_pre, bodies_rx, bodies_arm, (generate_sends hg).2.2, hta, bodies_sent,
          List.append_nil, List.nil_append]
      · simp only [sends_append, sends_pre, sends_rx, sends_arm, (generate_sends hg).1, List.append_nil, hta, sepB,
          decide_eq_true_eq, enc_ack hm.fields.1.msgId]
        rfl
      · simp only [arms_append, arms_pre, arms_rx, (generate_sends hg).2.1, List.append_nil, List.nil_append, armObs, hct, hta]
        split <;> rfl
      · rw [h', if_pos (by simp only [recorded]; exact hact)]

theorem checkCritical_ne {ops : List Op} : checkCriticalOps ops ≠ 0 ↔ ¬ ∀ o ∈ ops, Critical o → o.num ∈ known :=
  not_congr (C17_critical ops).1

theorem generate_bad {env : Env} {t : Trans} {L : Large} {m : Msg} {r : BRes} {o : List Obs}
    (hc : ¬ ∀ o ∈ m.ops, Critical o → o.num ∈ known) (h : generate env t L m = .ok (r, o)) :
    o = [] ∧ r.rx = [] ∧ r.blk = t.blk ∧ r.large = L ∧
    ((env.payMem = true ∧ r.err = none ∧
      r.resp = setPayload (withCode create 4 2) ((ascii s!"Bad option number: {checkCriticalOps m.ops}").take 127)) ∨
    (env.payMem = false ∧ r.err = some .ENOMEM)) := by
  unfold generate at h
  rw [if_pos (checkCritical_ne.2 hc)] at h
  split at h
  · rename_i resp e hb
    cases h
    rcases badOption_cases hb with ⟨h1, hh⟩ | ⟨h1, hh⟩ <;> cases hh
    · exact ⟨rfl, rfl, rfl, rfl, Or.inl ⟨h1, rfl, rfl⟩⟩
    · exact ⟨rfl, rfl, rfl, rfl, Or.inr ⟨h1, rfl⟩⟩
  · cases h
  · cases h

theorem generate_call {env : Env} {t : Trans} {L : Large} {m : Msg} {r : BRes} {o : List Obs}
    (hc : ∀ o ∈ m.ops, Critical o → o.num ∈ known) (hb : t.blk.type = .regular)
    (h : generate env t L m = .ok (r, o)) : o = [.call t.addr m] := by
  unfold generate at h
  rw [if_neg (by rw [checkCritical_ne]; exact fun h => h hc), if_neg (by simp [hb])] at h
  repeat' split at h
  all_goals first | cases h; done | (cases h; rfl)

/-- A response without options fits if its payload is short. -/
theorem sendable_plain {m : Msg} (hs : Shape m) (ho : m.ops = []) (htk : m.token.length ≤ 8) (hp : m.payload.length ≤ 1024) :
    Sendable m := by
  have hlen : (enc m).length = 4 + m.token.length + (encOps 0 m.ops).length + (encPayload m).length := by
    simp only [enc, List.length_append, encHdr_length]
  have hpl : (encPayload m).length ≤ 1025 := by
    unfold encPayload
    split <;> simp <;> omega
  have h0 : (encOps 0 m.ops).length = 0 := by rw [ho]; rfl
  obtain ⟨b', hb⟩ := format_room (m := m) (buf := List.replicate BUF_LEN 0) (len := BUF_LEN)
    (by rw [List.length_replicate]; exact Nat.le_refl _) (by decide) hs
    (by rw [ho]; simp) (by rw [ho] at *; simp only [BUF_LEN, List.length_nil]; omega)
  exact ⟨_, hb⟩

end FreeCoAP.Server
