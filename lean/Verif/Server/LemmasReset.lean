import Verif.Server.LemmasNew

/-! # Resets -/

namespace FreeCoAP.Server

open FreeCoAP.Msg

theorem header_ack {i : Nat} (h : i < 65536) : header (enc (emptyMsg ACK i)) = some ⟨ACK, 0, 0, i, []⟩ :=
  header_enc' (m := emptyMsg ACK i) (by simp only [emptyMsg]; decide) h (Nat.zero_le _)

theorem AnswerTo.not_rst {sx : Bool} {s0 : Srv} {evs : List (Env × Event)} {a : Addr} {b : Bytes} {h : Header}
    (hA : AnswerTo sx s0 evs a b) (hb : header b = some h) : h.type ≠ RST := by
  obtain ⟨pre, env, d, post, m, h', sj, trj, h1, h2, h3, h4, h5, -⟩ := hA
  rw [hb] at h4
  cases h4
  rcases h5.2 with ⟨-, -, h, -⟩ | ⟨-, -, h⟩ | ⟨-, h⟩ <;> rw [h] <;> decide

theorem resp_not_rst {sx : Bool} {s0 : Srv} {evs : List (Env × Event)} {a : Addr} {m : Msg}
    (h : m = create ∨ AnswerTo sx s0 evs a (enc m)) {hd : Header} (hb : header (enc m) = some hd) : hd.type ≠ RST := by
  rcases h with rfl | h
  · rw [enc_create] at hb
    cases hb
    decide
  · exact h.not_rst hb

theorem reset_datagram {sx : Bool} {s0 s s' : Srv} {evs : List (Env × Event)} {env : Env} {a : Addr} {d : Bytes}
    {o : List Obs} {e : Option Err} (ht : Tidy s) (hst : Stored sx s0 evs s) (h : StepRel sx s env (.datagram a d) s' o e)
    {c : Addr} {b : Bytes} {hb : Header} (hin : (c, b) ∈ sends o) (hh : header b = some hb) (hr : hb.type = RST) :
    ∃ h, header d = some h ∧ h.type = CON ∧ h.id < 65536 ∧ sends o = [(a, reset h.id)] := by
  have hb' := mem_sends.1 hin
  cases step_view h ht a with
  | untouched hu ho hd _ =>
    cases h with
    | noAccept => cases hin
    | noCreate => cases hin
    | known a d i t r h0 hi ha hd' hf hr =>
      exfalso
      rcases hd d rfl with h | ⟨h, -⟩
      · exact h h0
      · rw [ofAddr_look, ← look_findTrans, hf] at h; cases h
    | new a d r h0 hf he hi hr =>
      exfalso
      rcases hd d rfl with h | ⟨-, h⟩
      · exact h h0
      · exact h he
  | evicted b d hb hev => cases hev; exact absurd rfl hb
  | timer i u r hev => cases hev
  | exchange d' u r' L hev h0 hu hta hact hout ho he h' hid =>
    cases hev
    subst ho
    have hold : u.resp = create ∨ AnswerTo sx s0 evs a (enc u.resp) := by
      rcases hu with hu | ⟨-, rfl, -⟩
      · exact hst a u hu
      · exact Or.inl rfl
    have noack : ∀ m, Got sx env d m → b ≠ enc (emptyMsg ACK m.msgId) := by
      rintro m hm rfl
      rw [header_ack hm.1.fields.1.msgId] at hh
      cases hh
      cases hr
    have nofinal : ∀ m r, Got sx env d m → Asks m → b ≠ enc (final s.sepList env s.msgId m r) := by
      rintro m r hm ha rfl
      rw [final_header hm.1.fields.1] at hh
      cases hh
      simp only at hr
      have : (final s.sepList env s.msgId m r).type ≠ RST := by
        simp only [final]; split <;> (try split) <;> decide
      exact this hr
    have hpre : ∀ m, Got sx env d m → Obs.sent c b ∉ preAck s.sepList u m := by
      intro m hm hb
      unfold preAck at hb
      split at hb
      · simp at hb; exact noack m hm hb.2
      · cases hb
    have hgen : ∀ m (r : BRes) o2, generate env (cleared env u) L m = .ok (r, o2) → Obs.sent c b ∉ o2 ∧ Obs.sent c b ∉ rxObs u.addr r := by
      intro m r o2 hg
      constructor
      · intro hh
        have := mem_sends.2 hh
        rw [(generate_sends hg).1] at this
        cases this
      · intro hh
        have := mem_sends.2 hh
        rw [sends_rx] at this
        cases this
    cases hout with
    | again h => simp at hb'
    | lost e hx o ho =>
      rcases ho with rfl | ⟨-, -, i, hi, rfl⟩
      · simp at hb'
      · obtain ⟨g1, hd, g2, g3, g4⟩ := typeMsgId_header hi
        subst g4
        exact ⟨hd, g2, g3, g1, by rw [enc_rst g1, hta]; rfl⟩
    | dupAck m hm h1 h2 h3 => simp at hb'; exact absurd hb'.2 (noack m hm)
    | dupResp m hm h1 h2 h3 hs =>
      simp at hb'
      rw [hb'.2] at hh
      exact absurd hr (resp_not_rst hold hh)
    | dupFail => simp at hb'
    | dupNon m hm h1 h2 => simp at hb'
    | acked m hm h1 h2 => simp at hb'
    | ackFail m hm h1 h2 => simp at hb'
    | rejected m hm h1 h2 h3 o ho =>
      rcases ho with rfl | ⟨g, rfl⟩
      · simp at hb'
      · obtain ⟨hd, g1, g2, -, -, g3⟩ := hm.1.header
        have := hm.1.fields.1.msgId
        exact ⟨hd, g1, g2.trans g, by rw [g3]; exact this, by rw [g3, enc_rst this, hta]; rfl⟩
    | ackLost => simp at hb'
    | genFail m hm hn hp r o2 hg e he =>
      exfalso
      simp only [List.mem_append] at hb'
      rcases hb' with (hb' | hb') | hb'
      · exact hpre m hm hb'
      · exact (hgen m r o2 hg).1 hb'
      · exact (hgen m r o2 hg).2 hb'
    | sendFail m hm hn hp r o2 hg he o3 e ho hf =>
      exfalso
      simp only [List.mem_append] at hb'
      rcases hb' with ((hb' | hb') | hb') | hb'
      · exact hpre m hm hb'
      · exact (hgen m r o2 hg).1 hb'
      · exact (hgen m r o2 hg).2 hb'
      · rcases ho with rfl | ⟨rfl, -⟩
        · simp at hb'
        · simp at hb'
          exact nofinal m _ hm ⟨hn.type, hn.cls⟩ hb'.2
    | done m hm hn hp r' o2 hg he hs q p hq hp2 =>
      exfalso
      simp only [List.mem_append] at hb'
      rcases hb' with (((hb' | hb') | hb') | hb') | hb'
      · exact hpre m hm hb'
      · exact (hgen m r' o2 hg).1 hb'
      · exact (hgen m r' o2 hg).2 hb'
      · simp at hb'
        exact nofinal m _ hm ⟨hn.type, hn.cls⟩ hb'.2
      · have := mem_sends.2 hb'
        rw [sends_arm] at this
        cases this

theorem reset_timer {sx : Bool} {s0 s s' : Srv} {evs : List (Env × Event)} {env : Env} {i : Nat}
    {o : List Obs} {e : Option Err} (ht : Tidy s) (hst : Stored sx s0 evs s) (h : StepRel sx s env (.timer i) s' o e)
    {c : Addr} {b : Bytes} {hb : Header} (hin : (c, b) ∈ sends o) (hh : header b = some hb) : hb.type ≠ RST := by
  have hb' := mem_sends.1 hin
  cases h with
  | noTimer => cases hin
  | timer i t r hi ha hr hout =>
    have hl := look_eq ht.distinct hi ha
    cases hout with
    | expired => simp at hb'
    | noTimer => simp at hb'
    | noSend => simp at hb'
    | resent =>
      simp at hb'
      rw [hb'.2] at hh
      exact resp_not_rst (hst _ t hl) hh

/-- Datagrams the server keeps silent about. -/
theorem silent {sx : Bool} {s s' : Srv} {env : Env} {a : Addr} {d : Bytes}
    {o : List Obs} {e : Option Err} (ht : Tidy s) (h : StepRel sx s env (.datagram a d) s' o e)
    (hq : (∀ m, Carries sx d m → m.type = ACK ∨ m.type = RST) ∧ (∀ h, header d = some h → h.type ≠ CON)) : sends o = [] := by
  cases step_view h ht a with
  | untouched hu ho hd _ =>
    cases h with
    | noAccept => rfl
    | noCreate => rfl
    | known a d i t r h0 hi ha hd' hf hr =>
      exfalso
      rcases hd d rfl with h | ⟨h, -⟩
      · exact h h0
      · rw [ofAddr_look, ← look_findTrans, hf] at h; cases h
    | new a d r h0 hf he hi hr =>
      exfalso
      rcases hd d rfl with h | ⟨-, h⟩
      · exact h h0
      · exact h he
  | evicted b d hb hev => cases hev; exact absurd rfl hb
  | timer i u r hev => cases hev
  | exchange d' u r' L hev h0 hu hta hact hout ho he h' hid =>
    cases hev
    subst ho
    have hty : ∀ m, Got sx env d m → ¬ (m.type = CON ∨ m.type = NON) := by
      intro m hm hc
      have := hq.1 m hm.1
      simp only [CON, NON, ACK, RST] at this hc
      omega
    cases hout with
    | again h => rfl
    | lost e hx o ho =>
      rcases ho with rfl | ⟨-, -, i, hi, rfl⟩
      · rfl
      · obtain ⟨g1, hd, g2, g3, g4⟩ := typeMsgId_header hi
        exact absurd g3 (hq.2 hd g2)
    | dupAck m hm h1 h2 h3 => exact absurd (Or.inl h2) (hty m hm)
    | dupResp m hm h1 h2 h3 hs => exact absurd (Or.inl h2) (hty m hm)
    | dupFail => rfl
    | dupNon m hm h1 h2 => rfl
    | acked m hm h1 h2 => rfl
    | ackFail m hm h1 h2 => rfl
    | rejected m hm h1 h2 h3 o ho =>
      rcases ho with rfl | ⟨g, rfl⟩
      · rfl
      · exact absurd (Or.inl g) (hty m hm)
    | ackLost => rfl
    | genFail m hm hn => exact absurd hn.type (hty m hm)
    | sendFail m hm hn => exact absurd hn.type (hty m hm)
    | done m hm hn => exact absurd hn.type (hty m hm)

/-- A request with an unknown critical option, and everything that is not a request, is not passed on. -/
theorem no_call {sx : Bool} {s s' : Srv} {env : Env} {a : Addr} {d : Bytes}
    {o : List Obs} {e : Option Err} (ht : Tidy s) (h : StepRel sx s env (.datagram a d) s' o e)
    (hq : ∀ m, Carries sx d m → Asks m → ¬ ∀ o ∈ m.ops, Critical o → o.num ∈ known) : calls o = [] ∧ bodies o = [] := by
  cases step_view h ht a with
  | untouched hu ho hd _ =>
    cases h with
    | noAccept => exact ⟨rfl, rfl⟩
    | noCreate => exact ⟨rfl, rfl⟩
    | known a d i t r h0 hi ha hd' hf hr =>
      exfalso
      rcases hd d rfl with h | ⟨h, -⟩
      · exact h h0
      · rw [ofAddr_look, ← look_findTrans, hf] at h; cases h
    | new a d r h0 hf he hi hr =>
      exfalso
      rcases hd d rfl with h | ⟨-, h⟩
      · exact h h0
      · exact h he
  | evicted b d hb hev => cases hev; exact absurd rfl hb
  | timer i u r hev => cases hev
  | exchange d' u r' L hev h0 hu hta hact hout ho he h' hid =>
    cases hev
    subst ho
    have hgen : ∀ m (r : BRes) o2, Got sx env d m → IsNew u m → generate env (cleared env u) L m = .ok (r, o2) →
        o2 = [] ∧ rxObs u.addr r = [] := by
      intro m r o2 hm hn hg
      obtain ⟨g1, g2, -⟩ := generate_bad (hq m hm.1 ⟨hn.type, hn.cls⟩) hg
      exact ⟨g1, by unfold rxObs; rw [g2]; rfl⟩
    cases hout with
    | again h => exact ⟨rfl, rfl⟩
    | lost e hx o ho => rcases ho with rfl | ⟨-, -, i, hi, rfl⟩ <;> exact ⟨rfl, rfl⟩
    | dupAck => exact ⟨rfl, rfl⟩
    | dupResp => exact ⟨rfl, rfl⟩
    | dupFail => exact ⟨rfl, rfl⟩
    | dupNon m hm h1 h2 => exact ⟨rfl, rfl⟩
    | acked m hm h1 h2 => exact ⟨rfl, rfl⟩
    | ackFail m hm h1 h2 => exact ⟨rfl, rfl⟩
    | rejected m hm h1 h2 h3 o ho => rcases ho with rfl | ⟨g, rfl⟩ <;> exact ⟨rfl, rfl⟩
    | ackLost => exact ⟨rfl, rfl⟩
    | genFail m hm hn hp r o2 hg e he =>
      obtain ⟨g1, g2⟩ := hgen m r o2 hm hn hg
      simp only [g1, g2, List.append_nil, calls_pre, bodies_pre, and_self]
    | sendFail m hm hn hp r o2 hg he o3 e ho hf =>
      obtain ⟨g1, g2⟩ := hgen m r o2 hm hn hg
      rcases ho with rfl | ⟨rfl, -⟩ <;>
        simp only [g1, g2, List.append_nil, calls_append, bodies_append, calls_pre, bodies_pre, calls_sent, bodies_sent, and_self]
    | done m hm hn hp r o2 hg he hs q p hq hp2 =>
      obtain ⟨g1, g2⟩ := hgen m r o2 hm hn hg
      simp only [g1, g2, List.append_nil, calls_append, bodies_append, calls_pre, bodies_pre, calls_sent, bodies_sent,
        calls_arm, bodies_arm, and_self]

end FreeCoAP.Server
