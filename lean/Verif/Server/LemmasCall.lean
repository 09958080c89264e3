import Verif.Server.LemmasReset

/-! # Calls of the application, message ids, isolation -/

namespace FreeCoAP.Server

open FreeCoAP.Msg

theorem StepRel.cases_datagram {sx : Bool} {s s' : Srv} {env : Env} {ev : Event} {o : List Obs} {e : Option Err}
    (h : StepRel sx s env ev s' o e) (ht : Tidy s) :
    (o = [] ∧ (ev = .appId ∨ s'.msgId = s.msgId)) ∨
    (∃ i t r, ev = .timer i ∧ s.trans[i]? = some t ∧ TimerOutcome env t s.large s.msgId r ∧ o = r.obs ∧ s'.msgId = r.msgId) ∨
    (∃ a d t r L, ev = .datagram a d ∧ t.addr = a ∧ Outcome sx s.sepList env t L s.msgId d r ∧ o = r.obs ∧ s'.msgId = r.msgId) := by
  cases h with
  | noAccept => exact Or.inl ⟨rfl, Or.inr rfl⟩
  | noTimer => exact Or.inl ⟨rfl, Or.inr rfl⟩
  | appId => exact Or.inl ⟨rfl, Or.inl rfl⟩
  | known a d i t r h0 hi ha hd hf h => exact Or.inr (Or.inr ⟨a, d, t, r, _, rfl, hd, h, rfl, rfl⟩)
  | noCreate a d e h0 hf he => exact Or.inl ⟨rfl, Or.inr (makeRoom_eq s).1⟩
  | new a d r h0 hf he hi h => exact Or.inr (Or.inr ⟨a, d, _, r, _, rfl, rfl, h, rfl, rfl⟩)
  | timer i t r hi ha hr h => exact Or.inr (Or.inl ⟨i, t, r, rfl, hi, h, rfl, rfl⟩)

theorem generate_calls {env : Env} {t : Trans} {L : Large} {m : Msg} {r : BRes} {o : List Obs}
    (h : generate env t L m = .ok (r, o)) :
    o = [] ∨ ((∀ o ∈ m.ops, Critical o → o.num ∈ known) ∧ o = [.call t.addr m]) := by
  rcases generate_obs h with rfl | rfl
  · exact Or.inl rfl
  · refine Or.inr ⟨?_, rfl⟩
    apply Classical.byContradiction
    intro hc
    have := (generate_bad hc h).1
    cases this

/-- The message ids an event generates and uses. -/
theorem msgId_step {sx : Bool} {s s' : Srv} {env : Env} {ev : Event} {o : List Obs} {e : Option Err}
    (h : StepRel sx s env ev s' o e) (ht : Tidy s) :
    s'.msgId = s.msgId ∨ s'.msgId = nextMsgId s.msgId env.idRand := by
  rcases h.cases_datagram ht with ⟨-, rfl | h1⟩ | ⟨i, t, r, rfl, -, hr, -, hid⟩ | ⟨a, d, t, r, L, rfl, -, hr, -, hid⟩
  · cases h; exact Or.inr rfl
  · exact Or.inl h1
  · rw [hid]; cases hr <;> exact Or.inl rfl
  · rw [hid]
    have : ∀ m, newId s.sepList env s.msgId m = s.msgId ∨ newId s.sepList env s.msgId m = nextMsgId s.msgId env.idRand := by
      intro m; unfold newId; split
      · exact Or.inl rfl
      · exact Or.inr rfl
    cases hr <;> first | exact Or.inl rfl | exact this _

/-- Everything the application is called with. -/
theorem call_step {sx : Bool} {s s' : Srv} {env : Env} {ev : Event} {o : List Obs} {e : Option Err}
    (h : StepRel sx s env ev s' o e) (ht : Tidy s) :
    calls o = [] ∨ ∃ a d m, ev = .datagram a d ∧ Got sx env d m ∧ Asks m ∧ (∀ o ∈ m.ops, Critical o → o.num ∈ known) ∧
      calls o = [(a, m)] := by
  rcases h.cases_datagram ht with ⟨rfl, -⟩ | ⟨i, t, r, rfl, -, hr, rfl, hid⟩ | ⟨a, d, t, r, L, rfl, hta, hr, rfl, hid⟩
  · exact Or.inl rfl
  · cases hr <;> exact Or.inl rfl
  · have hgen : ∀ m (r : BRes) o2, Got sx env d m → IsNew t m → generate env (cleared env t) L m = .ok (r, o2) →
        calls o2 = [] ∨ ∃ a1 d1 m1, Event.datagram a d = .datagram a1 d1 ∧ Got sx env d1 m1 ∧ Asks m1 ∧
          (∀ o ∈ m1.ops, Critical o → o.num ∈ known) ∧ calls o2 = [(a1, m1)] := by
      intro m r o2 hm hn hg
      rcases generate_calls hg with rfl | ⟨hc, rfl⟩
      · exact Or.inl rfl
      · exact Or.inr ⟨a, d, m, rfl, hm, ⟨hn.type, hn.cls⟩, hc, by subst hta; rfl⟩
    cases hr with
    | again h => exact Or.inl rfl
    | lost e hx o ho => rcases ho with rfl | ⟨-, -, i, hi, rfl⟩ <;> exact Or.inl rfl
    | dupAck => exact Or.inl rfl
    | dupResp => exact Or.inl rfl
    | dupFail => exact Or.inl rfl
    | dupNon m hm h1 h2 => exact Or.inl rfl
    | acked m hm h1 h2 => exact Or.inl rfl
    | ackFail m hm h1 h2 => exact Or.inl rfl
    | rejected m hm h1 h2 h3 o ho => rcases ho with rfl | ⟨g, rfl⟩ <;> exact Or.inl rfl
    | ackLost => exact Or.inl rfl
    | genFail m hm hn hp r o2 hg e he =>
      simp only [calls_append, calls_pre, calls_rx, List.append_nil, List.nil_append]
      exact hgen m r o2 hm hn hg
    | sendFail m hm hn hp r o2 hg he o3 e ho hf =>
      rcases ho with rfl | ⟨rfl, -⟩ <;>
        simp only [calls_append, calls_pre, calls_rx, calls_sent, List.append_nil, List.nil_append] <;>
        exact hgen m r o2 hm hn hg
    | done m hm hn hp r o2 hg he hs q p hq hp2 =>
      simp only [calls_append, calls_pre, calls_rx, calls_arm, calls_sent, List.append_nil, List.nil_append]
      exact hgen m r o2 hm hn hg

/-- What is sent when the application was called: an Empty acknowledgement or the response. -/
theorem call_sends {sx : Bool} {s s' : Srv} {env : Env} {a : Addr} {d : Bytes} {o : List Obs} {e : Option Err}
    (h : StepRel sx s env (.datagram a d) s' o e) (ht : Tidy s) (hc : calls o ≠ []) {c : Addr} {b : Bytes}
    (hb : (c, b) ∈ sends o) :
    (∃ i < 65536, b = emptyAck i) ∨ ∃ hd m, Carries sx d m ∧ Asks m ∧ header b = some hd ∧ Answers s.sepList m hd ∧
      (hd.type ≠ ACK → hd.id = s'.msgId ∧ s'.msgId = nextMsgId s.msgId env.idRand) := by
  have hb' := mem_sends.1 hb
  rcases h.cases_datagram ht with ⟨rfl, -⟩ | ⟨i, t, r, hev, -⟩ | ⟨a', d', t, r, L, hev, hta, hr, rfl, hid⟩
  · exact absurd rfl hc
  · cases hev
  · cases hev
    have hpre : ∀ m, Got sx env d m → Obs.sent c b ∈ preAck s.sepList t m → ∃ i < 65536, b = emptyAck i := by
      intro m hm hb
      unfold preAck at hb
      split at hb
      · simp at hb
        have := hm.1.fields.1.msgId
        exact ⟨_, this, by rw [hb.2, enc_ack this]⟩
      · cases hb
    have hgen : ∀ m (r : BRes) o2, generate env (cleared env t) L m = .ok (r, o2) → Obs.sent c b ∉ o2 ∧ Obs.sent c b ∉ rxObs t.addr r := by
      intro m r o2 hg
      constructor
      · intro hh
        have := mem_sends.2 hh
        rw [(generate_sends hg).1] at this
        cases this
      · intro hh
        have := mem_sends.2 hh
        rw [sends_rx] at this
        cases this
    have hfin : ∀ m (resp : Msg), Got sx env d m → IsNew t m → s'.msgId = newId s.sepList env s.msgId m →
        b = enc (final s.sepList env s.msgId m resp) → ∃ hd m, Carries sx d m ∧ Asks m ∧ header b = some hd ∧
        Answers s.sepList m hd ∧ (hd.type ≠ ACK → hd.id = s'.msgId ∧ s'.msgId = nextMsgId s.msgId env.idRand) := by
      rintro m resp hm hn hid rfl
      refine ⟨_, m, hm.1, ⟨hn.type, hn.cls⟩, final_header hm.1.fields.1, (final_answers hn.type).1, ?_⟩
      intro hna
      rw [hid]
      simp only [final, newId] at hna ⊢
      split
      · rename_i hh
        rw [if_pos hh.1, if_pos hh.2] at hna
        exact absurd rfl hna
      · exact ⟨rfl, rfl⟩
    cases hr with
    | again h => exact absurd rfl hc
    | lost e hx o ho => rcases ho with rfl | ⟨-, -, i, hi, rfl⟩ <;> exact absurd rfl hc
    | dupAck => exact absurd rfl hc
    | dupResp => exact absurd rfl hc
    | dupFail => exact absurd rfl hc
    | dupNon m hm h1 h2 => exact absurd rfl hc
    | acked m hm h1 h2 => exact absurd rfl hc
    | ackFail m hm h1 h2 => exact absurd rfl hc
    | rejected m hm h1 h2 h3 o ho => rcases ho with rfl | ⟨g, rfl⟩ <;> exact absurd rfl hc
    | ackLost => exact absurd rfl hc
    | genFail m hm hn hp r o2 hg e he =>
      simp only [List.mem_append] at hb'
      rcases hb' with (hb' | hb') | hb'
      · exact Or.inl (hpre m hm hb')
      · exact absurd hb' (hgen m r o2 hg).1
      · exact absurd hb' (hgen m r o2 hg).2
    | sendFail m hm hn hp r o2 hg he o3 e ho hf =>
      simp only [List.mem_append] at hb'
      rcases hb' with ((hb' | hb') | hb') | hb'
      · exact Or.inl (hpre m hm hb')
      · exact absurd hb' (hgen m r o2 hg).1
      · exact absurd hb' (hgen m r o2 hg).2
      · rcases ho with rfl | ⟨rfl, -⟩
        · cases hb'
        · simp at hb'
          exact Or.inr (hfin m _ hm hn hid hb'.2)
    | done m hm hn hp r o2 hg he hs q p hq hp2 =>
      simp only [List.mem_append] at hb'
      rcases hb' with (((hb' | hb') | hb') | hb') | hb'
      · exact Or.inl (hpre m hm hb')
      · exact absurd hb' (hgen m r o2 hg).1
      · exact absurd hb' (hgen m r o2 hg).2
      · simp at hb'
        exact Or.inr (hfin m _ hm hn hid hb'.2)
      · have := mem_sends.2 hb'
        rw [sends_arm] at this
        cases this

/-- The other senders. -/
theorem others_step {sx : Bool} {s s' : Srv} {env : Env} {b : Addr} {d : Bytes} {o : List Obs} {e : Option Err}
    (h : StepRel sx s env (.datagram b d) s' o e) (ht : Tidy s) :
    (∀ x ∈ o, x.addr = b) ∧
    ((∀ a, a ≠ b → ofAddr s' a = ofAddr s a) ∨
     (ofAddr s b = none ∧ (∀ t ∈ s.trans, t.active = true) ∧ ∃ t0, s.trans[(makeRoom s).1]? = some t0 ∧ t0.addr ≠ b ∧
        ofAddr s t0.addr = some t0 ∧ ofAddr s' t0.addr = none ∧ ∀ a, a ≠ b → a ≠ t0.addr → ofAddr s' a = ofAddr s a)) := by
  constructor
  · cases h with
    | noAccept => simp
    | known a d i t r h0 hi ha hd hf h => intro x hx; rw [h.obs_addr x hx, hd]
    | noCreate => simp
    | new a d r h0 hf he hi h => intro x hx; rw [h.obs_addr x hx]; rfl
  by_cases hall : ∀ a, a ≠ b → ofAddr s' a = ofAddr s a
  · exact Or.inl hall
  refine Or.inr ?_
  simp only [Classical.not_forall] at hall
  obtain ⟨a, hab, hne⟩ := hall
  cases step_view h ht a with
  | untouched hu => exact absurd hu hne
  | exchange d' t r L hev => cases hev; exact absurd rfl hab
  | timer i t r hev => cases hev
  | evicted b' d' hb hev h1 t h2 h3 h4 ho =>
    cases hev
    obtain ⟨k, hk, hact, hta⟩ := look_some h2
    have hta' : t.addr = a := hta
    subst hta'
    refine ⟨h4, ?_, t, h3, hab, h2, h1, ?_⟩
    · intro u hu
      cases hfe : findEmpty s.trans with
      | none =>
        unfold findEmpty at hfe
        rw [List.findIdx?_eq_none_iff] at hfe
        simpa using hfe u hu
      | some i =>
        exfalso
        have hmr : (makeRoom s).1 = i := by unfold makeRoom; rw [hfe]
        rw [hmr] at h3
        unfold findEmpty at hfe
        rw [List.findIdx?_eq_some_iff_getElem] at hfe
        obtain ⟨hl, hp, -⟩ := hfe
        rw [List.getElem?_eq_getElem hl] at h3
        cases h3
        rw [hact] at hp
        cases hp
    · intro c hcb hct
      cases step_view h ht c with
      | untouched hu => exact hu
      | exchange d' t r L hev => cases hev; exact absurd rfl hcb
      | timer i t r hev => cases hev
      | evicted b' d' hb hev h1' t' h2' h3' h4' ho' =>
        rw [h3] at h3'
        cases h3'
        obtain ⟨k, hk, hact, hta⟩ := look_some h2'
        exact absurd hta.symm hct

end FreeCoAP.Server
