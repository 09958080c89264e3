import Verif.Server.LemmasHist

/-! # Where responses come from -/

namespace FreeCoAP.Server

open FreeCoAP.Msg

theorem AnswerTo.mono {sx : Bool} {s0 : Srv} {evs more : List (Env × Event)} {a : Addr} {b : Bytes}
    (h : AnswerTo sx s0 evs a b) : AnswerTo sx s0 (evs ++ more) a b := by
  obtain ⟨pre, env, d, post, m, h, sj, trj, rfl, h2⟩ := h
  exact ⟨pre, env, d, post ++ more, m, h, sj, trj, by simp, h2⟩

theorem enc_create : enc create = emptyCon := by decide

theorem StepRel.sepList {sx : Bool} {s s' : Srv} {env : Env} {ev : Event} {o : List Obs} {e : Option Err}
    (h : StepRel sx s env ev s' o e) : s'.sepList = s.sepList := by
  cases h <;> first | rfl | exact (makeRoom_eq s).2.1

/-- The stored response of every sender is an answer to one of its requests. -/
def Stored (sx : Bool) (s0 : Srv) (evs : List (Env × Event)) (s : Srv) : Prop :=
  ∀ a t, ofAddr s a = some t → t.resp = create ∨ AnswerTo sx s0 evs a (enc t.resp)

theorem final_answerTo {sx : Bool} {s0 s : Srv} {evs : List (Env × Event)} {tr : List (List Obs)} {env : Env} {a : Addr}
    {d : Bytes} {m resp : Msg} (hrun : run sx s0 evs = .ok (s, tr)) (hsep : s.sepList = s0.sepList)
    (hm : Got sx env d m) (ha : Asks m) :
    AnswerTo sx s0 (evs ++ [(env, .datagram a d)]) a (enc (final s.sepList env s.msgId m resp)) := by
  refine ⟨evs, env, d, [], m, _, s, tr, rfl, hm.1, ha, final_header hm.1.fields.1, ?_, hrun, ?_⟩
  · rw [← hsep]; exact (final_answers ha.1).1
  · exact (final_answers (resp := resp) (c := 0) (d := 0) ha.1).2

theorem copy_enc_header {m p : Msg} (h1 : m.type < 4) (h4 : m.msgId < 65536) (h5 : m.token.length ≤ 8)
    (h : copy create m = .ok p) : header (enc p) = header (enc m) := by
  obtain ⟨-, c2, c3, c4, c5, c6, -⟩ := copy_ok_fields h
  rw [header_enc' (by rw [c2]; exact h1) (by rw [c5]; exact h4) (by rw [c6]; exact h5), header_enc' h1 h4 h5,
    c2, c3, c4, c5, c6]

theorem final_fields {sepList : List Bytes} {env : Env} {id : Nat} {m resp : Msg} (hf : Fields m) :
    (final sepList env id m resp).type < 4 ∧ (final sepList env id m resp).msgId < 65536 ∧
    (final sepList env id m resp).token.length ≤ 8 := by
  refine ⟨final_type_lt .., ?_, hf.token⟩
  have := nextMsgId_le id env.idRand
  have := hf.msgId
  simp only [final]; split <;> omega

theorem AnswerTo.congr {sx : Bool} {s0 : Srv} {evs : List (Env × Event)} {a : Addr} {b b' : Bytes}
    (h : AnswerTo sx s0 evs a b) (e : header b' = header b) : AnswerTo sx s0 evs a b' := by
  obtain ⟨pre, env, d, post, m, h, sj, trj, h1, h2, h3, h4, h5⟩ := h
  exact ⟨pre, env, d, post, m, h, sj, trj, h1, h2, h3, e.trans h4, h5⟩

theorem Empty.rst {d : Bytes} {i : Nat} {t : Nat} (h : parseTypeMsgId (recvBuf d) (min d.length BUF_LEN) = .ok (t, i)) :
    Empty (enc (emptyMsg RST i)) := by
  have := (typeMsgId_header h).1
  exact Or.inr (Or.inl ⟨i, this, enc_rst this⟩)

theorem Empty.ack {sx : Bool} {d : Bytes} {m : Msg} (h : Carries sx d m) : Empty (enc (emptyMsg ACK m.msgId)) :=
  Or.inl ⟨m.msgId, h.fields.1.msgId, enc_ack h.fields.1.msgId⟩

theorem Empty.rst' {sx : Bool} {d : Bytes} {m : Msg} (h : Carries sx d m) : Empty (enc (emptyMsg RST m.msgId)) :=
  Or.inr (Or.inl ⟨m.msgId, h.fields.1.msgId, enc_rst h.fields.1.msgId⟩)

/-- The datagrams sent at an event. -/
theorem sent_cases {sx : Bool} {s0 s s' : Srv} {evs : List (Env × Event)} {tr : List (List Obs)} {env : Env} {ev : Event}
    {o : List Obs} {e : Option Err} (hrun : run sx s0 evs = .ok (s, tr)) (hsep : s.sepList = s0.sepList) (ht : Tidy s)
    (hst : Stored sx s0 evs s) (h : StepRel sx s env ev s' o e) {a : Addr} {b : Bytes} (hb : (a, b) ∈ sends o) :
    Empty b ∨ AnswerTo sx s0 (evs ++ [(env, ev)]) a b := by
  have hb' := mem_sends.1 hb
  cases step_view h ht a with
  | untouched h1 ho hd _ => exact absurd rfl (ho _ hb')
  | evicted b d hb hev h1 t ht hi hb'' ho => exact absurd rfl (ho _ hb')
  | timer i u r hev hi hu hta hact har hout ho he h' hid =>
    subst ho
    cases hout with
    | expired => simp at hb'
    | noTimer => simp at hb'
    | resent h he hs hse =>
      simp at hb'
      rcases hst a u hu with hc | hc
      · left; rw [hb'.2, hc, enc_create]; exact Or.inr (Or.inr rfl)
      · right; rw [hb'.2]; exact hc.mono
    | noSend => simp at hb'
  | exchange d u r L hev h0 hu hta hact hout ho he h' hid =>
    subst hev ho
    have hold : u.resp = create ∨ AnswerTo sx s0 evs a (enc u.resp) := by
      rcases hu with hu | ⟨-, rfl, -⟩
      · exact hst a u hu
      · exact Or.inl rfl
    have hpre : ∀ m, Got sx env d m → Obs.sent a b ∈ preAck s.sepList u m → Empty b := by
      intro m hm hb
      unfold preAck at hb
      split at hb
      · simp at hb; rw [hb.2]; exact Empty.ack hm.1
      · cases hb
    have hgen : ∀ m (r : BRes) o2, generate env (cleared env u) L m = .ok (r, o2) → Obs.sent a b ∉ o2 ∧ Obs.sent a b ∉ rxObs u.addr r := by
      intro m r o2 hg
      constructor
      · intro hh
        have := mem_sends.2 hh
        rw [(generate_sends hg).1] at this
        cases this
      · intro hh
        have := mem_sends.2 hh
        rw [sends_rx] at this
        cases this
    cases hout with
    | again h => simp at hb'
    | lost e h o ho =>
      rcases ho with rfl | ⟨-, -, i, hi, rfl⟩
      · simp at hb'
      · simp at hb'; left; rw [hb'.2]; exact Empty.rst hi
    | dupAck m hm h1 h2 h3 => simp at hb'; left; rw [hb'.2]; exact Empty.ack hm.1
    | dupResp m hm h1 h2 h3 hs =>
      simp at hb'
      rcases hold with hc | hc
      · left; rw [hb'.2, hc, enc_create]; exact Or.inr (Or.inr rfl)
      · right; rw [hb'.2]; exact hc.mono
    | dupFail => simp at hb'
    | dupNon m hm h1 h2 => simp at hb'
    | acked m hm h1 h2 => simp at hb'
    | ackFail m hm h1 h2 => simp at hb'
    | rejected m hm h1 h2 h3 o ho =>
      rcases ho with rfl | ⟨-, rfl⟩
      · simp at hb'
      · simp at hb'; left; rw [hb'.2]; exact Empty.rst' hm.1
    | ackLost => simp at hb'
    | genFail m hm hn hp r o2 hg e he =>
      simp only [List.mem_append] at hb'
      rcases hb' with (hb' | hb') | hb'
      · exact Or.inl (hpre m hm hb')
      · exact absurd hb' (hgen m r o2 hg).1
      · exact absurd hb' (hgen m r o2 hg).2
    | sendFail m hm hn hp r o2 hg he o3 e ho hf =>
      simp only [List.mem_append] at hb'
      rcases hb' with ((hb' | hb') | hb') | hb'
      · exact Or.inl (hpre m hm hb')
      · exact absurd hb' (hgen m r o2 hg).1
      · exact absurd hb' (hgen m r o2 hg).2
      · rcases ho with rfl | ⟨rfl, -⟩
        · simp at hb'
        · simp at hb'
          right; rw [hb'.2]
          exact final_answerTo hrun hsep hm ⟨hn.type, hn.cls⟩
    | done m hm hn hp r' o2 hg he hs q p hq hp2 =>
      simp only [List.mem_append] at hb'
      rcases hb' with (((hb' | hb') | hb') | hb') | hb'
      · exact Or.inl (hpre m hm hb')
      · exact absurd hb' (hgen m r' o2 hg).1
      · exact absurd hb' (hgen m r' o2 hg).2
      · simp at hb'
        right; rw [hb'.2]
        exact final_answerTo hrun hsep hm ⟨hn.type, hn.cls⟩
      · have := mem_sends.2 hb'
        rw [sends_arm] at this
        cases this

theorem Stored.step {sx : Bool} {s0 s s' : Srv} {evs : List (Env × Event)} {tr : List (List Obs)} {env : Env} {ev : Event}
    {o : List Obs} {e : Option Err} (hrun : run sx s0 evs = .ok (s, tr)) (hsep : s.sepList = s0.sepList) (ht : Tidy s)
    (hst : Stored sx s0 evs s) (h : StepRel sx s env ev s' o e) : Stored sx s0 (evs ++ [(env, ev)]) s' := by
  have hm : ∀ {a b}, b = create ∨ AnswerTo sx s0 evs a (enc b) → b = create ∨ AnswerTo sx s0 (evs ++ [(env, ev)]) a (enc b) :=
    fun h => h.imp id AnswerTo.mono
  intro a t hat
  cases step_view h ht a with
  | untouched h1 ho hd _ => rw [h1] at hat; exact hm (hst a t hat)
  | evicted b d hb hev h1 => rw [h1] at hat; cases hat
  | timer i u r hev hi hu hta hact har hout ho he h' hid =>
    rw [h'] at hat
    obtain ⟨rfl, hra⟩ := zero_inactive hat
    have hreq : r.trans.resp = u.resp := by cases hout <;> first | rfl | simp [Trans.zero] at hra
    rw [hreq]
    exact hm (hst a u hu)
  | exchange d u r L hev h0 hu hta hact hout ho he h' hid =>
    subst hev
    rw [h'] at hat
    obtain ⟨rfl, hra⟩ := zero_inactive hat
    have hold : u.resp = create ∨ AnswerTo sx s0 (evs ++ [(env, .datagram a d)]) a (enc u.resp) := by
      apply hm
      rcases hu with hu | ⟨-, rfl, -⟩
      · exact hst a u hu
      · exact Or.inl rfl
    cases hout with
    | again h => exact hold
    | dupAck => exact hold
    | dupResp => exact hold
    | dupNon => exact hold
    | acked => exact hold
    | done m hm hn hp r' o2 hg he hs q p hq hp2 =>
      right
      obtain ⟨f1, f2, f3⟩ := final_fields (sepList := s.sepList) (env := env) (id := s.msgId) (resp := r'.resp) hm.1.fields.1
      exact (final_answerTo hrun hsep hm ⟨hn.type, hn.cls⟩).congr (copy_enc_header f1 f2 f3 hp2)
    | _ => simp [Trans.zero] at hra

theorem ofAddr_init (id : Nat) (sepList : List Bytes) (pool : Mem.Pool) (a : Addr) : ofAddr (init id sepList pool) a = none := by
  rw [ofAddr_look, look_none]
  intro i t hi ha
  simp only [init] at hi
  rw [List.getElem?_replicate] at hi
  split at hi
  · cases hi; simp [Trans.zero] at ha
  · cases hi

theorem stored_run {sx : Bool} {id : Nat} {sepList : List Bytes} {pool : Mem.Pool} {evs : List (Env × Event)} {s : Srv}
    {tr : List (List Obs)} (h : run sx (init id sepList pool) evs = .ok (s, tr)) :
    Tidy s ∧ s.sepList = sepList ∧ Stored sx (init id sepList pool) evs s := by
  refine run_induction' (sx := sx) (s0 := init id sepList pool)
    (P := fun evs s _ => Tidy s ∧ s.sepList = sepList ∧ Stored sx (init id sepList pool) evs s) ?_ ?_ evs s tr h
  · refine ⟨init_tidy _ _ _, rfl, ?_⟩
    intro a t hat
    rw [ofAddr_init] at hat
    cases hat
  · intro evs s tr env ev s' o e hrun ⟨h1, h2, h3⟩ hs
    have hr := step_rel hs
    exact ⟨hr.tidy h1, hr.sepList.trans h2, Stored.step hrun h2 h1 h3 hr⟩

end FreeCoAP.Server
