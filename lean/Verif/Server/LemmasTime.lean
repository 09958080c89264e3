import Verif.Server.LemmasCall

/-! # Eviction and retransmission -/

namespace FreeCoAP.Server

open FreeCoAP.Msg

/-! ## The time of the last contact -/

theorem lastContact_snoc (a : Addr) (hist : List ((Env × Event) × List Obs)) (x : (Env × Event) × List Obs) :
    lastContact a (hist ++ [x]) = if contact a x = true then some x.1.1.now else lastContact a hist := by
  unfold lastContact
  rw [List.filter_append]
  by_cases h : contact a x = true
  · simp [h]
  · simp [h]

theorem contact_datagram {a : Addr} {env : Env} {d : Bytes} {o : List Obs} (h : env.acceptErr = none) :
    contact a ((env, .datagram a d), o) = true := by
  simp [contact, h]

theorem contact_false {a : Addr} {env : Env} {ev : Event} {o : List Obs} (ho : ∀ x ∈ o, x.addr ≠ a)
    (hev : ∀ d, ev = .datagram a d → env.acceptErr ≠ none) : contact a ((env, ev), o) = false := by
  have h2 : (sends o).any (·.1 == a) = false := by
    rw [List.any_eq_false]
    rintro ⟨c, b⟩ hc
    have := ho _ (mem_sends.1 hc)
    simpa [Obs.addr] using this
  unfold contact
  simp only [h2, Bool.or_false]
  split
  · rename_i b d
    by_cases hb : b = a
    · subst hb
      have := hev d rfl
      cases h : env.acceptErr with
      | none => exact absurd h this
      | some e => simp
    · simp [hb]
  · rfl

/-- The times recorded in the transactions are those of the last contacts. -/
theorem lastUse_run {sx : Bool} {evs : List (Env × Event)} {s : Srv} {tr : List (List Obs)} (hr : Reach sx evs s tr)
    (hq : ∀ x ∈ evs, x.1.recvErr ≠ some .EAGAIN) :
    ∀ a t, ofAddr s a = some t → lastContact a (evs.zip tr) = some t.lastUse := by
  refine (reach_induction (P := fun evs s tr => Tidy s ∧ evs.length = tr.length ∧ ((∀ x ∈ evs, x.1.recvErr ≠ some .EAGAIN) →
    ∀ a t, ofAddr s a = some t → lastContact a (evs.zip tr) = some t.lastUse)) ?_ ?_ hr).2.2 hq
  · intro id sepList pool
    refine ⟨init_tidy _ _ _, rfl, fun _ a t h => ?_⟩
    rw [ofAddr_init] at h
    cases h
  · intro evs s tr env ev s' o e ⟨hT, hL, hP⟩ hs
    refine ⟨hs.tidy hT, by simp [hL], fun hall a t hat => ?_⟩
    have hP2 := hP (fun x hx => hall x (List.mem_append_left _ hx))
    have henv : env.recvErr ≠ some .EAGAIN := hall (env, ev) (by simp)
    rw [List.zip_append hL]
    simp only [List.zip_cons_cons, List.zip_nil_right]
    rw [lastContact_snoc]
    cases step_view hs hT a with
    | untouched hu ho hd _ =>
      rw [hu] at hat
      rw [contact_false ho]
      · simp [hP2 a t hat]
      · intro d hd'
        rcases hd d hd' with h | ⟨h, -⟩
        · exact h
        · rw [hat] at h; cases h
    | evicted b d hb hev h1 => rw [h1] at hat; cases hat
    | timer i u r hev hi hu hta hact har hout ho he h' =>
      rw [h'] at hat
      by_cases hra : r.trans.active = true
      · rw [if_pos hra] at hat
        cases hat
        have hu2 := hP2 a u hu
        subst hev hta
        cases hout with
        | expired => simp [Trans.zero] at hra
        | noTimer => subst ho; simp [contact, sends, hu2]
        | resent => subst ho; simp [contact, sends]
        | noSend => subst ho; simp [contact, sends, hu2]
      · rw [if_neg hra] at hat; cases hat
    | exchange d u r L hev h0 hu hta hact hout ho he h' =>
      subst hev
      rw [h'] at hat
      rw [if_pos (contact_datagram h0)]
      by_cases hra : r.trans.active = true
      · rw [if_pos hra] at hat
        cases hat
        cases hout with
        | again _ hx => exact absurd hx henv
        | dupAck => rfl
        | dupResp => rfl
        | dupNon => rfl
        | acked => rfl
        | done => rfl
        | _ => simp [Trans.zero] at hra
      · rw [if_neg hra] at hat; cases hat

theorem lastContact_mem {a : Addr} {hist : List ((Env × Event) × List Obs)} {n : Nat} (h : lastContact a hist = some n) :
    ∃ x ∈ hist, x.1.1.now = n := by
  unfold lastContact at h
  rw [Option.map_eq_some_iff] at h
  obtain ⟨x, hx, hn⟩ := h
  exact ⟨x, (List.mem_filter.1 (List.mem_of_getLast? hx)).1, hn⟩

/-! ## The oldest transaction -/

theorem findOldestLoop_min (ts : List Trans) : ∀ (pre : List Trans) (mu old : Nat),
    (∀ t ∈ pre ++ ts, t.active = true ∧ 0 < t.lastUse) →
    ((pre = [] ∧ mu = 0) ∨ (∃ t, pre[old]? = some t ∧ t.lastUse = mu ∧ ∀ u ∈ pre, mu ≤ u.lastUse)) →
    pre ++ ts ≠ [] →
    ∃ t, (pre ++ ts)[findOldestLoop ts pre.length mu old]? = some t ∧ ∀ u ∈ pre ++ ts, t.lastUse ≤ u.lastUse := by
  induction ts with
  | nil =>
    intro pre mu old hall hinv hne
    simp only [findOldestLoop, List.append_nil] at *
    rcases hinv with ⟨h, -⟩ | ⟨t, h1, h2, h3⟩
    · exact absurd h hne
    · exact ⟨t, h1, by rw [h2]; exact h3⟩
  | cons x xs ih =>
    intro pre mu old hall hinv hne
    have hx := hall x (by simp)
    have e : pre ++ x :: xs = (pre ++ [x]) ++ xs := by simp
    unfold findOldestLoop
    have hl : pre.length + 1 = (pre ++ [x]).length := by simp
    split
    · rename_i hc
      rw [e, hl]
      refine ih (pre ++ [x]) x.lastUse pre.length (by rw [← e]; exact hall) (Or.inr ⟨x, by simp, rfl, ?_⟩) (by simp)
      intro u hu
      rcases List.mem_append.1 hu with hu | hu
      · rcases hinv with ⟨h, -⟩ | ⟨t, h1, h2, h3⟩
        · rw [h] at hu; cases hu
        · have := h3 u hu
          have hpos := (hall t (List.mem_append_left _ (List.mem_of_getElem? h1))).2
          rcases hc.2 with h | h
          · omega
          · omega
      · simp at hu; subst hu; exact Nat.le_refl _
    · rename_i hc
      rw [e, hl]
      refine ih (pre ++ [x]) mu old (by rw [← e]; exact hall) (Or.inr ?_) (by simp)
      rcases hinv with ⟨-, h⟩ | ⟨t, h1, h2, h3⟩
      · exact absurd ⟨hx.1, Or.inl h⟩ hc
      · refine ⟨t, ?_, h2, ?_⟩
        · have : old < pre.length := by
            rw [List.getElem?_eq_some_iff] at h1; exact h1.1
          rw [List.getElem?_append_left this]; exact h1
        · intro u hu
          rcases List.mem_append.1 hu with hu | hu
          · exact h3 u hu
          · simp at hu; subst hu
            have : ¬ (mu = 0 ∨ u.lastUse < mu) := fun h => hc ⟨hx.1, h⟩
            omega

theorem makeRoom_oldest {s : Srv} (hT : Tidy s) (hall : ∀ t ∈ s.trans, t.active = true ∧ 0 < t.lastUse) :
    ∃ t, s.trans[(makeRoom s).1]? = some t ∧ ∀ u ∈ s.trans, t.lastUse ≤ u.lastUse := by
  have hne : s.trans ≠ [] := by
    intro h
    have := hT.len
    rw [h] at this
    cases this
  have hfe : findEmpty s.trans = none := by
    unfold findEmpty
    rw [List.findIdx?_eq_none_iff]
    intro t ht
    simp [(hall t ht).1]
  have := findOldestLoop_min s.trans [] 0 0 (by simpa using hall) (Or.inl ⟨rfl, rfl⟩) (by simpa using hne)
  simp only [List.nil_append, List.length_nil] at this
  obtain ⟨t, h1, h2⟩ := this
  refine ⟨t, ?_, h2⟩
  have : (makeRoom s).1 = findOldestLoop s.trans 0 0 0 := by
    unfold makeRoom
    rw [hfe]
    simp only
    split <;> rfl
  rw [this]
  exact h1

/-! ## Retransmission -/

/-- The waits `2^(k+1) w, …` of `n` retransmissions after the `k`-th. -/
def waits (w k : Nat) : Nat → List Nat
  | 0 => []
  | n + 1 => 2 ^ (k + 1) * w :: waits w (k + 1) n

/-- The confirmable response `r` waits for its acknowledgement after `k` retransmissions. -/
structure Pending (m : Msg) (r : Bytes) (w k : Nat) (t : Trans) : Prop where
  ver : t.req.ver ≠ 0
  id : t.req.msgId = m.msgId
  resp : enc t.resp = r
  sendable : Sendable t.resp
  rver : t.resp.ver ≠ 0
  rid : ∀ hd, header r = some hd → hd.id = t.resp.msgId
  num : t.numRetrans = k
  timeout : t.timeout = 2 ^ k * w
  armed : t.armed = true
  k : k ≤ 4

/-- The response was acknowledged. -/
structure Stopped (m : Msg) (r : Bytes) (t : Trans) : Prop where
  ver : t.req.ver ≠ 0
  id : t.req.msgId = m.msgId
  rver : t.resp.ver ≠ 0
  rid : ∀ hd, header r = some hd → hd.id = t.resp.msgId
  armed : t.armed = false

theorem armsOf_append (a : Addr) (o1 o2 : List Obs) : armsOf a (o1 ++ o2) = armsOf a o1 ++ armsOf a o2 := by
  simp [armsOf, arms_append]

theorem armsOf_other {a : Addr} {o : List Obs} (ho : ∀ x ∈ o, x.addr ≠ a) : armsOf a o = [] := by
  unfold armsOf
  rw [List.filterMap_eq_nil_iff]
  rintro ⟨c, n⟩ hc
  unfold arms at hc
  rw [List.mem_filterMap] at hc
  obtain ⟨x, hx, h⟩ := hc
  split at h
  · cases h
    have := ho _ hx
    simp only [Obs.addr] at this
    simp [this]
  · cases h

theorem transmissions_other {a : Addr} {r : Bytes} {o : List Obs} (ho : ∀ x ∈ o, x.addr ≠ a) : transmissions a r o = 0 := by
  unfold transmissions
  rw [List.count_eq_zero]
  intro h
  exact ho _ (mem_sends.1 h) rfl

theorem sends_other {a : Addr} {o : List Obs} (ho : ∀ x ∈ o, x.addr ≠ a) (P : Bytes → Prop) : ∀ b, (a, b) ∈ sends o → P b :=
  fun _ h => absurd rfl (ho _ (mem_sends.1 h))

theorem pending_step {sx : Bool} {s s' : Srv} {env : Env} {ev : Event} {o : List Obs} {e : Option Err} {a : Addr} {m : Msg}
    {r : Bytes} {w k : Nat} {t : Trans} (hat : ofAddr s a = some t) (hp : Pending m r w k t) (hw : w < 3000) (hT : Tidy s)
    (h : StepRel sx s env ev s' o e) (hk : ofAddr s' a ≠ none) (htm : env.timerErr = none) (hne : ¬ Empty r)
    (hm : OnlyAgain sx a m (env, ev)) (hcon : m.type = CON) (hsep : Separate s.sepList m) :
    (∀ b, (a, b) ∈ sends o → b = r ∨ b = emptyAck m.msgId) ∧ ∃ t', ofAddr s' a = some t' ∧
    ((Pending m r w k t' ∧ armsOf a o = [] ∧ transmissions a r o = 0) ∨
     (Stopped m r t' ∧ armsOf a o = [] ∧ transmissions a r o = 0) ∨
     (k < 4 ∧ Pending m r w (k + 1) t' ∧ armsOf a o = [2 ^ (k + 1) * w] ∧
       transmissions a r o = if env.sendErr = none then 1 else transmissions a r o)) ∧
    transmissions a r o ≤ (armsOf a o).length := by
  cases step_view h hT a with
  | untouched hu ho hd _ =>
    refine ⟨sends_other ho _, t, hu.trans hat, Or.inl ⟨hp, armsOf_other ho, transmissions_other ho⟩, ?_⟩
    rw [transmissions_other ho]; exact Nat.zero_le _
  | evicted b d hb hev h1 => exact absurd h1 hk
  | timer i u r' hev hi hu hta hact har hout ho he h' hid =>
    rw [hat] at hu
    cases hu
    have hpow : (2 * t.timeout) % 2 ^ 32 = 2 ^ (k + 1) * w := by
      rw [hp.timeout, Nat.mod_eq_of_lt]
      · rw [Nat.pow_succ]; grind
      · have h1 : 2 ^ k ≤ 2 ^ 4 := Nat.pow_le_pow_right (by decide) hp.k
        have h2 : 2 ^ k * w ≤ 2 ^ 4 * 3000 := Nat.mul_le_mul h1 (by omega)
        have : 2 * (2 ^ k * w) ≤ 2 * (2 ^ 4 * 3000) := Nat.mul_le_mul (Nat.le_refl _) h2
        omega
    by_cases hra : r'.trans.active = true
    · rw [if_pos hra] at h'
      have hn := hp.num
      cases hout with
      | expired => simp [Trans.zero] at hra
      | noTimer _ x hx => rw [htm] at hx; cases hx
      | resent hlt hx hs hse =>
        subst ho hta
        rw [hn] at hlt
        simp only [MAX_RETRANSMIT] at hlt
        refine ⟨?_, _, h', Or.inr (Or.inr ⟨hlt, ⟨hp.ver, hp.id, hp.resp, hp.sendable, hp.rver, hp.rid, by simp [hn], hpow, rfl, by omega⟩, ?_, ?_⟩), ?_⟩
        · intro b hb
          simp [sends] at hb
          exact Or.inl (by rw [hb, hp.resp])
        · simp [armsOf, arms, hpow]
        · simp [transmissions, sends, hse, hp.resp]
        · simp [transmissions, sends, armsOf, arms, hp.resp]
      | noSend hlt hx e hf =>
        subst ho hta
        rw [hn] at hlt
        simp only [MAX_RETRANSMIT] at hlt
        refine ⟨by simp [sends], _, h', Or.inr (Or.inr ⟨hlt, ⟨hp.ver, hp.id, hp.resp, hp.sendable, hp.rver, hp.rid, by simp [hn], hpow, rfl, by omega⟩, ?_, ?_⟩), ?_⟩
        · simp [armsOf, arms, hpow]
        · rw [if_neg]
          intro hse
          exact hf hse hp.sendable
        · simp [transmissions, sends]
    · rw [if_neg hra] at h'; exact absurd h' hk
  | exchange d u r' L hev h0 hu hta hact hout ho he h' hid =>
    subst hev
    have hu : ofAddr s a = some u := by
      rcases hu with hu | ⟨hu, -⟩
      · exact hu
      · rw [hat] at hu; cases hu
    rw [hat] at hu
    cases hu
    by_cases hra : r'.trans.active = true
    · rw [if_pos hra] at h'
      subst ho
      cases hout with
      | again _ hx =>
        exact ⟨by simp [sends], _, h', Or.inl ⟨hp, rfl, rfl⟩, Nat.zero_le _⟩
      | dupAck m' hm' h1 h2 h3 =>
        have hmm := hm m' (arrived_got h0 hm') (Or.inl h2)
        subst hmm
        have hee : enc (emptyMsg ACK m'.msgId) = emptyAck m'.msgId := enc_ack hm'.1.fields.1.msgId
        have h0 : transmissions a r [Obs.sent t.addr (enc (emptyMsg ACK m'.msgId))] = 0 := by
          unfold transmissions
          rw [List.count_eq_zero]
          intro hb
          simp [sends] at hb
          exact hne (hb.2 ▸ Empty.ack hm'.1)
        refine ⟨?_, _, h', Or.inl ⟨⟨hp.ver, hp.id, hp.resp, hp.sendable, hp.rver, hp.rid, hp.num, hp.timeout, hp.armed, hp.k⟩, rfl, h0⟩, by rw [h0]; exact Nat.zero_le _⟩
        intro b hb
        simp [sends] at hb
        exact Or.inr (by rw [hb.2, hee])
      | dupResp m' hm' h1 h2 h3 =>
        have hmm := hm m' (arrived_got h0 hm') (Or.inl h2)
        subst hmm
        exact absurd hsep h3
      | dupNon m' hm' h1 h2 =>
        have hmm := hm m' (arrived_got h0 hm') (Or.inr h2)
        subst hmm
        rw [hcon] at h2
        cases h2
      | acked m' hm' h1 h2 =>
        exact ⟨by simp [sends], _, h', Or.inr (Or.inl ⟨⟨hp.ver, hp.id, hp.rver, hp.rid, rfl⟩, rfl, rfl⟩), Nat.zero_le _⟩
      | done m' hm' hn =>
        have hmm := hm m' (arrived_got h0 hm') hn.type
        subst hmm
        have := hn.fresh
        rw [matchReq_of hp.ver hp.id rfl] at this
        cases this
      | _ => simp [Trans.zero] at hra
    · rw [if_neg hra] at h'; exact absurd h' hk

theorem stopped_step {sx : Bool} {s s' : Srv} {env : Env} {ev : Event} {o : List Obs} {e : Option Err} {a : Addr} {m : Msg}
    {r : Bytes} {t : Trans} (hat : ofAddr s a = some t) (hp : Stopped m r t) (hT : Tidy s)
    (h : StepRel sx s env ev s' o e) (hk : ofAddr s' a ≠ none)
    (hm : OnlyAgain sx a m (env, ev)) (hcon : m.type = CON) (hsep : Separate s.sepList m) :
    (∀ b, (a, b) ∈ sends o → b = emptyAck m.msgId) ∧ armsOf a o = [] ∧ ∃ t', ofAddr s' a = some t' ∧ Stopped m r t' := by
  cases step_view h hT a with
  | untouched hu ho hd _ => exact ⟨sends_other ho _, armsOf_other ho, t, hu.trans hat, hp⟩
  | evicted b d hb hev h1 => exact absurd h1 hk
  | timer i u r' hev hi hu hta hact har hout ho he h' hid =>
    rw [hat] at hu
    cases hu
    rw [hp.armed] at har
    cases har
  | exchange d u r' L hev h0 hu hta hact hout ho he h' hid =>
    subst hev
    have hu : ofAddr s a = some u := by
      rcases hu with hu | ⟨hu, -⟩
      · exact hu
      · rw [hat] at hu; cases hu
    rw [hat] at hu
    cases hu
    by_cases hra : r'.trans.active = true
    · rw [if_pos hra] at h'
      subst ho
      cases hout with
      | again _ hx => exact ⟨by simp [sends], rfl, _, h', hp⟩
      | dupAck m' hm' h1 h2 h3 =>
        have hmm := hm m' (arrived_got h0 hm') (Or.inl h2)
        subst hmm
        have hee : enc (emptyMsg ACK m'.msgId) = emptyAck m'.msgId := enc_ack hm'.1.fields.1.msgId
        refine ⟨?_, rfl, _, h', ⟨hp.ver, hp.id, hp.rver, hp.rid, hp.armed⟩⟩
        intro b hb
        simp [sends] at hb
        rw [hb.2, hee]
      | dupResp m' hm' h1 h2 h3 =>
        have hmm := hm m' (arrived_got h0 hm') (Or.inl h2)
        subst hmm
        exact absurd hsep h3
      | dupNon m' hm' h1 h2 =>
        have hmm := hm m' (arrived_got h0 hm') (Or.inr h2)
        subst hmm
        rw [hcon] at h2
        cases h2
      | acked m' hm' h1 h2 => exact ⟨by simp [sends], rfl, _, h', ⟨hp.ver, hp.id, hp.rver, hp.rid, rfl⟩⟩
      | done m' hm' hn =>
        have hmm := hm m' (arrived_got h0 hm') hn.type
        subst hmm
        have := hn.fresh
        rw [matchReq_of hp.ver hp.id rfl] at this
        cases this
      | _ => simp [Trans.zero] at hra
    · rw [if_neg hra] at h'; exact absurd h' hk

theorem acked_step {sx : Bool} {s s' : Srv} {env : Env} {d : Bytes} {o : List Obs} {e : Option Err} {a : Addr} {m m' : Msg}
    {r : Bytes} {w k : Nat} {t : Trans} {hd : Header} (hat : ofAddr s a = some t) (hp' : Pending m r w k t ∨ Stopped m r t) (hT : Tidy s)
    (h : StepRel sx s env (.datagram a d) s' o e) (harr : Arrives env) (htm : env.timerErr = none) (hm : Carries sx d m')
    (hty : m'.type = ACK ∨ m'.type = RST) (hr : header r = some hd) (hid' : m'.msgId = hd.id) :
    o = [] ∧ ∃ t', ofAddr s' a = some t' ∧ Stopped m r t' := by
  have hp : Stopped m r { t with armed := false } := by
    rcases hp' with hp | hp
    · exact ⟨hp.ver, hp.id, hp.rver, hp.rid, rfl⟩
    · exact ⟨hp.ver, hp.id, hp.rver, hp.rid, rfl⟩
  cases step_view h hT a with
  | untouched hu ho hd _ =>
    rcases hd d rfl with h | ⟨h, -⟩
    · exact absurd harr.1 h
    · rw [hat] at h; cases h
  | evicted b d hb hev h1 => cases hev; exact absurd rfl hb
  | timer i u r' hev => cases hev
  | exchange d u r' L hev h0 hu hta hact hout ho he h' hid =>
    cases hev
    have hu : ofAddr s a = some u := by
      rcases hu with hu | ⟨hu, -⟩
      · exact hu
      · rw [hat] at hu; cases hu
    rw [hat] at hu
    cases hu
    have hno : ∀ m2, Got sx env d m2 → ¬ (m2.type = CON ∨ m2.type = NON) := by
      intro m2 h2 hc
      rw [h2.1.unique hm] at hc
      simp only [CON, NON, ACK, RST] at hc hty
      omega
    have hbad : ¬ (env.recvErr = none → env.parseMem = true → ∃ x, parse sx (recvBuf d) (min d.length BUF_LEN) = .err x) := by
      intro hx
      obtain ⟨x, hx⟩ := hx harr.2.1 harr.2.2
      unfold Carries at hm
      rw [hm] at hx
      cases hx
    have hmr : matchResp t m' = true := by
      simp only [matchResp, decide_eq_true_eq]
      exact ⟨hp.rver, by rw [hid', ← hp.rid hd hr]⟩
    subst ho
    cases hout with
    | again hx => exact absurd hx hbad
    | lost e hx => exact absurd hx hbad
    | dupAck m2 hm2 _ h2 => exact absurd (Or.inl h2) (hno m2 hm2)
    | dupResp m2 hm2 _ h2 => exact absurd (Or.inl h2) (hno m2 hm2)
    | dupFail m2 hm2 _ h2 => exact absurd (Or.inl h2) (hno m2 hm2)
    | dupNon m2 hm2 _ h2 => exact absurd (Or.inr h2) (hno m2 hm2)
    | ackLost m2 hm2 hn => exact absurd hn.type (hno m2 hm2)
    | genFail m2 hm2 hn => exact absurd hn.type (hno m2 hm2)
    | sendFail m2 hm2 hn => exact absurd hn.type (hno m2 hm2)
    | done m2 hm2 hn => exact absurd hn.type (hno m2 hm2)
    | acked m2 hm2 h1 h2 =>
      rw [if_pos (by simp only [touched]; exact hact)] at h'
      exact ⟨rfl, _, h', ⟨hp.ver, hp.id, hp.rver, hp.rid, rfl⟩⟩
    | ackFail m2 hm2 h1 h2 x hx => rw [htm] at hx; cases hx
    | rejected m2 hm2 h1 h2 h3 =>
      rw [← hm.unique hm2.1] at h3
      obtain ⟨c1, c2⟩ := h3 hmr
      rcases hty with c | c
      · exact absurd c c1
      · exact absurd c c2

theorem pending_first {sx : Bool} {s s' : Srv} {env : Env} {a : Addr} {d : Bytes} {o : List Obs} {m : Msg} {r : Bytes}
    (ht : Tidy s) (h : StepRel sx s env (.datagram a d) s' o none) (hm : Carries sx d m)
    (ha : AppOK env) (hr : (a, r) ∈ sends o) (hne : ¬ Empty r) (hcon : m.type = CON) (hsep : Separate s.sepList m) :
    ∃ t, ofAddr s' a = some t ∧ Pending m r (2000 + env.rand % 1000) 0 t ∧ armsOf a o = [2000 + env.rand % 1000] ∧
      transmissions a r o = 1 := by
  have hb' := mem_sends.1 hr
  cases step_view h ht a with
  | untouched h1 ho hd _ => exact absurd rfl (ho _ hb')
  | evicted b d hb hev h1 t ht hi hb'' ho => exact absurd rfl (ho _ hb')
  | timer i u r hev => cases hev
  | exchange d' u r' L hev h0 hu hta hact hout ho he h' hid =>
    cases hev
    subst ho
    cases hout with
    | again h => simp at hb'
    | lost => cases he
    | dupAck m' hm' h1 h2 h3 => simp at hb'; rw [hb'.2] at hne; exact absurd (Empty.ack hm'.1) hne
    | dupResp m' hm' h1 h2 h3 hs =>
      rw [← hm.unique hm'.1] at h3
      exact absurd hsep h3
    | dupFail => simp at hb'
    | dupNon m hm h1 h2 => simp at hb'
    | acked m hm h1 h2 => simp at hb'
    | ackFail m hm h1 h2 => cases he
    | rejected m hm h1 h2 h3 o ho => cases he
    | ackLost => cases he
    | genFail m hm hn hp r o2 hg e he => cases he
    | sendFail m hm hn hp r o2 hg he o3 e ho hf => cases he
    | done m' hm' hn hp r' o2 hg he hs q p hq hp2 =>
      have hB := (generate_built ha hg).final (sepList := s.sepList) (env := env) (id := s.msgId) hm'.1.fields.1
      have hpe := hB.copy
      rw [hp2] at hpe
      have hpe : p = final s.sepList env s.msgId m' r'.resp := by simpa using hpe
      subst hpe
      have hmm := hm.unique hm'.1
      subst hmm
      rw [if_pos (by simp only [recorded]; exact hact)] at h'
      obtain ⟨c1, -, -, -, c5, -, -⟩ := copy_ok_fields hq
      have hct : (final s.sepList env s.msgId m r'.resp).type = CON := by
        simp [final, sepB, hcon, hsep]
      have hre : enc (final s.sepList env s.msgId m r'.resp) = r := by
        simp only [List.mem_append] at hb'
        rcases hb' with (((hb' | hb') | hb') | hb') | hb'
        · unfold preAck at hb'
          split at hb'
          · simp at hb'; rw [hb'.2] at hne; exact absurd (Empty.ack hm'.1) hne
          · cases hb'
        · have := mem_sends.2 hb'; rw [(generate_sends hg).1] at this; cases this
        · have := mem_sends.2 hb'; rw [sends_rx] at this; cases this
        · simp at hb'; exact hb'.2.symm
        · have := mem_sends.2 hb'; rw [sends_arm] at this; cases this
      refine ⟨_, h', ⟨?_, c5, hre, hs, ?_, ?_, ?_, ?_, ?_, by omega⟩, ?_, ?_⟩
      · simp only [recorded]; rw [c1, hm'.1.fields.1.ver]; decide
      · simp only [recorded]; rw [hB.ver]; decide
      · intro hd hh
        rw [← hre, header_enc' hB.type hB.msgId hB.token] at hh
        cases hh
        rfl
      · simp [recorded, hct]
      · simp [recorded, hct, ACK_TIMEOUT]
      · simp [recorded, hct]
      · simp only [armsOf, arms_append, arms_pre, arms_rx, (generate_sends hg).2.1, List.append_nil, List.nil_append, armObs, hct, hta]
        simp [arms, ACK_TIMEOUT]
      · have hpre : ∀ l, l = preAck s.sepList u m → (sends l).count (a, r) = 0 := by
          rintro l rfl
          rw [List.count_eq_zero]
          intro hx
          have hx := mem_sends.1 hx
          unfold preAck at hx
          split at hx
          · simp at hx; exact hne (hx.2 ▸ Empty.ack hm'.1)
          · cases hx
        simp only [transmissions, sends_append, sends_rx, sends_arm, (generate_sends hg).1, List.append_nil, List.count_append,
          hpre _ rfl, hta, hre]
        simp [sends]

theorem discard_step {sx : Bool} {s s' : Srv} {env : Env} {i : Nat} {o : List Obs} {e : Option Err} {a : Addr} {t : Trans}
    (hat : ofAddr s a = some t) (hi : s.trans[i]? = some t) (hn : t.numRetrans = 4) (har : t.armed = true) (hT : Tidy s)
    (h : StepRel sx s env (.timer i) s' o e) : ofAddr s' a = none ∧ o = [] := by
  cases step_view h hT a with
  | untouched hu ho hd htm => have := htm i t rfl hi hat; rw [har] at this; cases this
  | evicted b d hb hev => cases hev
  | exchange d u r' L hev => cases hev
  | timer j u r' hev hj hu hta hact har hout ho he h' hid =>
    rw [hat] at hu
    cases hu
    subst ho
    cases hout with
    | expired => exact ⟨by simpa [Trans.zero] using h', rfl⟩
    | noTimer hx => rw [hn] at hx; simp only [MAX_RETRANSMIT] at hx; omega
    | resent hx => rw [hn] at hx; simp only [MAX_RETRANSMIT] at hx; omega
    | noSend hx => rw [hn] at hx; simp only [MAX_RETRANSMIT] at hx; omega

/-- The timer of a pending response expires before the last wait: the response is sent again, and nothing else happens. -/
theorem resend_step {sx : Bool} {s s' : Srv} {env : Env} {i : Nat} {o : List Obs} {e : Option Err} {a : Addr} {t : Trans} {m : Msg} {r : Bytes} {w k : Nat}
    (hat : ofAddr s a = some t) (hi : s.trans[i]? = some t) (hp : Pending m r w k t) (hk : k < 4) (hT : Tidy s)
    (htm : env.timerErr = none) (hse : env.sendErr = none) (h : StepRel sx s env (.timer i) s' o e) :
    e = none ∧ sends o = [(a, r)] ∧ calls o = [] := by
  have har := hp.armed
  have hn := hp.num
  cases step_view h hT a with
  | untouched hu ho hd htm => have := htm i t rfl hi hat; rw [har] at this; cases this
  | evicted b d hb hev => cases hev
  | exchange d u r' L hev => cases hev
  | timer j u r' hev hj hu hta hact har hout ho he h' hid =>
    rw [hat] at hu
    cases hu
    subst ho
    cases hout with
    | expired hx =>
      rcases hx with hx | hx
      · simp only [MAX_RETRANSMIT] at hx; omega
      · exact absurd htm hx
    | noTimer _ x hx => rw [htm] at hx; cases hx
    | resent hlt hx hs hse =>
      subst hta
      exact ⟨he, by simp [sends, hp.resp], by simp [calls]⟩
    | noSend hlt hx e hf => exact absurd hp.sendable (hf hse)

theorem transmissions_append (a : Addr) (r : Bytes) (o1 o2 : List Obs) :
    transmissions a r (o1 ++ o2) = transmissions a r o1 + transmissions a r o2 := by
  simp [transmissions, sends_append]

theorem stopped_run {sx : Bool} {s s' : Srv} {evs : List (Env × Event)} {tr : List (List Obs)} {a : Addr} {m : Msg} {r : Bytes} {t : Trans}
    (hat : ofAddr s a = some t) (hp : Stopped m r t) (hT : Tidy s) (h : run sx s evs = .ok (s', tr)) (hk : Kept sx a s evs)
    (hm : ∀ x ∈ evs, OnlyAgain sx a m x) (hcon : m.type = CON) (hsep : Separate s.sepList m) :
    (∀ b, (a, b) ∈ sends (obsOf tr) → b = emptyAck m.msgId) ∧ armsOf a (obsOf tr) = [] ∧ ∃ t', ofAddr s' a = some t' ∧ Stopped m r t' := by
  induction evs generalizing s t tr with
  | nil => cases h; exact ⟨by simp [obsOf, sends], rfl, t, hat, hp⟩
  | cons x xs ih =>
    obtain ⟨env, ev⟩ := x
    obtain ⟨s1, o, e, t', h1, h2, rfl⟩ := run_cons h
    have hr := step_rel h1
    have hk1 := hk.2 s1 o e h1
    obtain ⟨c1, c2, t1, c3, c4⟩ := stopped_step hat hp hT hr hk1.now (hm _ (by simp)) hcon hsep
    obtain ⟨d1, d2, d3⟩ := ih c3 c4 (hr.tidy hT) h2 hk1 (fun x hx => hm x (by simp [hx])) (by rw [hr.sepList]; exact hsep)
    refine ⟨?_, ?_, d3⟩
    · intro b hb
      simp only [obsOf, List.flatten_cons, sends_append, List.mem_append] at hb
      rcases hb with hb | hb
      · exact c1 b hb
      · exact d1 b hb
    · simp only [obsOf, List.flatten_cons, armsOf_append, c2, List.nil_append]
      exact d2

theorem pending_run {sx : Bool} {s s' : Srv} {evs : List (Env × Event)} {tr : List (List Obs)} {a : Addr} {m : Msg} {t : Trans}
    {r : Bytes} {w k : Nat}
    (hat : ofAddr s a = some t) (hp : Pending m r w k t) (hw : w < 3000) (hT : Tidy s) (h : run sx s evs = .ok (s', tr))
    (hk : Kept sx a s evs) (htm : ∀ x ∈ evs, x.1.timerErr = none) (hne : ¬ Empty r)
    (hm : ∀ x ∈ evs, OnlyAgain sx a m x) (hcon : m.type = CON) (hid : m.msgId < 65536) (hsep : Separate s.sepList m) :
    ∃ n, k + n ≤ 4 ∧ armsOf a (obsOf tr) = waits w k n ∧ transmissions a r (obsOf tr) ≤ n ∧
      ((∀ x ∈ evs, x.1.sendErr = none) → transmissions a r (obsOf tr) = n) ∧
      (∀ b, (a, b) ∈ sends (obsOf tr) → b = r ∨ b = emptyAck m.msgId) ∧
      ∃ t', ofAddr s' a = some t' ∧ (Pending m r w (k + n) t' ∨ Stopped m r t') := by
  induction evs generalizing s t tr k with
  | nil => cases h; exact ⟨0, hp.k, rfl, Nat.le_refl _, fun _ => rfl, by simp [obsOf, sends], t, hat, Or.inl hp⟩
  | cons x xs ih =>
    obtain ⟨env, ev⟩ := x
    obtain ⟨s1, o, e, tr', h1, h2, rfl⟩ := run_cons h
    have hr := step_rel h1
    have hk1 := hk.2 s1 o e h1
    have hsep' : Separate s1.sepList m := by rw [hr.sepList]; exact hsep
    have hxs : ∀ x ∈ xs, OnlyAgain sx a m x := fun x hx => hm x (by simp [hx])
    have htx : ∀ x ∈ xs, x.1.timerErr = none := fun x hx => htm x (by simp [hx])
    obtain ⟨c1, t1, c2, c3, c4⟩ := pending_step hat hp hw hT hr hk1.now (htm (env, ev) (by simp)) hne (hm _ (by simp)) hcon hsep
    have hsends : ∀ {P : Prop}, (∀ b, (a, b) ∈ sends (obsOf tr') → b = r ∨ b = emptyAck m.msgId) →
        ∀ b, (a, b) ∈ sends (obsOf (o :: tr')) → b = r ∨ b = emptyAck m.msgId := by
      intro _ hd b hb
      simp only [obsOf, List.flatten_cons, sends_append, List.mem_append] at hb
      rcases hb with hb | hb
      · exact c1 b hb
      · exact hd b hb
    have e1 : armsOf a (obsOf (o :: tr')) = armsOf a o ++ armsOf a (obsOf tr') := by
      simp only [obsOf, List.flatten_cons, armsOf_append]
    have e2 : transmissions a r (obsOf (o :: tr')) = transmissions a r o + transmissions a r (obsOf tr') := by
      simp only [obsOf, List.flatten_cons, transmissions_append]
    rw [e1, e2]
    rcases c3 with ⟨p1, p2, p3⟩ | ⟨p1, p2, p3⟩ | ⟨p0, p1, p2, p3⟩
    · obtain ⟨n, d1, d2, d3, d4, d5, d6⟩ := ih c2 p1 (hr.tidy hT) h2 hk1 htx hxs hsep'
      refine ⟨n, d1, by rw [p2, d2]; rfl, by omega, ?_, hsends (P := True) d5, d6⟩
      intro hs
      rw [p3, Nat.zero_add]
      exact d4 (fun x hx => hs x (by simp [hx]))
    · obtain ⟨d1, d2, t', d3, d4⟩ := stopped_run c2 p1 (hr.tidy hT) h2 hk1 hxs hcon hsep'
      have hz : transmissions a r (obsOf tr') = 0 := by
        unfold transmissions
        rw [List.count_eq_zero]
        intro hb
        have := d1 r hb
        refine hne (Or.inl ⟨_, ?_, this⟩)
        exact hid
      refine ⟨0, hp.k, by rw [p2, d2]; rfl, by omega, fun _ => by omega, hsends (P := True) (fun b hb => Or.inr (d1 b hb)), t', d3, Or.inr d4⟩
    · obtain ⟨n, d1, d2, d3, d4, d5, d6⟩ := ih c2 p1 (hr.tidy hT) h2 hk1 htx hxs hsep'
      have hlen : transmissions a r o ≤ 1 := by rw [p2] at c4; exact c4
      refine ⟨n + 1, by omega, ?_, by omega, ?_, hsends (P := True) d5, ?_⟩
      · rw [p2, d2]; rfl
      · intro hs
        have h1 := hs (env, ev) (by simp)
        rw [if_pos h1] at p3
        have := d4 (fun x hx => hs x (by simp [hx]))
        omega
      · have e : k + (n + 1) = k + 1 + n := by omega
        rw [e]; exact d6

theorem Reach.run {sx : Bool} {evs evs2 : List (Env × Event)} {s s2 : Srv} {tr tr2 : List (List Obs)} (h : Reach sx evs s tr)
    (h2 : Server.run sx s evs2 = .ok (s2, tr2)) : Reach sx (evs ++ evs2) s2 (tr ++ tr2) := by
  obtain ⟨id, sl, pool, h⟩ := h
  exact ⟨id, sl, pool, run_append_ok h h2⟩

theorem run_sepList {sx : Bool} {evs : List (Env × Event)} {s s2 : Srv} {tr : List (List Obs)}
    (h : run sx s evs = .ok (s2, tr)) : s2.sepList = s.sepList := by
  induction evs generalizing s tr with
  | nil => cases h; rfl
  | cons x xs ih =>
    obtain ⟨s1, o, e, t', h1, h2, -⟩ := run_cons h
    rw [ih h2, (step_rel h1).sepList]

/-! ## Only confirmable responses have a timer -/

theorem armed_con {sx : Bool} {evs : List (Env × Event)} {s : Srv} {tr : List (List Obs)} {a : Addr} (hr : Reach sx evs s tr)
    (hq : ∀ x ∈ evs, ∀ m, arrived sx a x = some m → Asks m → m.type = CON ∧ Separate s.sepList m) :
    ∀ t, ofAddr s a = some t → t.armed = true → ∃ hd, header (enc t.resp) = some hd ∧ hd.type = CON := by
  refine (reach_induction (P := fun evs s tr => Tidy s ∧
    ((∀ x ∈ evs, ∀ m, arrived sx a x = some m → Asks m → m.type = CON ∧ Separate s.sepList m) →
    ∀ t, ofAddr s a = some t → t.armed = true → ∃ hd, header (enc t.resp) = some hd ∧ hd.type = CON)) ?_ ?_ hr).2 hq
  · intro id sepList pool
    refine ⟨init_tidy _ _ _, fun _ t h => ?_⟩
    rw [ofAddr_init] at h
    cases h
  · intro evs s tr env ev s' o e ⟨hT, hP⟩ hs
    refine ⟨hs.tidy hT, fun hall t hat harm => ?_⟩
    rw [hs.sepList] at hall
    have hP2 := hP (fun x hx => hall x (List.mem_append_left _ hx))
    have hx := hall (env, ev) (by simp)
    cases step_view hs hT a with
    | untouched hu ho hd _ => rw [hu] at hat; exact hP2 t hat harm
    | evicted b d hb hev h1 => rw [h1] at hat; cases hat
    | timer i u r hev hi hu hta hact har hout ho he h' =>
      rw [h'] at hat
      by_cases hra : r.trans.active = true
      · rw [if_pos hra] at hat
        cases hat
        have hu2 := hP2 u hu har
        cases hout with
        | expired => simp [Trans.zero] at hra
        | noTimer => exact hu2
        | resent => exact hu2
        | noSend => exact hu2
      · rw [if_neg hra] at hat; cases hat
    | exchange d u r L hev h0 hu hta hact hout ho he h' =>
      subst hev
      rw [h'] at hat
      by_cases hra : r.trans.active = true
      · rw [if_pos hra] at hat
        cases hat
        have hu2 : u.armed = true → ∃ hd, header (enc u.resp) = some hd ∧ hd.type = CON := by
          intro hua
          rcases hu with hu | ⟨-, rfl, -⟩
          · exact hP2 u hu hua
          · cases hua
        cases hout with
        | again => exact hu2 harm
        | dupAck => exact hu2 harm
        | dupResp => exact hu2 harm
        | dupNon => exact hu2 harm
        | acked => cases harm
        | done m hm hn hp r' o2 hg he hs q p hq hp2 =>
          obtain ⟨c1, c2⟩ := hx m (arrived_got h0 hm) ⟨hn.type, hn.cls⟩
          have hf := hm.1.fields.1
          obtain ⟨f1, f2, f3⟩ := final_fields (sepList := s.sepList) (env := env) (id := s.msgId) (resp := r'.resp) hf
          simp only [recorded]
          rw [copy_enc_header f1 f2 f3 hp2, final_header hf]
          refine ⟨_, rfl, ?_⟩
          simp [final, sepB, c1, c2]
        | _ => simp [Trans.zero] at hra
      · rw [if_neg hra] at hat; cases hat

end FreeCoAP.Server
