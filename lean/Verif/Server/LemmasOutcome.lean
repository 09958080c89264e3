import Verif.Server.Lemmas
import Verif.Msg.LemmasErr

/-! # The outcomes of handling a datagram -/

namespace FreeCoAP.Server

open FreeCoAP.Msg

/-- The transaction after a message was received. -/
def touched (env : Env) (t : Trans) : Trans := { t with lastUse := env.now }

/-- The transaction after a new request was received. -/
def cleared (env : Env) (t : Trans) : Trans :=
  { t with lastUse := env.now, req := destroyed, resp := destroyed }

/-- The response is a separate one. -/
def sepB (sepList : List Bytes) (m : Msg) : Bool := m.type = CON ∧ Separate sepList m

/-- The counter after a response. -/
def newId (sepList : List Bytes) (env : Env) (id : Nat) (m : Msg) : Nat :=
  if m.type = CON ∧ sepB sepList m = false then id else nextMsgId id env.idRand

/-- The response as it is sent. -/
def final (sepList : List Bytes) (env : Env) (id : Nat) (m resp : Msg) : Msg :=
  { resp with
    msgId := if m.type = CON ∧ sepB sepList m = false then m.msgId else nextMsgId id env.idRand
    token := m.token
    type := if m.type = CON then (if sepB sepList m = false then ACK else CON) else NON }

/-- The acknowledgement sent before a separate response. -/
def preAck (sepList : List Bytes) (t : Trans) (m : Msg) : List Obs :=
  if sepB sepList m then [.sent t.addr (enc (emptyMsg ACK m.msgId))] else []

/-- A request that is not a duplicate. -/
structure IsNew (t : Trans) (m : Msg) : Prop where
  type : m.type = CON ∨ m.type = NON
  cls : m.codeClass = 0
  fresh : matchReq t m = false

/-- The calls of `block_rx` as observations. -/
def rxObs (a : Addr) (r : BRes) : List Obs := r.rx.map (fun x => Obs.rx a x.1 x.2)

/-- The timer started after a confirmable response. -/
def armObs (env : Env) (a : Addr) (m : Msg) : List Obs :=
  if m.type = CON then [.arm a (ACK_TIMEOUT + env.rand % 1000)] else []

/-- The transaction after a response was sent and recorded. -/
def recorded (env : Env) (t : Trans) (b : Blk) (q p m : Msg) : Trans :=
  { t with
    lastUse := env.now, req := q, resp := p, blk := b
    numRetrans := if m.type = CON then 0 else t.numRetrans
    timeout := if m.type = CON then ACK_TIMEOUT + env.rand % 1000 else t.timeout
    armed := if m.type = CON then true else t.armed }

/-- The message was received. -/
def Got (sx : Bool) (env : Env) (d : Bytes) (m : Msg) : Prop :=
  Carries sx d m ∧ env.recvErr = none ∧ env.parseMem = true

/-- All outcomes of `exchangeT`. -/
inductive Outcome (sx : Bool) (sepList : List Bytes) (env : Env) (t : Trans) (L : Large) (id : Nat) (d : Bytes) :
    TRes → Prop where
  | again (h : env.recvErr = none → env.parseMem = true → ∃ x, parse sx (recvBuf d) (min d.length BUF_LEN) = .err x)
      (hx : env.recvErr = some .EAGAIN) : Outcome sx sepList env t L id d ⟨t, L, id, [], none⟩
  | lost (e : Err) (h : env.recvErr = none → env.parseMem = true → ∃ x, parse sx (recvBuf d) (min d.length BUF_LEN) = .err x)
      (o : List Obs)
      (ho : o = [] ∨ env.recvErr = none ∧ parse sx (recvBuf d) (min d.length BUF_LEN) = .err .EBADMSG ∧
        ∃ i, parseTypeMsgId (recvBuf d) (min d.length BUF_LEN) = .ok (CON, i) ∧ o = [.sent t.addr (enc (emptyMsg RST i))]) :
      Outcome sx sepList env t L id d ⟨Trans.zero, (destroy t L).2, id, o, some e⟩
  | dupAck (m : Msg) (hm : Got sx env d m) (h1 : matchReq t m = true) (h2 : m.type = CON) (h3 : Separate sepList m) :
      Outcome sx sepList env t L id d ⟨touched env t, L, id, [.sent t.addr (enc (emptyMsg ACK m.msgId))], none⟩
  | dupResp (m : Msg) (hm : Got sx env d m) (h1 : matchReq t m = true) (h2 : m.type = CON) (h3 : ¬ Separate sepList m)
      (hs : Sendable t.resp) :
      Outcome sx sepList env t L id d ⟨touched env t, L, id, [.sent t.addr (enc t.resp)], none⟩
  | dupFail (m : Msg) (hm : Got sx env d m) (h1 : matchReq t m = true) (h2 : m.type = CON) (e : Option Err)
      (h3 : Separate sepList m → env.ackErr ≠ none)
      (h4 : ¬ Separate sepList m → env.sendErr = none → ¬ Sendable t.resp) :
      Outcome sx sepList env t L id d ⟨Trans.zero, (destroy t L).2, id, [], e⟩
  | dupNon (m : Msg) (hm : Got sx env d m) (h1 : matchReq t m = true) (h2 : m.type = NON) :
      Outcome sx sepList env t L id d ⟨touched env t, L, id, [], none⟩
  | acked (m : Msg) (hm : Got sx env d m) (h1 : matchResp t m = true) (h2 : m.type = ACK ∨ m.type = RST) :
      Outcome sx sepList env t L id d ⟨{ touched env t with numRetrans := 0, armed := false }, L, id, [], none⟩
  | ackFail (m : Msg) (hm : Got sx env d m) (h1 : matchResp t m = true) (h2 : m.type = ACK ∨ m.type = RST) (e : Err)
      (h3 : env.timerErr = some e) :
      Outcome sx sepList env t L id d ⟨Trans.zero, (destroy t L).2, id, [], some e⟩
  | rejected (m : Msg) (hm : Got sx env d m) (h1 : m.type = ACK ∨ m.type = RST ∨ m.codeClass ≠ 0)
      (h2 : matchReq t m = true → m.type ≠ CON ∧ m.type ≠ NON)
      (h3 : matchResp t m = true → m.type ≠ ACK ∧ m.type ≠ RST) (o : List Obs)
      (ho : o = [] ∨ m.type = CON ∧ o = [.sent t.addr (enc (emptyMsg RST m.msgId))]) :
      Outcome sx sepList env t L id d ⟨Trans.zero, (destroy t L).2, id, o, some .EBADMSG⟩
  | ackLost (m : Msg) (hm : Got sx env d m) (hn : IsNew t m) (h1 : sepB sepList m = true) (e : Err) (h2 : env.ackErr = some e) :
      Outcome sx sepList env t L id d ⟨Trans.zero, (destroy t L).2, id, [], some e⟩
  | genFail (m : Msg) (hm : Got sx env d m) (hn : IsNew t m) (hp : sepB sepList m = true → env.ackErr = none)
      (r : BRes) (o2 : List Obs) (hg : generate env (cleared env t) L m = .ok (r, o2)) (e : Err) (he : r.err = some e) :
      Outcome sx sepList env t L id d ⟨Trans.zero, (clearBlockwise r.blk r.large).2, id,
        preAck sepList t m ++ o2 ++ rxObs t.addr r, some e⟩
  | sendFail (m : Msg) (hm : Got sx env d m) (hn : IsNew t m) (hp : sepB sepList m = true → env.ackErr = none)
      (r : BRes) (o2 : List Obs) (hg : generate env (cleared env t) L m = .ok (r, o2)) (he : r.err = none)
      (o3 : List Obs) (e : Err)
      (ho : o3 = [] ∨ o3 = [.sent t.addr (enc (final sepList env id m r.resp))] ∧ Sendable (final sepList env id m r.resp))
      (hf : env.sendErr = none → env.copyReqMem = true → env.copyRespMem = true → env.timerErr = none →
        r.resp.codeClass < 8 → r.resp.codeDetail < 32 →
        ¬ Sendable (final sepList env id m r.resp)) :
      Outcome sx sepList env t L id d ⟨Trans.zero, (clearBlockwise r.blk r.large).2, newId sepList env id m,
        preAck sepList t m ++ o2 ++ rxObs t.addr r ++ o3, some e⟩
  | done (m : Msg) (hm : Got sx env d m) (hn : IsNew t m) (hp : sepB sepList m = true → env.ackErr = none)
      (r : BRes) (o2 : List Obs) (hg : generate env (cleared env t) L m = .ok (r, o2)) (he : r.err = none)
      (hs : Sendable (final sepList env id m r.resp)) (q p : Msg) (hq : copy create m = .ok q)
      (hp2 : copy create (final sepList env id m r.resp) = .ok p) :
      Outcome sx sepList env t L id d ⟨recorded env t r.blk q p (final sepList env id m r.resp), r.large,
        newId sepList env id m,
        preAck sepList t m ++ o2 ++ rxObs t.addr r ++ [.sent t.addr (enc (final sepList env id m r.resp))] ++
          armObs env t.addr (final sepList env id m r.resp), none⟩

theorem failT_eq (t : Trans) (L : Large) (id : Nat) (o : List Obs) (e : Option Err) :
    failT t L id o e = .ok ⟨Trans.zero, (clearBlockwise t.blk L).2, id, o, e⟩ := rfl

theorem send_fail {now : Nat} {e : Option Err} {t t' : Trans} {m : Msg} {o : List Obs} {x : Err}
    (h : send now e t m = .ok (t', o, some x)) : e = none → ¬ Sendable m := by
  rintro he ⟨y, hy⟩
  subst he
  unfold send at h
  rw [hy] at h
  simp at h

theorem recv_cases {sx : Bool} {env : Env} {t t' : Trans} {d : Bytes} {o : List Obs} {r : Except Err Msg}
    (h : recv sx env t d = .ok (t', o, r)) :
    (∃ m, r = .ok m ∧ env.recvErr = none ∧ env.parseMem = true ∧ Carries sx d m ∧ t' = touched env t ∧ o = []) ∨
    (∃ e, r = .error e ∧ t'.blk = t.blk ∧ (e = .EAGAIN → t' = t ∧ o = [] ∧ env.recvErr = some .EAGAIN) ∧
      (env.recvErr = none → env.parseMem = true → ∃ x, parse sx (recvBuf d) (min d.length BUF_LEN) = .err x) ∧
      (o = [] ∨ env.recvErr = none ∧ parse sx (recvBuf d) (min d.length BUF_LEN) = .err .EBADMSG ∧
        ∃ i, parseTypeMsgId (recvBuf d) (min d.length BUF_LEN) = .ok (CON, i) ∧
          o = [.sent t.addr (enc (emptyMsg RST i))])) := by
  unfold recv at h
  split at h
  · rename_i e he
    cases h
    exact Or.inr ⟨e, rfl, rfl, fun h => ⟨rfl, rfl, by rw [he, h]⟩, by simp [he], Or.inl rfl⟩
  rename_i he
  split at h
  · rename_i hp
    cases h
    exact Or.inr ⟨_, rfl, rfl, (fun h => by cases h), by simp [hp], Or.inl rfl⟩
  rename_i hp
  split at h
  · cases h
  · rename_i m hm
    cases h
    exact Or.inl ⟨m, rfl, he, by simpa using hp, hm, rfl, rfl⟩
  · rename_i e hm
    split at h
    · rename_i hb
      subst hb
      cases hfe : formatError env t (recvBuf d) (min d.length BUF_LEN) with
      | ub => rw [hfe] at h; cases h
      | err e => rw [hfe] at h; cases h
      | ok x =>
        obtain ⟨t2, o2⟩ := x
        rw [hfe] at h
        cases h
        unfold formatError at hfe
        split at hfe
        · cases hfe
        · cases hfe
          exact Or.inr ⟨_, rfl, rfl, by simp, fun _ _ => ⟨_, hm⟩, Or.inl rfl⟩
        · rename_i type i hti
          split at hfe
          · rename_i hc
            subst hc
            split at hfe
            · rename_i t3 o3 r3 hs
              cases hfe
              rcases (send_empty (by decide) hs).2 with ⟨-, rfl, rfl⟩ | ⟨-, rfl, rfl⟩
              · exact Or.inr ⟨_, rfl, rfl, by simp, fun _ _ => ⟨_, hm⟩, Or.inr ⟨he, hm, i, hti, rfl⟩⟩
              · exact Or.inr ⟨_, rfl, rfl, by simp, fun _ _ => ⟨_, hm⟩, Or.inl rfl⟩
            · cases hfe
            · cases hfe
          · cases hfe
            exact Or.inr ⟨_, rfl, rfl, by simp, fun _ _ => ⟨_, hm⟩, Or.inl rfl⟩
    · cases h
      refine Or.inr ⟨e, rfl, rfl, (fun h => ?_), fun _ _ => ⟨_, hm⟩, Or.inl rfl⟩
      subst h
      rcases parse_err hm with h | h <;> cases h

theorem nextMsgId_le (id rnd : Nat) : nextMsgId id rnd ≤ 65535 := by
  unfold nextMsgId; split <;> omega

theorem copy_ok {m : Msg} (h1 : m.type < 4) (h2 : m.codeClass < 8) (h3 : m.codeDetail < 32)
    (h4 : m.msgId < 65536) (h5 : m.token.length ≤ 8) : ∃ q, copy create m = .ok q := by
  unfold copy setType setCode setMsgId setToken
  simp only
  rw [if_neg (by simp only [CON, NON, ACK, RST]; omega)]
  rw [Out.bind_ok, if_neg (by omega), if_neg (by omega), Out.bind_ok, if_neg (by omega), Out.bind_ok,
    if_neg (by omega), Out.bind_ok]
  exact ⟨_, rfl⟩

theorem setType_ok (m : Msg) {x : Nat} (h : x < 4) : setType m x = .ok { m with type := x } := by
  unfold setType; rw [if_neg (by simp only [CON, NON, ACK, RST]; omega)]

theorem setMsgId_ok (m : Msg) {x : Nat} (h : x ≤ 65535) : setMsgId m x = .ok { m with msgId := x } := by
  unfold setMsgId; rw [if_neg (by simp; omega)]

theorem setToken_ok (m : Msg) {x : Bytes} (h : x.length ≤ 8) : setToken m x = .ok { m with token := x } := by
  unfold setToken; rw [if_neg (by omega)]

theorem final_type_lt (sepList : List Bytes) (env : Env) (id : Nat) (m resp : Msg) :
    (final sepList env id m resp).type < 4 := by
  simp only [final, CON, NON, ACK]; split <;> (try split) <;> omega

theorem finish_cases {sepList : List Bytes} {env : Env} {t : Trans} {L : Large} {id : Nat} {o : List Obs} {m resp : Msg}
    {r : TRes} (hf : Fields m) (h : finish env t L id o (sepB sepList m) m resp = .ok r) :
    (∃ o3 e, r = ⟨Trans.zero, (clearBlockwise t.blk L).2, newId sepList env id m, o ++ o3, some e⟩ ∧
      (o3 = [] ∨ o3 = [.sent t.addr (enc (final sepList env id m resp))] ∧ Sendable (final sepList env id m resp)) ∧
      (env.sendErr = none → env.copyReqMem = true → env.copyRespMem = true → env.timerErr = none →
        resp.codeClass < 8 → resp.codeDetail < 32 →
        ¬ Sendable (final sepList env id m resp))) ∨
    (∃ q p, r = ⟨recorded env t t.blk q p (final sepList env id m resp), L, newId sepList env id m,
        o ++ [.sent t.addr (enc (final sepList env id m resp))] ++ armObs env t.addr (final sepList env id m resp), none⟩ ∧
      Sendable (final sepList env id m resp) ∧ copy create m = .ok q ∧
      copy create (final sepList env id m resp) = .ok p) := by
  have hid : (final sepList env id m resp).msgId ≤ 65535 := by
    have := nextMsgId_le id env.idRand
    have := hf.msgId
    simp only [final]; split <;> omega
  unfold finish at h
  have e1 : (if m.type = CON ∧ sepB sepList m = false then id else nextMsgId id env.idRand) = newId sepList env id m := rfl
  simp only [decide_eq_true_eq] at h
  rw [e1] at h
  have e2 : (if m.type = CON ∧ sepB sepList m = false then m.msgId else newId sepList env id m) =
      (final sepList env id m resp).msgId := by
    simp only [final, newId]; split <;> rfl
  rw [e2, setMsgId_ok _ (by omega)] at h
  simp only at h
  rw [setToken_ok _ (by have := hf.token; omega)] at h
  simp only at h
  have e3 : (if m.type = CON then (if sepB sepList m = false then ACK else CON) else NON) =
      (final sepList env id m resp).type := rfl
  rw [e3, setType_ok _ (final_type_lt ..)] at h
  simp only at h
  have e4 : (Msg.mk resp.ver (final sepList env id m resp).type resp.codeClass resp.codeDetail
      (final sepList env id m resp).msgId m.token resp.ops resp.payload) = final sepList env id m resp := rfl
  rw [e4] at h
  generalize hfin : final sepList env id m resp = fin at h hid
  generalize newId sepList env id m = nid at h
  have hcls : fin.codeClass = resp.codeClass := by rw [← hfin]; rfl
  have hdet : fin.codeDetail = resp.codeDetail := by rw [← hfin]; rfl
  have htok : fin.token = m.token := by rw [← hfin]; rfl
  have hty : fin.type < 4 := by rw [← hfin]; exact final_type_lt ..
  split at h
  · cases h
  · cases h
  · rename_i t2 o2 e hs
    rcases send_cases hs with ⟨hr, -⟩ | ⟨x, hx, rfl, rfl⟩
    · cases hr
    · rw [failT_eq] at h
      cases h
      refine Or.inl ⟨[], e, rfl, Or.inl rfl, fun h1 _ _ _ _ _ => ?_⟩
      exact send_fail hs h1
  · rename_i t2 o2 hs
    rcases send_cases hs with ⟨-, -, rfl, rfl, hsh⟩ | ⟨x, hx, -⟩
    · unfold record at h
      have hcq := copy_ok hf.type (by rcases hf.cls with h | h | h | h <;> omega) hf.detail hf.msgId hf.token
      obtain ⟨q, hcq⟩ := hcq
      rw [hcq] at h
      simp only at h
      split at h
      · rename_i hm0
        rw [failT_eq] at h
        cases h
        exact Or.inl ⟨_, _, rfl, Or.inr ⟨rfl, hsh⟩, by simp [hm0]⟩
      split at h
      · cases h
      · rename_i e he
        rw [failT_eq] at h
        cases h
        refine Or.inl ⟨_, _, rfl, Or.inr ⟨rfl, hsh⟩, fun _ _ _ _ h5 h6 => ?_⟩
        obtain ⟨p, hp⟩ := copy_ok hty (by omega) (by omega) (by omega) (by rw [htok]; exact hf.token)
        rw [hp] at he
        cases he
      · rename_i p hp
        split at h
        · rename_i hm0
          rw [failT_eq] at h
          cases h
          exact Or.inl ⟨_, _, rfl, Or.inr ⟨rfl, hsh⟩, by simp [hm0]⟩
        split at h
        · rename_i hc
          unfold startAckTimer at h
          simp only at h
          cases ht : env.timerErr with
          | some e =>
            rw [ht] at h
            simp only at h
            rw [failT_eq] at h
            cases h
            exact Or.inl ⟨_, _, by rw [List.append_nil], Or.inr ⟨rfl, hsh⟩, by simp⟩
          | none =>
            rw [ht] at h
            simp only at h
            cases h
            refine Or.inr ⟨q, p, ?_, hsh, hcq, hp⟩
            simp only [recorded, armObs, hc, if_true]
        · rename_i hc
          cases h
          refine Or.inr ⟨q, p, ?_, hsh, hcq, hp⟩
          simp only [recorded, armObs, hc, if_false, List.append_nil]
    · cases hx

theorem respond_cases {sx : Bool} {sepList : List Bytes} {env : Env} {t t1 : Trans} {L : Large} {id : Nat} {d : Bytes} {m : Msg}
    {r : TRes} (hm : Got sx env d m) (hn : IsNew t m) (hp : sepB sepList m = true → env.ackErr = none)
    (ht : t1 = cleared env t)
    (h : respond env t1 L id (preAck sepList t m) (sepB sepList m) m = .ok r) :
    Outcome sx sepList env t L id d r := by
  subst ht
  unfold respond at h
  split at h
  · cases h
  · cases h
  · rename_i r1 o2 hg
    simp only at h
    split at h
    · rename_i e he
      rw [failT_eq] at h
      cases h
      exact .genFail m hm hn hp r1 o2 hg e he
    · rename_i he
      rcases finish_cases hm.1.fields.1 h with ⟨o3, e, rfl, h1, h2⟩ | ⟨q, p, rfl, h1, h2, h3⟩
      · exact .sendFail m hm hn hp r1 o2 hg he o3 e h1 h2
      · exact .done m hm hn hp r1 o2 hg he h1 q p h2 h3

theorem exchangeT_outcome {sx : Bool} {sepList : List Bytes} {env : Env} {t : Trans} {L : Large} {id : Nat} {d : Bytes}
    {r : TRes} (h : exchangeT sx sepList env t L id d = .ok r) : Outcome sx sepList env t L id d r := by
  unfold exchangeT at h
  split at h
  · cases h
  · cases h
  · rename_i t1 o e hr
    rcases recv_cases hr with ⟨m, hx, -⟩ | ⟨e', hx, hb, h1, h2, h3⟩
    · cases hx
    cases hx
    split at h
    · rename_i he
      obtain ⟨rfl, rfl, hx⟩ := h1 he
      cases h
      exact .again h2 hx
    · rw [failT_eq, hb] at h
      cases h
      exact .lost e h2 o h3
  · rename_i t1 o m hr
    rcases recv_cases hr with ⟨m', hx, he, hpm, hm, rfl, rfl⟩ | ⟨e', hx, -⟩
    case inr => cases hx
    cases hx
    replace hm : Got sx env d m := ⟨hm, he, hpm⟩
    unfold received at h
    have hmq : matchReq (touched env t) m = matchReq t m := rfl
    have hmr : matchResp (touched env t) m = matchResp t m := rfl
    rw [hmq, hmr] at h
    split at h
    · rename_i hd
      unfold duplicate at h
      rw [isSep_eq] at h
      by_cases hsep : Separate sepList m
      · simp only [hsep, decide_true] at h
        unfold sendAck at h
        split at h
        · cases h
        · cases h
        · rename_i t2 o2 e hs
          obtain ⟨h1, ⟨h2, -⟩ | ⟨h2, rfl, rfl⟩⟩ := send_empty (by decide) hs
          · rw [h2] at h1; cases h1
          · rw [failT_eq] at h
            cases h
            exact .dupFail m hm hd.1 hd.2 _ (fun _ => h2) (fun h => absurd hsep h)
        · rename_i t2 o2 hs
          obtain ⟨h1, ⟨h2, rfl, rfl⟩ | ⟨h2, rfl, rfl⟩⟩ := send_empty (by decide) hs
          · cases h
            exact .dupAck m hm hd.1 hd.2 hsep
          · exact absurd h1.symm h2
      · simp only [hsep, decide_false] at h
        split at h
        · cases h
        · cases h
        · rename_i t2 o2 e hs
          rcases send_cases hs with ⟨hr', -⟩ | ⟨x, hx, rfl, rfl⟩
          · cases hr'
          · rw [failT_eq] at h
            cases h
            exact .dupFail m hm hd.1 hd.2 _ (fun h => absurd h hsep) (fun _ => send_fail hs)
        · rename_i t2 o2 hs
          rcases send_cases hs with ⟨-, -, rfl, rfl, hsh⟩ | ⟨x, hx, -⟩
          · cases h
            exact .dupResp m hm hd.1 hd.2 hsep hsh
          · cases hx
    rename_i hd1
    split at h
    · rename_i hd
      cases h
      exact .dupNon m hm hd.1 hd.2
    rename_i hd2
    split at h
    · rename_i hd
      unfold stopAckTimer at h
      simp only at h
      cases ht : env.timerErr with
      | some e =>
        rw [ht] at h
        simp only at h
        rw [failT_eq] at h
        cases h
        exact .ackFail m hm hd.1 hd.2 e ht
      | none =>
        rw [ht] at h
        simp only at h
        cases h
        exact .acked m hm hd.1 hd.2
    rename_i hd3
    have hq : matchReq t m = true → m.type ≠ CON ∧ m.type ≠ NON :=
      fun h => ⟨fun h' => hd1 ⟨h, h'⟩, fun h' => hd2 ⟨h, h'⟩⟩
    have hp : matchResp t m = true → m.type ≠ ACK ∧ m.type ≠ RST :=
      fun h => ⟨fun h' => hd3 ⟨h, Or.inl h'⟩, fun h' => hd3 ⟨h, Or.inr h'⟩⟩
    split at h
    · rename_i hb
      split at h
      · rename_i t2 o2 hrj
        unfold reject at hrj
        split at hrj
        · rename_i hc
          split at hrj
          · rename_i t3 o3 r3 hs
            cases hrj
            obtain ⟨-, ⟨-, rfl, rfl⟩ | ⟨-, rfl, rfl⟩⟩ := send_empty (by decide) hs
            · rw [failT_eq] at h
              cases h
              exact .rejected m hm hb hq hp _ (Or.inr ⟨hc, rfl⟩)
            · rw [failT_eq] at h
              cases h
              exact .rejected m hm hb hq hp _ (Or.inl rfl)
          · cases hrj
          · cases hrj
        · cases hrj
          rw [failT_eq] at h
          cases h
          exact .rejected m hm hb hq hp _ (Or.inl rfl)
      · cases h
      · cases h
    · rename_i hb
      have hty : m.type = CON ∨ m.type = NON := by
        have := hm.1.fields.1.type
        simp only [CON, NON, ACK, RST] at hb ⊢
        omega
      have hn : IsNew t m := by
        refine ⟨hty, by apply Classical.byContradiction; intro hc; exact hb (Or.inr (Or.inr hc)), ?_⟩
        cases hmm : matchReq t m with
        | false => rfl
        | true => rcases hty with h' | h' <;> simp [h'] at hq <;> exact absurd hmm (by simp [hq])
      unfold request at h
      simp only at h
      split at h
      · rename_i hc
        rw [isSep_eq] at h
        by_cases hsep : Separate sepList m
        · simp only [hsep, decide_true] at h
          have hsb : sepB sepList m = true := by simp [sepB, hc, hsep]
          unfold sendAck at h
          split at h
          · cases h
          · cases h
          · rename_i t2 o2 e hs
            obtain ⟨h1, ⟨h2, -⟩ | ⟨h2, rfl, rfl⟩⟩ := send_empty (by decide) hs
            · rw [h2] at h1; cases h1
            · rw [failT_eq] at h
              cases h
              exact .ackLost m hm hn hsb e h1.symm
          · rename_i t2 o2 hs
            obtain ⟨h1, ⟨h2, rfl, rfl⟩ | ⟨h2, rfl, rfl⟩⟩ := send_empty (by decide) hs
            · refine respond_cases hm hn (fun _ => h2) (t1 := _) ?_ (by rw [hsb]; simp only [preAck, hsb, if_true]; exact h)
              rfl
            · exact absurd h1.symm h2
        · simp only [hsep, decide_false] at h
          have hsb : sepB sepList m = false := by simp [sepB, hsep]
          refine respond_cases hm hn (by simp [hsb]) (t1 := _) ?_ (by rw [hsb]; simp only [preAck, hsb]; exact h)
          rfl
      · rename_i hc
        have hsb : sepB sepList m = false := by simp [sepB, hc]
        refine respond_cases hm hn (by simp [hsb]) (t1 := _) ?_ (by rw [hsb]; simp only [preAck, hsb]; exact h)
        rfl

end FreeCoAP.Server
