import Verif.Server.LemmasView

/-! # Invariants of histories -/

namespace FreeCoAP.Server

open FreeCoAP.Msg

/-! ## Headers of received datagrams -/

theorem recvBuf_take4 {d : Bytes} (h : 4 ≤ min d.length BUF_LEN) : (recvBuf d).take 4 = d.take 4 := by
  have h1 : 4 ≤ d.length := by omega
  unfold recvBuf
  rw [List.take_append_of_le_length (by rw [List.length_take]; simp only [BUF_LEN]; omega), List.take_take]
  congr 1

theorem header_take4 {d : Bytes} {b0 b1 b2 b3 : UInt8} (h : d.take 4 = [b0, b1, b2, b3]) :
    ∃ tok, header d = some ⟨b0.toNat / 16 % 4, b1.toNat / 32, b1.toNat % 32, 256 * b2.toNat + b3.toNat, tok⟩ := by
  match d, h with
  | x0 :: x1 :: x2 :: x3 :: rest, h =>
    simp at h
    obtain ⟨rfl, rfl, rfl, rfl⟩ := h
    exact ⟨_, rfl⟩

theorem Carries.header {sx : Bool} {d : Bytes} {m : Msg} (h : Carries sx d m) :
    ∃ hd, header d = some hd ∧ hd.type = m.type ∧ hd.cls = m.codeClass ∧ hd.detail = m.codeDetail ∧ hd.id = m.msgId := by
  have hl : min d.length BUF_LEN ≤ (recvBuf d).length := by rw [recvBuf_length]; simp only [BUF_LEN]; omega
  unfold Carries parse at h
  rw [Out.bind_eq_ok] at h
  obtain ⟨hd, e1, h⟩ := h
  obtain ⟨h4, f1, f2, f3, f4, f5, f6, f7⟩ := parseHdr_sound hl e1
  rw [recvBuf_take4 h4] at f7
  rw [Out.bind_eq_ok] at h
  obtain ⟨tok, e2, h⟩ := h
  rw [Out.bind_eq_ok] at h
  obtain ⟨⟨ops, n⟩, e3, h⟩ := h
  rw [Out.bind_eq_ok] at h
  obtain ⟨pl, e4, h⟩ := h
  rw [Out.bind_eq_ok] at h
  obtain ⟨u, e5, h⟩ := h
  simp only [Out.pure_eq, Out.ok.injEq] at h
  subst h
  obtain ⟨tk, hh⟩ := header_take4 f7
  have a1 : (UInt8.ofNat (64 * 1 + 16 * hd.type + hd.tokenLen)).toNat = 64 * 1 + 16 * hd.type + hd.tokenLen :=
    toNat_toByte _ (by omega)
  have a2 : (UInt8.ofNat (32 * hd.codeClass + hd.codeDetail)).toNat = 32 * hd.codeClass + hd.codeDetail :=
    toNat_toByte _ (by rcases f4 with h | h | h | h <;> omega)
  have a3 : (UInt8.ofNat (hd.msgId / 256)).toNat = hd.msgId / 256 := toNat_toByte _ (by omega)
  have a4 : (UInt8.ofNat (hd.msgId % 256)).toNat = hd.msgId % 256 := toNat_toByte _ (by omega)
  rw [a1, a2, a3, a4] at hh
  refine ⟨_, hh, ?_, ?_, ?_, ?_⟩ <;> simp only <;> omega

theorem typeMsgId_header {d : Bytes} {t i : Nat} (h : parseTypeMsgId (recvBuf d) (min d.length BUF_LEN) = .ok (t, i)) :
    i < 65536 ∧ ∃ hd, header d = some hd ∧ hd.type = t ∧ hd.id = i := by
  unfold parseTypeMsgId at h
  split at h
  · cases h
  rename_i h4
  have h4' : 4 ≤ min d.length BUF_LEN := by omega
  have hl : (recvBuf d).length = BUF_LEN := recvBuf_length d
  have ht := recvBuf_take4 h4'
  match hb : recvBuf d with
  | [] => rw [hb] at hl; cases hl
  | [_] => rw [hb] at hl; cases hl
  | [_, _] => rw [hb] at hl; cases hl
  | [_, _, _] => rw [hb] at hl; cases hl
  | b0 :: b1 :: b2 :: b3 :: rest =>
    rw [hb] at h ht
    obtain ⟨tk, hh⟩ := header_take4 (b0 := b0) (b1 := b1) (b2 := b2) (b3 := b3) (by rw [← ht]; rfl)
    simp only [rd, List.getElem?_cons_zero, List.getElem?_cons_succ, Out.bind_ok, Out.pure_eq, Out.ok.injEq,
      Prod.mk.injEq] at h
    obtain ⟨h1, h2⟩ := h
    have c1 := nat_type b0.toNat b0.toNat_lt
    have c2 : (b2.toNat <<< 8) ||| b3.toNat = 256 * b2.toNat + b3.toNat := by
      rw [Nat.shiftLeft_eq, Nat.mul_comm, ← Nat.two_pow_add_eq_or_of_lt b3.toNat_lt]
    have l2 := b2.toNat_lt
    have l3 := b3.toNat_lt
    refine ⟨by omega, _, hh, by simp only; omega, by simp only; omega⟩

/-! ## Observations -/

theorem sends_append (a b : List Obs) : sends (a ++ b) = sends a ++ sends b := by simp [sends]
theorem calls_append (a b : List Obs) : calls (a ++ b) = calls a ++ calls b := by simp [calls]
theorem bodies_append (a b : List Obs) : bodies (a ++ b) = bodies a ++ bodies b := by simp [bodies]
theorem arms_append (a b : List Obs) : arms (a ++ b) = arms a ++ arms b := by simp [arms]

theorem sends_rx (a : Addr) (r : BRes) : sends (rxObs a r) = [] := by simp [sends, rxObs]
theorem calls_rx (a : Addr) (r : BRes) : calls (rxObs a r) = [] := by simp [calls, rxObs]
theorem arms_rx (a : Addr) (r : BRes) : arms (rxObs a r) = [] := by simp [arms, rxObs]
theorem bodies_rx (a : Addr) (r : BRes) : bodies (rxObs a r) = r.rx.map (fun x => (a, x)) := by
  simp only [bodies, rxObs, List.filterMap_map]
  induction r.rx with
  | nil => rfl
  | cons x xs ih => simp at ih ⊢; exact ih
theorem sends_arm (env : Env) (a : Addr) (m : Msg) : sends (armObs env a m) = [] := by unfold armObs; split <;> rfl
theorem calls_arm (env : Env) (a : Addr) (m : Msg) : calls (armObs env a m) = [] := by unfold armObs; split <;> rfl
theorem bodies_arm (env : Env) (a : Addr) (m : Msg) : bodies (armObs env a m) = [] := by unfold armObs; split <;> rfl
theorem sends_pre (sepList : List Bytes) (t : Trans) (m : Msg) :
    sends (preAck sepList t m) = if sepB sepList m then [(t.addr, enc (emptyMsg ACK m.msgId))] else [] := by
  unfold preAck; split <;> rfl
theorem calls_pre (sepList : List Bytes) (t : Trans) (m : Msg) : calls (preAck sepList t m) = [] := by
  unfold preAck; split <;> rfl
theorem bodies_pre (sepList : List Bytes) (t : Trans) (m : Msg) : bodies (preAck sepList t m) = [] := by
  unfold preAck; split <;> rfl
theorem arms_pre (sepList : List Bytes) (t : Trans) (m : Msg) : arms (preAck sepList t m) = [] := by
  unfold preAck; split <;> rfl
theorem generate_sends {env : Env} {t : Trans} {L : Large} {m : Msg} {r : BRes} {o : List Obs}
    (h : generate env t L m = .ok (r, o)) : sends o = [] ∧ arms o = [] ∧ bodies o = [] := by
  rcases generate_obs h with rfl | rfl <;> exact ⟨rfl, rfl, rfl⟩

theorem mem_sends {o : List Obs} {a : Addr} {b : Bytes} : (a, b) ∈ sends o ↔ Obs.sent a b ∈ o := by
  simp only [sends, List.mem_filterMap]
  constructor
  · rintro ⟨x, hx, h⟩
    cases x <;> simp at h
    obtain ⟨rfl, rfl⟩ := h
    exact hx
  · intro h
    exact ⟨_, h, rfl⟩

/-! ## The final response -/

theorem final_header {sepList : List Bytes} {env : Env} {id : Nat} {m resp : Msg} (hf : Fields m) :
    header (enc (final sepList env id m resp)) =
      some ⟨(final sepList env id m resp).type, resp.codeClass % 8, resp.codeDetail % 32,
        (final sepList env id m resp).msgId, m.token⟩ := by
  refine header_enc' (final_type_lt ..) ?_ hf.token
  have := nextMsgId_le id env.idRand
  have := hf.msgId
  simp only [final]; split <;> omega

theorem final_answers {sepList : List Bytes} {env : Env} {id : Nat} {m resp : Msg} {c d : Nat}
    (hty : m.type = CON ∨ m.type = NON) :
    Answers sepList m ⟨(final sepList env id m resp).type, c, d, (final sepList env id m resp).msgId, m.token⟩ ∧
    ((final sepList env id m resp).type = ACK ∨ (final sepList env id m resp).msgId = nextMsgId id env.idRand) := by
  have hne : NON ≠ CON := by decide
  have hna : NON ≠ ACK := by decide
  have hca : CON ≠ ACK := by decide
  by_cases hs : Separate sepList m
  · rcases hty with h | h
    · have hb : sepB sepList m = true := by simp [sepB, h, hs]
      simp only [final, Answers, h, hb, hs]
      simp
    · have hb : sepB sepList m = false := by simp [sepB, h, hne]
      simp only [final, Answers, h, hb]
      simp [hne]
  · have hb : sepB sepList m = false := by simp [sepB, hs]
    rcases hty with h | h
    · simp only [final, Answers, h, hb, hs]
      simp
    · simp only [final, Answers, h, hb]
      simp [hne]

/-! ## The last request of a sender -/

theorem arrived_got {sx : Bool} {env : Env} {a : Addr} {d : Bytes} {m : Msg} (h0 : env.acceptErr = none)
    (h : Got sx env d m) : arrived sx a (env, .datagram a d) = some m := by
  obtain ⟨h1, h2, h3⟩ := h
  unfold Carries at h1
  simp [arrived, h0, h2, h3, h1]

theorem arrived_err {sx : Bool} {env : Env} {a : Addr} {d : Bytes}
    (h : env.recvErr = none → env.parseMem = true → ∃ x, parse sx (recvBuf d) (min d.length BUF_LEN) = .err x) :
    arrived sx a (env, .datagram a d) = none := by
  simp only [arrived]
  split
  · rename_i hc
    obtain ⟨x, hx⟩ := h hc.2.2.1 hc.2.2.2
    rw [hx]
  · rfl

theorem arrived_some {sx : Bool} {x : Env × Event} {a : Addr} {m : Msg} (h : arrived sx a x = some m) :
    ∃ d, x.2 = .datagram a d ∧ x.1.acceptErr = none ∧ Got sx x.1 d m := by
  obtain ⟨env, ev⟩ := x
  cases ev with
  | timer i => simp [arrived] at h
  | appId => simp [arrived] at h
  | datagram b d =>
    simp only [arrived] at h
    split at h
    · rename_i hc
      obtain ⟨rfl, h0, h1, h2⟩ := hc
      split at h
      · rename_i m' hm
        cases h
        exact ⟨d, rfl, h0, hm, h1, h2⟩
      · cases h
    · cases h

theorem lastRequest_snoc {sx : Bool} {a : Addr} {evs : List (Env × Event)} {x : Env × Event} :
    lastRequest sx a (evs ++ [x]) = match arrived sx a x with
      | none => lastRequest sx a evs
      | some m => if Asks m then some m else lastRequest sx a evs := by
  unfold lastRequest
  rw [List.filterMap_append]
  cases h : arrived sx a x with
  | none => simp [h]
  | some m =>
    simp [h, List.find?_cons]
    split <;> simp_all

theorem lastRequest_none {sx : Bool} {a : Addr} {evs : List (Env × Event)} {x : Env × Event} (h : arrived sx a x = none) :
    lastRequest sx a (evs ++ [x]) = lastRequest sx a evs := by rw [lastRequest_snoc, h]

theorem lastRequest_some {sx : Bool} {a : Addr} {evs : List (Env × Event)} {x : Env × Event} {m : Msg}
    (h : arrived sx a x = some m) : lastRequest sx a (evs ++ [x]) = if Asks m then some m else lastRequest sx a evs := by
  rw [lastRequest_snoc, h]

/-- What the server has stored is the last request, or nothing yet. -/
def LastOK (sx : Bool) (evs : List (Env × Event)) (s : Srv) : Prop :=
  ∀ a t, ofAddr s a = some t → t.req = create ∨ (t.req.ver = 1 ∧ ∃ m, lastRequest sx a evs = some m ∧ t.req.msgId = m.msgId)

theorem matchReq_iff {t : Trans} {m : Msg} : matchReq t m = true ↔ t.req.ver ≠ 0 ∧ t.req.msgId = m.msgId := by
  simp [matchReq]

theorem zero_inactive {r : TRes} {t : Trans} (h : (if r.trans.active = true then some r.trans else none) = some t) :
    t = r.trans ∧ r.trans.active = true := by
  split at h
  · cases h; exact ⟨rfl, by assumption⟩
  · cases h

theorem LastOK.step {sx : Bool} {evs : List (Env × Event)} {s s' : Srv} {env : Env} {ev : Event} {o : List Obs} {e : Option Err}
    (hl : LastOK sx evs s) (ht : Tidy s) (h : StepRel sx s env ev s' o e) : LastOK sx (evs ++ [(env, ev)]) s' := by
  intro a t hat
  cases step_view h ht a with
  | untouched h1 ho hd _ =>
    rw [h1] at hat
    have : arrived sx a (env, ev) = none := by
      cases ha : arrived sx a (env, ev) with
      | none => rfl
      | some m =>
        obtain ⟨d, h2, h3, -⟩ := arrived_some ha
        rcases hd d h2 with h4 | ⟨h4, -⟩
        · exact absurd h3 h4
        · rw [hat] at h4; cases h4
    rw [lastRequest_none this]
    exact hl a t hat
  | evicted b d hb hev h1 => rw [h1] at hat; cases hat
  | timer i u r hev hi hu hta hact har hout ho he h' hid =>
    subst hev
    rw [lastRequest_none rfl]
    rw [h'] at hat
    obtain ⟨rfl, hra⟩ := zero_inactive hat
    have hreq : r.trans.req = u.req := by cases hout <;> first | rfl | simp [Trans.zero] at hra
    rw [hreq]
    exact hl a u hu
  | exchange d u r L hev h0 hu hta hact hout ho he h' hid =>
    subst hev
    rw [h'] at hat
    obtain ⟨rfl, hra⟩ := zero_inactive hat
    have hold : u.req = create ∨ (u.req.ver = 1 ∧ ∃ m, lastRequest sx a evs = some m ∧ u.req.msgId = m.msgId) := by
      rcases hu with hu | ⟨-, rfl, -⟩
      · exact hl a u hu
      · exact Or.inl rfl
    have hsame : ∀ m, Got sx env d m → (Asks m → u.req.msgId = m.msgId) →
        u.req = create ∨ (u.req.ver = 1 ∧ ∃ m, lastRequest sx a (evs ++ [(env, .datagram a d)]) = some m ∧
          u.req.msgId = m.msgId) := by
      intro m hg hm
      rw [lastRequest_some (arrived_got h0 hg)]
      rcases hold with h | ⟨hv, m', h1, h2⟩
      · exact Or.inl h
      · right
        refine ⟨hv, ?_⟩
        split
        · rename_i ha
          exact ⟨m, rfl, hm ha⟩
        · exact ⟨m', h1, h2⟩
    have hack : ∀ m : Msg, m.type = ACK ∨ m.type = RST → ¬ Asks m := by
      rintro m hm ⟨h1, -⟩
      simp only [CON, NON, ACK, RST] at hm h1
      omega
    cases hout with
    | again h =>
      rw [lastRequest_none (arrived_err h)]
      exact hold
    | dupAck m hm h1 h2 h3 => exact hsame m hm (fun _ => (matchReq_iff.1 h1).2)
    | dupResp m hm h1 h2 h3 hs => exact hsame m hm (fun _ => (matchReq_iff.1 h1).2)
    | dupNon m hm h1 h2 => exact hsame m hm (fun _ => (matchReq_iff.1 h1).2)
    | acked m hm h1 h2 => exact hsame m hm (fun h => absurd h (hack m h2))
    | done m hm hn hp r' o2 hg he hs q p hq hp2 =>
      right
      obtain ⟨c1, -, -, -, c2, -⟩ := copy_ok_fields hq
      refine ⟨by simp only [recorded]; rw [c1]; exact hm.1.fields.1.ver, m, ?_, c2⟩
      rw [lastRequest_some (arrived_got h0 hm), if_pos ⟨hn.type, hn.cls⟩]
    | _ => simp [Trans.zero] at hra

theorem Reach.lastOK {sx : Bool} {evs : List (Env × Event)} {s : Srv} {tr : List (List Obs)} (h : Reach sx evs s tr) :
    LastOK sx evs s := by
  refine (reach_induction (P := fun evs s _ => Tidy s ∧ LastOK sx evs s) ?_ ?_ h).2
  · intro id sepList pool
    refine ⟨init_tidy _ _ _, ?_⟩
    intro a t hat
    obtain ⟨i, hi, ha, -⟩ := look_some hat
    simp only [init] at hi
    rw [List.getElem?_replicate] at hi
    split at hi
    · cases hi; simp [Trans.zero] at ha
    · cases hi
  · intro evs s tr env ev s' o e hP hs
    exact ⟨hs.tidy hP.1, hP.2.step hP.1 hs⟩

end FreeCoAP.Server
