import Verif.Server.LemmasCall
import Verif.Server.Props

/-!
# Properties of the server: what reaches the application and what is refused
(C21, C22, C23, C25, C27, C52)
-/

namespace FreeCoAP.Server

open FreeCoAP.Msg

theorem NewRequest.fresh {sx : Bool} {evs : List (Env × Event)} {s : Srv} {tr : List (List Obs)} {a : Addr} {d : Bytes} {m : Msg}
    (h : NewRequest sx evs a d m) (h0 : m.msgId ≠ 0) (hr : Reach sx evs s tr) :
    ∀ t, ofAddr s a = some t → matchReq t m = false := fresh_of_last hr.lastOK h0 h.id

/-! ## C21 Every new request reaches the application exactly once -/

/-- The full property. -/
def C21_statement (sx : Bool) : Prop :=
  ∀ (evs : List (Env × Event)) (s s' : Srv) (tr : List (List Obs)) (env : Env) (a : Addr) (d : Bytes) (m : Msg)
    (o : List Obs) (e : Option Err), Reach sx evs s tr → NoFault env → NewRequest sx evs a d m → AllKnown m →
    ¬ Transfer s a → step sx s env (.datagram a d) = .ok (s', o, e) → calls o = [(a, m)]

/-- A confirmable GET with id 0. -/
def exZero : Bytes := [0x40, 0x01, 0, 0]

/-- It is violated: the first request of a sender is taken for a duplicate when its id
is 0, because the transaction starts with an empty message whose id is 0. -/
theorem C21_violated (sx : Bool) : ¬ C21_statement sx := by
  intro h
  have hc : test (parse sx (recvBuf exZero) (min exZero.length BUF_LEN)) (fun m => decide (Request m ∧ AllKnown m)) = true := by
    cases sx <;> decide +kernel
  have key : test (step sx exInit exEnv (.datagram exA exZero)) (fun x => decide (calls x.2.1 = [])) = true := by
    cases sx <;> decide +kernel
  obtain ⟨m, hm, hq⟩ := test_ok hc
  obtain ⟨⟨s', o, e⟩, h1, h2⟩ := test_ok key
  simp only [decide_eq_true_eq] at hq h2
  have := h [] exInit s' [] exEnv exA exZero m o e ⟨100, exSep, exPool, rfl⟩ exEnv_noFault
    ⟨hm, hq.1, by simp [lastRequest]⟩ hq.2 (by rintro ⟨t, ht, -⟩; revert ht; simp [exInit, ofAddr, init, Trans.zero]) h1
  rw [h2] at this
  cases this

/-- The proved part: for ids other than 0 the request is passed to the application
exactly once. It is not needed that the response can be sent. -/
theorem C21_exactly_once_partial (sx : Bool) (evs : List (Env × Event)) (s s' : Srv) (tr : List (List Obs)) (env : Env)
    (a : Addr) (d : Bytes) (m : Msg) (o : List Obs) (e : Option Err) (hr : Reach sx evs s tr)
    (ha : Arrives env) (hc : env.createErr = none) (hack : Separate s.sepList m → env.ackErr = none)
    (hn : NewRequest sx evs a d m) (h0 : m.msgId ≠ 0) (hk : AllKnown m) (hb : ¬ Transfer s a)
    (h : step sx s env (.datagram a d) = .ok (s', o, e)) : calls o = [(a, m)] := by
  obtain ⟨t, L, r, o2, h1, h2, h3, h4, -⟩ := new_request hr.tidy (step_rel h) hn.carries ha hc hack hn.request.1
    (fun _ => h0) (hn.fresh h0 hr)
  have hreg : t.blk.type = .regular := by
    rcases h1 with ⟨h1, -⟩ | ⟨-, rfl, -⟩
    · apply Classical.byContradiction
      intro hne
      exact hb ⟨t, h1, hne⟩
    · rfl
  rw [h4, generate_call hk (by simpa [cleared] using hreg) h3]
  subst h2
  rfl

theorem generate_regular {env : Env} {t : Trans} {L : Large} {m : Msg} {r : BRes} {o : List Obs} (hb : t.blk.type = .regular)
    (hn : NoBlockwise env) (h : generate env t L m = .ok (r, o)) : r.blk.type = .regular := by
  unfold generate at h
  split at h
  · split at h
    · cases h; exact hb
    · cases h
    · cases h
  · rw [if_neg (by simp [hb])] at h
    obtain ⟨resp, err, hh⟩ := hn t m
    rw [hh] at h
    cases h
    exact hb

/-- Then no transfer is ever in progress, so that the condition of
`C21_exactly_once_partial` on transfers holds. -/
theorem C21_no_transfer (sx : Bool) (evs : List (Env × Event)) (s : Srv) (tr : List (List Obs)) (hr : Reach sx evs s tr)
    (hn : ∀ x ∈ evs, NoBlockwise x.1) (a : Addr) : ¬ Transfer s a := by
  have : Tidy s ∧ ((∀ x ∈ evs, NoBlockwise x.1) → ∀ a t, ofAddr s a = some t → t.blk.type = .regular) := by
    refine reach_induction (P := fun evs s _ => Tidy s ∧ ((∀ x ∈ evs, NoBlockwise x.1) → ∀ a t, ofAddr s a = some t → t.blk.type = .regular))
      ?_ ?_ hr
    · intro id sepList pool
      refine ⟨init_tidy _ _ _, fun _ a t h => ?_⟩
      rw [ofAddr_init] at h
      cases h
    · intro evs s tr env ev s' o e hP hs
      refine ⟨hs.tidy hP.1, fun hall a t hat => ?_⟩
      have hP2 := hP.2 (fun x hx => hall x (List.mem_append_left _ hx))
      have henv : NoBlockwise env := hall (env, ev) (by simp)
      cases step_view hs hP.1 a with
      | untouched hu => rw [hu] at hat; exact hP2 a t hat
      | evicted b d hb hev h1 => rw [h1] at hat; cases hat
      | timer i u r hev hi hu hta hact har hout ho he h' =>
        rw [h'] at hat
        have := zero_inactive hat
        have hu' := hP2 a u hu
        cases hout <;> simp_all [Trans.zero]
      | exchange d u r L hev h0 hu hta hact hout ho he h' =>
        rw [h'] at hat
        have := zero_inactive hat
        have hu' : u.blk.type = .regular := by
          rcases hu with hu | ⟨-, rfl, -⟩
          · exact hP2 a u hu
          · rfl
        cases hout with
        | done m hm hn hp r' o2 hg he hs q p hq hp2 =>
          have := generate_regular (by simpa [cleared] using hu') henv hg
          simp_all [recorded]
        | _ => simp_all [Trans.zero, touched]
  rintro ⟨t, ht, hne⟩
  exact hne (this.2 hn a t ht)

/-- Three requests, each passed to the application once. -/
example : test (run false exInit [(exEnv, .datagram exA exGet), (exEnv, .datagram exA exGetB), (exEnv, .datagram exA exNon)])
    (fun r => r.2.map (fun o => (calls o).map (fun c => (c.1, c.2.msgId))) == [[(exA, 5)], [(exA, 6)], [(exA, 7)]]) = true := by
  decide +kernel

example : NoBlockwise exEnv := fun _ _ => ⟨_, _, rfl⟩

/-- The second of them meets the hypotheses. -/
example : ∃ m, NewRequest false [(exEnv, .datagram exA exGet)] exA exGetB m ∧ m.msgId ≠ 0 ∧ AllKnown m := by
  have hc : test (parse false (recvBuf exGetB) (min exGetB.length BUF_LEN)) (fun m => decide (Request m ∧ m.msgId = 6 ∧ AllKnown m)) = true := by
    decide +kernel
  have hl : (match lastRequest false exA [(exEnv, .datagram exA exGet)] with | some m => m.msgId == 5 | none => true) = true := by
    decide +kernel
  obtain ⟨m, hm, hq⟩ := test_ok hc
  simp only [decide_eq_true_eq] at hq
  refine ⟨m, ⟨hm, hq.1, ?_⟩, by omega, hq.2.2⟩
  intro m' hm'
  rw [hm'] at hl
  simp only [beq_iff_eq] at hl
  omega

/-! ## C22 Requests with unrecognised critical options are refused -/

/-- The full property. -/
def C22_statement (sx : Bool) : Prop :=
  ∀ (evs : List (Env × Event)) (s s' : Srv) (tr : List (List Obs)) (env : Env) (a : Addr) (d : Bytes) (m : Msg)
    (o : List Obs) (e : Option Err), Reach sx evs s tr → NoFault env → NewRequest sx evs a d m → ¬ AllKnown m →
    step sx s env (.datagram a d) = .ok (s', o, e) →
    calls o = [] ∧ ∃ b h, (a, b) ∈ sends o ∧ header b = some h ∧ h.cls = 4 ∧ h.detail = 2

/-- A confirmable GET with id 0 and the unknown critical option 9. -/
def exBadZero : Bytes := [0x40, 0x01, 0, 0, 0x90]
/-- The same with id 1. -/
def exBad : Bytes := [0x40, 0x01, 0, 1, 0x90]

/-- It is violated like C21. -/
theorem C22_violated (sx : Bool) : ¬ C22_statement sx := by
  intro h
  have hc : test (parse sx (recvBuf exBadZero) (min exBadZero.length BUF_LEN)) (fun m => decide (Request m ∧ ¬ AllKnown m)) = true := by
    cases sx <;> decide +kernel
  have key : test (step sx exInit exEnv (.datagram exA exBadZero)) (fun x => decide (sends x.2.1 = [(exA, emptyCon)])) = true := by
    cases sx <;> decide +kernel
  obtain ⟨m, hm, hq⟩ := test_ok hc
  obtain ⟨⟨s', o, e⟩, h1, h2⟩ := test_ok key
  simp only [decide_eq_true_eq] at hq h2
  obtain ⟨-, b, hd, h3, h4, h5, -⟩ := h [] exInit s' [] exEnv exA exBadZero m o e ⟨100, exSep, exPool, rfl⟩ exEnv_noFault
    ⟨hm, hq.1, by simp [lastRequest]⟩ hq.2 h1
  rw [h2] at h3
  simp at h3
  subst h3
  cases h4
  cases h5

/-- Nothing with an unknown critical option is passed to the application, in any state
and whatever fails. -/
theorem C22_not_executed (sx : Bool) (evs : List (Env × Event)) (s s' : Srv) (tr : List (List Obs)) (env : Env)
    (a : Addr) (d : Bytes) (m : Msg) (o : List Obs) (e : Option Err) (hr : Reach sx evs s tr)
    (hm : Carries sx d m) (hk : ¬ AllKnown m)
    (h : step sx s env (.datagram a d) = .ok (s', o, e)) : calls o = [] ∧ bodies o = [] := by
  refine no_call hr.tidy (step_rel h) ?_
  intro m' hm' _
  rw [hm'.unique hm]
  exact hk

/-- The proved part: for ids other than 0 the request is answered 4.02 and the event
ends without an error. -/
theorem C22_bad_option_partial (sx : Bool) (evs : List (Env × Event)) (s s' : Srv) (tr : List (List Obs)) (env : Env)
    (a : Addr) (d : Bytes) (m : Msg) (o : List Obs) (e : Option Err) (hr : Reach sx evs s tr)
    (hf : NoFault env) (hn : NewRequest sx evs a d m) (h0 : m.msgId ≠ 0) (hk : ¬ AllKnown m)
    (h : step sx s env (.datagram a d) = .ok (s', o, e)) :
    e = none ∧ ∃ b hd, sends o = (if m.type = CON ∧ Separate s.sepList m then [(a, emptyAck m.msgId)] else []) ++ [(a, b)] ∧
      header b = some hd ∧ hd.cls = 4 ∧ hd.detail = 2 ∧ Answers s.sepList m hd := by
  obtain ⟨t, L, r, o2, h1, h2, h3, h4, h5, h6⟩ := new_request hr.tidy (step_rel h) hn.carries hf.arrives hf.create
    (fun _ => hf.ack) hn.request.1 (fun _ => h0) (hn.fresh h0 hr)
  obtain ⟨g1, g2, g3, g4, g5⟩ := generate_bad hk h3
  obtain ⟨g5, g6⟩ : r.err = none ∧ r.resp = setPayload (withCode create 4 2)
      ((ascii s!"Bad option number: {checkCriticalOps m.ops}").take 127) := by
    rcases g5 with ⟨-, g5, g6⟩ | ⟨g5, -⟩
    · exact ⟨g5, g6⟩
    · rw [hf.pay] at g5; cases g5
  have hty := hn.request.1.1
  have hfm := hn.carries.fields.1
  have hsend : Sendable (final s.sepList env s.msgId m r.resp) := by
    refine sendable_plain ⟨?_, ?_⟩ ?_ hfm.token ?_
    · rw [g6]; rintro ⟨h, -⟩; cases h
    · intro h
      simp only [final] at h
      split at h <;> (try split at h) <;> cases h
    · rw [g6]; rfl
    · rw [g6]
      simp only [final, setPayload]
      exact Nat.le_trans (List.length_take_le _ _) (by decide)
  rcases h6 with ⟨x, h6, -⟩ | ⟨-, h6, -⟩ | ⟨-, h6, -, h7, -⟩
  · rw [g5] at h6; cases h6
  · exact absurd hsend (h6 hf.send hf.copyReq hf.copyResp hf.timer (by rw [g6]; show 4 < 8; decide) (by rw [g6]; show 2 < 32; decide))
  · refine ⟨h6, _, _, h7, final_header hfm, ?_, ?_, (final_answers hty).1⟩
    · rw [g6]; rfl
    · rw [g6]; rfl

/-- The request with option 9 is answered 4.02 "Bad option number: 9". -/
example : test (run true exInit [(exEnv, .datagram exA exBad)])
    (fun r => r.2.map sends == [[(exA, [0x60, 0x82, 0, 1, 0xFF] ++ ascii "Bad option number: 9")]]) = true := by decide +kernel

/-! ## C23 No reply storms -/

/-- A reset is sent only for a confirmable message, to its sender, with its id, and
nothing else is sent then. -/
theorem C23_one_reset (sx : Bool) (evs : List (Env × Event)) (s s' : Srv) (tr : List (List Obs)) (env : Env) (ev : Event)
    (o : List Obs) (e : Option Err) (hr : Reach sx evs s tr) (h : step sx s env ev = .ok (s', o, e))
    (c : Addr) (b : Bytes) (hb : Header) (hin : (c, b) ∈ sends o) (hh : header b = some hb) (hrst : hb.type = RST) :
    ∃ a d hd, ev = .datagram a d ∧ header d = some hd ∧ hd.type = CON ∧ sends o = [(a, reset hd.id)] := by
  obtain ⟨id, sepList, pool, hr⟩ := hr
  obtain ⟨ht, -, hst⟩ := stored_run hr
  cases ev with
  | appId => cases h; cases hin
  | timer i => exact absurd hrst (reset_timer ht hst (step_rel h) hin hh)
  | datagram a d =>
    obtain ⟨hd, h1, h2, -, h3⟩ := reset_datagram ht hst (step_rel h) hin hh hrst
    exact ⟨a, d, hd, rfl, h1, h2, h3⟩

/-- Acknowledgements, resets and malformed messages that are not confirmable are not
answered. -/
theorem C23_silent (sx : Bool) (evs : List (Env × Event)) (s s' : Srv) (tr : List (List Obs)) (env : Env) (a : Addr) (d : Bytes)
    (o : List Obs) (e : Option Err) (hr : Reach sx evs s tr) (h : step sx s env (.datagram a d) = .ok (s', o, e))
    (hd : ∀ hd, header d = some hd → hd.type = ACK ∨ hd.type = RST ∨ (hd.type = NON ∧ ∀ m, ¬ Carries sx d m)) : sends o = [] := by
  refine silent hr.tidy (step_rel h) ⟨?_, ?_⟩
  · intro m hm
    obtain ⟨x, h1, h2, -⟩ := hm.header
    rcases hd x h1 with h | h | ⟨-, h⟩
    · exact Or.inl (h2 ▸ h)
    · exact Or.inr (h2 ▸ h)
    · exact absurd hm (h m)
  · intro x hx
    rcases hd x hx with h | h | ⟨h, -⟩ <;> rw [h] <;> decide

/-- In particular two peers cannot bounce resets: a reset is not answered. -/
theorem C23_no_bounce (sx : Bool) (evs : List (Env × Event)) (s s' : Srv) (tr : List (List Obs)) (env : Env) (a : Addr) (i : Nat)
    (o : List Obs) (e : Option Err) (hr : Reach sx evs s tr) (h : step sx s env (.datagram a (reset i)) = .ok (s', o, e)) :
    sends o = [] := by
  refine C23_silent sx evs s s' tr env a _ o e hr h ?_
  intro hd hh
  cases hh
  exact Or.inr (Or.inl rfl)

/-- A malformed confirmable message (reserved token length 9, id 3) is answered with a
reset, the same non-confirmable is not, nor is a reset. -/
example : test (run true exInit [(exEnv, .datagram exA [0x49, 1, 0, 3]), (exEnv, .datagram exA [0x59, 1, 0, 3]),
      (exEnv, .datagram exA (reset 3))]) (fun r => r.2.map sends == [[(exA, reset 3)], [], []]) = true := by decide +kernel

/-! ## C25 Senders do not disturb each other -/

/-- A datagram from `b` changes the transaction of no other sender, and everything sent,
armed and called is for `b`; except that, when `b` is new and all places are taken, one
other sender is forgotten. -/
theorem C25_datagram (sx : Bool) (evs : List (Env × Event)) (s s' : Srv) (tr : List (List Obs)) (env : Env) (b : Addr) (d : Bytes)
    (o : List Obs) (e : Option Err) (hr : Reach sx evs s tr) (h : step sx s env (.datagram b d) = .ok (s', o, e)) :
    (∀ x ∈ o, x.addr = b) ∧
    ((∀ a, a ≠ b → ofAddr s' a = ofAddr s a) ∨
     (ofAddr s b = none ∧ (∀ t ∈ s.trans, t.active = true) ∧
       ∃ a0, a0 ≠ b ∧ ofAddr s a0 ≠ none ∧ ofAddr s' a0 = none ∧ ∀ a, a ≠ b → a ≠ a0 → ofAddr s' a = ofAddr s a)) := by
  obtain ⟨h1, h2 | ⟨h2, h3, t0, -, h4, h5, h6, h7⟩⟩ := others_step (step_rel h) hr.tidy
  · exact ⟨h1, Or.inl h2⟩
  · exact ⟨h1, Or.inr ⟨h2, h3, t0.addr, h4, by simp [h5], h6, h7⟩⟩

/-- The timer of a transaction concerns its sender only. -/
theorem C25_timer (sx : Bool) (evs : List (Env × Event)) (s s' : Srv) (tr : List (List Obs)) (env : Env) (i : Nat)
    (o : List Obs) (e : Option Err) (hr : Reach sx evs s tr) (h : step sx s env (.timer i) = .ok (s', o, e)) :
    (s' = s ∧ o = []) ∨
    ∃ t, s.trans[i]? = some t ∧ ofAddr s t.addr = some t ∧ (∀ x ∈ o, x.addr = t.addr) ∧
      ∀ a, a ≠ t.addr → ofAddr s' a = ofAddr s a := by
  cases step_rel h with
  | noTimer => exact Or.inl ⟨rfl, rfl⟩
  | timer i t r hi ha har hout =>
    refine Or.inr ⟨t, hi, look_eq hr.tidy.distinct hi ha, hout.obs_addr, fun a hat => ?_⟩
    exact (look_set hr.tidy.distinct hi ha hout.addr).2.1 a hat

/-- Two senders, one with a separate response waiting for its acknowledgement. -/
example : test (run true exInit [(exEnv, .datagram exA exGetB), (exEnv, .datagram [2] exGet), (exEnv, .timer 0)])
    (fun r => (ofAddr r.1 exA).isSome && (ofAddr r.1 [2]).isSome && r.2.map (fun o => o.map Obs.addr) ==
      [[exA, exA, exA, exA], [[2], [2]], [exA, exA]]) = true := by decide +kernel

/-! ## C27 Server message ids stay in range -/

/-- The full property: the counter, which is the id generated last, is in range, and
when an event generates an id it differs from the one before. -/
def C27_statement (sx : Bool) : Prop :=
  ∀ (evs : List (Env × Event)) (s s' : Srv) (tr : List (List Obs)) (env : Env) (o : List Obs) (e : Option Err),
    Reach sx evs s tr → step sx s env .appId = .ok (s', o, e) → s'.msgId ≤ 65535 ∧ s'.msgId ≠ s.msgId

/-- It is violated: after 65535 the next id is a random one, which may be 65535 again. -/
theorem C27_violated (sx : Bool) : ¬ C27_statement sx := by
  intro h
  exact (h [] (init 65535 [] exPool) _ [] { exEnv with idRand := 65535 } _ _ ⟨_, _, _, rfl⟩ rfl).2 rfl

/-- The proved part, for every event: the counter is in range; it changes only by
generating an id; an id generated differs from the one before unless the random number
drawn after 65535 is 65535; and responses that are not piggybacked have the id generated
in the event. -/
theorem C27_ids_partial (sx : Bool) (evs : List (Env × Event)) (s s' : Srv) (tr : List (List Obs)) (env : Env) (ev : Event)
    (o : List Obs) (e : Option Err) (hr : Reach sx evs s tr) (h : step sx s env ev = .ok (s', o, e)) :
    s'.msgId ≤ 65535 ∧ (s'.msgId = s.msgId ∨ s'.msgId = s.msgId + 1 ∨ (s.msgId = 65535 ∧ s'.msgId = env.idRand % 65536)) ∧
    (ev = .appId → ¬ (s.msgId = 65535 ∧ env.idRand % 65536 = 65535) → s'.msgId ≠ s.msgId) ∧
    (∀ c b hd, calls o ≠ [] → (c, b) ∈ sends o → header b = some hd → hd.type ≠ ACK →
      hd.id = s'.msgId ∧ (¬ (s.msgId = 65535 ∧ env.idRand % 65536 = 65535) → hd.id ≠ s.msgId)) := by
  have hle : s.msgId ≤ 65535 := by
    refine (reach_induction (P := fun _ s _ => Tidy s ∧ s.msgId ≤ 65535) ?_ ?_ hr).2
    · intro id sepList pool
      exact ⟨init_tidy _ _ _, by simp only [init]; omega⟩
    · intro evs s tr env ev s' o e hP hs
      refine ⟨hs.tidy hP.1, ?_⟩
      rcases msgId_step hs hP.1 with h | h
      · rw [h]; exact hP.2
      · rw [h]; exact nextMsgId_le _ _
  have hnext : nextMsgId s.msgId env.idRand = s.msgId + 1 ∨
      (s.msgId = 65535 ∧ nextMsgId s.msgId env.idRand = env.idRand % 65536) := by
    unfold nextMsgId
    split
    · exact Or.inr ⟨by omega, rfl⟩
    · exact Or.inl rfl
  have hl2 := nextMsgId_le s.msgId env.idRand
  have hm := msgId_step (step_rel h) hr.tidy
  refine ⟨by omega, by omega, ?_, ?_⟩
  · rintro rfl hne
    cases h
    simp only
    omega
  intro c b hd hc hb hh hna
  cases ev with
  | appId => cases h; exact absurd rfl hc
  | timer i =>
    rcases call_step (step_rel h) hr.tidy with h1 | ⟨a, d, m, h1, -⟩
    · exact absurd h1 hc
    · cases h1
  | datagram a d =>
    rcases call_sends (step_rel h) hr.tidy hc hb with ⟨i, hi, rfl⟩ | ⟨hd', m, -, -, h1, -, h2⟩
    · cases hh
      exact absurd (by simp only [ACK]; decide) hna
    · rw [hh] at h1
      cases h1
      obtain ⟨h2, h3⟩ := h2 hna
      refine ⟨h2, ?_⟩
      rw [h2, h3]
      omega

/-- The counter goes through its range and is drawn again after 65535. -/
example : test (run true (init 65534 [] exPool) [(exEnv, .appId), (exEnv, .datagram exA exNon), (exEnv, .appId)])
    (fun r => r.1.msgId == 8 && r.2.map sends == [[], [(exA, [0x50, 0x45, 0, 7, 0xFF, 104, 105])], []]) = true := by decide +kernel

/-! ## C52 Only requests reach the application -/

/-- The full property. -/
def C52_statement (sx : Bool) : Prop :=
  ∀ (evs : List (Env × Event)) (s s' : Srv) (tr : List (List Obs)) (env : Env) (ev : Event) (o : List Obs) (e : Option Err)
    (a : Addr) (m : Msg), Reach sx evs s tr → step sx s env ev = .ok (s', o, e) → (a, m) ∈ calls o → Request m

/-- It is violated: an Empty confirmable message ("ping", RFC 7252 section 4.3), which is
to be answered with a reset, is passed to the application. -/
theorem C52_violated (sx : Bool) : ¬ C52_statement sx := by
  intro h
  have key : test (step sx exInit exEnv (.datagram exA [0x40, 0, 0, 1]))
      (fun x => (calls x.2.1).any (fun c => decide (¬ Request c.2))) = true := by
    cases sx <;> decide +kernel
  obtain ⟨⟨s', o, e⟩, h1, h2⟩ := test_ok key
  simp only [List.any_eq_true, decide_eq_true_eq] at h2
  obtain ⟨⟨a, m⟩, h2, h3⟩ := h2
  exact h3 (h [] exInit s' [] exEnv _ o e a m ⟨100, exSep, exPool, rfl⟩ h1 h2)

/-- The proved part: the application is called at most once per event, only when a
datagram arrived, with the message in it and for its sender; the message is confirmable
or non-confirmable with a code of class 0 and without unknown critical options. -/
theorem C52_calls_partial (sx : Bool) (evs : List (Env × Event)) (s s' : Srv) (tr : List (List Obs)) (env : Env) (ev : Event)
    (o : List Obs) (e : Option Err) (hr : Reach sx evs s tr) (h : step sx s env ev = .ok (s', o, e)) :
    calls o = [] ∨ ∃ a d m, ev = .datagram a d ∧ Carries sx d m ∧ Asks m ∧ AllKnown m ∧ calls o = [(a, m)] := by
  rcases call_step (step_rel h) hr.tidy with h | ⟨a, d, m, h1, h2, h3, h4, h5⟩
  · exact Or.inl h
  · exact Or.inr ⟨a, d, m, h1, h2.1, h3, h4, h5⟩

/-- A response (2.05) and an acknowledgement do not reach the application. -/
example : test (run true exInit [(exEnv, .datagram exA [0x40, 0x45, 0, 1]), (exEnv, .datagram exA [0x60, 1, 0, 2]),
    (exEnv, .datagram exA exGet)]) (fun r => r.2.map (fun o => (calls o).length) == [0, 0, 1]) = true := by decide +kernel

end FreeCoAP.Server
