import Verif.Client.Spec
import Verif.Server.LemmasHist

/-! # Lemmas on the client: outcomes of a step and of an exchange -/

namespace FreeCoAP.Client

open FreeCoAP.Msg
open FreeCoAP.Server (header Header emptyAck reset Built Carries Formats)

/-! ## Sending -/

theorem sends_append (a b : List Obs) : sends (a ++ b) = sends a ++ sends b := by simp [sends]
theorem arms_append (a b : List Obs) : arms (a ++ b) = arms a ++ arms b := by simp [arms]
theorem acks_append (a b : List Obs) : acks (a ++ b) = acks a ++ acks b := by simp [acks, sends_append]
theorem about_append (d : Bytes) (a b : List Obs) : about d (a ++ b) = about d a ++ about d b := by simp [about]

theorem formats_iff {m : Msg} {r : Bytes} : Formats m r ↔ Server.Sendable m ∧ r = enc m := by
  constructor
  · rintro ⟨buf, n, h, rfl⟩
    exact ⟨⟨_, h⟩, (Server.format_take h).2⟩
  · rintro ⟨⟨⟨b, n⟩, h⟩, rfl⟩
    exact ⟨b, n, h, (Server.format_take h).2.symm⟩

theorem send_cases {e : Option Err} {m : Msg} {o : List Obs} {r : Option Err} (h : send e m = .ok (o, r)) :
    (r = none ∧ e = none ∧ o = [.sent (enc m)] ∧ Server.Sendable m) ∨ (∃ x, r = some x ∧ o = []) := by
  unfold send at h
  split at h
  · cases h
  · cases h; exact Or.inr ⟨_, rfl, rfl⟩
  · rename_i buf n hf
    obtain ⟨h1, h2⟩ := Server.format_take hf
    split at h
    · cases h; exact Or.inr ⟨_, rfl, rfl⟩
    · cases h
      exact Or.inl ⟨rfl, rfl, by rw [h2], _, hf⟩

theorem send_ok {m : Msg} (h : Server.Sendable m) (e : Option Err) :
    send e m = .ok (match e with | none => ([.sent (enc m)], none) | some e => ([], some e)) := by
  obtain ⟨⟨b, n⟩, h⟩ := h
  have h2 := (Server.format_take h).2
  unfold send
  have h' : format m (List.replicate BUF_LEN 0) BUF_LEN = .ok (b, n) := h
  rw [h']
  simp only [h2]
  cases e <;> rfl

theorem send_ne_err {e : Option Err} {m : Msg} {x : Err} : send e m ≠ .err x := by
  unfold send
  split
  · simp
  · simp
  · split <;> simp

theorem send_empty {e : Option Err} {type id : Nat} (ht : type ≠ NON) :
    send e (emptyMsg type id) = .ok (match e with | none => ([.sent (enc (emptyMsg type id))], none) | some e => ([], some e)) :=
  send_ok (by obtain ⟨b, h⟩ := Server.format_empty (id := id) ht; exact ⟨_, h⟩) e

theorem send_rst {e : Option Err} {id : Nat} (hi : id < 65536) :
    send e (emptyMsg RST id) = .ok (match e with | none => ([.sent (reset id)], none) | some e => ([], some e)) := by
  rw [send_empty (by decide), show enc (emptyMsg RST id) = reset id from Server.enc_rst hi]

theorem send_ack {e : Option Err} {id : Nat} (hi : id < 65536) :
    send e (emptyMsg ACK id) = .ok (match e with | none => ([.sent (emptyAck id)], none) | some e => ([], some e)) := by
  rw [send_empty (by decide), show enc (emptyMsg ACK id) = emptyAck id from Server.enc_ack hi]

/-! ## Receiving -/

/-- Nothing was sent, or the confirmable message in the datagram was reset. -/
def Resets (d : Bytes) (e : Option Err) (o : List Obs) : Prop :=
  o = [] ∨ (e = none ∧ ∃ h, header d = some h ∧ h.type = CON ∧ h.id < 65536 ∧ o = [.sent (reset h.id)])

theorem recv_cases {sx : Bool} {i : Input} {d : Bytes} {o : List Obs} {r : Except Err Msg}
    (h : recv sx i d = .ok (o, r)) :
    (∃ m, r = .ok m ∧ o = [] ∧ Carries sx d m ∧ i.parseMem = true) ∨
    (∃ e, r = .error e ∧ Resets d i.sendErr o ∧ (e = .ENOMEM ∨ e = .EBADMSG ∨ e = .EINVAL)) := by
  unfold recv at h
  split at h
  · cases h; exact Or.inr ⟨_, rfl, Or.inl rfl, Or.inl rfl⟩
  rename_i hp
  split at h
  · cases h
  · rename_i m hm
    cases h
    refine Or.inl ⟨m, rfl, rfl, hm, by simpa using hp⟩
  · rename_i e he
    have hee := parse_err he
    split at h
    · rename_i hb
      subst hb
      unfold formatError at h
      split at h
      · rename_i o' hf
        cases h
        refine Or.inr ⟨_, rfl, ?_, Or.inr (Or.inl rfl)⟩
        split at hf
        · cases hf
        · cases hf; exact Or.inl rfl
        · rename_i type id ht
          obtain ⟨h1, hd, h2, h3, h4⟩ := Server.typeMsgId_header (d := d) ht
          split at hf
          · rename_i hc
            rw [send_rst h1] at hf
            cases hs : i.sendErr with
            | none =>
              simp only [hs] at hf
              cases hf
              exact Or.inr ⟨rfl, hd, h2, h3.trans hc, by omega, by rw [h4]⟩
            | some e => simp only [hs] at hf; cases hf; exact Or.inl rfl
          · cases hf; exact Or.inl rfl
      · cases h
      · cases h
    · cases h
      exact Or.inr ⟨_, rfl, Or.inl rfl, Or.inr hee⟩

theorem reject_eq {i : Input} {m : Msg} (hi : m.msgId < 65536) : reject i m =
    .ok (if m.type = CON then (match i.sendErr with | none => ([.sent (reset m.msgId)], none) | some e => ([], some e))
      else ([], none)) := by
  unfold reject
  split
  · rw [send_rst hi]
  · rfl

theorem reject_resets {sx : Bool} {i : Input} {d : Bytes} {m : Msg} (hc : Carries sx d m) :
    ∃ o r, reject i m = .ok (o, r) ∧ Resets d i.sendErr o ∧ (i.sendErr = none → r = none) ∧
      (m.type = CON → i.sendErr = none → o = [.sent (reset m.msgId)]) ∧ (m.type ≠ CON → o = []) ∧
      (r ≠ none → r = i.sendErr) := by
  have hi := hc.fields.1.msgId
  obtain ⟨hd, h1, h2, h3, h4, h5⟩ := hc.header
  rw [reject_eq hi]
  by_cases ht : m.type = CON
  · rw [if_pos ht]
    cases hs : i.sendErr with
    | none =>
      refine ⟨_, _, rfl, Or.inr ⟨rfl, hd, h1, h2.trans ht, by omega, by rw [h5]⟩, fun _ => rfl, fun _ _ => rfl,
        fun h => absurd ht h, fun h => absurd rfl h⟩
    | some e => exact ⟨_, _, rfl, Or.inl rfl, (fun h => by cases h), (fun _ h => by cases h), fun _ => rfl, fun _ => rfl⟩
  · rw [if_neg ht]
    exact ⟨_, _, rfl, Or.inl rfl, fun _ => rfl, fun h => absurd h ht, fun _ => rfl, fun h => absurd rfl h⟩

theorem matchToken_iff {req m : Msg} : matchToken req m = true ↔ m.token = req.token := by simp [matchToken]

theorem checkOptions_iff {px : Bool} {m : Msg} : checkOptions px m = 0 ↔ Acceptable px m := by
  unfold checkOptions Acceptable
  cases px with
  | true => simp only [if_true]; exact (C17_unsafe m.ops).1
  | false => simp only [Bool.false_eq_true, if_false]; exact (C17_critical m.ops).1

/-! ## One step -/

/-- The message `m` is accepted as the response; `o` is sent. -/
structure Accepts (px : Bool) (req : Msg) (w : Wait) (i : Input) (m : Msg) (o : List Obs) : Prop where
  token : m.token = req.token
  ops : Acceptable px m
  kind : (w.phase = .ack ∧ m.type = ACK ∧ m.msgId = req.msgId ∧ (m.codeClass, m.codeDetail) ≠ (0, 0) ∧ o = []) ∨
    (m.msgId ≠ req.msgId ∧ m.type = NON ∧ o = []) ∨
    (m.msgId ≠ req.msgId ∧ m.type = CON ∧ i.sendErr = none ∧ o = [.sent (emptyAck m.msgId)])

/-- What a message can lead to. -/
inductive Handled (px : Bool) (req : Msg) (w : Wait) (i : Input) (d : Bytes) (m : Msg) : List Obs → Next → Prop where
  | keep (o : List Obs) : Resets d i.sendErr o → Handled px req w i d m o (.go w)
  | sep (o : List Obs) : w.phase = .ack → m.type = ACK → m.msgId = req.msgId → m.codeClass = 0 → m.codeDetail = 0 →
      o = (match i.timerErr with | none => [.arm RESP_TIMEOUT] | some _ => []) →
      Handled px req w i d m o (.go ⟨.sep, w.numRetrans, RESP_TIMEOUT⟩)
  | accept (o : List Obs) : Accepts px req w i m o → Handled px req w i d m o (.done (.ok m))
  | reset : m.type = RST → m.msgId = req.msgId → Handled px req w i d m [] (.done (.error .ECONNRESET))
  | bad (o : List Obs) : Resets d i.sendErr o → Handled px req w i d m o (.done (.error .EBADMSG))
  | fault (o : List Obs) (e : Err) : o = [] → i.sendErr = some e → Handled px req w i d m o (.done (.error e))

theorem bad_eq {sx px : Bool} {req : Msg} {w : Wait} {i : Input} {d : Bytes} {m : Msg} (hc : Carries sx d m) :
    ∃ o, bad i m = .ok (o, .done (.error .EBADMSG)) ∧ Handled px req w i d m o (.done (.error .EBADMSG)) := by
  obtain ⟨o, r, h1, h2, h3⟩ := reject_resets (i := i) hc
  unfold bad
  rw [h1]
  exact ⟨o, rfl, .bad o h2⟩

theorem handle_cases {sx px : Bool} {req : Msg} {w : Wait} {i : Input} {d : Bytes} {m : Msg} (hc : Carries sx d m) :
    ∃ o n, handle px req w i m = .ok (o, n) ∧ Handled px req w i d m o n := by
  have hb : ∃ o n, bad i m = .ok (o, n) ∧ Handled px req w i d m o n := by
    obtain ⟨o, h1, h2⟩ := bad_eq (px := px) (req := req) (w := w) (i := i) hc
    exact ⟨o, _, h1, h2⟩
  unfold handle
  by_cases hid : m.msgId = req.msgId
  · rw [if_pos hid]
    cases hp : w.phase with
    | sep =>
      simp only
      by_cases h1 : m.type = ACK
      · rw [if_pos h1]; exact ⟨_, _, rfl, .keep _ (Or.inl rfl)⟩
      · rw [if_neg h1]
        by_cases h2 : m.type = RST
        · rw [if_pos h2]; exact ⟨_, _, rfl, .reset h2 hid⟩
        · rw [if_neg h2]; exact hb
    | non =>
      simp only
      by_cases h2 : m.type = RST
      · rw [if_pos h2]; exact ⟨_, _, rfl, .reset h2 hid⟩
      · rw [if_neg h2]; exact hb
    | ack =>
      simp only
      by_cases h1 : m.type = ACK ∧ isEmpty m = true
      · rw [if_pos h1]
        have he := h1.2
        simp only [isEmpty, decide_eq_true_eq] at he
        exact ⟨_, _, rfl, .sep _ hp h1.1 hid he.1 he.2 rfl⟩
      · rw [if_neg h1]
        by_cases h2 : m.type = ACK ∧ matchToken req m = true
        · rw [if_pos h2]
          unfold piggybacked
          by_cases hk : checkOptions px m = 0
          · rw [if_neg (by simpa using hk)]
            refine ⟨_, _, rfl, .accept _ ⟨matchToken_iff.1 h2.2, checkOptions_iff.1 hk, Or.inl ⟨hp, h2.1, hid, ?_, rfl⟩⟩⟩
            intro he
            injection he with e1 e2
            exact h1 ⟨h2.1, by simp [isEmpty, e1, e2]⟩
          · rw [if_pos hk]; exact hb
        · rw [if_neg h2]
          by_cases h3 : m.type = RST
          · rw [if_pos h3]; exact ⟨_, _, rfl, .reset h3 hid⟩
          · rw [if_neg h3]; exact hb
  · rw [if_neg hid]
    by_cases ht : matchToken req m = true
    · rw [if_pos ht]
      have ht' := matchToken_iff.1 ht
      unfold sepResponse
      by_cases h1 : m.type = CON
      · rw [if_pos h1]
        by_cases hk : checkOptions px m = 0
        · rw [if_neg (by simpa using hk)]
          unfold sendAck
          rw [send_ack hc.fields.1.msgId]
          cases hs : i.sendErr with
          | none =>
            exact ⟨_, _, rfl, .accept _ ⟨ht', checkOptions_iff.1 hk, Or.inr (Or.inr ⟨hid, h1, hs, rfl⟩)⟩⟩
          | some e => exact ⟨_, _, rfl, .fault _ e rfl hs⟩
        · rw [if_pos hk]; exact hb
      · rw [if_neg h1]
        by_cases h2 : m.type = NON
        · rw [if_pos h2]
          by_cases hk : checkOptions px m = 0
          · rw [if_neg (by simpa using hk)]
            exact ⟨_, _, rfl, .accept _ ⟨ht', checkOptions_iff.1 hk, Or.inr (Or.inl ⟨hid, h2, rfl⟩)⟩⟩
          · rw [if_pos hk]; exact hb
        · rw [if_neg h2]; exact hb
    · rw [if_neg ht]
      obtain ⟨o, r, h1, h2, h3, h4, h5, h6⟩ := reject_resets (i := i) hc
      unfold skip
      rw [h1]
      cases r with
      | none => exact ⟨_, _, rfl, .keep _ h2⟩
      | some e =>
        have := h6 (by simp)
        refine ⟨_, _, rfl, .fault _ e ?_ this.symm⟩
        rcases h2 with h | ⟨h, -⟩
        · exact h
        · rw [h] at this; cases this

/-- What an input can lead to. -/
inductive Outcome (sx px : Bool) (req : Msg) (w : Wait) (i : Input) : List Obs → Next → Prop where
  | handled (d : Bytes) (m : Msg) (o : List Obs) (n : Next) : i.ev = .datagram d → Carries sx d m → i.parseMem = true →
      Handled px req w i d m o n → Outcome sx px req w i o n
  | unread (d : Bytes) (o : List Obs) (e : Err) : i.ev = .datagram d → Resets d i.sendErr o →
      e = .ENOMEM ∨ e = .EBADMSG ∨ e = .EINVAL → Outcome sx px req w i o (.done (.error e))
  | again : i.ev = .recvErr .EAGAIN → Outcome sx px req w i [] (.go w)
  | broken (e : Err) : i.ev = .selectErr e ∨ (i.ev = .recvErr e ∧ e ≠ .EAGAIN) → Outcome sx px req w i [] (.done (.error e))
  | retry : i.ev = .timer → w.phase = .ack → w.numRetrans < MAX_RETRANSMIT → i.timerErr = none → i.sendErr = none →
      Server.Sendable req →
      Outcome sx px req w i [.arm ((2 * w.timeout) % 2 ^ 32), .sent (enc req)]
        (.go ⟨.ack, w.numRetrans + 1, (2 * w.timeout) % 2 ^ 32⟩)
  | unsent (e : Err) : i.ev = .timer → w.phase = .ack → w.numRetrans < MAX_RETRANSMIT → i.timerErr = none →
      i.sendErr ≠ none ∨ ¬ Server.Sendable req →
      Outcome sx px req w i [.arm ((2 * w.timeout) % 2 ^ 32)] (.done (.error e))
  | noTimer (e : Err) : i.ev = .timer → w.phase = .ack → i.timerErr = some e → Outcome sx px req w i [] (.done (.error e))
  | timeout : i.ev = .timer → w.phase ≠ .ack ∨ MAX_RETRANSMIT ≤ w.numRetrans →
      Outcome sx px req w i [] (.done (.error .ETIMEDOUT))

theorem step_cases {sx px : Bool} {req : Msg} {w : Wait} {i : Input} {o : List Obs} {n : Next}
    (h : step sx px req w i = .ok (o, n)) : Outcome sx px req w i o n := by
  unfold step at h
  cases he : i.ev with
  | selectErr e => rw [he] at h; cases h; exact .broken e (Or.inl he)
  | recvErr e =>
    rw [he] at h
    simp only at h
    split at h
    · rename_i hE
      subst hE
      cases h
      exact .again he
    · rename_i hE
      cases h
      exact .broken e (Or.inr ⟨he, hE⟩)
  | timer =>
    rw [he] at h
    simp only at h
    unfold expire at h
    by_cases hp : w.phase = .ack
    · rw [hp] at h
      simp only at h
      unfold updateAckTimer at h
      by_cases hn : w.numRetrans ≥ MAX_RETRANSMIT
      · rw [if_pos hn] at h
        cases h
        exact .timeout he (Or.inr hn)
      · rw [if_neg hn] at h
        cases ht : i.timerErr with
        | some e =>
          simp only [ht] at h
          cases h
          exact .noTimer e he hp ht
        | none =>
          simp only [ht] at h
          cases hs : send i.sendErr req with
          | ub => rw [hs] at h; cases h
          | err e => exact absurd hs send_ne_err
          | ok x =>
            obtain ⟨o2, r⟩ := x
            rw [hs] at h
            rcases send_cases hs with ⟨rfl, h2, rfl, h4⟩ | ⟨e, rfl, rfl⟩
            · simp only at h
              cases h
              have := Outcome.retry (sx := sx) (px := px) (req := req) he hp (by simpa using hn) ht h2 h4
              rw [hp]
              exact this
            · simp only at h
              cases h
              refine .unsent e he hp (by simpa using hn) ht ?_
              by_cases hse : i.sendErr = none
              · refine Or.inr fun hsd => ?_
                rw [send_ok hsd, hse] at hs
                cases hs
              · exact Or.inl hse
    · have : expire req w i = .ok ([], .done (.error .ETIMEDOUT)) := by
        unfold expire
        cases hq : w.phase with
        | ack => exact absurd hq hp
        | sep => rfl
        | non => rfl
      unfold expire at this
      rw [this] at h
      cases h
      exact .timeout he (Or.inl hp)
  | datagram d =>
    rw [he] at h
    simp only at h
    cases hr : recv sx i d with
    | ub => rw [hr] at h; cases h
    | err e => rw [hr] at h; cases h
    | ok x =>
      obtain ⟨o1, r⟩ := x
      rw [hr] at h
      rcases recv_cases hr with ⟨m, rfl, rfl, hc, hpm⟩ | ⟨e, rfl, hres, hee⟩
      · simp only at h
        obtain ⟨o2, n2, h2, h3⟩ := handle_cases (px := px) (req := req) (w := w) (i := i) hc
        rw [h2] at h
        cases h
        exact .handled d m _ _ he hc hpm h3
      · simp only at h
        have hne : e ≠ .EAGAIN := by rcases hee with rfl | rfl | rfl <;> decide
        rw [if_neg hne] at h
        cases h
        exact .unread d _ e he hres hee

theorem step_ne_err {sx px : Bool} {req : Msg} {w : Wait} {i : Input} {e : Err} : step sx px req w i ≠ .err e := by
  unfold step
  cases he : i.ev with
  | selectErr e => simp
  | recvErr e => simp only; split <;> simp
  | timer =>
    simp only
    unfold expire
    split
    · split
      · simp
      · split
        · simp
        · simp
        · rename_i h; exact absurd h send_ne_err
        · simp
    · simp
  | datagram d =>
    simp only
    cases hr : recv sx i d with
    | ub => simp
    | err e =>
      exfalso
      unfold recv at hr
      split at hr
      · cases hr
      split at hr
      · cases hr
      · cases hr
      · split at hr
        · split at hr
          · cases hr
          · rename_i hf
            unfold formatError at hf
            split at hf
            · cases hf
            · cases hf
            · split at hf
              · split at hf
                · cases hf
                · rename_i hs; exact absurd hs send_ne_err
                · cases hf
              · cases hf
          · cases hr
        · cases hr
    | ok x =>
      obtain ⟨o1, r⟩ := x
      rcases recv_cases hr with ⟨m, rfl, rfl, hc, hpm⟩ | ⟨e, rfl, hres, hee⟩
      · obtain ⟨o2, n2, h2, h3⟩ := handle_cases (px := px) (req := req) (w := w) (i := i) hc
        simp only [h2]
        simp
      · simp only
        split <;> simp

/-! ## The loop -/

theorem wait_cons {sx px : Bool} {req : Msg} {w : Wait} {i : Input} {is : List Input} {o : List Obs} {r : Option (Except Err Msg)}
    (h : wait sx px req w (i :: is) = .ok (o, r)) :
    (∃ x, step sx px req w i = .ok (o, .done x) ∧ r = some x) ∨
    (∃ o1 o2 w', step sx px req w i = .ok (o1, .go w') ∧ wait sx px req w' is = .ok (o2, r) ∧ o = o1 ++ o2) := by
  unfold wait at h
  split at h
  · cases h
  · cases h
  · rename_i o' x hs
    cases h
    exact Or.inl ⟨x, hs, rfl⟩
  · rename_i o1 w' hs
    split at h
    · rename_i o2 r' hw
      cases h
      exact Or.inr ⟨o1, o2, w', hs, hw, rfl⟩
    · cases h
    · cases h

theorem wait_append {sx px : Bool} {req : Msg} {w : Wait} {is : List Input} {o : List Obs}
    (h : wait sx px req w is = .ok (o, none)) :
    ∃ w', ∀ js, wait sx px req w (is ++ js) =
      (match wait sx px req w' js with | .ok (o2, r) => .ok (o ++ o2, r) | .err e => .err e | .ub => .ub) ∧
      (w.phase = .non → w'.phase = .non) := by
  induction is generalizing w o with
  | nil =>
    cases h
    refine ⟨w, fun js => ⟨?_, fun h => h⟩⟩
    simp only [List.nil_append]
    cases wait sx px req w js with
    | ok x => rfl
    | err e => rfl
    | ub => rfl
  | cons i is ih =>
    rcases wait_cons h with ⟨x, -, h2⟩ | ⟨o1, o2, w1, h1, h2, rfl⟩
    · cases h2
    · obtain ⟨w', h3⟩ := ih h2
      refine ⟨w', fun js => ⟨?_, ?_⟩⟩
      · rw [List.cons_append, wait, h1]
        simp only
        rw [(h3 js).1]
        cases wait sx px req w' js with
        | ok x => simp
        | err e => rfl
        | ub => rfl
      · intro hp
        refine (h3 js).2 ?_
        have := step_cases h1
        cases this with
        | handled d m _ _ he hc hpm hh =>
          cases hh with
          | keep _ _ => exact hp
          | sep _ hq _ _ _ _ _ => rw [hp] at hq; cases hq
        | again _ => exact hp
        | retry _ hq _ _ _ _ => rw [hp] at hq; cases hq

/-! ## The exchange -/

theorem id_eq (x : XEnv) : x.id = 256 * x.id1.toNat + x.id0.toNat := by
  unfold XEnv.id
  rw [Nat.shiftLeft_eq, Nat.mul_comm, ← Nat.two_pow_add_eq_or_of_lt x.id0.toNat_lt]

theorem id_lt (x : XEnv) : 256 * x.id1.toNat + x.id0.toNat < 65536 := by
  have h1 := x.id0.toNat_lt
  have h2 := x.id1.toNat_lt
  omega

theorem stamp_eq (x : XEnv) (req : Msg) : setMsgId req x.id = .ok { req with msgId := 256 * x.id1.toNat + x.id0.toNat } ∧
    setToken { req with msgId := 256 * x.id1.toNat + x.id0.toNat } x.token = .ok (stamped x req) := by
  constructor
  · unfold setMsgId
    rw [id_eq, if_neg]
    have := id_lt x
    omega
  · unfold setToken XEnv.token
    rw [if_neg (by simp)]
    rfl

/-- After the request was sent. -/
structure Started (sx px : Bool) (x : XEnv) (req : Msg) (o : List Obs) (r : Option (Except Err Msg)) (o3 : List Obs) : Prop where
  send : Server.Sendable (stamped x req)
  ok : x.sendErr = none
  wait : wait sx px (stamped x req) (startWait x req.type).2 x.inputs = .ok (o3, r)
  obs : o = .sent (enc (stamped x req)) :: ((startWait x req.type).1 ++ o3)

theorem exchange_cases {sx px : Bool} {x : XEnv} {req : Msg} {o : List Obs} {r : Option (Except Err Msg)}
    (ht : req.type < 4) (h : exchange sx px x req = .ok (o, r)) :
    (o = [] ∧ ∃ e, r = some (.error e)) ∨
    ((req.type = CON ∨ req.type = NON) ∧ req.codeClass = 0 ∧ ∃ o3, Started sx px x req o r o3) := by
  unfold exchange at h
  split at h
  · cases h; exact Or.inl ⟨rfl, _, rfl⟩
  rename_i hv
  have hv1 : req.type ≠ 2 := fun hq => hv (Or.inl hq)
  have hv2 : req.type ≠ 3 := fun hq => hv (Or.inr (Or.inl hq))
  have hv3 : req.codeClass = 0 := Classical.byContradiction fun hq => hv (Or.inr (Or.inr hq))
  have htt : req.type = CON ∨ req.type = NON := by simp only [CON, NON]; omega
  rw [(stamp_eq x req).1] at h
  simp only at h
  rw [(stamp_eq x req).2] at h
  simp only at h
  split at h
  · cases h
  · rename_i hs; exact absurd hs send_ne_err
  · rename_i o1 e hs
    rcases send_cases hs with ⟨hq, -⟩ | ⟨e', -, rfl⟩
    · cases hq
    · cases h; exact Or.inl ⟨rfl, _, rfl⟩
  · rename_i o1 hs
    rcases send_cases hs with ⟨-, h2, rfl, h4⟩ | ⟨e', hq, -⟩
    · rw [if_pos (show (stamped x req).type = CON ∨ (stamped x req).type = NON from htt)] at h
      change (match wait sx px (stamped x req) (startWait x req.type).2 x.inputs with
        | .ok (o3, r) => .ok ([.sent (enc (stamped x req))] ++ (startWait x req.type).1 ++ o3, r)
        | .err e => .err e
        | .ub => .ub) = Out.ok (o, r) at h
      split at h
      · rename_i o3 r' hw
        cases h
        exact Or.inr ⟨htt, hv3, o3, h4, h2, hw, by simp⟩
      · cases h
      · cases h
    · cases hq

theorem exchange_eq {sx px : Bool} {x : XEnv} {req : Msg} (ht : req.type = CON ∨ req.type = NON) (hc : req.codeClass = 0)
    (hs : Server.Sendable (stamped x req)) (he : x.sendErr = none) : exchange sx px x req =
      (match wait sx px (stamped x req) (startWait x req.type).2 x.inputs with
        | .ok (o3, r) => .ok ([.sent (enc (stamped x req))] ++ (startWait x req.type).1 ++ o3, r)
        | .err e => .err e
        | .ub => .ub) := by
  unfold exchange
  rw [if_neg (by simp only [CON, NON, ACK, RST] at ht ⊢; omega), (stamp_eq x req).1]
  simp only
  rw [(stamp_eq x req).2]
  simp only
  rw [send_ok hs, he]
  simp only
  rw [if_pos (show (stamped x req).type = CON ∨ (stamped x req).type = NON from ht)]
  rfl

end FreeCoAP.Client
