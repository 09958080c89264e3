import Verif.Client.LemmasSafe
import Verif.Server.Props6

/-!
# Which messages end an exchange of the client (C68 - C71)

Each theorem is about every list of inputs: datagrams (from anybody), expiries of the timer
and failures, in any order.
-/

namespace FreeCoAP.Client

open FreeCoAP.Msg
open FreeCoAP.Server (header Header emptyAck reset Built Carries Formats Plain NoEmptyBlock)

/-! ## C68: the response is accepted -/

theorem step_gives {sx px : Bool} {req : Msg} {w : Wait} {i : Input} {m : Msg} (h : Gives sx i m) :
    step sx px req w i = handle px req w i m := by
  obtain ⟨-, h1, d, h2, h3⟩ := h
  unfold step
  rw [h2]
  simp only
  rw [recv_carries h1 h3]
  simp only
  cases handle px req w i m with
  | ok x => rfl
  | err e => rfl
  | ub => rfl

/-- As long as the request is not acknowledged, the exchange waits for the acknowledgement. -/
theorem wait_phase {sx px : Bool} {req : Msg} {is : List Input} : ∀ {w : Wait} {o : List Obs}, w.phase = .ack →
    (∀ i ∈ is, ¬ AckedBy sx req.msgId i) → wait sx px req w is = .ok (o, none) →
    ∃ w', w'.phase = .ack ∧ ∀ js, wait sx px req w (is ++ js) =
      (match wait sx px req w' js with | .ok (o2, r) => .ok (o ++ o2, r) | .err e => .err e | .ub => .ub) := by
  induction is with
  | nil =>
    intro w o hp _ h
    cases h
    refine ⟨w, hp, fun js => ?_⟩
    simp only [List.nil_append]
    cases wait sx px req w js with
    | ok x => rfl
    | err e => rfl
    | ub => rfl
  | cons i is ih =>
    intro w o hp hn h
    rcases wait_cons h with ⟨x, -, h2⟩ | ⟨o1, o2, w1, h1, h2, rfl⟩
    · cases h2
    · have hp1 : w1.phase = .ack := by
        have := step_cases h1
        cases this with
        | handled d m _ _ he hc hpm hh =>
          cases hh with
          | keep _ _ => exact hp
          | sep _ _ k1 k2 k3 k4 _ => exact absurd ⟨d, m, he, hc, k1, k2, k3, k4⟩ (hn i List.mem_cons_self)
        | again _ => exact hp
        | retry _ _ _ _ _ _ => rfl
      obtain ⟨w', hw, h3⟩ := ih hp1 (fun j hj => hn j (List.mem_cons_of_mem _ hj)) h2
      refine ⟨w', hw, fun js => ?_⟩
      rw [List.cons_append, wait, h1]
      simp only
      rw [h3 js]
      cases wait sx px req w' js with
      | ok x => simp
      | err e => rfl
      | ub => rfl

/-- C68 in full: while the exchange waits, a response to the request with acceptable
options ends it, and is returned. -/
def C68_statement : Prop := ∀ sx px (x : XEnv) req o i m (is js : List Input), Built req →
  exchange sx px { x with inputs := is } req = .ok (o, none) → Gives sx i m → Acceptable px m →
  Answers (stamped x req) m (∃ j ∈ is, AckedBy sx (stamped x req).msgId j) →
  ∃ o', exchange sx px { x with inputs := is ++ i :: js } req = .ok (o', some (.ok m))

/-- 2.05 in a separate non-confirmable message to which the server gave the id the client
chose for the request. -/
def exSame : Bytes := [0x54, 0x45, 1, 2, 1, 2, 3, 4, 0xff, 0x68, 0x69]
def exSameMsg : Msg := ⟨1, NON, 2, 5, 0x0102, [1, 2, 3, 4], [], [0x68, 0x69]⟩

theorem exSame_gives : Gives true (rcv exSame) exSameMsg := ⟨rfl, rfl, exSame, rfl, by unfold Carries; decide +kernel⟩

/-- C68 is violated: the ids of the messages of the two sides are independent, but a
separate response that happens to have the id of the request is refused, and the exchange
fails. -/
theorem C68_violated : ¬ C68_statement ∧
    exchange true false (exEnv []) exGet = .ok ([.sent exReqBytes, .arm 2500], none) ∧
    exchange true false (exEnv [rcv exSame]) exGet = .ok ([.sent exReqBytes, .arm 2500], some (.error .EBADMSG)) := by
  have h1 : exchange true false (exEnv []) exGet = .ok ([.sent exReqBytes, .arm 2500], none) := by decide +kernel
  have h2 : exchange true false (exEnv [rcv exSame]) exGet = .ok ([.sent exReqBytes, .arm 2500], some (.error .EBADMSG)) := by
    decide +kernel
  refine ⟨fun h => ?_, h1, h2⟩
  obtain ⟨o', he⟩ := h true false (exEnv []) exGet _ (rcv exSame) exSameMsg [] [] exGet_built h1 exSame_gives
    (by intro o ho; cases ho) ⟨Or.inl rfl, rfl, Or.inl (Or.inr rfl)⟩
  have h2' : exchange true false { exEnv [] with inputs := [] ++ rcv exSame :: [] } exGet =
    .ok ([.sent exReqBytes, .arm 2500], some (.error .EBADMSG)) := h2
  rw [h2'] at he
  cases he

/-- C68 for separate responses whose id is not that of the request, and for all
piggybacked ones: the response is returned, and nothing is transmitted but the
acknowledgement of a confirmable one. -/
theorem C68_accepted_partial {sx px : Bool} {x : XEnv} {req m : Msg} {o : List Obs} {i : Input} {is js : List Input}
    (hr : Built req) (h : exchange sx px { x with inputs := is } req = .ok (o, none)) (hi : Gives sx i m)
    (hk : Acceptable px m) (ha : Answers (stamped x req) m (∃ j ∈ is, AckedBy sx (stamped x req).msgId j))
    (hid : m.type ≠ ACK → m.msgId ≠ (stamped x req).msgId) :
    exchange sx px { x with inputs := is ++ i :: js } req =
      .ok (o ++ (if m.type = CON then [.sent (emptyAck m.msgId)] else []), some (.ok m)) := by
  rcases exchange_cases hr.type h with ⟨-, e, he⟩ | ⟨ht, hc, o3, hs⟩
  · cases he
  rw [exchange_eq (x := { x with inputs := is ++ i :: js }) ht hc hs.send hs.ok]
  have e1 : stamped { x with inputs := is ++ i :: js } req = stamped x req := rfl
  have e2 : startWait { x with inputs := is ++ i :: js } req.type = startWait x req.type := rfl
  have e3 : stamped { x with inputs := is } req = stamped x req := rfl
  have e4 : startWait { x with inputs := is } req.type = startWait x req.type := rfl
  have hw := hs.wait
  have ho := hs.obs
  rw [e3, e4] at hw ho
  rw [e1, e2]
  simp only
  have htok : matchToken (stamped x req) m = true := matchToken_iff.2 ha.2.1
  have hck : ¬ checkOptions px m ≠ 0 := by have := checkOptions_iff.2 hk; omega
  have hserr := hi.1
  rcases ha.2.2 with hsep | ⟨a1, a2, a3, a4⟩
  · obtain ⟨w', hw'⟩ := wait_append hw
    have hne : m.msgId ≠ (stamped x req).msgId := hid (by rcases hsep with h | h <;> rw [h] <;> decide)
    rw [(hw' (i :: js)).1, wait, step_gives hi, handle, if_neg hne, if_pos htok, sepResponse]
    obtain ⟨d, -, hcar⟩ := hi.2.2
    rcases hsep with hty | hty
    · rw [if_pos hty, if_neg hck, sendAck, send_ack hcar.fields.1.msgId, hserr, if_pos hty, ho]
      simp
    · rw [if_neg (by rw [hty]; decide), if_pos hty, if_neg hck, if_neg (by rw [hty]; decide), ho]
      simp
  · have hst : (startWait x req.type).2.phase = .ack := by
      have : req.type = CON := a1
      simp [startWait, this]
    obtain ⟨w', hp, hw'⟩ := wait_phase hst (fun j hj hq => a4 ⟨j, hj, hq⟩) hw
    have hcls := ha.1
    have hne : ¬ (m.type = ACK ∧ isEmpty m = true) := by
      rintro ⟨-, he⟩
      simp only [isEmpty, decide_eq_true_eq] at he
      unfold IsResponse at hcls
      omega
    rw [hw' (i :: js), wait, step_gives hi, handle, if_pos a3, hp]
    simp only
    rw [if_neg hne, if_pos ⟨a2, htok⟩, piggybacked, if_neg hck, if_neg (by rw [a2]; decide), ho]
    simp

/-- A stray message, a lost transmission, then the response: it is accepted. -/
example : ∃ o, exchange true false (exEnv ([tick, rcv exOther] ++ rcv exPiggy :: [tick])) exGet = .ok (o, some (.ok exPiggyMsg)) := by
  have h : exchange true false { exEnv [] with inputs := [tick, rcv exOther] } exGet =
      .ok ([.sent exReqBytes, .arm 2500, .arm 5000, .sent exReqBytes, .sent [0x70, 0, 7, 7]], none) := by decide +kernel
  refine ⟨_, C68_accepted_partial (x := exEnv []) (is := [tick, rcv exOther]) (js := [tick]) exGet_built h
    (i := rcv exPiggy) (m := exPiggyMsg) ⟨rfl, rfl, exPiggy, rfl, by unfold Carries; decide +kernel⟩ (by intro o ho; cases ho)
    ⟨Or.inl rfl, rfl, Or.inr ⟨rfl, rfl, rfl, ?_⟩⟩ (fun h => absurd rfl h)⟩
  rintro ⟨j, hj, d, m, h1, h2, h3, -⟩
  have hm : Carries true exOther ⟨1, CON, 2, 5, 0x0707, [5], [], []⟩ := by unfold Carries; decide +kernel
  simp only [List.mem_cons, List.not_mem_nil, or_false] at hj
  rcases hj with rfl | rfl
  · cases h1
  · cases h1
    have := h2.unique hm
    rw [this] at h3
    cases h3

/-- After the acknowledgement, a separate response is accepted and acknowledged. -/
example : exchange true false (exEnv ([rcv exAck] ++ rcv exSep :: [])) exGet =
    .ok ([.sent exReqBytes, .arm 2500, .arm 30000, .sent [0x60, 0, 9, 9]], some (.ok exSepMsg)) := by decide +kernel

/-! ## C69: other messages do not disturb an exchange -/

/-- C69 in full: a datagram that has nothing to do with the exchange does not end it. -/
def C69_statement : Prop := ∀ sx px (x : XEnv) req o i d (is : List Input), Built req →
  exchange sx px { x with inputs := is } req = .ok (o, none) → Fine i → i.ev = .datagram d → Stray sx (stamped x req) d →
  ∃ o', exchange sx px { x with inputs := is ++ [i] } req = .ok (o', none)

/-- Anybody can send this: version 0, so it is no CoAP message. RFC 7252 section 3: such
messages are silently ignored. -/
def exNoCoap : Bytes := [0x00, 0x45, 9, 9]

/-- A non-confirmable message of the server for another exchange, with an id that happens
to be that of the request. -/
def exCollide : Bytes := [0x51, 0x45, 1, 2, 7]
def exCollideMsg : Msg := ⟨1, NON, 2, 5, 0x0102, [7], [], []⟩

/-- C69 is violated: a datagram that is no CoAP message makes the exchange fail, and so
does a message with another token that happens to have the id of the request. -/
theorem C69_violated : ¬ C69_statement ∧
    Stray true (stamped (exEnv []) exGet) exNoCoap ∧ Stray true (stamped (exEnv []) exGet) exCollide ∧
    exchange true false (exEnv [rcv exNoCoap]) exGet = .ok ([.sent exReqBytes, .arm 2500], some (.error .EINVAL)) ∧
    exchange true false (exEnv [rcv exCollide]) exGet = .ok ([.sent exReqBytes, .arm 2500], some (.error .EBADMSG)) := by
  have h1 : exchange true false (exEnv []) exGet = .ok ([.sent exReqBytes, .arm 2500], none) := by decide +kernel
  have h2 : exchange true false (exEnv [rcv exCollide]) exGet = .ok ([.sent exReqBytes, .arm 2500], some (.error .EBADMSG)) := by
    decide +kernel
  have hc : Carries true exCollide exCollideMsg := by unfold Carries; decide +kernel
  have hs : Stray true (stamped (exEnv []) exGet) exCollide := by
    intro m hm
    rw [hm.unique hc]
    exact ⟨by decide, by decide⟩
  refine ⟨fun h => ?_, ?_, hs, by decide +kernel, h2⟩
  · obtain ⟨o', he⟩ := h true false (exEnv []) exGet _ (rcv exCollide) exCollide [] exGet_built h1
      ⟨rfl, rfl, rfl, Or.inr ⟨_, rfl⟩⟩ rfl hs
    have h2' : exchange true false { exEnv [] with inputs := [] ++ [rcv exCollide] } exGet =
      .ok ([.sent exReqBytes, .arm 2500], some (.error .EBADMSG)) := h2
    rw [h2'] at he
    cases he
  · intro m hm
    exfalso
    have hf := hm.fields.1
    revert hm
    unfold Carries
    have : ∃ e, parse true (Server.recvBuf exNoCoap) (min exNoCoap.length Server.BUF_LEN) = .err e := ⟨.EINVAL, by decide +kernel⟩
    obtain ⟨e, he⟩ := this
    rw [he]
    intro hq
    cases hq

/-- C69 for messages with another token and another id: when such a message arrives while
the exchange waits, the exchange does the same as without it, and besides resets the
message if it is confirmable. -/
theorem C69_undisturbed_partial {sx px : Bool} {x : XEnv} {req m : Msg} {o o' : List Obs} {r : Option (Except Err Msg)}
    {i : Input} {is js : List Input} (hr : Built req) (h : exchange sx px { x with inputs := is } req = .ok (o, none))
    (hi : Gives sx i m) (htok : m.token ≠ (stamped x req).token) (hid : m.msgId ≠ (stamped x req).msgId)
    (h' : exchange sx px { x with inputs := is ++ js } req = .ok (o', r)) :
    ∃ o2, o' = o ++ o2 ∧ exchange sx px { x with inputs := is ++ i :: js } req = .ok (o ++ resetFor m ++ o2, r) := by
  rcases exchange_cases hr.type h with ⟨-, e, he⟩ | ⟨ht, hc, o3, hs⟩
  · cases he
  obtain ⟨w', hw⟩ := wait_append hs.wait
  have ho := hs.obs
  rw [exchange_eq (x := { x with inputs := is ++ js }) ht hc hs.send hs.ok] at h'
  rw [exchange_eq (x := { x with inputs := is ++ i :: js }) ht hc hs.send hs.ok]
  have e1 : ∀ l, stamped { x with inputs := l } req = stamped x req := fun _ => rfl
  have e2 : ∀ l, startWait { x with inputs := l } req.type = startWait x req.type := fun _ => rfl
  simp only [e1, e2] at h' hw ho ⊢
  rw [(hw js).1] at h'
  obtain ⟨d, -, hcar⟩ := hi.2.2
  have hst : step sx px (stamped x req) w' i = .ok (resetFor m, .go w') := by
    rw [step_gives hi, handle, if_neg hid, if_neg (fun hq => htok (matchToken_iff.1 hq)), skip, reject_eq hcar.fields.1.msgId,
      hi.1]
    unfold resetFor
    by_cases hty : m.type = CON
    · rw [if_pos hty, if_pos hty]
    · rw [if_neg hty, if_neg hty]
  rw [(hw (i :: js)).1, wait, hst]
  simp only
  cases hj : wait sx px (stamped x req) w' js with
  | ub => rw [hj] at h'; cases h'
  | err e => rw [hj] at h'; cases h'
  | ok y =>
    obtain ⟨o2, r2⟩ := y
    rw [hj] at h'
    cases h'
    exact ⟨o2, by rw [ho]; simp, by rw [ho]; simp⟩

/-- What arrives after the exchange has returned has no effect on it. -/
theorem C69_over {sx px : Bool} {x : XEnv} {req : Msg} {o : List Obs} {r : Except Err Msg} {is : List Input}
    (h : exchange sx px { x with inputs := is } req = .ok (o, some r)) (js : List Input) :
    exchange sx px { x with inputs := is ++ js } req = .ok (o, some r) := by
  have hw : ∀ (is : List Input) (w : Wait) (q : Msg) (o : List Obs), wait sx px q w is = .ok (o, some r) →
      wait sx px q w (is ++ js) = .ok (o, some r) := by
    intro is
    induction is with
    | nil => intro w q o h; cases h
    | cons i is ih =>
      intro w q o h
      rw [List.cons_append, wait]
      rcases wait_cons h with ⟨y, h1, h2⟩ | ⟨o1, o2, w1, h1, h2, rfl⟩
      · rw [h1, h2]
      · rw [h1]
        simp only
        rw [ih _ _ _ h2]
  unfold exchange at h ⊢
  split at h
  · rename_i hv; rw [if_pos hv]; exact h
  rename_i hv
  rw [if_neg hv]
  have es := stamp_eq { x with inputs := is } req
  have es' := stamp_eq { x with inputs := is ++ js } req
  rw [es.1] at h
  rw [es'.1]
  simp only at h ⊢
  rw [es.2] at h
  rw [es'.2]
  simp only at h ⊢
  have e1 : ∀ l, stamped { x with inputs := l } req = stamped x req := fun _ => rfl
  have e2 : ∀ l t, startWait { x with inputs := l } t = startWait x t := fun _ _ => rfl
  simp only [e1, e2] at h ⊢
  cases hs : send x.sendErr (stamped x req) with
  | ub => rw [hs] at h; cases h
  | err e => rw [hs] at h; cases h
  | ok y =>
    obtain ⟨o1, e⟩ := y
    rw [hs] at h
    cases e with
    | some e => exact h
    | none =>
      simp only at h ⊢
      by_cases ht : (stamped x req).type = CON ∨ (stamped x req).type = NON
      · rw [if_pos ht] at h ⊢
        cases hq : wait sx px (stamped x req) (startWait x (stamped x req).type).2 is with
        | ub => rw [hq] at h; cases h
        | err e => rw [hq] at h; cases h
        | ok z =>
          obtain ⟨o3, r3⟩ := z
          rw [hq] at h
          cases h
          rw [hw _ _ _ _ hq]
      · rw [if_neg ht] at h ⊢
        exact h

/-- A message for somebody else between the acknowledgement and the response is reset and
otherwise ignored. -/
example : exchange true false (exEnv [tick, rcv exAck, rcv exSep]) exGet =
      .ok ([.sent exReqBytes, .arm 2500, .arm 5000, .sent exReqBytes, .arm 30000] ++ [.sent [0x60, 0, 9, 9]],
        some (.ok exSepMsg)) ∧
    exchange true false (exEnv [tick, rcv exAck, rcv exOther, rcv exSep]) exGet =
      .ok ([.sent exReqBytes, .arm 2500, .arm 5000, .sent exReqBytes, .arm 30000] ++ [.sent [0x70, 0, 7, 7]] ++
        [.sent [0x60, 0, 9, 9]], some (.ok exSepMsg)) ∧
    Gives true (rcv exOther) ⟨1, CON, 2, 5, 0x0707, [5], [], []⟩ := by
  refine ⟨by decide +kernel, by decide +kernel, rfl, rfl, exOther, rfl, by unfold Carries; decide +kernel⟩

/-! ## C70: what is returned is a response -/

/-- C70 in full: the message a successful exchange returns is a response. -/
def C70_statement : Prop := ∀ sx px x req o resp, Built req → exchange sx px x req = .ok (o, some (.ok resp)) → IsResponse resp

/-- A POST in an acknowledgement of the request. -/
def exReflect : Bytes := [0x64, 2, 1, 2, 1, 2, 3, 4]
/-- A confirmable GET with the token of the request: the request itself, sent back with
another id. -/
def exMirror : Bytes := [0x44, 1, 9, 9, 1, 2, 3, 4, 0xb1, 0x61]

/-- C70 is violated: requests are accepted as responses, in an acknowledgement and in a
separate message. -/
theorem C70_violated : ¬ C70_statement ∧
    exchange true false (exEnv [rcv exReflect]) exGet =
      .ok ([.sent exReqBytes, .arm 2500], some (.ok ⟨1, ACK, 0, 2, 0x0102, [1, 2, 3, 4], [], []⟩)) ∧
    exchange true false (exEnv [rcv exMirror]) exGet =
      .ok ([.sent exReqBytes, .arm 2500, .sent [0x60, 0, 9, 9]],
        some (.ok ⟨1, CON, 0, 1, 0x0909, [1, 2, 3, 4], [⟨11, [0x61]⟩], []⟩)) := by
  have h : exchange true false (exEnv [rcv exReflect]) exGet =
      .ok ([.sent exReqBytes, .arm 2500], some (.ok ⟨1, ACK, 0, 2, 0x0102, [1, 2, 3, 4], [], []⟩)) := by decide +kernel
  refine ⟨fun hs => ?_, h, by decide +kernel⟩
  have := hs _ _ _ _ _ _ exGet_built h
  simp [IsResponse] at this

/-- C70: what is returned is a response, or has the code of a request: it is never Empty
and never has a reserved class. -/
theorem C70_response_partial {sx px : Bool} {x : XEnv} {req resp : Msg} {o : List Obs} (hr : Built req)
    (h : exchange sx px x req = .ok (o, some (.ok resp))) :
    IsResponse resp ∨ (resp.codeClass = 0 ∧ 1 ≤ resp.codeDetail ∧ resp.codeDetail ≤ 31) := by
  obtain ⟨⟨b, hd, h0, h1, -, h3, -⟩, -, i, -, d, -, hc⟩ := C31_matching_response hr h
  obtain ⟨hf, hsh⟩ := hc.fields
  have hcls := hf.cls
  have hdet := hf.detail
  unfold IsResponse
  rcases hcls with hk | hk | hk | hk
  · refine Or.inr ⟨hk, ?_, by omega⟩
    rcases Nat.eq_zero_or_pos resp.codeDetail with h2 | h2
    · exfalso
      have htok := (hsh.1 ⟨hk, h2⟩).1
      rcases exchange_cases hr.type h with ⟨-, e, he⟩ | ⟨ht, hc', o3, hs⟩
      · cases he
      have hh := hs.head
      rw [hh] at h0
      cases h0
      rw [(built_stamped hr x).header] at h1
      cases h1
      rw [htok] at h3
      simp [stamped] at h3
    · exact h2
  · exact Or.inl (Or.inl hk)
  · exact Or.inl (Or.inr (Or.inl hk))
  · exact Or.inl (Or.inr (Or.inr hk))

example : ∃ o resp, exchange true false (exEnv [tick, rcv exAck, rcv exAck, rcv exSep]) exGet = .ok (o, some (.ok resp)) ∧
    IsResponse resp := ⟨_, _, exSep_run, Or.inl rfl⟩

/-! ## C72: every confirmable message is answered -/

theorem bits67 (b : Byte) : ((b.toNat >>> 6) &&& 0x03 = 1 ∧ (b.toNat >>> 4) &&& 0x03 = CON) ↔ b.toNat / 16 = 4 := by
  have h : ∀ n < 256, ((n >>> 6) &&& 0x03 = 1 ∧ (n >>> 4) &&& 0x03 = 0) ↔ n / 16 = 4 := by decide +kernel
  exact h _ b.toNat_lt

/-- What the message `m` calls for when this comes of it. -/
def due (m : Msg) (n : Next) : List Bytes :=
  if m.type = CON then [match n with | .done (.ok _) => emptyAck m.msgId | _ => reset m.msgId] else []

theorem handle_due {sx px : Bool} {req : Msg} {w : Wait} {i : Input} {d : Bytes} {m : Msg} (hc : Carries sx d m)
    (hs : i.sendErr = none) : ∃ o n, handle px req w i m = .ok (o, n) ∧ sends o = due m n := by
  have hrej : ∃ o, reject i m = .ok (o, none) ∧ sends o = if m.type = CON then [reset m.msgId] else [] := by
    rw [reject_eq hc.fields.1.msgId, hs]
    split
    · exact ⟨_, rfl, rfl⟩
    · exact ⟨_, rfl, rfl⟩
  have hb : ∃ o n, bad i m = .ok (o, n) ∧ sends o = due m n := by
    obtain ⟨o, h1, h2⟩ := hrej
    unfold bad
    rw [h1]
    exact ⟨_, _, rfl, h2⟩
  have hk : ∀ n, m.type ≠ CON → due m n = [] := by
    intro n hn
    unfold due
    rw [if_neg hn]
  have hne : ∀ t, t ≠ CON → m.type = t → m.type ≠ CON := fun t h1 h2 => by rw [h2]; exact h1
  unfold handle
  split
  · split
    · split
      · rename_i h; exact ⟨_, _, rfl, (hk _ (hne ACK (by decide) h)).symm⟩
      split
      · rename_i h; exact ⟨_, _, rfl, (hk _ (hne RST (by decide) h)).symm⟩
      · exact hb
    · split
      · rename_i h
        refine ⟨_, _, rfl, ?_⟩
        rw [hk _ (hne ACK (by decide) h.1)]
        cases i.timerErr <;> rfl
      split
      · rename_i h
        unfold piggybacked
        split
        · exact hb
        · exact ⟨_, _, rfl, (hk _ (hne ACK (by decide) h.1)).symm⟩
      split
      · rename_i h; exact ⟨_, _, rfl, (hk _ (hne RST (by decide) h)).symm⟩
      · exact hb
    · split
      · rename_i h; exact ⟨_, _, rfl, (hk _ (hne RST (by decide) h)).symm⟩
      · exact hb
  split
  · unfold sepResponse
    split
    · rename_i h
      split
      · exact hb
      · unfold sendAck
        rw [send_ack hc.fields.1.msgId, hs]
        refine ⟨_, _, rfl, ?_⟩
        unfold due
        rw [if_pos h]
        rfl
    split
    · rename_i h
      split
      · exact hb
      · exact ⟨_, _, rfl, (hk _ (hne NON (by decide) h)).symm⟩
    · exact hb
  · obtain ⟨o, h1, h2⟩ := hrej
    unfold skip
    rw [h1]
    exact ⟨_, _, rfl, h2⟩

theorem four {d : Bytes} (h : 4 ≤ d.length) : ∃ b0 b1 b2 b3 rest, d = b0 :: b1 :: b2 :: b3 :: rest := by
  match d, h with
  | b0 :: b1 :: b2 :: b3 :: rest, _ => exact ⟨b0, b1, b2, b3, rest, rfl⟩

theorem recvBuf_four (b0 b1 b2 b3 : Byte) (rest : Bytes) : ∃ r, recvBuf (b0 :: b1 :: b2 :: b3 :: rest) = b0 :: b1 :: b2 :: b3 :: r := by
  unfold recvBuf
  rw [show BUF_LEN = 1148 + 1 + 1 + 1 + 1 from rfl]
  simp only [List.take_succ_cons, List.cons_append]
  exact ⟨_, rfl⟩

/-- The same for a datagram. -/
def dueNext (d : Bytes) (n : Next) : List Bytes :=
  match confirmable d with
  | none => []
  | some id => [match n with | .done (.ok _) => emptyAck id | _ => reset id]

theorem step_due {sx px : Bool} {req : Msg} {w : Wait} {i : Input} {d : Bytes} {o : List Obs} {n : Next}
    (hp : i.parseMem = true) (hs : i.sendErr = none) (he : i.ev = .datagram d) (h : step sx px req w i = .ok (o, n)) :
    sends o = dueNext d n := by
  unfold step at h
  rw [he] at h
  simp only at h
  unfold recv at h
  rw [if_neg (by simp [hp])] at h
  have hlen : (recvBuf d).length = BUF_LEN := Server.recvBuf_length d
  by_cases h4 : 4 ≤ d.length
  · obtain ⟨b0, b1, b2, b3, rest, rfl⟩ := four h4
    obtain ⟨r, hr⟩ := recvBuf_four b0 b1 b2 b3 rest
    rw [hr] at h
    have hmin : 4 ≤ min (b0 :: b1 :: b2 :: b3 :: rest).length BUF_LEN := by simp only [BUF_LEN]; omega
    generalize hl : min (b0 :: b1 :: b2 :: b3 :: rest).length BUF_LEN = len at h hmin
    have hid : (b2.toNat <<< 8) ||| b3.toNat = 256 * b2.toNat + b3.toNat := by
      rw [Nat.shiftLeft_eq, Nat.mul_comm, ← Nat.two_pow_add_eq_or_of_lt b3.toNat_lt]
    have hidl : 256 * b2.toNat + b3.toNat < 65536 := by have := b2.toNat_lt; have := b3.toNat_lt; omega
    by_cases hv : (b0.toNat >>> 6) &&& 0x03 = 1
    · cases hpar : parse sx (b0 :: b1 :: b2 :: b3 :: r) len with
      | ub => rw [hpar] at h; cases h
      | ok m =>
        rw [hpar] at h
        simp only at h
        have hc : Carries sx (b0 :: b1 :: b2 :: b3 :: rest) m := by
          unfold Carries
          rw [show Server.recvBuf (b0 :: b1 :: b2 :: b3 :: rest) = _ from hr,
            show min (b0 :: b1 :: b2 :: b3 :: rest).length Server.BUF_LEN = len from hl]
          exact hpar
        obtain ⟨o2, n2, g1, g2⟩ := handle_due (px := px) (req := req) (w := w) hc hs
        rw [g1] at h
        cases h
        rw [List.nil_append, g2]
        obtain ⟨hd, f1, f2, -, -, f5⟩ := hc.header
        cases f1
        simp only at f2 f5
        unfold due dueNext confirmable
        have hb16 := bits67 b0
        have hb4 : (b0.toNat >>> 4) &&& 0x03 = b0.toNat / 16 % 4 := nat_type b0.toNat b0.toNat_lt
        by_cases ht : m.type = CON
        · have : b0.toNat / 16 = 4 := hb16.1 ⟨hv, by rw [hb4, f2, ht]⟩
          simp only [if_pos ht, if_pos this, f5]
        · have : ¬ b0.toNat / 16 = 4 := fun hq => ht (by rw [← f2, ← hb4]; exact (hb16.2 hq).2)
          simp only [if_neg ht, if_neg this]
      | err e =>
        have heb := parse_only hv hpar
        subst heb
        rw [hpar] at h
        simp only [if_true] at h
        unfold formatError parseTypeMsgId at h
        rw [if_neg (by omega)] at h
        simp only [rd, List.getElem?_cons_zero, List.getElem?_cons_succ, Out.bind_ok, Out.pure_eq, hid] at h
        unfold dueNext confirmable
        have hb16 := bits67 b0
        by_cases ht : (b0.toNat >>> 4) &&& 0x03 = CON
        · rw [if_pos ht, send_rst hidl, hs] at h
          simp only at h
          cases h
          simp only [if_pos (hb16.1 ⟨hv, ht⟩)]
          rfl
        · rw [if_neg ht] at h
          simp only at h
          cases h
          simp only [if_neg (fun hq => ht (hb16.2 hq).2)]
          rfl
    · rw [parse_version hv hmin] at h
      cases h
      unfold dueNext confirmable
      simp only [if_neg (fun hq => hv ((bits67 b0).2 hq).1)]
      rfl
  · have hcf : confirmable d = none := by
      match d, h4 with
      | [], _ => rfl
      | [_], _ => rfl
      | [_, _], _ => rfl
      | [_, _, _], _ => rfl
      | _ :: _ :: _ :: _ :: _, h4 => simp at h4
    have hmin : min d.length BUF_LEN < 4 := by omega
    generalize min d.length BUF_LEN = len at h hmin
    have hpar : parse sx (recvBuf d) len = .err .EBADMSG := by
      unfold parse parseHdr
      rw [if_pos hmin]
      rfl
    rw [hpar] at h
    simp only [if_true] at h
    unfold formatError parseTypeMsgId at h
    rw [if_pos hmin] at h
    cases h
    unfold dueNext
    rw [hcf]
    rfl

/-- C72. When a datagram arrives while the exchange waits, a confirmable message in it is
acknowledged if it is accepted as the response, and reset otherwise, whether or not it is
well-formed; for everything else nothing is transmitted. -/
theorem C72_answered {sx px : Bool} {x : XEnv} {req : Msg} {o o' : List Obs} {r : Option (Except Err Msg)} {i : Input} {d : Bytes}
    {is : List Input} (hr : Built req) (h : exchange sx px { x with inputs := is } req = .ok (o, none)) (hf : Fine i)
    (he : i.ev = .datagram d) (h' : exchange sx px { x with inputs := is ++ [i] } req = .ok (o', r)) :
    sends o' = sends o ++ dueTo d r := by
  rcases exchange_cases hr.type h with ⟨-, e, he⟩ | ⟨ht, hc, o3, hs⟩
  · cases he
  obtain ⟨w', hw⟩ := wait_append hs.wait
  have ho := hs.obs
  rw [exchange_eq (x := { x with inputs := is ++ [i] }) ht hc hs.send hs.ok] at h'
  have e1 : ∀ l, stamped { x with inputs := l } req = stamped x req := fun _ => rfl
  have e2 : ∀ l, startWait { x with inputs := l } req.type = startWait x req.type := fun _ => rfl
  simp only [e1, e2] at h' hw ho
  rw [(hw [i]).1, wait] at h'
  have hd : ∀ o2 n, step sx px (stamped x req) w' i = .ok (o2, n) → sends o2 = dueNext d n :=
    fun o2 n h => step_due hf.2.2.1 hf.1 he h
  cases hst : step sx px (stamped x req) w' i with
  | ub => rw [hst] at h'; cases h'
  | err e => rw [hst] at h'; cases h'
  | ok y =>
    obtain ⟨o2, n⟩ := y
    have hd := hd o2 n hst
    rw [hst] at h'
    cases n with
    | go w2 =>
      simp only [wait] at h'
      cases h'
      rw [ho]
      simp only [List.append_nil, List.append_assoc, List.cons_append, List.nil_append, sends, List.filterMap_cons,
        List.filterMap_append]
      simp only [sends] at hd
      rw [hd]
      rfl
    | done r2 =>
      simp only at h'
      cases h'
      rw [ho]
      simp only [List.append_assoc, List.cons_append, List.nil_append, sends, List.filterMap_cons, List.filterMap_append]
      simp only [sends] at hd
      rw [hd]
      cases r2 <;> rfl

/-- A confirmable message with the reserved token length 9 and the id 7. -/
def exTorn : Bytes := [0x49, 0x45, 0, 7]

/-- It ends the exchange and is reset; a stray confirmable message is reset, a separate
response acknowledged, an acknowledgement not answered. -/
example : exchange true false (exEnv [rcv exTorn]) exGet =
      .ok ([.sent exReqBytes, .arm 2500, .sent [0x70, 0, 0, 7]], some (.error .EBADMSG)) ∧
    dueTo exTorn (some (.error .EBADMSG)) = [[0x70, 0, 0, 7]] ∧ dueTo exOther none = [[0x70, 0, 7, 7]] ∧
    dueTo exSep (some (.ok exSepMsg)) = [[0x60, 0, 9, 9]] ∧ dueTo exAck none = [] := by decide +kernel

/-! ## C71: no undefined behaviour -/

/-- C71 in full: whatever arrives and whichever resources fail, an exchange and a blockwise
exchange of a request with plain options, with a buffer at least as long as the caller says,
have an outcome. (`ub` in the model is every read or write outside an object.) -/
def C71_statement (sx : Bool) : Prop :=
  (∀ px x req, Built req → Plain req → exchange sx px x req ≠ .ub) ∧
  (∀ px req resp size1 size2 body bodyLen have' bs1 bs2, Built req → Plain req → bodyLen ≤ body.length →
    (have' = true → NoEmptyBlock resp) → exchangeBlockwise sx px req resp size1 size2 body bodyLen have' bs1 bs2 ≠ .ub)

/-- A response of 1152 bytes, the size of the client's buffer, with one option and without
payload. -/
def exFull : Bytes := [0x44, 0x45, 9, 9, 1, 2, 3, 4, 0xBE, 0x03, 0x68] ++ List.replicate 1141 97

/-- A response with an empty Block2 option. RFC 7959 allows it: it stands for block 0 of 16
bytes, the last one. -/
def exEmptyBlock : Bytes := [0x64, 0x45, 1, 2, 1, 2, 3, 4, 0xD0, 10]

theorem exGet_safe : Plain exGet := by
  intro o ho
  simp only [exGet, List.mem_cons, List.not_mem_nil, or_false] at ho
  rw [ho]
  decide

/-- The code violates C71: a message without payload that fills the buffer makes the parser
read the byte after it, and an empty Block option makes a blockwise exchange read outside
the option. -/
theorem C71_violated (sx : Bool) : ¬ C71_statement sx ∧
    exchange sx false (exEnv [rcv exFull]) exGet = .ub ∧
    exchangeBlockwise sx false exGet create 32 32 exBody 40 false [] [exRound [rcv exEmptyBlock]] = .ub := by
  have h1 : exchange sx false (exEnv [rcv exFull]) exGet = .ub := by
    have : (match exchange sx false (exEnv [rcv exFull]) exGet with | .ub => true | _ => false) = true := by
      cases sx <;> decide +kernel
    revert this
    cases exchange sx false (exEnv [rcv exFull]) exGet <;> simp
  have h2 : exchangeBlockwise sx false exGet create 32 32 exBody 40 false [] [exRound [rcv exEmptyBlock]] = .ub := by
    have : (match exchangeBlockwise sx false exGet create 32 32 exBody 40 false [] [exRound [rcv exEmptyBlock]] with
      | .ub => true | _ => false) = true := by
      cases sx <;> decide +kernel
    revert this
    cases exchangeBlockwise sx false exGet create 32 32 exBody 40 false [] [exRound [rcv exEmptyBlock]] <;> simp
  exact ⟨fun h => h.1 _ _ _ exGet_built exGet_safe h1, h1, h2⟩

/-- C71 for datagrams shorter than the buffer: an exchange always has an outcome. -/
theorem C71_exchange_partial {sx px : Bool} {x : XEnv} {req : Msg} (hp : Plain req) (hi : ∀ i ∈ x.inputs, Short i) :
    ∃ o r, exchange sx px x req = .ok (o, r) := exchange_good hp hi

/-- C71 for datagrams shorter than the buffer without empty Block options: a blockwise
exchange always has an outcome. -/
theorem C71_blockwise_partial {sx px : Bool} {req resp : Msg} {size1 size2 bodyLen : Nat} {body : Bytes} {have' : Bool}
    {bs1 bs2 : List BEnv} (hr : Built req) (hp : Plain req) (hn : have' = true → NoEmptyBlock resp) (hl : bodyLen ≤ body.length)
    (hq1 : ∀ b ∈ bs1, Quiet sx b) (hq2 : ∀ b ∈ bs2, Quiet sx b) :
    ∃ r, exchangeBlockwise sx px req resp size1 size2 body bodyLen have' bs1 bs2 = .ok r :=
  exchangeBlockwise_good hr hp hn hl hq1 hq2

/-- The inputs of the examples are short; the theorem applies to them. -/
example : ∃ o r, exchange true false (exEnv [tick, rcv exOther, rcv exNoCoap, rcv exPiggy]) exGet = .ok (o, r) := by
  refine C71_exchange_partial exGet_safe ?_
  intro i hi d hd
  simp only [exEnv, List.mem_cons, List.not_mem_nil, or_false] at hi
  rcases hi with rfl | rfl | rfl | rfl
  · cases hd
  all_goals cases hd; decide

/-- The download of `exDownload` meets the hypotheses. -/
example : ∃ r, exDownload = .ok r := by
  refine C71_blockwise_partial exGet_built exGet_safe (fun h => by cases h) (by decide) (fun b hb => by cases hb) ?_
  have hall : ([exPiece0, exPiece1].all (Server.harmlessB true)) = true := by decide +kernel
  intro b hb i hi d hd
  refine Server.harmless_of (List.all_eq_true.1 hall d ?_)
  simp only [List.mem_cons, List.not_mem_nil, or_false] at hb
  rcases hb with rfl | rfl <;> simp only [exRound, exEnv, List.mem_cons, List.not_mem_nil, or_false] at hi
  · subst hi; cases hd; simp
  · rcases hi with rfl | rfl
    · cases hd
    · cases hd; simp

end FreeCoAP.Client
