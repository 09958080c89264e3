import Verif.Client.LemmasTrace

/-!
# Properties of an exchange of the client

C31 - C35. Each theorem is about every list of inputs: datagrams (from anybody), expiries
of the timer and failures, in any order.
-/

namespace FreeCoAP.Client

open FreeCoAP.Msg
open FreeCoAP.Server (header Header emptyAck reset Built Carries Formats Request)

theorem built_stamped {req : Msg} (h : Built req) (x : XEnv) : Built (stamped x req) :=
  ⟨h.ver, h.type, h.cls, h.detail, id_lt x, by simp [Client.stamped], h.sorted⟩

theorem enc_long (x : XEnv) (req : Msg) : 4 < (enc (stamped x req)).length := by
  simp only [enc, List.length_append, encHdr_length]
  simp only [stamped, List.length_cons]
  omega

theorem Started.head {sx px : Bool} {x : XEnv} {req : Msg} {o : List Obs} {r : Option (Except Err Msg)} {o3 : List Obs}
    (h : Started sx px x req o r o3) : (sends o).head? = some (enc (stamped x req)) := by
  rw [h.obs]; rfl

/-! ## Examples -/

/-- A confirmable GET of "/a". -/
def exGet : Msg := ⟨1, CON, 0, 1, 0, [], [⟨11, [0x61]⟩], []⟩

theorem exGet_built : Built exGet := ⟨rfl, by decide, by decide, by decide, by decide, by decide, by simp [exGet, Sorted]⟩

/-- The same, non-confirmable. -/
def exGetNon : Msg := { exGet with type := NON }

theorem exGetNon_built : Built exGetNon :=
  ⟨rfl, by decide, by decide, by decide, by decide, by decide, by simp [exGetNon, exGet, Sorted]⟩

def rcv (d : Bytes) : Input := ⟨.datagram d, none, none, true⟩
def tick : Input := ⟨.timer, none, none, true⟩

/-- Message id 0x0102, token 1 2 3 4. -/
def exEnv (is : List Input) : XEnv := ⟨2, 1, 1, 2, 3, 4, none, none, 1500, is⟩

/-- The request as transmitted. -/
def exReqBytes : Bytes := [0x44, 1, 1, 2, 1, 2, 3, 4, 0xb1, 0x61]

/-- 2.05 piggybacked. -/
def exPiggy : Bytes := [0x64, 0x45, 1, 2, 1, 2, 3, 4, 0xff, 0x68, 0x69]
/-- The Empty acknowledgement. -/
def exAck : Bytes := [0x60, 0, 1, 2]
/-- 2.05 in a separate confirmable message with id 0x0909. -/
def exSep : Bytes := [0x44, 0x45, 9, 9, 1, 2, 3, 4, 0xff, 0x68, 0x69]
/-- A confirmable message with another token. -/
def exOther : Bytes := [0x41, 0x45, 7, 7, 5]
/-- The reset of the request. -/
def exRst : Bytes := [0x70, 0, 1, 2]

/-- The response in `exPiggy`. -/
def exPiggyMsg : Msg := ⟨1, ACK, 2, 5, 0x0102, [1, 2, 3, 4], [], [0x68, 0x69]⟩
/-- The response in `exSep`. -/
def exSepMsg : Msg := ⟨1, CON, 2, 5, 0x0909, [1, 2, 3, 4], [], [0x68, 0x69]⟩

/-- A lost transmission, a stray confirmable message (reset), then the response. -/
theorem exPiggy_run : exchange true false (exEnv [tick, rcv exOther, rcv exPiggy]) exGet =
    .ok ([.sent exReqBytes, .arm 2500, .arm 5000, .sent exReqBytes, .sent [0x70, 0, 7, 7]], some (.ok exPiggyMsg)) := by
  decide +kernel

/-- A lost transmission, the acknowledgement twice, then the separate response. -/
theorem exSep_run : exchange true false (exEnv [tick, rcv exAck, rcv exAck, rcv exSep]) exGet =
    .ok ([.sent exReqBytes, .arm 2500, .arm 5000, .sent exReqBytes, .arm 30000, .sent [0x60, 0, 9, 9]],
      some (.ok exSepMsg)) := by
  decide +kernel

/-! ## C31 -/

/-- C31. A successful exchange returns a message that was received, has the token of the
request transmitted, acceptable options, and is either an acknowledgement with the id of
the request or a separate confirmable or non-confirmable message. -/
theorem C31_matching_response {sx px : Bool} {x : XEnv} {req resp : Msg} {o : List Obs} (hr : Built req)
    (h : exchange sx px x req = .ok (o, some (.ok resp))) :
    (∃ b hd, (sends o).head? = some b ∧ header b = some hd ∧ hd.type = req.type ∧ hd.token = resp.token ∧
      ((req.type = CON ∧ resp.type = ACK ∧ resp.msgId = hd.id ∧ (resp.codeClass, resp.codeDetail) ≠ (0, 0)) ∨
       ((resp.type = CON ∨ resp.type = NON) ∧ resp.msgId ≠ hd.id))) ∧
    Acceptable px resp ∧
    ∃ i ∈ x.inputs, ∃ d, i.ev = .datagram d ∧ Carries sx d resp := by
  rcases exchange_cases hr.type h with ⟨-, e, he⟩ | ⟨ht, hc, o3, hs⟩
  · cases he
  obtain ⟨i, hi, d, w', o', h1, h2, h3, h4⟩ := wait_accept hs.wait
  refine ⟨⟨_, _, hs.head, (built_stamped hr x).header, rfl, h3.token.symm, ?_⟩, h3.ops, i, hi, d, h1, h2⟩
  rcases h3.kind with ⟨k1, k2, k3, k4, -⟩ | ⟨k1, k2, -⟩ | ⟨k1, k2, -⟩
  · refine Or.inl ⟨?_, k2, k3, k4⟩
    rcases ht with ht | ht
    · exact ht
    · exact absurd k1 (h4 (by rw [ht]; simp [startWait, startResp]))
  · exact Or.inr ⟨Or.inr k2, k1⟩
  · exact Or.inr ⟨Or.inl k2, k1⟩

/-- C31 for the library compiled without `COAP_PROXY`: critical options are known. -/
theorem C31_critical {sx : Bool} {x : XEnv} {req resp : Msg} {o : List Obs} (hr : Built req)
    (h : exchange sx false x req = .ok (o, some (.ok resp))) : ∀ p ∈ resp.ops, Critical p → p.num ∈ known := by
  have := (C31_matching_response hr h).2.1
  intro p hp hc
  exact this p hp (by simpa using hc)

example : ∃ o resp, exchange true false (exEnv [tick, rcv exAck, rcv exAck, rcv exSep]) exGet = .ok (o, some (.ok resp)) :=
  ⟨_, _, exSep_run⟩

/-! ## C32 -/

/-- C32. Everything a confirmable exchange transmits is the request, always the same
bytes, at most five times, and Empty messages. Before each retransmission the time is
doubled, starting from 2 to 3 seconds. After the last retransmission there may be one more
start of the timer: for the response, when the request was acknowledged, or before a
retransmission that failed. -/
theorem C32_schedule {sx px : Bool} {x : XEnv} {req : Msg} {o : List Obs} {r : Option (Except Err Msg)} (hr : Built req)
    (hc : req.type = CON) (h : exchange sx px x req = .ok (o, r)) (hne : o ≠ []) :
    ∃ b t n tail, Formats (stamped x req) b ∧ 2000 ≤ t ∧ t < 3000 ∧ n ≤ 4 ∧
      about b o = .sent b :: ((if x.timerErr = none then [.arm t] else []) ++ retries b t 0 n ++ tail) ∧
      (tail = [] ∨ tail = [.arm 30000] ∨ (tail = [.arm (2 ^ (n + 1) * t)] ∧ ∃ e, r = some (.error e))) ∧
      ∀ d ∈ sends o, d = b ∨ ∃ id < 65536, d = reset id ∨ d = emptyAck id := by
  rcases exchange_cases hr.type h with ⟨he, -⟩ | ⟨-, -, o3, hs⟩
  · exact absurd he hne
  have hw := hs.wait
  have e : (startWait x req.type).2 = ⟨.ack, 0, 2 ^ 0 * (ACK_TIMEOUT + x.rand % 1000)⟩ := by
    simp [startWait, hc]
  rw [e] at hw
  obtain ⟨n, tail, h1, h2, h3, h4⟩ := wait_retries (enc_long x req) (by omega) (by simp only [ACK_TIMEOUT]; omega) hw
  refine ⟨enc (stamped x req), ACK_TIMEOUT + x.rand % 1000, n, tail, formats_iff.2 ⟨hs.send, rfl⟩,
    by simp only [ACK_TIMEOUT]; omega, by simp only [ACK_TIMEOUT]; omega, by omega, ?_, ?_, ?_⟩
  · rw [hs.obs, show ∀ l, Obs.sent (enc (stamped x req)) :: l = [Obs.sent (enc (stamped x req))] ++ l from fun _ => rfl,
      about_append, about_append, h2]
    have : about (enc (stamped x req)) (startWait x req.type).1 =
        if x.timerErr = none then [.arm (ACK_TIMEOUT + x.rand % 1000)] else [] := by
      simp only [startWait, hc, if_true]
      cases x.timerErr <;> rfl
    rw [this]
    simp [about]
  · have h3' := h3
    rw [Nat.zero_add] at h3'
    exact h3'
  · intro d hd
    rw [hs.obs, show ∀ l, Obs.sent (enc (stamped x req)) :: l = [Obs.sent (enc (stamped x req))] ++ l from fun _ => rfl,
      sends_append, sends_append] at hd
    have : sends (startWait x req.type).1 = [] := by
      simp only [startWait, hc, if_true]
      cases x.timerErr <;> rfl
    rw [this] at hd
    simp only [sends, List.filterMap_cons, List.filterMap_nil, List.nil_append, List.singleton_append, List.mem_cons] at hd
    exact hd.elim Or.inl (h4 d)

theorem count_retries (b : Bytes) (t k n : Nat) : (sends (retries b t k n)).count b = n := by
  induction n generalizing k with
  | zero => rfl
  | succ n ih =>
    rw [retries_succ, show ∀ a l, Obs.arm a :: Obs.sent b :: l = [Obs.arm a, Obs.sent b] ++ l from fun _ _ => rfl,
      sends_append, List.count_append, ih]
    simp [sends]; omega

theorem count_about (b : Bytes) (o : List Obs) : (sends o).count b = (sends (about b o)).count b := by
  induction o with
  | nil => rfl
  | cons x xs ih =>
    cases x with
    | arm t => simpa [sends, about] using ih
    | sent d =>
      by_cases hd : d = b
      · subst hd
        simpa [sends, about] using ih
      · simp only [about] at ih ⊢
        rw [List.filter_cons_of_neg (by simpa using hd), ← ih]
        simp [sends, hd]

/-- C32. A confirmable request is transmitted at most five times. -/
theorem C32_at_most_five {sx px : Bool} {x : XEnv} {req : Msg} {o : List Obs} {r : Option (Except Err Msg)} (hr : Built req)
    (hc : req.type = CON) (h : exchange sx px x req = .ok (o, r)) {b : Bytes} (hb : Formats (stamped x req) b) :
    (sends o).count b ≤ 5 := by
  by_cases hne : o = []
  · subst hne; simp [sends]
  obtain ⟨b', t, n, tail, h1, -, -, h4, h5, h6, -⟩ := C32_schedule hr hc h hne
  have e : b' = b := by rw [(formats_iff.1 h1).2, (formats_iff.1 hb).2]
  subst e
  rw [count_about, h5, show ∀ l, Obs.sent b' :: l = [Obs.sent b'] ++ l from fun _ => rfl, sends_append, sends_append,
    sends_append, List.count_append, List.count_append, List.count_append, count_retries]
  have a1 : sends (if x.timerErr = none then [Obs.arm t] else []) = [] := by split <;> rfl
  have a2 : sends tail = [] := by rcases h6 with rfl | rfl | ⟨rfl, -⟩ <;> rfl
  rw [a1, a2]
  simp [sends]
  omega

/-- C32. If nothing arrives: the request is transmitted when the exchange starts and at
the first four expiries of the timer; at the fifth the exchange fails. -/
theorem C32_nothing_arrives {sx px : Bool} {x : XEnv} {req : Msg} {b : Bytes} (hc : req.type = CON) (hq : req.codeClass = 0)
    (hb : Formats (stamped x req) b) (he : x.sendErr = none) (ht : x.timerErr = none)
    (hs : ∀ i ∈ x.inputs, i.ev = .timer ∧ i.sendErr = none ∧ i.timerErr = none) :
    ∃ t, 2000 ≤ t ∧ t < 3000 ∧ exchange sx px x req =
      .ok (.sent b :: .arm t :: retries b t 0 (min x.inputs.length 4),
        if x.inputs.length ≤ 4 then none else some (.error .ETIMEDOUT)) := by
  obtain ⟨hb1, rfl⟩ := formats_iff.1 hb
  refine ⟨ACK_TIMEOUT + x.rand % 1000, by simp only [ACK_TIMEOUT]; omega, by simp only [ACK_TIMEOUT]; omega, ?_⟩
  rw [exchange_eq (Or.inl hc) hq hb1 he]
  have e : startWait x req.type = ([.arm (ACK_TIMEOUT + x.rand % 1000)], ⟨.ack, 0, 2 ^ 0 * (ACK_TIMEOUT + x.rand % 1000)⟩) := by
    simp [startWait, hc, ht]
  rw [e]
  simp only
  rw [wait_silent hb1 (by omega) (by simp only [ACK_TIMEOUT]; omega) hs]
  rfl

/-- C32. When nothing fails locally, the exchange times out only after five transmissions
or after the request was acknowledged. -/
theorem C32_timeout_only {sx px : Bool} {x : XEnv} {req : Msg} {o : List Obs} (hr : Built req) (hc : req.type = CON)
    (hf : ∀ i ∈ x.inputs, Fine i) {b : Bytes} (hb : Formats (stamped x req) b)
    (h : exchange sx px x req = .ok (o, some (.error .ETIMEDOUT))) (hse : x.sendErr = none) :
    (sends o).count b = 5 ∨ 30000 ∈ arms o := by
  obtain ⟨hb1, rfl⟩ := formats_iff.1 hb
  by_cases hq : req.codeClass = 0
  · rcases exchange_cases hr.type h with ⟨rfl, -⟩ | ⟨-, -, o3, hs⟩
    · rw [exchange_eq (Or.inl hc) hq hb1 hse] at h
      exfalso
      split at h
      · cases h
      · cases h
      · cases h
    have hw := hs.wait
    have e : (startWait x req.type).2 = ⟨.ack, 0, 2 ^ 0 * (ACK_TIMEOUT + x.rand % 1000)⟩ := by
      simp [startWait, hc]
    rw [e] at hw
    rcases wait_timeout hb1 (enc_long x req) (by omega) (by simp only [ACK_TIMEOUT]; omega) hf hw with h1 | h1
    · refine Or.inl ?_
      rw [count_about, hs.obs, show ∀ l, Obs.sent (enc (stamped x req)) :: l = [Obs.sent (enc (stamped x req))] ++ l from fun _ => rfl,
        about_append, about_append, h1, sends_append, sends_append, List.count_append, List.count_append, count_retries]
      have : sends (about (enc (stamped x req)) (startWait x req.type).1) = [] := by
        simp only [startWait, hc, if_true]
        cases x.timerErr <;> rfl
      rw [this]
      simp [about, sends]
    · refine Or.inr ?_
      rw [hs.obs, show ∀ l, Obs.sent (enc (stamped x req)) :: l = [Obs.sent (enc (stamped x req))] ++ l from fun _ => rfl,
        arms_append, arms_append]
      simp only [List.mem_append]
      exact Or.inr (Or.inr h1)
  · unfold exchange at h
    rw [if_pos (Or.inr (Or.inr hq))] at h
    cases h

/-- C32. A non-confirmable request is transmitted once. -/
theorem C32_non_once {sx px : Bool} {x : XEnv} {req : Msg} {o : List Obs} {r : Option (Except Err Msg)} (hr : Built req)
    (hc : req.type = NON) (h : exchange sx px x req = .ok (o, r)) (hne : o ≠ []) :
    ∃ b, Formats (stamped x req) b ∧ (sends o).count b = 1 ∧
      about b o = .sent b :: (if x.timerErr = none then [.arm 30000] else []) ∧
      ∀ d ∈ sends o, d = b ∨ ∃ id < 65536, d = reset id ∨ d = emptyAck id := by
  rcases exchange_cases hr.type h with ⟨he, -⟩ | ⟨-, -, o3, hs⟩
  · exact absurd he hne
  have hw := hs.wait
  have e : startWait x req.type = (if x.timerErr = none then [.arm 30000] else [], ⟨.non, 0, 30000⟩) := by
    simp only [startWait, hc, startResp]
    cases x.timerErr <;> rfl
  rw [e] at hw
  obtain ⟨h1, h2⟩ := wait_quiet (enc_long x req) (by simp) hw
  have h3 : about (enc (stamped x req)) o = .sent (enc (stamped x req)) :: (if x.timerErr = none then [.arm 30000] else []) := by
    rw [hs.obs, show ∀ l, Obs.sent (enc (stamped x req)) :: l = [Obs.sent (enc (stamped x req))] ++ l from fun _ => rfl,
      about_append, about_append, h1, e]
    cases x.timerErr <;> simp [about]
  refine ⟨enc (stamped x req), formats_iff.2 ⟨hs.send, rfl⟩, ?_, h3, ?_⟩
  · rw [count_about, h3]
    cases x.timerErr <;> simp [sends]
  · intro d hd
    rw [hs.obs, show ∀ l, Obs.sent (enc (stamped x req)) :: l = [Obs.sent (enc (stamped x req))] ++ l from fun _ => rfl,
      sends_append, sends_append] at hd
    have : sends (startWait x req.type).1 = [] := by
      rw [e]; cases x.timerErr <;> rfl
    rw [this] at hd
    simp only [sends, List.filterMap_cons, List.filterMap_nil, List.nil_append, List.singleton_append, List.mem_cons] at hd
    exact hd.elim Or.inl (fun hd => Or.inr (h2 d hd))

/-- Five expiries: five transmissions, 2.5, 5, 10, 20 and 40 seconds apart. -/
example : exchange true false (exEnv [tick, tick, tick, tick, tick]) exGet =
    .ok ([.sent exReqBytes, .arm 2500, .arm 5000, .sent exReqBytes, .arm 10000, .sent exReqBytes, .arm 20000,
      .sent exReqBytes, .arm 40000, .sent exReqBytes], some (.error .ETIMEDOUT)) := by decide +kernel

example : Formats (stamped (exEnv []) exGet) exReqBytes :=
  ⟨exReqBytes ++ List.replicate 1142 0, 10, by decide +kernel, by decide +kernel⟩

/-- A non-confirmable request and its timeout. -/
example : exchange true false (exEnv [tick]) exGetNon =
    .ok ([.sent (0x54 :: exReqBytes.tail), .arm 30000], some (.error .ETIMEDOUT)) := by decide +kernel

/-! ## C33 -/

theorem acks_request {x : XEnv} {req : Msg} (hr : Built req) (ht : req.type = CON ∨ req.type = NON) :
    acks [.sent (enc (stamped x req))] = [] := by
  simp only [acks, sends, List.filterMap_cons, List.filterMap_nil]
  rw [List.filter_cons_of_neg]
  · rfl
  · rw [(built_stamped hr x).header]
    rcases ht with ht | ht <;> simp [stamped, ht, CON, NON, ACK]

/-- C33. The acknowledgements an exchange sends: exactly one, Empty and with the id of the
response, when it returns a confirmable response; none otherwise. -/
theorem C33_acknowledged {sx px : Bool} {x : XEnv} {req : Msg} {o : List Obs} {r : Option (Except Err Msg)} (hr : Built req)
    (h : exchange sx px x req = .ok (o, r)) :
    acks o = acksFor r := by
  rcases exchange_cases hr.type h with ⟨rfl, e, rfl⟩ | ⟨ht, -, o3, hs⟩
  · rfl
  have h1 := wait_acks (acks_request hr ht) hs.wait
  have h2 : acks (startWait x req.type).1 = [] := by
    simp only [startWait, startResp]
    split <;> cases x.timerErr <;> rfl
  rw [hs.obs, show ∀ l, Obs.sent (enc (stamped x req)) :: l = [Obs.sent (enc (stamped x req))] ++ l from fun _ => rfl,
    acks_append, acks_append, acks_request hr ht, h1, h2]
  rfl

example : acks [.sent exReqBytes, .arm 2500, .arm 5000, .sent exReqBytes, .arm 30000, .sent [0x60, 0, 9, 9]] =
    [emptyAck 0x0909] := by decide +kernel

/-! ## C34 -/

theorem recv_carries {sx : Bool} {i : Input} {d : Bytes} {m : Msg} (hp : i.parseMem = true) (h : Carries sx d m) :
    recv sx i d = .ok ([], .ok m) := by
  unfold recv
  rw [if_neg (by simp [hp])]
  have h' : parse sx (recvBuf d) (min d.length BUF_LEN) = .ok m := h
  rw [h']

theorem step_reset {sx px : Bool} {req : Msg} {w : Wait} {i : Input} (h : ResetBy sx req.msgId i) :
    step sx px req w i = .ok ([], .done (.error .ECONNRESET)) := by
  obtain ⟨h1, d, m, h2, h3, h4, h5⟩ := h
  unfold step
  rw [h2]
  simp only
  rw [recv_carries h1 h3]
  simp only
  unfold handle
  rw [if_pos h5]
  cases w.phase with
  | ack => simp only; rw [if_neg (fun hq => by rw [h4] at hq; cases hq.1), if_neg (fun hq => by rw [h4] at hq; cases hq.1), if_pos h4]; rfl
  | sep => simp only; rw [if_neg (by rw [h4]; decide), if_pos h4]; rfl
  | non => simp only; rw [if_pos h4]; rfl

/-- C34. If the exchange is waiting after the inputs `is`, and the next input is a reset of
the request, then it fails with `-ECONNRESET` and transmits nothing more, whatever comes
after. -/
theorem C34_reset {sx px : Bool} {x : XEnv} {req : Msg} {o : List Obs} {i : Input} {is js : List Input} (hr : Built req)
    (h : exchange sx px { x with inputs := is } req = .ok (o, none))
    (hi : ResetBy sx (256 * x.id1.toNat + x.id0.toNat) i) :
    exchange sx px { x with inputs := is ++ i :: js } req = .ok (o, some (.error .ECONNRESET)) := by
  rcases exchange_cases hr.type h with ⟨-, e, he⟩ | ⟨ht, hc, o3, hs⟩
  · cases he
  rw [exchange_eq (x := { x with inputs := is ++ i :: js }) ht hc hs.send hs.ok]
  obtain ⟨w', hw⟩ := wait_append hs.wait
  have e1 : stamped { x with inputs := is ++ i :: js } req = stamped { x with inputs := is } req := rfl
  have e2 : startWait { x with inputs := is ++ i :: js } req.type = startWait { x with inputs := is } req.type := rfl
  rw [e1, e2]
  simp only
  rw [(hw (i :: js)).1, wait, step_reset (req := stamped { x with inputs := is } req) hi, hs.obs]
  simp

example : exchange true false (exEnv [tick]) exGet =
      .ok ([.sent exReqBytes, .arm 2500, .arm 5000, .sent exReqBytes], none) ∧
    exchange true false (exEnv [tick, rcv exRst, tick, rcv exPiggy]) exGet =
      .ok ([.sent exReqBytes, .arm 2500, .arm 5000, .sent exReqBytes], some (.error .ECONNRESET)) := by decide +kernel

example : ResetBy true 0x0102 (rcv exRst) :=
  ⟨rfl, exRst, ⟨1, RST, 0, 0, 0x0102, [], [], []⟩, rfl, by unfold Carries; decide +kernel, rfl, rfl⟩

/-! ## C35 -/

/-- C35, the refusal as stated. -/
def C35_statement : Prop := ∀ sx px x req, Built req → ¬ Request req →
  exchange sx px x req = .ok ([], some (.error .EINVAL))

/-- The Empty confirmable message. -/
def exPing : Msg := { create with type := CON }

/-- C35 is violated by the Empty message: it is taken for a request and refused only when
it is formatted, with another error. -/
theorem C35_violated : ¬ C35_statement ∧ ¬ Request exPing ∧
    exchange true false (exEnv []) exPing = .ok ([], some (.error .EBADMSG)) := by
  have h : exchange true false (exEnv []) exPing = .ok ([], some (.error .EBADMSG)) := by decide +kernel
  have hq : ¬ Request exPing := by decide
  refine ⟨fun hs => ?_, hq, h⟩
  have := hs true false (exEnv []) exPing
    ⟨rfl, by decide, by decide, by decide, by decide, by decide, by simp [exPing, create, destroyed, Sorted]⟩ hq
  rw [h] at this
  cases this

/-- C35. A message that is not a request is refused and nothing is transmitted; the error
is `-EINVAL` unless the message is Empty. -/
theorem C35_refused_partial {sx px : Bool} {x : XEnv} {req : Msg} (hr : Built req) (h : ¬ Request req) :
    ∃ e, exchange sx px x req = .ok ([], some (.error e)) ∧
      (e = .EINVAL ∨ (e = .EBADMSG ∧ req.codeClass = 0 ∧ req.codeDetail = 0)) := by
  by_cases hv : req.type = ACK ∨ req.type = RST ∨ req.codeClass ≠ 0
  · refine ⟨.EINVAL, ?_, Or.inl rfl⟩
    unfold exchange
    rw [if_pos hv]
  · have hc : req.codeClass = 0 := Classical.byContradiction fun hq => hv (Or.inr (Or.inr hq))
    have ht : req.type = CON ∨ req.type = NON := by
      have := hr.type
      simp only [ACK, RST, CON, NON] at hv ⊢
      omega
    have hd : req.codeDetail = 0 := Classical.byContradiction fun hq => h ⟨⟨ht, hc⟩, hq⟩
    refine ⟨.EBADMSG, ?_, Or.inr ⟨rfl, hc, hd⟩⟩
    unfold exchange
    rw [if_neg hv, (stamp_eq x req).1]
    simp only
    rw [(stamp_eq x req).2]
    simp only
    have hk : check (stamped x req) = .err .EBADMSG := by
      rcases check_cases (stamped x req) with hk | hk
      · have := ((check_ok_iff _).1 hk).1 ⟨hc, hd⟩
        cases this.1
      · exact hk
    have hf : format (stamped x req) (List.replicate BUF_LEN 0) BUF_LEN = .err .EBADMSG := by
      unfold format
      rw [hk]
      rfl
    unfold send
    rw [hf]

/-- C35. What is transmitted is the encoding of the caller's message with only message id
and token replaced, and besides only Empty acknowledgements and resets. -/
theorem C35_transmitted {sx px : Bool} {x : XEnv} {req : Msg} {o : List Obs} {r : Option (Except Err Msg)} (hr : Built req)
    (h : exchange sx px x req = .ok (o, r)) :
    (o = [] ∧ ∃ e, r = some (.error e)) ∨
    (∃ b, Formats (stamped x req) b ∧ (sends o).head? = some b ∧
      ∀ d ∈ sends o, d = b ∨ ∃ id < 65536, d = reset id ∨ d = emptyAck id) := by
  rcases exchange_cases hr.type h with h1 | ⟨ht, hc, o3, hs⟩
  · exact Or.inl h1
  have hne : o ≠ [] := by rw [hs.obs]; simp
  refine Or.inr ⟨_, formats_iff.2 ⟨hs.send, rfl⟩, hs.head, ?_⟩
  rcases ht with ht | ht
  · obtain ⟨b, t, n, tail, h1, -, -, -, -, -, h7⟩ := C32_schedule hr ht h hne
    rw [(formats_iff.1 h1).2] at h7
    exact h7
  · obtain ⟨b, h1, -, -, h4⟩ := C32_non_once hr ht h hne
    rw [(formats_iff.1 h1).2] at h4
    exact h4

example : Built exGet ∧ Request exGet := ⟨exGet_built, by decide⟩
example : ¬ Request { exGet with type := ACK } ∧ ¬ Request { exGet with codeClass := 2 } := by decide

end FreeCoAP.Client
