import Verif.Client.LemmasEnds
import Verif.Client.PropsAny
import Verif.Client.PropsDtlsBlock

/-!
# C148: the calls of the client end
-/

namespace FreeCoAP.Client.Ends

open FreeCoAP.Msg

/-- C148: an exchange that has not ended has seen the timer expire at most four times,
whatever arrived and whatever failed. -/
theorem C148_exchange (sx px : Bool) (x : XEnv) (req : Msg) (o : List Obs) (h : exchange sx px x req = .ok (o, none)) : expiries x.inputs ≤ 4 :=
  exchange_none h

/-- The timer of an exchange is started for less than 123 seconds in all, and for a
request that is not confirmable for 30 seconds. -/
theorem C148_time (sx px : Bool) (x : XEnv) (req : Msg) (o : List Obs) (r : Option (Except Err Msg)) (h : exchange sx px x req = .ok (o, r)) :
    (arms o).sum ≤ if req.type = CON then 122969 else 30000 :=
  exchange_time h

/-- The longest exchange: the acknowledgement comes while the last of five transmissions
waits for it, and the response never. -/
def exLong : XEnv := { exEnv [tick, tick, tick, tick, rcv exAck, tick] with rand := 999 }

/-- The bounds on the number of expiries and on the time are reached. -/
theorem C148_time_reached (sx : Bool) : expiries exLong.inputs = 5 ∧
    test (exchange sx false exLong exGet) (fun r => decide (r.2 = some (.error .ETIMEDOUT) ∧ (arms r.1).sum = 122969)) = true :=
  ⟨by decide +kernel, by revert sx; decide +kernel⟩

/-- An exchange whose timer could not be started waits all the same: nothing was started
that could end it, for any number of calls of `recv` in vain. -/
theorem C148_unstarted (sx : Bool) (n : Nat) : ∃ o, arms o = [] ∧
    exchange sx false { exEnv (List.replicate n ⟨.recvErr .EAGAIN, none, none, true⟩) with timerErr := some .EINVAL } exGet = .ok (o, none) := by
  have hw : ∀ (n : Nat) (req : Msg) (w : Wait), wait sx false req w (List.replicate n ⟨.recvErr .EAGAIN, none, none, true⟩) = .ok ([], none) := by
    intro n
    induction n with
    | zero => intro req w; rfl
    | succ n ih =>
      intro req w
      rw [List.replicate_succ]
      unfold wait
      rw [show step sx false req w ⟨.recvErr .EAGAIN, none, none, true⟩ = .ok ([], .go w) from rfl]
      simp only
      rw [ih]
      rfl
  have h0 : exchange sx false { exEnv [] with timerErr := some .EINVAL } exGet = .ok ([.sent exReqBytes], none) := by
    cases sx <;> decide +kernel
  refine ⟨[.sent exReqBytes], rfl, ?_⟩
  rw [← h0]
  exact exchange_inputs (x := { exEnv [] with timerErr := some .EINVAL }) exGet (fun req w => (hw n req w).trans rfl)

/-- A GET in blocks makes at most one exchange more than 16 byte blocks fit into the
caller's buffer. -/
theorem C148_get (sx px : Bool) (req resp : Msg) (size1 size2 bodyLen : Nat) (body : Bytes) (have' : Bool) (bs1 bs2 : List BEnv) (res : BRes)
    (hg : req.codeDetail = 1) (h : exchangeBlockwise sx px req resp size1 size2 body bodyLen have' bs1 bs2 = .ok res) :
    res.obs.length ≤ bodyLen / 16 + 1 := by
  unfold exchangeBlockwise at h
  rw [if_pos hg] at h
  have := (download_rounds h).1
  split at this <;> omega

/-- All calls in blocks: at most twice as many exchanges as 16 byte blocks fit into the
caller's buffer, and one. -/
theorem C148_rounds (sx px : Bool) (req resp : Msg) (size1 size2 bodyLen : Nat) (body : Bytes) (have' : Bool) (bs1 bs2 : List BEnv) (res : BRes)
    (h : exchangeBlockwise sx px req resp size1 size2 body bodyLen have' bs1 bs2 = .ok res) :
    res.obs.length ≤ 2 * (bodyLen / 16) + 1 := by
  by_cases hg : req.codeDetail = 1
  · have := C148_get sx px req resp size1 size2 bodyLen body have' bs1 bs2 res hg h
    omega
  unfold exchangeBlockwise at h
  rw [if_neg hg] at h
  split at h
  · split at h
    · cases h
    · cases h
    rename_i r hu
    have h1 := (upload_rounds hu).1
    split at h
    · cases h; omega
    · cases h; omega
    split at h
    · cases h; omega
    split at h
    · cases h; simp only; omega
    split at h
    · rename_i hd
      cases h
      have h2 := (download_rounds hd).1
      rw [if_pos rfl] at h2
      simp only [List.length_append]
      omega
    · cases h
    · cases h
  · cases h; exact Nat.zero_le _

/-- If in each exchange the timer runs on, every call in blocks returns. -/
theorem C148_returns (sx px : Bool) (req resp : Msg) (size1 size2 bodyLen : Nat) (body : Bytes) (have' : Bool) (bs1 bs2 : List BEnv) (res : BRes)
    (h1 : Timed bs1) (h2 : Timed bs2) (n1 : bodyLen / 16 + 1 < bs1.length) (n2 : bodyLen / 16 + 1 < bs2.length)
    (h : exchangeBlockwise sx px req resp size1 size2 body bodyLen have' bs1 bs2 = .ok res) : ∃ r, res.ret = some r := by
  have down : ∀ {resp : Msg} {body : Bytes} {hv : Bool} {res : BRes}, download sx px req resp size2 body bodyLen hv bs2 = .ok res → res.ret ≠ none := by
    intro resp body hv res h hr
    obtain ⟨g1, g2⟩ := download_rounds h
    have := g2 h2 hr
    split at g1 <;> omega
  suffices res.ret ≠ none by
    cases hr : res.ret with
    | none => exact absurd hr this
    | some r => exact ⟨r, rfl⟩
  unfold exchangeBlockwise at h
  split at h
  · exact down h
  split at h
  · split at h
    · cases h
    · cases h
    rename_i r hu
    obtain ⟨g1, g2⟩ := upload_rounds hu
    split at h
    · rename_i hr
      have := g2 h1 hr
      omega
    · rename_i hr
      cases h
      rw [hr]
      intro h; cases h
    rename_i hr
    split at h
    · cases h
      rw [hr]
      intro h; cases h
    split at h
    · cases h
      intro h; cases h
    split at h
    · rename_i hd
      cases h
      have g := down hd
      exact g
    · cases h
    · cases h
  · cases h
    intro h; cases h

/-! ## Over DTLS -/

theorem stand_expiries {is : List Dtls.Input} {js : List Input} (h : Dtls.Stand is js) : expiries js = is.countP (fun i => decide (i.ev = .timer)) := by
  induction h with
  | nil => rfl
  | cons h hs ih =>
    unfold expiries at ih ⊢
    rw [List.countP_cons, List.countP_cons, ih]
    cases h with
    | message d h hd => simp [h]
    | none e h he => simp [h]
    | timer h => simp [h]
    | selectErr e h => simp [h]

/-- The same for an exchange over DTLS, whatever the TLS library does. -/
theorem C148_dtls (sx px : Bool) (x : XEnv) (req : Msg) (is : List Dtls.Input) (u : Dtls.World) (o : List Obs) (r : Option (Except Err Msg))
    (h : (Dtls.exchange sx px x req is u).1 = .ok (o, r)) :
    (r = none → is.countP (fun i => decide (i.ev = .timer)) ≤ 4) ∧ (arms o).sum ≤ if req.type = CON then 122969 else 30000 := by
  obtain ⟨js, h1, h2⟩ := Dtls.C103_same_client sx px x req is u
  rw [h2] at h
  refine ⟨fun hr => ?_, exchange_time h⟩
  subst hr
  rw [← stand_expiries h1]
  exact exchange_none h

/-- Over DTLS the exchange of the example waits after the acknowledgement. -/
example : test (Dtls.exchange false false (exEnv []) exGet (Dtls.feed Dtls.exOpens [⟨[[1]], false⟩] [] Dtls.exWorld) Dtls.exWorld).1
    (fun r => decide (r.2 = none ∧ (arms r.1).sum = 32500)) = true := by decide +kernel

/-- The same for calls in blocks over DTLS. -/
theorem C148_dtls_rounds (sx px : Bool) (req resp : Msg) (size1 size2 bodyLen : Nat) (body : Bytes) (have' : Bool) (rs1 rs2 : List Dtls.Round)
    (u : Dtls.World) (res : BRes) (h : (Dtls.exchangeBlockwise sx px req resp size1 size2 body bodyLen have' rs1 rs2 u).1 = .ok res) :
    res.obs.length ≤ 2 * (bodyLen / 16) + 1 := by
  obtain ⟨bs1, bs2, -, -, h2⟩ := Dtls.C135_same_client sx px req resp size1 size2 body bodyLen have' rs1 rs2 u
  rw [h2] at h
  exact C148_rounds sx px req resp size1 size2 bodyLen body have' bs1 bs2 res h

/-- A library that finds the only block of a body in each datagram. -/
def exOnly (_ : Bytes) : List Bytes := [[0x64, 0x45, 1, 2, 1, 2, 3, 4, 0xd1, 10, 0x00, 0xff, 8, 9]]

/-- A download over DTLS. -/
example : test (Dtls.exchangeBlockwise true false exGet create 16 16 exBody 40 false []
    [⟨exRound [], Dtls.feed exOnly [⟨[[1]], false⟩] [] Dtls.exWorld⟩] Dtls.exWorld).1
    (fun r => decide (r.obs.length = 1 ∧ r.ret = some (.ok 2))) = true := by decide +kernel

/-- A block of 16 bytes of a response that is not the last one, and an empty last block. -/
def exBlock (code val : Byte) : Bytes := [0x64, code, 1, 2, 1, 2, 3, 4, 0xd1, 10, val, 0xff] ++ List.replicate 16 7
def exLast : Bytes := [0x64, 0x45, 1, 2, 1, 2, 3, 4, 0xd1, 10, 0x20]

/-- The bound for GET is reached with a buffer of 32 bytes. -/
theorem C148_get_reached (sx : Bool) : test (exchangeBlockwise sx false exGet create 16 16 exBody 32 false []
      [exRound [rcv (exBlock 0x45 0x08)], exRound [rcv (exBlock 0x45 0x18)], exRound [rcv exLast]])
    (fun r => decide (r.obs.length = 32 / 16 + 1 ∧ r.ret = some (.ok 32))) = true := by
  revert sx; decide +kernel

/-- The confirmation of a block of an upload, and the one of the last block with the first
block of the response. -/
def exConfirm (val : Byte) : Bytes := [0x64, 0x5f, 1, 2, 1, 2, 3, 4, 0xd1, 14, val]
def exTurn : Bytes := [0x64, 0x44, 1, 2, 1, 2, 3, 4, 0xd1, 10, 0x08, 0x41, 0x20, 0xff] ++ List.replicate 16 7
def exFinal : Bytes := [0x64, 0x44, 1, 2, 1, 2, 3, 4, 0xd1, 10, 0x20, 0xff, 8, 9]

/-- The bound for all calls is reached with a body and a buffer of 40 bytes. -/
theorem C148_put_reached (sx : Bool) : test (exchangeBlockwise sx false exPut create 16 16 exBody 40 false
      [exRound [rcv (exConfirm 0x08)], exRound [rcv (exConfirm 0x18)], exRound [rcv exTurn]]
      [exRound [rcv (exBlock 0x44 0x18)], exRound [rcv exFinal]])
    (fun r => decide (r.obs.length = 2 * (40 / 16) + 1 ∧ r.ret = some (.ok 34))) = true := by
  revert sx; decide +kernel

/-- After four expiries an exchange may still wait. -/
example : test (exchange true false (exEnv [tick, rcv exOther, tick, tick, tick]) exGet) (fun r => decide (r.2 = none)) = true := by decide +kernel
example : expiries (exEnv [tick, rcv exOther, tick, tick, tick]).inputs = 4 := by decide

/-- A server that answers nothing: five expiries in each exchange. -/
def exSilent : List BEnv := List.replicate 4 (exRound [tick, tick, rcv exOther, tick, tick, tick])

theorem exSilent_timed : Timed exSilent := by
  intro b hb
  rw [List.eq_of_mem_replicate hb]
  decide

/-- The hypotheses of `C148_returns` hold, for a server that stops after the first block. -/
example : ∃ res r, exchangeBlockwise true false exPut create 16 16 exBody 32 false
    (exRound [rcv (exConfirm 0x08), tick, tick, tick, tick, tick] :: exSilent) exSilent = .ok res ∧ res.ret = some r := by
  have h : test (exchangeBlockwise true false exPut create 16 16 exBody 32 false
    (exRound [rcv (exConfirm 0x08), tick, tick, tick, tick, tick] :: exSilent) exSilent) (fun _ => true) = true := by decide +kernel
  obtain ⟨res, h, -⟩ := test_ok h
  have ht : Timed (exRound [rcv (exConfirm 0x08), tick, tick, tick, tick, tick] :: exSilent) := by
    intro b hb
    rcases List.mem_cons.1 hb with rfl | hb
    · decide
    · exact exSilent_timed b hb
  obtain ⟨r, hr⟩ := C148_returns true false exPut create 16 16 32 exBody false _ _ res ht exSilent_timed (by decide) (by decide) h
  exact ⟨res, r, h, hr⟩

end FreeCoAP.Client.Ends
