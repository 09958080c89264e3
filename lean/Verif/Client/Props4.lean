import Verif.Client.LemmasCourse
import Verif.Client.Props3

/-!
# How blockwise transfers go, and what else leaves an exchange waiting (C73, C69)

C73 is about every transfer, also those which fail: `Uploads`, `Downloads`, `Resumes` and
`Puts` (Verif/Client/Spec2.lean) list all the ways a round can go.
-/

namespace FreeCoAP.Client

open FreeCoAP.Msg
open FreeCoAP.Server (header Header emptyAck reset Built Carries Formats BlockSize joined)

/-! ## C69 -/

/-- Until it ends, the exchange of a confirmable request waits for an acknowledgement or a
separate response. -/
theorem wait_con {sx px : Bool} {req : Msg} {is : List Input} : ∀ {w : Wait} {o : List Obs}, w.phase ≠ .non →
    wait sx px req w is = .ok (o, none) →
    ∃ w', w'.phase ≠ .non ∧ ∀ js, wait sx px req w (is ++ js) =
      (match wait sx px req w' js with | .ok (o2, r) => .ok (o ++ o2, r) | .err e => .err e | .ub => .ub) := by
  induction is with
  | nil =>
    intro w o hp h
    cases h
    refine ⟨w, hp, fun js => ?_⟩
    simp only [List.nil_append]
    cases wait sx px req w js with
    | ok x => rfl
    | err e => rfl
    | ub => rfl
  | cons i is ih =>
    intro w o hp h
    rcases wait_cons h with ⟨x, -, h2⟩ | ⟨o1, o2, w1, h1, h2, rfl⟩
    · cases h2
    · have hp1 : w1.phase ≠ .non := by
        have := step_cases h1
        cases this with
        | handled d m _ _ he hc hpm hh =>
          cases hh with
          | keep _ _ => exact hp
          | sep _ _ k1 k2 k3 k4 _ => simp
        | again _ => exact hp
        | retry _ _ _ _ _ _ => simp
      obtain ⟨w', hw, h3⟩ := ih hp1 h2
      refine ⟨w', hw, fun js => ?_⟩
      rw [List.cons_append, wait, h1]
      simp only
      rw [h3 js]
      cases wait sx px req w' js with
      | ok x => simp
      | err e => rfl
      | ub => rfl

/-- An Empty acknowledgement of a confirmable request, be it the first or another one, does
not end the exchange, and nothing is transmitted for it; at most the timer for the response
is started. -/
theorem C69_acknowledged {sx px : Bool} {x : XEnv} {req m : Msg} {o : List Obs} {i : Input} {is : List Input}
    (hr : Built req) (hcon : req.type = CON) (h : exchange sx px { x with inputs := is } req = .ok (o, none)) (hi : Gives sx i m)
    (hty : m.type = ACK) (hid : m.msgId = (stamped x req).msgId) (hcl : m.codeClass = 0) (hcd : m.codeDetail = 0) :
    ∃ o2, exchange sx px { x with inputs := is ++ [i] } req = .ok (o ++ o2, none) ∧ (o2 = [] ∨ o2 = [.arm 30000]) := by
  rcases exchange_cases hr.type h with ⟨-, e, he⟩ | ⟨ht, hc, o3, hs⟩
  · cases he
  have ho := hs.obs
  rw [exchange_eq (x := { x with inputs := is ++ [i] }) ht hc hs.send hs.ok]
  have e1 : ∀ l, stamped { x with inputs := l } req = stamped x req := fun _ => rfl
  have e2 : ∀ l, startWait { x with inputs := l } req.type = startWait x req.type := fun _ => rfl
  have hw := hs.wait
  simp only [e1, e2] at hw ho ⊢
  have hst : (startWait x req.type).2.phase ≠ .non := by simp [startWait, hcon]
  obtain ⟨w', hp, hw'⟩ := wait_con hst hw
  rw [hw' [i], wait, step_gives hi, handle, if_pos hid]
  have hem : isEmpty m = true := by simp [isEmpty, hcl, hcd]
  cases hph : w'.phase with
  | non => exact absurd hph hp
  | sep =>
    simp only
    rw [if_pos hty]
    exact ⟨[], by simp [wait, ho], Or.inl rfl⟩
  | ack =>
    simp only
    rw [if_pos ⟨hty, hem⟩]
    cases hte : i.timerErr with
    | none => exact ⟨[.arm 30000], by simp [wait, startResp, ho, RESP_TIMEOUT], Or.inr rfl⟩
    | some e => exact ⟨[], by simp [wait, startResp, ho], Or.inl rfl⟩

/-- When the socket turns out to have nothing to read, the exchange does the same as if it
had not been woken. -/
theorem C69_spurious {sx px : Bool} {x : XEnv} {req : Msg} {o : List Obs} {i : Input} {is js : List Input}
    (hr : Built req) (h : exchange sx px { x with inputs := is } req = .ok (o, none)) (hi : i.ev = .recvErr .EAGAIN) :
    exchange sx px { x with inputs := is ++ i :: js } req = exchange sx px { x with inputs := is ++ js } req := by
  rcases exchange_cases hr.type h with ⟨-, e, he⟩ | ⟨ht, hc, o3, hs⟩
  · cases he
  rw [exchange_eq (x := { x with inputs := is ++ i :: js }) ht hc hs.send hs.ok,
    exchange_eq (x := { x with inputs := is ++ js }) ht hc hs.send hs.ok]
  obtain ⟨w', hw⟩ := wait_append hs.wait
  have e1 : ∀ l, stamped { x with inputs := l } req = stamped x req := fun _ => rfl
  have e2 : ∀ l, startWait { x with inputs := l } req.type = startWait x req.type := fun _ => rfl
  simp only [e1, e2] at hw ⊢
  rw [(hw (i :: js)).1, (hw js).1, wait, step, hi]
  simp only [if_true]
  cases wait sx px (stamped x req) w' js with
  | ok y => simp
  | err e => rfl
  | ub => rfl

/-- The acknowledgement comes twice, then the response. -/
example : ∃ o2, exchange true false (exEnv ([rcv exAck] ++ [rcv exAck])) exGet = .ok ([.sent exReqBytes, .arm 2500, .arm 30000] ++ o2, none) ∧
    (o2 = [] ∨ o2 = [.arm 30000]) :=
  C69_acknowledged (x := exEnv []) (m := ⟨1, ACK, 0, 0, 0x0102, [], [], []⟩) exGet_built rfl (by decide +kernel)
    ⟨rfl, rfl, exAck, rfl, by unfold Carries; decide +kernel⟩ rfl rfl rfl rfl

/-! ## C73 -/

theorem not_blockSize {size : Nat} {e : Err} (h : calcBlockSzx size = .err e) : ¬ BlockSize size ∧ e = .EINVAL := by
  refine ⟨?_, ?_⟩
  · intro hb
    obtain ⟨szx, hz⟩ := Server.BlockSize.szx hb
    rw [h] at hz
    cases hz
  · unfold calcBlockSzx at h
    repeat' split at h
    all_goals first | cases h | skip
    rfl

theorem zero_blockSize : ¬ BlockSize 0 := by
  intro h
  have := Server.BlockSize.pos h
  omega

/-- The course of a download. -/
theorem download_course {sx px : Bool} {req resp : Msg} {size2 bodyLen : Nat} {body : Bytes} {bs : List BEnv} {res : BRes} {have' : Bool}
    (hr : Built req) (hb : NoBlocks req) (h : download sx px req resp size2 body bodyLen have' bs = .ok res) :
    (¬ BlockSize size2 ∧ res.obs = [] ∧ res.outcome = some (.error .EINVAL) ∧ res.body = body) ∨
    (BlockSize size2 ∧
      if have' = true then Resumes sx px req bodyLen size2 resp body bs res.obs res.outcome res.body
      else Downloads sx px req bodyLen size2 0 body bs res.obs res.outcome res.body) := by
  unfold download at h
  split at h
  · rename_i h0
    cases h
    exact Or.inl ⟨by rw [h0]; exact zero_blockSize, rfl, rfl, rfl⟩
  split at h
  · cases h
  · rename_i e he
    cases h
    obtain ⟨h1, rfl⟩ := not_blockSize he
    exact Or.inl ⟨h1, rfl, rfl, rfl⟩
  rename_i szx hz
  refine Or.inr ⟨BlockSize.of_szx hz, ?_⟩
  cases have' with
  | false =>
    rw [if_pos rfl] at h
    rw [if_neg (by decide)]
    exact blockwise2_course hr hb bs size2 szx 0 0 resp body res hz (by simp) h
  | true =>
    rw [if_neg (by decide)] at h
    rw [if_pos rfl]
    split at h
    · cases h
    · cases h
    · rename_i r' body' ht
      cases h
      rcases take2_course hz ht with ⟨n, b', h1, h2⟩ | ⟨e, h1, h2⟩ | ⟨s, z, h1, -⟩
      · cases h1
        exact .ends h2
      · cases h1
        exact .ends h2
      · cases h1
    · rename_i size' szx' start' body' ht
      rcases take2_course hz ht with ⟨n, b', h1, h2⟩ | ⟨e, h1, h2⟩ | ⟨s, z, h1, h2, h3, h4, h5, k', h6⟩
      · cases h1
      · cases h1
      · cases h1
        rw [Nat.zero_add] at h h5 h6
        exact .next h3 h4 h5 (blockwise2_course hr hb bs _ _ _ k' _ _ res h2 h6 h)

/-- The course of an upload. -/
theorem upload_course {sx px : Bool} {req resp : Msg} {size1 size2 bodyLen : Nat} {body : Bytes} {bs : List BEnv} {res : BRes}
    (hr : Built req) (hb : NoBlocks req) (hl : bodyLen ≤ body.length)
    (h : upload sx px req resp size1 size2 body bodyLen bs = .ok res) :
    (¬ (BlockSize size1 ∧ BlockSize size2) ∧ res.obs = [] ∧ res.outcome = some (.error .EINVAL) ∧ res.body = body) ∨
    (BlockSize size1 ∧ BlockSize size2 ∧ Uploads sx px req size2 (body.take bodyLen) size1 0 bs res.obs res.outcome ∧
      res.body = body) := by
  unfold upload at h
  split at h
  · rename_i h0
    cases h
    refine Or.inl ⟨?_, rfl, rfl, rfl⟩
    rintro ⟨h1, h2⟩
    rcases h0 with rfl | rfl
    · exact zero_blockSize h1
    · exact zero_blockSize h2
  split at h
  · cases h
  · rename_i e he
    cases h
    obtain ⟨h1, rfl⟩ := not_blockSize he
    exact Or.inl ⟨fun hq => h1 hq.1, rfl, rfl, rfl⟩
  rename_i szx hz
  split at h
  · cases h
  · rename_i e he
    cases h
    obtain ⟨h1, rfl⟩ := not_blockSize he
    exact Or.inl ⟨fun hq => h1 hq.2, rfl, rfl, rfl⟩
  rename_i szx2 hz2
  exact Or.inr ⟨BlockSize.of_szx hz, BlockSize.of_szx hz2,
    blockwise1_course hr hb hz2 hl bs size1 szx 0 0 resp res hz (by simp) (Or.inr rfl) h⟩

/-- C73 for GET. With a block size that is none nothing is sent. Otherwise blocks are
fetched one after the other as `Downloads` says: until the last one is there, an exchange
fails, or the server answers with something else, which is returned. -/
theorem C73_get {sx px : Bool} {req resp : Msg} {size1 size2 bodyLen : Nat} {body : Bytes} {have' : Bool}
    {bs1 bs2 : List BEnv} {res : BRes} (hr : Built req) (hb : NoBlocks req) (hm : req.codeDetail = 1)
    (h : exchangeBlockwise sx px req resp size1 size2 body bodyLen have' bs1 bs2 = .ok res) :
    (¬ BlockSize size2 ∧ res.obs = [] ∧ res.outcome = some (.error .EINVAL) ∧ res.body = body) ∨
    (BlockSize size2 ∧
      if have' = true then Resumes sx px req bodyLen size2 resp body bs2 res.obs res.outcome res.body
      else Downloads sx px req bodyLen size2 0 body bs2 res.obs res.outcome res.body) := by
  unfold exchangeBlockwise at h
  rw [if_pos hm] at h
  exact download_course hr hb h

/-- C73 for PUT and POST. With block sizes that are none nothing is sent. Otherwise the
body is sent block by block as `Uploads` says: until the last block is confirmed, an exchange
fails, or the server answers one of them with something else than a confirmation, which is
returned; and a body in the response is fetched like that of a GET. -/
theorem C73_put {sx px : Bool} {req resp : Msg} {size1 size2 bodyLen : Nat} {body : Bytes} {have' : Bool}
    {bs1 bs2 : List BEnv} {res : BRes} (hr : Built req) (hb : NoBlocks req) (hm : req.codeDetail = 2 ∨ req.codeDetail = 3)
    (hl : bodyLen ≤ body.length)
    (h : exchangeBlockwise sx px req resp size1 size2 body bodyLen have' bs1 bs2 = .ok res) :
    (¬ (BlockSize size1 ∧ BlockSize size2) ∧ res.obs = [] ∧ res.outcome = some (.error .EINVAL) ∧ res.body = body) ∨
    (BlockSize size1 ∧ BlockSize size2 ∧ Puts sx px req size1 size2 bodyLen body bs1 bs2 res.obs res.outcome res.body) := by
  unfold exchangeBlockwise at h
  rw [if_neg (by omega), if_pos (by omega)] at h
  split at h
  · cases h
  · cases h
  rename_i r hu
  rcases upload_course hr hb hl hu with ⟨h1, h2, h3, h4⟩ | ⟨h1, h2, h3, h4⟩
  · have hr' : r.ret = some (.error .EINVAL) := by
      unfold BRes.outcome at h3
      split at h3
      · cases h3
      · rename_i e he; cases h3; exact he
      · cases h3
    rw [hr'] at h
    cases h
    exact Or.inl ⟨h1, h2, h3, h4⟩
  · refine Or.inr ⟨h1, h2, ?_⟩
    obtain ⟨obs, ret, rr, rb⟩ := r
    simp only at h h3 h4
    subst h4
    cases ret with
    | none =>
      cases h
      exact .ends h3 (by intro n r hq; cases hq)
    | some ret =>
      cases ret with
      | error e =>
        cases h
        exact .ends h3 (by intro n r hq; cases hq)
      | ok n =>
        simp only at h
        by_cases h0 : n = 0
        · rw [if_pos h0] at h
          cases h
          exact .ends h3 (by intro n r hq; cases hq; exact h0)
        rw [if_neg h0] at h
        by_cases hp : rr.payload = []
        · rw [if_pos hp] at h
          cases h
          exact .done h3 h0 hp
        rw [if_neg hp] at h
        split at h
        · rename_i r2 hd
          cases h
          rcases download_course hr hb hd with ⟨g, -⟩ | ⟨-, g⟩
          · exact absurd h2 g
          · rw [if_pos rfl] at g
            exact .fetch h3 h0 hp g
        · cases h
        · cases h

/-- C73 for other methods: nothing is sent. -/
theorem C73_method {sx px : Bool} {req resp : Msg} {size1 size2 bodyLen : Nat} {body : Bytes} {have' : Bool}
    {bs1 bs2 : List BEnv} (hm : req.codeDetail ≠ 1 ∧ req.codeDetail ≠ 2 ∧ req.codeDetail ≠ 3) :
    exchangeBlockwise sx px req resp size1 size2 body bodyLen have' bs1 bs2 = .ok ⟨[], some (.error .EINVAL), resp, body⟩ := by
  unfold exchangeBlockwise
  rw [if_neg (by omega), if_neg (by omega)]

/-- When an upload of a body that is not empty returns a response, the value is 0 exactly if
the response is no confirmation, such as an error. -/
theorem Uploads.refusal {sx px : Bool} {req : Msg} {size2 size off n : Nat} {body : Bytes} {bs : List BEnv} {os : List (List Obs)}
    {r : Msg} (h : Uploads sx px req size2 body size off bs os (some (.ok (n, r)))) (hn : n = 0 → 0 < body.length) :
    Confirmed r ↔ n ≠ 0 := by
  generalize hret : some (Except.ok (n, r)) = ret at h
  induction h with
  | begin => cases hret
  | unable _ => cases hret
  | waits _ _ => cases hret
  | fails _ _ => cases hret
  | refused _ _ hr => cases hret; simp [hr]
  | wrong _ _ _ _ => cases hret
  | last _ _ hr _ _ =>
    cases hret
    refine ⟨fun _ => fun h0 => ?_, fun _ => hr⟩
    have := hn h0
    omega
  | next _ _ _ _ _ _ ih => exact ih hret

/-- 4.13 Request Entity Too Large for the second block of the upload of `exUpload`. -/
def exTooLarge : Bytes := [0x64, 0x8d, 1, 2, 1, 2, 3, 4]
def exTooLargeMsg : Msg := ⟨1, ACK, 4, 13, 0x0102, [1, 2, 3, 4], [], []⟩

def exRefused : Out BRes :=
  exchangeBlockwise true false exPut create 32 32 exBody 40 false
    [exRound [tick, rcv exPart0], exRound [rcv exTooLarge], exRound [rcv exPart2]] []

/-- The third round does not take place, and the error is returned. -/
example : ∃ res, exRefused = .ok res ∧ res.obs.length = 2 ∧ res.outcome = some (.ok (0, exTooLargeMsg)) ∧
    Puts true false exPut 32 32 40 exBody [exRound [tick, rcv exPart0], exRound [rcv exTooLarge], exRound [rcv exPart2]] []
      res.obs res.outcome res.body := by
  have : test exRefused (fun r => decide (r.obs.length = 2 ∧ r.outcome = some (.ok (0, exTooLargeMsg)))) = true := by decide +kernel
  obtain ⟨res, h, h'⟩ := test_ok this
  have h' := of_decide_eq_true h'
  refine ⟨res, h, h'.1, h'.2, ?_⟩
  rcases C73_put exPut_built exPut_plain (Or.inr rfl) (by decide) h with ⟨h1, -⟩ | ⟨-, -, h1⟩
  · exact absurd ⟨⟨1, by decide⟩, ⟨1, by decide⟩⟩ h1
  · exact h1

/-- The download of 18 bytes. -/
example : ∃ res, exDownload = .ok res ∧ res.ret = some (.ok 18) ∧
    Downloads true false exGet 40 32 0 exBody [exRound [rcv exPiece0], exRound [tick, rcv exPiece1]] res.obs res.outcome res.body := by
  obtain ⟨res, h1, h2, -⟩ := exDownload_run
  refine ⟨res, h1, h2, ?_⟩
  rcases C73_get exGet_built exGet_plain rfl h1 with ⟨h3, -⟩ | ⟨-, h3⟩
  · exact absurd ⟨1, by decide⟩ h3
  · exact h3

end FreeCoAP.Client
