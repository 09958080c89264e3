import Verif.Client.LemmasBlock

/-!
# Properties of blockwise transfers of the client

C36 and C37. The server's answers are arbitrary: every theorem is about every list of
rounds with every list of inputs in each.
-/

namespace FreeCoAP.Client

open FreeCoAP.Msg
open FreeCoAP.Server (header Header emptyAck reset Built Carries Formats BlockSize joined)

/-! ## Examples -/

/-- Test the value of a computation. -/
def test (x : Out α) (f : α → Bool) : Bool :=
  match x with
  | .ok a => f a
  | _ => false

theorem test_ok {x : Out α} {f : α → Bool} (h : test x f = true) : ∃ a, x = .ok a ∧ f a = true := by
  unfold test at h
  split at h
  · exact ⟨_, rfl, h⟩
  · cases h

/-- A confirmable PUT of "/a". -/
def exPut : Msg := ⟨1, CON, 0, 3, 0, [], [⟨11, [0x61]⟩], []⟩

theorem exPut_built : Built exPut := ⟨rfl, by decide, by decide, by decide, by decide, by decide, by simp [exPut, Sorted]⟩
theorem exPut_plain : NoBlocks exPut := by simp [NoBlocks, exPut, BLOCK1, BLOCK2]
theorem exGet_plain : NoBlocks exGet := by simp [NoBlocks, exGet, BLOCK1, BLOCK2]

def exRound (is : List Input) : BEnv := ⟨exEnv is, true, true, true, true⟩

/-- A body of 40 bytes. -/
def exBody : Bytes := (List.range 40).map (fun n => UInt8.ofNat n)

/-- 2.31 for block 0 of the upload, with blocks of 16 bytes from now on. -/
def exPart0 : Bytes := [0x64, 0x5f, 1, 2, 1, 2, 3, 4, 0xd1, 14, 0x08]
/-- 2.04 for block 2 of 16 bytes, the last one. -/
def exPart2 : Bytes := [0x64, 0x44, 1, 2, 1, 2, 3, 4, 0xd1, 14, 0x20]

/-- The upload of 40 bytes in blocks of 32 bytes; the server asks for blocks of 16 bytes. -/
def exUpload : Out BRes :=
  exchangeBlockwise true false exPut create 32 32 exBody 40 false
    [exRound [tick, rcv exPart0], exRound [rcv exPart2]] []

theorem exUpload_run : ∃ res, exUpload = .ok res ∧ res.ret = some (.ok 0) ∧ Confirmed res.resp ∧ res.obs.length = 2 := by
  have : test exUpload (fun r => decide (r.ret = some (.ok 0) ∧ (r.resp.codeClass = 2 ∧ (r.resp.codeDetail = 31 ∨ r.resp.codeDetail = 1 ∨
      r.resp.codeDetail = 4)) ∧ r.obs.length = 2)) = true := by decide +kernel
  obtain ⟨r, h, h'⟩ := test_ok this
  have h' := of_decide_eq_true h'
  exact ⟨r, h, h'⟩

/-- 2.31 with block 0 of 16 bytes and the more flag. -/
def exPiece0 : Bytes := [0x64, 0x5f, 1, 2, 1, 2, 3, 4, 0xd1, 10, 0x08, 0xff] ++ List.replicate 16 7
/-- 2.05 with block 1 of 16 bytes, the last one. -/
def exPiece1 : Bytes := [0x64, 0x45, 1, 2, 1, 2, 3, 4, 0xd1, 10, 0x10, 0xff, 8, 9]

/-- A download of 18 bytes; the client asks for blocks of 32 bytes. -/
def exDownload : Out BRes :=
  exchangeBlockwise true false exGet create 32 32 exBody 40 false [] [exRound [rcv exPiece0], exRound [tick, rcv exPiece1]]

theorem exDownload_run : ∃ res, exDownload = .ok res ∧ res.ret = some (.ok 18) ∧ Content 1 res.resp ∧
    res.body = List.replicate 16 7 ++ [8, 9] ++ exBody.drop 18 := by
  have : test exDownload (fun r => decide (r.ret = some (.ok 18) ∧ (r.resp.codeClass = 2 ∧ (r.resp.codeDetail = 31 ∨ r.resp.codeDetail = 5)) ∧
      r.body = List.replicate 16 7 ++ [8, 9] ++ exBody.drop 18)) = true := by decide +kernel
  obtain ⟨r, h, h'⟩ := test_ok this
  have h' := of_decide_eq_true h'
  exact ⟨r, h, h'⟩

/-! ## C36 -/

/-- The part of a PUT or POST before the body of the response is fetched. -/
theorem exchangeBlockwise_put {sx px : Bool} {req resp : Msg} {size1 size2 bodyLen n : Nat} {body : Bytes} {have' : Bool}
    {bs1 bs2 : List BEnv} {res : BRes} (hm : req.codeDetail = 2 ∨ req.codeDetail = 3)
    (h : exchangeBlockwise sx px req resp size1 size2 body bodyLen have' bs1 bs2 = .ok res) (hret : res.ret = some (.ok n)) :
    ∃ r m, upload sx px req resp size1 size2 body bodyLen bs1 = .ok r ∧ r.ret = some (.ok m) ∧
      ((n = 0 ∧ res.obs = r.obs ∧ res.resp = r.resp ∧ res.body = r.body ∧ (m = 0 ∨ r.resp.payload = [])) ∨
       (m ≠ 0 ∧ ∃ r2, download sx px req r.resp size2 r.body bodyLen true bs2 = .ok r2 ∧ r2.ret = some (.ok n) ∧
        res.obs = r.obs ++ r2.obs ∧ res.resp = r2.resp ∧ res.body = r2.body)) := by
  unfold exchangeBlockwise at h
  rw [if_neg (by omega), if_pos (by omega)] at h
  split at h
  · cases h
  · cases h
  rename_i r hu
  split at h
  · cases h; rename_i hn; rw [hn] at hret; cases hret
  · cases h; rename_i hn; rw [hn] at hret; cases hret
  rename_i m hn
  refine ⟨r, m, hu, hn, ?_⟩
  split at h
  · rename_i h0
    cases h
    rw [hn] at hret
    cases hret
    exact Or.inl ⟨h0, rfl, rfl, rfl, Or.inl h0⟩
  split at h
  · rename_i hp
    cases h
    cases hret
    exact Or.inl ⟨rfl, rfl, rfl, rfl, Or.inr hp⟩
  rename_i h0 hp
  split at h
  · rename_i r2 hd
    cases h
    exact Or.inr ⟨h0, r2, hd, hret, rfl, rfl, rfl⟩
  · cases h
  · cases h

theorem Rounds.length {sx : Bool} {bs : List BEnv} {ms rs : List Msg} {os : List (List Obs)} (h : Rounds sx bs ms rs os) :
    os.length = ms.length := by
  induction h with
  | done => rfl
  | round _ _ ih => simp [ih]

/-- C36. When a blockwise PUT or POST succeeds (the server confirmed the upload, or a body
was returned), its first rounds are the blocks of the caller's body in order: their
payloads make up the body, every byte being in one block, the first block begins at offset
0, and the last one and only it is marked final. This is so whatever block sizes the server
answers with. -/
theorem C36_upload {sx px : Bool} {req resp : Msg} {size1 size2 bodyLen n : Nat} {body : Bytes} {have' : Bool}
    {bs1 bs2 : List BEnv} {res : BRes} (hr : Built req) (hb : NoBlocks req) (hm : req.codeDetail = 2 ∨ req.codeDetail = 3)
    (h : exchangeBlockwise sx px req resp size1 size2 body bodyLen have' bs1 bs2 = .ok res) (hret : res.ret = some (.ok n))
    (hc : Confirmed res.resp ∨ n ≠ 0) :
    ∃ ms rs, Parts req size2 0 ms ∧ joined ms = body.take bodyLen ∧ Rounds sx bs1 ms rs (res.obs.take ms.length) := by
  obtain ⟨r, m, hu, hrm, hx⟩ := exchangeBlockwise_put hm h hret
  rcases hx with ⟨h0, ho, hp, -⟩ | ⟨h0, r2, -, -, ho, -⟩
  · obtain ⟨-, -, ms, rs, h1, h2, h3, -⟩ := upload_ok hr hb hu hrm (Or.inl (by
      rcases hc with hc | hc
      · rw [← hp]; exact hc
      · exact absurd h0 hc))
    refine ⟨ms, rs, h1, h3, ?_⟩
    rw [ho, ← h2.length, List.take_length]
    exact h2
  · obtain ⟨-, -, ms, rs, h1, h2, h3, -⟩ := upload_ok hr hb hu hrm (Or.inr h0)
    refine ⟨ms, rs, h1, h3, ?_⟩
    rw [ho, ← h2.length, List.take_left]
    exact h2

example : ∃ res n, exUpload = .ok res ∧ res.ret = some (.ok n) ∧ Confirmed res.resp := by
  obtain ⟨res, h1, h2, h3, -⟩ := exUpload_run
  exact ⟨res, 0, h1, h2, h3⟩

/-! ## C37 -/

/-- C37. When a blockwise GET succeeds (a response with content, or a length other than 0
was returned), the body in the caller's buffer is what the payloads of the responses
accepted make up, the length returned is their total length, which is at most the length
of the buffer, and the rest of the buffer is unchanged. The responses carry the blocks of
the body in order, and each is the answer to a request for this block. -/
theorem C37_download {sx px : Bool} {req resp : Msg} {size1 size2 bodyLen n : Nat} {body : Bytes} {have' : Bool}
    {bs1 bs2 : List BEnv} {res : BRes} (hr : Built req) (hb : NoBlocks req) (hm : req.codeDetail = 1)
    (h : exchangeBlockwise sx px req resp size1 size2 body bodyLen have' bs1 bs2 = .ok res) (hret : res.ret = some (.ok n))
    (hc : Content 1 res.resp ∨ n ≠ 0) :
    ∃ ms rs first, first = (if have' = true then [resp] else []) ∧ Pieces 1 0 (first ++ rs) ∧
      WantsAll req (joined first).length ms rs ∧ Rounds sx bs2 ms rs res.obs ∧
      n = (joined (first ++ rs)).length ∧ n ≤ bodyLen ∧ n ≤ body.length ∧ res.body = joined (first ++ rs) ++ body.drop n := by
  unfold exchangeBlockwise at h
  rw [if_pos hm] at h
  have := download_ok hr hb h hret (by rw [hm]; exact hc)
  rw [hm] at this
  exact this

/-- C37 for the body returned by a blockwise PUT or POST: its first block is in the
response to the last block of the upload. -/
theorem C37_after_upload {sx px : Bool} {req resp : Msg} {size1 size2 bodyLen n : Nat} {body : Bytes} {have' : Bool}
    {bs1 bs2 : List BEnv} {res : BRes} (hr : Built req) (hb : NoBlocks req) (hm : req.codeDetail = 2 ∨ req.codeDetail = 3)
    (h : exchangeBlockwise sx px req resp size1 size2 body bodyLen have' bs1 bs2 = .ok res) (hret : res.ret = some (.ok n))
    (hn : n ≠ 0) :
    ∃ ms1 rs1 ms rs first, rs1.getLast? = some first ∧ Rounds sx bs1 ms1 rs1 (res.obs.take ms1.length) ∧
      Pieces req.codeDetail 0 (first :: rs) ∧ WantsAll req first.payload.length ms rs ∧
      Rounds sx bs2 ms rs (res.obs.drop ms1.length) ∧
      n = (joined (first :: rs)).length ∧ n ≤ bodyLen ∧ n ≤ body.length ∧ res.body = joined (first :: rs) ++ body.drop n := by
  obtain ⟨r, m, hu, hrm, hx⟩ := exchangeBlockwise_put hm h hret
  rcases hx with ⟨h0, -⟩ | ⟨h0, r2, h2, h3, ho, -, h5⟩
  · exact absurd h0 hn
  obtain ⟨-, hb1, ms1, rs1, -, g2, -, g4⟩ := upload_ok hr hb hu hrm (Or.inr h0)
  obtain ⟨ms, rs, first, rfl, k1, k2, k3, k4, k5, k6, k7⟩ := download_ok hr hb h2 h3 (Or.inr hn)
  refine ⟨ms1, rs1, ms, rs, r.resp, g4, ?_, k1, by simpa [joined] using k2, ?_, k4, k5, by rw [← hb1]; exact k6, ?_⟩
  · rw [ho, ← g2.length, List.take_left]; exact g2
  · rw [ho, ← g2.length, List.drop_left]; exact k3
  · rw [h5, k7, hb1]; rfl

/-- C37: nothing outside the caller's buffer of `bodyLen` bytes is read or written, whatever
the server sends: with other bytes `e` after the buffer the function does the same, and
leaves them as they are. (Were a byte outside the buffer accessed, the outcome without `e`
would be undefined behaviour, and with it not.) -/
theorem C37_inside {sx px : Bool} {req resp : Msg} {size1 size2 bodyLen : Nat} {body : Bytes} {have' : Bool}
    {bs1 bs2 : List BEnv} (hl : body.length = bodyLen) (e : Bytes) :
    exchangeBlockwise sx px req resp size1 size2 (body ++ e) bodyLen have' bs1 bs2 =
      more e (exchangeBlockwise sx px req resp size1 size2 body bodyLen have' bs1 bs2) := by
  have hl : bodyLen ≤ body.length := by omega
  unfold exchangeBlockwise
  split
  · exact download_more e hl
  split
  · rw [upload_more e hl]
    cases hu : upload sx px req resp size1 size2 body bodyLen bs1 with
    | ub => rfl
    | err _ => rfl
    | ok r =>
      have hbody := upload_body hu
      obtain ⟨obs, ret, resp', body'⟩ := r
      simp only at hbody
      subst hbody
      rcases ret with _ | _ | m
      · rfl
      · rfl
      · simp only [more]
        by_cases h0 : m = 0
        · rw [if_pos h0, if_pos h0]
        rw [if_neg h0, if_neg h0]
        by_cases hp : resp'.payload = []
        · rw [if_pos hp, if_pos hp]
        rw [if_neg hp, if_neg hp, download_more e hl]
        cases download sx px req resp' size2 body' bodyLen true bs2 <;> rfl
  · rfl

example : ∃ res, exDownload = .ok res ∧ res.ret = some (.ok 18) ∧ Content 1 res.resp := by
  obtain ⟨res, h1, h2, h3, -⟩ := exDownload_run
  exact ⟨res, h1, h2, h3⟩

end FreeCoAP.Client
