import Verif.Client.SpecFollows
import Verif.Client.PropsAny

/-! # A server that follows RFC 7959 is understood (C126) -/

namespace FreeCoAP.Client

open FreeCoAP.Msg
open FreeCoAP.Server (Built BlockSize)

/-- C126, in full, for PUT and POST: no transfer with a server that follows RFC 7959 ends with `EBADMSG`. The rounds of the download follow those of the upload. -/
def C126_statement : Prop :=
  ∀ (sx px : Bool) (req resp : Msg) (size1 size2 bodyLen : Nat) (body R : Bytes) (have' : Bool) (bs1 bs2 : List BEnv) (res : BRes),
    Built req → NoBlocks req → req.codeDetail = 2 ∨ req.codeDetail = 3 → bodyLen ≤ body.length → bodyLen < 2 ^ 24 →
    exchangeBlockwise sx px req resp size1 size2 body bodyLen have' bs1 bs2 = .ok res →
    Confirming sx px req size2 (RfcConfirms R size2) bs1 res.obs → (∀ k, Providing sx px req R bs2 (res.obs.drop k)) →
    res.ret ≠ some (.error .EBADMSG)

theorem values_block {k : Nat} {m : Msg} {val : Bytes} {blk : Block} (h1 : values k m = [val]) (h2 : val.length = 3) (h3 : blockSpec val = some blk) :
    blockOf k m = some blk := by
  unfold blockOf
  rw [h1]
  show blockSpec (val.take 3) = _
  rw [List.take_of_length_le (by omega), h3]

/-- A block of the resource at the offset asked for is one that the client takes. -/
theorem fits_of {R : Bytes} {size off : Nat} {r : Msg} (hB : BlockFrom R r) {blk : Block} (hk : blockOf BLOCK2 r = some blk) (hs : blk.size ≤ size)
    (ho : blk.num * blk.size = off) : Fits size off r (!blk.more) blk.size := by
  obtain ⟨blk', g1, g2, g3⟩ := hB
  rw [hk] at g1
  cases g1
  rw [Nat.succ_mul, ho] at g3
  rw [ho] at g2
  refine ⟨blk, hk, (Nat.min_eq_left hs).symm, ho, by simp, ?_, ?_⟩
  · rw [g2]; exact List.length_take_le _ _
  · intro h
    have hm : blk.more = true := by simpa using h
    have := g3.1 hm
    rw [g2, List.length_take, List.length_drop]
    omega

theorem downloads_follows {sx px : Bool} {req : Msg} {R : Bytes} {bodyLen : Nat} {size off : Nat} {buf buf' : Bytes} {bs : List BEnv}
    {os : List (List Obs)} {ret : Option (Except Err (Nat × Msg))} (h : Downloads sx px req bodyLen size off buf bs os ret buf') :
    Providing sx px req R bs os → 16 ≤ size → bodyLen < 2 ^ 24 → off ≤ bodyLen → ret ≠ some (.error .EBADMSG) := by
  induction h with
  | begin => intro _ _ _ _ h; cases h
  | unable h' => intro _ _ _ _ h; cases h' <;> cases h
  | waits hm h' => intro _ _ _ _ h; cases h
  | fails hm h' =>
    intro hP hs hl ho h
    cases h
    exact (hP 0 _ _ rfl rfl _ _ (hm.2 (by omega)).1).2 h'
  | @ends size off buf buf' b bs m r o ret hm hx hf =>
    intro hP hs hl ho h
    cases hf with
    | other _ => cases h
    | full _ _ _ => cases h
    | last _ _ _ => cases h
    | wrong hc hf =>
      obtain ⟨hw, num, hq⟩ := hm.2 (by omega)
      have hF := (hP 0 _ _ rfl rfl _ _ hw).1 r hx hc
      obtain ⟨blk, hk, -⟩ := hF.block
      obtain ⟨val, num', size', w1, w2, w3, w4⟩ := hw.block2
      have hq' := values_block w1 w2 w3
      have := hF.offset _ _ hq' hk
      rw [hq] at hq'
      cases hq'
      exact hf _ _ (fits_of hF.block hk (hF.size _ _ hq hk) (this.trans w4))
  | @next size off size' buf buf' b bs m r o os ret hm hx hc hf hl' ht ih =>
    intro hP hs hl ho
    refine ih (fun i b' o' h1 h2 => hP (i + 1) b' o' h1 h2) ?_ hl hl'
    obtain ⟨blk, hk, h2, -⟩ := hf
    have := (blockOf_bounds hk).2
    omega

theorem resumes_follows {sx px : Bool} {req r0 : Msg} {R : Bytes} {bodyLen : Nat} {size : Nat} {buf buf' : Bytes} {bs : List BEnv}
    {os : List (List Obs)} {ret : Option (Except Err (Nat × Msg))} (h : Resumes sx px req bodyLen size r0 buf bs os ret buf')
    (h0 : Content req.codeDetail r0 → BlockFrom R r0 ∧ ∃ blk, blockOf BLOCK2 r0 = some blk ∧ blk.num = 0 ∧ blk.size ≤ size)
    (hP : Providing sx px req R bs os) (hs : 16 ≤ size) (hl : bodyLen < 2 ^ 24) : ret ≠ some (.error .EBADMSG) := by
  cases h with
  | ends hf =>
    intro h
    cases hf with
    | other _ => cases h
    | full _ _ _ => cases h
    | last _ _ _ => cases h
    | wrong hc hf =>
      obtain ⟨hB, blk, h1, h2, h3⟩ := h0 hc
      exact hf _ _ (fits_of hB h1 h3 (by rw [h2, Nat.zero_mul]))
  | next hc hf hl' ht =>
    refine downloads_follows ht hP ?_ hl hl'
    obtain ⟨blk, hk, h2, -⟩ := hf
    have := (blockOf_bounds hk).2
    omega

theorem outcome_bad {res : BRes} (h : res.ret = some (.error .EBADMSG)) : res.outcome = some (.error .EBADMSG) := by
  unfold BRes.outcome
  rw [h]

theorem size_ge {size : Nat} (h : BlockSize size) : 16 ≤ size := by
  obtain ⟨k, -, rfl⟩ := h
  show 2 ^ 4 ≤ _
  exact Nat.pow_le_pow_right (by decide) (Nat.le_add_left _ _)

/-- C126 for GET: no download from a server that follows RFC 7959 ends with `EBADMSG`. -/
theorem C126_download {sx px : Bool} {req resp : Msg} {size1 size2 bodyLen : Nat} {body R : Bytes} {have' : Bool}
    {bs1 bs2 : List BEnv} {res : BRes} (hr : Built req) (hb : NoBlocks req) (hm : req.codeDetail = 1) (hl : bodyLen < 2 ^ 24)
    (h : exchangeBlockwise sx px req resp size1 size2 body bodyLen have' bs1 bs2 = .ok res)
    (hfirst : have' = true → Content 1 resp → BlockFrom R resp ∧ ∃ blk, blockOf BLOCK2 resp = some blk ∧ blk.num = 0 ∧ blk.size ≤ size2)
    (hP : Providing sx px req R bs2 res.obs) : res.ret ≠ some (.error .EBADMSG) := by
  intro hbad
  have ho := outcome_bad hbad
  rcases C73_get hr hb hm h with ⟨-, -, h2, -⟩ | ⟨hz, h2⟩
  · rw [ho] at h2; cases h2
  · split at h2
    · rename_i hh
      exact resumes_follows h2 (fun h => hfirst hh (by rw [hm] at h; exact h)) hP (size_ge hz) hl ho
    · exact downloads_follows h2 hP (size_ge hz) hl (Nat.zero_le _) ho

theorem uploads_follows {sx px : Bool} {req : Msg} {size2 : Nat} {body R : Bytes} {size off : Nat} {bs : List BEnv} {os : List (List Obs)}
    {ret : Option (Except Err (Nat × Msg))} (h : Uploads sx px req size2 body size off bs os ret) :
    Confirming sx px req size2 (fun last m r => Acks m r ∧ Early m r ∧ (last = true → Opens R size2 r)) bs os → 16 ≤ size → body.length < 2 ^ 24 →
    off ≤ body.length → ret ≠ some (.error .EBADMSG) ∧ ∀ n r, ret = some (.ok (n, r)) → n ≠ 0 → Opens R size2 r ∧ Confirmed r := by
  have conf : ∀ {size off : Nat} {m r : Msg}, IsBlock req size size2 off body m → off < 2 ^ 20 * size → Acks m r → Early m r →
      ∃ s, Confirms size off r s := by
    intro size off m r hm ho ha he
    obtain ⟨hp, num, more, hq⟩ := hm.2.2 ho
    obtain ⟨val, num', size', w1, w2, w3, w4, -⟩ := hp.block1
    have hq' := values_block w1 w2 w3
    rw [hq] at hq'
    cases hq'
    obtain ⟨blk, hk, hn⟩ := ha _ hq
    refine ⟨_, blk, hk, rfl, ?_⟩
    simp only at hn
    rcases he _ _ hq hk with h0 | h0
    · rw [← w4, ← hn, h0, Nat.zero_mul, Nat.zero_mul]
    · simp only at h0
      rw [Nat.min_eq_right h0, hn, w4]
  induction h with
  | begin => intro _ _ _ _; exact ⟨(by intro h; cases h), (by intro n r h; cases h)⟩
  | unable h' => intro _ _ _ _; exact ⟨(by intro h; cases h' <;> cases h), (by intro n r h; cases h)⟩
  | waits hm h' => intro _ _ _ _; exact ⟨(by intro h; cases h), (by intro n r h; cases h)⟩
  | fails hm h' =>
    intro hP hs hl ho
    refine ⟨?_, by intro n r h; cases h⟩
    intro h
    cases h
    exact (hP 0 _ _ rfl rfl _ _ _ (hm.2.2 (by omega)).1).2 h'
  | refused hm h' hr => intro _ _ _ _; exact ⟨(by intro h; cases h), (by intro n r h hn; cases h; exact absurd rfl hn)⟩
  | wrong hm h' hr hc =>
    intro hP hs hl ho
    exfalso
    obtain ⟨h1, h2, -⟩ := (hP 0 _ _ rfl rfl _ _ _ (hm.2.2 (by omega)).1).1 _ h' hr
    obtain ⟨s, hs'⟩ := conf hm (by omega) h1 h2
    exact hc s hs'
  | @last size off size' b bs m r o hm h' hr hc hl0 =>
    intro hP hs hl ho
    refine ⟨(by intro h; cases h), ?_⟩
    intro n r' h hn
    cases h
    obtain ⟨-, -, h3⟩ := (hP 0 _ _ rfl rfl _ _ _ (hm.2.2 (by omega)).1).1 _ h' hr
    refine ⟨h3 ?_, hr⟩
    have := hm.2.1
    rw [this, List.length_take] at hl0
    simp only [decide_eq_true_eq]
    omega
  | @next size off size' b bs m r o os ret hm h' hr hc hl0 ht ih =>
    intro hP hs hl ho
    refine ih (fun i b' o' h1 h2 => hP (i + 1) b' o' h1 h2) ?_ hl (by omega)
    obtain ⟨blk, hk, h2, -⟩ := hc
    have := (blockOf_bounds hk).2
    omega

/-- C126, partial, for PUT and POST: the server asks for smaller blocks, if at all, when it confirms the first one, and the response to the last one, if it has a
payload, has a Block2 option. -/
theorem C126_upload_partial {sx px : Bool} {req resp : Msg} {size1 size2 bodyLen : Nat} {body R : Bytes} {have' : Bool}
    {bs1 bs2 : List BEnv} {res : BRes} (hr : Built req) (hb : NoBlocks req) (hm : req.codeDetail = 2 ∨ req.codeDetail = 3)
    (hl : bodyLen ≤ body.length) (hl' : bodyLen < 2 ^ 24)
    (h : exchangeBlockwise sx px req resp size1 size2 body bodyLen have' bs1 bs2 = .ok res)
    (hC : Confirming sx px req size2 (fun last m r => Acks m r ∧ Early m r ∧ (last = true → Opens R size2 r)) bs1 res.obs)
    (hP : ∀ k, Providing sx px req R bs2 (res.obs.drop k)) : res.ret ≠ some (.error .EBADMSG) := by
  intro hbad
  have ho := outcome_bad hbad
  have hlen : (body.take bodyLen).length < 2 ^ 24 := by rw [List.length_take]; omega
  rcases C73_put hr hb hm hl h with ⟨-, -, h2, -⟩ | ⟨hz1, hz, h2⟩
  · rw [ho] at h2; cases h2
  · generalize hob : res.obs = os at h2 hC hP
    generalize hbo : res.body = buf' at h2
    generalize hou : res.outcome = ret at h2 ho
    cases h2 with
    | ends hu h0 => exact (uploads_follows hu hC (size_ge hz1) hlen (Nat.zero_le _)).1 ho
    | done hu h0 hp => cases ho
    | @fetch os os2 n r ret buf' hu h0 hp hd =>
      have hC' : Confirming sx px req size2 (fun last m r => Acks m r ∧ Early m r ∧ (last = true → Opens R size2 r)) bs1 os := by
        intro i b o h1 h2
        exact hC i b o h1 (by rw [List.getElem?_append_left (List.getElem?_eq_some_iff.1 h2).1]; exact h2)
      obtain ⟨-, k2⟩ := uploads_follows hu hC' (size_ge hz1) hlen (Nat.zero_le _)
      obtain ⟨k3, -⟩ := k2 _ _ rfl h0
      refine resumes_follows hd (fun _ => k3.resolve_left hp) ?_ (size_ge hz) hl' ho
      have := hP os.length
      rwa [List.drop_left] at this

end FreeCoAP.Client
