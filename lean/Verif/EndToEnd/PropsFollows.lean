import Verif.Client.PropsFollows
import Verif.EndToEnd.LemmasRound

/-! # Servers that follow RFC 7959: examples and counterexamples (C126) -/

namespace FreeCoAP.EndToEnd

open FreeCoAP.Msg
open FreeCoAP.Server (Built Carries)
open FreeCoAP.Client


theorem part_ordinary {sx : Bool} {req m : Msg} {size2 off : Nat} {last : Bool} (h : Part req size2 off last m) (ho : Ordinary sx req) : Ordinary sx m := by
  obtain ⟨val, num, size, h1, h2, -⟩ := h.block1
  refine others_ordinary h.options ho ?_ ?_
  · rw [h1]
    intro v hv
    rw [List.mem_singleton.1 hv]
    omega
  · have := h.block2
    split at this
    · obtain ⟨v, g1, g2, -⟩ := this
      rw [g1]
      intro w hw
      rw [List.mem_singleton.1 hw]
      omega
    · rw [this]
      intro w hw
      cases hw

/-- An exchange in which the same is observed as in another one, with the same environment, is of the same message and has the same result. -/
theorem same_round {sx px : Bool} {x : XEnv} {m m0 : Msg} {o : List Obs} {d : Bytes} {r r0 : Option (Except Err Msg)} (hb : Built m)
    (ho : Ordinary sx m) (hb0 : Built m0) (h : exchange sx px x m = .ok (o, r)) (h0 : exchange sx px x m0 = .ok (o, r0))
    (hd : (sends o).head? = some d) (hc : Carries sx d (stamped x m0)) : stamped x m = stamped x m0 ∧ r = r0 := by
  have hne : o ≠ [] := by rintro rfl; cases hd
  rcases exchange_cases hb.type h with ⟨h1, -⟩ | ⟨t1, c1, o3, s1⟩
  · exact absurd h1 hne
  rcases exchange_cases hb0.type h0 with ⟨h1, -⟩ | ⟨t2, c2, o4, s2⟩
  · exact absurd h1 hne
  have e1 : d = enc (stamped x m) := by
    rw [s1.obs] at hd
    exact (Option.some.inj hd).symm
  have e2 := carries_eq (built_stamped hb x) ho (Client.formats_iff.2 ⟨s1.send, e1⟩) hc
  have ht : (stamped x m0).type = (stamped x m).type := by rw [e2]
  have ht : m0.type = m.type := ht
  refine ⟨e2.symm, ?_⟩
  rw [exchange_eq t1 c1 s1.send s1.ok, ← e2, ← ht, ← exchange_eq t2 c2 s2.send s2.ok, h0] at h
  exact (Prod.mk.inj (Out.ok.inj h)).2.symm

theorem exPut_ordinary : Ordinary true exPut := by
  intro o ho
  rw [show exPut.ops = [⟨11, [0x61]⟩] from rfl, List.mem_singleton] at ho
  subst ho
  decide

/-- 2.04 to the only block of an upload, with the two bytes of the answer and no Block2 option. -/
def exWhole : Bytes := [0x64, 0x44, 1, 2, 1, 2, 3, 4, 0xd1, 14, 0x02, 0xff, 8, 9]
def exWholeMsg : Msg := ⟨1, ACK, 2, 4, 0x0102, [1, 2, 3, 4], [⟨27, [0x02]⟩], [8, 9]⟩
/-- The message with the only block of the body of 40 bytes. -/
def exOnly : Msg := ⟨1, CON, 0, 3, 0, [], [⟨11, [0x61]⟩, ⟨23, [0, 0, 1]⟩, ⟨27, [0, 0, 2]⟩], exBody⟩

def exWholeRun : Out BRes := exchangeBlockwise true false exPut create 64 32 exBody 40 false [exRound [rcv exWhole]] []

/-- What is observed in a round with this message. -/
def seen (b : BEnv) (m : Msg) : List Obs :=
  match exchange true false b.x m with
  | .ok (o, _) => o
  | _ => []

theorem exchange_seen {b : BEnv} {m r : Msg} (h : test (exchange true false b.x m) (fun p => decide (p.2 = some (.ok r))) = true) :
    exchange true false b.x m = .ok (seen b m, some (.ok r)) := by
  obtain ⟨⟨o, p⟩, h1, h2⟩ := test_ok h
  have h2 : p = _ := of_decide_eq_true h2
  subst h2
  unfold seen
  rw [h1]

/-- A round of an upload in which the message is known. -/
theorem confirming_round {req m0 r0 : Msg} {size2 : Nat} {P : Bool → Msg → Msg → Prop} {b : BEnv} {d : Bytes} (hreq : Ordinary true req) (hb0 : Built m0)
    (h0 : exchange true false b.x m0 = .ok (seen b m0, some (.ok r0))) (hd : (sends (seen b m0)).head? = some d) (hc : Carries true d (stamped b.x m0))
    (hP : ∀ last m, m.ops = m0.ops → P last m r0) : ∀ off last m, Part req size2 off last m →
      (∀ r, exchange true false b.x m = .ok (seen b m0, some (.ok r)) → Confirmed r → P last m r) ∧
      exchange true false b.x m ≠ .ok (seen b m0, some (.error .EBADMSG)) := by
  intro off last m hp
  constructor
  · intro r h _
    obtain ⟨e, e2⟩ := same_round hp.built (part_ordinary hp hreq) hb0 h h0 hd hc
    cases e2
    have e : (stamped b.x m).ops = (stamped b.x m0).ops := by rw [e]
    exact hP last m e
  · intro h
    obtain ⟨-, e2⟩ := same_round hp.built (part_ordinary hp hreq) hb0 h h0 hd hc
    cases e2

theorem confirming_nil {req : Msg} {size2 : Nat} {P : Bool → Msg → Msg → Prop} : Confirming true false req size2 P [] [] := by
  intro i b o h
  simp at h

theorem confirming_cons {req : Msg} {size2 : Nat} {P : Bool → Msg → Msg → Prop} {b : BEnv} {bs : List BEnv} {o : List Obs} {os : List (List Obs)}
    (h : ∀ off last m, Part req size2 off last m → (∀ r, exchange true false b.x m = .ok (o, some (.ok r)) → Confirmed r → P last m r) ∧
      exchange true false b.x m ≠ .ok (o, some (.error .EBADMSG))) (hs : Confirming true false req size2 P bs os) :
    Confirming true false req size2 P (b :: bs) (o :: os) := by
  intro i b' o' h1 h2
  cases i with
  | zero => cases h1; cases h2; exact h
  | succ i => exact hs i b' o' h1 h2

theorem blockOf_ops {k : Nat} {m m0 : Msg} (h : m.ops = m0.ops) : blockOf k m = blockOf k m0 := by
  unfold blockOf values
  rw [h]

theorem acks_of {m m0 r : Msg} {q blk : Block} (h : m.ops = m0.ops) (hq : blockOf BLOCK1 m0 = some q) (hk : blockOf BLOCK1 r = some blk) (hn : blk.num = q.num) :
    Acks m r := by
  intro q' hq'
  rw [blockOf_ops h, hq] at hq'
  cases hq'
  exact ⟨blk, hk, hn⟩

theorem exOnly_built : Built exOnly := ⟨rfl, by decide, by decide, by decide, by decide, by decide, by simp [exOnly, Sorted]⟩

/-- C126 is violated: the answer to a PUT that is in the response as a whole, without a Block2 option, as RFC 7959 allows, ends the transfer with `EBADMSG`. -/
theorem C126_violated : ¬ C126_statement := by
  intro hst
  have : test exWholeRun (fun r => decide (r.ret = some (.error .EBADMSG) ∧ r.obs = [seen (exRound [rcv exWhole]) exOnly])) = true := by decide +kernel
  obtain ⟨res, h, h'⟩ := test_ok this
  have h' := of_decide_eq_true h'
  refine hst true false exPut create 64 32 40 exBody [8, 9] false _ _ res exPut_built exPut_plain (Or.inr rfl) (by decide) (by decide) h ?_ ?_ h'.1
  · rw [h'.2]
    refine confirming_cons (confirming_round (r0 := exWholeMsg) exPut_ordinary exOnly_built (exchange_seen (by decide +kernel))
      (d := enc (stamped (exRound [rcv exWhole]).x exOnly)) (by decide +kernel) (by unfold Carries; decide +kernel) ?_) confirming_nil
    intro last m hm
    exact ⟨acks_of hm (q := ⟨0, false, 64⟩) (blk := ⟨0, false, 64⟩) (by decide +kernel) (by decide +kernel) rfl, fun _ => Or.inr ⟨rfl, rfl⟩⟩
  · intro k i b o h1
    simp at h1

/-- 2.31 for block 0 of 32 bytes of an upload. -/
def exLate0 : Bytes := [0x64, 0x5f, 1, 2, 1, 2, 3, 4, 0xd1, 14, 0x09]
/-- 2.04 for block 1 of 32 bytes, the last one, with the wish for blocks of 16 bytes. -/
def exLate1 : Bytes := [0x64, 0x44, 1, 2, 1, 2, 3, 4, 0xd1, 14, 0x10]
/-- 2.04 for block 1 of 32 bytes, the last one. -/
def exLate2 : Bytes := [0x64, 0x44, 1, 2, 1, 2, 3, 4, 0xd1, 14, 0x11]
def exLateMsg0 : Msg := ⟨1, ACK, 2, 31, 0x0102, [1, 2, 3, 4], [⟨27, [0x09]⟩], []⟩
def exLateMsg1 : Msg := ⟨1, ACK, 2, 4, 0x0102, [1, 2, 3, 4], [⟨27, [0x10]⟩], []⟩
def exLateMsg2 : Msg := ⟨1, ACK, 2, 4, 0x0102, [1, 2, 3, 4], [⟨27, [0x11]⟩], []⟩
/-- The two messages of the upload of 40 bytes in blocks of 32 bytes. -/
def exHalf0 : Msg := ⟨1, CON, 0, 3, 0, [], [⟨11, [0x61]⟩, ⟨27, [0, 0, 9]⟩], exBody.take 32⟩
def exHalf1 : Msg := ⟨1, CON, 0, 3, 0, [], [⟨11, [0x61]⟩, ⟨23, [0, 0, 1]⟩, ⟨27, [0, 0, 0x11]⟩], exBody.drop 32⟩

theorem exHalf0_built : Built exHalf0 := ⟨rfl, by decide, by decide, by decide, by decide, by decide, by simp [exHalf0, Sorted]⟩
theorem exHalf1_built : Built exHalf1 := ⟨rfl, by decide, by decide, by decide, by decide, by decide, by simp [exHalf1, Sorted]⟩

def exLateRun (d : Bytes) : Out BRes := exchangeBlockwise true false exPut create 32 32 exBody 40 false [exRound [rcv exLate0], exRound [rcv d]] []

/-- C126 is violated in another way: a server that confirms a block other than the first one and wishes smaller blocks is not understood, as the client takes the
number in the confirmation for one of blocks of the new size. -/
theorem C126_violated_late : ∃ res, exLateRun exLate1 = .ok res ∧ res.ret = some (.error .EBADMSG) ∧
    Confirming true false exPut 32 (RfcConfirms [] 32) [exRound [rcv exLate0], exRound [rcv exLate1]] res.obs := by
  have : test (exLateRun exLate1) (fun r => decide (r.ret = some (.error .EBADMSG) ∧
      r.obs = [seen (exRound [rcv exLate0]) exHalf0, seen (exRound [rcv exLate1]) exHalf1])) = true := by decide +kernel
  obtain ⟨res, h, h'⟩ := test_ok this
  have h' := of_decide_eq_true h'
  refine ⟨res, h, h'.1, ?_⟩
  rw [h'.2]
  refine confirming_cons (confirming_round (r0 := exLateMsg0) exPut_ordinary exHalf0_built (exchange_seen (by decide +kernel))
      (d := enc (stamped (exRound [rcv exLate0]).x exHalf0)) (by decide +kernel) (by unfold Carries; decide +kernel) ?_)
    (confirming_cons (confirming_round (r0 := exLateMsg1) exPut_ordinary exHalf1_built (exchange_seen (by decide +kernel))
      (d := enc (stamped (exRound [rcv exLate1]).x exHalf1)) (by decide +kernel) (by unfold Carries; decide +kernel) ?_) confirming_nil)
  · intro last m hm
    exact ⟨acks_of hm (q := ⟨0, true, 32⟩) (blk := ⟨0, true, 32⟩) (by decide +kernel) (by decide +kernel) rfl, fun _ => Or.inl (Or.inl rfl)⟩
  · intro last m hm
    exact ⟨acks_of hm (q := ⟨1, false, 32⟩) (blk := ⟨1, false, 16⟩) (by decide +kernel) (by decide +kernel) rfl, fun _ => Or.inl (Or.inl rfl)⟩

/-- With blocks of the same size it is understood. -/
example : ∃ res, exLateRun exLate2 = .ok res ∧ res.obs.length = 2 ∧ res.ret ≠ some (.error .EBADMSG) := by
  have : test (exLateRun exLate2) (fun r => decide (r.obs = [seen (exRound [rcv exLate0]) exHalf0, seen (exRound [rcv exLate2]) exHalf1])) = true := by
    decide +kernel
  obtain ⟨res, h, h'⟩ := test_ok this
  have h' := of_decide_eq_true h'
  refine ⟨res, h, by rw [h']; rfl, C126_upload_partial (R := []) exPut_built exPut_plain (Or.inr rfl) (by decide) (by decide) h ?_ ?_⟩
  · rw [h']
    refine confirming_cons (confirming_round (r0 := exLateMsg0) exPut_ordinary exHalf0_built (exchange_seen (by decide +kernel))
        (d := enc (stamped (exRound [rcv exLate0]).x exHalf0)) (by decide +kernel) (by unfold Carries; decide +kernel) ?_)
      (confirming_cons (confirming_round (r0 := exLateMsg2) exPut_ordinary exHalf1_built (exchange_seen (by decide +kernel))
        (d := enc (stamped (exRound [rcv exLate2]).x exHalf1)) (by decide +kernel) (by unfold Carries; decide +kernel) ?_) confirming_nil)
    · intro last m hm
      refine ⟨acks_of hm (q := ⟨0, true, 32⟩) (blk := ⟨0, true, 32⟩) (by decide +kernel) (by decide +kernel) rfl, ?_, fun _ => Or.inl rfl⟩
      intro q blk _ hk
      have : blockOf BLOCK1 exLateMsg0 = some ⟨0, true, 32⟩ := by decide +kernel
      rw [this] at hk
      cases hk
      exact Or.inl rfl
    · intro last m hm
      refine ⟨acks_of hm (q := ⟨1, false, 32⟩) (blk := ⟨1, false, 32⟩) (by decide +kernel) (by decide +kernel) rfl, ?_, fun _ => Or.inl rfl⟩
      intro q blk hq hk
      have h1 : blockOf BLOCK1 exLateMsg2 = some ⟨1, false, 32⟩ := by decide +kernel
      have h2 : blockOf BLOCK1 exHalf1 = some ⟨1, false, 32⟩ := by decide +kernel
      rw [h1] at hk
      rw [blockOf_ops hm, h2] at hq
      cases hk
      cases hq
      exact Or.inr (Nat.le_refl _)
  · intro k i b o h1
    simp at h1

/-- A round of a download in which the message is known. -/
theorem providing_round {req m0 r0 : Msg} {R : Bytes} {b : BEnv} {d : Bytes} (hreq : Ordinary true req) (hb0 : Built m0)
    (h0 : exchange true false b.x m0 = .ok (seen b m0, some (.ok r0))) (hd : (sends (seen b m0)).head? = some d) (hc : Carries true d (stamped b.x m0))
    (hP : ∀ m, m.ops = m0.ops → Follows R m r0) : ∀ off m, Wants req off m →
      (∀ r, exchange true false b.x m = .ok (seen b m0, some (.ok r)) → Content req.codeDetail r → Follows R m r) ∧
      exchange true false b.x m ≠ .ok (seen b m0, some (.error .EBADMSG)) := by
  intro off m hp
  constructor
  · intro r h _
    obtain ⟨e, e2⟩ := same_round hp.built (wants_ordinary hp hreq) hb0 h h0 hd hc
    cases e2
    have e : (stamped b.x m).ops = (stamped b.x m0).ops := by rw [e]
    exact hP m e
  · intro h
    obtain ⟨-, e2⟩ := same_round hp.built (wants_ordinary hp hreq) hb0 h h0 hd hc
    cases e2

theorem providing_nil {req : Msg} {R : Bytes} : Providing true false req R [] [] := by
  intro i b o h
  simp at h

theorem providing_cons {req : Msg} {R : Bytes} {b : BEnv} {bs : List BEnv} {o : List Obs} {os : List (List Obs)}
    (h : ∀ off m, Wants req off m → (∀ r, exchange true false b.x m = .ok (o, some (.ok r)) → Content req.codeDetail r → Follows R m r) ∧
      exchange true false b.x m ≠ .ok (o, some (.error .EBADMSG))) (hs : Providing true false req R bs os) :
    Providing true false req R (b :: bs) (o :: os) := by
  intro i b' o' h1 h2
  cases i with
  | zero => cases h1; cases h2; exact h
  | succ i => exact hs i b' o' h1 h2

theorem follows_of {R : Bytes} {m m0 r : Msg} {q blk : Block} (h : m.ops = m0.ops) (hB : BlockFrom R r) (hq : blockOf BLOCK2 m0 = some q)
    (hk : blockOf BLOCK2 r = some blk) (h1 : blk.size ≤ q.size) (h2 : blk.num * blk.size = q.num * q.size) : Follows R m r := by
  refine ⟨hB, ?_, ?_⟩ <;>
  · intro q' blk' hq' hk'
    rw [blockOf_ops h, hq] at hq'
    rw [hk] at hk'
    cases hq'
    cases hk'
    assumption

/-- The requests for the two blocks of the resource of 18 bytes, of which the server sends 16 at once. -/
def exAsk0 : Msg := ⟨1, CON, 0, 1, 0, [], [⟨11, [0x61]⟩, ⟨23, [0, 0, 1]⟩], []⟩
def exAsk1 : Msg := ⟨1, CON, 0, 1, 0, [], [⟨11, [0x61]⟩, ⟨23, [0, 0, 0x10]⟩], []⟩

theorem exAsk0_built : Built exAsk0 := ⟨rfl, by decide, by decide, by decide, by decide, by decide, by simp [exAsk0, Sorted]⟩
theorem exAsk1_built : Built exAsk1 := ⟨rfl, by decide, by decide, by decide, by decide, by decide, by simp [exAsk1, Sorted]⟩

/-- A download is understood. -/
example : ∃ res, exDownload = .ok res ∧ res.obs.length = 2 ∧ res.ret ≠ some (.error .EBADMSG) := by
  have : test exDownload (fun r => decide (r.obs = [seen (exRound [rcv exPiece0]) exAsk0, seen (exRound [tick, rcv exPiece1]) exAsk1])) = true := by
    decide +kernel
  obtain ⟨res, h, h'⟩ := test_ok this
  have h' := of_decide_eq_true h'
  have hreq : Ordinary true Client.exGet := by
    intro o ho
    rw [show Client.exGet.ops = [⟨11, [0x61]⟩] from rfl, List.mem_singleton] at ho
    subst ho
    decide
  refine ⟨res, h, by rw [h']; rfl, C126_download (R := List.replicate 16 7 ++ [8, 9]) Client.exGet_built exGet_plain rfl (by decide) h (fun h => absurd h (by decide)) ?_⟩
  rw [h']
  refine providing_cons (providing_round (r0 := exPieceMsg0) hreq exAsk0_built (exchange_seen (by decide +kernel))
      (d := enc (stamped (exRound [rcv exPiece0]).x exAsk0)) (by decide +kernel) (by unfold Carries; decide +kernel) ?_)
    (providing_cons (providing_round (r0 := exPieceMsg1) hreq exAsk1_built (exchange_seen (by decide +kernel))
      (d := enc (stamped (exRound [tick, rcv exPiece1]).x exAsk1)) (by decide +kernel) (by unfold Carries; decide +kernel) ?_) providing_nil)
  · intro m hm
    exact follows_of hm ⟨⟨0, true, 16⟩, by decide +kernel, by decide +kernel, by decide +kernel⟩ (q := ⟨0, false, 32⟩) (blk := ⟨0, true, 16⟩)
      (by decide +kernel) (by decide +kernel) (by decide) rfl
  · intro m hm
    exact follows_of hm ⟨⟨1, false, 16⟩, by decide +kernel, by decide +kernel, by decide +kernel⟩ (q := ⟨1, false, 16⟩) (blk := ⟨1, false, 16⟩)
      (by decide +kernel) (by decide +kernel) (by decide) rfl

end FreeCoAP.EndToEnd
