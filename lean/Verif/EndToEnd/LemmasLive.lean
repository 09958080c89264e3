import Verif.EndToEnd.PropsPlain
import Verif.EndToEnd.SpecLive
import Verif.Client.Props3

/-! # Lemmas about an exchange over a network that delivers -/

namespace FreeCoAP.EndToEnd

open FreeCoAP.Msg
open FreeCoAP.Server (Env Event Addr arrived Asks Carries Built Srv Reach AppOK Transfer AllKnown NoFault NewRequest Formats Separate sends emptyAck)
open FreeCoAP.Client (stamped exchange Gives AckedBy)

/-- A message that was formatted is read back. -/
theorem carries_of {sx : Bool} {x : Msg} {d : Bytes} (hb : Built x) (hc : x.codeClass = 0 ∨ x.codeClass = 2 ∨ x.codeClass = 4 ∨ x.codeClass = 5) (ho : Ordinary sx x) (hf : Formats x d)
    (hl : d.length < 1152) : Carries sx d x := by
  obtain ⟨buf, n, h, rfl⟩ := hf
  obtain ⟨hsh, hd⟩ := Server.format_take h
  rw [hd] at hl ⊢
  obtain ⟨o1, o2⟩ := Ordinary.opts x.ops 0 (fun _ _ => Nat.zero_le _) hb.sorted ho
  have hwf : WF x := ⟨⟨hb.ver, hb.type, hc, hb.detail, hb.msgId, hb.token⟩, hsh, o1⟩
  have hw : ∀ o ∈ x.ops, o.num < 2 ^ 32 := fun o h => by have := (ho o h).1; omega
  have henc := enc_encodes hwf hw
  have hlen : (enc x).length ≤ Server.BUF_LEN := Nat.le_of_lt hl
  unfold Carries Server.recvBuf
  rw [Nat.min_eq_left hlen, List.take_of_length_le hlen]
  refine parse_complete henc o2 hw _ (Or.inl ?_)
  intro e
  have := congrArg List.length e
  rw [List.length_replicate, List.length_nil] at this
  have : Server.BUF_LEN = 1152 := rfl
  omega

/-- The same with a datagram that arrives at the client. -/
theorem gives_of {sx : Bool} {x : Msg} {d : Bytes} (h : Carries sx d x) : Gives sx (gets d) x := ⟨rfl, rfl, d, rfl, h⟩

/-- An Empty acknowledgement is read back. -/
theorem carries_ack (sx : Bool) {id : Nat} (h : id < 65536) : Carries sx (emptyAck id) (Server.emptyMsg ACK id) := by
  have hb : Built (Server.emptyMsg ACK id) := ⟨rfl, Nat.lt_of_sub_pos (by exact Nat.zero_lt_two), Nat.zero_lt_succ 7, Nat.zero_lt_succ 31, h, Nat.zero_le _, List.Pairwise.nil⟩
  have hl : (enc (Server.emptyMsg ACK id)).length = 4 := by rw [Server.enc_ack h]; rfl
  rw [← Server.enc_ack h]
  have hs : Server.Sendable (Server.emptyMsg ACK id) :=
    Server.sendable_plain ⟨fun _ => ⟨rfl, rfl, rfl, by show ACK ≠ NON; decide⟩, fun _ => ⟨rfl, rfl⟩⟩ rfl (Nat.zero_le _) (Nat.zero_le _)
  exact carries_of hb (Or.inl rfl) (fun o ho => by cases ho) (Client.formats_iff.2 ⟨hs, rfl⟩) (by omega)

/-- The Empty acknowledgement of the request leaves the client waiting. -/
theorem exchange_acked {sx px : Bool} {x : Client.XEnv} {req : Msg} {o : List Client.Obs} {is : List Client.Input}
    (hr : Built req) (hc : req.type = CON) (h : exchange sx px { x with inputs := is } req = .ok (o, none))
    (hn : ∀ i ∈ is, ¬ AckedBy sx (stamped x req).msgId i) :
    ∃ o', exchange sx px { x with inputs := is ++ [gets (emptyAck (stamped x req).msgId)] } req = .ok (o', none) := by
  rcases Client.exchange_cases hr.type h with ⟨-, e, he⟩ | ⟨ht, hcl, o3, hs⟩
  · cases he
  rw [Client.exchange_eq (x := { x with inputs := is ++ [gets (emptyAck (stamped x req).msgId)] }) ht hcl hs.send hs.ok]
  have e1 : stamped { x with inputs := is ++ [gets (emptyAck (stamped x req).msgId)] } req = stamped x req := rfl
  have e2 : Client.startWait { x with inputs := is ++ [gets (emptyAck (stamped x req).msgId)] } req.type = Client.startWait x req.type := rfl
  have hw := hs.wait
  rw [show stamped { x with inputs := is } req = stamped x req from rfl,
    show Client.startWait { x with inputs := is } req.type = Client.startWait x req.type from rfl] at hw
  rw [e1, e2]
  simp only
  have hst : (Client.startWait x req.type).2.phase = .ack := by simp [Client.startWait, hc]
  obtain ⟨w', hp, hw'⟩ := Client.wait_phase hst hn hw
  have hlt := (stamped_built (x := x) hr).msgId
  rw [hw' [gets (emptyAck (stamped x req).msgId)], Client.wait, Client.step_gives (gives_of (carries_ack sx hlt)), Client.handle,
    if_pos (show (Server.emptyMsg ACK (stamped x req).msgId).msgId = (stamped x req).msgId from rfl), hp]
  simp only
  rw [if_pos ⟨rfl, by rfl⟩]
  exact ⟨_, rfl⟩

/-- The response to a request the server has not seen, as it leaves the server and as it is read by the client. -/
theorem answered_fresh {sx px : Bool} {a : Addr} {evs0 : List (Env × Event)} {s0 s1 : Srv} {tr0 : List (List Server.Obs)} {env : Env} {m resp : Msg} {d : Bytes}
    {o : List Server.Obs} {e : Option Err} (hr : Reach sx evs0 s0 tr0) (happ : AppOK env) (hnf : NoFault env) (htr : ¬ Transfer s0 a)
    (hc : Carries sx d m) (hq : Asks m) (hl : m.token.length = 4) (hk : AllKnown m) (ha : Answerable sx px resp)
    (hh : ∀ t : Server.Trans, t.addr = a → env.handle t m = .reply resp none)
    (h0 : m.msgId ≠ 0) (hp : ∀ t, Server.ofAddr s0 a = some t → Server.matchReq t m = false)
    (h : Server.step sx s0 env (.datagram a d) = .ok (s1, o, e)) :
    e = none ∧ Server.calls o = [(a, m)] ∧
    sends o = (if m.type = CON ∧ Separate s0.sepList m then [(a, emptyAck m.msgId)] else []) ++
      [(a, enc (Server.final s0.sepList env s0.msgId m resp))] ∧
    Carries sx (enc (Server.final s0.sepList env s0.msgId m resp)) (Server.final s0.sepList env s0.msgId m resp) := by
  obtain ⟨t, L, r, o2, h1, h2, h3, h4, -, h5⟩ := Server.new_request hr.tidy (Server.step_rel h) hc hnf.arrives hnf.create (fun _ => hnf.ack) hq
    (fun _ => h0) hp
  have hreg : t.blk.type = .regular := by
    rcases h1 with ⟨h1, -⟩ | ⟨-, rfl, -⟩
    · exact Classical.byContradiction fun hne => htr ⟨t, h1, hne⟩
    · rfl
  have hob := Server.generate_call hk (by simpa [Server.cleared] using hreg) h3
  have hgen : r.resp = resp ∧ r.err = none := by
    unfold Server.generate at h3
    rw [if_neg (by rw [Server.checkCritical_ne]; exact fun h => h hk), if_neg (by simp [Server.cleared, hreg]),
      hh (Server.cleared env t) (by simpa [Server.cleared] using h2)] at h3
    cases h3
    exact ⟨rfl, rfl⟩
  have hbr : Built resp := by
    have := happ.handle t m
    rw [hh t h2] at this
    exact this
  have hid : Server.nextMsgId s0.msgId env.idRand < 65536 := by
    unfold Server.nextMsgId
    split <;> omega
  have hbm : m.msgId < 65536 := hc.fields.1.msgId
  have hbf : Built (Server.final s0.sepList env s0.msgId m resp) := by
    refine ⟨hbr.ver, ?_, hbr.cls, hbr.detail, ?_, ?_, hbr.sorted⟩
    · show (if m.type = CON then (if Server.sepB s0.sepList m = false then ACK else CON) else NON) < 4
      repeat' split
      all_goals decide
    · show (if m.type = CON ∧ Server.sepB s0.sepList m = false then m.msgId else Server.nextMsgId s0.msgId env.idRand) < 65536
      split <;> omega
    · show m.token.length ≤ 8
      omega
  have hrst : (Server.final s0.sepList env s0.msgId m resp).type ≠ RST := by
    show (if m.type = CON then (if Server.sepB s0.sepList m = false then ACK else CON) else NON) ≠ RST
    repeat' split
    all_goals decide
  obtain ⟨b, hb, hbl⟩ := ha.short (Server.final s0.sepList env s0.msgId m resp) ⟨rfl, rfl, rfl, rfl⟩ hbf hrst hl
  have hcls : resp.codeClass = 0 ∨ resp.codeClass = 2 ∨ resp.codeClass = 4 ∨ resp.codeClass = 5 := Or.inr ha.response
  have hcar := carries_of hbf hcls (fun x hx => ha.ordinary x hx) hb hbl
  obtain ⟨hsend, rfl⟩ := Client.formats_iff.1 hb
  rw [hgen.1] at h5
  rcases h5 with ⟨x, g, -⟩ | ⟨-, g, -⟩ | ⟨-, g1, -, g2, -⟩
  · rw [hgen.2] at g; cases g
  · exact absurd hsend (g hnf.send hnf.copyReq hnf.copyResp hnf.timer hbr.cls hbr.detail)
  · refine ⟨g1, ?_, g2, hcar⟩
    rw [h4, hob]
    simp [Server.cleared, Server.calls, h2]

theorem answered {sx px : Bool} {a : Addr} {evs0 : List (Env × Event)} {s0 s1 : Srv} {tr0 : List (List Server.Obs)} {env : Env} {m resp : Msg} {d : Bytes}
    {o : List Server.Obs} {e : Option Err} (hr : Reach sx evs0 s0 tr0) (happ : AppOK env) (hnf : NoFault env) (htr : ¬ Transfer s0 a)
    (hc : Carries sx d m) (hq : Asks m) (hl : m.token.length = 4) (hk : AllKnown m) (ha : Answerable sx px resp)
    (hh : ∀ t : Server.Trans, t.addr = a → env.handle t m = .reply resp none)
    (h0 : m.msgId ≠ 0) (hp : ∀ m', Server.lastRequest sx a evs0 = some m' → m'.msgId ≠ m.msgId)
    (h : Server.step sx s0 env (.datagram a d) = .ok (s1, o, e)) :
    e = none ∧ Server.calls o = [(a, m)] ∧
    sends o = (if m.type = CON ∧ Separate s0.sepList m then [(a, emptyAck m.msgId)] else []) ++
      [(a, enc (Server.final s0.sepList env s0.msgId m resp))] ∧
    Carries sx (enc (Server.final s0.sepList env s0.msgId m resp)) (Server.final s0.sepList env s0.msgId m resp) :=
  answered_fresh hr happ hnf htr hc hq hl hk ha hh h0 (Server.fresh_of_last hr.lastOK h0 hp) h

/-- A client that waits for the response to its request, and has not seen an acknowledgement of it, returns the response that the server sends to it. -/
theorem delivered {sx px : Bool} {a : Addr} {sepList : List Bytes} {id : Nat} {env : Env} {x : Client.XEnv} {is js : List Client.Input} {req z : Msg}
    {obs : List Client.Obs} {o : List Server.Obs} (hb : Built req) (hwait : exchange sx px { x with inputs := is } req = .ok (obs, none))
    (hun : ∀ i ∈ is, ¬ AckedBy sx (stamped x req).msgId i)
    (hs : sends o = (if (stamped x req).type = CON ∧ Separate sepList (stamped x req) then [(a, emptyAck (stamped x req).msgId)] else []) ++
      [(a, enc (Server.final sepList env id (stamped x req) z))])
    (hc : Carries sx (enc (Server.final sepList env id (stamped x req) z)) (Server.final sepList env id (stamped x req) z))
    (hresp : Client.IsResponse z) (hacc : Client.Acceptable px z)
    (hid : ¬ (req.type = CON ∧ ¬ Separate sepList req) → Server.nextMsgId id env.idRand ≠ (stamped x req).msgId) :
    ∃ obs', exchange sx px { x with inputs := is ++ ((toward a o).map gets ++ js) } req =
      .ok (obs', some (.ok (Server.final sepList env id (stamped x req) z))) := by
  have hacc' : Client.Acceptable px (Server.final sepList env id (stamped x req) z) := fun o ho => hacc o ho
  have hresp' : Client.IsResponse (Server.final sepList env id (stamped x req) z) := hresp
  by_cases hcs : req.type = CON ∧ Separate sepList req
  · have hsb : Server.sepB sepList (stamped x req) = true := decide_eq_true hcs
    have e1 : toward a o = [emptyAck (stamped x req).msgId, enc (Server.final sepList env id (stamped x req) z)] := by
      unfold toward
      rw [hs, if_pos (show (stamped x req).type = CON ∧ Separate sepList (stamped x req) from hcs)]
      simp
    have hty : (Server.final sepList env id (stamped x req) z).type = CON := by
      show (if req.type = CON then (if Server.sepB sepList (stamped x req) = false then ACK else CON) else NON) = CON
      rw [if_pos hcs.1, hsb]
      rfl
    have hmid : (Server.final sepList env id (stamped x req) z).msgId = Server.nextMsgId id env.idRand := by
      show (if req.type = CON ∧ Server.sepB sepList (stamped x req) = false then _ else _) = _
      rw [hsb, if_neg (by simp)]
    obtain ⟨o', ho'⟩ := exchange_acked hb hcs.1 hwait hun
    have key := Client.C68_accepted_partial (js := js) hb ho' (gives_of hc) hacc' ⟨hresp', rfl, Or.inl (Or.inl hty)⟩
      (fun _ => by rw [hmid]; exact hid (fun hn => hn.2 hcs.2))
    rw [List.append_assoc] at key
    rw [e1]
    exact ⟨_, key⟩
  · have hsb : Server.sepB sepList (stamped x req) = false := decide_eq_false hcs
    have e1 : toward a o = [enc (Server.final sepList env id (stamped x req) z)] := by
      unfold toward
      rw [hs, if_neg (show ¬ ((stamped x req).type = CON ∧ Separate sepList (stamped x req)) from hcs)]
      simp
    rw [e1]
    by_cases hcon : req.type = CON
    · have hty : (Server.final sepList env id (stamped x req) z).type = ACK := by
        show (if req.type = CON then (if Server.sepB sepList (stamped x req) = false then ACK else CON) else NON) = ACK
        rw [if_pos hcon, hsb]
        rfl
      have hmid : (Server.final sepList env id (stamped x req) z).msgId = (stamped x req).msgId := by
        show (if req.type = CON ∧ Server.sepB sepList (stamped x req) = false then _ else _) = _
        rw [if_pos ⟨hcon, hsb⟩]
      exact ⟨_, Client.C68_accepted_partial (js := js) hb hwait (gives_of hc) hacc'
        ⟨hresp', rfl, Or.inr ⟨hcon, hty, hmid, by rintro ⟨j, hj, hj2⟩; exact hun j hj hj2⟩⟩ (fun hn => absurd hty hn)⟩
    · have hty : (Server.final sepList env id (stamped x req) z).type = NON := by
        show (if req.type = CON then (if Server.sepB sepList (stamped x req) = false then ACK else CON) else NON) = NON
        rw [if_neg hcon]
      have hmid : (Server.final sepList env id (stamped x req) z).msgId = Server.nextMsgId id env.idRand := by
        show (if req.type = CON ∧ Server.sepB sepList (stamped x req) = false then _ else _) = _
        rw [if_neg (fun hn => hcon hn.1)]
      exact ⟨_, Client.C68_accepted_partial (js := js) hb hwait (gives_of hc) hacc' ⟨hresp', rfl, Or.inl (Or.inr hty)⟩
        (fun _ => by rw [hmid]; exact hid (fun hn => hcon hn.1))⟩

end FreeCoAP.EndToEnd
