import Verif.EndToEnd.LemmasContinue

/-!
# A download that begins with an ordinary request, over a network that delivers

C116, the part of client and server. The part of the proxy is in `Verif/Proxy/PropsBlocks.lean`.
-/

namespace FreeCoAP.EndToEnd

open FreeCoAP.Msg
open FreeCoAP.Server (Env Event Addr Asks Carries Built Srv Reach Transfer AllKnown Formats BlockSize Serving SInv cpath Tidy run step Kept OnlyRepeats)
open FreeCoAP.Client (stamped BEnv BRes NoBlocks exchangeBlockwise exchange)

/-- C116, the ordinary request: the client gets the first block as the response, with the size of the blocks, and whether there are more of them. -/
theorem C116_first_partial (sx px : Bool) (a : Addr) (evs : List (Env × Event)) (s0 s1 : Srv) (req : Msg) (b2 bodyLen : Nat) (src buf : Bytes) (env : Env)
    (x : Client.XEnv) (is js : List Client.Input) (d : Bytes) (o : List Server.Obs) (e : Option Err) (hR : Ready sx a evs s0 req b2 b2 bodyLen src buf)
    (hb : Begins sx px req src b2 env x is d) (hid : DistinctFirst s0 (lastId sx a evs) env (stamped x req)) (h : step sx s0 env (.datagram a d) = .ok (s1, o, e)) :
    ∃ obs r, exchange sx px { x with inputs := is ++ ((toward a o).map gets ++ js) } req = .ok (obs, some (.ok r)) ∧ r.payload = src.take b2 ∧
      parseBlockOp BLOCK2 r.ops = .ok (some ⟨0, b2 ≤ src.length, b2⟩) := by
  obtain ⟨-, obs, r, h1, h2, -⟩ := first_block (js := js) hR hb hid h
  refine ⟨obs, r, h1, ?_, ?_⟩
  · rw [h2.block.payload, Nat.zero_mul, List.drop_zero]
  · have := h2.parse
    rw [Nat.zero_add, Nat.one_mul] at this
    exact this

/-- C116, the other blocks: the call that goes on from this response takes `src.length / b2` turns and returns the whole body. Between the ordinary request and the
call anything may happen at the server that does not make it forget the client, except that it receives other requests of it. -/
theorem C116_continued_partial (sx px : Bool) (a : Addr) (evs mid : List (Env × Event)) (s0 s1 s2 s : Srv) (req r : Msg) (size1 b2 bodyLen : Nat) (src buf : Bytes)
    (env : Env) (x : Client.XEnv) (is js : List Client.Input) (d : Bytes) (o : List Server.Obs) (e : Option Err) (tr seen : List (List Server.Obs))
    (obs : List Client.Obs) (bs : List BEnv) (last : Option Nat) (hR : Ready sx a evs s0 req b2 b2 bodyLen src buf) (hb : Begins sx px req src b2 env x is d)
    (hid : DistinctFirst s0 (lastId sx a evs) env (stamped x req)) (h : step sx s0 env (.datagram a d) = .ok (s1, o, e))
    (hx : exchange sx px { x with inputs := is ++ ((toward a o).map gets ++ js) } req = .ok (obs, some (.ok r)))
    (hmid : run sx s1 mid = .ok (s2, tr)) (hk : Kept sx a s1 mid) (honly : ∀ y ∈ mid, OnlyRepeats sx a (stamped x req).msgId y)
    (hd : Delivered sx a (continued sx px req r size1 b2 buf bodyLen) (Provides (cpath 256 req.ops) src b2) Distinct s2 (some (stamped x req).msgId) bs s last seen) :
    bs.length ≤ src.length / b2 ∧
    ∃ res, continued sx px req r size1 b2 buf bodyLen bs = .ok res ∧
      (bs.length < src.length / b2 → res.ret = none) ∧
      (bs.length = src.length / b2 → res.ret = some (.ok src.length) ∧ res.body = src ++ buf.drop src.length ∧ IsBlock src (src.length / b2) b2 res.resp) := by
  have hpos := hR.given.pos
  obtain ⟨ht, obs', r', h1, h2, h3⟩ := first_block (js := js) hR hb hid h
  rw [hx] at h1
  cases h1
  obtain ⟨-, hst⟩ := continue_states hR h2 (Server.run_tidy ht hmid) (fun hle => (h3 hle).run ht hmid hk honly) hd
  rcases hst with ⟨hin, ⟨szx, os, -, -, rp, hgo⟩, -⟩ | ⟨hin, hup, rp, hlast, os, hfin⟩
  · have hle : bs.length + 1 ≤ src.length / b2 := (Nat.le_div_iff_mul_le hpos).2 hin
    have := hgo []
    rw [List.append_nil] at this
    exact ⟨by omega, _, this, fun _ => rfl, fun hn => by omega⟩
  · have hlt : ¬ bs.length + 1 ≤ src.length / b2 := fun hn => by
      have := (Nat.le_div_iff_mul_le hpos).1 hn
      omega
    have hle : bs.length ≤ src.length / b2 := (Nat.le_div_iff_mul_le hpos).2 hup
    have := hfin []
    rw [List.append_nil] at this
    exact ⟨hle, _, this, fun hn => absurd hn hlt, fun hn => ⟨rfl, rfl, hn ▸ hlast⟩⟩

/-- C116: as long as blocks are missing, there is a next turn. -/
theorem C116_goes_on (sx px : Bool) (a : Addr) (evs mid : List (Env × Event)) (s0 s1 s2 s : Srv) (req r : Msg) (size1 b2 bodyLen : Nat) (src buf : Bytes)
    (env : Env) (x : Client.XEnv) (is js : List Client.Input) (d : Bytes) (o : List Server.Obs) (e : Option Err) (tr seen : List (List Server.Obs))
    (obs : List Client.Obs) (bs : List BEnv) (last : Option Nat) (hR : Ready sx a evs s0 req b2 b2 bodyLen src buf) (hb : Begins sx px req src b2 env x is d)
    (hid : DistinctFirst s0 (lastId sx a evs) env (stamped x req)) (h : step sx s0 env (.datagram a d) = .ok (s1, o, e))
    (hx : exchange sx px { x with inputs := is ++ ((toward a o).map gets ++ js) } req = .ok (obs, some (.ok r)))
    (hmid : run sx s1 mid = .ok (s2, tr)) (hk : Kept sx a s1 mid) (honly : ∀ y ∈ mid, OnlyRepeats sx a (stamped x req).msgId y)
    (hd : Delivered sx a (continued sx px req r size1 b2 buf bodyLen) (Provides (cpath 256 req.ops) src b2) Distinct s2 (some (stamped x req).msgId) bs s last seen)
    (hmore : bs.length < src.length / b2) (b : BEnv) (h1 : b.copyMem = true) (h2 : b.opMem2 = true) (h3 : b.x.sendErr = none)
    (hfit : ∀ val : Bytes, val.length = 3 → ∃ d, Formats (stamped b.x (addOp req BLOCK2 val)) d ∧ d.length < 1152) :
    ∃ res d m, (∀ later, continued sx px req r size1 b2 buf bodyLen (bs ++ seeing b [] :: later) = .ok res) ∧ res.ret = none ∧
      latest res.obs = some d ∧ d.length < 1152 ∧ Carries sx d m ∧ m.msgId = 256 * b.x.id1.toNat + b.x.id0.toNat ∧
      ∃ m', (∃ val : Bytes, val.length = 3 ∧ m' = addOp req BLOCK2 val) ∧ m = stamped b.x m' := by
  have hpos := hR.given.pos
  obtain ⟨ht, obs', r', k1, k2, k3⟩ := first_block (js := js) hR hb hid h
  rw [hx] at k1
  cases k1
  obtain ⟨obs0, hwait⟩ := hb.waits
  have hle := (Nat.le_div_iff_mul_le hpos).1 hmore
  rcases Client.exchange_cases hR.built.type hwait with ⟨-, e, he⟩ | ⟨hty, hcl, -⟩
  · cases he
  obtain ⟨-, hst⟩ := continue_states hR k2 (Server.run_tidy ht hmid) (fun hle => (k3 hle).run ht hmid hk honly) hd
  rcases hst with ⟨-, ⟨szx, os, hgo⟩, -⟩ | ⟨hin, -⟩
  · refine goes_waits hR.built hR.ordinary hgo ?_ b hty hcl h1 h2 h3 hfit
    have := hR.blocks
    rw [Nat.min_self] at this
    exact Nat.lt_of_mul_lt_mul_right (Nat.lt_of_le_of_lt hle this)
  · have : (bs.length + 1) * b2 ≤ src.length := hle
    omega

end FreeCoAP.EndToEnd
