import Verif.EndToEnd.PropsTurnsBoth
import Verif.EndToEnd.PropsContinue
import Verif.Server.Props6

/-!
# Uploads and downloads can always be completed

C110, C111 and C112 say what the call does in the turns of a delivered transfer. This file shows that there are such turns until the body has been transferred, for every body: the
client always has a next request, and the server serves it.
-/

namespace FreeCoAP.EndToEnd

open FreeCoAP.Msg
open FreeCoAP.Server (Env Event Addr Carries Srv Formats cpath run step AppSafe Harmless NoFault SOK NoEmptyBlock)
open FreeCoAP.Client (stamped BEnv NoBlocks)

theorem mem_addOp {m : Msg} {num : Nat} {val : Bytes} {o : Op} (h : o ∈ (addOp m num val).ops) : o = ⟨num, val⟩ ∨ o ∈ m.ops := by
  simp only [addOp, opListAdd_eq] at h
  exact List.mem_cons.1 ((ins_perm _ _).mem_iff.1 h)

/-- The requests of an upload have no empty Block options. -/
theorem blockRequest_harmless {req m : Msg} {size : Nat} (hn : NoBlocks req) (h : BlockRequest req size m) : NoEmptyBlock m := by
  obtain ⟨v1, p, l1, -, rfl | ⟨v2, l2, rfl⟩⟩ := h
  · intro o ho hb hv
    rcases mem_addOp (show o ∈ (addOp req BLOCK1 v1).ops from ho) with rfl | ho
    · rw [show v1 = [] from hv] at l1; cases l1
    · exact hb.elim (hn o ho).1 (hn o ho).2
  · intro o ho hb hv
    rcases mem_addOp (show o ∈ (addOp (addOp req BLOCK1 v1) BLOCK2 v2).ops from ho) with rfl | ho
    · rw [show v2 = [] from hv] at l2; cases l2
    rcases mem_addOp ho with rfl | ho
    · rw [show v1 = [] from hv] at l1; cases l1
    · exact hb.elim (hn o ho).1 (hn o ho).2

/-- The requests of a download have no empty Block options. -/
theorem asks_harmless {req m : Msg} (hn : NoBlocks req) (h : ∃ val : Bytes, val.length = 3 ∧ m = addOp req BLOCK2 val) : NoEmptyBlock m := by
  obtain ⟨v, l, rfl⟩ := h
  intro o ho hb hv
  rcases mem_addOp ho with rfl | ho
  · rw [show v = [] from hv] at l; cases l
  · exact hb.elim (hn o ho).1 (hn o ho).2

/-- There is an id that is none of two others and not 0. -/
theorem free_id (p q : Nat) : ∃ i : Byte, i.toNat ≠ 0 ∧ i.toNat ≠ p ∧ i.toNat ≠ q := by
  have h1 : (1 : Byte).toNat = 1 := rfl
  have h2 : (2 : Byte).toNat = 2 := rfl
  have h3 : (3 : Byte).toNat = 3 := rfl
  by_cases a1 : p = 1 ∨ q = 1
  · by_cases a2 : p = 2 ∨ q = 2
    · exact ⟨3, by omega, by omega, by omega⟩
    · exact ⟨2, by omega, by omega, by omega⟩
  · exact ⟨1, by omega, by omega, by omega⟩

/-- A small message can be sent. -/
theorem small_fits {m : Msg} (h1 : m.token.length = 4) (h2 : Shape m) (h3 : m.ops.length ≤ 5) (h4 : ∀ o ∈ m.ops, o.val.length ≤ 4) (h5 : m.payload.length ≤ 32) :
    ∃ d, Formats m d ∧ d.length < 1152 := by
  have hx : ∀ k, extSize k ≤ 2 := by intro k; unfold extSize; split <;> (try split) <;> omega
  have hops : ∀ (l : List Op) (prev : Nat), (∀ o ∈ l, o.val.length ≤ 4) → (encOps prev l).length ≤ 9 * l.length := by
    intro l
    induction l with
    | nil => exact fun _ _ => Nat.zero_le _
    | cons o l ih =>
      intro prev hl
      rw [encOps, List.length_append, List.length_cons, encOp_length]
      have := ih o.num (fun o ho => hl o (List.mem_cons_of_mem _ ho))
      have h5 := hx (deltaOf o prev)
      have h6 := hx o.len
      have h7 := hl o (List.mem_cons_self ..)
      have h8 : o.len = o.val.length := rfl
      omega
  have hpay : (encPayload m).length ≤ m.payload.length + 1 := by
    unfold encPayload
    split <;> simp
  have hl : (enc m).length ≤ 100 := by
    have := hops m.ops 0 h4
    rw [enc]
    simp only [List.length_append, encHdr_length]
    omega
  obtain ⟨b', hb⟩ := format_room (m := m) (buf := List.replicate Server.BUF_LEN 0) (len := Server.BUF_LEN)
    (by rw [List.length_replicate]; exact Nat.le_refl _) (by decide) h2 (fun o ho => by have := h4 o ho; omega) (by show _ ≤ 1152; omega)
  exact ⟨_, Client.formats_iff.2 ⟨⟨_, hb⟩, rfl⟩, by omega⟩

/-- The turns of a transfer are built one after the other: before turn `n` the client has a next request, which is harmless, and the server has not forgotten the
client. -/
theorem build {sx : Bool} {a : Addr} {call : List BEnv → Out Client.BRes} {app : Env → Prop} {s0 : Srv} {last0 : Option Nat} {n : Nat} (hok : SOK s0) (env : Env)
    (hf : NoFault env) (hs : AppSafe env) (happ : app env) (b : BEnv)
    (hgo : ∀ bs s last seen, Delivered sx a call app Distinct s0 last0 bs s last seen → bs.length < n → ∀ i : Byte,
      ∃ res d m, (∀ later, call (bs ++ seeing { b with x := { b.x with id0 := i, id1 := 0 } } [] :: later) = .ok res) ∧ res.ret = none ∧
        latest res.obs = some d ∧ d.length < 1152 ∧ Carries sx d m ∧ m.msgId = i.toNat ∧ NoEmptyBlock m)
    (hkept : ∀ bs s last seen, Delivered sx a call app Distinct s0 last0 bs s last seen → bs ≠ [] → bs.length < n → Server.ofAddr s a ≠ none) :
    ∀ k, k ≤ n → ∃ bs s last seen, bs.length = k ∧ Delivered sx a call app Distinct s0 last0 bs s last seen := by
  have key : ∀ k, k ≤ n → ∃ bs s last seen, bs.length = k ∧ SOK s ∧ Delivered sx a call app Distinct s0 last0 bs s last seen := by
    intro k
    induction k with
    | zero => exact fun _ => ⟨[], s0, _, [], rfl, hok, .start⟩
    | succ k ih =>
      intro hk
      obtain ⟨bs, s, last, seen, rfl, hsok, hdel⟩ := ih (Nat.le_of_lt hk)
      obtain ⟨i, i1, i2, i3⟩ := free_id (last.getD 0) (Server.nextMsgId s.msgId env.idRand)
      obtain ⟨res, dg, m, g1, g2, g3, g4, g5, hid, g7⟩ := hgo bs s last seen hdel hk i
      have hharm : ∀ a' d', Event.datagram a dg = .datagram a' d' → Harmless sx d' := by
        intro a' d' he
        cases he
        refine ⟨g4, fun mm hmm => ?_⟩
        rw [hmm.unique g5]
        exact g7
      obtain ⟨⟨s2, o, e⟩, q1, q2⟩ := Server.step_good hs hharm hsok
      refine ⟨_, s2, _, _, by rw [List.length_append]; rfl, q2,
        hdel.turn (t := ⟨[], env, { b with x := { b.x with id0 := i, id1 := 0 } }, [], [], dg, m⟩) (fun _ => rfl) rfl
          (fun hbs => ⟨hkept bs s last seen hdel hbs hk, fun x hx => (by cases hx)⟩)
          ⟨⟨res, g1, g2, g3⟩, g4, g5, fun i hi => (by cases hi), hf, happ⟩ ⟨by rw [hid]; exact i1, ?_, fun _ => by rw [hid]; exact fun hn => i3 hn.symm⟩ q1⟩
      intro hn
      rw [hn, hid] at i2
      exact i2 rfl
  intro k hk
  obtain ⟨bs, s, last, seen, r1, -, r2⟩ := key k hk
  exact ⟨bs, s, last, seen, r1, r2⟩

theorem low_id (i : Byte) : 256 * (0 : Byte).toNat + i.toNat = i.toNat := by
  show 256 * 0 + i.toNat = _
  omega

/-- A safe history leaves the server in a safe state. -/
theorem safe_history {sx : Bool} {evs : List (Env × Event)} {s0 s : Srv} {tr : List (List Server.Obs)}
    (hsafe : ∀ x ∈ evs, AppSafe x.1 ∧ ∀ a d, x.2 = .datagram a d → Harmless sx d) (h : run sx s0 evs = .ok (s, tr)) (h0 : SOK s0) : SOK s := by
  obtain ⟨r, hr, hk⟩ := Server.run_good (sx := sx) hsafe h0
  rw [h] at hr
  cases hr
  exact hk

/-- C110: a download can be completed. Whatever has happened at a server whose application is well behaved, whatever the length of the body: if there is memory at
the client and nothing fails at the server, there are turns, in which the ids are distinct, until the body has been transferred. With `C110_download_partial` the
call succeeds in the last of them. -/
theorem C110_possible (sx px : Bool) (a : Addr) (evs : List (Env × Event)) (s0 : Srv) (req resp : Msg) (size1 size2 b2 bodyLen : Nat) (src buf : Bytes)
    (hR : Ready sx a evs s0 req size2 b2 bodyLen src buf) (hsafe : ∀ x ∈ evs, AppSafe x.1 ∧ ∀ a d, x.2 = .datagram a d → Harmless sx d) (env : Env)
    (hf : NoFault env) (hs : AppSafe env) (happ : Provides (cpath 256 req.ops) src b2 env) (b : BEnv) (ht : req.type = CON ∨ req.type = NON)
    (hcl : req.codeClass = 0) (h1 : b.copyMem = true) (h2 : b.opMem2 = true) (h3 : b.x.sendErr = none)
    (hfit : ∀ i (val : Bytes), val.length = 3 → ∃ d, Formats (stamped { b.x with id0 := i, id1 := 0 } (addOp req BLOCK2 val)) d ∧ d.length < 1152) :
    ∀ k, k ≤ src.length / min size2 b2 + 1 → ∃ bs s last seen, bs.length = k ∧
      Delivered sx a (course sx px req resp size1 size2 buf bodyLen) (Provides (cpath 256 req.ops) src b2) Distinct s0 (lastId sx a evs) bs s last seen := by
  obtain ⟨id0, sepList, nbuf, len, pool, tr0, -, -, hrun, -⟩ := hR.server
  refine build (safe_history hsafe hrun (Server.init_sok id0 sepList pool)) env hf hs happ b (fun bs s last seen hdel hlt i => ?_) (fun bs s last seen hdel hbs hlt => ?_)
  · obtain ⟨res, d, m, g1, g2, g3, g4, g5, g6, m', g7, g8⟩ := C110_goes_on sx px a evs s0 s req resp size1 size2 b2 bodyLen src buf bs last seen hR hdel
      (by omega) { b with x := { b.x with id0 := i, id1 := 0 } } ht hcl h1 h2 h3 (hfit i)
    have h := asks_harmless hR.plain g7
    exact ⟨res, d, m, g1, g2, g3, g4, g5, by rw [g6]; exact low_id i, by rw [g8]; exact h⟩
  · have hpos := (hR.asked.min hR.given).pos
    obtain ⟨-, hst⟩ := down_states hR hdel
    rcases hst with ⟨hn, -⟩ | ⟨-, -, -, id, -, u, r1, -⟩ | ⟨hn, -⟩
    · exact absurd hn hbs
    · rw [r1]; exact fun hn => (by cases hn)
    · have := (Nat.le_div_iff_mul_le hpos).1 (show bs.length ≤ src.length / min size2 b2 by omega)
      omega

/-- C116: the call that goes on from the first block can be completed. -/
theorem C116_possible (sx px : Bool) (a : Addr) (evs mid : List (Env × Event)) (s0 s1 s2 : Srv) (req r : Msg) (size1 b2 bodyLen : Nat) (src buf : Bytes)
    (env : Env) (x : Client.XEnv) (is js : List Client.Input) (d : Bytes) (o : List Server.Obs) (e : Option Err) (tr : List (List Server.Obs))
    (obs : List Client.Obs) (hR : Ready sx a evs s0 req b2 b2 bodyLen src buf) (hb : Begins sx px req src b2 env x is d)
    (hid : DistinctFirst s0 (lastId sx a evs) env (stamped x req)) (h : step sx s0 env (.datagram a d) = .ok (s1, o, e))
    (hx : Client.exchange sx px { x with inputs := is ++ ((toward a o).map gets ++ js) } req = .ok (obs, some (.ok r)))
    (hmid : run sx s1 mid = .ok (s2, tr)) (hk : Server.Kept sx a s1 mid) (honly : ∀ y ∈ mid, Server.OnlyRepeats sx a (stamped x req).msgId y)
    (hsafe : ∀ x ∈ evs, AppSafe x.1 ∧ ∀ a d, x.2 = .datagram a d → Harmless sx d) (hs : AppSafe env) (hd : Harmless sx d)
    (hsafe' : ∀ x ∈ mid, AppSafe x.1 ∧ ∀ a d, x.2 = .datagram a d → Harmless sx d) (b : BEnv) (h1 : b.copyMem = true) (h2 : b.opMem2 = true)
    (h3 : b.x.sendErr = none)
    (hfit : ∀ i (val : Bytes), val.length = 3 → ∃ d, Formats (stamped { b.x with id0 := i, id1 := 0 } (addOp req BLOCK2 val)) d ∧ d.length < 1152) :
    ∀ k, k ≤ src.length / b2 → ∃ bs s last seen, bs.length = k ∧
      Delivered sx a (continued sx px req r size1 b2 buf bodyLen) (Provides (cpath 256 req.ops) src b2) Distinct s2 (some (stamped x req).msgId) bs s last seen := by
  obtain ⟨id0, sepList, nbuf, len, pool, tr0, -, -, hrun, -⟩ := hR.server
  have hok0 := safe_history hsafe hrun (Server.init_sok id0 sepList pool)
  have hok1 : SOK s1 := by
    obtain ⟨⟨s', o', e'⟩, q1, q2⟩ := Server.step_good hs (sx := sx) (ev := .datagram a d) (fun a' d' he => by cases he; exact hd) hok0
    rw [h] at q1
    cases q1
    exact q2
  refine build (safe_history hsafe' hmid hok1) env hb.fine hs hb.app b (fun bs s last seen hdel hlt i => ?_) (fun bs s last seen hdel hbs hlt => ?_)
  · obtain ⟨res, d, m, g1, g2, g3, g4, g5, g6, m', g7, g8⟩ := C116_goes_on sx px a evs mid s0 s1 s2 s req r size1 b2 bodyLen src buf env x is js d o e tr seen obs bs
      last hR hb hid h hx hmid hk honly hdel hlt { b with x := { b.x with id0 := i, id1 := 0 } } h1 h2 h3 (hfit i)
    have h := asks_harmless hR.plain g7
    exact ⟨res, d, m, g1, g2, g3, g4, g5, by rw [g6]; exact low_id i, by rw [g8]; exact h⟩
  · have hpos := hR.given.pos
    obtain ⟨ht, obs', r', k1, k2, k3⟩ := first_block (js := js) hR hb hid h
    rw [hx] at k1
    cases k1
    obtain ⟨-, hst⟩ := continue_states hR k2 (Server.run_tidy ht hmid) (fun hle => (k3 hle).run ht hmid hk honly) hdel
    rcases hst with ⟨-, -, id, -, u, r1, -⟩ | ⟨hn, -⟩
    · rw [r1]; exact fun hn => (by cases hn)
    · have := (Nat.le_div_iff_mul_le hpos).1 (show bs.length + 1 ≤ src.length / b2 from hlt)
      omega

/-- C111: an upload can be completed. Whatever has happened at a server whose application is well behaved, whatever the length of the body: if there is memory at the
client and nothing fails at the server, there are turns, in which the ids are distinct, until the body has been transferred. With `C111_upload_partial` the call
succeeds in the last of them. -/
theorem C111_possible (sx px : Bool) (a : Addr) (evs : List (Env × Event)) (s0 : Srv) (req resp : Msg) (size1 size2 b1 room bodyLen id d : Nat)
    (buf : Bytes) (hd : d = 1 ∨ d = 4) (hR : ReadyUp sx a evs s0 req size1 size2 b1 room bodyLen buf)
    (hsafe : ∀ x ∈ evs, AppSafe x.1 ∧ ∀ a d, x.2 = .datagram a d → Harmless sx d) (env : Env) (hf : NoFault env) (hs : AppSafe env)
    (happ : Accepts (cpath 256 req.ops) req.codeDetail b1 room id d env) (b : BEnv) (ht : req.type = CON ∨ req.type = NON) (hcl : req.codeClass = 0)
    (h1 : b.copyMem = true) (h2 : b.opMem1 = true) (h3 : b.opMem2 = true) (h4 : b.payMem = true) (h5 : b.x.sendErr = none)
    (hfit : ∀ i m, BlockRequest req size1 m → ∃ d, Formats (stamped { b.x with id0 := i, id1 := 0 } m) d ∧ d.length < 1152) :
    ∀ k, carried size1 (min size1 b1) (k - 1) < bodyLen → ∃ bs s last seen, bs.length = k ∧
      Delivered sx a (courseUp sx px req resp size1 size2 buf bodyLen) (Accepts (cpath 256 req.ops) req.codeDetail b1 room id d) Distinct s0
        (lastId sx a evs) bs s last seen := by
  obtain ⟨id0, sepList, nbuf, pool, tr0, -, -, hrun⟩ := hR.server
  have hok : SOK s0 := by
    obtain ⟨r, hr, hk⟩ := Server.run_good (sx := sx) hsafe (Server.init_sok id0 sepList pool)
    rw [hrun] at hr
    cases hr
    exact hk
  have key : ∀ k, carried size1 (min size1 b1) (k - 1) < bodyLen → ∃ bs s last seen, bs.length = k ∧ SOK s ∧
      Delivered sx a (courseUp sx px req resp size1 size2 buf bodyLen) (Accepts (cpath 256 req.ops) req.codeDetail b1 room id d) Distinct s0
        (lastId sx a evs) bs s last seen := by
    intro k
    induction k with
    | zero => exact fun _ => ⟨[], s0, _, [], rfl, hok, .start⟩
    | succ k ih =>
      intro hk
      rw [Nat.add_sub_cancel] at hk
      have hk' : carried size1 (min size1 b1) (k - 1) < bodyLen := by
        match k, hk with
        | 0, hk => exact hk
        | 1, hk => exact hR.body
        | k + 2, hk => rw [carried_succ] at hk; rw [show k + 2 - 1 = k + 1 from rfl]; omega
      obtain ⟨bs, s, last, seen, rfl, hsok, hdel⟩ := ih hk'
      obtain ⟨i, i1, i2, i3⟩ := free_id (last.getD 0) (Server.nextMsgId s.msgId env.idRand)
      obtain ⟨res, dg, m, g1, g2, g3, g4, g5, g6, m', g7, g8⟩ := C111_goes_on sx px a evs s0 s req resp size1 size2 b1 room bodyLen id d buf bs last seen hd hR hdel hk
        { b with x := { b.x with id0 := i, id1 := 0 } } ht hcl h1 h2 h3 h4 h5 (hfit i)
      have hid : m.msgId = i.toNat := by rw [g6]; show 256 * 0 + i.toNat = _; omega
      have hharm : ∀ a' d', Event.datagram a dg = .datagram a' d' → Harmless sx d' := by
        intro a' d' he
        cases he
        refine ⟨g4, fun mm hmm => ?_⟩
        rw [hmm.unique g5, g8]
        have := blockRequest_harmless hR.plain g7
        exact this
      have hkept : bs ≠ [] → Server.ofAddr s a ≠ none := by
        intro hbs
        rcases up_states hd hR hdel with ⟨hn, -⟩ | ⟨-, -, -, ⟨lid, -, u, r1, -⟩, -⟩ | ⟨k, -, -, hge, -⟩
        · exact absurd hn hbs
        · rw [r1]; exact fun hn => (by cases hn)
        · omega
      obtain ⟨⟨s2, o, e⟩, q1, q2⟩ := Server.step_good hs hharm hsok
      refine ⟨_, s2, _, _, by rw [List.length_append]; rfl, q2,
        hdel.turn (t := ⟨[], env, { b with x := { b.x with id0 := i, id1 := 0 } }, [], [], dg, m⟩) (fun _ => rfl) rfl
          (fun hbs => ⟨hkept hbs, fun x hx => (by cases hx)⟩)
          ⟨⟨res, g1, g2, g3⟩, g4, g5, fun i hi => (by cases hi), hf, happ⟩ ⟨by rw [hid]; exact i1, ?_, fun _ => by rw [hid]; exact fun hn => i3 hn.symm⟩ q1⟩
      intro hn
      rw [hn, hid] at i2
      exact i2 rfl
  intro k hk
  obtain ⟨bs, s, last, seen, r1, -, r2⟩ := key k hk
  exact ⟨bs, s, last, seen, r1, r2⟩

/-- C112: an upload that is answered with a body can be carried on until the response has been received, or has become longer than the body. With
`C112_exchange_partial` the call succeeds in the last turn if the response is not longer than the body; with `C112_too_long` it fails otherwise. -/
theorem C112_possible (sx px : Bool) (a : Addr) (evs : List (Env × Event)) (s0 : Srv) (req resp : Msg) (size1 size2 b1 b2 room bodyLen id d : Nat)
    (f : Bytes → Bytes) (buf : Bytes) (hd : d = 1 ∨ d = 4) (hR : ReadyBoth sx a evs s0 req size1 size2 b1 b2 room bodyLen buf (f (buf.take bodyLen)))
    (hsafe : ∀ x ∈ evs, AppSafe x.1 ∧ ∀ a d, x.2 = .datagram a d → Harmless sx d) (env : Env) (hf : NoFault env) (hs : AppSafe env)
    (happ : Replies (cpath 256 req.ops) req.codeDetail b1 b2 room id d f env) (b : BEnv) (ht : req.type = CON ∨ req.type = NON) (hcl : req.codeClass = 0)
    (h1 : b.copyMem = true) (h2 : b.opMem1 = true) (h3 : b.opMem2 = true) (h4 : b.payMem = true) (h5 : b.x.sendErr = none)
    (hfit : ∀ i m, (BlockRequest req size1 m ∨ ∃ val : Bytes, val.length = 3 ∧ m = addOp req BLOCK2 val) →
      ∃ d, Formats (stamped { b.x with id0 := i, id1 := 0 } m) d ∧ d.length < 1152) :
    ∀ k, k ≤ upTurns size1 (min size1 b1) bodyLen + min (f (buf.take bodyLen)).length bodyLen / min size2 b2 → ∃ bs s last seen, bs.length = k ∧
      Delivered sx a (courseUp sx px req resp size1 size2 buf bodyLen) (Replies (cpath 256 req.ops) req.codeDetail b1 b2 room id d f) Distinct s0
        (lastId sx a evs) bs s last seen := by
  obtain ⟨id0, sepList, nbuf, pool, tr0, -, -, hrun⟩ := hR.up.server
  have hok : SOK s0 := by
    obtain ⟨r, hr, hk⟩ := Server.run_good (sx := sx) hsafe (Server.init_sok id0 sepList pool)
    rw [hrun] at hr
    cases hr
    exact hk
  have key : ∀ k, k ≤ upTurns size1 (min size1 b1) bodyLen + min (f (buf.take bodyLen)).length bodyLen / min size2 b2 → ∃ bs s last seen, bs.length = k ∧ SOK s ∧
      Delivered sx a (courseUp sx px req resp size1 size2 buf bodyLen) (Replies (cpath 256 req.ops) req.codeDetail b1 b2 room id d f) Distinct s0
        (lastId sx a evs) bs s last seen := by
    intro k
    induction k with
    | zero => exact fun _ => ⟨[], s0, _, [], rfl, hok, .start⟩
    | succ k ih =>
      intro hk
      obtain ⟨bs, s, last, seen, rfl, hsok, hdel⟩ := ih (Nat.le_of_lt hk)
      obtain ⟨i, i1, i2, i3⟩ := free_id (last.getD 0) (Server.nextMsgId s.msgId env.idRand)
      obtain ⟨res, dg, m, g1, g2, g3, g4, g5, g6, m', g7, g8⟩ := C112_goes_on sx px a evs s0 s req resp size1 size2 b1 b2 room bodyLen id d f buf bs last seen hd hR
        hdel hk { b with x := { b.x with id0 := i, id1 := 0 } } ht hcl h1 h2 h3 h4 h5 (hfit i)
      have hid : m.msgId = i.toNat := by rw [g6]; show 256 * 0 + i.toNat = _; omega
      have hharm : ∀ a' d', Event.datagram a dg = .datagram a' d' → Harmless sx d' := by
        intro a' d' he
        cases he
        refine ⟨g4, fun mm hmm => ?_⟩
        rw [hmm.unique g5, g8]
        rcases g7 with g7 | g7
        · have := blockRequest_harmless hR.up.plain g7
          exact this
        · have := asks_harmless hR.up.plain g7
          exact this
      have hkept : bs ≠ [] → Server.ofAddr s a ≠ none := by
        intro hbs
        have hpos := (hR.up.asked.min hR.given).pos
        rcases both_states hd hR hdel with ⟨hn, -⟩ | ⟨-, -, -, ⟨lid, -, u, r1, -⟩, -⟩ | ⟨j, -, -, -, -, ⟨lid, -, u, r1, -⟩, -⟩ | ⟨j, hj, hle, hlt, hin, -⟩ |
          ⟨j, hj, hle, hlt, hin, -⟩
        · exact absurd hn hbs
        · rw [r1]; exact fun hn => (by cases hn)
        · rw [r1]; exact fun hn => (by cases hn)
        · have hq : (f (buf.take bodyLen)).length / min size2 b2 = j := (Nat.div_eq_iff hpos).2 ⟨hle, by rw [Nat.add_mul, Nat.one_mul] at hlt; omega⟩
          rw [Nat.min_eq_left hin] at hk
          omega
        · have hq : bodyLen / min size2 b2 = j := (Nat.div_eq_iff hpos).2 ⟨hle, by rw [Nat.add_mul, Nat.one_mul] at hlt; omega⟩
          rw [Nat.min_eq_right (Nat.le_of_lt hin)] at hk
          omega
      obtain ⟨⟨s2, o, e⟩, q1, q2⟩ := Server.step_good hs hharm hsok
      refine ⟨_, s2, _, _, by rw [List.length_append]; rfl, q2,
        hdel.turn (t := ⟨[], env, { b with x := { b.x with id0 := i, id1 := 0 } }, [], [], dg, m⟩) (fun _ => rfl) rfl
          (fun hbs => ⟨hkept hbs, fun x hx => (by cases hx)⟩)
          ⟨⟨res, g1, g2, g3⟩, g4, g5, fun i hi => (by cases hi), hf, happ⟩ ⟨by rw [hid]; exact i1, ?_, fun _ => by rw [hid]; exact fun hn => i3 hn.symm⟩ q1⟩
      intro hn
      rw [hn, hid] at i2
      exact i2 rfl
  intro k hk
  obtain ⟨bs, s, last, seen, r1, -, r2⟩ := key k hk
  exact ⟨bs, s, last, seen, r1, r2⟩

/-! ## Examples -/

/-- A download of 40 bytes is completed in three turns. -/
example (sx : Bool) : ∃ bs s last seen res, bs.length = 3 ∧
    Delivered sx [1] (exCourse sx) (Provides (cpath 256 Client.exGet.ops) exSrc 16) Distinct Server.exInit none bs s last seen ∧
    exCourse sx bs = .ok res ∧ res.ret = some (.ok 40) ∧ res.body = exSrc ++ List.replicate 10 0 := by
  have hR : Ready sx [1] [] Server.exInit Client.exGet 16 16 50 exSrc exBuf := exReady rfl (idle_of (by decide +kernel) [1])
  obtain ⟨bs, s, last, seen, h1, h2⟩ := C110_possible sx false [1] [] Server.exInit Client.exGet create 16 16 16 50 exSrc exBuf hR (fun x hx => by cases hx) Server.exBlock
    Server.exBlock_noFault Server.exBlock_safe exProvides (exTurnEnv 2) (Or.inl rfl) rfl rfl rfl rfl
    (fun i val hv => small_fits rfl ⟨fun h => (by cases h.2), fun h => (by cases h)⟩ (show 2 ≤ 5 by decide)
      (fun o ho => by rcases mem_addOp (show o ∈ (addOp Client.exGet BLOCK2 val).ops from ho) with rfl | ho
                      · show val.length ≤ 4; omega
                      · rw [List.mem_singleton.1 (show o ∈ [⟨11, [0x61]⟩] from ho)]; exact (by decide : 1 ≤ 4)) (Nat.zero_le _)) 3 (by decide)
  obtain ⟨-, res, k1, -, k2⟩ := C110_download_partial sx false [1] [] Server.exInit s Client.exGet create 16 16 16 50 exSrc exBuf bs last seen hR h2
  obtain ⟨k3, k4⟩ := k2 (by rw [h1]; decide)
  exact ⟨bs, s, last, seen, res, h1, h2, k1, k3, k4⟩

/-- An application that answers a body with its bytes, each increased by one. -/
def echo (b : Bytes) : Bytes := b.map (· + 1)
def exEcho (b1 b2 : Nat) : Env := { Server.exEnv with
  handle := fun _ _ => .blockwise create b1 b2 [] 0 (some 1)
  rx := fun _ body e _ resp => ⟨none, { resp with codeClass := 2, codeDetail := 4 }, echo (body.take e) ++ body.drop e, min e body.length⟩ }

theorem exEcho_fine (b1 b2 : Nat) : NoFault (exEcho b1 b2) := ⟨⟨rfl, rfl, rfl⟩, rfl, rfl, rfl, rfl, rfl, rfl, rfl, rfl, rfl, rfl⟩

theorem echo_length (body : Bytes) (e : Nat) : (echo (body.take e) ++ body.drop e).length = body.length := by
  rw [echo, List.length_append, List.length_map, List.length_take, List.length_drop]
  omega

theorem exEcho_safe (b1 b2 : Nat) : AppSafe (exEcho b1 b2) := by
  refine ⟨fun t m => ?_, fun t m resp b1 b2 body len rx h => ?_, fun id body e req resp h => ?_, fun id body e req resp => ?_,
    fun id body e req resp h => ?_⟩
  · exact Server.plain_nil rfl
  · cases h; decide
  · exact Server.plain_of_ops h rfl
  · exact echo_length body e
  · exact Nat.min_le_right ..

theorem exEcho_replies (uri : Bytes) (method b1 b2 room : Nat) : Replies uri method b1 b2 room 1 4 echo (exEcho b1 b2) := by
  refine ⟨⟨create, [], 0, fun _ _ _ _ _ => rfl, created_built, rfl, rfl, Nat.zero_le _⟩, fun bytes e req resp _ => ⟨rfl, ?_, ?_, rfl⟩⟩
  · show min e bytes.length ≤ (echo (bytes.take e) ++ bytes.drop e).length
    rw [echo_length]
    exact Nat.min_le_right ..
  · show (echo (bytes.take e) ++ bytes.drop e).take (min e bytes.length) = echo (bytes.take e)
    exact List.take_left' (by rw [echo, List.length_map, List.length_take])

theorem exBlockRequest_fits (i : Byte) (m : Msg) (h : BlockRequest Client.exPut 32 m) :
    ∃ d, Formats (stamped { (exTurnEnv 2).x with id0 := i, id1 := 0 } m) d ∧ d.length < 1152 := by
  have h0 : ∀ o ∈ Client.exPut.ops, o.val.length ≤ 4 := by decide
  obtain ⟨v1, p, l1, hp, rfl | ⟨v2, l2, rfl⟩⟩ := h
  · refine small_fits rfl ⟨fun h => (by cases h.2), fun h => (by cases h)⟩ (show 2 ≤ 5 by decide) (fun o ho => ?_) hp
    rcases mem_addOp (show o ∈ (addOp Client.exPut BLOCK1 v1).ops from ho) with rfl | ho
    · show v1.length ≤ 4; omega
    · exact h0 o ho
  · refine small_fits rfl ⟨fun h => (by cases h.2), fun h => (by cases h)⟩ (show 3 ≤ 5 by decide) (fun o ho => ?_) hp
    rcases mem_addOp (show o ∈ (addOp (addOp Client.exPut BLOCK1 v1) BLOCK2 v2).ops from ho) with rfl | ho
    · show v2.length ≤ 4; omega
    · rcases mem_addOp ho with rfl | ho
      · show v1.length ≤ 4; omega
      · exact h0 o ho

/-- An upload of 40 bytes is answered with 40 bytes, in four turns. -/
example (sx : Bool) : ∃ bs s last seen res, bs.length = 4 ∧
    Delivered sx [1] (exUpCourse sx) (Replies (cpath 256 Client.exPut.ops) 3 16 16 64 1 4 echo) Distinct Server.exInit none bs s last seen ∧
    exUpCourse sx bs = .ok res ∧ res.ret = some (.ok 40) ∧ res.body = echo exSrc := by
  have hU : ReadyUp sx [1] [] Server.exInit Client.exPut 32 16 16 64 40 exSrc := exReadyUp rfl (idle_of (by decide +kernel) [1])
  have hR : ReadyBoth sx [1] [] Server.exInit Client.exPut 32 16 16 16 64 40 exSrc (echo (exSrc.take 40)) := ⟨hU, ⟨0, by decide, rfl⟩, by decide, by decide⟩
  obtain ⟨bs, s, last, seen, h1, h2⟩ := C112_possible sx false [1] [] Server.exInit Client.exPut create 32 16 16 16 64 40 1 4 echo exSrc (Or.inr rfl) hR
    (fun x hx => by cases hx) (exEcho 16 16) (exEcho_fine 16 16) (exEcho_safe 16 16) (exEcho_replies ..) (exTurnEnv 2) (Or.inl rfl) rfl rfl rfl rfl rfl rfl
    (fun i m hm => by
      rcases hm with hm | ⟨val, hv, rfl⟩
      · exact exBlockRequest_fits i m hm
      · refine small_fits rfl ⟨fun h => (by cases h.2), fun h => (by cases h)⟩ (show 2 ≤ 5 by decide) (fun o ho => ?_) (Nat.zero_le _)
        rcases mem_addOp (show o ∈ (addOp Client.exPut BLOCK2 val).ops from ho) with rfl | ho
        · show val.length ≤ 4; omega
        · exact (by decide : ∀ o ∈ Client.exPut.ops, o.val.length ≤ 4) o ho) 4 (by decide)
  obtain ⟨-, res, k1, -, -, -, k2⟩ := C112_exchange_partial sx false [1] [] Server.exInit s Client.exPut create 32 16 16 16 64 40 1 4 echo exSrc bs last seen
    (Or.inr rfl) hR (by decide) h2
  obtain ⟨k3, k4⟩ := k2 (by rw [h1]; decide)
  exact ⟨bs, s, last, seen, res, h1, h2, k1, k3, k4.trans (by decide)⟩

end FreeCoAP.EndToEnd
