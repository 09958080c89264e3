import Verif.Server.LemmasServe
import Verif.Server.Props3

/-!
# Properties of the server: block transfers (C28, C29, C30)
-/

namespace FreeCoAP.Server

open FreeCoAP.Msg
open FreeCoAP.Msg.Heap (Clean)
open FreeCoAP.Mem (held)

/-! ## C30 Blockwise state is released -/

/-- At every moment of every history the buffers handed out by the large pool are exactly
those held by transfers, each by one; no buffer was freed that was not handed out; a
sender without a transfer in progress holds no buffer; and after the server is destroyed
none is handed out. -/
theorem C30_released (sx : Bool) (id : Nat) (sepList : List Bytes) (num len : Nat) (pool : Mem.Pool) (hp : PoolOf num len pool)
    (evs : List (Env × Event)) (s : Srv) (tr : List (List Obs)) (h : run sx (init id sepList pool) evs = .ok (s, tr)) :
    (held [] s.large.log).Perm (owned s.trans) ∧ (owned s.trans).Nodup ∧ Clean [] s.large.log ∧
    (∀ t ∈ s.trans, t.active = false ∨ t.blk.type = .regular → own t.blk = []) ∧
    held [] (destroyAll s.trans s.large).2.log = [] ∧ Clean [] (destroyAll s.trans s.large).2.log := by
  obtain ⟨W, st, st', r1, r2, hp⟩ := hp
  obtain ⟨base, h0⟩ := init_sinv (id := id) (sepList := sepList) hp
  have hs := run_sinv (init_tidy _ _ _) h0 h
  have hT := Reach.tidy ⟨id, sepList, pool, h⟩
  have hd := destroyAll_pinv (ow := []) hT.zeroed (by rw [List.append_nil]; exact hs.inv)
  refine ⟨hs.inv.perm, hs.inv.perm.nodup_iff.1 hs.inv.rel.nodup, hs.inv.clean, ?_, hd.perm.eq_nil, hd.clean⟩
  rintro t ht (h | h)
  · obtain ⟨i, hi⟩ := List.mem_iff_getElem?.1 ht
    rw [hT.zeroed i t hi h]
    rfl
  · have := (hs.hold t ht).1 h
    simp [own, this]

/-- With at least eight buffers a transfer never fails for want of a buffer: whenever some
place for a sender has no transfer, the pool has a buffer for every body within its buffer
length. -/
theorem C30_no_starvation (sx : Bool) (id : Nat) (sepList : List Bytes) (num len : Nat) (pool : Mem.Pool) (hp : PoolOf num len pool)
    (h8 : 8 ≤ num) (evs : List (Env × Event)) (s : Srv) (tr : List (List Obs))
    (h : run sx (init id sepList pool) evs = .ok (s, tr)) (t : Trans) (ht : t ∈ s.trans) (hn : own t.blk = [])
    (l : Nat) (hl : l ≤ len) : (s.large.alloc l).1 ≠ none := by
  obtain ⟨W, st, st', r1, r2, hp⟩ := hp
  obtain ⟨base, h0⟩ := init_sinv (id := id) (sepList := sepList) hp
  have hs := run_sinv (init_tidy _ _ _) h0 h
  have hT := Reach.tidy ⟨id, sepList, pool, h⟩
  have hlt : (owned s.trans).length < num := by
    obtain ⟨as, bs, e⟩ := List.append_of_mem ht
    have hlen := hT.len
    rw [e] at hlen ⊢
    have h1 := owned_length as
    have h2 := owned_length bs
    unfold owned at h1 h2 ⊢
    rw [List.flatMap_append, List.flatMap_cons, hn]
    simp only [List.length_append, List.length_cons, List.length_nil] at hlen ⊢
    have : NUM_TRANS = 8 := rfl
    omega
  obtain ⟨p, L', e⟩ := hs.inv.room hlt hl
  rw [e]
  simp

theorem exPool_of : PoolOf 8 64 exPool := ⟨2 ^ 64, [], _, some 1000, some 2000, rfl⟩

/-- The application answers with a body of 40 bytes in blocks of 16. -/
def exBlock : Env := { exEnv with
  handle := fun _ _ => .blockwise create 16 16 ((List.range 40).map UInt8.ofNat) 40 (some 1) }

/-- GET for "a" with ids 5, 6, 7, 8; the last three with Block2 options for blocks 1 and 2 of
16 bytes and block 0. -/
def exB0 : Bytes := [0x40, 0x01, 0, 5, 0xB1, 97]
def exB1 : Bytes := [0x40, 0x01, 0, 6, 0xB1, 97, 0xC1, 0x10]
def exB2 : Bytes := [0x40, 0x01, 0, 7, 0xB1, 97, 0xC1, 0x20]

/-- A transfer to sender 1 that is completed, and one to sender 2 in progress. -/
def exTwo : List (Env × Event) :=
  [(exBlock, .datagram [1] exB0), (exBlock, .datagram [2] exB0), (exBlock, .datagram [1] exB1), (exBlock, .datagram [1] exB2),
    (exBlock, .datagram [2] exB1)]

example : test (run true exInit (exTwo.take 3)) (fun r => owned r.1.trans == [1000, 1064] && Mem.held [] r.1.large.log == [1064, 1000]) = true := by
  decide +kernel

example : test (run true exInit exTwo) (fun r => owned r.1.trans == [1064] && Mem.held [] r.1.large.log == [1064] &&
    Mem.held [] (destroyAll r.1.trans r.1.large).2.log == []) = true := by
  decide +kernel

/-! ## C28 A blockwise download delivers the body

`C28_only_blocks`: after the application has answered a GET request with a body, and until
it is called again for this sender, everything sent to the sender is an Empty message, an
error response or a correct block of this body. This holds for every history: faults,
repetitions, other senders, malformed datagrams.

`C28_download`: a sender that asks for the blocks in order gets them all, and the payloads
make up the body. -/

/-- The datagram is an error response 4.xx. -/
def IsError4 (b : Bytes) : Prop := ∃ h, header b = some h ∧ h.cls = 4

theorem C28_only_blocks (sx : Bool) (evs : List (Env × Event)) (s0 s1 s2 : Srv) (tr0 tr2 : List (List Obs)) (hr : Reach sx evs s0 tr0)
    (env1 : Env) (ev1 : Event) (o1 : List Obs) (e1 : Option Err) (h1 : step sx s0 env1 ev1 = .ok (s1, o1, e1))
    (a : Addr) (m1 : Msg) (hc : (a, m1) ∈ calls o1) (hget : m1.codeDetail = 1)
    (resp : Msg) (b1 b2 : Nat) (body : Bytes) (bodyLen : Nat) (rx : Option Nat)
    (hh : ∀ t, env1.handle t m1 = .blockwise resp b1 b2 body bodyLen rx) (hnb : NoBlock2 resp) (happ1 : AppOK env1)
    (evs2 : List (Env × Event)) (happ : ∀ x ∈ evs2, AppOK x.1) (h2 : run sx s1 evs2 = .ok (s2, tr2))
    (hn : ∀ o ∈ tr2, ∀ m, (a, m) ∉ calls o) :
    ∀ o ∈ o1 :: tr2, ∀ r, (a, r) ∈ sends o → Empty r ∨ IsError4 r ∨
      ∃ x num size, Built x ∧ Formats x r ∧ size ≤ b2 ∧ CarriesBlock (body.take bodyLen) 5 num size x := by
  have hs1 := step_rel h1
  obtain ⟨d, u, L, r, -, hgot, hask, hta, hg, hB, hreg, -, hst, hsd⟩ := call_outcome happ1 hr.tidy hs1 hc
  have hkn : AllKnown m1 := by
    rcases generate_calls hg with h | ⟨h, -⟩
    · cases h
    · exact h
  have hres : r.err = none → ServeMsg (body.take bodyLen) 5 b2 r.resp ∧ ServeBlk (body.take bodyLen) 5 b2 r.blk := by
    intro he
    rcases handleBlockwise_get hget (generate_app hreg hkn (hh u) hg) with ⟨hx, -⟩ | ⟨blk, L2, hT, hnx⟩
    · exact absurd he hx
    · have hso : Sorted resp.ops := by
        have := happ1.handle u m1
        rw [hh u] at this
        exact this.sorted
      exact serve_res hT (Nat.le_refl _) hnb hso (nextBlockStep_cases hnx) he
  have htrack := serve_track (body.take bodyLen) 5 b2
  have hi : Tracks (ServeMsg (body.take bodyLen) 5 b2) (ServeBlk (body.take bodyLen) 5 b2) s1 a := by
    intro t ht
    rcases hst with hst | ⟨he, t', ht', hb, hp⟩
    · rw [hst] at ht; cases ht
    · rw [ht'] at ht
      cases ht
      rw [hb, hp]
      exact ⟨Or.inr ⟨hB.final hgot.1.fields.1, (htrack env1).final _ _ _ _ (hres he).1⟩, (hres he).2⟩
  have hfin : ∀ x r, Built x → ServeMsg (body.take bodyLen) 5 b2 x → Formats x r → IsError4 r ∨
      ∃ x num size, Built x ∧ Formats x r ∧ size ≤ b2 ∧ CarriesBlock (body.take bodyLen) 5 num size x := by
    intro x r hx hm hf
    rcases hm with hm | ⟨num, size, g1, g2⟩
    · obtain ⟨buf, n, g1, rfl⟩ := hf
      left
      rw [(format_take g1).2]
      exact ⟨_, hx.header, hm⟩
    · exact Or.inr ⟨x, num, size, hx, hf, g1, g2⟩
  obtain ⟨-, hrun⟩ := hi.run (fun x hx => ⟨htrack x.1, happ x hx⟩) (hs1.tidy hr.tidy) h2 hn
  intro o ho r' hr'
  rcases List.mem_cons.1 ho with rfl | ho
  · rcases hsd r' hr' with h | ⟨he, rfl, hs⟩
    · exact Or.inl h
    · exact Or.inr (hfin _ _ (hB.final hgot.1.fields.1) ((htrack env1).final _ _ _ _ (hres he).1) hs.formats)
  · rcases hrun o ho r' hr' with h | ⟨x, g1, g2, g3⟩
    · exact Or.inl h
    · exact Or.inr (hfin x r' g1 g2 g3)

/-- A server whose pool has a buffer for every place, an application that answers the first
request with a body, and a sender that asks for block 0, 1, 2, ... of the same size. Between
its requests anything may happen as long as the server does not forget the sender and the
sender only repeats its last request. Then every block is sent, and the payloads make up the
body. -/
theorem C28_download (sx : Bool) (id0 : Nat) (sepList : List Bytes) (nbuf len : Nat) (pool : Mem.Pool) (hp : PoolOf nbuf len pool)
    (h8 : 8 ≤ nbuf) (evs : List (Env × Event)) (s0 s' : Srv) (tr0 tr : List (List Obs))
    (hr : run sx (init id0 sepList pool) evs = .ok (s0, tr0)) (a : Addr) (q : Asked) (rs : List Asked)
    (resp : Msg) (b1 b2 : Nat) (body : Bytes) (rx : Option Nat) (uri : Bytes) (size : Nat) (hsz : BlockSize size)
    (hA : ∀ x ∈ q :: rs, AsksFor sx 1 uri x)
    (hnew : NewRequest sx evs a q.d q.m) (h0 : q.m.msgId ≠ 0) (htr : ¬ Transfer s0 a)
    (hh : ∀ t, q.env.handle t q.m = .blockwise resp b1 b2 body body.length rx) (hro : resp.ops = [])
    (hb1 : b1 = 0 ∨ BlockSize b1) (hb2 : BlockSize b2) (hlen : body.length ≤ len)
    (hfirst : (AsksBlock2 q.m 0 size ∧ size ≤ b2) ∨ (NoBlock2 q.m ∧ size = b2))
    (hrest : ∀ j x, rs[j]? = some x → AsksBlock2 x.m (j + 1) size)
    (hnum : rs.length = body.length / size)
    (hmid : ∀ x ∈ q.mid, OnlyRepeats sx a q.m.msgId x) (hch : Chain sx a q.m.msgId rs)
    (hk : ∀ s1 o1 e1, step sx s0 q.env (.datagram a q.d) = .ok (s1, o1, e1) → Kept sx a s1 (q.mid ++ script a rs))
    (h : run sx s0 (script a (q :: rs)) = .ok (s', tr)) :
    ∃ xs : List Msg, xs.length = rs.length + 1 ∧ xs.flatMap (·.payload) = body ∧
      ∀ j x, xs[j]? = some x → CarriesBlock body 5 j size x ∧ ∃ o ∈ tr, ∃ r, (a, r) ∈ sends o ∧ Formats x r := by
  have hR : Reach sx evs s0 tr0 := ⟨id0, sepList, pool, hr⟩
  obtain ⟨W, st, st', r1, r2, hp⟩ := hp
  obtain ⟨base, hi0⟩ := init_sinv (id := id0) (sepList := sepList) hp
  have hi := run_sinv (init_tidy _ _ _) hi0 hr
  have hq := hA q (by simp)
  have e1 : script a (q :: rs) = (q.env, .datagram a q.d) :: (q.mid ++ script a rs) := by simp [script]
  rw [e1] at h
  obtain ⟨s1, o, e, tr1, g1, g2, rfl⟩ := run_cons h
  have hs1 := step_rel g1
  obtain ⟨s2, t2, t3, g3, g4, rfl, -⟩ := run_append g2
  obtain ⟨o2, ho2, hn2, hsz2⟩ : ∃ o2, parseBlockOp BLOCK2 q.m.ops = .ok o2 ∧ numOf o2 = 0 ∧ sizeOf2 o2 b2 = size := by
    rcases hfirst with ⟨⟨more, h1⟩, h2⟩ | ⟨h1, h2⟩
    · exact ⟨_, h1, rfl, Nat.min_eq_left h2⟩
    · exact ⟨none, parseBlockOp_none h1, rfl, h2.symm⟩
  obtain ⟨-, x, r, f1, f2, -, f4, f5⟩ := serve_start hR.tidy hi h8 hs1 htr hq.noFault hnew.carries hnew.request.1 h0
    (hnew.fresh h0 hR) hq.known hq.method hh hro hb1 hb2 hlen hq.block1 o2 ho2 hn2
  rw [hsz2, List.take_of_length_le (Nat.le_refl _)] at f4 f5
  rw [hq.path] at f5
  have hx : CarriesBlock body 5 0 size x ∧ ∃ o' ∈ o :: (t2 ++ t3), ∃ r, (a, r) ∈ sends o' ∧ Formats x r :=
    ⟨f4, o, by simp, r, by rw [f1]; simp, f2⟩
  have key : ∃ xs : List Msg, xs.length = rs.length + 1 ∧
      ∀ j x, xs[j]? = some x → CarriesBlock body 5 j size x ∧ ∃ o' ∈ o :: (t2 ++ t3), ∃ r, (a, r) ∈ sends o' ∧ Formats x r := by
    by_cases hmore : size ≤ body.length
    · obtain ⟨hkm, hkr⟩ := (hk s1 o e g1).append g3
      have hs2 := (f5 hmore).run (hs1.tidy hR.tidy) g3 hkm hmid
      obtain ⟨xs, y1, y2⟩ := serve_all hsz rs s2 s' t3 q.m.msgId 1 (run_tidy (hs1.tidy hR.tidy) g3)
        (by rw [Nat.one_mul]; exact hs2) (by omega)
        (fun j x hj => ⟨hA x (by simp [List.mem_of_getElem? hj]), by rw [Nat.add_comm]; exact hrest j x hj⟩) hch hkr g4
      refine ⟨x :: xs, by simp [y1], ?_⟩
      intro j y hj
      cases j with
      | zero => simp at hj; subst hj; exact hx
      | succ j =>
        simp at hj
        obtain ⟨z1, o', z2, z3⟩ := y2 j y hj
        rw [Nat.add_comm]
        exact ⟨z1, o', by simp [z2], z3⟩
    · have hrs : rs = [] := List.eq_nil_of_length_eq_zero (by rw [hnum]; exact Nat.div_eq_of_lt (by omega))
      subst hrs
      refine ⟨[x], rfl, ?_⟩
      intro j y hj
      cases j with
      | zero => simp at hj; subst hj; exact hx
      | succ j => simp at hj
  obtain ⟨xs, k1, k2⟩ := key
  refine ⟨xs, k1, ?_, k2⟩
  have hxs : xs.map (·.payload) = (List.range (body.length / size + 1)).map (fun i => (body.drop (i * size)).take size) := by
    apply List.ext_getElem?
    intro j
    rw [List.getElem?_map, List.getElem?_map]
    cases hj : xs[j]? with
    | none =>
      rw [List.getElem?_eq_none_iff] at hj
      rw [List.getElem?_eq_none (by rw [List.length_range]; omega)]
      rfl
    | some y =>
      have hlt : j < xs.length := by
        rw [List.getElem?_eq_some_iff] at hj
        exact hj.1
      rw [List.getElem?_eq_getElem (by rw [List.length_range]; omega), List.getElem_range]
      simp only [Option.map_some]
      rw [(k2 j y hj).1.payload]
  rw [List.flatMap_def, hxs, ← List.flatMap_def, blocks_concat _ _ hsz.pos]

/-- The messages in the datagrams above. -/
def exM0 : Msg := ⟨1, CON, 0, 1, 5, [], [⟨11, [97]⟩], []⟩
def exM1 : Msg := ⟨1, CON, 0, 1, 6, [], [⟨11, [97]⟩, ⟨23, [0x10]⟩], []⟩
def exM2 : Msg := ⟨1, CON, 0, 1, 7, [], [⟨11, [97]⟩, ⟨23, [0x20]⟩], []⟩

/-- The first request is repeated, and another sender asks for something. -/
def exQ0 : Asked := ⟨exBlock, exB0, exM0, [(exEnv, .datagram exA exB0), (exEnv, .datagram [2] exGetB)]⟩
def exQ1 : Asked := ⟨exBlock, exB1, exM1, [(exEnv, .timer 0)]⟩
def exQ2 : Asked := ⟨exBlock, exB2, exM2, []⟩

theorem exBlock_noFault : NoFault exBlock := ⟨⟨rfl, rfl, rfl⟩, rfl, rfl, rfl, rfl, rfl, rfl, rfl, rfl, rfl, rfl⟩

theorem exBlock_app : AppOK exBlock := by
  refine ⟨fun t m => ?_, fun id body e req resp h => ?_⟩
  · constructor <;> simp [exBlock, exEnv, HAct.resp, create, destroyed, Sorted]
  · exact ⟨h.ver, h.type, by simp [exBlock, exEnv], by simp [exBlock, exEnv], h.msgId, h.token, h.sorted⟩

theorem exCarries : Carries true exB0 exM0 ∧ Carries true exB1 exM1 ∧ Carries true exB2 exM2 := by
  refine ⟨?_, ?_, ?_⟩ <;> unfold Carries <;> decide +kernel

theorem exAsks : ∀ x ∈ [exQ0, exQ1, exQ2], AsksFor true 1 [47, 97] x := by
  intro x hx
  simp only [List.mem_cons, List.not_mem_nil, or_false] at hx
  rcases hx with rfl | rfl | rfl
  · exact ⟨exBlock_noFault, exCarries.1, by decide, by decide, rfl, by decide +kernel, none, by decide +kernel⟩
  · exact ⟨exBlock_noFault, exCarries.2.1, by decide, by decide, rfl, by decide +kernel, none, by decide +kernel⟩
  · exact ⟨exBlock_noFault, exCarries.2.2, by decide, by decide, rfl, by decide +kernel, none, by decide +kernel⟩

/-- The theorem applies to this download: the three blocks of 16, 16 and 8 bytes are sent. -/
example : ∃ s' tr, run true exInit (script exA [exQ0, exQ1, exQ2]) = .ok (s', tr) ∧
    ∃ xs : List Msg, xs.length = 3 ∧ xs.flatMap (·.payload) = (List.range 40).map UInt8.ofNat ∧
      ∀ j x, xs[j]? = some x → CarriesBlock ((List.range 40).map UInt8.ofNat) 5 j 16 x ∧ ∃ o ∈ tr, ∃ r, (exA, r) ∈ sends o ∧ Formats x r := by
  have hrun : test (run true exInit (script exA [exQ0, exQ1, exQ2])) (fun _ => true) = true := by decide +kernel
  obtain ⟨⟨s', tr⟩, h, -⟩ := test_ok hrun
  have hrep : (match arrived true exA (exEnv, .datagram exA exB0) with | some m => m.msgId == 5 | none => true) = true := by decide +kernel
  have hoth : arrived true exA (exEnv, .datagram [2] exGetB) = none := by decide +kernel
  refine ⟨s', tr, h, C28_download true 100 exSep 8 64 exPool exPool_of (by decide) [] exInit s' [] tr rfl exA exQ0 [exQ1, exQ2] create 16 16
    ((List.range 40).map UInt8.ofNat) (some 1) [47, 97] 16 ⟨0, by decide, rfl⟩ exAsks ⟨exCarries.1, by decide, by intro m hm; cases hm⟩ (by decide) ?_
    (fun t => rfl) rfl (Or.inr ⟨0, by decide, rfl⟩) ⟨0, by decide, rfl⟩ (by decide) (Or.inr ⟨by unfold NoBlock2; decide, rfl⟩) ?_ (by decide) ?_ ?_ ?_ h⟩
  · rintro ⟨t, ht, -⟩
    have : ofAddr exInit exA = none := by decide +kernel
    rw [this] at ht
    cases ht
  · intro j x hj
    match j with
    | 0 => simp at hj; subst hj; exact ⟨false, by decide +kernel⟩
    | 1 => simp at hj; subst hj; exact ⟨false, by decide +kernel⟩
    | j + 2 => simp at hj
  · intro x hx m hm hm2
    simp only [exQ0, List.mem_cons, List.not_mem_nil, or_false] at hx
    rcases hx with rfl | rfl
    · rw [hm] at hrep; exact (by simpa using hrep : m.msgId = 5)
    · rw [hoth] at hm; cases hm
  · refine ⟨by decide, ?_, by decide, ?_, trivial⟩
    · intro x hx m hm
      simp only [exQ1, List.mem_cons, List.not_mem_nil, or_false] at hx
      subst hx
      cases hm
    · intro x hx
      cases hx
  · have hk : test (step true exInit exBlock (.datagram exA exB0)) (fun r => keptB true exA r.1 (exQ0.mid ++ script exA [exQ1, exQ2])) = true := by
      decide +kernel
    intro s1 o1 e1 h1
    obtain ⟨r, hr, hk⟩ := test_ok hk
    rw [show exQ0.env = exBlock from rfl, show exQ0.d = exB0 from rfl, hr] at h1
    cases h1
    exact kept_of hk

/-- `C28_only_blocks` applies: the application is called for the first request and not for
the others. -/
example : test (run true exInit (script exA [exQ0, exQ1, exQ2])) (fun r =>
    (r.2.map (fun o => (calls o).filter (·.1 == exA))) == [[(exA, exM0)], [], [], [], [], []]) = true := by
  decide +kernel

example : NoBlock2 create := by intro o ho; cases ho

end FreeCoAP.Server
