import Verif.Server.LemmasCollect
import Verif.Server.Props4

/-!
# Properties of the server: uploads in blocks (C29)
-/

namespace FreeCoAP.Server

open FreeCoAP.Msg

/-! ## C29 A blockwise upload delivers the body -/

/-- Whatever the history: after the application has answered a PUT or POST request `m1` that
it takes a body, and until it is called again for this sender, it is passed at most one body
of this sender; the body is passed to the callback it gave; and it is the concatenation of
the payloads of messages that arrived from this sender in this order, `m1` first, each for
the same resource and beginning where the one before ended, the last and only the last
without the more flag. -/
theorem C29_body (sx : Bool) (evs : List (Env × Event)) (s0 s1 s2 : Srv) (tr0 tr2 : List (List Obs)) (hr : Reach sx evs s0 tr0)
    (env1 : Env) (ev1 : Event) (o1 : List Obs) (e1 : Option Err) (h1 : step sx s0 env1 ev1 = .ok (s1, o1, e1))
    (a : Addr) (m1 : Msg) (hc : (a, m1) ∈ calls o1) (hput : m1.codeDetail = 2 ∨ m1.codeDetail = 3)
    (resp : Msg) (b1 b2 : Nat) (body : Bytes) (bodyLen : Nat) (rx : Option Nat)
    (hh : ∀ t, env1.handle t m1 = .blockwise resp b1 b2 body bodyLen rx) (happ1 : AppOK env1)
    (evs2 : List (Env × Event)) (h2 : run sx s1 evs2 = .ok (s2, tr2))
    (hn : ∀ o ∈ tr2, ∀ m, (a, m) ∉ calls o) :
    ((o1 :: tr2).flatMap (bodiesOf a)).length ≤ 1 ∧
    ∀ (k : Nat) (o : List Obs), (o1 :: tr2)[k]? = some o → ∀ id x, (a, id, x) ∈ bodies o →
      rx = some id ∧ ∃ ms, ms.Sublist (m1 :: (evs2.take k).filterMap (arrived sx a)) ∧ ms.head? = some m1 ∧
        Whole m1.codeDetail (cpath 256 m1.ops) b1 ms ∧ x = joined ms := by
  have hs1 := step_rel h1
  obtain ⟨d, u, L, r, -, hgot, hask, hta, hg, hB, hreg, hbod, hst, -⟩ := call_outcome happ1 hr.tidy hs1 hc
  have hkn : AllKnown m1 := by
    rcases generate_calls hg with h | ⟨h, -⟩
    · cases h
    · exact h
  have hres : (r.err = none → TakeInv m1.codeDetail (clearBlockwise u.blk L).2.pool.len b1 (cpath 256 m1.ops) rx m1 [m1] r.blk) ∧
      r.rx.length ≤ 1 ∧ (∀ y ∈ r.rx, BodyOK m1.codeDetail b1 (cpath 256 m1.ops) rx m1 [m1] y) ∧ (r.rx ≠ [] → NotTaking r.blk) := by
    rcases handleBlockwise_put hput (generate_app hreg hkn (hh u) hg) with ⟨hx, g2, g3, -⟩ | ⟨blk, L2, hT, hnx⟩
    · rw [g2, g3]
      exact ⟨fun h => absurd h hx, by simp, by simp, by simp⟩
    · exact taken_inv (hist := []) (ms := []) (List.Sublist.refl _) (by simp) (fun _ => rfl) .start (collect_step hT (nextBlockStep_cases hnx))
  obtain ⟨q1, q2, q3, q4⟩ := hres
  have hb1 : bodiesOf a o1 = r.rx.map (fun x => (a, x)) := by unfold bodiesOf; rw [hbod, bodiesOf_map]
  have hinv : ∀ t, ofAddr s1 a = some t →
      TakeInv m1.codeDetail (clearBlockwise u.blk L).2.pool.len b1 (cpath 256 m1.ops) rx m1 [m1] t.blk ∧ (r.rx ≠ [] → NotTaking t.blk) := by
    intro t ht
    rcases hst with hst | ⟨he, t', ht', hb, -⟩
    · rw [hst] at ht; cases ht
    · rw [ht'] at ht
      cases ht
      rw [hb]
      exact ⟨q1 he, q4⟩
  have ht1 := hs1.tidy hr.tidy
  obtain ⟨r1, r2⟩ := collect_run ht1 h2 (fun t ht => (hinv t ht).1) hn
  refine ⟨?_, ?_⟩
  · rw [List.flatMap_cons, hb1, List.length_append, List.length_map]
    by_cases hl : r.rx = []
    · rw [hl]; simpa using r1
    · rw [idle_run ht1 h2 (fun t ht => (hinv t ht).2 hl) hn]
      simpa using q2
  · intro k o ho id x hx
    cases k with
    | zero =>
      simp only [List.getElem?_cons_zero, Option.some.injEq] at ho
      subst ho
      rw [hbod, List.mem_map] at hx
      obtain ⟨y, hy, hyx⟩ := hx
      cases hyx
      exact q3 _ hy
    | succ k =>
      simp only [List.getElem?_cons_succ] at ho
      exact r2 k o ho (id, x) hx

/-- A request that does not continue the sequence is answered 4.08. In an upload in which
`got` has been received in blocks of `size` bytes, or that the request begins, a request for
the same resource whose block does not begin where the bytes received end is answered 4.08,
the upload is over and the application is passed nothing. -/
theorem C29_order (sx : Bool) (id0 : Nat) (sepList : List Bytes) (nbuf room : Nat) (pool : Mem.Pool) (hp : PoolOf nbuf room pool)
    (h8 : 8 ≤ nbuf) (evs : List (Env × Event)) (s s' : Srv) (tr : List (List Obs)) (hr : run sx (init id0 sepList pool) evs = .ok (s, tr))
    (env : Env) (a : Addr) (d : Bytes) (m : Msg) (o : List Obs) (e : Option Err) (hf : NoFault env) (hn : NewRequest sx evs a d m)
    (h0 : m.msgId ≠ 0) (hk : AllKnown m) (method : Nat) (uri : Bytes) (rx : Option Nat) (got : Bytes) (size : Nat) (hsz : BlockSize size)
    (hE : Expects s env a m method uri rx room got size) (ob : Option Block) (h1 : parseBlockOp BLOCK1 m.ops = .ok ob) (h2 : Block2OK m)
    (hme : m.codeDetail = method) (hu : cpath 256 m.ops = uri) (hord : numOf ob * sizeOf2 ob size ≠ got.length)
    (h : step sx s env (.datagram a d) = .ok (s', o, e)) :
    e = none ∧ (∃ y h, sends o = (if m.type = CON ∧ Separate s.sepList m then [(a, emptyAck m.msgId)] else []) ++ [(a, y)] ∧
      header y = some h ∧ h.cls = 4 ∧ h.detail = 8 ∧ Answers s.sepList m h) ∧ bodiesOf a o = [] ∧ ¬ Transfer s' a := by
  have hR : Reach sx evs s tr := ⟨id0, sepList, pool, hr⟩
  obtain ⟨W, st, st', r1, r2, hp⟩ := hp
  obtain ⟨base, hi0⟩ := init_sinv (id := id0) (sepList := sepList) hp
  exact receive_bad hR.tidy (run_sinv (init_tidy _ _ _) hi0 hr) h8 (step_rel h) hf hn.carries hn.request.1 (fun _ => h0) (hn.fresh h0 hR) hk hsz hE
    h1 h2 hme hu (Or.inl ⟨hord, rfl⟩)

/-- A request that continues the sequence but does not fit the buffer is answered 4.13. -/
theorem C29_large (sx : Bool) (id0 : Nat) (sepList : List Bytes) (nbuf room : Nat) (pool : Mem.Pool) (hp : PoolOf nbuf room pool)
    (h8 : 8 ≤ nbuf) (evs : List (Env × Event)) (s s' : Srv) (tr : List (List Obs)) (hr : run sx (init id0 sepList pool) evs = .ok (s, tr))
    (env : Env) (a : Addr) (d : Bytes) (m : Msg) (o : List Obs) (e : Option Err) (hf : NoFault env) (hn : NewRequest sx evs a d m)
    (h0 : m.msgId ≠ 0) (hk : AllKnown m) (method : Nat) (uri : Bytes) (rx : Option Nat) (got : Bytes) (size : Nat) (hsz : BlockSize size)
    (hE : Expects s env a m method uri rx room got size) (ob : Option Block) (h2 : Block2OK m)
    (hc : Continues method uri got.length size ob m) (hl : room < got.length + m.payload.length)
    (h : step sx s env (.datagram a d) = .ok (s', o, e)) :
    e = none ∧ (∃ y h, sends o = (if m.type = CON ∧ Separate s.sepList m then [(a, emptyAck m.msgId)] else []) ++ [(a, y)] ∧
      header y = some h ∧ h.cls = 4 ∧ h.detail = 13 ∧ Answers s.sepList m h) ∧ bodiesOf a o = [] ∧ ¬ Transfer s' a := by
  have hR : Reach sx evs s tr := ⟨id0, sepList, pool, hr⟩
  obtain ⟨W, st, st', r1, r2, hp⟩ := hp
  obtain ⟨base, hi0⟩ := init_sinv (id := id0) (sepList := sepList) hp
  exact receive_bad hR.tidy (run_sinv (init_tidy _ _ _) hi0 hr) h8 (step_rel h) hf hn.carries hn.request.1 (fun _ => h0) (hn.fresh h0 hR) hk hsz hE
    hc.option h2 hc.meth hc.path (Or.inr (Or.inr ⟨hc.start, hc.payload, hl, rfl⟩))

/-- A sender that sends the blocks of a body in order has each of them but the last confirmed
with 2.31, and the application is passed the whole body. Between its requests anything may
happen as long as the server does not forget the sender and the sender only repeats its
last request. -/
theorem C29_upload (sx : Bool) (id0 : Nat) (sepList : List Bytes) (nbuf room : Nat) (pool : Mem.Pool) (hp : PoolOf nbuf room pool)
    (h8 : 8 ≤ nbuf) (evs : List (Env × Event)) (s0 s' : Srv) (tr0 tr : List (List Obs))
    (hr : run sx (init id0 sepList pool) evs = .ok (s0, tr0)) (a : Addr) (q : Asked) (rs : List Asked)
    (method : Nat) (uri : Bytes) (rx : Option Nat) (b1 size : Nat) (hb1 : BlockSize b1) (hsz : BlockSize size) (hle : size ≤ b1)
    (hnew : NewRequest sx evs a q.d q.m) (h0 : q.m.msgId ≠ 0) (hs : Starts s0 q.env a q.m method uri rx room b1)
    (hA : ∀ j x, (q :: rs)[j]? = some x → AsksFor sx method uri x ∧ Block2OK x.m ∧ AsksBlock1 x.m j (decide (j < rs.length)) size ∧
      x.m.payload ≠ [] ∧ (j < rs.length → x.m.payload.length = size))
    (hroom : (joined ((q :: rs).map (·.m))).length ≤ room)
    (hmid : ∀ x ∈ q.mid, OnlyRepeats sx a q.m.msgId x) (hch : Chain sx a q.m.msgId rs)
    (hk : ∀ s1 o1 e1, step sx s0 q.env (.datagram a q.d) = .ok (s1, o1, e1) → rs ≠ [] → Kept sx a s1 (q.mid ++ script a rs))
    (h : run sx s0 (script a (q :: rs)) = .ok (s', tr)) :
    (∃ id, rx = some id ∧ ∃ o ∈ tr, bodiesOf a o = [(a, id, joined ((q :: rs).map (·.m)))]) ∧
    ∀ j, j < rs.length → ∃ x, Confirms j size x ∧ ∃ o ∈ tr, ∃ y, (a, y) ∈ sends o ∧ Formats x y := by
  have hR : Reach sx evs s0 tr0 := ⟨id0, sepList, pool, hr⟩
  obtain ⟨W, st, st', r1, r2, hp⟩ := hp
  obtain ⟨base, hi0⟩ := init_sinv (id := id0) (sepList := sepList) hp
  have := receive_all h8 hsz q rs s0 s' tr 0 b1 [] hR.tidy (run_sinv (init_tidy _ _ _) hi0 hr) hb1 hle (Or.inr ⟨rfl, hs⟩) (by simp)
    (by simpa using hroom) (by simpa using hA) (fun _ => h0) (hnew.fresh h0 hR) hmid hch hk h
  simpa using this

/-! A PUT to "a" with the ids 5 and 6: blocks 0 (16 bytes, more) and 1 (4 bytes). -/
def exP0 : Bytes := [0x40, 0x03, 0, 5, 0xB1, 97, 0xD1, 3, 0x08, 0xFF] ++ List.replicate 16 1
def exP1 : Bytes := [0x40, 0x03, 0, 6, 0xB1, 97, 0xD1, 3, 0x10, 0xFF, 2, 2, 2, 2]
def exU0 : Msg := ⟨1, CON, 0, 3, 5, [], [⟨11, [97]⟩, ⟨27, [0x08]⟩], List.replicate 16 1⟩
def exU1 : Msg := ⟨1, CON, 0, 3, 6, [], [⟨11, [97]⟩, ⟨27, [0x10]⟩], [2, 2, 2, 2]⟩
def exR0 : Asked := ⟨exBlock, exP0, exU0, [(exEnv, .datagram exA exP0), (exEnv, .datagram [2] exGetB)]⟩
def exR1 : Asked := ⟨exBlock, exP1, exU1, []⟩

theorem exUCarries : Carries true exP0 exU0 ∧ Carries true exP1 exU1 := by
  refine ⟨?_, ?_⟩ <;> unfold Carries <;> decide +kernel

theorem exUAsks : ∀ j x, [exR0, exR1][j]? = some x → AsksFor true 3 [47, 97] x ∧ Block2OK x.m ∧ AsksBlock1 x.m j (decide (j < 1)) 16 ∧
      x.m.payload ≠ [] ∧ (j < 1 → x.m.payload.length = 16) := by
  intro j x hj
  match j with
  | 0 =>
    simp only [List.getElem?_cons_zero, Option.some.injEq] at hj
    subst hj
    exact ⟨⟨exBlock_noFault, exUCarries.1, by decide, by decide, rfl, by decide +kernel, some ⟨0, true, 16⟩, by decide +kernel⟩, ⟨none, by decide +kernel⟩,
      by unfold AsksBlock1; decide +kernel, by decide, fun _ => by decide⟩
  | 1 =>
    simp only [List.getElem?_cons_succ, List.getElem?_cons_zero, Option.some.injEq] at hj
    subst hj
    exact ⟨⟨exBlock_noFault, exUCarries.2, by decide, by decide, rfl, by decide +kernel, some ⟨1, false, 16⟩, by decide +kernel⟩, ⟨none, by decide +kernel⟩,
      by unfold AsksBlock1; decide +kernel, by decide, fun h => absurd h (by decide)⟩
  | j + 2 => simp at hj

theorem exStarts : Starts exInit exBlock exA exU0 3 [47, 97] (some 1) 64 16 := by
  refine ⟨?_, rfl, Or.inr rfl, by decide +kernel, create, 16, _, 40, fun _ => rfl, rfl, by decide, Or.inr ⟨0, by decide, rfl⟩, by decide, by decide⟩
  rintro ⟨t, ht, -⟩
  have : ofAddr exInit exA = none := by decide +kernel
  rw [this] at ht
  cases ht

/-- The theorem applies to this upload. -/
example : ∃ s' tr, run true exInit (script exA [exR0, exR1]) = .ok (s', tr) ∧
    (∃ id, some 1 = some id ∧ ∃ o ∈ tr, bodiesOf exA o = [(exA, id, joined [exU0, exU1])]) ∧
    ∀ j, j < 1 → ∃ x, Confirms j 16 x ∧ ∃ o ∈ tr, ∃ y, (exA, y) ∈ sends o ∧ Formats x y := by
  have hrun : test (run true exInit (script exA [exR0, exR1])) (fun _ => true) = true := by decide +kernel
  obtain ⟨⟨s', tr⟩, h, -⟩ := test_ok hrun
  have hrep : (match arrived true exA (exEnv, .datagram exA exP0) with | some m => m.msgId == 5 | none => true) = true := by decide +kernel
  have hoth : arrived true exA (exEnv, .datagram [2] exGetB) = none := by decide +kernel
  refine ⟨s', tr, h, C29_upload true 100 exSep 8 64 exPool exPool_of (by decide) [] exInit s' [] tr rfl exA exR0 [exR1] 3 [47, 97] (some 1) 16 16
    ⟨0, by decide, rfl⟩ ⟨0, by decide, rfl⟩ (by decide) ⟨exUCarries.1, by decide, by intro m hm; cases hm⟩ (by decide) exStarts exUAsks
    (by decide) ?_ ⟨by decide, ⟨(by intro x hx; cases hx), trivial⟩⟩ ?_ h⟩
  · intro x hx m hm hm2
    simp only [exR0, List.mem_cons, List.not_mem_nil, or_false] at hx
    rcases hx with rfl | rfl
    · rw [hm] at hrep; exact (by simpa using hrep : m.msgId = 5)
    · rw [hoth] at hm; cases hm
  · have hk : test (step true exInit exBlock (.datagram exA exP0)) (fun r => keptB true exA r.1 (exR0.mid ++ script exA [exR1])) = true := by
      decide +kernel
    intro s1 o1 e1 h1 _
    obtain ⟨r, hr, hk⟩ := test_ok hk
    rw [show exR0.env = exBlock from rfl, show exR0.d = exP0 from rfl, hr] at h1
    cases h1
    exact kept_of hk

/-- `C29_body` applies: one call of the application and one body of 20 bytes. -/
example : test (run true exInit (script exA [exR0, exR1])) (fun r =>
    (r.2.map (fun o => (calls o).filter (·.1 == exA))) == [[(exA, exU0)], [], [], []] &&
    (r.2.map (bodiesOf exA)) == [[], [], [], [(exA, 1, List.replicate 16 1 ++ [2, 2, 2, 2])]]) = true := by
  decide +kernel

/-- Block 2 instead of block 1, and a block that does not fit the 64 bytes of the buffer. -/
def exP2 : Bytes := [0x40, 0x03, 0, 6, 0xB1, 97, 0xD1, 3, 0x20, 0xFF, 2, 2, 2, 2]
def exP3 : Bytes := [0x40, 0x03, 0, 6, 0xB1, 97, 0xD1, 3, 0x10, 0xFF] ++ List.replicate 49 3

/-- `C29_order` and `C29_large` apply after the first block. -/
example : test (run true exInit [(exBlock, .datagram exA exP0), (exBlock, .datagram exA exP2)]) (fun r =>
    (r.2.map sends).map (fun l => l.map (fun y => (header y.2).map (fun h => (h.cls, h.detail)))) == [[some (2, 31)], [some (4, 8)]]) = true := by
  decide +kernel
example : test (run true exInit [(exBlock, .datagram exA exP0), (exBlock, .datagram exA exP3)]) (fun r =>
    (r.2.map sends).map (fun l => l.map (fun y => (header y.2).map (fun h => (h.cls, h.detail)))) == [[some (2, 31)], [some (4, 13)]]) = true := by
  decide +kernel

/-- The request that begins the upload meets the hypotheses on the state. -/
example : Expects exInit exBlock exA exU0 3 [47, 97] (some 1) 64 [] 16 := Or.inr ⟨rfl, exStarts⟩

end FreeCoAP.Server
