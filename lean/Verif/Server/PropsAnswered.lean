import Verif.Server.LemmasAnswered
import Verif.Server.Props6

/-! # Every request is answered (C113) -/

namespace FreeCoAP.Server

open FreeCoAP.Msg

/-- C113 in full: after every history of a server with at least one buffer for each
transaction, whose application keeps to what is required of it, every new request that
arrives while nothing fails is answered. Transfers may be in progress, and the request may
have any options. -/
def C113_statement (sx : Bool) : Prop :=
  ∀ (id : Nat) (sepList : List Bytes) (pool : Mem.Pool) (num len : Nat) (evs : List (Env × Event)) (s s' : Srv) (tr : List (List Obs))
    (env : Env) (a : Addr) (d : Bytes) (m : Msg) (o : List Obs) (e : Option Err), 8 ≤ num → PoolOf num len pool →
    (∀ x ∈ evs, FitApp len x.1) → FitApp len env → run sx (init id sepList pool) evs = .ok (s, tr) → NoFault env →
    NewRequest sx evs a d m → step sx s env (.datagram a d) = .ok (s', o, e) → Answered s.sepList a m o e

/-- The application of the examples keeps to what is required. -/
theorem exEnv_fit (room : Nat) : FitApp room exEnv := by
  have hp : ∀ (x : Msg), x = { create with codeClass := 2, codeDetail := 5, payload := [104, 105] } → Neat x := by
    rintro x rfl
    exact ⟨by constructor <;> simp [create, destroyed, Sorted], show (2 : Nat) ≠ 0 by decide, show 2 ≤ 1024 by decide, Or.inl rfl⟩
  refine ⟨fun t m => ⟨rfl, (hp _ rfl).built, (hp _ rfl).canBeSent⟩, fun id body e req resp h => ?_⟩
  exact ⟨rfl, ⟨h.ver, h.type, show 2 < 8 by decide, show 4 < 32 by decide, h.msgId, h.token, h.sorted⟩, show (2 : Nat) ≠ 0 by decide, rfl, fun h => h⟩

/-- The code violates C113: the first request of a sender is taken for a duplicate if its id is 0. The answer to the duplicate is the
empty message of the new transaction. -/
theorem C113_violated (sx : Bool) : ¬ C113_statement sx := by
  intro h
  have hc : test (parse sx (recvBuf exZero) (min exZero.length BUF_LEN)) (fun m => decide (Request m ∧ m.type = CON ∧ m.msgId = 0 ∧ ¬ Separate exSep m)) = true := by
    cases sx <;> decide +kernel
  have key : test (step sx exInit exEnv (.datagram exA exZero)) (fun x => decide (sends x.2.1 = [(exA, [0x40, 0, 0, 0])])) = true := by
    cases sx <;> decide +kernel
  obtain ⟨m, hm, hq⟩ := test_ok hc
  obtain ⟨⟨s', o, e⟩, h1, h2⟩ := test_ok key
  simp only [decide_eq_true_eq] at hq h2
  obtain ⟨-, x, r, hd, g1, -, g2, g3⟩ := h 100 exSep exPool 8 64 [] exInit s' [] exEnv exA exZero m o e (by decide) exPool_of (by simp) (exEnv_fit 64) rfl
    exEnv_noFault ⟨hm, hq.1, by simp [lastRequest]⟩ h1
  rw [h2] at g1
  have hs : ¬ (m.type = CON ∧ Separate exInit.sepList m) := fun h => hq.2.2.2 h.2
  rw [if_neg hs, List.nil_append] at g1
  cases g1
  have : header [0x40, 0, 0, 0] = some ⟨CON, 0, 0, 0, []⟩ := by decide +kernel
  rw [this] at g2
  cases g2
  rcases g3.2 with ⟨-, -, h, -⟩ | ⟨-, h, -⟩ | ⟨h, -⟩
  · cases h
  · exact hq.2.2.2 h
  · rw [hq.2.1] at h; cases h

/-- The proved part: every new request whose id is not 0 is answered. -/
theorem C113_answered_partial (sx : Bool) (id : Nat) (sepList : List Bytes) (pool : Mem.Pool) (num len : Nat) (evs : List (Env × Event))
    (s s' : Srv) (tr : List (List Obs)) (env : Env) (a : Addr) (d : Bytes) (m : Msg) (o : List Obs) (e : Option Err) (h8 : 8 ≤ num)
    (hpool : PoolOf num len pool) (hA : ∀ x ∈ evs, FitApp len x.1) (ha : FitApp len env)
    (hr : run sx (init id sepList pool) evs = .ok (s, tr)) (hf : NoFault env) (hn : NewRequest sx evs a d m) (h0 : m.msgId ≠ 0)
    (h : step sx s env (.datagram a d) = .ok (s', o, e)) : Answered s.sepList a m o e := by
  have hR : Reach sx evs s tr := ⟨id, sepList, pool, hr⟩
  have ht := hR.tidy
  obtain ⟨W, st, st', r1, r2, hp⟩ := hpool
  obtain ⟨base, hi⟩ := init_sinv (id := id) (sepList := sepList) hp
  have hi := run_sinv' (init_tidy _ _ _) hi hr
  obtain ⟨u, L, r, o2, hu, hta, hg, -, -, hres⟩ := new_request ht (step_rel h) hn.carries hf.arrives hf.create
    (fun _ => hf.ack) hn.request.1 (fun _ => h0) (hn.fresh h0 hR)
  have hz : Sizes u.blk := by
    rcases hu with ⟨hu, -⟩ | ⟨-, rfl, -⟩
    · exact sizes_run hR hA a u hu
    · exact Sizes.none
  obtain ⟨k1, k2⟩ := generate_answer (t := cleared env u) ha hz hg
  have herr : r.err = none := by
    refine k2 hf (fun hreg _ => ?_)
    have gen := fun l (hl : l ≤ len) => room_for (l := l) ht hi h8 hu hreg hl
    refine ⟨?_, fun l hl => ?_⟩
    · obtain ⟨g1, g2, -⟩ := gen 0 (Nat.zero_le _)
      show len = (clearBlockwise u.blk L).2.pool.len
      rw [g1, g2]
    · obtain ⟨g1, -, p, L', g3⟩ := gen l hl
      exact ⟨p, L', by show (clearBlockwise u.blk L).2.alloc l = _; rw [g1, g3]⟩
  obtain ⟨-, hb, hc⟩ := k1 herr
  have hsend := hc.final (sepList := s.sepList) (env := env) (id := s.msgId) hn.carries.fields.1
  rcases hres with ⟨x, hx, -⟩ | ⟨-, hx, -⟩ | ⟨-, he, -, hs, -, hS, -⟩
  · rw [herr] at hx; cases hx
  · exact absurd hsend (hx hf.send hf.copyReq hf.copyResp hf.timer hb.cls hb.detail)
  · obtain ⟨hd, g1, g2⟩ := final_answers' (sepList := s.sepList) (env := env) (id := s.msgId) (resp := r.resp) hn.carries.fields.1 hn.request.1
    exact ⟨he, _, _, hd, hs, hS.formats, g1, g2⟩

/-- The same for a server whose application is safe and that gets only harmless datagrams (see C54): the history takes place, and the
request is answered. -/
theorem C113_served (sx : Bool) (id : Nat) (sepList : List Bytes) (pool : Mem.Pool) (num len : Nat) (evs : List (Env × Event))
    (env : Env) (a : Addr) (d : Bytes) (m : Msg) (h8 : 8 ≤ num) (hpool : PoolOf num len pool)
    (hA : ∀ x ∈ evs ++ [(env, .datagram a d)], FitApp len x.1 ∧ AppSafe x.1)
    (hd : ∀ x ∈ evs ++ [(env, .datagram a d)], ∀ a d, x.2 = .datagram a d → Harmless sx d)
    (hf : NoFault env) (hn : NewRequest sx evs a d m) (h0 : m.msgId ≠ 0) :
    ∃ s tr s' o, run sx (init id sepList pool) evs = .ok (s, tr) ∧ step sx s env (.datagram a d) = .ok (s', o, none) ∧
      Answered s.sepList a m o none := by
  obtain ⟨s', tr', h⟩ := C54_no_ub_partial sx id sepList pool (evs ++ [(env, .datagram a d)]) (fun x hx => (hA x hx).2) hd
  obtain ⟨s, t1, t2, g1, g2, -⟩ := run_append h
  obtain ⟨s1, o, e, t', g3, -⟩ := run_cons g2
  have := C113_answered_partial sx id sepList pool num len evs s s1 t1 env a d m o e h8 hpool
    (fun x hx => (hA x (List.mem_append_left _ hx)).1) (hA (env, .datagram a d) (by simp)).1 g1 hf hn h0 g3
  have he := this.1
  subst he
  exact ⟨s, t1, s1, o, g1, g3, this⟩

/-- What happens if the application starts a transfer in a wrong way: the event ends with the error, only the acknowledgement of a
separate response is sent, no body is passed to the application and the sender is forgotten. -/
theorem C113_refused (sx : Bool) (id : Nat) (sepList : List Bytes) (pool : Mem.Pool) (num room : Nat) (evs : List (Env × Event))
    (s s' : Srv) (tr : List (List Obs)) (env : Env) (a : Addr) (d : Bytes) (m : Msg) (o : List Obs) (e : Option Err) (h8 : 8 ≤ num)
    (hpool : PoolOf num room pool) (hr : run sx (init id sepList pool) evs = .ok (s, tr)) (hf : NoFault env) (hn : NewRequest sx evs a d m)
    (h0 : m.msgId ≠ 0) (hk : AllKnown m) (htr : ¬ Transfer s a) (resp : Msg) (b1 b2 : Nat) (body : Bytes) (len : Nat) (rx : Option Nat)
    (err : Err) (hh : ∀ t, env.handle t m = .blockwise resp b1 b2 body len rx) (hbad : BadStart room m b1 b2 len rx err)
    (h : step sx s env (.datagram a d) = .ok (s', o, e)) :
    e = some err ∧ sends o = (if m.type = CON ∧ Separate s.sepList m then [(a, emptyAck m.msgId)] else []) ∧ bodies o = [] ∧
      ofAddr s' a = none := by
  have hR : Reach sx evs s tr := ⟨id, sepList, pool, hr⟩
  have ht := hR.tidy
  obtain ⟨W, st, st', r1, r2, hp⟩ := hpool
  obtain ⟨base, hi⟩ := init_sinv (id := id) (sepList := sepList) hp
  have hi := run_sinv' (init_tidy _ _ _) hi hr
  obtain ⟨u, L, r, o2, hu, hta, hg, -, hbo, hres⟩ := new_request ht (step_rel h) hn.carries hf.arrives hf.create
    (fun _ => hf.ack) hn.request.1 (fun _ => h0) (hn.fresh h0 hR)
  have hreg : u.blk.type = .regular := by
    rcases hu with ⟨h1, -⟩ | ⟨-, rfl, -⟩
    · apply Classical.byContradiction
      intro hne
      exact htr ⟨u, h1, hne⟩
    · rfl
  have gen := fun l (hl : l ≤ room) => room_for (l := l) ht hi h8 hu hreg hl
  have hb := handleBlockwise_bad (b := u.blk) (L := L) hbad (by
    obtain ⟨g1, g2, -⟩ := gen 0 (Nat.zero_le _)
    rw [g1, g2]) (fun hl => by
    obtain ⟨g1, -, p, L', g3⟩ := gen len hl
    exact ⟨p, L', by rw [g1, g3]⟩) (generate_app (t := cleared env u) hreg hk (hh _) hg)
  rcases hres with ⟨x, hx, he, hno, hs⟩ | ⟨hx, -⟩ | ⟨hx, -⟩
  · rw [hb.1] at hx
    cases hx
    exact ⟨he, hs, by rw [hbo, hb.2]; rfl, hno⟩
  · rw [hb.1] at hx; cases hx
  · rw [hb.1] at hx; cases hx

/-- The application of the examples that uses transfers keeps to what is required. -/
theorem exBlock_fit : FitApp 64 exBlock :=
  ⟨fun t m => ⟨Built.create, rfl, Nat.zero_le _, show 40 ≤ 64 by decide, ⟨0, by decide, rfl⟩, Or.inl ⟨0, by decide, rfl⟩,
    fun _ => Option.some_ne_none 1⟩, fun id body e req resp h => (exEnv_fit 64).rx id body e req resp h⟩

/-- A DELETE with id 9 for "a". -/
def exDelete : Bytes := [0x40, 0x04, 0, 9, 0xB1, 97]

/-- A case that meets the hypotheses: the request comes in the middle of a download, while another sender uploads; it is answered 4.00
and the sender's next request begins again. -/
example : ∃ s tr s' o m, run true exInit [(exBlock, .datagram exA exB0), (exBlock, .datagram [2] exP0)] = .ok (s, tr) ∧ Transfer s exA ∧
    step true s exBlock (.datagram exA exDelete) = .ok (s', o, none) ∧ Answered s.sepList exA m o none ∧
    sends o = [(exA, [0x60, 0x80, 0, 9])] := by
  have hc : test (parse true (recvBuf exDelete) (min exDelete.length BUF_LEN)) (fun m => decide (Request m ∧ m.msgId = 9)) = true := by
    decide +kernel
  have hl : (match lastRequest true exA [(exBlock, .datagram exA exB0), (exBlock, .datagram [2] exP0)] with
      | some m => m.msgId == 5 | none => true) = true := by decide +kernel
  have key : test (run true exInit [(exBlock, .datagram exA exB0), (exBlock, .datagram [2] exP0)]) (fun x =>
      (match ofAddr x.1 exA with | some t => decide (t.blk.type ≠ .regular) | none => false) &&
      test (step true x.1 exBlock (.datagram exA exDelete)) (fun y => decide (sends y.2.1 = [(exA, [0x60, 0x80, 0, 9])]))) = true := by
    decide +kernel
  obtain ⟨m, hm, hq⟩ := test_ok hc
  obtain ⟨⟨s, tr⟩, h1, key⟩ := test_ok key
  rw [Bool.and_eq_true] at key
  obtain ⟨ht, key⟩ := key
  obtain ⟨⟨s', o, e⟩, h2, key⟩ := test_ok key
  simp only [decide_eq_true_eq] at hq key
  have := C113_answered_partial true 100 exSep exPool 8 64 [(exBlock, .datagram exA exB0), (exBlock, .datagram [2] exP0)] s s' tr exBlock exA
    exDelete m o e (by decide) exPool_of (by
      intro x hx
      simp only [List.mem_cons, List.not_mem_nil, or_false] at hx
      rcases hx with rfl | rfl <;> exact exBlock_fit) exBlock_fit h1 exBlock_noFault ⟨hm, hq.1, by
      intro m' hm'
      rw [hm'] at hl
      simp only [beq_iff_eq] at hl
      omega⟩ (by omega) h2
  have he := this.1
  subst he
  refine ⟨s, tr, s', o, m, h1, ?_, h2, this, key⟩
  split at ht
  · rename_i t hat
    exact ⟨t, hat, of_decide_eq_true ht⟩
  · cases ht

/-- An application that starts a transfer in blocks of 20 bytes, which do not exist, and one that gives no size. -/
def exOdd : Env := { exBlock with handle := fun _ _ => .blockwise create 16 20 [1, 2, 3] 3 none }
def exNoSize : Env := { exBlock with handle := fun _ _ => .blockwise create 16 0 [1, 2, 3] 3 none }

/-- Their calls are refused, and the GET request gets no answer. -/
example : (∃ m, BadStart 64 m 16 20 3 none .EINVAL) ∧
    test (step true exInit exOdd (.datagram exA exB0)) (fun x => decide (sends x.2.1 = [] ∧ x.2.2 = some .EINVAL)) = true ∧
    test (step true exInit exNoSize (.datagram exA exB0)) (fun x => decide (sends x.2.1 = [] ∧ x.2.2 = some .EINVAL)) = true := by
  refine ⟨⟨exM0, .size (Or.inr ?_)⟩, by decide +kernel, by decide +kernel⟩
  rintro (h | ⟨k, hk, h⟩)
  · cases h
  · revert hk
    have : ∀ k < 7, 20 ≠ 2 ^ (k + 4) := by decide
    exact fun hk => this k hk h

end FreeCoAP.Server
