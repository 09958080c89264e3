import Verif.Server.SpecVary
import Verif.Server.Props6

/-! # The client may change the size of the blocks during a transfer (C128) -/

namespace FreeCoAP.Server

open FreeCoAP.Msg

/-- The rest of a download in which the client chooses the size of the blocks. -/
theorem serve_vary {sx : Bool} {a : Addr} {uri body : Bytes} {fin method : Nat} :
    ∀ (rs : List Asked) (s s' : Srv) (tr : List (List Obs)) (id off size : Nat), BlockSize size → off ≠ 0 → Tidy s →
    Serving s a id method uri body fin off size → AsksBlocks body.length size off (rs.map (·.m)) →
    (∀ q ∈ rs, AsksFor sx method uri q) →
    Chain sx a id rs → Kept sx a s (script a rs) → run sx s (script a rs) = .ok (s', tr) →
    ∃ xs : List Msg, xs.length = rs.length ∧ xs.flatMap (·.payload) = body.drop off ∧
      ∀ (j : Nat) (x : Msg) (q : Asked), xs[j]? = some x → rs[j]? = some q → (∃ num z, AsksBlock2 q.m num z ∧ CarriesBlock body fin num z x) ∧
        ∃ o ∈ tr, ∃ r, (a, r) ∈ sends o ∧ Formats x r
  | [], s, s', tr, id, off, size, _, _, _, _, hs, _, _, _, _ => hs.elim
  | q :: rs, s, s', tr, id, off, size, hsz, hoff, ht, hs, hask, hq, hch, hk, hrun => by
    have hA := hq q (by simp)
    obtain ⟨c1, c2, c3⟩ := hch
    obtain ⟨num, z, hopt, hrest⟩ := hask
    obtain ⟨hB, hnum, hle⟩ : AsksBlock2 q.m num z ∧ num * z = off ∧ z ≤ size := by
      rcases hopt with ⟨h1, h2, h3⟩ | ⟨-, h, -⟩
      · exact ⟨h1, h2, h3 hoff⟩
      · exact absurd h hoff
    rw [Nat.min_eq_left hle] at hrest
    have hz : BlockSize z := by
      obtain ⟨more, hB⟩ := hB
      exact parseBlockOp_size hB
    have e1 : script a (q :: rs) = (q.env, .datagram a q.d) :: (q.mid ++ script a rs) := by simp [script]
    rw [e1] at hrun hk
    obtain ⟨s1, o, e, tr1, g1, g2, rfl⟩ := run_cons hrun
    obtain ⟨s2, t2, t3, g3, g4, rfl, -⟩ := run_append g2
    have hr := step_rel g1
    obtain ⟨-, x, r, f1, f2, -, f4, f5⟩ := serve_next ht hr hs hsz hA.noFault hA.carries hA.request.1 c1 hA.known hA.method hA.path
      hA.block1 hB (by rw [Nat.min_eq_left hle]; exact hnum)
    rw [Nat.min_eq_left hle] at f4 f5
    have hx : (∃ num z, AsksBlock2 q.m num z ∧ CarriesBlock body fin num z x) ∧ ∃ o' ∈ o :: (t2 ++ t3), ∃ r, (a, r) ∈ sends o' ∧ Formats x r :=
      ⟨⟨num, z, hB, f4⟩, o, by simp, r, by rw [f1]; simp, f2⟩
    have hpay : x.payload = (body.drop off).take z := by rw [f4.payload, hnum]
    have hnext : (num + 1) * z = off + z := by rw [Nat.add_mul, Nat.one_mul, hnum]
    by_cases hmore : off + z ≤ body.length
    · rw [if_pos hmore] at hrest
      obtain ⟨hkm, hkr⟩ := (hk.2 s1 o e g1).append g3
      have hs2 := (f5 (by rw [hnext]; exact hmore)).run (hr.tidy ht) g3 hkm c2
      obtain ⟨xs, y1, y2, y3⟩ := serve_vary rs s2 s' t3 q.m.msgId (off + z) z hz (by omega) (run_tidy (hr.tidy ht) g3) hs2 hrest
        (fun q' hq' => hq q' (by simp [hq'])) c3 hkr g4
      refine ⟨x :: xs, by simp [y1], ?_, ?_⟩
      · rw [List.flatMap_cons, y2, hpay, ← List.drop_drop, List.take_append_drop]
      · intro j y q' hj hj'
        cases j with
        | zero =>
          simp only [List.getElem?_cons_zero, Option.some.injEq] at hj hj'
          subst hj hj'
          exact hx
        | succ j =>
          simp only [List.getElem?_cons_succ] at hj hj'
          obtain ⟨z1, o', z2, z3⟩ := y3 j y q' hj hj'
          exact ⟨z1, o', by simp [z2], z3⟩
    · rw [if_neg hmore] at hrest
      have hrs : rs = [] := by simpa using hrest
      subst hrs
      refine ⟨[x], rfl, ?_, ?_⟩
      · rw [List.flatMap_cons, List.flatMap_nil, List.append_nil, hpay, List.take_of_length_le (by rw [List.length_drop]; omega)]
      · intro j y q' hj hj'
        cases j with
        | zero =>
          simp only [List.getElem?_cons_zero, Option.some.injEq] at hj hj'
          subst hj hj'
          exact hx
        | succ j => simp at hj

/-- Downloads, in full: a client that asks for the blocks of a resource in order, in whatever sizes, gets the resource. -/
theorem C128_download (sx : Bool) (id0 : Nat) (sepList : List Bytes) (nbuf len : Nat) (pool : Mem.Pool) (hp : PoolOf nbuf len pool)
    (h8 : 8 ≤ nbuf) (evs : List (Env × Event)) (s0 s' : Srv) (tr0 tr : List (List Obs))
    (hr : run sx (init id0 sepList pool) evs = .ok (s0, tr0)) (a : Addr) (q : Asked) (rs : List Asked)
    (resp : Msg) (b1 b2 : Nat) (body : Bytes) (rx : Option Nat) (uri : Bytes)
    (hA : ∀ x ∈ q :: rs, AsksFor sx 1 uri x) (hask : AsksBlocks body.length b2 0 ((q :: rs).map (·.m)))
    (hnew : NewRequest sx evs a q.d q.m) (h0 : q.m.msgId ≠ 0) (htr : ¬ Transfer s0 a)
    (hh : ∀ t, q.env.handle t q.m = .blockwise resp b1 b2 body body.length rx) (hro : resp.ops = [])
    (hb1 : b1 = 0 ∨ BlockSize b1) (hb2 : BlockSize b2) (hlen : body.length ≤ len)
    (hmid : ∀ x ∈ q.mid, OnlyRepeats sx a q.m.msgId x) (hch : Chain sx a q.m.msgId rs)
    (hk : ∀ s1 o1 e1, step sx s0 q.env (.datagram a q.d) = .ok (s1, o1, e1) → Kept sx a s1 (q.mid ++ script a rs))
    (h : run sx s0 (script a (q :: rs)) = .ok (s', tr)) :
    ∃ xs : List Msg, xs.length = rs.length + 1 ∧ xs.flatMap (·.payload) = body ∧
      ∀ (j : Nat) (x : Msg), xs[j]? = some x → (∃ num z, CarriesBlock body 5 num z x) ∧ ∃ o ∈ tr, ∃ r, (a, r) ∈ sends o ∧ Formats x r := by
  have hR : Reach sx evs s0 tr0 := ⟨id0, sepList, pool, hr⟩
  obtain ⟨W, st, st', r1, r2, hp⟩ := hp
  obtain ⟨base, hi0⟩ := init_sinv (id := id0) (sepList := sepList) hp
  have hi := run_sinv (init_tidy _ _ _) hi0 hr
  have hq := hA q (by simp)
  have e1 : script a (q :: rs) = (q.env, .datagram a q.d) :: (q.mid ++ script a rs) := by simp [script]
  rw [e1] at h
  obtain ⟨s1, o, e, tr1, g1, g2, rfl⟩ := run_cons h
  have hs1 := step_rel g1
  obtain ⟨s2, t2, t3, g3, g4, rfl, -⟩ := run_append g2
  obtain ⟨num, z, hopt, hrest⟩ := hask
  obtain ⟨o2, ho2, hn2, hsz2, hz⟩ : ∃ o2, parseBlockOp BLOCK2 q.m.ops = .ok o2 ∧ numOf o2 = 0 ∧ sizeOf2 o2 b2 = min z b2 ∧ BlockSize (min z b2) := by
    rcases hopt with ⟨⟨more, h1⟩, h2, -⟩ | ⟨h1, -, h2⟩
    · have hz := parseBlockOp_size h1
      refine ⟨_, h1, ?_, rfl, hz.min hb2⟩
      rcases Nat.mul_eq_zero.1 h2 with h | h
      · exact h
      · have := hz.pos
        simp only at this
        omega
    · refine ⟨none, parseBlockOp_none h1, rfl, ?_, ?_⟩
      · rw [h2, Nat.min_self]; rfl
      · rw [h2, Nat.min_self]; exact hb2
  obtain ⟨-, x, r, f1, f2, -, f4, f5⟩ := serve_start hR.tidy hi h8 hs1 htr hq.noFault hnew.carries hnew.request.1 h0
    (hnew.fresh h0 hR) hq.known hq.method hh hro hb1 hb2 hlen hq.block1 o2 ho2 hn2
  rw [hsz2, List.take_of_length_le (Nat.le_refl _)] at f4 f5
  rw [hq.path] at f5
  rw [Nat.zero_add] at hrest
  have hx : (∃ num z, CarriesBlock body 5 num z x) ∧ ∃ o' ∈ o :: (t2 ++ t3), ∃ r, (a, r) ∈ sends o' ∧ Formats x r :=
    ⟨⟨_, _, f4⟩, o, by simp, r, by rw [f1]; simp, f2⟩
  have hpay : x.payload = body.take (min z b2) := by rw [f4.payload, Nat.zero_mul, List.drop_zero]
  by_cases hmore : min z b2 ≤ body.length
  · rw [if_pos hmore] at hrest
    obtain ⟨hkm, hkr⟩ := (hk s1 o e g1).append g3
    have hs2 := (f5 hmore).run (hs1.tidy hR.tidy) g3 hkm hmid
    have := hz.pos
    obtain ⟨xs, y1, y2, y3⟩ := serve_vary rs s2 s' t3 q.m.msgId _ _ hz (by omega) (run_tidy (hs1.tidy hR.tidy) g3) hs2 hrest
      (fun x hx => hA x (by simp [hx])) hch hkr g4
    refine ⟨x :: xs, by simp [y1], ?_, ?_⟩
    · rw [List.flatMap_cons, y2, hpay, List.take_append_drop]
    · intro j y hj
      cases j with
      | zero =>
        simp only [List.getElem?_cons_zero, Option.some.injEq] at hj
        subst hj
        exact hx
      | succ j =>
        simp only [List.getElem?_cons_succ] at hj
        have hlt := (List.getElem?_eq_some_iff.1 hj).1
        obtain ⟨⟨n, z, -, z1⟩, o', z2, z3⟩ := y3 j y rs[j] hj (List.getElem?_eq_getElem _)
        exact ⟨⟨n, z, z1⟩, o', by simp [z2], z3⟩
  · rw [if_neg hmore] at hrest
    have hrs : rs = [] := by simpa using hrest
    subst hrs
    refine ⟨[x], rfl, ?_, ?_⟩
    · rw [List.flatMap_cons, List.flatMap_nil, List.append_nil, hpay, List.take_of_length_le (by omega)]
    · intro j y hj
      cases j with
      | zero =>
        simp only [List.getElem?_cons_zero, Option.some.injEq] at hj
        subst hj
        exact hx
      | succ j => simp at hj

/-- Uploads, in full: the application gets the body of a client that sends the blocks in order, in whatever sizes. -/
def C128_statement : Prop :=
  ∀ (sx : Bool) (id0 : Nat) (sepList : List Bytes) (nbuf room : Nat) (pool : Mem.Pool) (_ : PoolOf nbuf room pool) (_ : 8 ≤ nbuf)
    (evs : List (Env × Event)) (s0 s' : Srv) (tr0 tr : List (List Obs)) (_ : run sx (init id0 sepList pool) evs = .ok (s0, tr0))
    (a : Addr) (q : Asked) (rs : List Asked) (method : Nat) (uri : Bytes) (rx : Option Nat) (b1 : Nat) (_ : BlockSize b1)
    (_ : NewRequest sx evs a q.d q.m) (_ : q.m.msgId ≠ 0) (_ : Starts s0 q.env a q.m method uri rx room b1)
    (_ : ∀ x ∈ q :: rs, AsksFor sx method uri x ∧ Block2OK x.m) (_ : SendsBlocks 1024 0 ((q :: rs).map (·.m)))
    (_ : (joined ((q :: rs).map (·.m))).length ≤ room)
    (_ : ∀ x ∈ q.mid, OnlyRepeats sx a q.m.msgId x) (_ : Chain sx a q.m.msgId rs)
    (_ : ∀ s1 o1 e1, step sx s0 q.env (.datagram a q.d) = .ok (s1, o1, e1) → rs ≠ [] → Kept sx a s1 (q.mid ++ script a rs))
    (_ : run sx s0 (script a (q :: rs)) = .ok (s', tr)),
    ∃ id, rx = some id ∧ ∃ o ∈ tr, bodiesOf a o = [(a, id, joined ((q :: rs).map (·.m)))]

/-- The rest of an upload in which the client chooses the size of the blocks. -/
theorem receive_vary {sx : Bool} {a : Addr} {uri : Bytes} {rx : Option Nat} {base nbuf room method b1 : Nat} (h8 : 8 ≤ nbuf) :
    ∀ (q : Asked) (rs : List Asked) (s s' : Srv) (tr : List (List Obs)) (size cap : Nat) (got : Bytes), Tidy s → SInv base nbuf room s →
    BlockSize size → size = min cap b1 → (got ≠ [] → AtMost b1 q.m) → (∀ x ∈ rs, AtMost b1 x.m) →
    Expects s q.env a q.m method uri rx room got size →
    got.length + (joined ((q :: rs).map (·.m))).length ≤ room →
    (∀ x ∈ q :: rs, AsksFor sx method uri x ∧ Block2OK x.m) → SendsBlocks cap got.length ((q :: rs).map (·.m)) →
    (ofAddr s a = none → q.m.msgId ≠ 0) → (∀ t, ofAddr s a = some t → matchReq t q.m = false) →
    (∀ x ∈ q.mid, OnlyRepeats sx a q.m.msgId x) → Chain sx a q.m.msgId rs →
    (∀ s1 o1 e1, step sx s q.env (.datagram a q.d) = .ok (s1, o1, e1) → rs ≠ [] → Kept sx a s1 (q.mid ++ script a rs)) →
    run sx s (script a (q :: rs)) = .ok (s', tr) →
    (∃ id, rx = some id ∧ ∃ o ∈ tr, bodiesOf a o = [(a, id, got ++ joined ((q :: rs).map (·.m)))]) ∧
    ∀ (j : Nat) (x : Asked), j < rs.length → (q :: rs)[j]? = some x → ∃ num z c, AsksBlock1 x.m num true z ∧ Confirms num (min z b1) c ∧
      ∃ o ∈ tr, ∃ y, (a, y) ∈ sends o ∧ Formats c y
  | q, rs, s, s', tr, size, cap, got, ht, hi, hsz, hcap, hq1, hrs1, hE, hroom, hq, hsend, h0, hnew, hmid, hch, hk, hrun => by
    obtain ⟨hA, hB2⟩ := hq q (by simp)
    obtain ⟨num, z, hB1, hzc, hnum, hpne, hpl, hrest⟩ := hsend
    have hz : BlockSize z := parseBlockOp_size hB1
    have hmin : min z size = min z b1 := by omega
    have e1 : script a (q :: rs) = (q.env, .datagram a q.d) :: (q.mid ++ script a rs) := by simp [script]
    rw [e1] at hrun
    obtain ⟨s1, o, e, tr1, g1, g2, rfl⟩ := run_cons hrun
    obtain ⟨s2, t2, t3, g3, g4, rfl, -⟩ := run_append g2
    have hr := step_rel g1
    have hcon : Continues method uri got.length size (some ⟨num, decide (rs.map (·.m) ≠ []), z⟩) q.m := by
      refine ⟨hB1, hA.method, hA.path, ?_, hpne⟩
      show num * min z size = got.length
      by_cases hg : got = []
      · subst hg
        rcases Nat.mul_eq_zero.1 hnum with h | h
        · rw [h, Nat.zero_mul]; rfl
        · have := hz.pos; omega
      · have := hq1 hg _ _ _ hB1
        rw [hmin, Nat.min_eq_left this]
        exact hnum
    have hj : joined ((q :: rs).map (·.m)) = q.m.payload ++ joined (rs.map (·.m)) := by simp [joined]
    rw [hj, List.length_append] at hroom
    obtain ⟨n1, n2⟩ := receive_next ht hi h8 hr hA.noFault hA.carries hA.request.1 h0 hnew hA.known hsz hE hcon hB2 (by omega)
    simp only [moreOf, numOf, sizeOf2, hmin] at n1 n2
    cases rs with
    | nil =>
      obtain ⟨id, k1, k2⟩ := n2 (by simp)
      refine ⟨⟨id, k1, o, by simp, ?_⟩, by simp⟩
      rw [k2, hj]
      simp [joined]
    | cons q' rs =>
      obtain ⟨-, -, k3, x, y, k4, k5, k6, k7⟩ := n1 (by simp)
      obtain ⟨hfull, hrest⟩ := hrest (by simp)
      obtain ⟨c1, c2, c3⟩ := hch
      obtain ⟨hkm, hkr⟩ := (hk s1 o e g1 (by simp)).append g3
      have hR2 := k3.run (hr.tidy ht) g3 hkm hmid
      have ht2 := run_tidy (hr.tidy ht) g3
      have hi2 := run_sinv' (hr.tidy ht) (hr.sinv ht hi) g3
      obtain ⟨t, r1, r2, r3, r4⟩ := hR2
      have e2 : script a (q' :: rs) = (q'.env, .datagram a q'.d) :: (q'.mid ++ script a rs) := by simp [script]
      obtain ⟨⟨id, z1, o', z2, z3⟩, z4⟩ := receive_vary h8 q' rs s2 s' t3 (min z b1) z (got ++ q.m.payload) ht2 hi2
        (by rw [← hmin]; exact hz.min hsz) rfl (fun _ => hrs1 q' (by simp)) (fun x hx => hrs1 x (by simp [hx]))
        (Or.inl ⟨q.m.msgId, t, r1, r2, r3, r4⟩)
        (by rw [List.length_append]; omega)
        (fun x hx => hq x (by simp at hx ⊢; exact Or.inr hx))
        (by rw [List.length_append, hfull]; exact hrest)
        (fun h => by rw [r1] at h; cases h)
        (fun t' ht' => by
          rw [r1] at ht'
          cases ht'
          cases hmr : matchReq t q'.m with
          | false => rfl
          | true => exact absurd ((matchReq_iff.1 hmr).2.symm.trans r3) c1)
        c2 c3
        (fun s3 o3 e3 h3 _ => by rw [e2] at hkr; exact hkr.2 s3 o3 e3 h3) g4
      refine ⟨⟨id, z1, o', by simp [z2], ?_⟩, ?_⟩
      · rw [z3, hj, List.append_assoc]
      · intro j w hjl hw
        cases j with
        | zero =>
          simp only [List.getElem?_cons_zero, Option.some.injEq] at hw
          subst hw
          exact ⟨num, z, x, by simpa using hB1, k7, o, by simp, y, by rw [k4]; simp, k5⟩
        | succ j =>
          simp only [List.getElem?_cons_succ] at hw
          obtain ⟨n, z', c, w0, w1, o2, w2, w3⟩ := z4 j w (by simpa using hjl) hw
          exact ⟨n, z', c, w0, w1, o2, by simp [w2], w3⟩
  termination_by _ rs => rs.length

/-- What is proved of uploads: the client sends no block but the first one in a larger size than the application asks for (`b1`). Each block is
confirmed with its number and the size that the server would like, and the application gets the body. -/
theorem C128_upload_partial (sx : Bool) (id0 : Nat) (sepList : List Bytes) (nbuf room : Nat) (pool : Mem.Pool) (hp : PoolOf nbuf room pool)
    (h8 : 8 ≤ nbuf) (evs : List (Env × Event)) (s0 s' : Srv) (tr0 tr : List (List Obs))
    (hr : run sx (init id0 sepList pool) evs = .ok (s0, tr0)) (a : Addr) (q : Asked) (rs : List Asked)
    (method : Nat) (uri : Bytes) (rx : Option Nat) (b1 : Nat) (hb1 : BlockSize b1)
    (hnew : NewRequest sx evs a q.d q.m) (h0 : q.m.msgId ≠ 0) (hs : Starts s0 q.env a q.m method uri rx room b1)
    (hA : ∀ x ∈ q :: rs, AsksFor sx method uri x ∧ Block2OK x.m) (hsend : SendsBlocks 1024 0 ((q :: rs).map (·.m)))
    (hsmall : ∀ x ∈ rs, AtMost b1 x.m)
    (hroom : (joined ((q :: rs).map (·.m))).length ≤ room)
    (hmid : ∀ x ∈ q.mid, OnlyRepeats sx a q.m.msgId x) (hch : Chain sx a q.m.msgId rs)
    (hk : ∀ s1 o1 e1, step sx s0 q.env (.datagram a q.d) = .ok (s1, o1, e1) → rs ≠ [] → Kept sx a s1 (q.mid ++ script a rs))
    (h : run sx s0 (script a (q :: rs)) = .ok (s', tr)) :
    (∃ id, rx = some id ∧ ∃ o ∈ tr, bodiesOf a o = [(a, id, joined ((q :: rs).map (·.m)))]) ∧
    ∀ (j : Nat) (x : Asked), j < rs.length → (q :: rs)[j]? = some x → ∃ num z c, AsksBlock1 x.m num true z ∧ Confirms num (min z b1) c ∧
      ∃ o ∈ tr, ∃ y, (a, y) ∈ sends o ∧ Formats c y := by
  have hR : Reach sx evs s0 tr0 := ⟨id0, sepList, pool, hr⟩
  obtain ⟨W, st, st', r1, r2, hp⟩ := hp
  obtain ⟨base, hi0⟩ := init_sinv (id := id0) (sepList := sepList) hp
  have := receive_vary (sx := sx) (b1 := b1) h8 q rs s0 s' tr b1 1024 [] hR.tidy (run_sinv (init_tidy _ _ _) hi0 hr) hb1
    (by
      obtain ⟨k, hk, rfl⟩ := hb1
      have : 2 ^ (k + 4) ≤ 2 ^ 10 := Nat.pow_le_pow_right (by decide) (by omega)
      omega) (fun h => absurd rfl h) hsmall (Or.inr ⟨rfl, hs⟩) (by simpa using hroom) hA (by simpa using hsend)
    (fun _ => h0) (hnew.fresh h0 hR) hmid hch hk h
  simpa using this

/-! A PUT to "a" in blocks of 32 bytes: the ids 5 and 6, 32 and 4 bytes; and the same second part as block 2 of 16 bytes. -/
def exLarge0 : Bytes := [0x40, 0x03, 0, 5, 0xB1, 97, 0xD1, 3, 0x09, 0xFF] ++ List.replicate 32 1
def exLarge1 : Bytes := [0x40, 0x03, 0, 6, 0xB1, 97, 0xD1, 3, 0x11, 0xFF, 2, 2, 2, 2]
def exSmall1 : Bytes := [0x40, 0x03, 0, 6, 0xB1, 97, 0xD1, 3, 0x20, 0xFF, 2, 2, 2, 2]
def exL0 : Msg := ⟨1, CON, 0, 3, 5, [], [⟨11, [97]⟩, ⟨27, [0x09]⟩], List.replicate 32 1⟩
def exL1 : Msg := ⟨1, CON, 0, 3, 6, [], [⟨11, [97]⟩, ⟨27, [0x11]⟩], [2, 2, 2, 2]⟩
def exS1 : Msg := ⟨1, CON, 0, 3, 6, [], [⟨11, [97]⟩, ⟨27, [0x20]⟩], [2, 2, 2, 2]⟩

theorem exLAsks : ∀ x ∈ [(⟨exBlock, exLarge0, exL0, []⟩ : Asked), ⟨exBlock, exLarge1, exL1, []⟩, ⟨exBlock, exSmall1, exS1, []⟩],
    AsksFor true 3 [47, 97] x ∧ Block2OK x.m := by
  have h : Carries true exLarge0 exL0 ∧ Carries true exLarge1 exL1 ∧ Carries true exSmall1 exS1 := by
    refine ⟨?_, ?_, ?_⟩ <;> unfold Carries <;> decide +kernel
  intro x hx
  simp only [List.mem_cons, List.not_mem_nil, or_false] at hx
  rcases hx with rfl | rfl | rfl
  · exact ⟨⟨exBlock_noFault, h.1, by decide, by decide, rfl, by decide +kernel, some ⟨0, true, 32⟩, by decide +kernel⟩, none, by decide +kernel⟩
  · exact ⟨⟨exBlock_noFault, h.2.1, by decide, by decide, rfl, by decide +kernel, some ⟨1, false, 32⟩, by decide +kernel⟩, none, by decide +kernel⟩
  · exact ⟨⟨exBlock_noFault, h.2.2, by decide, by decide, rfl, by decide +kernel, some ⟨2, false, 16⟩, by decide +kernel⟩, none, by decide +kernel⟩

theorem exLStarts : Starts exInit exBlock exA exL0 3 [47, 97] (some 1) 64 16 := by
  refine ⟨?_, rfl, Or.inr rfl, by decide +kernel, create, 16, _, 40, fun _ => rfl, rfl, by decide, Or.inr ⟨0, by decide, rfl⟩, by decide, by decide⟩
  exact exStarts.idle

theorem exLKept (q : Asked) (hb : test (step true exInit exBlock (.datagram exA exLarge0)) (fun r => keptB true exA r.1 (script exA [q])) = true) :
    ∀ s1 o1 e1, step true exInit exBlock (.datagram exA exLarge0) = .ok (s1, o1, e1) → [q] ≠ [] → Kept true exA s1 ([] ++ script exA [q]) := by
  intro s1 o1 e1 h1 _
  obtain ⟨r, hr, hk⟩ := test_ok hb
  rw [hr] at h1
  cases h1
  exact kept_of hk

/-- C128 is violated: the server asks for blocks of 16 bytes when it confirms the first block of 32. The client goes on with blocks of 32 bytes.
The second block is answered 4.08, and the application does not get the body. -/
theorem C128_violated : ¬ C128_statement := by
  intro h
  have key : test (run true exInit (script exA [⟨exBlock, exLarge0, exL0, []⟩, ⟨exBlock, exLarge1, exL1, []⟩])) (fun x =>
      decide (x.2.map (bodiesOf exA) = [[], []] ∧ (x.2.map sends)[1]? = some [(exA, [0x60, 0x88, 0, 6])])) = true := by
    decide +kernel
  obtain ⟨⟨s', tr⟩, h1, key⟩ := test_ok key
  have key := of_decide_eq_true key
  obtain ⟨id, -, o, ho, hb⟩ := h true 100 exSep 8 64 exPool exPool_of (by decide) [] exInit s' [] tr rfl exA ⟨exBlock, exLarge0, exL0, []⟩
    [⟨exBlock, exLarge1, exL1, []⟩] 3 [47, 97] (some 1) 16 ⟨0, by decide, rfl⟩
    ⟨(exLAsks _ (by simp)).1.carries, by decide, by intro m hm; cases hm⟩ (by decide) exLStarts
    (fun x hx => exLAsks x (by simp at hx ⊢; rcases hx with h | h <;> simp [h]))
    ⟨0, 32, by unfold AsksBlock1; decide +kernel, by decide, rfl, by decide, by decide, fun _ => ⟨rfl, 1, 32, by unfold AsksBlock1; decide +kernel,
      by decide, rfl, by decide, by decide, fun h => absurd rfl h⟩⟩ (by decide) (by intro x hx; cases hx)
    ⟨by decide, (by intro x hx; cases hx), trivial⟩ (exLKept _ (by decide +kernel)) h1
  have hm := List.mem_map_of_mem (f := bodiesOf exA) ho
  rw [key.1, hb] at hm
  simp at hm

/-- The hypotheses of `C128_upload_partial` can be met: the client goes on with blocks of 16 bytes and the application gets 36 bytes. -/
example : ∃ s' tr, run true exInit (script exA [⟨exBlock, exLarge0, exL0, []⟩, ⟨exBlock, exSmall1, exS1, []⟩]) = .ok (s', tr) ∧
    ∃ o ∈ tr, bodiesOf exA o = [(exA, 1, List.replicate 32 1 ++ [2, 2, 2, 2])] := by
  have hrun : test (run true exInit (script exA [⟨exBlock, exLarge0, exL0, []⟩, ⟨exBlock, exSmall1, exS1, []⟩])) (fun _ => true) = true := by
    decide +kernel
  obtain ⟨⟨s', tr⟩, h1, -⟩ := test_ok hrun
  obtain ⟨⟨id, hid, o, ho, hb⟩, -⟩ := C128_upload_partial true 100 exSep 8 64 exPool exPool_of (by decide) [] exInit s' [] tr rfl exA
    ⟨exBlock, exLarge0, exL0, []⟩ [⟨exBlock, exSmall1, exS1, []⟩] 3 [47, 97] (some 1) 16 ⟨0, by decide, rfl⟩
    ⟨(exLAsks _ (by simp)).1.carries, by decide, by intro m hm; cases hm⟩ (by decide) exLStarts
    (fun x hx => exLAsks x (by simp at hx ⊢; rcases hx with h | h <;> simp [h]))
    ⟨0, 32, by unfold AsksBlock1; decide +kernel, by decide, rfl, by decide, by decide, fun _ => ⟨rfl, 2, 16, by unfold AsksBlock1; decide +kernel,
      by decide, rfl, by decide, by decide, fun h => absurd rfl h⟩⟩
    (by
      intro x hx num more z hz
      simp only [List.mem_singleton] at hx
      subst hx
      unfold AsksBlock1 at hz
      rw [show parseBlockOp BLOCK1 exS1.ops = .ok (some ⟨2, false, 16⟩) by decide +kernel] at hz
      cases hz
      exact Nat.le_refl _)
    (by decide) (by intro x hx; cases hx)
    ⟨by decide, (by intro x hx; cases hx), trivial⟩ (exLKept _ (by decide +kernel)) h1
  cases hid
  exact ⟨s', tr, h1, o, ho, hb⟩

/-- The application answers with a body of 40 bytes in blocks of 32. -/
def exBlock32 : Env := { exBlock with handle := fun _ _ => .blockwise create 16 32 ((List.range 40).map UInt8.ofNat) 40 (some 1) }

/-- The hypotheses of `C128_download` can be met: the first block has 32 bytes, and the client asks for the rest in blocks of 16. -/
example : ∃ s' tr, run true exInit (script exA [⟨exBlock32, exB0, exM0, []⟩, ⟨exBlock32, exB2, exM2, []⟩]) = .ok (s', tr) ∧
    ∃ xs : List Msg, xs.length = 2 ∧ xs.flatMap (·.payload) = (List.range 40).map UInt8.ofNat := by
  have hrun : test (run true exInit (script exA [⟨exBlock32, exB0, exM0, []⟩, ⟨exBlock32, exB2, exM2, []⟩])) (fun _ => true) = true := by
    decide +kernel
  have hf : NoFault exBlock32 := ⟨⟨rfl, rfl, rfl⟩, rfl, rfl, rfl, rfl, rfl, rfl, rfl, rfl, rfl, rfl⟩
  obtain ⟨⟨s', tr⟩, h1, -⟩ := test_ok hrun
  obtain ⟨xs, g1, g2, -⟩ := C128_download true 100 exSep 8 64 exPool exPool_of (by decide) [] exInit s' [] tr rfl exA
    ⟨exBlock32, exB0, exM0, []⟩ [⟨exBlock32, exB2, exM2, []⟩] create 16 32 ((List.range 40).map UInt8.ofNat) (some 1) [47, 97]
    (by
      intro x hx
      simp only [List.mem_cons, List.not_mem_nil, or_false] at hx
      rcases hx with rfl | rfl
      · exact ⟨hf, exCarries.1, by decide, by decide, rfl, by decide +kernel, none, by decide +kernel⟩
      · exact ⟨hf, exCarries.2.2, by decide, by decide, rfl, by decide +kernel, none, by decide +kernel⟩)
    ⟨0, 32, Or.inr ⟨by show NoBlock2 exM0; unfold NoBlock2; decide, rfl, rfl⟩, by
      rw [if_pos (by decide)]
      exact ⟨2, 16, Or.inl ⟨⟨false, by decide +kernel⟩, rfl, fun _ => by decide⟩, (by rw [if_neg (by decide)]; rfl)⟩⟩
    ⟨exCarries.1, by decide, by intro m hm; cases hm⟩ (by decide) exStarts.idle (fun t => rfl) rfl (Or.inr ⟨0, by decide, rfl⟩) ⟨1, by decide, rfl⟩
    (by decide) (by intro x hx; cases hx) ⟨by decide, (by intro x hx; cases hx), trivial⟩
    (by
      have hk : test (step true exInit exBlock32 (.datagram exA exB0)) (fun r => keptB true exA r.1 (script exA [⟨exBlock32, exB2, exM2, []⟩])) = true := by
        decide +kernel
      intro s1 o1 e1 h1
      obtain ⟨r, hr, hk⟩ := test_ok hk
      rw [hr] at h1
      cases h1
      exact kept_of hk) h1
  exact ⟨s', tr, h1, xs, g1, g2⟩

end FreeCoAP.Server
