import Verif.Server.LemmasTime
import Verif.Server.Props2

/-!
# Properties of the server: places for senders and retransmission (C24, C26, C53)
-/

namespace FreeCoAP.Server

open FreeCoAP.Msg

/-! ## C24 One transaction per sender, least recently used evicted -/

/-- At all times there are at most eight transactions, for different senders. -/
theorem C24_one_per_sender (sx : Bool) (evs : List (Env × Event)) (s : Srv) (tr : List (List Obs)) (hr : Reach sx evs s tr) :
    (s.trans.filter (·.active)).length ≤ 8 ∧ ((s.trans.filter (·.active)).map (·.addr)).Nodup := by
  constructor
  · exact Nat.le_trans (List.length_filter_le _ _) (by rw [hr.tidy.len]; decide)
  · have hd := hr.tidy.distinct
    rw [List.nodup_iff_pairwise_ne, List.pairwise_map, List.pairwise_filter, List.pairwise_iff_getElem]
    intro i j hi hj hij h1 h2 h3
    have := hd i j _ _ (List.getElem?_eq_getElem hi) (List.getElem?_eq_getElem hj) h1 h2 h3
    omega

/-- Only a new sender makes the server forget another one without an event of that
sender, only when there are eight, and the forgotten sender is then one whose last
contact (`lastContact`: a datagram from it or to it) is longest ago. It is assumed that
the clock is set (the code takes 0 for "no time") and that a datagram that was announced
can be read. -/
theorem C24_least_recently_used (sx : Bool) (evs : List (Env × Event)) (s s' : Srv) (tr : List (List Obs)) (env : Env)
    (b : Addr) (d : Bytes) (o : List Obs) (e : Option Err) (hr : Reach sx evs s tr)
    (hclock : ∀ x ∈ evs, 0 < x.1.now) (hq : ∀ x ∈ evs, x.1.recvErr ≠ some .EAGAIN)
    (h : step sx s env (.datagram b d) = .ok (s', o, e)) (a : Addr) (hab : a ≠ b) (ha : ofAddr s a ≠ none)
    (hgone : ofAddr s' a = none) :
    ofAddr s b = none ∧ (s.trans.filter (·.active)).length = 8 ∧
    ∃ n, lastContact a (evs.zip tr) = some n ∧
      ∀ c, ofAddr s c ≠ none → ∃ k, lastContact c (evs.zip tr) = some k ∧ n ≤ k := by
  have hlast := lastUse_run hr hq
  obtain ⟨-, h2 | ⟨h2, h3, t0, h4, h5, h6, h7, h8⟩⟩ := others_step (step_rel h) hr.tidy
  · rw [h2 a hab] at hgone; exact absurd hgone ha
  have hat : a = t0.addr := by
    apply Classical.byContradiction
    intro hne
    rw [h8 a hab hne] at hgone
    exact ha hgone
  subst hat
  have hpos : ∀ t ∈ s.trans, t.active = true ∧ 0 < t.lastUse := by
    intro t ht
    refine ⟨h3 t ht, ?_⟩
    obtain ⟨i, hi⟩ := List.mem_iff_getElem?.1 ht
    have := hlast _ t (look_eq hr.tidy.distinct hi (h3 t ht))
    obtain ⟨x, hx, hn⟩ := lastContact_mem this
    have := hclock x.1 (List.of_mem_zip hx).1
    omega
  obtain ⟨t1, g1, g2⟩ := makeRoom_oldest hr.tidy hpos
  rw [h4] at g1
  cases g1
  refine ⟨h2, ?_, t0.lastUse, hlast _ t0 h6, ?_⟩
  · rw [List.filter_eq_self.2 h3, hr.tidy.len]
  · intro c hc
    cases hct : ofAddr s c with
    | none => exact absurd hct hc
    | some t =>
      obtain ⟨i, hi, -, -⟩ := look_some hct
      exact ⟨t.lastUse, hlast _ t hct, g2 t (List.mem_of_getElem? hi)⟩

/-- Eight senders at times 1 to 8, the first one again at time 9, then a ninth sender. -/
def exNine : List (Env × Event) :=
  ([1, 2, 3, 4, 5, 6, 7, 8].map (fun n => ({ exEnv with now := n }, Event.datagram [UInt8.ofNat n] exGet))) ++
  [({ exEnv with now := 9 }, .datagram [1] exGet), ({ exEnv with now := 10 }, .datagram [9] exGet)]

/-- The second sender is forgotten: its last contact was at time 2. -/
example : test (run true exInit exNine) (fun r => (ofAddr r.1 [1]).isSome && (ofAddr r.1 [2]).isNone &&
    (ofAddr r.1 [3]).isSome && (ofAddr r.1 [9]).isSome && (lastContact [2] (exNine.zip r.2) == some 2)) = true := by
  decide +kernel

example : (∀ x ∈ exNine, 0 < x.1.now) ∧ ∀ x ∈ exNine, x.1.recvErr ≠ some .EAGAIN := by decide +kernel

/-! ## C26 Bounded exponential retransmission -/

/-- The full property (first part): a confirmable response is sent at most five times
in all as long as its sender is remembered. -/
def C26_statement (sx : Bool) : Prop :=
  ∀ (evs1 evs2 : List (Env × Event)) (s0 s1 s2 : Srv) (tr1 tr2 : List (List Obs)) (env1 : Env) (a : Addr)
    (d1 : Bytes) (m1 : Msg) (o1 : List Obs) (r : Bytes),
    Reach sx evs1 s0 tr1 → AppOK env1 →
    step sx s0 env1 (.datagram a d1) = .ok (s1, o1, none) → Carries sx d1 m1 → m1.type = CON → Separate s0.sepList m1 →
    (a, r) ∈ sends o1 → ¬ Empty r → run sx s1 evs2 = .ok (s2, tr2) → Kept sx a s1 evs2 →
    transmissions a r o1 + transmissions a r (obsOf tr2) ≤ 5

/-- A confirmable GET for "a" with id 6. -/
def exGetA6 : Bytes := [0x41, 0x01, 0, 6, 0xAB, 0xB1, 97]

/-- It is violated: messages that have the id of the request but another path, whose
response is not a separate one, make the server send the stored separate response
again each time. -/
theorem C26_violated (sx : Bool) : ¬ C26_statement sx := by
  intro h
  have key : test (step sx exInit exEnv (.datagram exA exGetB)) (fun x1 =>
      decide (x1.2.2 = none) && decide ((exA, [0x41, 0x45, 0, 101, 0xAB, 0xFF, 104, 105]) ∈ sends x1.2.1) &&
      keptB sx exA x1.1 (List.replicate 6 (exEnv, .datagram exA exGetA6)) &&
      test (run sx x1.1 (List.replicate 6 (exEnv, .datagram exA exGetA6))) (fun x2 =>
        decide (transmissions exA [0x41, 0x45, 0, 101, 0xAB, 0xFF, 104, 105] (obsOf x2.2) = 6))) = true := by
    cases sx <;> decide +kernel
  have hc : test (parse sx (recvBuf exGetB) (min exGetB.length BUF_LEN)) (fun m => decide (m.type = CON ∧ Separate exSep m)) = true := by
    cases sx <;> decide +kernel
  obtain ⟨m, hm, hq⟩ := test_ok hc
  obtain ⟨⟨s1, o1, e1⟩, h1, key⟩ := test_ok key
  simp only [Bool.and_eq_true, decide_eq_true_eq] at key hq
  obtain ⟨⟨⟨he, hr⟩, hk⟩, key⟩ := key
  obtain ⟨⟨s2, tr2⟩, h2, key⟩ := test_ok key
  simp only [decide_eq_true_eq] at key
  subst he
  have := h [] _ exInit s1 s2 [] tr2 exEnv exA exGetB m o1 _ ⟨100, exSep, exPool, rfl⟩ exEnv_app h1 hm hq.1 hq.2 hr
    (by rintro (⟨i, -, hi⟩ | ⟨i, -, hi⟩ | hi) <;> cases hi) h2 (kept_of hk)
  omega

theorem waits_eq (w k n : Nat) : waits w k n = (List.range n).map (fun i => 2 ^ (k + i + 1) * w) := by
  induction n generalizing k with
  | zero => rfl
  | succ n ih =>
    rw [List.range_succ_eq_map, List.map_cons, List.map_map]
    simp only [waits, ih, Nat.add_zero]
    congr 1
    apply List.map_congr_left
    intro i _
    simp only [Function.comp]
    congr 2
    omega

/-- The proved part, when the only requests of the sender in the meantime are repetitions
of the request: the timers started are `w` (2000 to 2999 milliseconds) for the first
transmission and then `2w, 4w, …` for the `n ≤ 4` retransmissions; the response is sent
again at most `n` times, exactly `n` times if sending does not fail; and nothing but this
response, byte for byte, and Empty acknowledgements is sent to the sender. It is assumed
that timers can be started. -/
theorem C26_bounded_partial (sx : Bool) (evs1 evs2 : List (Env × Event)) (s0 s1 s2 : Srv) (tr1 tr2 : List (List Obs))
    (env1 : Env) (a : Addr) (d1 : Bytes) (m1 : Msg) (o1 : List Obs) (r : Bytes)
    (h0 : Reach sx evs1 s0 tr1) (ha : AppOK env1)
    (h1 : step sx s0 env1 (.datagram a d1) = .ok (s1, o1, none)) (hm1 : Carries sx d1 m1)
    (hcon : m1.type = CON) (hsep : Separate s0.sepList m1) (hr : (a, r) ∈ sends o1) (hne : ¬ Empty r)
    (h2 : run sx s1 evs2 = .ok (s2, tr2)) (hk : Kept sx a s1 evs2)
    (ho : ∀ x ∈ evs2, OnlyAgain sx a m1 x) (htm : ∀ x ∈ evs2, x.1.timerErr = none) :
    ∃ w n, 2000 ≤ w ∧ w < 3000 ∧ n ≤ 4 ∧ armsOf a o1 = [w] ∧ transmissions a r o1 = 1 ∧
      armsOf a (obsOf tr2) = (List.range n).map (fun i => 2 ^ (i + 1) * w) ∧
      transmissions a r (obsOf tr2) ≤ n ∧
      ((∀ x ∈ evs2, x.1.sendErr = none) → transmissions a r (obsOf tr2) = n) ∧
      ∀ b, (a, b) ∈ sends (obsOf tr2) → b = r ∨ b = emptyAck m1.msgId := by
  obtain ⟨t, g1, g2, g3, g4⟩ := pending_first h0.tidy (step_rel h1) hm1 ha hr hne hcon hsep
  obtain ⟨n, d1, d2, d3, d4, d5, -⟩ := pending_run g1 g2 (by omega) ((step_rel h1).tidy h0.tidy) h2 hk htm hne ho hcon
    hm1.fields.1.msgId (by rw [(step_rel h1).sepList]; exact hsep)
  refine ⟨_, n, by omega, by omega, by omega, g3, g4, ?_, d3, d4, d5⟩
  rw [d2, waits_eq]
  simp

/-- After the last wait the transaction is discarded and nothing more is sent. -/
theorem C26_discarded_partial (sx : Bool) (evs1 evs2 : List (Env × Event)) (s0 s1 s2 s3 : Srv) (tr1 tr2 : List (List Obs))
    (env1 env3 : Env) (a : Addr) (d1 : Bytes) (m1 : Msg) (o1 o3 : List Obs) (e3 : Option Err) (r : Bytes) (i : Nat) (t : Trans)
    (h0 : Reach sx evs1 s0 tr1) (ha : AppOK env1)
    (h1 : step sx s0 env1 (.datagram a d1) = .ok (s1, o1, none)) (hm1 : Carries sx d1 m1)
    (hcon : m1.type = CON) (hsep : Separate s0.sepList m1) (hr : (a, r) ∈ sends o1) (hne : ¬ Empty r)
    (h2 : run sx s1 evs2 = .ok (s2, tr2)) (hk : Kept sx a s1 evs2)
    (ho : ∀ x ∈ evs2, OnlyAgain sx a m1 x) (htm : ∀ x ∈ evs2, x.1.timerErr = none)
    (hlast : (armsOf a (obsOf tr2)).length = 4)
    (hi : s2.trans[i]? = some t) (hat : ofAddr s2 a = some t) (harm : t.armed = true)
    (h3 : step sx s2 env3 (.timer i) = .ok (s3, o3, e3)) : ofAddr s3 a = none ∧ o3 = [] := by
  obtain ⟨t1, g1, g2, g3, g4⟩ := pending_first h0.tidy (step_rel h1) hm1 ha hr hne hcon hsep
  have hT1 := (step_rel h1).tidy h0.tidy
  obtain ⟨n, d1, d2, d3, d4, d5, t', d6, d7⟩ := pending_run g1 g2 (by omega) hT1 h2 hk htm hne ho hcon
    hm1.fields.1.msgId (by rw [(step_rel h1).sepList]; exact hsep)
  rw [hat] at d6
  cases d6
  have hn : n = 4 := by
    rw [d2, waits_eq] at hlast
    simpa using hlast
  subst hn
  have hT2 : Tidy s2 := ((h0.step h1).run h2).tidy
  rcases d7 with d7 | d7
  · exact discard_step hat hi d7.num harm hT2 (step_rel h3)
  · rw [d7.armed] at harm; cases harm

/-- Once acknowledged or reset, the response is not sent again and no timer is started. -/
theorem C26_acknowledged_partial (sx : Bool) (evs1 evs2 evs4 : List (Env × Event)) (s0 s1 s2 s3 s4 : Srv)
    (tr1 tr2 tr4 : List (List Obs)) (env1 env3 : Env) (a : Addr) (d1 d3 : Bytes) (m1 m3 : Msg) (o1 o3 : List Obs)
    (e3 : Option Err) (r : Bytes) (hd : Header)
    (h0 : Reach sx evs1 s0 tr1) (ha : AppOK env1)
    (h1 : step sx s0 env1 (.datagram a d1) = .ok (s1, o1, none)) (hm1 : Carries sx d1 m1)
    (hcon : m1.type = CON) (hsep : Separate s0.sepList m1) (hr : (a, r) ∈ sends o1) (hne : ¬ Empty r)
    (h2 : run sx s1 evs2 = .ok (s2, tr2)) (hk : Kept sx a s1 evs2)
    (ho : ∀ x ∈ evs2, OnlyAgain sx a m1 x) (htm : ∀ x ∈ evs2, x.1.timerErr = none)
    (h3 : step sx s2 env3 (.datagram a d3) = .ok (s3, o3, e3)) (harr : Arrives env3) (ht3 : env3.timerErr = none)
    (hm3 : Carries sx d3 m3) (hty : m3.type = ACK ∨ m3.type = RST) (hrd : header r = some hd) (hid : m3.msgId = hd.id)
    (h4 : run sx s3 evs4 = .ok (s4, tr4)) (hk4 : Kept sx a s3 evs4) (ho4 : ∀ x ∈ evs4, OnlyAgain sx a m1 x) :
    o3 = [] ∧ transmissions a r (obsOf tr4) = 0 ∧ armsOf a (obsOf tr4) = [] := by
  obtain ⟨t1, g1, g2, g3, g4⟩ := pending_first h0.tidy (step_rel h1) hm1 ha hr hne hcon hsep
  have hT1 := (step_rel h1).tidy h0.tidy
  have hs1 : Separate s1.sepList m1 := by rw [(step_rel h1).sepList]; exact hsep
  obtain ⟨n, d1, d2, d3, d4, d5, t', d6, d7⟩ := pending_run g1 g2 (by omega) hT1 h2 hk htm hne ho hcon
    hm1.fields.1.msgId hs1
  have hT2 : Tidy s2 := ((h0.step h1).run h2).tidy
  have hs3 : Separate s3.sepList m1 := by rw [(step_rel h3).sepList, run_sepList h2]; exact hs1
  obtain ⟨c1, t3, c2, c3⟩ := acked_step d6 d7 hT2 (step_rel h3) harr ht3 hm3 hty hrd hid
  obtain ⟨e1, e2, -⟩ := stopped_run c2 c3 ((step_rel h3).tidy hT2) h4 hk4 ho4 hcon hs3
  refine ⟨c1, ?_, e2⟩
  unfold transmissions
  rw [List.count_eq_zero]
  intro hb
  exact hne (Or.inl ⟨_, hm1.fields.1.msgId, e1 r hb⟩)

/-- The acknowledgement of the response with id 101. -/
def exAck : Bytes := [0x60, 0, 0, 101]

/-- The request, its repetition, four expiries of the timer, and the fifth. -/
def exExpire : List (Env × Event) :=
  [(exEnv, .datagram exA exGetB), (exEnv, .timer 0), (exEnv, .datagram exA exGetB), (exEnv, .timer 0), (exEnv, .timer 0),
    (exEnv, .timer 0), (exEnv, .timer 0), (exEnv, .timer 0)]

/-- Five transmissions with the waits 2, 4, 8, 16 and 32 seconds; then the sender is
forgotten. -/
example : test (run true exInit exExpire) (fun r => (ofAddr r.1 exA).isNone && r.2.map (armsOf exA) ==
    [[2000], [4000], [], [8000], [16000], [32000], [], []] &&
    r.2.map (fun o => transmissions exA [0x41, 0x45, 0, 101, 0xAB, 0xFF, 104, 105] o) == [1, 1, 0, 1, 1, 1, 0, 0]) = true := by
  decide +kernel

/-- The hypotheses hold for the first seven events of it (with `OnlyAgain` by computation). -/
example : test (step true exInit exEnv (.datagram exA exGetB)) (fun x =>
    decide (x.2.2 = none) && keptB true exA x.1 (exExpire.drop 1 |>.take 5) &&
    (exExpire.all (fun x => match arrived true exA x, arrived true exA (exEnv, .datagram exA exGetB) with
      | some m, some m1 => decide (m = m1 ∧ m.type = CON ∧ Separate exSep m)
      | none, _ => true
      | _, none => false))) = true := by decide +kernel

/-- After an acknowledgement the timer does not fire. -/
example : test (run true exInit [(exEnv, .datagram exA exGetB), (exEnv, .timer 0), (exEnv, .datagram exA exAck), (exEnv, .timer 0)])
    (fun r => (ofAddr r.1 exA).isSome && r.2.map (armsOf exA) == [[2000], [4000], [], []] &&
      r.2.map (fun o => (sends o).length) == [2, 1, 0, 0]) = true := by decide +kernel

/-! ## C53 Only confirmable responses are retransmitted -/

/-- The full property: what is sent when a timer expires is confirmable. -/
def C53_statement (sx : Bool) : Prop :=
  ∀ (evs : List (Env × Event)) (s s' : Srv) (tr : List (List Obs)) (env : Env) (i : Nat) (o : List Obs) (e : Option Err)
    (a : Addr) (b : Bytes) (hd : Header), Reach sx evs s tr → step sx s env (.timer i) = .ok (s', o, e) →
    (a, b) ∈ sends o → header b = some hd → hd.type = CON

/-- It is violated: when a request replaces one whose separate response was not yet
acknowledged, the timer of that response goes on, and when it expires the new response,
an acknowledgement, is sent again. -/
theorem C53_violated (sx : Bool) : ¬ C53_statement sx := by
  intro h
  have key : test (run sx exInit [(exEnv, .datagram exA exGetB), (exEnv, .datagram exA exGet)]) (fun x =>
      test (step sx x.1 exEnv (.timer 0)) (fun y =>
        decide ((exA, [0x61, 0x45, 0, 5, 0xAA, 0xFF, 104, 105]) ∈ sends y.2.1))) = true := by
    cases sx <;> decide +kernel
  obtain ⟨⟨s, tr⟩, h1, key⟩ := test_ok key
  obtain ⟨⟨s', o, e⟩, h2, key⟩ := test_ok key
  simp only [decide_eq_true_eq] at key
  have := h _ s s' tr exEnv 0 o e exA _ _ ⟨100, exSep, exPool, h1⟩ h2 key rfl
  revert this
  decide

/-- The proved part: it holds for senders that ask, confirmably, only for paths with a
separate response. -/
theorem C53_confirmable_partial (sx : Bool) (evs : List (Env × Event)) (s s' : Srv) (tr : List (List Obs)) (env : Env) (i : Nat)
    (o : List Obs) (e : Option Err) (a : Addr) (b : Bytes) (hd : Header) (hr : Reach sx evs s tr)
    (hq : ∀ x ∈ evs, ∀ m, arrived sx a x = some m → Asks m → m.type = CON ∧ Separate s.sepList m)
    (h : step sx s env (.timer i) = .ok (s', o, e)) (hb : (a, b) ∈ sends o) (hh : header b = some hd) : hd.type = CON := by
  have hb' := mem_sends.1 hb
  cases step_view (step_rel h) hr.tidy a with
  | untouched hu ho => exact absurd rfl (ho _ hb')
  | evicted _ _ _ _ _ _ _ _ _ ho => exact absurd rfl (ho _ hb')
  | exchange d u r L hev => cases hev
  | timer j u r hev hi hu hta hact har hout ho he h' =>
    obtain ⟨hd', h1, h2⟩ := armed_con hr hq u hu har
    subst ho
    cases hout with
    | expired => simp at hb'
    | noTimer => simp at hb'
    | noSend => simp at hb'
    | resent =>
      simp at hb'
      rw [hb'.2] at hh
      rw [hh] at h1
      cases h1
      exact h2

/-- An expiry after a request for such a path, see the example for C26. -/
example : ∀ x ∈ exExpire, ∀ m, arrived true exA x = some m → Asks m → m.type = CON ∧ Separate exSep m := by
  have h : (exExpire.all (fun x => match arrived true exA x with
      | some m => decide (Asks m → m.type = CON ∧ Separate exSep m)
      | none => true)) = true := by decide +kernel
  intro x hx m hm
  have := List.all_eq_true.1 h x hx
  rw [hm] at this
  exact of_decide_eq_true this

end FreeCoAP.Server
