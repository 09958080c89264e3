import Verif.Server.SpecAnew
import Verif.Server.PropsAnswered

/-! # A transfer that was given up does not disturb later requests (C127) -/

namespace FreeCoAP.Server

open FreeCoAP.Msg

/-- C127, in full: every new request without Block options reaches the application, whatever transfers the sender had before. -/
def C127_statement (sx : Bool) : Prop :=
  ∀ (evs : List (Env × Event)) (s s' : Srv) (tr : List (List Obs)) (env : Env) (a : Addr) (d : Bytes) (m : Msg) (o : List Obs) (e : Option Err),
    Reach sx evs s tr → NoFault env → NewRequest sx evs a d m → m.msgId ≠ 0 → AllKnown m → Alone m →
    step sx s env (.datagram a d) = .ok (s', o, e) → (a, m) ∈ calls o

/-- The request of `exDelete`. -/
def exDeleteMsg : Msg := ⟨1, CON, 0, 4, 9, [], [⟨11, [97]⟩], []⟩

/-- C127 is violated: the client has fetched the first block of a resource and then sends a DELETE for it, which is answered 4.00 and does not reach the application. -/
theorem C127_violated (sx : Bool) : ¬ C127_statement sx := by
  intro h
  have hc : Carries sx exDelete exDeleteMsg := by
    unfold Carries
    cases sx <;> decide +kernel
  have hl : (match lastRequest sx exA [(exBlock, .datagram exA exB0)] with | some m => m.msgId == 5 | none => true) = true := by
    cases sx <;> decide +kernel
  have key : test (run sx exInit [(exBlock, .datagram exA exB0)]) (fun x =>
      test (step sx x.1 exBlock (.datagram exA exDelete)) (fun y => decide (calls y.2.1 = [] ∧ sends y.2.1 = [(exA, [0x60, 0x80, 0, 9])]))) = true := by
    cases sx <;> decide +kernel
  obtain ⟨⟨s, tr⟩, h1, key⟩ := test_ok key
  obtain ⟨⟨s', o, e⟩, h2, key⟩ := test_ok key
  have key := of_decide_eq_true key
  have := h [(exBlock, .datagram exA exB0)] s s' tr exBlock exA exDelete exDeleteMsg o e ⟨_, _, _, h1⟩ exBlock_noFault ⟨hc, by decide, by
      intro m' hm'
      rw [hm'] at hl
      simp only [beq_iff_eq] at hl
      rw [hl]
      decide⟩ (by decide) (by decide) (by
      intro o ho
      rw [show exDeleteMsg.ops = [⟨11, [97]⟩] from rfl, List.mem_singleton] at ho
      subst ho
      decide) h2
  rw [key.1] at this
  cases this

/-- Without a transfer the application is called for every new request. -/
theorem C127_idle_partial (sx : Bool) (evs : List (Env × Event)) (s s' : Srv) (tr : List (List Obs)) (env : Env) (a : Addr) (d : Bytes) (m : Msg)
    (o : List Obs) (e : Option Err) (hR : Reach sx evs s tr) (hf : NoFault env) (hn : NewRequest sx evs a d m) (h0 : m.msgId ≠ 0) (hk : AllKnown m)
    (htr : ¬ Transfer s a) (h : step sx s env (.datagram a d) = .ok (s', o, e)) : calls o = [(a, m)] := by
  obtain ⟨u, L, r, o2, hu, hta, hg, hcalls, -⟩ := new_request hR.tidy (step_rel h) hn.carries hf.arrives hf.create
    (fun _ => hf.ack) hn.request.1 (fun _ => h0) (hn.fresh h0 hR)
  have hreg : u.blk.type = .regular := by
    rcases hu with ⟨h1, -⟩ | ⟨-, rfl, -⟩
    · apply Classical.byContradiction
      intro hne
      exact htr ⟨u, h1, hne⟩
    · rfl
  have ho2 := generate_call (t := cleared env u) hk hreg hg
  rw [hcalls, ho2]
  show [((cleared env u).addr, m)] = _
  rw [show (cleared env u).addr = u.addr from rfl, hta]

theorem next2_over {opMem payMem : Bool} {b : Blk} {L : Large} {req resp : Msg} {num2 : Nat} {uri : Bytes} {x : BRes}
    (h : Next2 opMem payMem b L req resp num2 uri x) : x.blk.type = .regular ∨ x.resp.codeClass = 2 := by
  cases h with
  | bad => exact Or.inl rfl
  | fail => exact Or.inl rfl
  | more => exact Or.inr rfl
  | last => exact Or.inl rfl

/-- A transfer is over or goes on with a success. -/
theorem nextStep_over {env : Env} {opMem : Bool} {again : Blk → Large → Msg → Out BRes} {b : Blk} {L : Large} {req resp : Msg} {x : BRes}
    (ha : ∀ b' L' resp' x', again b' L' resp' = .ok x' → x'.blk.type = .regular ∨ x'.resp.codeClass = 2)
    (h : NextStep env opMem again b L req resp x) : x.blk.type = .regular ∨ x.resp.codeClass = 2 := by
  cases h with
  | badOp h => exact Or.inl rfl
  | regular o1 o2 h1 h2 ht => exact Or.inl ht
  | two o1 o2 h1 h2 ht x hx => exact next2_over hx
  | one o1 o2 h1 h2 ht x hx =>
    cases hx with
    | bad => exact Or.inl rfl
    | order => exact Or.inl rfl
    | large => exact Or.inl rfl
    | fail => exact Or.inl rfl
    | more => exact Or.inr rfl
    | whole g1 g2 g3 g4 g5 hm szx hz val hv p bytes bytes' hb hw id hrx rr hr hlen x hx =>
      rcases hx with ⟨e, -, rfl⟩ | ⟨-, -, rfl⟩ | ⟨-, -, -, hx⟩ | ⟨-, -, -, ⟨-, rfl⟩ | ⟨-, rfl⟩⟩
      · exact Or.inl rfl
      · exact Or.inl rfl
      · exact ha _ _ _ x hx
      · exact Or.inl rfl
      · exact Or.inl rfl

theorem generate_over {env : Env} {t : Trans} {L : Large} {m : Msg} {r : BRes} (hk : AllKnown m) (h : generate env t L m = .ok (r, [])) :
    r.blk.type = .regular ∨ r.resp.codeClass = 2 := by
  unfold generate at h
  rw [if_neg (by rw [checkCritical_ne]; exact fun h => h hk)] at h
  split at h
  · split at h
    · rename_i x hx
      cases h
      refine nextStep_over ?_ (nextBlockStep_cases hx)
      intro b' L' resp' x' h'
      exact nextStep_over (fun _ _ _ _ h => by cases h) (nextBlockStep_cases h')
    · cases h
    · cases h
  · repeat' split at h
    all_goals first | cases h; done | skip

/-- The transfer of a sender is over after a new request that was neither given to the application nor answered with a success. -/
theorem refused_over {sx : Bool} {evs : List (Env × Event)} {s s' : Srv} {tr : List (List Obs)} {env : Env} {a : Addr} {d : Bytes} {m : Msg}
    {o : List Obs} {e : Option Err} (hR : Reach sx evs s tr) (hf : NoFault env) (hn : NewRequest sx evs a d m) (h0 : m.msgId ≠ 0)
    (hk : AllKnown m) (h : step sx s env (.datagram a d) = .ok (s', o, e)) (hc : (a, m) ∉ calls o)
    (hs : ∀ b hd, (a, b) ∈ sends o → header b = some hd → hd.cls ≠ 2) : ¬ Transfer s' a := by
  obtain ⟨u, L, r, o2, hu, hta, hg, hcalls, -, hres⟩ := new_request hR.tidy (step_rel h) hn.carries hf.arrives hf.create
    (fun _ => hf.ack) hn.request.1 (fun _ => h0) (hn.fresh h0 hR)
  have ho2 : o2 = [] := by
    rcases generate_calls hg with rfl | ⟨-, rfl⟩
    · rfl
    · exfalso
      apply hc
      rw [hcalls]
      show (a, m) ∈ [((cleared env u).addr, m)]
      simp [cleared, hta]
  subst ho2
  rintro ⟨t, ht, hty⟩
  rcases hres with ⟨x, -, -, hno, -⟩ | ⟨-, -, hno⟩ | ⟨-, -, -, hsend, -, -, q, p, -, -, hst⟩
  · rw [hno] at ht; cases ht
  · rw [hno] at ht; cases ht
  · rw [hst] at ht
    cases ht
    rcases generate_over hk hg with h1 | h1
    · exact hty h1
    · refine hs _ _ (by rw [hsend]; exact List.mem_append.2 (Or.inr (List.mem_singleton.2 rfl))) (final_header hn.carries.fields.1) ?_
      show r.resp.codeClass % 8 = 2
      rw [h1]

/-- Without a transfer and without a call of the application none begins. -/
theorem still_idle {sx : Bool} {a : Addr} : ∀ {evs : List (Env × Event)} {s s' : Srv} {tr : List (List Obs)}, Tidy s →
    Server.run sx s evs = .ok (s', tr) → (∀ t, ofAddr s a = some t → t.blk.type = .regular) → (∀ o ∈ tr, ∀ m, (a, m) ∉ calls o) →
    ∀ t, ofAddr s' a = some t → t.blk.type = .regular
  | [], s, s', tr, _, h, hi, _ => by cases h; exact hi
  | (env, ev) :: evs, s, s', tr, ht, h, hi, hc => by
    obtain ⟨s1, o, e, tr1, h1, h2, rfl⟩ := run_cons h
    have hr := step_rel h1
    obtain ⟨l, g1, -, -⟩ := blk_step (B := fun b => b.type = .regular) (B' := fun _ b => b.type = .regular) (Q := fun _ => True) ht hr hi rfl
      (fun _ h => h) trivial (hc o (by simp)) (by
        intro d t L m r _ _ _ hB hg
        refine ⟨fun _ => ?_, trivial⟩
        by_cases hk : AllKnown m
        · have := generate_call hk hB hg
          cases this
        · rw [(generate_bad hk hg).2.2.1]
          exact hB)
    exact still_idle (hr.tidy ht) h2 g1 (fun o ho => hc o (by simp [ho]))

/-- An unfinished transfer costs at most one request: after a new request that was neither given to the application nor answered with a
success, the next new request reaches the application, whatever happens in between. -/
theorem C127_once_partial (sx : Bool) (evs evs2 : List (Env × Event)) (s s1 s2 s3 : Srv) (tr tr2 : List (List Obs)) (env1 env3 : Env) (a : Addr)
    (d1 d3 : Bytes) (m1 m3 : Msg) (o1 o3 : List Obs) (e1 e3 : Option Err) (hR : Reach sx evs s tr) (hf1 : NoFault env1)
    (hn1 : NewRequest sx evs a d1 m1) (h01 : m1.msgId ≠ 0) (hk1 : AllKnown m1) (h1 : step sx s env1 (.datagram a d1) = .ok (s1, o1, e1))
    (hc1 : (a, m1) ∉ calls o1) (hs1 : ∀ b hd, (a, b) ∈ sends o1 → header b = some hd → hd.cls ≠ 2)
    (h2 : run sx s1 evs2 = .ok (s2, tr2)) (hc2 : ∀ o ∈ tr2, ∀ m, (a, m) ∉ calls o) (hf3 : NoFault env3)
    (hn3 : NewRequest sx (evs ++ (env1, .datagram a d1) :: evs2) a d3 m3) (h03 : m3.msgId ≠ 0) (hk3 : AllKnown m3)
    (h3 : step sx s2 env3 (.datagram a d3) = .ok (s3, o3, e3)) : calls o3 = [(a, m3)] := by
  have ho := refused_over hR hf1 hn1 h01 hk1 h1 hc1 hs1
  have ht1 := (step_rel h1).tidy hR.tidy
  have hi := still_idle (a := a) ht1 h2 (fun t ht => Classical.byContradiction fun hne => ho ⟨t, ht, hne⟩) hc2
  obtain ⟨i, sl, p, hr⟩ := hR
  have hrun : run sx s ((env1, .datagram a d1) :: evs2) = .ok (s2, o1 :: tr2) := by
    unfold run
    rw [h1]
    simp only [h2]
  exact C127_idle_partial sx _ s2 s3 _ env3 a d3 m3 o3 e3 ⟨i, sl, p, run_append_ok hr hrun⟩ hf3 hn3 h03 hk3
    (fun ⟨t, ht, hne⟩ => hne (hi t ht)) h3

/-- The same DELETE again with id 10. -/
def exAgain : Bytes := [0x40, 0x04, 0, 10, 0xB1, 97]

/-- The hypotheses of `C127_once_partial` can be met: the DELETE in the middle of the download is answered 4.00 without a call of the
application, and the application gets the next one. -/
example : test (run true exInit [(exBlock, .datagram exA exB0), (exBlock, .datagram exA exDelete), (exEnv, .datagram exA exAgain)]) (fun x =>
    decide (x.2.map calls = [[(exA, exM0)], [], [(exA, { exDeleteMsg with msgId := 10 })]] ∧
      (x.2.map sends)[1]? = some [(exA, [0x60, 0x80, 0, 9])])) = true := by
  decide +kernel

example : Alone exDeleteMsg ∧ AllKnown exDeleteMsg ∧ Request exDeleteMsg := by
  refine ⟨?_, by decide, by decide⟩
  intro o ho
  rw [show exDeleteMsg.ops = [⟨11, [97]⟩] from rfl, List.mem_singleton] at ho
  subst ho
  decide

/-- The hypotheses of `C127_idle_partial` can be met: in the initial state no sender has a transfer. -/
example : ¬ Transfer exInit exA := by
  rintro ⟨t, ht, -⟩
  cases ht

end FreeCoAP.Server
