import Verif.Server.LemmasOutcome

/-! # The outcomes of an event, and induction over histories -/

namespace FreeCoAP.Server

open FreeCoAP.Msg

/-- All outcomes of an expired timer. -/
inductive TimerOutcome (env : Env) (t : Trans) (L : Large) (id : Nat) : TRes → Prop where
  | expired (h : t.numRetrans ≥ MAX_RETRANSMIT ∨ env.timerErr ≠ none) :
      TimerOutcome env t L id ⟨Trans.zero, (clearBlockwise t.blk L).2, id, [], none⟩
  | noTimer (h : t.numRetrans < MAX_RETRANSMIT) (e : Err) (he : env.timerErr = some e) :
      TimerOutcome env t L id ⟨{ t with timeout := (2 * t.timeout) % 2 ^ 32 }, L, id, [], some e⟩
  | resent (h : t.numRetrans < MAX_RETRANSMIT) (he : env.timerErr = none) (hs : Sendable t.resp) (hse : env.sendErr = none) :
      TimerOutcome env t L id
        ⟨{ t with timeout := (2 * t.timeout) % 2 ^ 32, armed := true, numRetrans := t.numRetrans + 1, lastUse := env.now },
          L, id, [.arm t.addr ((2 * t.timeout) % 2 ^ 32), .sent t.addr (enc t.resp)], none⟩
  | noSend (h : t.numRetrans < MAX_RETRANSMIT) (he : env.timerErr = none) (e : Err)
      (hf : env.sendErr = none → ¬ Sendable t.resp) :
      TimerOutcome env t L id
        ⟨{ t with timeout := (2 * t.timeout) % 2 ^ 32, armed := true, numRetrans := t.numRetrans + 1 },
          L, id, [.arm t.addr ((2 * t.timeout) % 2 ^ 32)], some e⟩

theorem ackTimeout_outcome {env : Env} {t : Trans} {L : Large} {id : Nat} {r : TRes}
    (h : ackTimeout env t L id = .ok r) : TimerOutcome env t L id r := by
  unfold ackTimeout updateAckTimer at h
  by_cases hn : t.numRetrans ≥ MAX_RETRANSMIT
  · simp only [hn, if_true] at h
    rw [failT_eq] at h
    cases h
    exact .expired (Or.inl hn)
  · simp only [hn, if_false] at h
    cases he : env.timerErr with
    | some e =>
      rw [he] at h
      simp only at h
      split at h
      · rw [failT_eq] at h
        cases h
        exact .expired (Or.inr (by simp [he]))
      · cases h
        exact .noTimer (by omega) e he
    | none =>
      rw [he] at h
      simp only at h
      split at h
      · cases h
      · cases h
      · rename_i t2 o2 e hs
        rcases send_cases hs with ⟨rfl, hse, rfl, rfl, hsh⟩ | ⟨x, rfl, rfl, rfl⟩
        · cases h
          exact .resent (by omega) he hsh hse
        · cases h
          exact .noSend (by omega) he x (send_fail hs)

/-- A transaction as `coap_server_trans_create` leaves it. -/
def fresh (env : Env) (a : Addr) : Trans :=
  { Trans.zero with active := true, lastUse := env.now, addr := a, req := create, resp := create }

/-- All outcomes of an event. -/
inductive StepRel (sx : Bool) (s : Srv) (env : Env) : Event → Srv → List Obs → Option Err → Prop where
  | noAccept (a : Addr) (d : Bytes) (e : Err) (h : env.acceptErr = some e) : StepRel sx s env (.datagram a d) s [] (some e)
  | noTimer (i : Nat) (h : ∀ t, s.trans[i]? = some t → ¬ (t.active = true ∧ t.armed = true)) :
      StepRel sx s env (.timer i) s [] none
  | appId : StepRel sx s env .appId { s with msgId := nextMsgId s.msgId env.idRand } [] none
  | known (a : Addr) (d : Bytes) (i : Nat) (t : Trans) (r : TRes) (h0 : env.acceptErr = none) (hi : s.trans[i]? = some t)
      (ha : t.active = true) (hd : t.addr = a) (hf : findTrans s.trans a = some i)
      (h : Outcome sx s.sepList env t s.large s.msgId d r) :
      StepRel sx s env (.datagram a d)
        { s with msgId := r.msgId, trans := s.trans.set i r.trans, large := r.large } r.obs r.err
  | noCreate (a : Addr) (d : Bytes) (e : Err) (h0 : env.acceptErr = none) (hf : findTrans s.trans a = none) (he : env.createErr = some e) :
      StepRel sx s env (.datagram a d)
        { (makeRoom s).2 with trans := (makeRoom s).2.trans.set (makeRoom s).1 Trans.zero } [] (some e)
  | new (a : Addr) (d : Bytes) (r : TRes) (h0 : env.acceptErr = none) (hf : findTrans s.trans a = none) (he : env.createErr = none)
      (hi : (makeRoom s).1 < s.trans.length)
      (h : Outcome sx s.sepList env (fresh env a) (makeRoom s).2.large s.msgId d r) :
      StepRel sx s env (.datagram a d)
        { s with msgId := r.msgId, trans := s.trans.set (makeRoom s).1 r.trans, large := r.large } r.obs r.err
  | timer (i : Nat) (t : Trans) (r : TRes) (hi : s.trans[i]? = some t) (ha : t.active = true) (hr : t.armed = true)
      (h : TimerOutcome env t s.large s.msgId r) :
      StepRel sx s env (.timer i)
        { s with msgId := r.msgId, trans := s.trans.set i r.trans, large := r.large } r.obs r.err

theorem makeRoom_eq (s : Srv) : (makeRoom s).2.msgId = s.msgId ∧ (makeRoom s).2.sepList = s.sepList ∧
    (makeRoom s).2.trans.length = s.trans.length ∧ ∀ t, (makeRoom s).2.trans.set (makeRoom s).1 t = s.trans.set (makeRoom s).1 t := by
  unfold makeRoom
  split
  · simp
  · simp only
    split <;> simp

theorem step_rel {sx : Bool} {s s' : Srv} {env : Env} {ev : Event} {o : List Obs} {e : Option Err}
    (h : step sx s env ev = .ok (s', o, e)) : StepRel sx s env ev s' o e := by
  cases ev with
  | appId => cases h; exact .appId
  | timer i =>
    change Server.timer env s i = _ at h
    unfold Server.timer at h
    split at h
    · rename_i hi
      cases h
      exact .noTimer i (by simp [hi])
    · rename_i t hi
      split at h
      · rename_i ht
        split at h
        · cases h
        · cases h
        · rename_i r hr
          cases h
          exact .timer i t r hi ht.1 ht.2 (ackTimeout_outcome hr)
      · rename_i ht
        cases h
        exact .noTimer i (by rw [hi]; simpa using ht)
  | datagram a d =>
    change exchange sx env s a d = _ at h
    unfold exchange at h
    split at h
    · rename_i x hx
      cases h
      exact .noAccept a d _ hx
    · rename_i h0
      split at h
      · rename_i i hf
        unfold exchangeAt at h
        split at h
        · cases h
        · rename_i t hi
          split at h
          · cases h
          · cases h
          · rename_i r hr
            cases h
            have hf' := hf
            unfold findTrans at hf'
            rw [List.findIdx?_eq_some_iff_getElem] at hf'
            obtain ⟨hl, hp, -⟩ := hf'
            have : s.trans[i] = t := by rw [List.getElem?_eq_getElem hl] at hi; injection hi
            rw [this] at hp
            simp only [Bool.and_eq_true, beq_iff_eq] at hp
            exact .known a d i t r h0 hi hp.1 hp.2 hf (exchangeT_outcome hr)
      · rename_i hf
        obtain ⟨m1, m2, m4, m3⟩ := makeRoom_eq s
        have hmr : makeRoom s = ((makeRoom s).1, (makeRoom s).2) := rfl
        rw [hmr] at h
        cases hc : env.createErr with
        | some e =>
          simp only [createT, hc] at h
          cases h
          exact .noCreate a d _ h0 hf hc
        | none =>
            simp only [createT, hc] at h
            unfold exchangeAt at h
            simp only [List.set_set, m1, m2] at h
            rw [m3] at h
            split at h
            · cases h
            · rename_i t hi
              rw [List.getElem?_set] at hi
              simp only [if_true] at hi
              split at hi
              · rename_i hl
                cases hi
                split at h
                · cases h
                · cases h
                · rename_i r hr
                  cases h
                  have hr' := exchangeT_outcome hr
                  have := StepRel.new (sx := sx) (s := s) a d r h0 hf hc hl hr'
                  rw [m3]
                  exact this
              · cases hi

theorem run_append {sx : Bool} {s : Srv} {xs ys : List (Env × Event)} {s2 : Srv} {tr : List (List Obs)}
    (h : run sx s (xs ++ ys) = .ok (s2, tr)) : ∃ s1 t1 t2, run sx s xs = .ok (s1, t1) ∧ run sx s1 ys = .ok (s2, t2) ∧
      tr = t1 ++ t2 ∧ t1.length = xs.length := by
  induction xs generalizing s tr with
  | nil => exact ⟨s, [], tr, rfl, h, rfl, rfl⟩
  | cons x xs ih =>
    obtain ⟨env, ev⟩ := x
    simp only [List.cons_append, run] at h ⊢
    split at h
    · cases h
    · cases h
    · rename_i s1 o e hs
      split at h
      · cases h
      · cases h
      · rename_i s3 os hr
        cases h
        obtain ⟨s4, t1, t2, e1, e2, rfl, e4⟩ := ih hr
        refine ⟨s4, o :: t1, t2, ?_, e2, by simp, by simp [e4]⟩
        rw [e1]

theorem run_append_ok {sx : Bool} {s s1 s2 : Srv} {xs ys : List (Env × Event)} {t1 t2 : List (List Obs)}
    (h1 : run sx s xs = .ok (s1, t1)) (h2 : run sx s1 ys = .ok (s2, t2)) : run sx s (xs ++ ys) = .ok (s2, t1 ++ t2) := by
  induction xs generalizing s t1 with
  | nil => cases h1; exact h2
  | cons x xs ih =>
    obtain ⟨env, ev⟩ := x
    simp only [List.cons_append, run] at h1 ⊢
    split at h1
    · cases h1
    · cases h1
    · rename_i s3 o e hs
      split at h1
      · cases h1
      · cases h1
      · rename_i s4 os hr
        cases h1
        rw [ih hr]
        rfl

theorem run_one {sx : Bool} {s s2 : Srv} {env : Env} {ev : Event} {t : List (List Obs)}
    (h : run sx s [(env, ev)] = .ok (s2, t)) : ∃ o e, step sx s env ev = .ok (s2, o, e) ∧ t = [o] := by
  simp only [run] at h
  split at h
  · cases h
  · cases h
  · rename_i s3 o e hs
    cases h
    exact ⟨o, e, hs, rfl⟩

theorem run_cons {sx : Bool} {s s2 : Srv} {env : Env} {ev : Event} {rest : List (Env × Event)} {t : List (List Obs)}
    (h : run sx s ((env, ev) :: rest) = .ok (s2, t)) :
    ∃ s1 o e t', step sx s env ev = .ok (s1, o, e) ∧ run sx s1 rest = .ok (s2, t') ∧ t = o :: t' := by
  simp only [run] at h
  split at h
  · cases h
  · cases h
  · rename_i s3 o e hs
    split at h
    · cases h
    · cases h
    · rename_i s4 os hr
      cases h
      exact ⟨s3, o, e, os, hs, hr, rfl⟩

/-- Induction over histories from a state. -/
theorem run_induction {sx : Bool} {s0 : Srv} {P : List (Env × Event) → Srv → List (List Obs) → Prop} (h0 : P [] s0 [])
    (hs : ∀ evs s tr env ev s' o e, P evs s tr → StepRel sx s env ev s' o e → P (evs ++ [(env, ev)]) s' (tr ++ [o])) :
    ∀ evs s tr, run sx s0 evs = .ok (s, tr) → P evs s tr := by
  have gen : ∀ ys pre s tr s2 tr2, P pre s tr → run sx s ys = .ok (s2, tr2) → P (pre ++ ys) s2 (tr ++ tr2) := by
    intro ys
    induction ys with
    | nil => intro pre s tr s2 tr2 h h2; cases h2; simpa using h
    | cons y ys ih =>
      obtain ⟨env, ev⟩ := y
      intro pre s tr s2 tr2 h h2
      obtain ⟨s1, o, e, t', h3, h4, rfl⟩ := run_cons h2
      have := ih _ _ _ _ _ (hs _ _ _ _ _ _ _ _ h (step_rel h3)) h4
      simpa using this
  intro evs s tr h
  simpa using gen evs [] s0 [] s tr h0 h

/-- The same with the history so far and the step itself at hand. -/
theorem run_induction' {sx : Bool} {s0 : Srv} {P : List (Env × Event) → Srv → List (List Obs) → Prop} (h0 : P [] s0 [])
    (hs : ∀ evs s tr env ev s' o e, run sx s0 evs = .ok (s, tr) → P evs s tr → step sx s env ev = .ok (s', o, e) →
      P (evs ++ [(env, ev)]) s' (tr ++ [o])) :
    ∀ evs s tr, run sx s0 evs = .ok (s, tr) → P evs s tr := by
  have gen : ∀ ys pre s tr s2 tr2, run sx s0 pre = .ok (s, tr) → P pre s tr → run sx s ys = .ok (s2, tr2) →
      P (pre ++ ys) s2 (tr ++ tr2) := by
    intro ys
    induction ys with
    | nil => intro pre s tr s2 tr2 _ h h2; cases h2; simpa using h
    | cons y ys ih =>
      obtain ⟨env, ev⟩ := y
      intro pre s tr s2 tr2 h1 h h2
      obtain ⟨s1, o, e, t', h3, h4, rfl⟩ := run_cons h2
      have h5 : run sx s [(env, ev)] = .ok (s1, [o]) := by simp only [run, h3]
      have := ih _ _ _ _ _ (run_append_ok h1 h5) (hs _ _ _ _ _ _ _ _ h1 h h3) h4
      simpa using this
  intro evs s tr h
  simpa using gen evs [] s0 [] s tr rfl h0 h

theorem reach_induction {sx : Bool} {P : List (Env × Event) → Srv → List (List Obs) → Prop}
    (h0 : ∀ id sepList pool, P [] (init id sepList pool) [])
    (hs : ∀ evs s tr env ev s' o e, P evs s tr → StepRel sx s env ev s' o e → P (evs ++ [(env, ev)]) s' (tr ++ [o]))
    {evs : List (Env × Event)} {s : Srv} {tr : List (List Obs)} (h : Reach sx evs s tr) : P evs s tr := by
  obtain ⟨id, sepList, pool, h⟩ := h
  exact run_induction (h0 id sepList pool) hs _ _ _ h

theorem Reach.step {sx : Bool} {evs : List (Env × Event)} {s s' : Srv} {tr : List (List Obs)} {env : Env} {ev : Event}
    {o : List Obs} {e : Option Err} (h : Reach sx evs s tr) (hs : Server.step sx s env ev = .ok (s', o, e)) :
    Reach sx (evs ++ [(env, ev)]) s' (tr ++ [o]) := by
  obtain ⟨id, sepList, pool, h⟩ := h
  refine ⟨id, sepList, pool, run_append_ok h ?_⟩
  simp only [run, hs]

end FreeCoAP.Server
