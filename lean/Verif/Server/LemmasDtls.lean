import Verif.Server.SpecDtls
import Verif.Server.LemmasHist
import Verif.Server.LemmasServe

/-! # Lemmas about the server over DTLS -/

namespace FreeCoAP.Server.Dtls

open FreeCoAP.Msg

/-! ## Datagrams -/

theorem Handed.append {g g' : List Dgram} {l l' : List (Addr × Bytes)} (h : Handed g l) (h' : Handed g' l') : Handed (g ++ g') (l ++ l') := by
  induction h with
  | nil => exact h'
  | cons h _ ih => exact .cons h ih

theorem pulls_append (t u : List Ev) : pulls (t ++ u) = pulls t ++ pulls u := by simp [pulls]

theorem Orderly.refl (w : World) : Orderly w w := ⟨[], [], [], rfl, by simp, by simp, .nil, by simp⟩

theorem Orderly.trans {w w1 w2 : World} (h : Orderly w w1) (h' : Orderly w1 w2) : Orderly w w2 := by
  obtain ⟨u, g, t, h1, h2, h3, h4, h5⟩ := h
  obtain ⟨u', g', t', k1, k2, k3, k4, k5⟩ := h'
  refine ⟨u ++ u', g ++ g', t ++ t', ?_, ?_, ?_, ?_, ?_⟩
  · rw [h1, k1, List.append_assoc]
  · rw [List.flatMap_append, ← List.append_assoc, h2, List.append_assoc, k2, List.append_assoc]
  · rw [k3, h3, List.append_assoc]
  · rw [pulls_append]; exact h4.append k4
  · intro a b d hm
    rcases List.mem_append.1 hm with hm | hm
    · exact h5 a b d hm
    · exact k5 a b d hm

theorem Orderly.errno {w w' : World} (h : Orderly w w') (e : Option Err) : Orderly w { w' with errno := e } := h

theorem Orderly.fail {w w' : World} (h : Orderly w w') (e : Err) : Orderly w (w'.fail e) := h

theorem Orderly.clear {w w' : World} {e : Option Err} (h : Orderly { w with errno := e } w') : Orderly w w' := h

theorem next_orderly (w : World) : Orderly w w.next.2 := by
  unfold World.next
  split
  · exact .refl w
  · rename_i m rest h
    exact ⟨[m], [], [], by simp [h], by simp, by simp, .nil, by simp⟩

theorem peek_orderly (len : Nat) (w : World) : Orderly w (peek len w).2 := by
  have h := next_orderly w
  unfold peek
  split
  · rename_i e w1 hw; rw [hw] at h; exact h
  · rename_i w1 hw; rw [hw] at h
    split <;> exact h

/-- The queue only grows at its end. -/
theorem next_queue (w : World) : ∃ l, w.next.2.queue = w.queue ++ l := by
  unfold World.next
  split
  · exact ⟨[], by simp⟩
  · exact ⟨_, rfl⟩

theorem next_errno (w : World) : w.next.2.errno = w.errno := by
  unfold World.next
  split <;> rfl

theorem peek_some {len : Nat} {w w' : World} {b : Bytes} {a : Addr} (h : peek len w = (some (b, a), w')) :
    w' = w.next.2 ∧ w.next.1 = none ∧ ∃ d q, w'.queue = d :: q ∧ b = d.data.take len ∧ a = d.src := by
  unfold peek at h
  split at h
  · cases h
  · rename_i w1 hw
    split at h
    · cases h
    · rename_i d q hq
      simp only [Prod.mk.injEq, Option.some.injEq] at h
      obtain ⟨⟨rfl, rfl⟩, rfl⟩ := h
      exact ⟨by rw [hw], by rw [hw], d, q, hq, rfl, rfl⟩

theorem pull_orderly (a : Addr) (len : Nat) (w : World) : Orderly w (pull a len w).2 := by
  have h0 := peek_orderly len w
  unfold pull
  split
  · rename_i w1 hp; rw [hp] at h0; exact h0
  · rename_i b src w1 hp; rw [hp] at h0
    obtain ⟨-, -, d, q, hq, hb, hs⟩ := peek_some hp
    split
    · exact h0
    · rename_i hsrc
      have hsrc : src = a := by simpa using hsrc
      have h1 := next_orderly w1
      unfold take
      split
      · rename_i w2 ht
        split at ht
        · rename_i e w3 hw; rw [hw] at h1; cases ht; exact h0.trans h1
        · rename_i w3 hw; rw [hw] at h1
          split at ht
          · cases ht; exact h0.trans h1
          · cases ht
      · rename_i b' w2 ht
        split at ht
        · cases ht
        · rename_i w3 hw; rw [hw] at h1
          obtain ⟨l, hl⟩ := next_queue w1
          rw [hw, hq] at hl
          split at ht
          · cases ht
          · rename_i d' q' hq'
            simp only [hq', List.cons_append] at hl
            injection hl with hd hq2
            subst hd
            simp only [Prod.mk.injEq, Option.some.injEq] at ht
            obtain ⟨rfl, rfl⟩ := ht
            refine (h0.trans h1).trans ?_
            refine ⟨[], [d'], [.pulled a (d'.data.take b.length)], by simp, by simp [hq'], by simp, ?_, by simp⟩
            have : a = d'.src := by rw [← hsrc, hs]
            subst this
            exact .cons (List.take_prefix _ _) .nil

theorem listenTimeout_orderly (w : World) : Orderly w (listenTimeout w).2 := by
  have h := next_orderly w
  unfold listenTimeout
  split
  · rename_i e w1 hw; rw [hw] at h; exact h
  · rename_i w1 hw; rw [hw] at h; exact h

theorem wait_orderly (a : Addr) (w : World) : Orderly w (wait a w).2 := by
  have h := listenTimeout_orderly w
  unfold wait
  split
  · rename_i w1 hw; rw [hw] at h; exact h
  · rename_i w1 hw; rw [hw] at h; exact h
  · rename_i w1 hw; rw [hw] at h
    have h1 := peek_orderly BUF_LEN w1
    split
    · rename_i w2 hp; rw [hp] at h1; exact h.trans h1
    · rename_i b src w2 hp; rw [hp] at h1
      split <;> exact h.trans h1

theorem push_orderly (a : Addr) (b : Bytes) (w : World) : Orderly w (push a b w).2 := by
  have h := next_orderly w
  unfold push
  split
  · rename_i e w1 hw; rw [hw] at h; exact h
  · rename_i w1 hw; rw [hw] at h
    refine h.trans ⟨[], [], [.pushed a a b], by simp, by simp, by simp, .nil, ?_⟩
    intro x y d hm
    simp only [List.mem_singleton, Ev.pushed.injEq] at hm
    rw [hm.1, hm.2.1]

theorem call_orderly (a : Addr) (p : Lib α) (w : World) : Orderly w (p.call a w).2 := by
  induction p generalizing w with
  | done r f => exact .refl w
  | pull len k ih => exact (pull_orderly a len w).trans (ih _ _)
  | wait k ih => exact (wait_orderly a w).trans (ih _ _)
  | push b k ih => exact (push_orderly a b w).trans (ih _ _)

theorem shakeLoop_orderly (a : Addr) (hs : Nat → Lib Shake) (n : Nat) (w : World) : Orderly w (shakeLoop a hs n w).2 := by
  induction n generalizing w with
  | zero => unfold shakeLoop; exact .refl w
  | succ n ih =>
    have h0 := (call_orderly a (hs (ATTEMPTS - (n + 1))) { w with errno := none }).clear
    have hafter : ∀ (r : Shake) (w1 : World), Orderly w w1 → Orderly w (shakeAfter r n w1 (shakeLoop a hs n)).2 := by
      intro r w1 h1
      unfold shakeAfter
      split
      · exact h1
      · exact h1
      · exact h1
      · exact h1
      · split
        · exact h1.trans (ih _)
        · have h2 := listenTimeout_orderly w1
          split
          · rename_i e w2 hw; rw [hw] at h2; exact h1.trans h2
          · rename_i b w2 hw; rw [hw] at h2; exact (h1.trans h2).trans (ih _)
    unfold shakeLoop
    dsimp only
    split
    · split
      · exact h0
      · exact hafter _ _ h0
    · exact hafter _ _ h0

theorem sessionCreate_orderly (auth : Bool) (a : Addr) (c : Calls) (w : World) : Orderly w (sessionCreate auth a c w).2 := by
  have h := shakeLoop_orderly a c.handshake ATTEMPTS w
  unfold sessionCreate shake
  split
  · exact .refl w
  · split
    · rename_i e w1 hw; rw [hw] at h; exact h
    · rename_i w1 hw; rw [hw] at h
      split <;> exact h

theorem admit_orderly (auth : Bool) (env : Env) (c : Calls) (a : Addr) (s : Srv) (w : World) :
    Orderly w (admit auth env c a s w).2.1 := by
  have h0 : Orderly w (farewell c s w) := by
    unfold farewell
    split
    · exact call_orderly _ _ _
    · exact .refl w
  unfold admit
  generalize farewell c s w = w1 at h0
  dsimp only
  split
  · exact h0
  · have h1 := sessionCreate_orderly auth a c w1
    split
    · rename_i e w2 hw; rw [hw] at h1; exact h0.trans h1
    · rename_i w2 hw; rw [hw] at h1; exact h0.trans h1

theorem record_orderly (a : Addr) (c : Calls) (w : World) : Orderly w (record a c w).2 := by
  have h0 := (call_orderly a c.recv { w with errno := none }).clear
  unfold record
  dsimp only
  split
  · exact h0
  · split
    · exact h0
    · exact h0
    · exact h0
    · split <;> exact h0

theorem ended_orderly (i : Nat) (a : Addr) (c : Calls) (s : Srv) (w : World) : Orderly w (ended i a c s w) := by
  unfold ended
  split
  · split
    · exact .refl w
    · exact call_orderly _ _ _
  · exact .refl w

theorem step_orderly {sx auth : Bool} {x : Input} {s s' : Srv} {w w' : World} {o : List Obs} {e : Option Err}
    (h : step sx auth x s w = .ok (s', w', o, e)) : Orderly w w' := by
  unfold step at h
  split at h
  · unfold exchange at h
    have h0 := peek_orderly BUF_LEN w
    split at h
    · rename_i w1 hp; rw [hp] at h0
      cases h; exact h0
    · rename_i b a w1 hp; rw [hp] at h0
      split at h
      · unfold serve at h
        split at h
        · cases h
        · rename_i t hi
          have h1 := record_orderly t.addr x.calls w1
          split at h
          · rename_i e1 w2 hr; rw [hr] at h1
            split at h
            · cases h; exact h0.trans h1
            · cases h; exact (h0.trans h1).trans (call_orderly _ _ _)
          · rename_i d w2 hr; rw [hr] at h1
            split at h
            · cases h
            · cases h
            · cases h; exact (h0.trans h1).trans (ended_orderly _ _ _ _ _)
      · cases h; exact h0.trans (admit_orderly _ _ _ _ _ _)
  · unfold timer at h
    split at h
    · cases h; exact .refl w
    · split at h
      · cases h
      · cases h
      · cases h
        split
        · exact ended_orderly _ _ _ _ _
        · exact .refl w
  · cases h; exact .refl w

theorem run_orderly {sx auth : Bool} {xs : List Input} {s s' : Srv} {w w' : World} {tr : List (List Obs)}
    (h : run sx auth xs s w = .ok (s', w', tr)) : Orderly w w' := by
  induction xs generalizing s w tr with
  | nil => cases h; exact .refl _
  | cons x xs ih =>
    unfold run at h
    split at h
    · cases h
    · cases h
    · rename_i s1 w1 o e h1
      split at h
      · cases h
      · cases h
      · rename_i s2 w2 os h2
        cases h
        exact (step_orderly h1).trans (ih h2)

/-! ## Handshakes -/

theorem shakeLoop_success {a : Addr} {hs : Nat → Lib Shake} {n : Nat} {w w' : World} (h : shakeLoop a hs n w = (none, w')) :
    ∃ i w1, ((hs i).call a w1).1 = .success := by
  induction n generalizing w with
  | zero => unfold shakeLoop at h; cases h
  | succ n ih =>
    have hafter : ∀ (r : Shake) (w1 : World), shakeAfter r n w1 (shakeLoop a hs n) = (none, w') → r = .success ∨ ∃ i w1, ((hs i).call a w1).1 = .success := by
      intro r w1 h1
      unfold shakeAfter at h1
      split at h1
      · exact Or.inl rfl
      · cases h1
      · cases h1
      · cases h1
      · right
        split at h1
        · exact ih h1
        · split at h1
          · cases h1
          · exact ih h1
    have key : shakeAfter ((hs (ATTEMPTS - (n + 1))).call a { w with errno := none }).1 n
        ((hs (ATTEMPTS - (n + 1))).call a { w with errno := none }).2 (shakeLoop a hs n) = (none, w') := by
      unfold shakeLoop at h
      dsimp only at h
      split at h
      · split at h
        · cases h
        · exact h
      · exact h
    rcases hafter _ _ key with h | h
    · exact ⟨_, _, h⟩
    · exact h

theorem sessionCreate_success {auth : Bool} {a : Addr} {c : Calls} {w w' : World} (h : sessionCreate auth a c w = (none, w')) :
    (∃ n w0, ((c.handshake n).call a w0).1 = .success) ∧ (auth = true → c.verified = true) := by
  unfold sessionCreate shake at h
  split at h
  · cases h
  · split at h
    · cases h
    · rename_i w1 hw
      refine ⟨shakeLoop_success hw, fun ha => ?_⟩
      split at h
      · cases h
      · rename_i hn
        cases hv : c.verified with
        | true => rfl
        | false => exact absurd ⟨ha, hv⟩ hn

theorem record_ok {a : Addr} {c : Calls} {w w' : World} {d : Bytes} (h : record a c w = (.ok d, w')) : c.Delivers a d := by
  unfold record at h
  dsimp only at h
  split at h
  · cases h
  · split at h
    · cases h
    · cases h
    · cases h
    · rename_i b hb
      split at h
      · cases h
      · simp only [Prod.mk.injEq, Except.ok.injEq] at h
        exact ⟨{ w with errno := none }, by rw [hb, h.1]⟩

/-! ## A server without DTLS does the same -/

theorem findTrans_at {ts : List Trans} {a : Addr} {i : Nat} (h : findTrans ts a = some i) :
    ∃ t, ts[i]? = some t ∧ t.active = true ∧ t.addr = a := by
  unfold findTrans at h
  rw [List.findIdx?_eq_some_iff_getElem] at h
  obtain ⟨hi, hp, -⟩ := h
  simp only [Bool.and_eq_true, beq_iff_eq] at hp
  exact ⟨ts[i], by rw [List.getElem?_eq_getElem hi], hp.1, hp.2⟩

theorem set_same {ts : List Trans} {i : Nat} {t : Trans} (hi : ts[i]? = some t) : ts.set i t = ts := by
  apply List.ext_getElem?
  intro j
  rw [List.getElem?_set]
  split
  · rename_i hj; subst hj
    split
    · exact hi.symm
    · rename_i hl
      rw [List.getElem?_eq_none (by omega)]
  · rfl

theorem exchangeT_lost {sx : Bool} {sepList : List Bytes} {env : Env} {t : Trans} {L : Large} {id : Nat} {d : Bytes} {e : Err}
    (hr : env.recvErr = some e) :
    exchangeT sx sepList env t L id d =
      if e = .EAGAIN then .ok ⟨t, L, id, [], none⟩ else failT t L id [] (some e) := by
  unfold exchangeT recv
  rw [hr]

theorem exchangeAt_again {sx : Bool} {env : Env} {s : Srv} {i : Nat} {t : Trans} {d : Bytes} (hr : env.recvErr = some .EAGAIN)
    (hi : s.trans[i]? = some t) : exchangeAt sx env s i d = .ok (s, [], none) := by
  unfold exchangeAt
  rw [hi]
  dsimp only
  rw [exchangeT_lost hr, if_pos rfl]
  dsimp only
  rw [set_same hi]

theorem exchangeAt_lost {sx : Bool} {env : Env} {s : Srv} {i : Nat} {t : Trans} {d : Bytes} {e : Err} (hr : env.recvErr = some e)
    (he : e ≠ .EAGAIN) (hi : s.trans[i]? = some t) :
    exchangeAt sx env s i d =
      .ok ({ s with trans := s.trans.set i (destroy t s.large).1, large := (destroy t s.large).2 }, [], some e) := by
  unfold exchangeAt
  rw [hi]
  dsimp only
  rw [exchangeT_lost hr, if_neg he]
  rfl

theorem plain_known {sx : Bool} {env : Env} {s : Srv} {a : Addr} {d : Bytes} {i : Nat} (h0 : env.acceptErr = none)
    (h : findTrans s.trans a = some i) : Server.step sx s env (.datagram a d) = exchangeAt sx env s i d := by
  change Server.exchange sx env s a d = _
  unfold Server.exchange
  rw [h0, h]

theorem plain_refused {sx : Bool} {env : Env} {s : Srv} {a : Addr} {d : Bytes} {e : Err} (h0 : env.acceptErr = none)
    (h : findTrans s.trans a = none) (hc : env.createErr = some e) :
    Server.step sx s env (.datagram a d) =
      .ok ({ (makeRoom s).2 with trans := (makeRoom s).2.trans.set (makeRoom s).1 Trans.zero }, [], some e) := by
  change Server.exchange sx env s a d = _
  unfold Server.exchange
  rw [h0, h]
  dsimp only
  unfold createT
  rw [hc]

theorem plain_admitted {sx : Bool} {env : Env} {s : Srv} {a : Addr} {d : Bytes} {t : Trans} (hT : Tidy s) (h0 : env.acceptErr = none)
    (h : findTrans s.trans a = none) (hc : createT env a = .ok t) (hr : env.recvErr = some .EAGAIN) :
    Server.step sx s env (.datagram a d) = .ok ({ (makeRoom s).2 with trans := (makeRoom s).2.trans.set (makeRoom s).1 t }, [], none) := by
  change Server.exchange sx env s a d = _
  have hlt := makeRoom_lt hT.len
  obtain ⟨m1, m2, m3, m4⟩ := makeRoom_eq s
  unfold Server.exchange
  rw [h0, h]
  dsimp only
  rw [hc]
  dsimp only
  refine exchangeAt_again (t := t) hr ?_
  rw [List.getElem?_set, if_pos rfl, if_pos (by rw [m3]; exact hlt)]

/-- One event. -/
inductive Sim (sx auth : Bool) (x : Input) (s : Srv) (w : World) : Prop where
  | ok (s' : Srv) (w' : World) (o : List Obs) (e : Option Err) (env : Env) (ev : Server.Event)
      (hs : Stands x (env, ev)) (h : step sx auth x s w = .ok (s', w', o, e)) (h' : Server.step sx s env ev = .ok (s', o, e))
  | ub (env : Env) (ev : Server.Event) (hs : Stands x (env, ev)) (h : step sx auth x s w = .ub) (h' : Server.step sx s env ev = .ub)
  | err (e : Err) (env : Env) (ev : Server.Event) (hs : Stands x (env, ev)) (h : step sx auth x s w = .err e)
      (h' : Server.step sx s env ev = .err e)

theorem peek_none {len : Nat} {w w' : World} (h : peek len w = (none, w')) : ∃ e, w'.errno = some e := by
  unfold peek at h
  split at h
  · cases h; exact ⟨_, rfl⟩
  · split at h
    · cases h; exact ⟨_, rfl⟩
    · cases h

theorem admit_plain (sx auth : Bool) {env : Env} {c : Calls} {a : Addr} {s : Srv} {w : World} (hT : Tidy s) (hf : findTrans s.trans a = none) :
    ∃ e2 e3, (e2 ≠ none ∨ e3 ≠ none) ∧
      (e2 ≠ none ∨ ((∃ n w0, ((c.handshake n).call a w0).1 = .success) ∧ (auth = true → c.verified = true))) ∧
      Server.step sx s { env with acceptErr := none, createErr := e2, recvErr := e3 } (.datagram a []) =
        .ok ((admit auth env c a s w).1, [], (admit auth env c a s w).2.2) := by
  unfold admit
  dsimp only
  cases hc : createT env a with
  | error e => exact ⟨some e, none, Or.inl (by simp), Or.inl (by simp), plain_refused rfl hf rfl⟩
  | ok t =>
    dsimp only
    split
    · rename_i e w3 hs
      exact ⟨some e, none, Or.inl (by simp), Or.inl (by simp), plain_refused rfl hf rfl⟩
    · rename_i w3 hs
      refine ⟨none, some .EAGAIN, Or.inr (by simp), Or.inr (sessionCreate_success hs), plain_admitted hT rfl hf ?_ rfl⟩
      rw [← hc]
      unfold createT at hc ⊢
      split at hc
      · cases hc
      · rfl

theorem step_sim {sx auth : Bool} {x : Input} {s : Srv} {w : World} (hT : Tidy s) : Sim sx auth x s w := by
  cases hev : x.ev with
  | appId => exact .ok _ w _ _ x.env .appId (.appId x hev) (by unfold step; rw [hev]) rfl
  | timer i =>
    have h0 : step sx auth x s w = timer x.env x.calls i s w := by unfold step; rw [hev]
    have hst := Stands.timer x i hev
    unfold timer at h0
    split at h0
    · rename_i hi
      refine .ok s w [] none x.env (.timer i) hst h0 ?_
      change Server.timer x.env s i = _
      unfold Server.timer
      rw [hi]
    · split at h0
      · rename_i h; exact .ub x.env (.timer i) hst h0 h
      · rename_i e h; exact .err e x.env (.timer i) hst h0 h
      · rename_i s1 o e h; exact .ok _ _ _ _ x.env (.timer i) hst h0 h
  | turn =>
    have h0 : step sx auth x s w = exchange sx auth x.env x.calls s w := by unfold step; rw [hev]
    unfold exchange at h0
    split at h0
    · rename_i w1 hp
      obtain ⟨e, he⟩ := peek_none hp
      rw [he] at h0
      exact .ok s w1 [] (some e) _ (.datagram [] []) (.none x [] (some e) none none hev (Or.inl (by simp))) h0 rfl
    · rename_i b a w1 hp
      split at h0
      · rename_i i hf
        obtain ⟨t, hi, hact, hta⟩ := findTrans_at hf
        unfold serve at h0
        rw [hi] at h0
        dsimp only at h0
        rw [hta] at h0
        split at h0
        · rename_i e w2 hr
          have hst := Stands.none x a none none (some e) hev (Or.inr (Or.inr (by simp)))
          split at h0
          · rename_i he; subst he
            exact .ok s w2 [] none _ _ hst h0 ((plain_known rfl hf).trans (exchangeAt_again rfl hi))
          · rename_i he
            exact .ok _ _ [] (some e) _ _ hst h0 ((plain_known rfl hf).trans (exchangeAt_lost rfl he hi))
        · rename_i d w2 hr
          have hst := Stands.message x a d hev (record_ok hr)
          split at h0
          · rename_i h; exact .ub _ _ hst h0 ((plain_known rfl hf).trans h)
          · rename_i e h; exact .err e _ _ hst h0 ((plain_known rfl hf).trans h)
          · rename_i s1 o e h; exact .ok _ _ _ _ _ _ hst h0 ((plain_known rfl hf).trans h)
      · rename_i hf
        obtain ⟨e2, e3, hne, -, h1⟩ := admit_plain sx auth (env := x.env) (c := x.calls) (w := w1) hT hf
        exact .ok _ _ _ _ _ _ (.none x a none e2 e3 hev (Or.inr hne)) h0 h1

theorem run_plain {sx auth : Bool} {xs : List Input} {s s' : Srv} {w w' : World} {tr : List (List Obs)} (hT : Tidy s)
    (h : run sx auth xs s w = .ok (s', w', tr)) : ∃ ys, Stand xs ys ∧ Server.run sx s ys = .ok (s', tr) := by
  induction xs generalizing s w tr with
  | nil => cases h; exact ⟨[], .nil, rfl⟩
  | cons x xs ih =>
    unfold run at h
    cases step_sim (sx := sx) (auth := auth) (x := x) (w := w) hT with
    | ub env ev hs h0 => rw [h0] at h; cases h
    | err e env ev hs h0 => rw [h0] at h; cases h
    | ok s1 w1 o e env ev hs h0 h1 =>
      rw [h0] at h
      dsimp only at h
      split at h
      · cases h
      · cases h
      · rename_i s2 w2 os h2
        cases h
        obtain ⟨ys, hy, hr⟩ := ih ((step_rel h1).tidy hT) h2
        refine ⟨(env, ev) :: ys, .cons hs hy, ?_⟩
        unfold Server.run
        rw [h1]
        dsimp only
        rw [hr]

theorem run_plain_ub {sx auth : Bool} {xs : List Input} {s : Srv} {w : World} (hT : Tidy s)
    (h : run sx auth xs s w = .ub) : ∃ us xs' ys, xs = us ++ xs' ∧ Stand us ys ∧ Server.run sx s ys = .ub := by
  induction xs generalizing s w with
  | nil => cases h
  | cons x xs ih =>
    unfold run at h
    cases step_sim (sx := sx) (auth := auth) (x := x) (w := w) hT with
    | ub env ev hs h0 h1 =>
      refine ⟨[x], xs, [(env, ev)], rfl, .cons hs .nil, ?_⟩
      unfold Server.run
      rw [h1]
    | err e env ev hs h0 => rw [h0] at h; cases h
    | ok s1 w1 o e env ev hs h0 h1 =>
      rw [h0] at h
      dsimp only at h
      split at h
      · rename_i h2
        obtain ⟨us, xs', ys, rfl, hy, hr⟩ := ih ((step_rel h1).tidy hT) h2
        refine ⟨x :: us, xs', (env, ev) :: ys, rfl, .cons hs hy, ?_⟩
        unfold Server.run
        rw [h1]
        dsimp only
        rw [hr]
      · cases h
      · cases h

/-! ## Who is served -/

/-- A plain event for another client or with a failure does not serve a client without a transaction. -/
theorem plain_other {sx : Bool} {s s1 : Srv} {env : Env} {ev : Server.Event} {o : List Obs} {e : Option Err} {a : Addr} (hT : Tidy s)
    (hn : ofAddr s a = none) (h : Server.step sx s env ev = .ok (s1, o, e))
    (hev : ∀ d, ev = .datagram a d → env.createErr ≠ none) : ofAddr s1 a = none ∧ ∀ y ∈ o, y.addr ≠ a := by
  cases step_view (step_rel h) hT a with
  | untouched h ho => exact ⟨h.trans hn, ho⟩
  | evicted b d hb hev h t ht hi hb' ho => exact ⟨h, ho⟩
  | exchange d t r L hd h0 ht =>
    rcases ht with ht | ⟨-, -, hc⟩
    · rw [hn] at ht; cases ht
    · exact absurd hc (hev d hd)
  | timer i t r hev hi ht => rw [hn] at ht; cases ht

theorem step_served {sx auth : Bool} {x : Input} {s s1 : Srv} {w w1 : World} {o : List Obs} {e : Option Err} {a : Addr} (hT : Tidy s)
    (hn : ofAddr s a = none) (h : step sx auth x s w = .ok (s1, w1, o, e)) :
    (x.Completes auth a ∨ ofAddr s1 a = none) ∧ ∀ y ∈ o, y.addr ≠ a := by
  cases hev : x.ev with
  | appId =>
    unfold step at h
    rw [hev] at h
    cases h
    exact ⟨Or.inr hn, by simp⟩
  | timer i =>
    cases step_sim (sx := sx) (auth := auth) (x := x) (w := w) hT with
    | ub env ev hs h0 => rw [h0] at h; cases h
    | err e env ev hs h0 => rw [h0] at h; cases h
    | ok s2 w2 o2 e2 env ev hs h0 h1 =>
      rw [h0] at h
      cases h
      have := plain_other (a := a) hT hn h1 (by
        intro d hd
        cases hs with
        | message _ _ h => rw [h] at hev; cases hev
        | none _ _ _ _ h => rw [h] at hev; cases hev
        | timer => cases hd
        | appId => cases hd)
      exact ⟨Or.inr this.1, this.2⟩
  | turn =>
    have h0 : step sx auth x s w = exchange sx auth x.env x.calls s w := by unfold step; rw [hev]
    rw [h0] at h
    unfold exchange at h
    split at h
    · cases h; exact ⟨Or.inr hn, by simp⟩
    · rename_i b c w2 hp
      split at h
      · rename_i i hf
        have hca : c ≠ a := by
          rintro rfl
          rw [look_findTrans.2 hn] at hf; cases hf
        obtain ⟨t, hi, hact, hta⟩ := findTrans_at hf
        unfold serve at h
        rw [hi] at h
        dsimp only at h
        have key : ∀ (env : Env) (d : Bytes) (s2 : Srv) (o2 : List Obs) (e2 : Option Err), env.acceptErr = none →
            exchangeAt sx env s i d = .ok (s2, o2, e2) → ofAddr s2 a = none ∧ ∀ y ∈ o2, y.addr ≠ a := by
          intro env d s2 o2 e2 h0 h1
          exact plain_other (a := a) hT hn ((plain_known h0 hf).trans h1) (by
            intro d' hd'; injection hd' with h1; exact absurd h1 hca)
        split at h
        · rename_i e1 w3 hr
          split at h
          · cases h; exact ⟨Or.inr hn, by simp⟩
          · rename_i he
            cases h
            have := key { x.env with acceptErr := none, recvErr := some e1 } [] _ _ _ rfl (exchangeAt_lost rfl he hi)
            exact ⟨Or.inr this.1, this.2⟩
        · rename_i d w3 hr
          split at h
          · cases h
          · cases h
          · rename_i s2 o2 e2 h1
            cases h
            have := key _ d _ _ _ rfl h1
            exact ⟨Or.inr this.1, this.2⟩
      · rename_i hf
        obtain ⟨e2, e3, hne, hc, h1⟩ := admit_plain sx auth (env := x.env) (c := x.calls) (w := w2) hT hf
        cases h
        refine ⟨?_, by simp⟩
        by_cases hca : c = a
        · subst hca
          rcases hc with hc | hc
          · exact Or.inr (plain_other (ev := .datagram c []) hT hn h1 (fun _ _ => hc)).1
          · exact Or.inl ⟨hev, hc⟩
        · exact Or.inr (plain_other (ev := .datagram c []) (a := a) hT hn h1
            (by intro d' hd'; injection hd' with h1; exact absurd h1 hca)).1

theorem step_tidy {sx auth : Bool} {x : Input} {s s1 : Srv} {w w1 : World} {o : List Obs} {e : Option Err} (hT : Tidy s)
    (h : step sx auth x s w = .ok (s1, w1, o, e)) : Tidy s1 := by
  cases step_sim (sx := sx) (auth := auth) (x := x) (w := w) hT with
  | ub env ev hs h0 => rw [h0] at h; cases h
  | err e env ev hs h0 => rw [h0] at h; cases h
  | ok s2 w2 o2 e2 env ev hs h0 h1 =>
    rw [h0] at h
    cases h
    exact (step_rel h1).tidy hT

theorem run_tidy {sx auth : Bool} {xs : List Input} {s s' : Srv} {w w' : World} {tr : List (List Obs)} (hT : Tidy s)
    (h : run sx auth xs s w = .ok (s', w', tr)) : Tidy s' := by
  obtain ⟨ys, -, hr⟩ := run_plain hT h
  exact Server.run_tidy hT hr

theorem run_served {sx auth : Bool} {xs : List Input} {s s' : Srv} {w w' : World} {tr : List (List Obs)} {a : Addr} (hT : Tidy s)
    (hn : ofAddr s a = none) (h : run sx auth xs s w = .ok (s', w', tr)) (k : Nat) (o : List Obs) (ho : tr[k]? = some o) (y : Obs) (hy : y ∈ o)
    (ha : y.addr = a) : ∃ j x, j < k ∧ xs[j]? = some x ∧ x.Completes auth a := by
  induction xs generalizing s w tr k with
  | nil => cases h; simp at ho
  | cons x xs ih =>
    unfold run at h
    split at h
    · cases h
    · cases h
    · rename_i s1 w1 o1 e1 h1
      split at h
      · cases h
      · cases h
      · rename_i s2 w2 os h2
        cases h
        obtain ⟨hc, hobs⟩ := step_served hT hn h1
        cases k with
        | zero =>
          simp only [List.getElem?_cons_zero, Option.some.injEq] at ho
          subst ho
          exact absurd ha (hobs y hy)
        | succ k =>
          rcases hc with hc | hc
          · exact ⟨0, x, by omega, rfl, hc⟩
          · obtain ⟨j, x', hj, hx, hx'⟩ := ih (step_tidy hT h1) hc h2 k (by simpa using ho)
            exact ⟨j + 1, x', by omega, hx, hx'⟩

/-! ## The sessions of others -/

theorem step_others {sx auth : Bool} {x : Input} {s s1 : Srv} {w w1 : World} {o : List Obs} {e : Option Err} {a b : Addr} (hT : Tidy s)
    (hev : x.ev = .turn) (hb : w.Head b) (hab : b ≠ a) (hroom : ofAddr s b ≠ none ∨ ∃ t ∈ s.trans, t.active = false)
    (h : step sx auth x s w = .ok (s1, w1, o, e)) : ofAddr s1 a = ofAddr s a ∧ ∀ y ∈ o, y.addr ≠ a := by
  have fin : ∀ (env : Env) (d : Bytes) (s2 : Srv) (o2 : List Obs) (e2 : Option Err),
      Server.step sx s env (.datagram b d) = .ok (s2, o2, e2) → ofAddr s2 a = ofAddr s a ∧ ∀ y ∈ o2, y.addr ≠ a := by
    intro env d s2 o2 e2 h1
    cases step_view (step_rel h1) hT a with
    | untouched h ho => exact ⟨h, ho⟩
    | evicted b' d' hb' hev h t ht hi hbn ho =>
      cases hev
      rcases hroom with hr | ⟨u, hu, hua⟩
      · exact absurd hbn hr
      · exfalso
        obtain ⟨j, hj, hact, hta⟩ := look_some ht
        unfold makeRoom at hi
        cases hfe : findEmpty s.trans with
        | none =>
          unfold findEmpty at hfe
          rw [List.findIdx?_eq_none_iff] at hfe
          have := hfe u hu
          simp [hua] at this
        | some i =>
          rw [hfe] at hi
          dsimp only at hi
          unfold findEmpty at hfe
          rw [List.findIdx?_eq_some_iff_getElem] at hfe
          obtain ⟨hlt, hp, -⟩ := hfe
          rw [List.getElem?_eq_getElem hlt, Option.some.injEq] at hi
          rw [hi, hact] at hp
          cases hp
    | exchange d' t r L hd => injection hd with h1; exact absurd h1 hab
    | timer i t r hev => cases hev
  have h0 : step sx auth x s w = exchange sx auth x.env x.calls s w := by unfold step; rw [hev]
  rw [h0] at h
  unfold exchange at h
  split at h
  · cases h; exact ⟨rfl, by simp⟩
  · rename_i bs c w2 hp
    have hcb : c = b := by
      obtain ⟨hw, -, d, q, hq, -, hc⟩ := peek_some hp
      obtain ⟨d', q', -, hq', hd'⟩ := hb
      rw [← hw, hq] at hq'
      injection hq' with h1 h2
      rw [hc, h1, hd']
    subst hcb
    split at h
    · rename_i i hf
      obtain ⟨t, hi, hact, hta⟩ := findTrans_at hf
      unfold serve at h
      rw [hi] at h
      dsimp only at h
      split at h
      · rename_i e1 w3 hr
        split at h
        · cases h; exact ⟨rfl, by simp⟩
        · rename_i he
          cases h
          exact fin { x.env with acceptErr := none, recvErr := some e1 } [] _ _ _ ((plain_known rfl hf).trans (exchangeAt_lost rfl he hi))
      · rename_i d w3 hr
        split at h
        · cases h
        · cases h
        · rename_i s2 o2 e2 h1
          cases h
          exact fin _ d _ _ _ ((plain_known rfl hf).trans h1)
    · rename_i hf
      obtain ⟨e2, e3, hne, hc, h1⟩ := admit_plain sx auth (env := x.env) (c := x.calls) (w := w2) hT hf
      cases h
      exact fin _ [] _ _ _ h1

end FreeCoAP.Server.Dtls
