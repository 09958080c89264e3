import Verif.EndToEnd.SpecLossy
import Verif.EndToEnd.PropsSession

/-!
# C141: a session of requests over a network that loses and repeats datagrams
-/

namespace FreeCoAP.EndToEnd

open FreeCoAP.Msg
open FreeCoAP.Server (Env Event Addr arrived Asks Carries Built Srv Reach AppOK AppSafe Transfer AllKnown NoFault NoEmptyBlock Formats Separate step run
  lastRequest init SOK Holds Tidy)
open FreeCoAP.Client (stamped exchange)

/-- C141: Clients that make one request after the other, over a network that loses and repeats datagrams but lets one response through, get each request
answered, and the application of the server is called once for each, however many copies of it arrive. -/
def C141_statement (sx : Bool) : Prop :=
  ∀ (px : Bool) (id : Nat) (sepList : List Bytes) (pool : Mem.Pool) (rs : List Attempt), (∀ r ∈ rs, Patient sx px sepList r) →
    OnceEach sx px (init id sepList pool) rs

/-- A copy of an answered request starts no transfer. -/
theorem copy_no_transfer {sx : Bool} {s s1 : Srv} {env : Env} {a : Addr} {d r : Bytes} {o : List Server.Obs} {e : Option Err} {m : Msg}
    (hh : Holds a m.msgId r s) (hT : Tidy s) (h : Server.StepRel sx s env (.datagram a d) s1 o e) (hm : Carries sx d m) (hq : Asks m)
    (ht : ∀ b, ¬ Transfer s b) : ∀ b, ¬ Transfer s1 b := by
  intro b
  obtain ⟨t, hat, h1, h2, -, -⟩ := hh
  rintro ⟨u, hu, hn⟩
  cases Server.step_view h hT b with
  | untouched g => rw [g] at hu; exact ht b ⟨u, hu, hn⟩
  | evicted b' d' hb hev g => rw [g] at hu; cases hu
  | timer i t r hev => cases hev
  | exchange d' v r' L hev h0 hv hta hact hout ho he h' =>
    cases hev
    have hv : v = t := by
      rcases hv with hv | ⟨hv, -⟩
      · rw [hat] at hv; cases hv; rfl
      · rw [hat] at hv; cases hv
    subst hv
    by_cases hra : r'.trans.active = true
    · rw [if_pos hra, hu] at h'
      have hblk : r'.trans.blk = v.blk := by
        cases hout with
        | again h => rfl
        | dupAck => rfl
        | dupResp => rfl
        | dupNon => rfl
        | acked => rfl
        | done m' hgot hnew =>
          have := hm.unique hgot.1
          subst this
          have hf := hnew.fresh
          rw [Server.matchReq_of h1 h2 rfl] at hf
          cases hf
        | _ => simp [Server.Trans.zero] at hra
      refine ht _ ⟨v, hat, ?_⟩
      rw [← hblk]
      cases h'
      exact hn
    · rw [if_neg hra, hu] at h'; cases h'

/-- Further copies of an answered request. -/
theorem copies_run {sx px : Bool} {q : Ask} {r : Bytes} {sepList : List Bytes} (hq : Regular sx px sepList q) : ∀ (cs : List Env) (s : Srv),
    (∀ e ∈ cs, NoFault e ∧ AppSafe e) → Holds q.a q.sent.msgId r s → Tidy s → (∀ b, ¬ Transfer s b) → SOK s → s.sepList = sepList →
    ∃ s' tr, run sx s (cs.map (fun e => (e, .datagram q.a q.d))) = .ok (s', tr) ∧ (∀ b, ¬ Transfer s' b) ∧ SOK s' ∧ s'.sepList = sepList ∧
      tr.length = cs.length ∧ ∀ o ∈ tr, Server.calls o = [] ∧ Server.sends o = [(q.a, r)]
  | [], s, _, _, _, ht, hs, hsl => ⟨s, [], rfl, ht, hs, hsl, rfl, fun o ho => by cases ho⟩
  | c :: cs, s, hf, hh, hT, ht, hs, hsl => by
    obtain ⟨hnf, hsafe⟩ := hf c List.mem_cons_self
    obtain ⟨hc, hask⟩ := hq.carries
    obtain ⟨⟨s1, o, e⟩, h, hs1⟩ := Server.step_good (sx := sx) (s := s) (env := c) (ev := .datagram q.a q.d) hsafe
      (fun a d he => by cases he; exact hq.harmless) hs
    have hrel := Server.step_rel h
    obtain ⟨c1, -, -, c3⟩ := hh.dup hT hrel hc hask.1
    have hboth : Server.sends o = [(q.a, r)] ∧ Holds q.a q.sent.msgId r s1 := by
      rcases c3 with ⟨c3, c4⟩ | ⟨-, c3⟩
      · refine ⟨?_, c4 hnf.arrives⟩
        rw [c3, Server.again, if_neg (by rw [show q.sent.type = CON from hq.con]; decide), hsl, if_neg (show ¬ Separate sepList q.sent from hq.piggy)]
      · exact absurd ⟨hnf.arrives, hnf.send, hnf.ack⟩ c3
    obtain ⟨s', tr, k1, k2, k3, k4, k5, k6⟩ := copies_run hq cs s1 (fun e he => hf e (List.mem_cons_of_mem _ he)) hboth.2 (hrel.tidy hT)
      (copy_no_transfer hh hT hrel hc hask ht) hs1 (hrel.sepList.trans hsl)
    refine ⟨s', o :: tr, ?_, k2, k3, k4, by rw [List.length_cons, List.length_cons, k5], ?_⟩
    · rw [List.map_cons]
      unfold run
      rw [h]
      simp only at k1 ⊢
      rw [k1]
    · intro o' ho'
      rcases List.mem_cons.1 ho' with rfl | ho'
      · exact ⟨c1, hboth.1⟩
      · exact k6 o' ho'

/-- What reached the server before. -/
def before' (rs : List Attempt) : List (Env × Event) := rs.flatMap Attempt.evs

theorem lastRequest_append (sx : Bool) (a : Addr) (xs ys : List (Env × Event)) :
    lastRequest sx a (xs ++ ys) = (lastRequest sx a ys).or (lastRequest sx a xs) := by
  unfold lastRequest
  rw [List.filterMap_append, List.reverse_append, List.find?_append]

theorem lastRequest_copies {sx px : Bool} {sepList : List Bytes} {r : Attempt} (hr : Patient sx px sepList r) (a : Addr) :
    lastRequest sx a r.evs = if r.q.a = a then some r.q.sent else none := by
  have hall : ∀ x ∈ r.evs, arrived sx a x = if r.q.a = a then some r.q.sent else none := by
    intro x hx
    rcases List.mem_cons.1 hx with rfl | hx
    · exact hr.regular.arrived a
    · obtain ⟨e, he, rfl⟩ := List.mem_map.1 hx
      obtain ⟨g0, g1, g2⟩ := (hr.fine e he).1.arrives
      have hc : parse sx (Server.recvBuf r.q.d) (min r.q.d.length 1152) = .ok r.q.sent := hr.regular.carries.1
      unfold Server.arrived
      dsimp only
      by_cases ha : r.q.a = a
      · rw [if_pos ⟨ha, g0, g1, g2⟩, if_pos ha, hc]
      · rw [if_neg (fun hn => ha hn.1), if_neg ha]
  have hne : r.evs ≠ [] := by unfold Attempt.evs; exact List.cons_ne_nil _ _
  unfold lastRequest
  by_cases ha : r.q.a = a
  · rw [if_pos ha]
    have hmem : ∀ m ∈ (r.evs.filterMap (arrived sx a)).reverse, m = r.q.sent := by
      intro m hm
      obtain ⟨x, hx, he⟩ := List.mem_filterMap.1 (List.mem_reverse.1 hm)
      rw [hall x hx, if_pos ha] at he
      cases he
      rfl
    cases hl : (r.evs.filterMap (arrived sx a)).reverse with
    | nil =>
      exfalso
      have h0 := List.reverse_eq_nil_iff.1 hl
      obtain ⟨x, xs, hx⟩ := List.exists_cons_of_ne_nil hne
      have := List.filterMap_eq_nil_iff.1 h0 x (by rw [hx]; exact List.mem_cons_self)
      rw [hall x (by rw [hx]; exact List.mem_cons_self), if_pos ha] at this
      cases this
    | cons m ms =>
      rw [hl] at hmem
      have := hmem m List.mem_cons_self
      subst this
      rw [List.find?_cons, decide_eq_true hr.regular.carries.2]
  · rw [if_neg ha]
    have : r.evs.filterMap (arrived sx a) = [] := by
      refine List.filterMap_eq_nil_iff.2 (fun x hx => ?_)
      rw [hall x hx, if_neg ha]
    rw [this]
    rfl

theorem lastRequest_before {sx px : Bool} {sepList : List Bytes} (a : Addr) : ∀ (rs : List Attempt), (∀ r ∈ rs, Patient sx px sepList r) →
    lastRequest sx a (before' rs) = (((rs.map Attempt.q).filter (fun p => decide (p.a = a))).getLast?).map Ask.sent
  | [], _ => rfl
  | r :: rs, h => by
    have hcons : before' (r :: rs) = r.evs ++ before' rs := rfl
    rw [hcons, lastRequest_append, lastRequest_before a rs (fun p hp => h p (List.mem_cons_of_mem _ hp)),
      lastRequest_copies (h r List.mem_cons_self), List.map_cons, List.filter_cons]
    by_cases ha : r.q.a = a
    · rw [if_pos ha, if_pos (decide_eq_true ha), List.getLast?_cons]
      cases ((rs.map Attempt.q).filter (fun p => decide (p.a = a))).getLast? <;> rfl
    · rw [if_neg ha, if_neg (by rw [decide_eq_true_eq]; exact ha), Option.or_none]

theorem lossy_all {sx px : Bool} {sepList : List Bytes} : ∀ (rs pre : List Attempt) (s : Srv) (tr0 : List (List Server.Obs)),
    (∀ r ∈ pre ++ rs, Patient sx px sepList r) → Ids ((pre ++ rs).map Attempt.q) → Reach sx (before' pre) s tr0 → (∀ a, ¬ Transfer s a) → SOK s →
    s.sepList = sepList → OnceEach sx px s rs
  | [], _, _, _, _, _, _, _, _, _ => ⟨[], [], rfl, rfl, rfl, fun i q h => by cases h⟩
  | r :: rs, pre, s, tr0, hall, hids, hr, ht, hs, hsl => by
    have hpat := hall r (List.mem_append.2 (Or.inr List.mem_cons_self))
    have hq := hpat.regular
    obtain ⟨h0, hprev⟩ := hids (pre.map Attempt.q) r.q (rs.map Attempt.q) (by rw [List.map_append, List.map_cons])
    have hp : ∀ m', lastRequest sx r.q.a (before' pre) = some m' → m'.msgId ≠ r.q.sent.msgId := by
      intro m' hm
      rw [lastRequest_before _ pre (fun p hp => hall p (List.mem_append.2 (Or.inl hp)))] at hm
      obtain ⟨p, hp, rfl⟩ := Option.map_eq_some_iff.1 hm
      exact hprev p hp
    obtain ⟨⟨s1, o, e⟩, h, hs1⟩ := Server.step_good (sx := sx) (s := s) (env := r.q.env) (ev := .datagram r.q.a r.q.d) hq.safe
      (fun a d he => by cases he; exact hq.harmless) hs
    obtain ⟨hc, hask⟩ := hq.carries
    obtain ⟨rfl, g2, g3, g4⟩ := answered hr hq.app hq.fine (ht _) hc hask rfl hq.known hq.answer hq.handle h0 hp h
    have hcs : ¬ (r.q.sent.type = CON ∧ Separate s.sepList r.q.sent) := fun hn => hq.piggy (hsl ▸ hn.2)
    have g3' := g3
    rw [if_neg hcs, List.nil_append] at g3'
    have hh : Holds r.q.a r.q.sent.msgId (enc (Server.final s.sepList r.q.env s.msgId r.q.sent r.q.resp)) s1 := Server.holds_first hr.tidy (Server.step_rel h) hc hq.app (by rw [g3']; exact List.mem_singleton.2 rfl) final_not_empty
    obtain ⟨s2, tr, k1, k2, k3, k4, k5, k6⟩ := copies_run hq r.copies s1 hpat.fine hh ((Server.step_rel h).tidy hr.tidy)
      (no_transfer hq.toSound hr ht h0 hp h) hs1 ((Server.step_rel h).sepList.trans hsl)
    have hrun : run sx s r.evs = .ok (s2, o :: tr) := by
      unfold Attempt.evs run
      rw [h]
      simp only at k1 ⊢
      rw [k1]
    have hsame : ∀ o' ∈ o :: tr, Server.sends o' = Server.sends o := by
      intro o' ho'
      rcases List.mem_cons.1 ho' with rfl | ho'
      · rfl
      · rw [(k6 o' ho').2, g3']
    have hback : ∃ o', ((o :: tr).drop r.back).take 1 = [o'] ∧ o' ∈ o :: tr := by
      have hb : r.back < (o :: tr).length := by
        rw [List.length_cons, k5]
        exact Nat.lt_succ_of_le hpat.back
      refine ⟨(o :: tr)[r.back], ?_, List.getElem_mem hb⟩
      rw [List.drop_eq_getElem_cons hb]
      rfl
    obtain ⟨o', hb1, hb2⟩ := hback
    obtain ⟨obs, hw⟩ := hpat.waits
    obtain ⟨obs', key⟩ := delivered (a := r.q.a) (o := o') (js := []) (x := r.q.x) (is := r.q.x.inputs) hq.built hw
      (by rintro i hi ⟨d, m, h1, -⟩; exact hpat.quiet i hi d h1)
      ((hsame o' hb2).trans g3) g4 hq.answer.response hq.answer.options (fun hn => absurd ⟨hq.con, by rw [hsl]; exact hq.piggy⟩ hn)
    rw [List.append_nil] at key
    have hpre : pre ++ r :: rs = (pre ++ [r]) ++ rs := by rw [List.append_assoc]; rfl
    have hr1 : Reach sx (before' (pre ++ [r])) s2 (tr0 ++ (o :: tr)) := by
      have := hr.run hrun
      unfold before' at this ⊢
      rw [List.flatMap_append, List.flatMap_singleton]
      exact this
    rw [hpre] at hall hids
    obtain ⟨trs, xs, j1, j2, j3, j4⟩ := lossy_all rs (pre ++ [r]) s2 (tr0 ++ (o :: tr)) hall hids hr1 k2 k3 k4
    have hcalls : ∀ x y : List Server.Obs, Server.calls (x ++ y) = Server.calls x ++ Server.calls y := by
      intro x y
      unfold Server.calls
      rw [List.filterMap_append]
    have hnone : Server.calls tr.flatten = [] := by
      have : ∀ l : List (List Server.Obs), (∀ o ∈ l, Server.calls o = []) → Server.calls l.flatten = [] := by
        intro l
        induction l with
        | nil => intro _; rfl
        | cons y l ih =>
          intro hl
          rw [List.flatten_cons, hcalls, hl y List.mem_cons_self, ih (fun z hz => hl z (List.mem_cons_of_mem _ hz))]
          rfl
      exact this tr (fun y hy => (k6 y hy).1)
    refine ⟨(o :: tr) ++ trs, some (.ok (Server.final s.sepList r.q.env s.msgId r.q.sent r.q.resp)) :: xs, ?_, ?_, ?_, ?_⟩
    · unfold lossy
      rw [hrun]
      dsimp only
      rw [hb1, List.flatten_cons, List.flatten_nil, List.append_nil, key]
      dsimp only
      rw [j1]
      rfl
    · rw [List.flatten_append, List.flatten_cons, hcalls, hcalls, g2, hnone, j2]
      rfl
    · rw [List.length_cons, List.length_cons, j3]
    · intro i p hi
      cases i with
      | zero => cases hi; exact ⟨_, rfl, rfl, rfl, rfl, rfl⟩
      | succ i => exact j4 i p hi

/-- C141, the part that holds for ids, which are random, other than 0 and that of the previous request of the same client. Requests that are answered with a
separate response are not included. -/
theorem C141_once_partial (sx px : Bool) (id : Nat) (sepList : List Bytes) (pool : Mem.Pool) (rs : List Attempt)
    (h : ∀ r ∈ rs, Patient sx px sepList r) (hi : Ids (rs.map Attempt.q)) : OnceEach sx px (init id sepList pool) rs := by
  refine lossy_all rs [] _ [] h hi ⟨id, sepList, pool, rfl⟩ ?_ (Server.init_sok id sepList pool) rfl
  rintro a ⟨t, ht, -⟩
  obtain ⟨i, hi, hact, -⟩ := Server.look_some ht
  have := List.mem_of_getElem? hi
  rw [List.eq_of_mem_replicate this] at hact
  cases hact

/-! ## Examples -/

/-- The client of the examples whose timer expires twice before a response arrives. -/
def exTwice : Client.XEnv := Client.exEnv [Client.tick, Client.tick]

/-- The same with another id and one expiry. -/
def exAgain : Client.XEnv := { Client.exEnv [Client.tick] with id1 := 77 }

/-- Three copies and one that the network has made arrive, and the response to the third reaches the client; then another client without losses; then the
first client again, with a lost response. -/
def exTries : List Attempt :=
  [⟨exQuery [1] exTwice, [Server.exEnv, Server.exEnv, Server.exEnv], 2⟩, ⟨exQuery [2] (Client.exEnv []), [], 0⟩, ⟨exQuery [1] exAgain, [Server.exEnv], 1⟩]

theorem exTwice_regular (sx : Bool) (a : Addr) : Regular sx false Server.exSep (exQuery a exTwice) :=
  exQuery_regular sx (obs := [.sent Client.exReqBytes, .arm 2500]) (by decide +kernel) (by cases sx <;> decide +kernel)

theorem exAgain_regular (sx : Bool) (a : Addr) : Regular sx false Server.exSep (exQuery a exAgain) :=
  exQuery_regular sx (obs := [.sent (enc (stamped exOther Client.exGet)), .arm 2500]) (by decide +kernel) (by cases sx <;> decide +kernel)

theorem ticks_quiet (l : List Client.Input) (hl : ∀ i ∈ l, i = Client.tick) : ∀ i ∈ l, ∀ d, i.ev ≠ .datagram d := by
  intro i hi d
  rw [hl i hi]
  exact fun h => by cases h

theorem waits_of {sx : Bool} {x : Client.XEnv} {req : Msg}
    (hx : (match exchange sx false x req with | .ok (_, none) => true | _ => false) = true) : ∃ obs, exchange sx false x req = .ok (obs, none) := by
  split at hx
  · rename_i obs h; exact ⟨obs, h⟩
  · cases hx

theorem exTries_patient (sx : Bool) : ∀ r ∈ exTries, Patient sx false Server.exSep r := by
  have hfine : NoFault Server.exEnv ∧ AppSafe Server.exEnv := ⟨Server.exEnv_noFault, Server.exEnv_safe⟩
  intro r hr
  unfold exTries at hr
  rcases List.mem_cons.1 hr with rfl | hr
  · refine ⟨exTwice_regular sx _, ?_, by decide, ticks_quiet _ ?_, waits_of (req := Client.exGet) (x := exTwice) (by cases sx <;> decide +kernel)⟩
    · intro e he
      have : e = Server.exEnv := by
        rcases List.mem_cons.1 he with h | he
        · exact h
        rcases List.mem_cons.1 he with h | he
        · exact h
        exact List.mem_singleton.1 he
      rw [this]; exact hfine
    · intro i hi
      have hi : i ∈ [Client.tick, Client.tick] := hi
      rcases List.mem_cons.1 hi with h | hi
      · exact h
      exact List.mem_singleton.1 hi
  rcases List.mem_cons.1 hr with rfl | hr
  · exact ⟨exQuery_first sx _, (fun e he => by cases he), by decide, ticks_quiet _ (fun i hi => by cases hi),
      waits_of (req := Client.exGet) (x := Client.exEnv []) (by cases sx <;> decide +kernel)⟩
  · rw [List.mem_singleton.1 hr]
    refine ⟨exAgain_regular sx _, ?_, by decide, ticks_quiet _ ?_, waits_of (req := Client.exGet) (x := exAgain) (by cases sx <;> decide +kernel)⟩
    · intro e he
      rw [List.mem_singleton.1 he]; exact hfine
    · intro i hi
      exact List.mem_singleton.1 hi

theorem exTries_ids : Ids (exTries.map Attempt.q) := by
  intro pre q post h
  match pre, h with
  | [], h => cases h; exact ⟨by decide +kernel, fun p hp => by cases hp⟩
  | [p0], h => cases h; exact ⟨by decide +kernel, fun p hp => by cases hp⟩
  | [p0, p1], h =>
    cases h
    refine ⟨by decide +kernel, fun p hp => ?_⟩
    cases hp
    decide +kernel
  | p0 :: p1 :: p2 :: r, h =>
    have := congrArg List.length h
    simp [exTries] at this

example (sx : Bool) : OnceEach sx false (init 100 Server.exSep Server.exPool) exTries :=
  C141_once_partial sx false 100 Server.exSep Server.exPool exTries (exTries_patient sx) exTries_ids

/-- C141 does not hold, as C140 does not. -/
theorem C141_violated (sx : Bool) : ¬ C141_statement sx := by
  intro h
  obtain ⟨tr, rs, h1, h2, -⟩ := h false 100 Server.exSep Server.exPool
    [⟨exQuery [2] (Client.exEnv []), [], 0⟩, ⟨exQuery [2] (Client.exEnv []), [], 0⟩] (by
    intro r hr
    have : r = ⟨exQuery [2] (Client.exEnv []), [], 0⟩ := by
      rcases List.mem_cons.1 hr with h | hr
      · exact h
      exact List.mem_singleton.1 hr
    rw [this]
    exact exTries_patient sx _ (List.mem_cons_of_mem _ List.mem_cons_self))
  have key : (match lossy sx false (init 100 Server.exSep Server.exPool)
      [⟨exQuery [2] (Client.exEnv []), [], 0⟩, ⟨exQuery [2] (Client.exEnv []), [], 0⟩] with
      | .ok (tr, _) => decide ((Server.calls tr.flatten).length = 1)
      | _ => false) = true := by cases sx <;> decide +kernel
  rw [h1] at key
  have := of_decide_eq_true key
  rw [h2] at this
  cases this

end FreeCoAP.EndToEnd
