import Verif.EndToEnd.SpecMixed
import Verif.EndToEnd.PropsLossy

/-!
# C142: a session with requests of all kinds
-/

namespace FreeCoAP.EndToEnd

open FreeCoAP.Msg
open FreeCoAP.Server (Env Event Addr arrived Asks Carries Built Srv Reach AppOK AppSafe Transfer AllKnown NoFault NoEmptyBlock Formats Separate step run
  lastRequest init SOK Tidy nextMsgId)
open FreeCoAP.Client (stamped exchange)

/-- C142: Clients that make confirmable and non-confirmable requests, one after the other, get each of them answered, whether the response is piggybacked or
separate, and whatever else than requests reaches the server in between. -/
def C142_statement (sx : Bool) : Prop :=
  ∀ (px : Bool) (id : Nat) (sepList : List Bytes) (pool : Mem.Pool) (rs : List Visit), (∀ r ∈ rs, Sound sx px r.q ∧ ∀ y ∈ r.before, Noise sx y) →
    Ids (rs.map Visit.q) → EachAnswered sx px (init id sepList pool) rs

/-- What a server does when a message that is not a request, or nothing, arrives. -/
theorem quiet_outcome {sx : Bool} {sepList : List Bytes} {env : Env} {t : Server.Trans} {L : Server.Large} {id : Nat} {d : Bytes} {r : Server.TRes}
    (h : Server.Outcome sx sepList env t L id d r) (hn : ∀ m, Server.Got sx env d m → ¬ Asks m) :
    Server.calls r.obs = [] ∧ (r.trans.active = true → r.trans.blk = t.blk) := by
  cases h with
  | again => exact ⟨rfl, fun _ => rfl⟩
  | lost e h o ho =>
    refine ⟨?_, fun ha => by cases ha⟩
    rcases ho with rfl | ⟨-, -, i, -, rfl⟩ <;> rfl
  | dupAck => exact ⟨rfl, fun _ => rfl⟩
  | dupResp => exact ⟨rfl, fun _ => rfl⟩
  | dupFail => exact ⟨rfl, fun ha => by cases ha⟩
  | dupNon => exact ⟨rfl, fun _ => rfl⟩
  | acked => exact ⟨rfl, fun _ => rfl⟩
  | ackFail => exact ⟨rfl, fun ha => by cases ha⟩
  | rejected m hm h1 h2 h3 o ho =>
    refine ⟨?_, fun ha => by cases ha⟩
    rcases ho with rfl | ⟨-, rfl⟩ <;> rfl
  | ackLost m hm hw => exact absurd ⟨hw.type, hw.cls⟩ (hn m hm)
  | genFail m hm hw => exact absurd ⟨hw.type, hw.cls⟩ (hn m hm)
  | sendFail m hm hw => exact absurd ⟨hw.type, hw.cls⟩ (hn m hm)
  | done m hm hw => exact absurd ⟨hw.type, hw.cls⟩ (hn m hm)

theorem quiet_timer {env : Env} {t : Server.Trans} {L : Server.Large} {id : Nat} {r : Server.TRes} (h : Server.TimerOutcome env t L id r) :
    Server.calls r.obs = [] ∧ (r.trans.active = true → r.trans.blk = t.blk) := by
  cases h with
  | expired => exact ⟨rfl, fun ha => by cases ha⟩
  | noTimer => exact ⟨rfl, fun _ => rfl⟩
  | resent => exact ⟨rfl, fun _ => rfl⟩
  | noSend => exact ⟨rfl, fun _ => rfl⟩

theorem Noise.got {sx : Bool} {env : Env} {a : Addr} {d : Bytes} (h : Noise sx (env, .datagram a d)) (h0 : env.acceptErr = none) :
    ∀ m, Server.Got sx env d m → ¬ Asks m := by
  rintro m ⟨hc, h1, h2⟩
  refine h.other a m ?_
  unfold Server.arrived
  dsimp only
  rw [if_pos ⟨rfl, h0, h1, h2⟩]
  have hc' : parse sx (Server.recvBuf d) (min d.length 1152) = .ok m := hc
  rw [hc']

/-- Noise calls no application and starts no transfer. -/
theorem noise_step {sx : Bool} {s s1 : Srv} {env : Env} {ev : Event} {o : List Server.Obs} {e : Option Err} (hn : Noise sx (env, ev))
    (h : Server.StepRel sx s env ev s1 o e) (hT : Tidy s) (ht : ∀ b, ¬ Transfer s b) : Server.calls o = [] ∧ ∀ b, ¬ Transfer s1 b := by
  constructor
  · cases h with
    | noAccept => rfl
    | noTimer => rfl
    | appId => rfl
    | known a d i t r h0 hi ha hd hf h => exact (quiet_outcome h (hn.got h0)).1
    | noCreate => rfl
    | new a d r h0 hf he hi h => exact (quiet_outcome h (hn.got h0)).1
    | timer i t r hi ha hr h => exact (quiet_timer h).1
  · intro b
    rintro ⟨u, hu, hne⟩
    cases Server.step_view h hT b with
    | untouched g => rw [g] at hu; exact ht b ⟨u, hu, hne⟩
    | evicted b' d' hb hev g => rw [g] at hu; cases hu
    | timer i t r hev hi hat hta hact har hout ho he h' =>
      by_cases hra : r.trans.active = true
      · rw [if_pos hra, hu] at h'
        cases h'
        refine ht b ⟨t, hat, ?_⟩
        rw [← (quiet_timer hout).2 hra]
        exact hne
      · rw [if_neg hra, hu] at h'; cases h'
    | exchange d' v r' L hev h0 hv hta hact hout ho he h' =>
      subst hev
      by_cases hra : r'.trans.active = true
      · rw [if_pos hra, hu] at h'
        cases h'
        rw [(quiet_outcome hout (hn.got h0)).2 hra] at hne
        rcases hv with hv | ⟨-, rfl, -⟩
        · exact ht b ⟨v, hv, hne⟩
        · exact hne rfl
      · rw [if_neg hra, hu] at h'; cases h'

theorem calls_append' (x y : List Server.Obs) : Server.calls (x ++ y) = Server.calls x ++ Server.calls y := by
  unfold Server.calls
  rw [List.filterMap_append]

theorem noise_run {sx : Bool} {sepList : List Bytes} : ∀ (ys : List (Env × Event)) (s : Srv), (∀ y ∈ ys, Noise sx y) → Tidy s → (∀ b, ¬ Transfer s b) → SOK s →
    s.sepList = sepList →
    ∃ s' tr, run sx s ys = .ok (s', tr) ∧ (∀ b, ¬ Transfer s' b) ∧ SOK s' ∧ s'.sepList = sepList ∧ Server.calls tr.flatten = []
  | [], s, _, _, ht, hs, hsl => ⟨s, [], rfl, ht, hs, hsl, rfl⟩
  | (env, ev) :: ys, s, hn, hT, ht, hs, hsl => by
    have hn1 := hn (env, ev) List.mem_cons_self
    obtain ⟨⟨s1, o, e⟩, h, hs1⟩ := Server.step_good (sx := sx) (s := s) (env := env) (ev := ev) hn1.safe hn1.harmless hs
    have hrel := Server.step_rel h
    obtain ⟨c1, c2⟩ := noise_step hn1 hrel hT ht
    obtain ⟨s', tr, k1, k2, k3, k4, k5⟩ := noise_run ys s1 (fun y hy => hn y (List.mem_cons_of_mem _ hy)) (hrel.tidy hT) c2 hs1 (hrel.sepList.trans hsl)
    refine ⟨s', o :: tr, ?_, k2, k3, k4, ?_⟩
    · unfold run
      rw [h]
      simp only at k1 ⊢
      rw [k1]
    · rw [List.flatten_cons, calls_append', c1, k5]
      rfl

theorem noise_last {sx : Bool} {ys : List (Env × Event)} (h : ∀ y ∈ ys, Noise sx y) (a : Addr) : lastRequest sx a ys = none := by
  unfold lastRequest
  rw [List.find?_eq_none]
  intro m hm
  obtain ⟨y, hy, he⟩ := List.mem_filterMap.1 (List.mem_reverse.1 hm)
  rw [decide_eq_true_eq]
  exact (h y hy).other a m he

theorem history_last {sx px : Bool} (a : Addr) : ∀ (rs : List Visit), (∀ r ∈ rs, Sound sx px r.q ∧ ∀ y ∈ r.before, Noise sx y) →
    lastRequest sx a (history rs) = (((rs.map Visit.q).filter (fun p => decide (p.a = a))).getLast?).map Ask.sent
  | [], _ => rfl
  | r :: rs, h => by
    obtain ⟨h1, h2⟩ := h r List.mem_cons_self
    have hcons : history (r :: rs) = (r.before ++ [(r.q.env, .datagram r.q.a r.q.d)]) ++ history rs := rfl
    have hone : lastRequest sx a [(r.q.env, .datagram r.q.a r.q.d)] = if r.q.a = a then some r.q.sent else none := by
      unfold lastRequest
      rw [List.filterMap_cons, h1.arrived a]
      by_cases ha : r.q.a = a
      · rw [if_pos ha]
        show [r.q.sent].find? _ = _
        rw [List.find?_cons, decide_eq_true h1.carries.2]
      · rw [if_neg ha]
        rfl
    rw [hcons, lastRequest_append, lastRequest_append, history_last a rs (fun p hp => h p (List.mem_cons_of_mem _ hp)), noise_last h2, hone,
      Option.or_none, List.map_cons, List.filter_cons]
    by_cases ha : r.q.a = a
    · rw [if_pos ha, if_pos (decide_eq_true ha), List.getLast?_cons]
      cases ((rs.map Visit.q).filter (fun p => decide (p.a = a))).getLast? <;> rfl
    · rw [if_neg ha, if_neg (by rw [decide_eq_true_eq]; exact ha), Option.or_none]

theorem mixed_all {sx px : Bool} {s0 : Srv} : ∀ (rs pre : List Visit) (s : Srv) (tr0 : List (List Server.Obs)),
    (∀ r ∈ pre ++ rs, Sound sx px r.q ∧ ∀ y ∈ r.before, Noise sx y) → Ids ((pre ++ rs).map Visit.q) → OwnIds sx s0 (pre ++ rs) →
    run sx s0 (history pre) = .ok (s, tr0) → Reach sx (history pre) s tr0 → (∀ a, ¬ Transfer s a) → SOK s →
    s.sepList = s0.sepList → EachAnswered sx px s rs
  | [], _, _, _, _, _, _, _, _, _, _, _ => ⟨[], [], rfl, rfl, rfl, fun i q h => by cases h⟩
  | r :: rs, pre, s, tr0, hall, hids, hown, hrun0, hr0, ht0, hs0, hsl0 => by
    obtain ⟨hq, hn⟩ := hall r (List.mem_append.2 (Or.inr List.mem_cons_self))
    obtain ⟨h0, hprev⟩ := hids (pre.map Visit.q) r.q (rs.map Visit.q) (by rw [List.map_append, List.map_cons])
    obtain ⟨s1, tr1, hrun1, ht, hs, hsl, hcalls1⟩ := noise_run r.before s hn hr0.tidy ht0 hs0 hsl0
    have hr := hr0.run hrun1
    have hp : ∀ m', lastRequest sx r.q.a (history pre ++ r.before) = some m' → m'.msgId ≠ r.q.sent.msgId := by
      intro m' hm
      rw [lastRequest_append, noise_last hn, Option.none_or, history_last _ pre (fun p hp => hall p (List.mem_append.2 (Or.inl hp)))] at hm
      obtain ⟨p, hp, rfl⟩ := Option.map_eq_some_iff.1 hm
      exact hprev p hp
    have hrun1' : run sx s0 (history pre ++ r.before) = .ok (s1, tr0 ++ tr1) := Server.run_append_ok hrun0 hrun1
    obtain ⟨⟨s2, o, e⟩, h, hs2⟩ := Server.step_good (sx := sx) (s := s1) (env := r.q.env) (ev := .datagram r.q.a r.q.d) hq.safe
      (fun a d he => by cases he; exact hq.harmless) hs
    obtain ⟨hc, hask⟩ := hq.carries
    obtain ⟨rfl, g2, g3, g4⟩ := answered hr hq.app hq.fine (ht _) hc hask rfl hq.known hq.answer hq.handle h0 hp h
    obtain ⟨obs, hw⟩ := hq.waits
    obtain ⟨obs', key⟩ := delivered (a := r.q.a) (o := o) (js := []) (x := r.q.x) (is := []) hq.built hw
      (fun i hi => by cases hi) g3 g4 hq.answer.response hq.answer.options
      (fun hn => hown pre r rs rfl (by rw [← hsl]; exact hn) _ _ hrun1')
    rw [List.append_nil, List.nil_append] at key
    have hpre : pre ++ r :: rs = (pre ++ [r]) ++ rs := by rw [List.append_assoc]; rfl
    have hone : run sx s1 [(r.q.env, .datagram r.q.a r.q.d)] = .ok (s2, [o]) := by
      unfold run
      rw [h]
      rfl
    have hhist : history (pre ++ [r]) = (history pre ++ r.before) ++ [(r.q.env, .datagram r.q.a r.q.d)] := by
      unfold history
      rw [List.flatMap_append, List.flatMap_singleton, Visit.evs, List.append_assoc]
    have hrun2 : run sx s0 (history (pre ++ [r])) = .ok (s2, (tr0 ++ tr1) ++ [o]) := by
      rw [hhist]
      exact Server.run_append_ok hrun1' hone
    have hr2 : Reach sx (history (pre ++ [r])) s2 ((tr0 ++ tr1) ++ [o]) := by
      rw [hhist]
      exact hr.run hone
    have ht2 := no_transfer hq hr ht h0 hp h
    rw [hpre] at hall hids hown
    obtain ⟨trs, xs, j1, j2, j3, j4⟩ := mixed_all rs (pre ++ [r]) s2 ((tr0 ++ tr1) ++ [o]) hall hids hown hrun2 hr2 ht2 hs2
      ((Server.step_rel h).sepList.trans hsl)
    refine ⟨tr1 ++ o :: trs, some (.ok (Server.final s1.sepList r.q.env s1.msgId r.q.sent r.q.resp)) :: xs, ?_, ?_, ?_, ?_⟩
    · unfold mixed
      rw [hrun1]
      dsimp only
      rw [h]
      dsimp only
      rw [key]
      dsimp only
      rw [j1]
      rfl
    · rw [List.flatten_append, List.flatten_cons, calls_append', calls_append', hcalls1, g2, j2]
      rfl
    · rw [List.length_cons, List.length_cons, j3]
    · intro i p hi
      cases i with
      | zero => cases hi; exact ⟨_, rfl, rfl, rfl, rfl, rfl⟩
      | succ i => exact j4 i p hi

/-- C142, the part that holds if the ids that the server chooses for responses that are not piggybacked, which follow from a random number, are different from
the ids of the requests. -/
theorem C142_mixed_partial (sx px : Bool) (id : Nat) (sepList : List Bytes) (pool : Mem.Pool) (rs : List Visit)
    (h : ∀ r ∈ rs, Sound sx px r.q ∧ ∀ y ∈ r.before, Noise sx y) (hi : Ids (rs.map Visit.q)) (ho : OwnIds sx (init id sepList pool) rs) :
    EachAnswered sx px (init id sepList pool) rs := by
  refine mixed_all rs [] _ [] h hi ho rfl ⟨id, sepList, pool, rfl⟩ ?_ (Server.init_sok id sepList pool) rfl
  rintro a ⟨t, ht, -⟩
  obtain ⟨i, hi, hact, -⟩ := Server.look_some ht
  have := List.mem_of_getElem? hi
  rw [List.eq_of_mem_replicate this] at hact
  cases hact

/-! ## Examples -/

/-- A non-confirmable request of the client at `a`. -/
def exNonQuery (a : Addr) (x : Client.XEnv) : Ask := ⟨a, Server.exEnv, x, Client.exGetNon, exAnswer, enc (stamped x Client.exGetNon)⟩

theorem exNonQuery_sound (sx : Bool) (a : Addr) : Sound sx false (exNonQuery a (Client.exEnv [])) := by
  obtain ⟨obs, hw⟩ := waits_of (sx := sx) (x := { Client.exEnv [] with inputs := [] }) (req := Client.exGetNon) (by cases sx <;> decide +kernel)
  refine ⟨Server.exEnv_app, Server.exEnv_safe, Server.exEnv_noFault, Client.exGetNon_built, exGet_ordinary sx, exGet_known, ?_,
    exAnswer_ok sx false, fun _ _ => rfl, ?_, (by decide +kernel : (enc (stamped (Client.exEnv []) Client.exGetNon)).length < 1152), _, hw⟩
  · show NoEmptyBlock Client.exGetNon
    intro o ho hn
    have : o ∈ [(⟨11, [97]⟩ : Op)] := ho
    rw [List.mem_singleton.1 this]
    exact fun h => by cases h
  · refine Client.formats_iff.2 ⟨?_, rfl⟩
    rcases Client.exchange_cases Client.exGetNon_built.type hw with ⟨-, e, he⟩ | ⟨-, -, o3, hs⟩
    · cases he
    · exact hs.send

/-- The first client gets a separate response, which the server transmits again because the acknowledgement is late; then it comes, and a malformed datagram;
the second client makes a non-confirmable request; the first one makes another request, while a timer ends that is not armed. -/
def exVisits : List Visit :=
  [⟨[], exQuery [1] (Client.exEnv [])⟩,
    ⟨[(Server.exEnv, .timer 0), (Server.exEnv, .datagram [1] [0x60, 0, 0, 101]), (Server.exEnv, .datagram [3] [1, 2])], exNonQuery [2] (Client.exEnv [])⟩,
    ⟨[(Server.exEnv, .timer 0)], exQuery [1] exOther⟩]

/-- The resource of the example is answered with a separate response. -/
def exPaths : List Bytes := [[47, 97]]

theorem noise_timer (sx : Bool) (i : Nat) : Noise sx (Server.exEnv, .timer i) :=
  ⟨Server.exEnv_safe, (fun _ _ h => by cases h), fun _ _ h => by cases h⟩

theorem noise_datagram {sx : Bool} {a : Addr} {d : Bytes} (hl : d.length < 1152)
    (hd : (match parse sx (Server.recvBuf d) (min d.length 1152) with | .ok m => decide (¬ Asks m) && decide (m.ops = []) | _ => true) = true) :
    Noise sx (Server.exEnv, .datagram a d) := by
  refine ⟨Server.exEnv_safe, ?_, ?_⟩
  · intro b d' h
    cases h
    refine ⟨hl, fun m hm => ?_⟩
    have hc : parse sx (Server.recvBuf d) (min d.length 1152) = .ok m := hm
    rw [hc] at hd
    simp only [Bool.and_eq_true, decide_eq_true_eq] at hd
    intro o ho
    rw [hd.2] at ho
    cases ho
  · intro b m h
    unfold Server.arrived at h
    dsimp only at h
    split at h
    · split at h
      · rename_i m' hp
        cases h
        rw [hp] at hd
        simp only [Bool.and_eq_true, decide_eq_true_eq] at hd
        exact hd.1
      · cases h
    · cases h

theorem exVisits_ok (sx : Bool) : ∀ r ∈ exVisits, Sound sx false r.q ∧ ∀ y ∈ r.before, Noise sx y := by
  intro r hr
  unfold exVisits at hr
  rcases List.mem_cons.1 hr with rfl | hr
  · exact ⟨(exQuery_first sx _).toSound, fun y hy => by cases hy⟩
  rcases List.mem_cons.1 hr with rfl | hr
  · refine ⟨exNonQuery_sound sx _, fun y hy => ?_⟩
    rcases List.mem_cons.1 hy with rfl | hy
    · exact noise_timer sx 0
    rcases List.mem_cons.1 hy with rfl | hy
    · exact noise_datagram (by decide) (by cases sx <;> decide +kernel)
    · rw [List.mem_singleton.1 hy]
      exact noise_datagram (by decide) (by cases sx <;> decide +kernel)
  · rw [List.mem_singleton.1 hr]
    refine ⟨(exQuery_second sx _).toSound, fun y hy => ?_⟩
    rw [List.mem_singleton.1 hy]
    exact noise_timer sx 0

theorem exVisits_ids : Ids (exVisits.map Visit.q) := by
  intro pre q post h
  match pre, h with
  | [], h => cases h; exact ⟨by decide +kernel, fun p hp => by cases hp⟩
  | [p0], h => cases h; exact ⟨by decide +kernel, fun p hp => by cases hp⟩
  | [p0, p1], h =>
    cases h
    refine ⟨by decide +kernel, fun p hp => ?_⟩
    cases hp
    decide +kernel
  | p0 :: p1 :: p2 :: r, h =>
    have := congrArg List.length h
    simp [exVisits] at this

theorem ownIds_of {sx : Bool} {s : Srv} {evs : List (Env × Event)} {q : Ask}
    (h : (match run sx s evs with | .ok (s', _) => decide (nextMsgId s'.msgId q.env.idRand ≠ q.sent.msgId) | _ => true) = true) :
    ∀ s' tr, run sx s evs = .ok (s', tr) → nextMsgId s'.msgId q.env.idRand ≠ q.sent.msgId := by
  intro s' tr hr
  rw [hr] at h
  exact of_decide_eq_true h

theorem exVisits_own (sx : Bool) : OwnIds sx (init 100 exPaths Server.exPool) exVisits := by
  intro pre q post h
  match pre, h with
  | [], h => cases h; exact fun _ => ownIds_of (by cases sx <;> decide +kernel)
  | [p0], h => cases h; exact fun _ => ownIds_of (by cases sx <;> decide +kernel)
  | [p0, p1], h => cases h; exact fun _ => ownIds_of (by cases sx <;> decide +kernel)
  | p0 :: p1 :: p2 :: r, h =>
    have := congrArg List.length h
    simp [exVisits] at this

example (sx : Bool) : EachAnswered sx false (init 100 exPaths Server.exPool) exVisits :=
  C142_mixed_partial sx false 100 exPaths Server.exPool exVisits (exVisits_ok sx) exVisits_ids (exVisits_own sx)

/-- In the example the first request is answered with an acknowledgement and a confirmable response that is transmitted twice. -/
example (sx : Bool) : (match mixed sx false (init 100 exPaths Server.exPool) exVisits with
    | .ok (tr, _) => decide ((tr.map (fun o => (toward [1] o).length)) = [2, 1, 0, 0, 0, 0, 2])
    | _ => false) = true := by cases sx <;> decide +kernel

/-- C142 does not hold: a separate response whose id is that of the request is not accepted by the client. -/
theorem C142_violated (sx : Bool) : ¬ C142_statement sx := by
  intro h
  obtain ⟨tr, rs, h1, -, -, h2⟩ := h false 257 exPaths Server.exPool [⟨[], exQuery [1] (Client.exEnv [])⟩] (by
    intro r hr
    rw [List.mem_singleton.1 hr]
    exact ⟨(exQuery_first sx _).toSound, fun y hy => by cases hy⟩) (by
    intro pre q post h
    match pre, h with
    | [], h => cases h; exact ⟨by decide +kernel, fun p hp => by cases hp⟩
    | p0 :: r, h =>
      have := congrArg List.length h
      simp at this)
  have key : (match mixed sx false (init 257 exPaths Server.exPool) [⟨[], exQuery [1] (Client.exEnv [])⟩] with
      | .ok (_, xs) => match xs[0]? with | some (some (Except.ok _)) => false | _ => true
      | _ => true) = true := by cases sx <;> decide +kernel
  obtain ⟨m, h3, -⟩ := h2 0 _ rfl
  rw [h1] at key
  dsimp only at key
  rw [h3] at key
  cases key

end FreeCoAP.EndToEnd
