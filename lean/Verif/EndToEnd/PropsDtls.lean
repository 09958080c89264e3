import Verif.EndToEnd.SpecDtls
import Verif.EndToEnd.PropsLive
import Verif.Client.PropsDtls
import Verif.Server.PropsRecords

/-!
# An exchange over DTLS

C122. C98 and C103 say that the server and the client treat the records of their sessions as datagrams, C107 and C104 when they get them, C109 when an exchange
without DTLS is answered. Together: when an exchange over DTLS is answered.
-/

namespace FreeCoAP.EndToEnd.Dtls

open FreeCoAP.Msg
open FreeCoAP.Server (Env Addr Srv Formats AppOK NoFault Transfer AllKnown Built Separate lastRequest nextMsgId ofAddr)
open FreeCoAP.Client (stamped AckedBy)
open FreeCoAP.Client.Dtls (Act Udp apart feed)

theorem apart_append (opens : Bytes → List Bytes) (as bs : List Act) (queue : List Bytes) :
    apart opens (as ++ bs) queue = apart opens as queue ++ apart opens bs (left as queue) := by
  induction as generalizing queue with
  | nil => rfl
  | cons a as ih =>
    rw [List.cons_append]
    conv => lhs; unfold apart
    conv => rhs; arg 1; unfold apart
    rw [show left (a :: as) queue = left as (queue ++ a.arrive).tail from rfl]
    cases hq : queue ++ a.arrive with
    | nil =>
      dsimp only [List.tail]
      split <;> rw [ih] <;> rfl
    | cons d q =>
      dsimp only [List.tail]
      split <;> rw [ih] <;> rfl

/-- The records of datagrams that arrive in time are what the client gets next. -/
theorem apart_inTime (opens : Bytes → List Bytes) {ds rs : List Bytes} (as : List Act) (queue more : List Bytes) (hs : Sealed opens ds rs)
    (hl : ds.length ≤ as.length) (hf : queue ++ as.flatMap Act.arrive = ds ++ more)
    (hn : ∀ k, k < ds.length → k < queue.length + ((as.take (k + 1)).flatMap Act.arrive).length) :
    ∃ js, apart opens as queue = rs.map gets ++ js := by
  induction ds generalizing rs as queue with
  | nil =>
    cases rs with
    | nil => exact ⟨_, rfl⟩
    | cons r rs => exact absurd hs (by simp [Sealed])
  | cons d ds ih =>
    cases rs with
    | nil => exact absurd hs (by simp [Sealed])
    | cons r rs =>
      obtain ⟨h1, h2⟩ := List.cons.inj hs
      cases as with
      | nil => exact absurd hl (by simp)
      | cons a as =>
        have h0 := hn 0 (by simp)
        simp only [Nat.zero_add, List.take_succ_cons, List.take_zero, List.flatMap_cons, List.flatMap_nil, List.append_nil] at h0
        rw [List.flatMap_cons, ← List.append_assoc] at hf
        cases hq : queue ++ a.arrive with
        | nil =>
          have := congrArg List.length hq
          rw [List.length_append, List.length_nil] at this
          omega
        | cons d' q =>
          rw [hq] at hf
          rw [List.cons_append, List.cons_append] at hf
          obtain ⟨hd, hf'⟩ := List.cons.inj hf
          subst hd
          have hlen := congrArg List.length hq
          rw [List.length_append, List.length_cons] at hlen
          obtain ⟨js, hj⟩ := ih as q h2 (by simpa using hl) hf' (fun k hk => by
            have := hn (k + 1) (by simpa using hk)
            rw [List.take_succ_cons, List.flatMap_cons, List.length_append] at this
            omega)
          refine ⟨js, ?_⟩
          unfold apart
          rw [hq]
          dsimp only
          rw [h1]
          dsimp only
          rw [hj]
          rfl

/-- The situation: a client and a server over DTLS have a session. The server has any history. The client waits for the response to its request, which it has
read no acknowledgement for so far. The next datagram of the server's socket is from the client and carries one record with a copy of the request. The
application answers it with `resp`; nothing fails. -/
structure Waiting (sx px auth : Bool) (a : Addr) (xs : List Server.Dtls.Input) (s : Srv) (wd : Server.Dtls.World) (tr : List (List Server.Obs))
    (x : Server.Dtls.Input) (y : Client.XEnv) (opens opens' : Bytes → List Bytes) (as : List Act) (req resp : Msg) : Prop where
  reach : ∃ id sepList pool wd0, Server.Dtls.run sx auth xs (Server.init id sepList pool) wd0 = .ok (s, wd, tr)
  session : ofAddr s a ≠ none
  head : ∃ d q r, wd.queue = ⟨a, d⟩ :: q ∧ wd.future = [] ∧ d.length ≤ 65535 ∧ opens d = [r] ∧ Formats (stamped y req) r ∧ r.length < 1152
  turn : Turn opens x
  app : AppOK x.env
  fine : NoFault x.env
  plain : ¬ Transfer s a
  built : Built req
  ordinary : Ordinary sx req
  known : AllKnown req
  answer : Answerable sx px resp
  handle : ∀ t : Server.Trans, t.addr = a → x.env.handle t (stamped y req) = .reply resp none
  single : ∀ d, (opens' d).length ≤ 1 ∧ ∀ r ∈ opens' d, r ≠ []
  udp : Udp as
  read : left as [] = []
  waits : ∃ obs, (Client.Dtls.exchange sx px y req (feed opens' as [] ⟨[], [], none, []⟩) ⟨[], [], none, []⟩).1 = .ok (obs, none)
  unacked : ∀ i ∈ apart opens' as [], ¬ AckedBy sx (stamped y req).msgId i

/-- What a user expects of an exchange over DTLS: the application gets the request, and if the records that the server sends reach the client, each in a
datagram of its own and in time, then the exchange returns the application's answer. -/
def C122_statement (sx : Bool) : Prop :=
  ∀ (px auth : Bool) (a : Addr) (xs : List Server.Dtls.Input) (s s1 : Srv) (wd wd1 : Server.Dtls.World) (tr : List (List Server.Obs)) (x : Server.Dtls.Input)
    (y : Client.XEnv) (opens opens' : Bytes → List Bytes) (as bs : List Act) (req resp : Msg) (o : List Server.Obs) (e : Option Err) (ds : List Bytes),
    Waiting sx px auth a xs s wd tr x y opens opens' as req resp → Server.Dtls.step sx auth x s wd = .ok (s1, wd1, o, e) →
    Sealed opens' ds (toward a o) → InTime ds bs → Udp bs →
    Server.calls o = [(a, stamped y req)] ∧
    ∃ obs r, (Client.Dtls.exchange sx px y req (feed opens' (as ++ bs) [] ⟨[], [], none, []⟩) ⟨[], [], none, []⟩).1 = .ok (obs, some (.ok r)) ∧ Says r resp

/-- The exchange over DTLS is the exchange without DTLS that gets the records. -/
theorem exchange_apart {sx px : Bool} {y : Client.XEnv} {req : Msg} {opens : Bytes → List Bytes} {as : List Act} (hu : Udp as)
    (h : ∀ d, (opens d).length ≤ 1 ∧ ∀ r ∈ opens d, r ≠ []) :
    (Client.Dtls.exchange sx px y req (feed opens as [] ⟨[], [], none, []⟩) ⟨[], [], none, []⟩).1 =
      Client.exchange sx px { y with inputs := apart opens as [] } req :=
  Client.Dtls.C104_exchange_partial sx px y req opens as hu (fun d => (h d).1) (fun d => (h d).2)

/-- C122 for requests whose id, which is random, is neither 0 nor the id of the previous request and, if the response does not come with the acknowledgement,
not the id that the server chooses for it either. -/
theorem C122_answered_partial (sx px auth : Bool) (a : Addr) (xs : List Server.Dtls.Input) (s s1 : Srv) (wd wd1 : Server.Dtls.World)
    (tr : List (List Server.Obs)) (x : Server.Dtls.Input) (y : Client.XEnv) (opens opens' : Bytes → List Bytes) (as bs : List Act) (req resp : Msg)
    (o : List Server.Obs) (e : Option Err) (ds : List Bytes)
    (hw : Waiting sx px auth a xs s wd tr x y opens opens' as req resp) (h : Server.Dtls.step sx auth x s wd = .ok (s1, wd1, o, e))
    (hs : Sealed opens' ds (toward a o)) (ht : InTime ds bs) (hu : Udp bs)
    (h0 : (stamped y req).msgId ≠ 0)
    (hp : ∀ t, ofAddr s a = some t → t.req.msgId ≠ (stamped y req).msgId)
    (hid : ¬ (req.type = CON ∧ ¬ Separate s.sepList req) → nextMsgId s.msgId x.env.idRand ≠ (stamped y req).msgId) :
    e = none ∧ Server.calls o = [(a, stamped y req)] ∧
    ∃ obs r, (Client.Dtls.exchange sx px y req (feed opens' (as ++ bs) [] ⟨[], [], none, []⟩) ⟨[], [], none, []⟩).1 = .ok (obs, some (.ok r)) ∧
      Says r resp := by
  obtain ⟨id, sepList, pool, wd0, hrun⟩ := hw.reach
  obtain ⟨ys, hst, hys⟩ := Server.Dtls.C98_same_server sx auth id sepList pool wd0 wd xs s tr hrun
  have hreach : Server.Reach sx ys s tr := ⟨id, sepList, pool, hys⟩
  obtain ⟨d, q, r, k1, k2, k3, k4, k5, k6⟩ := hw.head
  have hr : r ≠ [] := by
    rintro rfl
    have := (Client.formats_iff.1 k5).2
    have := congrArg List.length this
    simp only [enc, List.length_append, encHdr_length, List.length_nil] at this
    omega
  obtain ⟨queue, future, errno, trace⟩ := wd
  dsimp only at k1 k2
  subst k1 k2
  rw [Server.Dtls.C107_turn sx auth x opens s ⟨a, d⟩ q errno trace r [] hw.session k3 k4 hr hw.turn.ev hw.turn.recv hw.turn.bye, Out.bind_eq_ok] at h
  obtain ⟨⟨s1', o', e'⟩, h, heq⟩ := h
  simp only [Out.pure_eq, Out.ok.injEq, Prod.mk.injEq] at heq
  obtain ⟨rfl, -, rfl, rfl⟩ := heq
  have henv : NoFault { x.env with acceptErr := none, recvErr := none } :=
    ⟨⟨rfl, rfl, hw.fine.arrives.2.2⟩, hw.fine.create, hw.fine.rst, hw.fine.ack, hw.fine.send, hw.fine.timer, hw.fine.pay, hw.fine.op1, hw.fine.op2,
      hw.fine.copyReq, hw.fine.copyResp⟩
  obtain ⟨obs, hwait⟩ := hw.waits
  rw [exchange_apart hw.udp hw.single] at hwait
  have hpl : EndToEnd.Waiting sx px a ys s tr { x.env with acceptErr := none, recvErr := none } y (apart opens' as []) req resp r :=
    ⟨hreach, ⟨hw.app.handle, hw.app.rx⟩, henv, hw.plain, hw.built, hw.ordinary, hw.known, hw.answer, hw.handle, k5, k6, ⟨obs, hwait⟩, hw.unacked⟩
  obtain ⟨hc, hq⟩ := hpl.carries
  obtain ⟨g1, g2, g3, g4⟩ := answered_fresh hpl.reach hpl.app hpl.fine hpl.plain hc hq rfl hpl.known hpl.answer hpl.handle h0 (fun t ht => by
    rw [← Bool.not_eq_true, Server.matchReq_iff]
    exact fun hn => hp t ht hn.2) h
  obtain ⟨more, hmore⟩ := ht.first
  obtain ⟨js, hjs⟩ := apart_inTime opens' bs [] more hs ht.enough (by rw [List.nil_append]; exact hmore.symm) (fun k hk => by
    have := ht.next k hk
    rw [List.length_nil]
    omega)
  obtain ⟨obs', key⟩ := delivered (js := js) hw.built hwait hw.unacked g3 g4 hw.answer.response hw.answer.options hid
  rw [exchange_apart (fun b hb => (List.mem_append.1 hb).elim (hw.udp b) (hu b)) hw.single, apart_append, hw.read, hjs]
  exact ⟨g1, g2, obs', _, key, rfl, rfl, rfl, rfl⟩

/-! ## Examples -/

/-- A library without encryption: a record is the byte 23 and its content. -/
def exOpens (d : Bytes) : List Bytes :=
  match d with
  | 23 :: b :: r => [b :: r]
  | _ => []

theorem exOpens_single (d : Bytes) : (exOpens d).length ≤ 1 ∧ ∀ r ∈ exOpens d, r ≠ [] := by
  unfold exOpens
  split
  · refine ⟨by simp, fun r hr => ?_⟩
    rw [List.mem_singleton] at hr
    rw [hr]
    simp
  · exact ⟨by simp, by simp⟩

/-- A turn of the server after the handshake. -/
def exRead : Server.Dtls.Input :=
  { Server.Dtls.exTurn with calls := { Server.Dtls.exCalls with recv := (Server.Dtls.recordRecv exOpens []).fst, bye := .done () id } }

theorem exRead_turn : Turn exOpens exRead := ⟨rfl, rfl, rfl⟩

/-- The datagrams of a handshake, and then these. -/
def exSocket (ds : List Bytes) : Server.Dtls.World := ⟨([1] :: [3] :: ds).map (fun d => ⟨[1], d⟩), [], none, []⟩

theorem exWaiting (sx : Bool) {xs : List Server.Dtls.Input} {s : Srv} {wd0 wd : Server.Dtls.World} {tr : List (List Server.Obs)}
    (hrun : Server.Dtls.run sx true xs Server.exInit wd0 = .ok (s, wd, tr)) (hses : ofAddr s [1] ≠ none)
    (hq : wd.queue = [⟨[1], 23 :: Client.exReqBytes⟩]) (hf : wd.future = []) (hreg : s.trans.all (fun t => decide (t.blk.type = .regular)) = true) :
    Waiting sx false true [1] xs s wd tr exRead (Client.exEnv []) exOpens exOpens [⟨[], true⟩, ⟨[[22]], false⟩] Client.exGet exAnswer := by
  have hw : ∃ obs, (Client.Dtls.exchange sx false (Client.exEnv []) Client.exGet (feed exOpens [⟨[], true⟩, ⟨[[22]], false⟩] [] ⟨[], [], none, []⟩)
      ⟨[], [], none, []⟩).1 = .ok (obs, none) := by
    refine ⟨[.sent Client.exReqBytes, .arm 2500, .arm 5000, .sent Client.exReqBytes], ?_⟩
    cases sx <;> decide +kernel
  have hi : apart exOpens [⟨[], true⟩, ⟨[[22]], false⟩] [] = [⟨.timer, none, none, true⟩, ⟨.recvErr .EAGAIN, none, none, true⟩] := by decide
  refine ⟨⟨100, Server.exSep, Server.exPool, wd0, hrun⟩, hses, ⟨_, [], Client.exReqBytes, hq, hf, by decide, rfl, ?_, by decide⟩, exRead_turn, Server.exEnv_app,
    Server.exEnv_noFault, ?_, Client.exGet_built, exGet_ordinary sx, exGet_known, exAnswer_ok sx false, fun _ _ => rfl, exOpens_single, ?_, rfl, hw, ?_⟩
  · refine Client.formats_iff.2 ⟨?_, by decide +kernel⟩
    obtain ⟨obs, hw⟩ := hw
    rw [exchange_apart (by unfold Udp; decide) exOpens_single] at hw
    rcases Client.exchange_cases Client.exGet_built.type hw with ⟨-, e, he⟩ | ⟨-, -, o3, hs⟩
    · cases he
    · exact hs.send
  · rintro ⟨t, ht, hn⟩
    obtain ⟨i, hi, -⟩ := Server.look_some ht
    have := List.all_eq_true.1 hreg t (List.mem_of_getElem? hi)
    exact hn (by simpa using this)
  · unfold Udp
    decide
  · rw [hi]
    rintro i hi ⟨d, m, h1, -⟩
    rcases List.mem_cons.1 hi with rfl | hi
    · cases h1
    · rw [List.mem_singleton.1 hi] at h1
      cases h1

/-- The hypotheses of the theorem are met: a handshake, a request that was transmitted twice, a datagram at the client that carries no record. -/
example : ∃ s wd tr s1 wd1 o e obs r, Server.Dtls.run true true [Server.Dtls.exTurn] Server.exInit (exSocket [23 :: Client.exReqBytes]) = .ok (s, wd, tr) ∧
    Server.Dtls.step true true exRead s wd = .ok (s1, wd1, o, e) ∧ Server.calls o = [([1], stamped (Client.exEnv []) Client.exGet)] ∧
    (Client.Dtls.exchange true false (Client.exEnv []) Client.exGet
      (feed exOpens ([⟨[], true⟩, ⟨[[22]], false⟩] ++ [⟨(toward [1] o).map (fun r => 23 :: r), false⟩]) [] ⟨[], [], none, []⟩) ⟨[], [], none, []⟩).1 =
      .ok (obs, some (.ok r)) ∧ Says r exAnswer := by
  have key : Server.test (Server.Dtls.run true true [Server.Dtls.exTurn] Server.exInit (exSocket [23 :: Client.exReqBytes])) (fun x1 =>
      decide (x1.2.1.queue = [⟨[1], 23 :: Client.exReqBytes⟩]) && (decide (x1.2.1.future = []) &&
      (x1.1.trans.all (fun t => decide (t.blk.type = .regular)) &&
      ((match ofAddr x1.1 [1] with | some t => decide (t.req.msgId = 0) | none => false) &&
      (decide (¬ Separate x1.1.sepList Client.exGet) &&
      Server.test (Server.Dtls.step true true exRead x1.1 x1.2.1) (fun x2 => decide (toward [1] x2.2.2.1 = [Client.exPiggy]))))))) = true := by
    decide +kernel
  obtain ⟨⟨s, wd, tr⟩, h1, key⟩ := Server.test_ok key
  simp only [Bool.and_eq_true, decide_eq_true_eq] at key
  obtain ⟨hq, hf, hreg, hses, hsep, key⟩ := key
  obtain ⟨⟨s1, wd1, o, e⟩, h2, key⟩ := Server.test_ok key
  replace key := of_decide_eq_true key
  dsimp only at key hses
  obtain ⟨t, ht, hid⟩ : ∃ t, ofAddr s [1] = some t ∧ t.req.msgId = 0 := by
    cases hx : ofAddr s [1] with
    | none => rw [hx] at hses; cases hses
    | some t => rw [hx] at hses; exact ⟨t, rfl, of_decide_eq_true hses⟩
  obtain ⟨-, g1, obs, r, g2, g3⟩ := C122_answered_partial true false true [1] _ s s1 wd wd1 tr exRead (Client.exEnv []) exOpens exOpens _
    [⟨(toward [1] o).map (fun r => 23 :: r), false⟩] Client.exGet exAnswer o e ((toward [1] o).map (fun r => 23 :: r))
    (exWaiting true h1 (by rw [ht]; simp) hq hf hreg) h2 (by rw [key]; unfold Sealed; decide) (by rw [key]; exact ⟨by decide, by decide, by decide⟩)
    (by rw [key]; unfold Udp; decide) (by decide)
    (fun t' ht' => by rw [ht] at ht'; cases ht'; rw [hid]; decide) (fun hn => absurd ⟨rfl, hsep⟩ hn)
  exact ⟨s, wd, tr, s1, wd1, o, e, obs, r, h1, h2, g1, g2, g3⟩

/-- C122 is violated for the same reason as C109: a request with the id of the previous one is taken for its repetition. -/
theorem C122_violated (sx : Bool) : ¬ C122_statement sx := by
  have key : Server.test (Server.Dtls.run sx true [Server.Dtls.exTurn, exRead] Server.exInit (exSocket [23 :: exTwin, 23 :: Client.exReqBytes])) (fun x1 =>
      decide (x1.2.1.queue = [⟨[1], 23 :: Client.exReqBytes⟩]) && (decide (x1.2.1.future = []) &&
      (x1.1.trans.all (fun t => decide (t.blk.type = .regular)) && ((ofAddr x1.1 [1]).isSome &&
      Server.test (Server.Dtls.step sx true exRead x1.1 x1.2.1) (fun x2 => decide (Server.calls x2.2.2.1 = []) &&
        decide (toward [1] x2.2.2.1 = [[0x64, 0x45, 1, 2, 9, 9, 9, 9, 0xff, 0x68, 0x69]])))))) = true := by
    cases sx <;> decide +kernel
  obtain ⟨⟨s, wd, tr⟩, h1, key⟩ := Server.test_ok key
  simp only [Bool.and_eq_true, decide_eq_true_eq] at key
  obtain ⟨hq, hf, hreg, hses, key⟩ := key
  obtain ⟨⟨s1, wd1, o, e⟩, h2, key⟩ := Server.test_ok key
  simp only [Bool.and_eq_true, decide_eq_true_eq] at key
  obtain ⟨hc, hto⟩ := key
  intro h
  have := (h false true [1] _ s s1 wd wd1 tr exRead (Client.exEnv []) exOpens exOpens _ [⟨[23 :: [0x64, 0x45, 1, 2, 9, 9, 9, 9, 0xff, 0x68, 0x69]], false⟩]
    Client.exGet exAnswer o e [23 :: [0x64, 0x45, 1, 2, 9, 9, 9, 9, 0xff, 0x68, 0x69]]
    (exWaiting sx h1 (by intro hn; rw [hn] at hses; cases hses) hq hf hreg) h2 (by rw [hto]; unfold Sealed; decide)
    ⟨by decide, by decide, by decide⟩ (by unfold Udp; decide)).1
  rw [hc] at this
  cases this

end FreeCoAP.EndToEnd.Dtls
