import Verif.Server.LemmasDup

/-!
# Properties of the server: requests and responses (C19, C20)

`run` is a history of datagrams, timer expiries and requests for message ids. Every
decision of the environment and of the application at an event is in its `Env`, so
"for all histories" includes all failures of system calls, all allocation failures and
everything an application callback can return.
-/

namespace FreeCoAP.Server

open FreeCoAP.Msg

/-! ## A server for the examples -/

/-- The pool used in the examples: eight buffers of 64 bytes. -/
def exPool : Mem.Pool := ⟨1000, 8, 64, 2000, [0]⟩

/-- An environment without failures whose application answers 2.05 with payload "hi". -/
def exEnv : Env where
  now := 10
  acceptErr := none
  createErr := none
  recvErr := none
  rstErr := none
  ackErr := none
  sendErr := none
  timerErr := none
  parseMem := true
  payMem := true
  opMem1 := true
  opMem2 := true
  copyReqMem := true
  copyRespMem := true
  rand := 0
  idRand := 7
  handle := fun _ _ => .reply { create with codeClass := 2, codeDetail := 5, payload := [104, 105] } none
  rx := fun _ body e _ resp => ⟨none, { resp with codeClass := 2, codeDetail := 4 }, body, e⟩

theorem exEnv_noFault : NoFault exEnv := ⟨⟨rfl, rfl, rfl⟩, rfl, rfl, rfl, rfl, rfl, rfl, rfl, rfl, rfl, rfl⟩

theorem exEnv_app : AppOK exEnv := by
  refine ⟨fun t m => ?_, fun id body e req resp h => ?_⟩
  · constructor <;> simp [exEnv, HAct.resp, create, destroyed, Sorted]
  · exact ⟨h.ver, h.type, by simp [exEnv], by simp [exEnv], h.msgId, h.token, h.sorted⟩

/-- Sender 1. -/
def exA : Addr := [1]
/-- A confirmable GET for "a" with id 5 and token AA. -/
def exGet : Bytes := [0x41, 0x01, 0, 5, 0xAA, 0xB1, 97]
/-- A confirmable GET for "b" with id 6 and token AB. -/
def exGetB : Bytes := [0x41, 0x01, 0, 6, 0xAB, 0xB1, 98]
/-- A non-confirmable GET for "a" with id 7. -/
def exNon : Bytes := [0x50, 0x01, 0, 7, 0xB1, 97]
/-- The path with a separate response. -/
def exSep : List Bytes := [[47, 98]]
/-- The server of the examples. -/
def exInit : Srv := init 100 exSep exPool

/-- Test the value of a computation. -/
def test (x : Out α) (f : α → Bool) : Bool :=
  match x with
  | .ok a => f a
  | _ => false

theorem test_ok {x : Out α} {f : α → Bool} (h : test x f = true) : ∃ a, x = .ok a ∧ f a = true := by
  unfold test at h
  split at h
  · exact ⟨_, rfl, h⟩
  · cases h

/-! ## C19 Responses are tied to their request -/

/-- Whatever the history and whatever the application put into its messages, every
datagram sent is an Empty message or the response to a request that came from the
address it is sent to: with the token of the request, and with type and id as `Answers`
says. The id of a response that is not piggybacked is the one generated for it. -/
theorem C19_response (sx : Bool) (id : Nat) (sepList : List Bytes) (pool : Mem.Pool) (evs : List (Env × Event))
    (s s' : Srv) (tr : List (List Obs)) (env : Env) (ev : Event) (o : List Obs) (e : Option Err) (a : Addr) (b : Bytes)
    (h : run sx (init id sepList pool) evs = .ok (s, tr)) (hs : step sx s env ev = .ok (s', o, e))
    (hb : (a, b) ∈ sends o) :
    Empty b ∨ AnswerTo sx (init id sepList pool) (evs ++ [(env, ev)]) a b := by
  obtain ⟨h1, h2, h3⟩ := stored_run h
  exact sent_cases h h2 h1 h3 (step_rel hs) hb

/-- Three requests: the piggybacked response is the acknowledgement of id 5 with token
AA, the separate one confirmable with the generated id 101 after an Empty
acknowledgement, the third non-confirmable with id 102. -/
example : test (run false exInit [(exEnv, .datagram exA exGet), (exEnv, .datagram exA exGetB), (exEnv, .datagram exA exNon)])
    (fun r => r.2.map sends == [
      [(exA, [0x61, 0x45, 0, 5, 0xAA, 0xFF, 104, 105])],
      [(exA, emptyAck 6), (exA, [0x41, 0x45, 0, 101, 0xAB, 0xFF, 104, 105])],
      [(exA, [0x50, 0x45, 0, 102, 0xFF, 104, 105])]]) = true := by decide +kernel

/-! ## C20 A retransmitted request is not executed twice -/

/-- The full property: after the request `m1` was answered with `r`, and no other
request came from the same sender, a message with the same id is not passed to the
application. -/
def C20_statement (sx : Bool) : Prop :=
  ∀ (evs1 evs2 : List (Env × Event)) (s0 s1 s2 s3 : Srv) (tr1 tr2 : List (List Obs)) (env1 env3 : Env) (a : Addr)
    (d1 d3 : Bytes) (m1 m3 : Msg) (o1 o3 : List Obs) (e3 : Option Err) (r : Bytes),
    Reach sx evs1 s0 tr1 → AppOK env1 →
    step sx s0 env1 (.datagram a d1) = .ok (s1, o1, none) → Carries sx d1 m1 → Asks m1 → (a, r) ∈ sends o1 → ¬ Empty r →
    run sx s1 evs2 = .ok (s2, tr2) → (∀ x ∈ evs2, ∀ m, arrived sx a x = some m → Asks m → m.msgId = m1.msgId) →
    step sx s2 env3 (.datagram a d3) = .ok (s3, o3, e3) → Carries sx d3 m3 → Asks m3 → m3.msgId = m1.msgId →
    calls o3 = []

/-- It is violated: a malformed datagram between the two makes the server forget the
sender, and the request is executed twice. -/
theorem C20_violated (sx : Bool) : ¬ C20_statement sx := by
  intro h
  have key : test (step sx exInit exEnv (.datagram exA exGet)) (fun x1 =>
      decide (x1.2.2 = none) && decide ((exA, [0x61, 0x45, 0, 5, 0xAA, 0xFF, 104, 105]) ∈ sends x1.2.1) &&
      test (run sx x1.1 [(exEnv, .datagram exA [0x40])]) (fun x2 =>
        test (step sx x2.1 exEnv (.datagram exA exGet)) (fun x3 => decide (calls x3.2.1 ≠ [])))) = true := by
    cases sx <;> decide +kernel
  have hc : test (parse sx (recvBuf exGet) (min exGet.length BUF_LEN)) (fun m => decide (Asks m)) = true := by
    cases sx <;> decide +kernel
  obtain ⟨m, hm, ha⟩ := test_ok hc
  obtain ⟨⟨s1, o1, e1⟩, h1, key⟩ := test_ok key
  simp only [Bool.and_eq_true, decide_eq_true_eq] at key ha
  obtain ⟨⟨he, hr⟩, key⟩ := key
  obtain ⟨⟨s2, tr2⟩, h2, key⟩ := test_ok key
  obtain ⟨⟨s3, o3, e3⟩, h3, key⟩ := test_ok key
  simp only [decide_eq_true_eq] at key
  subst he
  refine key (h [] _ _ s1 s2 s3 [] tr2 exEnv exEnv exA exGet exGet m m o1 o3 e3 _ ⟨100, exSep, exPool, rfl⟩ exEnv_app h1 hm ha
    hr ?_ h2 ?_ h3 hm ha rfl)
  · rintro (⟨i, -, hi⟩ | ⟨i, -, hi⟩ | hi) <;> cases hi
  · intro x hx m' hm'
    have : x = (exEnv, Event.datagram exA [0x40]) := by simpa using hx
    subst this
    have : arrived sx exA (exEnv, Event.datagram exA [0x40]) = none := by cases sx <;> decide +kernel
    rw [this] at hm'
    cases hm'

/-- The proved part: as long as the server remembers the sender (`Kept`; it forgets a
sender when it is evicted, when the retransmissions of a response are exhausted, and
when a datagram from it is malformed or something fails), a message with the same id is
not passed to the application and no body is. What is sent is nothing if the message is
non-confirmable, the Empty acknowledgement if its response is a separate one, and
otherwise the stored response byte for byte; and this is sent unless something fails. -/
theorem C20_no_double_execution_partial (sx : Bool) (evs1 evs2 : List (Env × Event)) (s0 s1 s2 s3 : Srv)
    (tr1 tr2 : List (List Obs)) (env1 env3 : Env) (a : Addr) (d1 d3 : Bytes) (m1 m3 : Msg) (o1 o3 : List Obs)
    (e3 : Option Err) (r : Bytes)
    (h0 : Reach sx evs1 s0 tr1) (ha : AppOK env1)
    (h1 : step sx s0 env1 (.datagram a d1) = .ok (s1, o1, none)) (hm1 : Carries sx d1 m1)
    (hr : (a, r) ∈ sends o1) (hne : ¬ Empty r)
    (h2 : run sx s1 evs2 = .ok (s2, tr2)) (hk : Kept sx a s1 evs2)
    (ho : ∀ x ∈ evs2, ∀ m, arrived sx a x = some m → Asks m → m.msgId = m1.msgId)
    (h3 : step sx s2 env3 (.datagram a d3) = .ok (s3, o3, e3)) (hm3 : Carries sx d3 m3)
    (hty : m3.type = CON ∨ m3.type = NON) (hid : m3.msgId = m1.msgId) :
    calls o3 = [] ∧ bodies o3 = [] ∧ (sends o3 = again s2.sepList a m3 r ∨ sends o3 = []) ∧
    (NoFault env3 → sends o3 = again s2.sepList a m3 r) := by
  have ht1 := (step_rel h1).tidy h0.tidy
  obtain ⟨hh, ht2⟩ := (holds_first h0.tidy (step_rel h1) hm1 ha hr hne).run ht1 h2 hk ho
  rw [← hid] at hh
  obtain ⟨c1, c2, -, c3⟩ := hh.dup ht2 (step_rel h3) hm3 hty
  refine ⟨c1, c2, c3.imp And.left And.left, fun hn => ?_⟩
  rcases c3 with ⟨c3, -⟩ | ⟨-, c3⟩
  · exact c3
  · exact absurd ⟨hn.arrives, hn.send, hn.ack⟩ c3

/-- Without failures: any number of repetitions of an answered request, each is answered
the same way and none is passed to the application. -/
theorem C20_repetitions_partial (sx : Bool) (evs1 evs2 : List (Env × Event)) (s0 s1 s2 : Srv)
    (tr1 tr2 : List (List Obs)) (env1 : Env) (a : Addr) (d1 : Bytes) (m1 : Msg) (o1 : List Obs) (r : Bytes)
    (h0 : Reach sx evs1 s0 tr1) (ha : AppOK env1)
    (h1 : step sx s0 env1 (.datagram a d1) = .ok (s1, o1, none)) (hm1 : Carries sx d1 m1)
    (hty : m1.type = CON ∨ m1.type = NON) (hr : (a, r) ∈ sends o1) (hne : ¬ Empty r)
    (h2 : run sx s1 evs2 = .ok (s2, tr2))
    (hrep : ∀ x ∈ evs2, x.2 = .datagram a d1 ∧ NoFault x.1) :
    ∀ o ∈ tr2, calls o = [] ∧ bodies o = [] ∧ sends o = again s0.sepList a m1 r := by
  have hsl := (step_rel h1).sepList
  have ht1 := (step_rel h1).tidy h0.tidy
  have hh := holds_first h0.tidy (step_rel h1) hm1 ha hr hne
  rw [← hsl]
  clear h1 hsl
  induction evs2 generalizing s1 tr2 with
  | nil => cases h2; simp
  | cons x xs ih =>
    obtain ⟨env, ev⟩ := x
    obtain ⟨hev, hnf⟩ := hrep _ (List.mem_cons_self)
    simp only at hev hnf
    subst hev
    obtain ⟨s', o, e, t', g1, g2, rfl⟩ := run_cons h2
    have hs := step_rel g1
    obtain ⟨c1, c2, -, c3⟩ := hh.dup ht1 hs hm1 hty
    intro o' ho'
    rcases c3 with ⟨c3, c4⟩ | ⟨-, c3⟩
    · rcases List.mem_cons.1 ho' with rfl | ho'
      · exact ⟨c1, c2, c3⟩
      · have := ih s' t' g2 (fun x hx => hrep x (List.mem_cons_of_mem _ hx)) (hs.tidy ht1) (c4 hnf.arrives) o' ho'
        rw [hs.sepList] at this
        exact this
    · exact absurd ⟨hnf.arrives, hnf.send, hnf.ack⟩ c3

/-- `Kept` as a computation. -/
def keptB (sx : Bool) (a : Addr) : Srv → List (Env × Event) → Bool
  | s, [] => (ofAddr s a).isSome
  | s, (env, ev) :: rest => (ofAddr s a).isSome && (match step sx s env ev with | .ok (s1, _, _) => keptB sx a s1 rest | _ => true)

theorem kept_of {sx : Bool} {a : Addr} {s : Srv} {evs : List (Env × Event)} (h : keptB sx a s evs = true) : Kept sx a s evs := by
  induction evs generalizing s with
  | nil => simp only [keptB, Option.isSome_iff_ne_none] at h; exact h
  | cons x xs ih =>
    obtain ⟨env, ev⟩ := x
    simp only [keptB, Bool.and_eq_true, Option.isSome_iff_ne_none] at h
    refine ⟨h.1, fun s1 o e hs => ih ?_⟩
    rw [hs] at h
    exact h.2

/-- The hypotheses of `C20_no_double_execution_partial` hold for the history of the
example below. -/
example : test (step true exInit exEnv (.datagram exA exGet)) (fun x =>
    decide (x.2.2 = none) && decide ((exA, [0x61, 0x45, 0, 5, 0xAA, 0xFF, 104, 105]) ∈ sends x.2.1) &&
    keptB true exA x.1 [(exEnv, .timer 0), (exEnv, .datagram [2] exNon), (exEnv, .datagram exA exGet)]) = true := by
  decide +kernel

/-- A request, a timer event, an event of another sender and two duplicates. -/
example : test (run true exInit [(exEnv, .datagram exA exGet), (exEnv, .timer 0), (exEnv, .datagram [2] exNon),
      (exEnv, .datagram exA exGet), (exEnv, .datagram exA exGet)])
    (fun r => r.2.map sends == [
      [(exA, [0x61, 0x45, 0, 5, 0xAA, 0xFF, 104, 105])], [], [([2], [0x50, 0x45, 0, 101, 0xFF, 104, 105])],
      [(exA, [0x61, 0x45, 0, 5, 0xAA, 0xFF, 104, 105])],
      [(exA, [0x61, 0x45, 0, 5, 0xAA, 0xFF, 104, 105])]] &&
      r.2.map (fun o => (calls o).length) == [1, 0, 1, 0, 0]) = true := by decide +kernel

end FreeCoAP.Server
