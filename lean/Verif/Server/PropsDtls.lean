import Verif.Server.LemmasDtls
import Verif.Server.LemmasResp
import Verif.Server.Props

/-!
# Properties of the server over DTLS
-/

namespace FreeCoAP.Server.Dtls

open FreeCoAP.Msg

/-! ## An example: a library with a handshake of two datagrams and no encryption -/

/-- The first attempt reads the first datagram of the client, answers and reads the second one, the other attempts read the second one. -/
def exShake (r : Shake) : Nat → Lib Shake
  | 0 => .pull 1152 (fun
      | none => .done .again id
      | some _ => .push [2] (fun _ => .pull 1152 (fun | none => .done .again id | some _ => .done r id)))
  | _ + 1 => .pull 1152 (fun | none => .done .again id | some _ => .done r id)

/-- The record is the datagram. -/
def exCalls : Calls where
  create := true
  handshake := exShake .success
  verified := true
  recv := .pull 1152 (fun | none => .done .again id | some b => .done (.data b) id)
  bye := .push [21] (fun _ => .done () id)

/-- One turn of the loop of the server. -/
def exTurn : Input := ⟨exEnv, exCalls, .turn⟩

/-- Sender 2. -/
def exB : Addr := [2]

/-- A client makes a handshake and sends a request. -/
def exWorld : World := ⟨[⟨exA, [1]⟩, ⟨exA, [3]⟩, ⟨exA, exGet⟩], [], none, []⟩

/-! ## C98 Over DTLS the server does with the records of its sessions what it does with datagrams without DTLS -/

/-- Every history of a server over DTLS is the history of a server without DTLS: the same application calls, messages, timers and states. Each event of
that history stands for one event of the server over DTLS: its datagrams are the records that the TLS library delivers for the session of their
sender. What holds of every history of the server (C19–C30, C52–C54, C72) therefore holds over DTLS. -/
theorem C98_same_server (sx auth : Bool) (id : Nat) (sepList : List Bytes) (pool : Mem.Pool) (w w' : World) (xs : List Input) (s : Srv)
    (tr : List (List Obs)) (h : run sx auth xs (init id sepList pool) w = .ok (s, w', tr)) :
    ∃ ys, Stand xs ys ∧ Server.run sx (init id sepList pool) ys = .ok (s, tr) :=
  run_plain (init_tidy _ _ _) h

/-- The same for undefined behaviour. -/
theorem C98_same_ub (sx auth : Bool) (id : Nat) (sepList : List Bytes) (pool : Mem.Pool) (w : World) (xs : List Input)
    (h : run sx auth xs (init id sepList pool) w = .ub) :
    ∃ us xs' ys, xs = us ++ xs' ∧ Stand us ys ∧ Server.run sx (init id sepList pool) ys = .ub :=
  run_plain_ub (init_tidy _ _ _) h

/-- A handshake and a request: the application is called and the client gets the response. -/
example : test (run false true [exTurn, exTurn] exInit exWorld)
    (fun r => r.2.2.map sends == [[], [(exA, [0x61, 0x45, 0, 5, 0xAA, 0xFF, 104, 105])]] && r.2.1.queue.isEmpty) = true := by decide +kernel

/-! ## C99 A datagram reaches the session of its sender and no other, and none is lost -/

/-- Whatever the TLS library does. -/
theorem C99_datagrams (sx auth : Bool) (s s' : Srv) (w w' : World) (xs : List Input) (tr : List (List Obs))
    (h : run sx auth xs s w = .ok (s', w', tr)) : Orderly w w' :=
  run_orderly h

/-- In the example the three datagrams have been read by the session of the client, and its answer was sent to it. -/
example : test (run false true [exTurn, exTurn] exInit exWorld)
    (fun r => r.2.1.trace == [.pulled exA [1], .pushed exA exA [2], .pulled exA [3], .pulled exA exGet]) = true := by decide +kernel

/-! ## C100 Only clients that have completed a handshake are served -/

/-- When the server has no session with a client, it will do something for that client (call the application, send a message, start a timer) only after
a handshake with this client has succeeded and, if the server authenticates clients, its certificate was accepted. -/
theorem C100_served (sx auth : Bool) (id : Nat) (sepList : List Bytes) (pool : Mem.Pool) (w w1 w2 : World) (xs ys : List Input) (s1 s2 : Srv)
    (tr1 tr2 : List (List Obs)) (a : Addr) (h1 : run sx auth xs (init id sepList pool) w = .ok (s1, w1, tr1)) (hn : ofAddr s1 a = none)
    (h2 : run sx auth ys s1 w1 = .ok (s2, w2, tr2)) (k : Nat) (o : List Obs) (ho : tr2[k]? = some o) (y : Obs) (hy : y ∈ o) (ha : y.addr = a) :
    ∃ j x, j < k ∧ ys[j]? = some x ∧ x.Completes auth a :=
  run_served (run_tidy (init_tidy _ _ _) h1) hn h2 k o ho y hy ha

/-- Without a certificate that is accepted the request of the example is not answered. -/
example : test (run false true [{ exTurn with calls := { exCalls with verified := false } }, exTurn] exInit exWorld)
    (fun r => r.2.2 == [[], []]) = true := by decide +kernel

/-! ## C101 A datagram does not end the sessions of other clients -/

/-- The full property: when the server looks at a datagram of `b`, it leaves the session of `a` as it is. -/
def C101_statement : Prop :=
  ∀ (sx auth : Bool) (id : Nat) (sepList : List Bytes) (pool : Mem.Pool) (w w1 w2 : World) (xs : List Input) (s1 s2 : Srv)
    (tr : List (List Obs)) (x : Input) (o : List Obs) (e : Option Err) (a b : Addr),
    run sx auth xs (init id sepList pool) w = .ok (s1, w1, tr) → x.ev = .turn → w1.Head b → b ≠ a →
    step sx auth x s1 w1 = .ok (s2, w2, o, e) → ofAddr s2 a = ofAddr s1 a

/-- It holds if `b` has a session or there is room for another one. -/
theorem C101_others_partial (sx auth : Bool) (id : Nat) (sepList : List Bytes) (pool : Mem.Pool) (w w1 w2 : World) (xs : List Input) (s1 s2 : Srv)
    (tr : List (List Obs)) (x : Input) (o : List Obs) (e : Option Err) (a b : Addr)
    (h1 : run sx auth xs (init id sepList pool) w = .ok (s1, w1, tr)) (hev : x.ev = .turn) (hb : w1.Head b) (hab : b ≠ a)
    (hroom : ofAddr s1 b ≠ none ∨ ∃ t ∈ s1.trans, t.active = false) (h2 : step sx auth x s1 w1 = .ok (s2, w2, o, e)) :
    ofAddr s2 a = ofAddr s1 a ∧ ∀ y ∈ o, y.addr ≠ a :=
  step_others (run_tidy (init_tidy _ _ _) h1) hev hb hab hroom h2

/-- The example with a datagram of a second client after the handshake of the first one: the hypotheses hold and the second client gets no session. -/
example : test (run false true [exTurn] exInit ⟨[⟨exA, [1]⟩, ⟨exA, [3]⟩, ⟨exB, [9]⟩], [], none, []⟩)
    (fun r => (ofAddr r.1 exA).isSome && r.2.1.queue == [⟨exB, [9]⟩] && r.1.trans.any (fun t => !t.active)) = true := by decide +kernel

/-- Nine clients: eight have a session, the ninth has sent one datagram that is no handshake. -/
def exNine : World := ⟨(List.range 9).flatMap (fun n => [⟨[UInt8.ofNat n], [1]⟩, ⟨[UInt8.ofNat n], [3]⟩]), [], none, []⟩

/-- A library that does not accept the handshake. -/
def exRefuse : Input := { exTurn with calls := { exCalls with handshake := exShake .other } }

theorem exNine_check : test (run false true (List.replicate 8 exTurn) exInit exNine)
    (fun r => (ofAddr r.1 [0]).isSome && (r.2.1.queue.map Dgram.src == [[8], [8]]) && r.2.1.future == [] &&
      test (step false true exRefuse r.1 r.2.1) (fun q => (ofAddr q.1 [0]).isNone && (ofAddr q.1 [8]).isNone)) = true := by
  decide +kernel

/-- One client after another has completed a handshake. Then a datagram of a ninth sender ends the session of the first client before the handshake
with the ninth one, which fails. No authentication is needed for that. -/
theorem C101_violated : ¬ C101_statement := by
  intro h
  obtain ⟨⟨s1, w1, tr⟩, h1, hc⟩ := test_ok exNine_check
  simp only [Bool.and_eq_true] at hc
  obtain ⟨⟨⟨hs, hq⟩, hf⟩, ht⟩ := hc
  obtain ⟨⟨s2, w2, o, e⟩, h2, hc⟩ := test_ok ht
  simp only [Bool.and_eq_true, Option.isNone_iff_eq_none] at hc
  have hf : w1.future = [] := by simpa using hf
  have hq : w1.queue.map Dgram.src = [[8], [8]] := by simpa using hq
  have hhead : w1.Head [8] := by
    have hn : w1.next = (none, w1) := by unfold World.next; rw [hf]
    cases hw : w1.queue with
    | nil => rw [hw] at hq; cases hq
    | cons d q =>
      rw [hw] at hq
      simp only [List.map_cons] at hq
      injection hq with h1 h2
      exact ⟨d, q, by rw [hn], by rw [hn]; exact hw, h1⟩
  have key := h false true 100 exSep exPool exNine w1 w2 _ s1 s2 tr exRefuse o e [0] [8] h1 rfl hhead (by decide) h2
  rw [hc.1] at key
  rw [← key] at hs
  cases hs

/-! ## C102 A session of the server works as if its client had the socket for itself -/

/-- The full property: the functions by which the TLS library receives do what it expects of them. -/
def C102_statement : Prop := ∀ (a : Addr) (w : World), (∀ len, PullRight a len w) ∧ WaitRight a w

theorem next_noFail {w : World} {n : Nat} (h : w.NoFail (n + 1)) : w.next.1 = none ∧ w.next.2.NoFail n := by
  unfold World.next
  unfold World.NoFail at *
  split
  · rename_i hf; rw [hf]; simp
  · rename_i m rest hf
    rw [hf] at h
    simp only [List.take_succ_cons, List.mem_cons, forall_eq_or_imp] at h
    exact ⟨h.1, h.2⟩

theorem next_cons {w : World} {d : Dgram} {q : List Dgram} (h : w.queue = d :: q) : ∃ q', w.next.2.queue = d :: q' := by
  obtain ⟨l, hl⟩ := next_queue w
  exact ⟨q ++ l, by rw [hl, h]; rfl⟩

/-- It holds when no other sender's datagram and no empty datagram has arrived. -/
theorem C102_callbacks_partial (a : Addr) (w : World) (ha : ∀ d ∈ w.next.2.queue, d.src = a) (hne : ∀ d ∈ w.next.2.queue, d.data ≠ []) :
    (∀ len, PullRight a len w) ∧ WaitRight a w := by
  have hfrom : w.next.2.from a = w.next.2.queue.map Dgram.data := by
    unfold World.from
    rw [List.filter_eq_self.2 (by simpa using ha)]
  constructor
  · intro len hF
    obtain ⟨hn1, hF1⟩ := next_noFail hF
    obtain ⟨hn2, -⟩ := next_noFail hF1
    rw [hfrom]
    have hw : w.next = (none, w.next.2) := by rw [← hn1]
    have hw2 : w.next.2.next = (none, w.next.2.next.2) := by rw [← hn2]
    generalize w.next.2 = w1 at *
    cases hq : w1.queue with
    | nil =>
      have hp : peek len w = (none, w1.fail .EAGAIN) := by unfold peek; rw [hw]; dsimp only; rw [hq]
      have : pull a len w = (none, w1.fail .EAGAIN) := by unfold pull; rw [hp]
      rw [this]
      exact ⟨rfl, rfl⟩
    | cons d q =>
      have hsrc : d.src = a := ha d (by rw [hq]; simp)
      have hp : peek len w = (some (d.data.take len, d.src), w1) := by unfold peek; rw [hw]; dsimp only; rw [hq]
      obtain ⟨q', hq'⟩ := next_cons hq
      have ht : (take (d.data.take len).length w1).1 = some (d.data.take len) := by
        unfold take
        rw [hw2]
        dsimp only
        rw [hq']
        simp only [Option.some.injEq]
        rw [List.length_take, List.take_eq_take_iff]
        omega
      have : (pull a len w).1 = some (d.data.take len) := by
        unfold pull
        rw [hp]
        dsimp only
        rw [if_neg (by simp [hsrc])]
        split
        · rename_i w2 h2; rw [h2] at ht; cases ht
        · rename_i b w2 h2; rw [h2] at ht; exact ht
      rw [this]
      exact ⟨d.data, q.map Dgram.data, rfl, rfl⟩
  · intro hF
    obtain ⟨hn1, hF1⟩ := next_noFail hF
    obtain ⟨hn2, -⟩ := next_noFail hF1
    rw [hfrom]
    have hw : w.next = (none, w.next.2) := by rw [← hn1]
    have hw2 : w.next.2.next = (none, w.next.2.next.2) := by rw [← hn2]
    generalize w.next.2 = w1 at *
    cases hq : w1.queue with
    | nil =>
      have hl : listenTimeout w = (.ok false, w1) := by unfold listenTimeout; rw [hw]; dsimp only; rw [hq]; rfl
      have : wait a w = (some 0, w1) := by unfold wait; rw [hl]
      rw [this]
      rfl
    | cons d q =>
      have hsrc : d.src = a := ha d (by rw [hq]; simp)
      have hdne : d.data ≠ [] := hne d (by rw [hq]; simp)
      have hl : listenTimeout w = (.ok true, w1) := by unfold listenTimeout; rw [hw]; dsimp only; rw [hq]; rfl
      obtain ⟨q', hq'⟩ := next_cons hq
      have hp : peek BUF_LEN w1 = (some (d.data.take BUF_LEN, d.src), w1.next.2) := by unfold peek; rw [hw2]; dsimp only; rw [hq']
      have : (wait a w).1 = some (d.data.take BUF_LEN).length := by
        unfold wait
        rw [hl]
        dsimp only
        rw [hp]
        dsimp only
        rw [if_neg (by simp [hsrc])]
      rw [this]
      have hpos : 0 < d.data.length := List.length_pos_iff.2 hdne
      dsimp only
      rw [if_neg (by rw [List.length_take]; simp only [BUF_LEN]; omega)]
      simp

/-- The hypotheses hold at the beginning of the example. -/
example : (∀ d ∈ exWorld.next.2.queue, d.src = exA) ∧ (∀ d ∈ exWorld.next.2.queue, d.data ≠ []) := by decide +kernel

/-- A datagram of another client makes the function that receives fail, and that is no temporary failure. -/
theorem C102_violated : ¬ C102_statement := by
  intro h
  have h1 := (h exA ⟨[⟨exB, [1]⟩], [], none, []⟩).1 1152 (by intro m hm; simp at hm)
  have hp : pull exA 1152 ⟨[⟨exB, [1]⟩], [], none, []⟩ = (none, ⟨[⟨exB, [1]⟩], [], some .EINVAL, []⟩) := by decide +kernel
  rw [hp] at h1
  exact absurd h1.1 (by decide)

/-- An empty datagram of the client itself makes the function that waits report a timeout. -/
theorem C102_violated_empty : ¬ WaitRight exA ⟨[⟨exA, []⟩], [], none, []⟩ := by
  intro h
  have h1 := h (by intro m hm; simp at hm)
  have hp : wait exA ⟨[⟨exA, []⟩], [], none, []⟩ = (some 0, ⟨[⟨exA, []⟩], [], none, []⟩) := by decide +kernel
  rw [hp] at h1
  have h2 : World.from ⟨[⟨exA, []⟩], [], none, []⟩ exA = [] := h1
  exact absurd h2 (by decide +kernel)

/-- The functions report the failures of system calls, in every state. -/
theorem C102_errors (a : Addr) (w : World) : ErrorsRight a w := by
  intro e
  refine ⟨?_, ?_, ?_⟩
  · intro h
    have ht : w.next.2.trace = w.trace := by
      unfold World.next
      split <;> rfl
    unfold pull push wait listenTimeout peek
    generalize w.next = x at h ht
    obtain ⟨r, w1⟩ := x
    cases h
    exact ⟨fun _ => ⟨rfl, rfl, rfl⟩, fun _ => ⟨rfl, rfl, ht⟩, rfl, rfl, rfl⟩
  · intro h hq h2
    unfold wait listenTimeout
    generalize w.next = x at h hq h2
    obtain ⟨r, w1⟩ := x
    cases h
    dsimp only at hq h2 ⊢
    cases hw : w1.queue with
    | nil => exact absurd hw hq
    | cons d q =>
      have hp : peek BUF_LEN w1 = (none, w1.next.2.fail e) := by
        unfold peek
        generalize w1.next = y at h2
        obtain ⟨r2, w2⟩ := y
        cases h2
        rfl
      rw [show (!(d :: q).isEmpty) = true from rfl]
      dsimp only
      rw [hp]
      exact ⟨rfl, rfl, rfl⟩
  · intro h hq h2 len
    obtain ⟨d, q, hq, hd⟩ := hq
    have hp : peek len w = (some (d.data.take len, d.src), w.next.2) := by
      unfold peek
      generalize w.next = x at h hq
      obtain ⟨r, w1⟩ := x
      cases h
      dsimp only at hq ⊢
      rw [hq]
    have ht : take (d.data.take len).length w.next.2 = (none, w.next.2.next.2.fail e) := by
      unfold take
      generalize w.next.2.next = y at h2
      obtain ⟨r2, w2⟩ := y
      cases h2
      rfl
    unfold pull
    rw [hp]
    dsimp only
    rw [if_neg (by simp [hd]), ht]
    exact ⟨rfl, rfl, rfl⟩

example : (wait exA ⟨[], [⟨[⟨exA, [1]⟩], none⟩, ⟨[], some .EIO⟩], none, []⟩).1 = none ∧
    (wait exA ⟨[], [⟨[⟨exA, [1]⟩], none⟩, ⟨[], some .EIO⟩], none, []⟩).2.errno = some .EIO ∧
    (pull exA 9 ⟨[⟨exA, [1]⟩], [⟨[], none⟩, ⟨[], some .EIO⟩], none, []⟩).2.queue = [⟨exA, [1]⟩] := by decide +kernel

/-! ### An empty datagram stops the server -/

/-- The library waits for a datagram before it reads one, and gives up or asks to be called again when none came in time. -/
def Waits (hs : Nat → Lib Shake) : Prop := ∀ i, ∃ k r f, hs i = .wait k ∧ k (some 0) = .done r f ∧ r ≠ .success

/-- An empty datagram of `a` is the first in the queue, and no system call will fail. -/
def Blocked (a : Addr) (w : World) : Prop := (∃ q, w.queue = ⟨a, []⟩ :: q) ∧ ∀ m ∈ w.future, m.fail = none

theorem Blocked.errno {a : Addr} {w : World} (h : Blocked a w) (e : Option Err) : Blocked a { w with errno := e } := h

theorem Blocked.next {a : Addr} {w : World} (h : Blocked a w) : w.next = (none, w.next.2) ∧ Blocked a w.next.2 := by
  obtain ⟨⟨q, hq⟩, hf⟩ := h
  unfold World.next
  split
  · exact ⟨rfl, ⟨q, hq⟩, hf⟩
  · rename_i m rest hr
    rw [hr] at hf
    refine ⟨by rw [hf m (by simp)], ⟨q ++ m.arrive, by simp [hq]⟩, fun m' hm' => hf m' (by simp [hm'])⟩

theorem Blocked.peek {a : Addr} {w : World} (h : Blocked a w) (len : Nat) : ∃ w1, peek len w = (some ([], a), w1) ∧ Blocked a w1 := by
  obtain ⟨h1, h2⟩ := h.next
  obtain ⟨q, hq⟩ := h2.1
  refine ⟨w.next.2, ?_, h2⟩
  unfold Dtls.peek
  rw [h1]
  dsimp only
  rw [hq]
  simp

theorem Blocked.listen {a : Addr} {w : World} (h : Blocked a w) : ∃ w1, listenTimeout w = (.ok true, w1) ∧ Blocked a w1 := by
  obtain ⟨h1, h2⟩ := h.next
  obtain ⟨q, hq⟩ := h2.1
  refine ⟨w.next.2, ?_, h2⟩
  unfold listenTimeout
  rw [h1]
  dsimp only
  rw [hq]
  rfl

theorem Blocked.wait {a : Addr} {w : World} (h : Blocked a w) : ∃ w1, wait a w = (some 0, w1) ∧ Blocked a w1 := by
  obtain ⟨w1, h1, h2⟩ := h.listen
  obtain ⟨w2, h3, h4⟩ := h2.peek BUF_LEN
  refine ⟨w2, ?_, h4⟩
  unfold Dtls.wait
  rw [h1]
  dsimp only
  rw [h3]
  dsimp only
  rw [if_neg (by simp)]
  rfl

/-- Another session cannot take the datagram. -/
theorem Blocked.call {a b : Addr} (hab : a ≠ b) (p : Lib α) {w : World} (h : Blocked a w) : Blocked a (p.call b w).2 := by
  induction p generalizing w with
  | done r f => exact h
  | pull len k ih =>
    obtain ⟨w1, h1, h2⟩ := h.peek len
    refine ih _ ?_
    unfold Dtls.pull
    rw [h1]
    dsimp only
    rw [if_pos hab]
    exact h2
  | wait k ih =>
    refine ih _ ?_
    obtain ⟨w1, h1, h2⟩ := h.listen
    obtain ⟨w2, h3, h4⟩ := h2.peek BUF_LEN
    unfold Dtls.wait
    rw [h1]
    dsimp only
    rw [h3]
    dsimp only
    rw [if_pos hab]
    exact h4
  | push c k ih =>
    obtain ⟨h1, h2⟩ := h.next
    refine ih _ ?_
    unfold Dtls.push
    rw [h1]
    exact h2

theorem Blocked.shakeLoop {a : Addr} {hs : Nat → Lib Shake} (hw : Waits hs) (n : Nat) {w : World} (h : Blocked a w) :
    ∃ e w1, shakeLoop a hs n w = (some e, w1) ∧ Blocked a w1 := by
  induction n generalizing w with
  | zero => exact ⟨_, w, rfl, h⟩
  | succ n ih =>
    obtain ⟨k, r, f, h1, h2, h3⟩ := hw (ATTEMPTS - (n + 1))
    obtain ⟨w1, h4, h5⟩ := (h.errno none).wait
    have hc : (hs (ATTEMPTS - (n + 1))).call a { w with errno := none } = (r, { w1 with errno := f w1.errno }) := by
      rw [h1]
      show Lib.call a (k (Dtls.wait a { w with errno := none }).1) (Dtls.wait a { w with errno := none }).2 = _
      rw [h4]
      dsimp only
      rw [h2]
      rfl
    have hb := h5.errno (f w1.errno)
    generalize { w1 with errno := f w1.errno } = w2 at hc hb
    have hafter : ∃ e w3, shakeAfter r n w2 (Dtls.shakeLoop a hs n) = (some e, w3) ∧ Blocked a w3 := by
      cases r with
      | success => exact absurd rfl h3
      | timedOut => exact ⟨_, w2, rfl, hb⟩
      | alert => exact ⟨_, w2, rfl, hb⟩
      | other => exact ⟨_, w2, rfl, hb⟩
      | again =>
        unfold shakeAfter
        dsimp only
        split
        · exact ih hb
        · obtain ⟨w3, h6, h7⟩ := hb.listen
          rw [h6]
          exact ih h7
    unfold Dtls.shakeLoop
    rw [hc]
    dsimp only
    split
    · split
      · exact ⟨_, w2, rfl, hb⟩
      · exact hafter
    · exact hafter

theorem Blocked.step {sx auth : Bool} {x : Input} {s : Srv} {a : Addr} {w : World} (h : Blocked a w) (hT : Tidy s) (hn : ofAddr s a = none)
    (hev : x.ev = .turn) (hw : Waits x.calls.handshake) :
    ∃ s1 w1 e, step sx auth x s w = .ok (s1, w1, [], some e) ∧ Tidy s1 ∧ ofAddr s1 a = none ∧ Blocked a w1 := by
  have hf : findTrans s.trans a = none := look_findTrans.2 hn
  obtain ⟨w1, h1, h2⟩ := h.peek BUF_LEN
  have h0 : Dtls.step sx auth x s w = .ok ((admit auth x.env x.calls a s w1).1, (admit auth x.env x.calls a s w1).2.1, [],
      (admit auth x.env x.calls a s w1).2.2) := by
    unfold Dtls.step
    rw [hev]
    dsimp only
    unfold exchange
    rw [h1]
    dsimp only
    rw [hf]
  have hfar : Blocked a (farewell x.calls s w1) := by
    unfold farewell
    split
    · rename_i t ht
      refine h2.call ?_ _
      unfold evicted at ht
      split at ht
      · cases ht
      · rename_i he
        have hact : t.active = true := by
          unfold findEmpty at he
          rw [List.findIdx?_eq_none_iff] at he
          have := he t (List.mem_iff_getElem?.2 ⟨_, ht⟩)
          simpa using this
        exact fun h => look_none.1 hn _ _ ht hact h.symm
    · exact h2
  have key : ∃ w2 e, admit auth x.env x.calls a s w1 =
      ({ (makeRoom s).2 with trans := (makeRoom s).2.trans.set (makeRoom s).1 Trans.zero }, w2, some e) ∧ Blocked a w2 := by
    unfold admit
    dsimp only
    split
    · exact ⟨_, _, rfl, hfar⟩
    · obtain ⟨e, w2, h3, h4⟩ : ∃ e w2, sessionCreate auth a x.calls (farewell x.calls s w1) = (some e, w2) ∧ Blocked a w2 := by
        unfold sessionCreate
        split
        · exact ⟨_, _, rfl, hfar⟩
        · obtain ⟨e, w2, h3, h4⟩ := hfar.shakeLoop hw ATTEMPTS
          unfold shake
          rw [h3]
          exact ⟨e, w2, rfl, h4⟩
      rw [h3]
      exact ⟨w2, e, rfl, h4⟩
  obtain ⟨w2, e, h3, h4⟩ := key
  rw [h3] at h0
  have hp := plain_refused (sx := sx) (env := { x.env with acceptErr := none, createErr := some e }) (d := []) rfl hf rfl
  exact ⟨_, w2, e, h0, (step_rel hp).tidy hT, (plain_other hT hn hp (fun _ _ => by simp)).1, h4⟩

/-- An empty datagram of a sender without a session is never taken from the queue: every turn of the server fails, nothing is sent and the application
is not called, whatever arrives behind it. This holds for every library that waits before it reads. -/
theorem C102_stuck (sx auth : Bool) (id : Nat) (sepList : List Bytes) (pool : Mem.Pool) (w0 w : World) (xs0 xs : List Input) (s : Srv)
    (tr0 : List (List Obs)) (a : Addr) (h0 : run sx auth xs0 (init id sepList pool) w0 = .ok (s, w, tr0)) (hn : ofAddr s a = none)
    (hb : Blocked a w) (hx : ∀ x ∈ xs, x.ev = .turn ∧ Waits x.calls.handshake) :
    ∃ s' w', run sx auth xs s w = .ok (s', w', List.replicate xs.length []) ∧ ∃ q, w'.queue = ⟨a, []⟩ :: q := by
  have hT := run_tidy (init_tidy _ _ _) h0
  clear h0
  induction xs generalizing s w with
  | nil => exact ⟨s, w, rfl, hb.1⟩
  | cons x xs ih =>
    obtain ⟨hev, hw⟩ := hx x (by simp)
    obtain ⟨s1, w1, e, h1, hT1, hn1, hb1⟩ := hb.step (sx := sx) (auth := auth) hT hn hev hw
    obtain ⟨s', w', h2, h3⟩ := ih w1 s1 hn1 hb1 (fun y hy => hx y (by simp [hy])) hT1
    refine ⟨s', w', ?_, h3⟩
    unfold run
    rw [h1]
    dsimp only
    rw [h2]
    rfl

/-- A library that waits before it reads. -/
def exWait : Nat → Lib Shake := fun _ => .wait (fun
  | some (_ + 1) => .pull 1152 (fun | some _ => .done .success id | none => .done .again id)
  | _ => .done .timedOut id)

/-- The hypotheses of the theorem hold for a new server, an empty datagram and a request behind it. -/
example : run false true [] exInit ⟨[⟨exB, []⟩, ⟨exA, exGet⟩], [], none, []⟩ = .ok (exInit, ⟨[⟨exB, []⟩, ⟨exA, exGet⟩], [], none, []⟩, []) ∧
    ofAddr exInit exB = none ∧ Blocked exB ⟨[⟨exB, []⟩, ⟨exA, exGet⟩], [], none, []⟩ ∧
    (∀ x ∈ List.replicate 1000 (⟨exEnv, { exCalls with handshake := exWait }, .turn⟩ : Input), x.ev = .turn ∧ Waits x.calls.handshake) := by
  refine ⟨rfl, ofAddr_init _ _ _ _, ⟨⟨_, rfl⟩, by simp⟩, ?_⟩
  intro x hx
  rw [(List.mem_replicate.1 hx).2]
  exact ⟨rfl, fun i => ⟨_, _, _, rfl, rfl, by decide⟩⟩

/-- The library of this example does complete handshakes. -/
example : test (run false true [⟨exEnv, { exCalls with handshake := exWait }, .turn⟩] exInit exWorld) (fun r => (ofAddr r.1 exA).isSome) = true := by
  decide +kernel

/-! ### Two clients that begin at the same time -/

/-- The first datagram of the handshake of one client, of the other one, of the first one again, … -/
def alternate (a b : Addr) (x y : Bytes) : Nat → List Dgram
  | 0 => [⟨a, x⟩]
  | n + 1 => ⟨a, x⟩ :: alternate b a y x n

theorem alternate_cons (a b : Addr) (x y : Bytes) (n : Nat) : ∃ q, alternate a b x y n = ⟨a, x⟩ :: q := by
  cases n with
  | zero => exact ⟨_, rfl⟩
  | succ n => exact ⟨_, rfl⟩

theorem alternate_step {sx auth : Bool} {i : Input} {id : Nat} {sepList : List Bytes} {pool : Mem.Pool} {a b : Addr} {x y : Bytes} {q : List Dgram}
    {e : Option Err} {tr : List Ev} (hab : b ≠ a) (hev : i.ev = .turn) (hc : i.calls.create = true) (hh : i.calls.handshake = exShake .success)
    (he : i.env.createErr = none) :
    ∃ w1 e1, step sx auth i (init id sepList pool) ⟨⟨a, x⟩ :: ⟨b, y⟩ :: q, [], e, tr⟩ = .ok (init id sepList pool, w1, [], some e1) ∧
      w1.queue = ⟨b, y⟩ :: q ∧ w1.future = [] := by
  have hf : findTrans (init id sepList pool).trans a = none := look_findTrans.2 (ofAddr_init id sepList pool a)
  have hm : makeRoom (init id sepList pool) = (0, init id sepList pool) := rfl
  have hev' : evicted (init id sepList pool) = none := rfl
  have hset : (init id sepList pool).trans.set 0 Trans.zero = (init id sepList pool).trans := rfl
  have hct : createT i.env a = .ok (fresh i.env a) := by unfold createT; rw [he]; rfl
  have hs : ∃ w1, shake a (exShake .success) ⟨⟨a, x⟩ :: ⟨b, y⟩ :: q, [], e, tr⟩ = (some .EINVAL, w1) ∧ w1.queue = ⟨b, y⟩ :: q ∧ w1.future = [] := by
    have hp1 : pull a 1152 ⟨⟨a, x⟩ :: ⟨b, y⟩ :: q, [], none, tr⟩ =
        (some (x.take (x.take 1152).length), ⟨⟨b, y⟩ :: q, [], none, tr ++ [.pulled a (x.take (x.take 1152).length)]⟩) := by
      simp [pull, peek, take, World.next]
    have hp2 : ∀ tr', pull a 1152 ⟨⟨b, y⟩ :: q, [], none, tr'⟩ = (none, ⟨⟨b, y⟩ :: q, [], some .EINVAL, tr'⟩) := by
      intro tr'
      simp [pull, peek, World.next, World.fail, hab]
    have hcall : ∃ tr', (exShake .success 0).call a ⟨⟨a, x⟩ :: ⟨b, y⟩ :: q, [], none, tr⟩ = (.again, ⟨⟨b, y⟩ :: q, [], some .EINVAL, tr'⟩) := by
      refine ⟨tr ++ [.pulled a (x.take (x.take 1152).length)] ++ [.pushed a a [2]], ?_⟩
      simp only [exShake, Lib.call, hp1, push, World.next, hp2, _root_.id]
    obtain ⟨tr', hcall⟩ := hcall
    refine ⟨⟨⟨b, y⟩ :: q, [], some .EINVAL, tr'⟩, ?_, rfl, rfl⟩
    unfold shake
    show shakeLoop a (exShake .success) (59 + 1) _ = _
    unfold shakeLoop
    dsimp only
    rw [show ATTEMPTS - (59 + 1) = 0 from rfl, hcall]
    rfl
  obtain ⟨w1, hs, hq, hfu⟩ := hs
  refine ⟨w1, .EINVAL, ?_, hq, hfu⟩
  unfold step
  rw [hev]
  dsimp only
  unfold exchange
  have hp : peek BUF_LEN ⟨⟨a, x⟩ :: ⟨b, y⟩ :: q, [], e, tr⟩ = (some (x.take BUF_LEN, a), ⟨⟨a, x⟩ :: ⟨b, y⟩ :: q, [], e, tr⟩) := rfl
  rw [hp]
  dsimp only
  rw [hf]
  dsimp only
  unfold admit farewell
  rw [hm, hev']
  dsimp only
  rw [hct]
  dsimp only
  unfold sessionCreate
  rw [if_neg (by rw [hc]; simp), hh, hs]
  dsimp only
  rw [hset]

/-- Two clients whose datagrams arrive in turn never get a session, however often both begin again: each one's handshake is ended by the datagram of
the other one. -/
theorem C102_livelock (sx auth : Bool) (id : Nat) (sepList : List Bytes) (pool : Mem.Pool) (a b : Addr) (hab : a ≠ b) (x y : Bytes) (n : Nat)
    (e : Option Err) (tr : List Ev) (xs : List Input) (hx : ∀ i ∈ xs, i.ev = .turn ∧ i.calls.create = true ∧
      i.calls.handshake = exShake .success ∧ i.env.createErr = none) (hn : xs.length = n) :
    ∃ w', run sx auth xs (init id sepList pool) ⟨alternate a b x y n, [], e, tr⟩ = .ok (init id sepList pool, w', List.replicate n []) := by
  induction xs generalizing a b x y n e tr with
  | nil => subst hn; exact ⟨_, rfl⟩
  | cons i xs ih =>
    subst hn
    obtain ⟨h1, h2, h3, h4⟩ := hx i (by simp)
    obtain ⟨q, hq⟩ := alternate_cons b a y x xs.length
    obtain ⟨w1, e1, h5, h6, h7⟩ := alternate_step (sx := sx) (auth := auth) (id := id) (sepList := sepList) (pool := pool) (x := x) (y := y) (q := q)
      (e := e) (tr := tr) (Ne.symm hab) h1 h2 h3 h4
    have hw : w1 = ⟨alternate b a y x xs.length, [], w1.errno, w1.trace⟩ := by
      cases w1
      simp only at h6 h7
      simp only [h6, h7, hq]
    obtain ⟨w', h8⟩ := ih b a (Ne.symm hab) y x xs.length w1.errno w1.trace (fun j hj => hx j (by simp [hj])) rfl
    refine ⟨w', ?_⟩
    unfold run
    simp only [List.length_cons, alternate]
    rw [hq, h5]
    dsimp only
    rw [hw, h8]
    rfl

/-- The hypotheses hold for the inputs of the example, and one client alone gets a session. -/
example : ∀ i ∈ List.replicate 100 exTurn, i.ev = .turn ∧ i.calls.create = true ∧ i.calls.handshake = exShake .success ∧ i.env.createErr = none := by
  intro i hi
  rw [(List.mem_replicate.1 hi).2]
  exact ⟨rfl, rfl, rfl, rfl⟩

end FreeCoAP.Server.Dtls
