import Verif.Server.ModelDtls
import Verif.Server.Spec

/-!
# Specification of the server over DTLS
-/

namespace FreeCoAP.Server.Dtls

open FreeCoAP.Msg

/-! ## The records of a session are the datagrams of the server -/

/-- Calls of the TLS library may return the record `d` of the client `a`. -/
def Calls.Delivers (c : Calls) (a : Addr) (d : Bytes) : Prop := ∃ w, (c.recv.call a w).1 = .data d

/-- The event `y` of a server without DTLS in place of the event `x`. The environments differ only in the failures of the system calls on the
socket. The datagram is a record that the session of its sender has delivered, or it is not received at all. -/
inductive Stands : Input → Env × Server.Event → Prop where
  | message (x : Input) (a : Addr) (d : Bytes) (h : x.ev = .turn) (hd : x.calls.Delivers a d) :
      Stands x ({ x.env with acceptErr := none, recvErr := none }, .datagram a d)
  | none (x : Input) (a : Addr) (e1 e2 e3 : Option Err) (h : x.ev = .turn) (he : e1 ≠ none ∨ e2 ≠ none ∨ e3 ≠ none) :
      Stands x ({ x.env with acceptErr := e1, createErr := e2, recvErr := e3 }, .datagram a [])
  | timer (x : Input) (i : Nat) (h : x.ev = .timer i) : Stands x (x.env, .timer i)
  | appId (x : Input) (h : x.ev = .appId) : Stands x (x.env, .appId)

/-- One event of the one history for each of the other. -/
inductive Stand : List Input → List (Env × Server.Event) → Prop where
  | nil : Stand [] []
  | cons {x y xs ys} (h : Stands x y) (hs : Stand xs ys) : Stand (x :: xs) (y :: ys)

/-! ## What becomes of the datagrams -/

/-- The datagrams given to sessions. -/
def pulls (tr : List Ev) : List (Addr × Bytes) :=
  tr.filterMap (fun | .pulled a b => some (a, b) | _ => none)

/-- Each datagram was given to the session of its sender, whole or cut, in this order. -/
inductive Handed : List Dgram → List (Addr × Bytes) → Prop where
  | nil : Handed [] []
  | cons {d : Dgram} {b : Bytes} {q l} (h : b <+: d.data) (hs : Handed q l) : Handed (d :: q) ((d.src, b) :: l)

/-- From `w` to `w'`: of the datagrams that were in the queue and those that have arrived, some have been given to the sessions of their senders,
each once and in order, and all others are still in the queue. Everything a session has sent went to its client. -/
def Orderly (w w' : World) : Prop :=
  ∃ (used : List Moment) (gone : List Dgram) (tr : List Ev),
    w.future = used ++ w'.future ∧ w.queue ++ used.flatMap Moment.arrive = gone ++ w'.queue ∧ w'.trace = w.trace ++ tr ∧
    Handed gone (pulls tr) ∧ ∀ a b d, Ev.pushed a b d ∈ tr → b = a

/-! ## Who is served -/

/-- The client has completed a handshake, and its certificate was accepted if the server asks for one. -/
def Input.Completes (auth : Bool) (x : Input) (a : Addr) : Prop :=
  x.ev = .turn ∧ (∃ n w, ((x.calls.handshake n).call a w).1 = .success) ∧ (auth = true → x.calls.verified = true)

/-- The address is that of the datagram at the head of the queue when the server looks at it. -/
def World.Head (w : World) (a : Addr) : Prop := ∃ d q, w.next.1 = none ∧ w.next.2.queue = d :: q ∧ d.src = a

/-! ## The call-back functions -/

/-- The datagrams of the client that the server can receive. -/
def World.from (w : World) (a : Addr) : List Bytes := (w.queue.filter (fun d => d.src = a)).map Dgram.data

/-- No system call fails in the next `n` of them. -/
def World.NoFail (w : World) (n : Nat) : Prop := ∀ m ∈ w.future.take n, m.fail = none

/-- What the TLS library expects of the function that receives: the next datagram of the client; the error `EAGAIN` only if there is none, and no
other error unless a system call failed. -/
def PullRight (a : Addr) (len : Nat) (w : World) : Prop :=
  w.NoFail 2 →
  match (pull a len w).1 with
  | some b => ∃ d rest, w.next.2.from a = d :: rest ∧ b = d.take len
  | none => (pull a len w).2.errno = some .EAGAIN ∧ w.next.2.from a = []

/-- What the TLS library expects of the function that waits: a positive number if there is a datagram of the client, 0 if there is none, an error only
if a system call failed. -/
def WaitRight (a : Addr) (w : World) : Prop :=
  w.NoFail 2 →
  match (wait a w).1 with
  | some n => if n = 0 then w.next.2.from a = [] else w.next.2.from a ≠ []
  | none => False

/-- What the TLS library expects of the functions when a system call fails with the error `e`: they return an error, `errno` is `e`, and no datagram is lost.
The functions that receive and wait make a second system call if there is a datagram. -/
def ErrorsRight (a : Addr) (w : World) : Prop :=
  ∀ e,
    (w.next.1 = some e →
      (∀ len, (pull a len w).1 = none ∧ (pull a len w).2.errno = some e ∧ (pull a len w).2.queue = w.next.2.queue) ∧
      (∀ b, (push a b w).1 = false ∧ (push a b w).2.errno = some e ∧ (push a b w).2.trace = w.trace) ∧
      (wait a w).1 = none ∧ (wait a w).2.errno = some e ∧ (wait a w).2.queue = w.next.2.queue) ∧
    (w.next.1 = none → w.next.2.queue ≠ [] → w.next.2.next.1 = some e →
      (wait a w).1 = none ∧ (wait a w).2.errno = some e ∧ (wait a w).2.queue = w.next.2.next.2.queue) ∧
    (w.next.1 = none → (∃ d q, w.next.2.queue = d :: q ∧ d.src = a) → w.next.2.next.1 = some e →
      ∀ len, (pull a len w).1 = none ∧ (pull a len w).2.errno = some e ∧ (pull a len w).2.queue = w.next.2.next.2.queue)

end FreeCoAP.Server.Dtls
