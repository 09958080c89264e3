import Verif.Client.ModelDtls
import Verif.Client.Spec

/-!
# Specification of the client over DTLS
-/

namespace FreeCoAP.Client.Dtls

open FreeCoAP.Msg

/-! ## The records of the session are the datagrams of the client -/

/-- The call of the TLS library may return the record `d`. -/
def Delivers (p : Lib Rec) (d : Bytes) : Prop := ∃ w, (p.call w).1 = .data d ∧ (p.call w).2.errno = none ∧ d ≠ []

/-- The call may fail in this way: a call-back has failed, the session was ended by the server, there is no record, or there is another error. -/
def Fails (p : Lib Rec) (e : Err) : Prop :=
  ∃ w, (p.call w).2.errno = some e ∨ (e = .ECONNRESET ∧ ((p.call w).1 = .alert ∨ (p.call w).1 = .data [])) ∨ (e = .EAGAIN ∧ (p.call w).1 = .again) ∨
    (e = .EIO ∧ (p.call w).1 = .other)

/-- The input `j` of a client without DTLS in place of the input `i`. -/
inductive Stands : Input → Client.Input → Prop where
  | message (i : Input) (d : Bytes) (h : i.ev = .readable) (hd : Delivers i.recv d) : Stands i ⟨.datagram d, i.sendErr, i.timerErr, i.parseMem⟩
  | none (i : Input) (e : Err) (h : i.ev = .readable) (he : Fails i.recv e) : Stands i ⟨.recvErr e, i.sendErr, i.timerErr, i.parseMem⟩
  | timer (i : Input) (h : i.ev = .timer) : Stands i ⟨.timer, i.sendErr, i.timerErr, i.parseMem⟩
  | selectErr (i : Input) (e : Err) (h : i.ev = .selectErr e) : Stands i ⟨.selectErr e, i.sendErr, i.timerErr, i.parseMem⟩

/-- One input of the one list for each of the other. -/
inductive Stand : List Input → List Client.Input → Prop where
  | nil : Stand [] []
  | cons {i j is js} (h : Stands i j) (hs : Stand is js) : Stand (i :: is) (j :: js)

/-! ## What has arrived -/

/-- All the records that have arrived. -/
def arrived (opens : Bytes → List Bytes) (as : List Act) : List Bytes := (as.flatMap Act.arrive).flatMap opens

/-- The datagrams are not longer than UDP allows. -/
def Udp (as : List Act) : Prop := ∀ a ∈ as, ∀ d ∈ a.arrive, d.length ≤ 65535

/-- What a client without DTLS finds when it gets the records as datagrams at the same times: `queue` are the datagrams that wait. -/
def apart (opens : Bytes → List Bytes) : List Act → List Bytes → List Client.Input
  | [], _ => []
  | a :: as, queue =>
    match queue ++ a.arrive with
    | [] => if a.expired = true then ⟨.timer, none, none, true⟩ :: apart opens as [] else apart opens as []
    | d :: queue =>
      match opens d with
      | [] => ⟨.recvErr .EAGAIN, none, none, true⟩ :: apart opens as queue
      | r :: _ => ⟨.datagram r, none, none, true⟩ :: apart opens as queue

/-! ## The call-back functions -/

/-- No system call fails in the next `n` of them. -/
def World.NoFail (w : World) (n : Nat) : Prop := ∀ m ∈ w.future.take n, m.fail = none

/-- What the TLS library expects of the function that receives: the next datagram, which is removed; the error `EAGAIN` if there is none. -/
def PullRight (len : Nat) (w : World) : Prop :=
  w.NoFail 1 →
  match (pull len w).1 with
  | some b => ∃ d, w.next.2.queue = d :: (pull len w).2.queue ∧ b = d.take len
  | none => (pull len w).2.errno = some .EAGAIN ∧ (pull len w).2.queue = []

/-- What the TLS library expects of the function that waits: a positive number if there is a datagram, 0 if there is none, an error only if a system call
failed. -/
def WaitRight (w : World) : Prop :=
  w.NoFail 2 →
  match (wait w).1 with
  | some n => if n = 0 then (wait w).2.queue = [] else (wait w).2.queue ≠ []
  | none => False

/-- What the TLS library expects of the functions when a system call fails with the error `e`: they return an error, `errno` is `e`, and no datagram is lost.
The function that waits makes a second system call if there is a datagram. -/
def ErrorsRight (w : World) : Prop :=
  ∀ e,
    (w.next.1 = some e →
      (∀ len, (pull len w).1 = none ∧ (pull len w).2.errno = some e ∧ (pull len w).2.queue = w.next.2.queue) ∧
      (∀ b, (push b w).1 = false ∧ (push b w).2.errno = some e ∧ (push b w).2.trace = w.trace) ∧
      (wait w).1 = none ∧ (wait w).2.errno = some e ∧ (wait w).2.queue = w.next.2.queue) ∧
    (w.next.1 = none → w.next.2.queue ≠ [] → w.next.2.next.1 = some e →
      (wait w).1 = none ∧ (wait w).2.errno = some e ∧ (wait w).2.queue = w.next.2.next.2.queue)

end FreeCoAP.Client.Dtls
