import Verif.Server.SpecSimple

/-!
# The server as a machine

As the simple server of C143, with acknowledgements, resets and timers: for every client it remembers the last request, the response to it, and how often that
has been transmitted again if its acknowledgement is awaited.
-/

namespace FreeCoAP.Server.Machine

open FreeCoAP.Msg
open FreeCoAP.Server.Simple (Copy Fair answer bytes)

/-- What is known of a client: the id of the last request, the response and its id, and, if an acknowledgement is awaited, the number of retransmissions and the
first timeout in milliseconds. -/
structure Entry where
  id : Nat
  reply : Bytes
  own : Nat
  wait : Option (Nat × Nat)

/-- A client of which nothing is known is one whose last request had the id 0, and was answered with an empty confirmable message with the id 0. -/
def blank : Entry := ⟨0, [0x40, 0, 0, 0], 0, none⟩

/-- The machine: the last id used for a message, and the clients. -/
structure State where
  own : Nat
  of : Addr → Entry

/-- What it does: the requests given to the application, the datagrams sent, and the timers started, in milliseconds. -/
abbrev Deed := List (Addr × Msg) × List (Addr × Bytes) × List (Addr × Nat)

/-- Something that happens: a request, a request for which the application fails with an error or gives a response that cannot be sent, a confirmable or non-confirmable message that is no request, an acknowledgement or a reset, a datagram that cannot be read, or
the end of the time in which a client had to acknowledge the response. -/
inductive Item where
  | request (c : Copy)
  | failed (c : Copy) (err : Option Err)
  | odd (a : Addr) (env : Env) (d : Bytes) (m : Msg)
  | junk (a : Addr) (env : Env) (d : Bytes)
  | note (a : Addr) (env : Env) (d : Bytes) (m : Msg)
  | late (a : Addr) (env : Env)

/-- What is known of one client changes. -/
def State.put (s : State) (a : Addr) (e : Entry) : State := { s with of := fun b => if b = a then e else s.of b }

/-- A request that was not the last one of its client: it is executed if all its critical options are known, and what was awaited from the client before is still
awaited if the response needs no acknowledgement. -/
def fresh (sepList : List Bytes) (s : State) (c : Copy) : State × Deed :=
  let own := nextMsgId s.own c.env.idRand
  let x := answer sepList own c.m c.resp
  let sep := c.m.type = CON ∧ Separate sepList c.m
  let wait := if sep then some (0, 2000 + c.env.rand % 1000) else (s.of c.a).wait
  let s' : State := { s with own := if c.m.type = CON ∧ ¬ Separate sepList c.m then s.own else own }
  (s'.put c.a ⟨c.m.msgId, bytes x, x.msgId, wait⟩, (if AllKnown c.m then [(c.a, c.m)] else []),
    (if sep then [(c.a, emptyAck c.m.msgId)] else []) ++ [(c.a, bytes x)], if sep then [(c.a, 2000 + c.env.rand % 1000)] else [])

/-- A request. -/
def request (sepList : List Bytes) (s : State) (c : Copy) : State × Deed :=
  if (s.of c.a).id = c.m.msgId then
    (s, [], (if c.m.type = NON then [] else if Separate sepList c.m then [(c.a, emptyAck c.m.msgId)] else [(c.a, (s.of c.a).reply)]), [])
  else fresh sepList s c

/-- A request for which the application fails, or gives a response that cannot be sent: it is executed, a separate response is announced, and the client is forgotten. -/
def failed (sepList : List Bytes) (s : State) (c : Copy) (err : Option Err) : State × Deed :=
  if (s.of c.a).id = c.m.msgId then
    (s, [], (if c.m.type = NON then [] else if Separate sepList c.m then [(c.a, emptyAck c.m.msgId)] else [(c.a, (s.of c.a).reply)]), [])
  else
    let s' : State := { s with own := if err ≠ none ∨ (c.m.type = CON ∧ ¬ Separate sepList c.m) then s.own else nextMsgId s.own c.env.idRand }
    (s'.put c.a blank, [(c.a, c.m)], (if c.m.type = CON ∧ Separate sepList c.m then [(c.a, emptyAck c.m.msgId)] else []), [])

/-- A confirmable or non-confirmable message that is no request: with the id of the last request it is taken for a repetition of that; with another id a confirmable
one is answered with a reset, and the client is forgotten. -/
def odd (sepList : List Bytes) (s : State) (a : Addr) (m : Msg) : State × Deed :=
  if (s.of a).id = m.msgId then
    (s, [], (if m.type = NON then [] else if Separate sepList m then [(a, emptyAck m.msgId)] else [(a, (s.of a).reply)]), [])
  else (s.put a blank, [], (if m.type = CON then [(a, reset m.msgId)] else []), [])

/-- The answer to a datagram that cannot be read: a reset if it has the header of a confirmable message of version 1. -/
def refuse (a : Addr) : Bytes → List (Addr × Bytes)
  | b0 :: _ :: b2 :: b3 :: _ => if b0.toNat / 16 = 4 then [(a, [0x70, 0, b2, b3])] else []
  | _ => []

/-- An acknowledgement or a reset: that of the response ends the wait, another one makes the server forget the client. -/
def note (s : State) (a : Addr) (m : Msg) : State :=
  if (s.of a).own = m.msgId then s.put a { s.of a with wait := none } else s.put a blank

/-- The acknowledgement is late: the response is sent again, with twice the timeout, up to four times; then the client is forgotten. -/
def late (s : State) (a : Addr) : State × Deed :=
  match (s.of a).wait with
  | some (k, t) =>
    if k < 4 then (s.put a { s.of a with wait := some (k + 1, t) }, [], [(a, (s.of a).reply)], [(a, t * 2 ^ (k + 1))]) else (s.put a blank, [], [], [])
  | none => (s, [], [], [])

/-- One step of the machine. -/
def step (sepList : List Bytes) (s : State) : Item → State × Deed
  | .request c => request sepList s c
  | .failed c err => failed sepList s c err
  | .odd a _ _ m => odd sepList s a m
  | .junk a _ d => (s.put a blank, [], refuse a d, [])
  | .note a _ _ m => (note s a m, [], [], [])
  | .late a _ => late s a

/-- The machine at work. -/
def run (sepList : List Bytes) : State → List Item → List Deed
  | _, [] => []
  | s, x :: xs => (step sepList s x).2 :: run sepList (step sepList s x).1 xs

/-- The event for the server: the timer that ends is that of the transaction of the client (there is none with the number 8). -/
def Item.ev (s : Srv) : Item → Env × Event
  | .request c => c.ev
  | .failed c _ => c.ev
  | .odd a env d _ => (env, .datagram a d)
  | .junk a env d => (env, .datagram a d)
  | .note a env d _ => (env, .datagram a d)
  | .late a env => (env, .timer ((s.trans.findIdx? (fun t => t.active && t.addr == a)).getD 8))

/-- The server at work. -/
def drive (sx : Bool) : Srv → List Item → Out (List (List Obs))
  | _, [] => .ok []
  | s, x :: xs =>
    match Server.step sx s (x.ev s).1 (x.ev s).2 with
    | .ok (s', o, _) =>
      match drive sx s' xs with
      | .ok tr => .ok (o :: tr)
      | .err e => .err e
      | .ub => .ub
    | .err e => .err e
    | .ub => .ub

/-- A request with a critical option that is not known, and the response to it: the code is 4.02, and the payload tells the number of the first such option. -/
structure Foreign (sx : Bool) (c : Copy) : Prop where
  app : AppOK c.env
  safe : AppSafe c.env
  fine : NoFault c.env
  carries : Carries sx c.d c.m
  asks : Asks c.m
  harmless : Harmless sx c.d
  first : ∃ pre o post, c.m.ops = pre ++ o :: post ∧ (∀ p ∈ pre, Critical p → p.num ∈ known) ∧ Critical o ∧ o.num ∉ known ∧
    c.resp = { create with codeClass := 4, codeDetail := 2, payload := (ascii s!"Bad option number: {o.num}").take 127 }

/-- A correct request for which the application reports an error, or gives a response that cannot be sent. -/
structure Fails (sx : Bool) (sepList : List Bytes) (c : Copy) (err : Option Err) : Prop where
  safe : AppSafe c.env
  fine : NoFault c.env
  carries : Carries sx c.d c.m
  asks : Asks c.m
  known : AllKnown c.m
  harmless : Harmless sx c.d
  handle : ∀ t : Trans, t.addr = c.a → c.env.handle t c.m = .reply c.resp err
  unfit : err = none → ∀ own b, ¬ Formats (answer sepList own c.m c.resp) b

/-- Nothing fails in the server; the application answers at once. -/
def Item.Fair (sx : Bool) (sepList : List Bytes) : Item → Prop
  | .request c => Simple.Fair sx sepList c ∨ Foreign sx c
  | .failed c err => Fails sx sepList c err
  | .odd _ env d m => AppSafe env ∧ NoFault env ∧ Carries sx d m ∧ Harmless sx d ∧ (m.type = CON ∨ m.type = NON) ∧ m.codeClass ≠ 0
  | .junk _ env d => AppSafe env ∧ NoFault env ∧ (¬ ∃ m, Carries sx d m) ∧ d.length < 1152
  | .note _ env d m => AppSafe env ∧ NoFault env ∧ Carries sx d m ∧ Harmless sx d ∧ (m.type = ACK ∨ m.type = RST)
  | .late _ env => AppSafe env ∧ NoFault env

/-- The client. -/
def Item.client : Item → Addr
  | .request c => c.a
  | .failed c _ => c.a
  | .odd a _ _ _ => a
  | .junk a _ _ => a
  | .note a _ _ _ => a
  | .late a _ => a

/-! ## Any number of clients -/

/-- The machine with the time of the last contact with each client of which something is known. -/
structure Book where
  core : State
  used : Addr → Option Nat

/-- The time. -/
def Item.now : Item → Nat
  | .request c => c.env.now
  | .failed c _ => c.env.now
  | .odd _ env _ _ => env.now
  | .junk _ env _ => env.now
  | .note _ env _ _ => env.now
  | .late _ env => env.now

/-- Whether there is contact with the client now, or whether it is forgotten; nothing changes when no acknowledgement is awaited that could be late. -/
def Book.contact (b : Book) (x : Item) : Option Nat :=
  match x with
  | .request _ => some x.now
  | .failed c _ => if (b.core.of c.a).id = c.m.msgId then some x.now else none
  | .odd a _ _ m => if (b.core.of a).id = m.msgId then some x.now else none
  | .junk _ _ _ => none
  | .note a _ _ m => if (b.core.of a).own = m.msgId then some x.now else none
  | .late a _ =>
    match (b.core.of a).wait with
    | some (k, _) => if k < 4 then some x.now else none
    | none => b.used a

/-- One step. -/
def Book.step (sepList : List Bytes) (b : Book) (x : Item) : Book × Deed :=
  (⟨(Machine.step sepList b.core x).1, fun c => if c = x.client then b.contact x else b.used c⟩, (Machine.step sepList b.core x).2)

/-- A client is forgotten. -/
def Book.forget (b : Book) (a : Addr) : Book := ⟨b.core.put a blank, fun c => if c = a then none else b.used c⟩

/-- The clients of which something is known. -/
def Book.Knows (b : Book) (l : List Addr) : Prop := l.Nodup ∧ ∀ a, a ∈ l ↔ b.used a ≠ none

/-- A message comes from a client. If something is known of it, or of less than eight clients, nobody is forgotten. Otherwise one of the eight clients is forgotten with
which there was no contact for the longest time. -/
def Book.Room (b : Book) (a : Addr) (b' : Book) : Prop :=
  (b' = b ∧ (b.used a ≠ none ∨ ∃ l, b.Knows l ∧ l.length < 8)) ∨
  (b.used a = none ∧ (∃ l, b.Knows l ∧ l.length = 8) ∧ ∃ c n, b.used c = some n ∧ (∀ c' n', b.used c' = some n' → n ≤ n') ∧ b' = b.forget c)

/-- The machine at work: what it may do. -/
inductive Book.Runs (sepList : List Bytes) : Book → List Item → List Deed → Prop where
  | nil (b : Book) : Runs sepList b [] []
  | message {b b' : Book} {x : Item} {xs : List Item} {ds : List Deed} (hx : ∀ a env, x ≠ .late a env) (hr : b.Room x.client b')
      (h : Runs sepList (b'.step sepList x).1 xs ds) : Runs sepList b (x :: xs) ((b'.step sepList x).2 :: ds)
  | late {b : Book} {a : Addr} {env : Env} {xs : List Item} {ds : List Deed} (h : Runs sepList (b.step sepList (.late a env)).1 xs ds) :
      Runs sepList b (.late a env :: xs) ((b.step sepList (.late a env)).2 :: ds)

end FreeCoAP.Server.Machine
