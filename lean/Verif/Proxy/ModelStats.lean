import Verif.Proxy.ModelConn

/-!
# Model of the statistics of the proxy

The counters in `proxy/http_coap/src/connection.c` 64–104 (with CONNECTION_STATS), which the threads of all connections use under the lock of
`proxy/common/include/lock.h`. A step of a thread is one operation on the lock, one access to a counter, or the end of a transaction. The steps of
all threads happen one after the other, in any order. What a transaction does is not modelled here: only its status counts.
-/

namespace FreeCoAP.Proxy.Stats

/-- The four counters, connection.c 70–73. -/
inductive Kind where
  | okCon
  | failCon
  | okTrans
  | failTrans
  deriving DecidableEq, Repr

/-- Their values, each an `unsigned`, connection.c 68–76. -/
structure Counts where
  okCon : BitVec 32
  failCon : BitVec 32
  okTrans : BitVec 32
  failTrans : BitVec 32
  deriving DecidableEq, Repr

/-- The value of a counter. -/
def Counts.get (c : Counts) : Kind → BitVec 32
  | .okCon => c.okCon
  | .failCon => c.failCon
  | .okTrans => c.okTrans
  | .failTrans => c.failTrans

/-- A counter gets the value `v`. -/
def Counts.set (c : Counts) (k : Kind) (v : BitVec 32) : Counts :=
  match k with
  | .okCon => { c with okCon := v }
  | .failCon => { c with failCon := v }
  | .okTrans => { c with okTrans := v }
  | .failTrans => { c with failTrans := v }

/-- What happens and can be seen: in the log there are a line for the end of each transaction (connection.c 681–696) and one for the end of each
connection (connection.c 723 and 729), where `ok` tells which; a counter has been increased, and the macro is left (connection.c 82–85); the four
figures have been logged (connection.c 97–100, taken together). -/
inductive Event where
  | transaction (t : Nat) (st : Status)
  | connection (t : Nat) (ok : Bool)
  | counted (t : Nat) (k : Kind)
  | reported (t : Nat) (c : Counts)
  deriving DecidableEq, Repr

/-- What is done under the lock: a counter is increased, or the counters are logged. -/
inductive Job where
  | count (k : Kind)
  | report
  deriving DecidableEq, Repr

/-- Where the thread of a connection is. `loop`: in `connection_exchange`, connection.c 719; `judge`: after the loop, connection.c 721, with
`status ≥ 0` or not; `lock`: before `lock_get`; `read` and `write`: before the read and before the write of the increment of a counter, where the
write is of `v + 1`; `print0` … `print3`: before the four calls at connection.c 97–100, with the figures logged so far; `leave` and `flush`: before
`lock_put`; `ended`: at connection.c 734. -/
inductive At where
  | loop
  | judge (ok : Bool)
  | lock (j : Job)
  | read (k : Kind)
  | write (k : Kind) (v : BitVec 32)
  | leave (k : Kind)
  | print0
  | print1 (a : BitVec 32)
  | print2 (a b : BitVec 32)
  | print3 (a b c : BitVec 32)
  | flush (c : Counts)
  | ended
  deriving DecidableEq, Repr

/-- The counters, the owner of the lock, the threads, and what has happened, the latest first. -/
structure State where
  counts : Counts
  owner : Option Nat
  th : Nat → At
  hist : List Event

/-- The thread `t` is now at `p`. -/
def State.put (s : State) (t : Nat) (p : At) : State := { s with th := fun u => if u = t then p else s.th u }

/-- Something happens. -/
def State.say (s : State) (e : Event) : State := { s with hist := e :: s.hist }

/-- After the lock, connection.c 82–85 and 97. -/
def enter : Job → At
  | .count k => .read k
  | .report => .print0

/-- After the increment of a counter: after connection.c 691 the next transaction begins, after 697 the loop ends as the status is an error, after 724
and 730 the connection is deleted and the counters are logged. -/
def next : Kind → At
  | .okTrans => .loop
  | .failTrans => .judge false
  | .okCon => .lock .report
  | .failCon => .lock .report

/-- The end of a transaction with the status `st`, connection.c 679–698 and 717–721. -/
def finish (s : State) (t : Nat) (st : Status) : State :=
  match st with
  | .waiting => s
  | .timedOut => (s.say (.transaction t st)).put t (.judge true)
  | .closed => (s.say (.transaction t st)).put t (.judge true)
  | .done => (s.say (.transaction t st)).put t (.lock (.count .okTrans))
  | .failed _ => (s.say (.transaction t st)).put t (.lock (.count .failTrans))

/-- `lock_get` (lock.h 76–86) by the macro `stats_lock` (connection.c 80), which ignores the result: the lock is taken if it is free; a thread that has it
already gets an error and goes on (the type of the mutex is PTHREAD_MUTEX_ERRORCHECK, lock.h 51); else the thread has to wait. -/
def get (s : State) (t : Nat) (j : Job) : State :=
  match s.owner with
  | none => { s with owner := some t }.put t (enter j)
  | some u => if u = t then s.put t (enter j) else s

/-- `lock_put` (lock.h 88–98) by the macro `stats_unlock` (connection.c 81), which ignores the result: a thread that does not have the lock gets an error. -/
def release (s : State) (t : Nat) : State := if s.owner = some t then { s with owner := none } else s

/-- A step of the thread `t`. If it is in a transaction, this ends with the status `st`. -/
def step (s : State) (t : Nat) (st : Status) : State :=
  match s.th t with
  | .loop => finish s t st
  | .judge ok => (s.say (.connection t ok)).put t (.lock (.count (if ok then .okCon else .failCon)))
  | .lock j => get s t j
  | .read k => s.put t (.write k (s.counts.get k))
  | .write k v => { s with counts := s.counts.set k (v + 1) }.put t (.leave k)
  | .leave k => ((release s t).say (.counted t k)).put t (next k)
  | .print0 => s.put t (.print1 s.counts.okCon)
  | .print1 a => s.put t (.print2 a s.counts.failCon)
  | .print2 a b => s.put t (.print3 a b s.counts.okTrans)
  | .print3 a b c => s.put t (.flush ⟨a, b, c, s.counts.failTrans⟩)
  | .flush c => ((release s t).say (.reported t c)).put t .ended
  | .ended => s

/-- After `stats_init` (connection.c 87–91): the counters are 0, the lock is free. A thread that has made no step may as well not have been started yet. -/
def init : State := ⟨⟨0, 0, 0, 0⟩, none, fun _ => .loop, []⟩

/-- A schedule: which thread makes the next step, and the status of its transaction if it is in one. -/
def run (s : State) : List (Nat × Status) → State
  | [] => s
  | e :: es => run (step s e.1 e.2) es

end FreeCoAP.Proxy.Stats
