import Verif.Proxy.ModelStats

/-!
# Specification of the statistics of the proxy
-/

namespace FreeCoAP.Proxy.Stats

/-- The thread of an event. -/
def Event.by : Event → Nat
  | .transaction t _ | .connection t _ | .counted t _ | .reported t _ => t

/-- The counter that an event of the log stands for: transactions that succeed, transactions that fail, connections that end without an error, connections
that end with one. A transaction that times out or that the client closes is neither. -/
def due : Event → Option Kind
  | .transaction _ .done => some .okTrans
  | .transaction _ (.failed _) => some .failTrans
  | .connection _ true => some .okCon
  | .connection _ false => some .failCon
  | _ => none

/-- The counter that has been increased. -/
def made : Event → Option Kind
  | .counted _ k => some k
  | _ => none

/-- How many events of the log stand for the counter `k`. -/
def happened (k : Kind) (h : List Event) : Nat := (h.filter (fun e => due e = some k)).length

/-- How often the counter `k` has been increased. -/
def increased (k : Kind) (h : List Event) : Nat := (h.filter (fun e => made e = some k)).length

/-- The same for the events of one thread. -/
def ofThread (t : Nat) (h : List Event) : List Event := h.filter (fun e => e.by = t)

/-- The thread is where it uses the counters. -/
def Inside : At → Prop
  | .read _ | .write _ _ | .leave _ | .print0 | .print1 _ | .print2 _ _ | .print3 _ _ _ | .flush _ => True
  | _ => False

/-- Every thread that has done something has ended. -/
def AllEnded (s : State) : Prop := ∀ t, s.th t = .ended ∨ ofThread t s.hist = []

/-- The thread is in one of the macros or functions of the statistics. -/
def Busy : At → Prop
  | .loop | .judge _ | .ended => False
  | _ => True

end FreeCoAP.Proxy.Stats
