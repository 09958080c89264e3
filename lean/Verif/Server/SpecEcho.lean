import Verif.Server.Spec

/-!
# What an address gets in return for what it sends
-/

namespace FreeCoAP.Server.Echo

open FreeCoAP.Msg

/-- The datagrams sent to `a` in one event. -/
def toward (a : Addr) (o : List Obs) : List Bytes := (sends o).filterMap (fun x => if x.1 = a then some x.2 else none)

/-- The datagrams sent to `a` in a history. -/
def sentTo (a : Addr) (tr : List (List Obs)) : List Bytes := tr.flatMap (toward a)

/-- Their size together. -/
def size (l : List Bytes) : Nat := (l.map List.length).sum

/-- The number of datagrams that came from `a`. -/
def cameFrom (a : Addr) (evs : List (Env × Event)) : Nat :=
  evs.countP (fun x => match x.2 with | .datagram b _ => decide (b = a) | _ => false)

end FreeCoAP.Server.Echo
