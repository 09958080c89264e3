import Verif.EndToEnd.SpecSession

/-!
# Specification of a session of requests over a network that loses and repeats datagrams
-/

namespace FreeCoAP.EndToEnd

open FreeCoAP.Msg
open FreeCoAP.Server (Env Event Addr Srv NoFault AppSafe run)
open FreeCoAP.Client (exchange)

/-- A request, the further copies of its datagram that reach the server (the client has transmitted it again, or the network has repeated it), and which of the
copies is the one whose response reaches the client (0 is the first one). All other responses are lost. The inputs in `q.x` are what the client sees before. -/
structure Attempt where
  q : Ask
  copies : List Env
  back : Nat

/-- What reaches the server. -/
def Attempt.evs (r : Attempt) : List (Env × Event) :=
  (r.q.env, .datagram r.q.a r.q.d) :: r.copies.map (fun e => (e, .datagram r.q.a r.q.d))

/-- The request is regular, nothing else fails, one of the copies is answered, and until then the client only sees its timer and keeps waiting. -/
structure Patient (sx px : Bool) (sepList : List Bytes) (r : Attempt) : Prop where
  regular : Regular sx px sepList r.q
  fine : ∀ e ∈ r.copies, NoFault e ∧ AppSafe e
  back : r.back ≤ r.copies.length
  quiet : ∀ i ∈ r.q.x.inputs, ∀ d, i.ev ≠ .datagram d
  waits : ∃ obs, exchange sx px r.q.x r.q.req = .ok (obs, none)

/-- The requests one after the other: all copies of the datagram go to the server; what the server sends for one of them goes back to the client. The result
has what the server does and what each exchange returns. -/
def lossy (sx px : Bool) : Srv → List Attempt → Out (List (List Server.Obs) × List (Option (Except Err Msg)))
  | _, [] => .ok ([], [])
  | s, r :: rs =>
    match run sx s r.evs with
    | .ok (s', tr) =>
      match exchange sx px { r.q.x with inputs := r.q.x.inputs ++ (toward r.q.a ((tr.drop r.back).take 1).flatten).map gets } r.q.req with
      | .ok (_, x) =>
        match lossy sx px s' rs with
        | .ok (trs, xs) => .ok (tr ++ trs, x :: xs)
        | .err e => .err e
        | .ub => .ub
      | .err e => .err e
      | .ub => .ub
    | .err e => .err e
    | .ub => .ub

/-- Each request is given to the application once, in order, however many copies of it arrive, and each exchange returns what the application answered to this
request. -/
def OnceEach (sx px : Bool) (s : Srv) (rs : List Attempt) : Prop :=
  ∃ tr xs, lossy sx px s rs = .ok (tr, xs) ∧ Server.calls tr.flatten = rs.map (fun r => (r.q.a, r.q.sent)) ∧ xs.length = rs.length ∧
    ∀ (i : Nat) (r : Attempt), rs[i]? = some r → ∃ m, xs[i]? = some (some (.ok m)) ∧ Says m r.q.resp

end FreeCoAP.EndToEnd
