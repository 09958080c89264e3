import Verif.EndToEnd.SpecSession

/-!
# Specification of a session with requests of all kinds

Confirmable and non-confirmable requests, with piggybacked and separate responses. Between the requests the server may get anything else that is not a request:
acknowledgements and resets by the clients, ends of timers, malformed datagrams.
-/

namespace FreeCoAP.EndToEnd

open FreeCoAP.Msg
open FreeCoAP.Server (Env Event Addr Srv AppSafe Asks arrived Harmless Separate step run nextMsgId)
open FreeCoAP.Client (exchange)

/-- A request, and what else happens to the server before. -/
structure Visit where
  before : List (Env × Event)
  q : Ask

/-- Something other than a request: no message that arrives is a request. It may be lost, and anything may fail in the server. -/
structure Noise (sx : Bool) (y : Env × Event) : Prop where
  safe : AppSafe y.1
  harmless : ∀ a d, y.2 = .datagram a d → Harmless sx d
  other : ∀ a m, arrived sx a y = some m → ¬ Asks m

/-- What happens to the server in a visit. -/
def Visit.evs (r : Visit) : List (Env × Event) := r.before ++ [(r.q.env, .datagram r.q.a r.q.d)]

/-- What happens to the server in a list of visits. -/
def history (rs : List Visit) : List (Env × Event) := rs.flatMap Visit.evs

/-- The visits one after the other. What the server sends to the client in response to its request goes back to it: a response, or an acknowledgement and a
response. The result has what the server does and what each exchange returns. -/
def mixed (sx px : Bool) : Srv → List Visit → Out (List (List Server.Obs) × List (Option (Except Err Msg)))
  | _, [] => .ok ([], [])
  | s, r :: rs =>
    match run sx s r.before with
    | .ok (s0, tr0) =>
      match step sx s0 r.q.env (.datagram r.q.a r.q.d) with
      | .ok (s', o, _) =>
        match exchange sx px { r.q.x with inputs := (toward r.q.a o).map gets } r.q.req with
        | .ok (_, x) =>
          match mixed sx px s' rs with
          | .ok (trs, xs) => .ok (tr0 ++ o :: trs, x :: xs)
          | .err e => .err e
          | .ub => .ub
        | .err e => .err e
        | .ub => .ub
      | .err e => .err e
      | .ub => .ub
    | .err e => .err e
    | .ub => .ub

/-- The id that the server chooses for a response that is not piggybacked is not the id of the request. -/
def OwnIds (sx : Bool) (s : Srv) (rs : List Visit) : Prop :=
  ∀ pre r post, rs = pre ++ r :: post → ¬ (r.q.req.type = CON ∧ ¬ Separate s.sepList r.q.req) →
    ∀ s' tr, run sx s (history pre ++ r.before) = .ok (s', tr) → nextMsgId s'.msgId r.q.env.idRand ≠ r.q.sent.msgId

/-- Each request is given to the application once, in order, and nothing else is; each exchange returns what the application answered to this request. -/
def EachAnswered (sx px : Bool) (s : Srv) (rs : List Visit) : Prop :=
  ∃ tr xs, mixed sx px s rs = .ok (tr, xs) ∧ Server.calls tr.flatten = rs.map (fun r => (r.q.a, r.q.sent)) ∧ xs.length = rs.length ∧
    ∀ (i : Nat) (r : Visit), rs[i]? = some r → ∃ m, xs[i]? = some (some (.ok m)) ∧ Says m r.q.resp

end FreeCoAP.EndToEnd
