import Verif.EndToEnd.SpecLive

/-!
# Specification of a session of requests

Clients make requests of a server, one after the other, over a network that delivers.
-/

namespace FreeCoAP.EndToEnd

open FreeCoAP.Msg
open FreeCoAP.Server (Env Event Addr Built Formats Srv AppOK AppSafe AllKnown NoFault NoEmptyBlock Separate step)
open FreeCoAP.Client (stamped exchange)

/-- One request: the client at `a`, what happens to the server and to the client during it, the request, what the application of the server answers, and the
datagram with the request. -/
structure Ask where
  a : Addr
  env : Env
  x : Client.XEnv
  req : Msg
  resp : Msg
  d : Bytes

/-- The request as it is sent, with the id and the token that the client has chosen. -/
def Ask.sent (q : Ask) : Msg := stamped q.x q.req

/-- Nothing fails, the client can send the request, and the application answers it at once with a response that the client accepts. -/
structure Sound (sx px : Bool) (q : Ask) : Prop where
  app : AppOK q.env
  safe : AppSafe q.env
  fine : NoFault q.env
  built : Built q.req
  ordinary : Ordinary sx q.req
  known : AllKnown q.req
  blocks : NoEmptyBlock q.req
  answer : Answerable sx px q.resp
  handle : ∀ t : Server.Trans, t.addr = q.a → q.env.handle t q.sent = .reply q.resp none
  datagram : Formats q.sent q.d
  short : q.d.length < 1152
  waits : ∃ obs, exchange sx px { q.x with inputs := [] } q.req = .ok (obs, none)

/-- As before, and the request is a confirmable one that is answered with a piggybacked response. -/
structure Regular (sx px : Bool) (sepList : List Bytes) (q : Ask) : Prop extends Sound sx px q where
  con : q.req.type = CON
  piggy : ¬ Separate sepList q.req

/-- The requests one after the other: the datagram goes to the server, what the server sends to this client goes back to it. The result has what the server
does and what each exchange returns. -/
def session (sx px : Bool) : Srv → List Ask → Out (List (List Server.Obs) × List (Option (Except Err Msg)))
  | _, [] => .ok ([], [])
  | s, q :: qs =>
    match step sx s q.env (.datagram q.a q.d) with
    | .ok (s', o, _) =>
      match exchange sx px { q.x with inputs := (toward q.a o).map gets } q.req with
      | .ok (_, r) =>
        match session sx px s' qs with
        | .ok (tr, rs) => .ok (o :: tr, r :: rs)
        | .err e => .err e
        | .ub => .ub
      | .err e => .err e
      | .ub => .ub
    | .err e => .err e
    | .ub => .ub

/-- The id of each request is not 0 and not that of the previous request of the same client. -/
def Ids (qs : List Ask) : Prop :=
  ∀ pre q post, qs = pre ++ q :: post → q.sent.msgId ≠ 0 ∧
    ∀ p, (pre.filter (fun p => decide (p.a = q.a))).getLast? = some p → p.sent.msgId ≠ q.sent.msgId

/-- Each request is given to the application once, in order, and each exchange returns what the application answered to this request. -/
def AllAnswered (sx px : Bool) (s : Srv) (qs : List Ask) : Prop :=
  ∃ tr rs, session sx px s qs = .ok (tr, rs) ∧ Server.calls tr.flatten = qs.map (fun q => (q.a, q.sent)) ∧ rs.length = qs.length ∧
    ∀ (i : Nat) (q : Ask), qs[i]? = some q → ∃ r, rs[i]? = some (some (.ok r)) ∧ Says r q.resp

end FreeCoAP.EndToEnd
