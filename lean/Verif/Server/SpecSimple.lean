import Verif.Server.Spec

/-!
# A simple server

It remembers, for every client, the id of its last request and the response to it. What the server of the library does for its clients is compared with what
this one does.
-/

namespace FreeCoAP.Server.Simple

open FreeCoAP.Msg

/-- A request that arrives: the client, what happens in the server while it is handled, the datagram, the request in it, and the answer of the application. -/
structure Copy where
  a : Addr
  env : Env
  d : Bytes
  m : Msg
  resp : Msg

/-- The request as an event of the server. -/
def Copy.ev (c : Copy) : Env × Event := (c.env, .datagram c.a c.d)

/-- The answer `resp` as a response to `m`: piggybacked, or a separate or non-confirmable one with an id `own` of the server. -/
def answer (sepList : List Bytes) (own : Nat) (m resp : Msg) : Msg :=
  if m.type = NON then { resp with type := NON, msgId := own, token := m.token }
  else if Separate sepList m then { resp with type := CON, msgId := own, token := m.token }
  else { resp with type := ACK, msgId := m.msgId, token := m.token }

/-- The datagram with the message `m`. -/
def bytes (m : Msg) : Bytes :=
  match format m (List.replicate 1152 0) 1152 with
  | .ok (buf, n) => buf.take n
  | _ => []

/-- What the simple server knows: the last id it has used for a message, and for every client the id of its last request and the response. -/
structure State where
  own : Nat
  last : Addr → Option (Nat × Bytes)

/-- What it does: the requests given to the application and the datagrams sent. -/
abbrev Deed := List (Addr × Msg) × List (Addr × Bytes)

/-- A request that was not the last one of its client. -/
def fresh (sepList : List Bytes) (s : State) (c : Copy) : State × Deed :=
  let own := nextMsgId s.own c.env.idRand
  let r := bytes (answer sepList own c.m c.resp)
  let s' : State := ⟨if c.m.type = CON ∧ ¬ Separate sepList c.m then s.own else own, fun b => if b = c.a then some (c.m.msgId, r) else s.last b⟩
  (s', [(c.a, c.m)], (if c.m.type = CON ∧ Separate sepList c.m then [(c.a, emptyAck c.m.msgId)] else []) ++ [(c.a, r)])

/-- One request. A repetition is not given to the application: if it is non-confirmable nothing happens, if the response is separate the acknowledgement is sent
again, otherwise the response. -/
def step (sepList : List Bytes) (s : State) (c : Copy) : State × Deed :=
  match s.last c.a with
  | some (i, r) =>
    if i = c.m.msgId then
      (s, [], if c.m.type = NON then [] else if Separate sepList c.m then [(c.a, emptyAck c.m.msgId)] else [(c.a, r)])
    else fresh sepList s c
  | none => fresh sepList s c

/-- A sequence of requests. -/
def run (sepList : List Bytes) : State → List Copy → List Deed
  | _, [] => []
  | s, c :: cs => (step sepList s c).2 :: run sepList (step sepList s c).1 cs

/-- The request is a correct one, nothing fails in the server, and the application answers at once with a response that can be sent. -/
structure Fair (sx : Bool) (sepList : List Bytes) (c : Copy) : Prop where
  app : AppOK c.env
  safe : AppSafe c.env
  fine : NoFault c.env
  carries : Carries sx c.d c.m
  asks : Asks c.m
  known : AllKnown c.m
  harmless : Harmless sx c.d
  handle : ∀ t : Trans, t.addr = c.a → c.env.handle t c.m = .reply c.resp none
  fits : ∀ own, ∃ b, Formats (answer sepList own c.m c.resp) b

/-- The server does what the simple server does. -/
def Same (sx : Bool) (id : Nat) (sepList : List Bytes) (pool : Mem.Pool) (cs : List Copy) : Prop :=
  ∃ s' tr, Server.run sx (init id sepList pool) (cs.map Copy.ev) = .ok (s', tr) ∧
    tr.map (fun o => (calls o, sends o)) = run sepList ⟨id % 65536, fun _ => none⟩ cs

/-- The requests without repetitions: those whose id is not that of the one before. -/
def novel : Option Nat → List Msg → List Msg
  | _, [] => []
  | l, m :: ms => if l = some m.msgId then novel l ms else m :: novel (some m.msgId) ms

end FreeCoAP.Server.Simple
