import Verif.Msg.Heap

/-!
# The buffers that the messages of the server use

`coap_server_exchange`, `coap_server_listen` and `coap_server_destroy` with the small and medium pools. Every call of the message functions
that can take or return a buffer is made on the pools. Simplifications: which transaction is used, whether a call that uses no message buffer
succeeds and what the callback of the application does with the response is decided by the environment (`Turn`). The empty messages that the
server sends (coap_server.c:998-1012, 1122-1136 and 1269-1283) have no options and no payload; they use no buffers and are left out.
-/

namespace FreeCoAP.Server.Buf

open FreeCoAP.Msg.Heap

/-- The fields `active`, `req` and `resp` of `coap_server_trans_t`, coap_server.h. -/
structure Slot where
  active : Bool
  req : HMsg
  resp : HMsg

/-- A zeroed transaction. -/
def Slot.empty : Slot := ⟨false, zero, zero⟩

/-- The pools and the transactions of the server. -/
structure State where
  heap : Heap
  slots : List Slot

/-- A call on the response while it is generated (coap_server.c:2428-2440): by the callback of the application, by
`coap_server_trans_handle_bad_option` or by `coap_server_trans_handle_next_block`. -/
inductive Edit where
  | addOp (num : Nat) (val : Bytes)
  | setPayload (buf : Bytes)
  | clearPayload
  | reset
  | copy
  | fields (type codeClass codeDetail msgId : Nat) (token : Bytes)

/-- One such call; `m` is the request and `x` the response. -/
def edit (S : Nat) (m : HMsg) (p : HMsg × Heap) : Edit → HMsg × Heap
  | .addOp num val => (addOp S p.2 p.1 num val).2
  | .setPayload buf => (setPayload p.2 p.1 buf).2
  | .clearPayload => clearPayload p.2 p.1
  | .reset => reset p.2 p.1
  | .copy => (copy S p.2 p.1 m).2
  | .fields t cc cd mi tk => ({ p.1 with type := t, codeClass := cc, codeDetail := cd, msgId := mi, token := tk }, p.2)

/-- What the environment decides in one turn. -/
structure Turn where
  /-- the transaction that is found or created -/
  slot : Nat
  /-- there was a transaction for the sender -/
  known : Bool
  /-- `coap_server_trans_create` succeeds -/
  created : Bool
  /-- the server uses DTLS: a new transaction has taken the data, coap_server.c:2275-2280 -/
  dtls : Bool
  /-- the datagram, or nothing if it cannot be received -/
  arrives : Option (Bytes × Nat)
  /-- the error was EAGAIN -/
  again : Bool
  /-- the path was registered for a separate response -/
  sep : Bool
  /-- acknowledging, sending, stopping and starting the timer succeed -/
  ackOk : Bool
  sendOk : Bool
  stopOk : Bool
  startOk : Bool
  /-- the calls on the response, and whether the callback succeeds -/
  edits : List Edit
  handleOk : Bool
  /-- the number of the message and the setters, coap_server.c:2448-2500 -/
  msgId : Nat
  setOk : Bool

/-- The messages of `coap_server_trans_destroy`, coap_server.c:668-679. -/
def destroyTrans (h : Heap) (s : Slot) : Heap := (destroy (destroy h s.resp).2 s.req).2

/-- The end of a failing turn, coap_server.c:2444-2446 and others. -/
def giveUp (h : Heap) (s : Slot) (m x : HMsg) : Slot × Heap :=
  (.empty, (destroy (destroyTrans (destroy h x).2 s) m).2)

/-- Recording the request and the response, coap_server.c:2508-2545 with 753-757 and 769-773. -/
def record (S : Nat) (h : Heap) (s : Slot) (m x : HMsg) (t : Turn) : Out (Slot × Heap) :=
  let (q0, h) := reset h s.req
  match copy S h q0 m with
  | (.ub, _, _) => .ub
  | (.err _, q, h) => .ok (giveUp h { s with req := q } m x)
  | (.ok _, q, h) =>
    let (r0, h) := reset h s.resp
    match copy S h r0 x with
    | (.ub, _, _) => .ub
    | (.err _, r, h) => .ok (giveUp h { s with req := q, resp := r } m x)
    | (.ok _, r, h) =>
      if x.type = 0 ∧ t.startOk = false then .ok (giveUp h { s with req := q, resp := r } m x)
      else .ok ({ s with req := q, resp := r }, (destroy (destroy h x).2 m).2)

/-- The answer to a new request, coap_server.c:2396-2545. -/
def respond (S : Nat) (h : Heap) (s : Slot) (m : HMsg) (t : Turn) : Out (Slot × Heap) :=
  let (q, h) := destroy h s.req
  let (r, h) := destroy h s.resp
  let s := { s with req := q, resp := r }
  if m.type = 0 ∧ t.sep = true ∧ t.ackOk = false then .ok (.empty, (destroy (destroyTrans h s) m).2)
  else
    let (x, h) := t.edits.foldl (edit S m) (create, h)
    if t.handleOk = false then .ok (giveUp h s m x)
    else if t.setOk = false then .ok (giveUp h s m x)
    else
      let x := { x with msgId := t.msgId, token := m.token, type := if m.type = 0 then (if t.sep then 0 else 2) else 1 }
      if t.sendOk = false then .ok (giveUp h s m x) else record S h s m x t

/-- What is done with a message that was received, coap_server.c:2298-2545. -/
def handle (S : Nat) (h : Heap) (s : Slot) (m : HMsg) (t : Turn) : Out (Slot × Heap) :=
  if s.req.ver ≠ 0 ∧ s.req.msgId = m.msgId ∧ m.type = 0 then
    let h := (destroy h m).2
    if (if t.sep then t.ackOk else t.sendOk) = false then .ok (.empty, destroyTrans h s) else .ok (s, h)
  else if s.req.ver ≠ 0 ∧ s.req.msgId = m.msgId ∧ m.type = 1 then .ok (s, (destroy h m).2)
  else if s.resp.ver ≠ 0 ∧ s.resp.msgId = m.msgId ∧ (m.type = 2 ∨ m.type = 3) then
    let h := (destroy h m).2
    if t.stopOk = false then .ok (.empty, destroyTrans h s) else .ok (s, h)
  else if m.type = 2 ∨ m.type = 3 ∨ m.codeClass ≠ 0 then .ok (.empty, destroyTrans (destroy h m).2 s)
  else respond S h s m t

/-- Receiving a message, coap_server.c:2284-2296. -/
def receive (S : Nat) (sx : Bool) (h : Heap) (s : Slot) (t : Turn) : Out (Slot × Heap) :=
  match t.arrives with
  | none => if t.again then .ok (s, (destroy h create).2) else .ok (.empty, destroyTrans (destroy h create).2 s)
  | some (mem, len) =>
    match parse S sx h create mem len with
    | (.ub, _, _) => .ub
    | (.err _, m, h) => .ok (.empty, destroyTrans (destroy h m).2 s)
    | (.ok _, m, h) => handle S h s m t

/-- The transaction of the sender, coap_server.c:2260-2281, and `coap_server_trans_create` (1342-1384). When no transaction is known an empty one
is taken, or one that is in use is destroyed. -/
def turnSlot (S : Nat) (sx : Bool) (h : Heap) (s : Slot) (t : Turn) : Out (Slot × Heap) :=
  if t.known then
    if s.active then receive S sx h s t else .ok (s, h)
  else
    let h := if s.active then destroyTrans h s else h
    if t.created = false then .ok (.empty, h)
    else if t.dtls then .ok (⟨true, create, create⟩, h)
    else receive S sx h ⟨true, create, create⟩ t

/-- One call of `coap_server_exchange`, the end of the retransmissions of a transaction (coap_server.c:1324), or the destruction of the server
(1965-1979). -/
inductive Event where
  | turn (t : Turn)
  | expire (slot : Nat)
  | destroy

/-- One event. -/
def step (S : Nat) (sx : Bool) (s : State) : Event → Out State
  | .turn t =>
    match s.slots[t.slot]? with
    | none => .ok s
    | some x =>
      match turnSlot S sx s.heap x t with
      | .ub => .ub
      | .err e => .err e
      | .ok (x, h) => .ok ⟨h, s.slots.set t.slot x⟩
  | .expire i =>
    match s.slots[i]? with
    | none => .ok s
    | some x => if x.active then .ok ⟨destroyTrans s.heap x, s.slots.set i .empty⟩ else .ok s
  | .destroy =>
    .ok ⟨s.slots.foldl (fun h x => if x.active then destroyTrans h x else h) s.heap, s.slots.map (fun _ => .empty)⟩

/-- A history. -/
def run (S : Nat) (sx : Bool) (s : State) : List Event → Out State
  | [] => .ok s
  | e :: es =>
    match step S sx s e with
    | .ub => .ub
    | .err e => .err e
    | .ok s => run S sx s es

/-- The server after its creation; `COAP_SERVER_NUM_TRANS` transactions. -/
def init (n : Nat) (h : Heap) : State := ⟨h, List.replicate n .empty⟩

end FreeCoAP.Server.Buf
