import Verif.Proxy.Model

/-!
# Model of the transactions of a connection of the proxy

`connection_exchange` and the loop of `connection_thread_func` in `proxy/http_coap/src/connection.c`, composed of `recv`, `process` and `send`.
Logging is not modelled; the statistics are in `ModelStats`. `http_msg_destroy` of the two messages (connection.c 700–701) has no effect here: a transaction begins with
empty messages (connection.c 664–665 and 676–677).
-/

namespace FreeCoAP.Proxy

open FreeCoAP.DataBuf (Buf)
open FreeCoAP.Http (HMsg)

/-- The fields of `connection_t` that outlive a transaction: the two buffers and the CoAP server that the client is connected to. -/
structure Conn where
  recv : Buf
  send : Buf
  peer : Peer
  deriving DecidableEq

/-- `connection_new` (connection.c 737–797): the buffers are created, there is no CoAP client yet. `ok1`, `ok2` and `ok3` tell whether the
allocations of the buffers and of the body succeed. -/
def connNew (W : Nat) (ok1 ok2 ok3 : Bool) : Out Conn := do
  let r ← DataBuf.create W BUF MAX ok1
  let s ← DataBuf.create W BUF MAX ok2
  if ok3 then pure ⟨r, s, none⟩ else .err .ENOMEM

/-- What happens outside the program in one transaction: the CoAP side, `malloc` for the buffer of the response, and the socket when the response
is written. -/
structure Turn where
  w : World
  fresh : Nat → Nat → Option Bytes
  ws : List Write

/-- What `connection_exchange` returns: `done` is 0; `waiting` if it has not returned yet. -/
inductive Status where
  | done
  | timedOut
  | closed
  | failed (e : Err)
  | waiting
  deriving DecidableEq, Repr

/-- The effects of a transaction: the calls of the CoAP client and what was written to the HTTP client. -/
structure Entry where
  calls : List ((Bytes × Bytes) × Call)
  out : Bytes
  deriving DecidableEq, Repr

/-- The result of `connection_send` as a result of `__connection_exchange` (connection.c 646–651). -/
def Sent.status : Sent → Status
  | .ok => .done
  | .closed => .closed
  | .failed e => .failed e
  | .waiting => .waiting

/-- The part of `__connection_exchange` after the request (connection.c 638–653). -/
def answer (W : Nat) (t : Turn) (c : Conn) (m : HMsg) : Out (Status × Entry × Conn) :=
  let p := process t.w c.peer m
  match p.res with
  | .ub => .ub
  | .err e => .ok (.failed e, ⟨p.calls, []⟩, { c with peer := p.peer })
  | .ok h =>
    send W h t.fresh t.ws c.send >>= fun r => pure (r.2.1.status, ⟨p.calls, r.1⟩, { c with peer := p.peer, send := r.2.2 })

/-- `connection_exchange` (connection.c 627–706): the status, what was done for the request if one was received, the connection, the rest of the
stream and of the events. -/
def transact (W : Nat) (t : Turn) (c : Conn) (s : Bytes) (es : List In) : Out (Status × Option Entry × Conn × Bytes × List In) :=
  recv W c.recv s es >>= fun r =>
  match r.1 with
  | .msg m => answer W t { c with recv := r.2.1 } m >>= fun a => pure (a.1, some a.2.1, a.2.2, r.2.2)
  | .timedOut => pure (.timedOut, none, { c with recv := r.2.1 }, r.2.2)
  | .closed => pure (.closed, none, { c with recv := r.2.1 }, r.2.2)
  | .failed e => pure (.failed e, none, { c with recv := r.2.1 }, r.2.2)
  | .waiting => pure (.waiting, none, { c with recv := r.2.1 }, r.2.2)

/-- The loop of `connection_thread_func` (connection.c 717–720), for as many transactions as there are turns: what was done for each request
and the last status. -/
def thread (W : Nat) : List Turn → Conn → (s : Bytes) → List In → Out (List Entry × Status)
  | [], _, _, _ => .ok ([], .done)
  | t :: ts, c, s, es =>
    transact W t c s es >>= fun r =>
    match r.1 with
    | .done => thread W ts r.2.2.1 r.2.2.2.1 r.2.2.2.2 >>= fun l => pure (r.2.1.toList ++ l.1, l.2)
    | e => pure (r.2.1.toList, e)

end FreeCoAP.Proxy
