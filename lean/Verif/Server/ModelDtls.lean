import Verif.Server.Model

/-!
# The server over DTLS (`COAP_DTLS_EN`)

lib/src/coap_server.c, the parts between `#ifdef COAP_DTLS_EN` and `#endif`. All clients share one UDP socket. GnuTLS reads from it and writes to
it through three call-back functions of the server. What GnuTLS does between its call-backs is not modelled: each call of one of its functions is
an arbitrary program over the call-backs (`Lib`), so the theorems hold for every library. The objects of GnuTLS are the subject of Verif/Res.

Not modelled: how long a call takes. The datagrams by which `gnutls_record_send` sends a message are not modelled either: a message sent is an
`Obs.sent` as in Verif/Server/Model, and the failures of coap_server.c:929-975 are those of the `Env`.
-/

namespace FreeCoAP.Server.Dtls

open FreeCoAP.Msg

/-- A datagram in the queue of the socket. -/
structure Dgram where
  src : Addr
  data : Bytes
  deriving DecidableEq, Repr

/-- What happens at a system call: these datagrams have arrived since the one before; the call fails. -/
structure Moment where
  arrive : List Dgram
  fail : Option Err
  deriving DecidableEq, Repr

/-- A datagram given to the session of a client, a datagram sent by it. -/
inductive Ev where
  | pulled (session : Addr) (data : Bytes)
  | pushed (session dest : Addr) (data : Bytes)
  deriving DecidableEq, Repr

/-- The socket of the server, `errno` and what the sessions have read and written. The trace does not exist in the code. When `future` is
used up, nothing arrives any more. -/
structure World where
  queue : List Dgram
  future : List Moment
  errno : Option Err
  trace : List Ev
  deriving DecidableEq, Repr

/-- A system call begins. -/
def World.next (w : World) : Option Err × World :=
  match w.future with
  | [] => (none, w)
  | m :: rest => (m.fail, { w with queue := w.queue ++ m.arrive, future := rest })

/-- `-1` with `errno` set. -/
def World.fail (w : World) (e : Err) : World := { w with errno := some e }

/-- `recvfrom` with `MSG_PEEK` on the socket, which does not block (coap_server.c:1941): a datagram is cut to the length of the buffer. -/
def peek (len : Nat) (w : World) : Option (Bytes × Addr) × World :=
  match w.next with
  | (some e, w) => (none, w.fail e)
  | (none, w) =>
    match w.queue with
    | [] => (none, w.fail .EAGAIN)
    | d :: _ => (some (d.data.take len, d.src), w)

/-- `recvfrom` without `MSG_PEEK`. -/
def take (len : Nat) (w : World) : Option Bytes × World :=
  match w.next with
  | (some e, w) => (none, w.fail e)
  | (none, w) =>
    match w.queue with
    | [] => (none, w.fail .EAGAIN)
    | d :: q => (some (d.data.take len), { w with queue := q })

/-- `coap_server_trans_dtls_pull_func`, coap_server.c:268-297, of the session of the client `a`: `none` is `-1`. -/
def pull (a : Addr) (len : Nat) (w : World) : Option Bytes × World :=
  match peek len w with
  | (none, w) => (none, w)
  | (some (b, src), w) =>
    if src ≠ a then (none, w.fail .EINVAL)
    else
      match take b.length w with
      | (none, w) => (none, w)
      | (some b, w) => (some b, { w with trace := w.trace ++ [.pulled a b] })

/-- `coap_server_trans_dtls_listen_timeout`, coap_server.c:222-250: `false` is a timeout. `select` returns at once if there is a datagram. -/
def listenTimeout (w : World) : Except Err Bool × World :=
  match w.next with
  | (some e, w) => (.error e, w.fail e)
  | (none, w) => (.ok (!w.queue.isEmpty), w)

/-- `coap_server_trans_dtls_pull_timeout_func`, coap_server.c:313-349: `none` is `-1`. -/
def wait (a : Addr) (w : World) : Option Nat × World :=
  match listenTimeout w with
  | (.error _, w) => (none, w)
  | (.ok false, w) => (some 0, w)
  | (.ok true, w) =>
    match peek BUF_LEN w with
    | (none, w) => (none, w)
    | (some (b, src), w) => if src ≠ a then (none, w.fail .EINVAL) else (some b.length, w)

/-- `coap_server_trans_dtls_push_func`, coap_server.c:366-380, of the transaction `t`: `false` is `-1`. The datagram goes to `client_sin`. -/
def push (a : Addr) (b : Bytes) (w : World) : Bool × World :=
  match w.next with
  | (some e, w) => (false, w.fail e)
  | (none, w) => (true, { w with trace := w.trace ++ [.pushed a a b] })

/-- A function of GnuTLS: a program over the call-backs that in the end returns a value, and may change `errno`. -/
inductive Lib (α : Type) where
  | done (r : α) (errno : Option Err → Option Err)
  | pull (len : Nat) (k : Option Bytes → Lib α)
  | wait (k : Option Nat → Lib α)
  | push (b : Bytes) (k : Bool → Lib α)

/-- A call of the function with the session of the client `a`. -/
def Lib.call (a : Addr) : Lib α → World → α × World
  | .done r f, w => (r, { w with errno := f w.errno })
  | .pull len k, w => Lib.call a (k (Dtls.pull a len w).1) (Dtls.pull a len w).2
  | .wait k, w => Lib.call a (k (Dtls.wait a w).1) (Dtls.wait a w).2
  | .push b k, w => Lib.call a (k (Dtls.push a b w).1) (Dtls.push a b w).2

/-- The values of `gnutls_handshake` that the server distinguishes. -/
inductive Shake where
  | success | timedOut | alert | again | other
  deriving DecidableEq, Repr

/-- The values of `gnutls_record_recv` that the server distinguishes: so many bytes (0 is the end of the session), alert, `GNUTLS_E_AGAIN`,
another error. -/
inductive Rec where
  | data (b : Bytes)
  | alert | again | other
  deriving DecidableEq, Repr

/-- What GnuTLS does during one event: `create` says whether the calls of coap_server.c:576-594 succeed, `handshake i` is attempt `i` of the
handshake, `verified` the result of `coap_server_trans_dtls_verify_peer_cert` (see C84). -/
structure Calls where
  create : Bool
  handshake : Nat → Lib Shake
  verified : Bool
  recv : Lib Rec
  bye : Lib Unit

/-- `COAP_SERVER_DTLS_HANDSHAKE_ATTEMPTS`, coap_server.c:63. -/
abbrev ATTEMPTS : Nat := 60

/-- The body of the loop of `coap_server_trans_dtls_handshake` after the test of `errno`, coap_server.c:413-456, with `n` attempts left; `more` is the rest
of the loop. The value `-1` is `EIO` here. -/
def shakeAfter (r : Shake) (n : Nat) (w : World) (more : World → Option Err × World) : Option Err × World :=
  match r with
  | .success => (none, w)
  | .timedOut => (some .ETIMEDOUT, w)
  | .alert => (some .ECONNRESET, w)
  | .other => (some .EIO, w)
  | .again =>
    if n = 0 then more w
    else
      match listenTimeout w with
      | (.error e, w) => (some e, w)
      | (.ok _, w) => more w

/-- The loop of `coap_server_trans_dtls_handshake`, coap_server.c:404-457, with `n` attempts left. -/
def shakeLoop (a : Addr) (hs : Nat → Lib Shake) : (n : Nat) → World → Option Err × World
  | 0, w => (some .ETIMEDOUT, w)
  | n + 1, w =>
    let r := (hs (ATTEMPTS - (n + 1))).call a { w with errno := none }
    match r.2.errno with
    | some e => if e ≠ .EAGAIN then (some e, r.2) else shakeAfter r.1 n r.2 (shakeLoop a hs n)
    | none => shakeAfter r.1 n r.2 (shakeLoop a hs n)

/-- `coap_server_trans_dtls_handshake`, coap_server.c:391-458. -/
def shake (a : Addr) (hs : Nat → Lib Shake) (w : World) : Option Err × World := shakeLoop a hs ATTEMPTS w

/-- `coap_server_trans_dtls_create`, coap_server.c:570-618; `auth` is `COAP_CLIENT_AUTH`. -/
def sessionCreate (auth : Bool) (a : Addr) (c : Calls) (w : World) : Option Err × World :=
  if c.create = false then (some .EIO, w)
  else
    match shake a c.handshake w with
    | (some e, w) => (some e, w)
    | (none, w) => if auth = true ∧ c.verified = false then (some .EIO, w) else (none, w)

/-- `coap_server_trans_dtls_destroy`, coap_server.c:625-629: the part of `coap_server_trans_destroy` that uses the socket. -/
def bye (a : Addr) (c : Calls) (w : World) : World := (c.bye.call a w).2

/-- The transaction that has to give way to a new client, coap_server.c:2264-2269. -/
def evicted (s : Srv) : Option Trans :=
  match findEmpty s.trans with
  | some _ => none
  | none => s.trans[findOldest s.trans]?

/-- The end of its session. -/
def farewell (c : Calls) (s : Srv) (w : World) : World :=
  match evicted s with
  | some t => bye t.addr c w
  | none => w

/-- A new client, coap_server.c:2261-2281 and `coap_server_trans_create`, coap_server.c:1342-1386. -/
def admit (auth : Bool) (env : Env) (c : Calls) (a : Addr) (s : Srv) (w : World) : Srv × World × Option Err :=
  let i := (makeRoom s).1
  let s1 := (makeRoom s).2
  let w := farewell c s w
  match createT env a with
  | .error e => ({ s1 with trans := s1.trans.set i Trans.zero }, w, some e)
  | .ok t =>
    match sessionCreate auth a c w with
    | (some e, w) => ({ s1 with trans := s1.trans.set i Trans.zero }, w, some e)
    | (none, w) => ({ s1 with trans := s1.trans.set i t }, w, none)

/-- The beginning of `coap_server_trans_recv` with DTLS, coap_server.c:1042-1074. The value `-1` is `EIO` here. -/
def record (a : Addr) (c : Calls) (w : World) : Except Err Bytes × World :=
  let r := c.recv.call a { w with errno := none }
  match r.2.errno with
  | some e => (.error e, r.2)
  | none =>
    match r.1 with
    | .alert => (.error .ECONNRESET, r.2)
    | .again => (.error .EAGAIN, r.2)
    | .other => (.error .EIO, r.2)
    | .data b => if b = [] then (.error .ECONNRESET, r.2) else (.ok b, r.2)

/-- The session of a transaction that is no longer active has been ended. In the code this happens at the end of the exchange, before
`coap_server_exchange` or `coap_server_trans_handle_ack_timeout` returns. -/
def ended (i : Nat) (a : Addr) (c : Calls) (s : Srv) (w : World) : World :=
  match s.trans[i]? with
  | some t => if t.active = true then w else bye a c w
  | none => w

/-- `coap_server_exchange` for a client with a session, coap_server.c:2283-2546. -/
def serve (sx : Bool) (env : Env) (c : Calls) (i : Nat) (s : Srv) (w : World) : Out (Srv × World × List Obs × Option Err) :=
  match s.trans[i]? with
  | none => .ub
  | some t =>
    match record t.addr c w with
    | (.error e, w) =>
      if e = .EAGAIN then .ok (s, w, [], none)
      else
        .ok ({ s with trans := s.trans.set i (destroy t s.large).1, large := (destroy t s.large).2 }, bye t.addr c w, [], some e)
    | (.ok d, w) =>
      match exchangeAt sx { env with acceptErr := none, recvErr := none } s i d with
      | .ub => .ub
      | .err e => .err e
      | .ok (s1, o, e) => .ok (s1, ended i t.addr c s1 w, o, e)

/-- `coap_server_exchange` with DTLS, coap_server.c:2239-2546; `coap_server_accept`, coap_server.c:2184-2196. -/
def exchange (sx auth : Bool) (env : Env) (c : Calls) (s : Srv) (w : World) : Out (Srv × World × List Obs × Option Err) :=
  match peek BUF_LEN w with
  | (none, w) => .ok (s, w, [], w.errno)
  | (some (_, a), w) =>
    match findTrans s.trans a with
    | some i => serve sx env c i s w
    | none => .ok ((admit auth env c a s w).1, (admit auth env c a s w).2.1, [], (admit auth env c a s w).2.2)

/-- The timer of transaction `i`, coap_server.c:2154-2165. -/
def timer (env : Env) (c : Calls) (i : Nat) (s : Srv) (w : World) : Out (Srv × World × List Obs × Option Err) :=
  match s.trans[i]? with
  | none => .ok (s, w, [], none)
  | some t =>
    match Server.timer env s i with
    | .ub => .ub
    | .err e => .err e
    | .ok (s1, o, e) => .ok (s1, if t.active = true then ended i t.addr c s1 w else w, o, e)

/-- What can happen to the server: the socket is readable, a timer expires, the application asks for a message id. -/
inductive Event where
  | turn
  | timer (i : Nat)
  | appId
  deriving DecidableEq, Repr

/-- An event with the decisions of the environment and of GnuTLS. -/
structure Input where
  env : Env
  calls : Calls
  ev : Event

/-- One event. `coap_server_run`, coap_server.c:2548-2573. -/
def step (sx auth : Bool) (x : Input) (s : Srv) (w : World) : Out (Srv × World × List Obs × Option Err) :=
  match x.ev with
  | .turn => exchange sx auth x.env x.calls s w
  | .timer i => timer x.env x.calls i s w
  | .appId => .ok ({ s with msgId := nextMsgId s.msgId x.env.idRand }, w, [], none)

/-- A history: the final state and what was seen at each event. -/
def run (sx auth : Bool) : List Input → Srv → World → Out (Srv × World × List (List Obs))
  | [], s, w => .ok (s, w, [])
  | x :: rest, s, w =>
    match step sx auth x s w with
    | .ub => .ub
    | .err e => .err e
    | .ok (s1, w1, o, _) =>
      match run sx auth rest s1 w1 with
      | .ub => .ub
      | .err e => .err e
      | .ok (s2, w2, os) => .ok (s2, w2, o :: os)

end FreeCoAP.Server.Dtls
