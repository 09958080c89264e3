import Verif.Client.Model

/-!
# The client over DTLS (`COAP_DTLS_EN`)

lib/src/coap_client.c, the parts between `#ifdef COAP_DTLS_EN` and `#endif`. GnuTLS reads from the socket of the client and writes to it through three
call-back functions of the client. What GnuTLS does between its call-backs is not modelled: each call of one of its functions is an arbitrary program
over the call-backs (`Lib`), so the theorems hold for every library. The objects of GnuTLS are the subject of Verif/Res, the check of the certificate
that of C84.

The socket is connected (coap_client.c:583): the kernel gives it datagrams of the server only. Not modelled: how long a call takes. The datagrams by
which `gnutls_record_send` sends a message are not modelled either: a message sent is an `Obs.sent` as in Verif/Client/Model, and the failures of
coap_client.c:819-838 are those of the `Input`.
-/

namespace FreeCoAP.Client.Dtls

open FreeCoAP.Msg

/-- What happens at a system call: these datagrams have arrived since the one before; the call fails. -/
structure Moment where
  arrive : List Bytes
  fail : Option Err
  deriving DecidableEq, Repr

/-- A datagram read by the session, a datagram sent by it. -/
inductive Io where
  | pulled (data : Bytes)
  | pushed (data : Bytes)
  deriving DecidableEq, Repr

/-- The socket of the client, `errno` and what the session has read and written. The trace does not exist in the code. When `future` is used up, nothing
arrives any more. -/
structure World where
  queue : List Bytes
  future : List Moment
  errno : Option Err
  trace : List Io
  deriving DecidableEq, Repr

/-- A system call begins. -/
def World.next (w : World) : Option Err × World :=
  match w.future with
  | [] => (none, w)
  | m :: rest => (m.fail, { w with queue := w.queue ++ m.arrive, future := rest })

/-- `-1` with `errno` set. -/
def World.fail (w : World) (e : Err) : World := { w with errno := some e }

/-- `coap_client_dtls_pull_func`, coap_client.c:130-143: `none` is `-1`. The socket does not block (coap_client.c:606); a datagram is cut to the length of
the buffer. -/
def pull (len : Nat) (w : World) : Option Bytes × World :=
  match w.next with
  | (some e, w) => (none, w.fail e)
  | (none, w) =>
    match w.queue with
    | [] => (none, w.fail .EAGAIN)
    | d :: q => (some (d.take len), { w with queue := q, trace := w.trace ++ [.pulled (d.take len)] })

/-- `coap_client_dtls_listen_timeout`, coap_client.c:86-114: `false` is a timeout. `select` returns at once if there is a datagram. -/
def listenTimeout (w : World) : Except Err Bool × World :=
  match w.next with
  | (some e, w) => (.error e, w.fail e)
  | (none, w) => (.ok (!w.queue.isEmpty), w)

/-- `recv` with `MSG_PEEK` into the buffer of `COAP_CLIENT_DTLS_MTU` bytes (coap_client.c:59 and 162): the length. -/
def peek (w : World) : Option Nat × World :=
  match w.next with
  | (some e, w) => (none, w.fail e)
  | (none, w) =>
    match w.queue with
    | [] => (none, w.fail .EAGAIN)
    | d :: _ => (some (d.take BUF_LEN).length, w)

/-- `coap_client_dtls_pull_timeout_func`, coap_client.c:159-180: `none` is `-1`. -/
def wait (w : World) : Option Nat × World :=
  match listenTimeout w with
  | (.error _, w) => (none, w)
  | (.ok false, w) => (some 0, w)
  | (.ok true, w) => peek w

/-- `coap_client_dtls_push_func`, coap_client.c:195-208: `false` is `-1`. -/
def push (b : Bytes) (w : World) : Bool × World :=
  match w.next with
  | (some e, w) => (false, w.fail e)
  | (none, w) => (true, { w with trace := w.trace ++ [.pushed b] })

/-- A function of GnuTLS: a program over the call-backs that in the end returns a value, and may change `errno`. -/
inductive Lib (α : Type) where
  | done (r : α) (errno : Option Err → Option Err)
  | pull (len : Nat) (k : Option Bytes → Lib α)
  | wait (k : Option Nat → Lib α)
  | push (b : Bytes) (k : Bool → Lib α)

/-- A call of the function. -/
def Lib.call : Lib α → World → α × World
  | .done r f, w => (r, { w with errno := f w.errno })
  | .pull len k, w => Lib.call (k (Dtls.pull len w).1) (Dtls.pull len w).2
  | .wait k, w => Lib.call (k (Dtls.wait w).1) (Dtls.wait w).2
  | .push b k, w => Lib.call (k (Dtls.push b w).1) (Dtls.push b w).2

/-- The values of `gnutls_handshake` that the client distinguishes. -/
inductive Shake where
  | success | timedOut | alert | again | other
  deriving DecidableEq, Repr

/-- The values of `gnutls_record_recv` that the client distinguishes: so many bytes (0 is the end of the session), alert, `GNUTLS_E_AGAIN`, another
error. -/
inductive Rec where
  | data (b : Bytes)
  | alert | again | other
  deriving DecidableEq, Repr

/-- `COAP_CLIENT_DTLS_HANDSHAKE_ATTEMPTS`, coap_client.c:62. -/
abbrev ATTEMPTS : Nat := 60

/-- The body of the loop of `coap_client_dtls_handshake` after the test of `errno`, coap_client.c:240-283, with `n` attempts left; `more` is the rest of
the loop. The value `-1` is `EIO` here. -/
def shakeAfter (r : Shake) (n : Nat) (w : World) (more : World → Option Err × World) : Option Err × World :=
  match r with
  | .success => (none, w)
  | .timedOut => (some .ETIMEDOUT, w)
  | .alert => (some .ECONNRESET, w)
  | .other => (some .EIO, w)
  | .again =>
    if n = 0 then more w
    else
      match listenTimeout w with
      | (.error e, w) => (some e, w)
      | (.ok _, w) => more w

/-- The loop of `coap_client_dtls_handshake`, coap_client.c:231-284, with `n` attempts left. -/
def shakeLoop (hs : Nat → Lib Shake) : (n : Nat) → World → Option Err × World
  | 0, w => (some .ETIMEDOUT, w)
  | n + 1, w =>
    let r := (hs (ATTEMPTS - (n + 1))).call { w with errno := none }
    match r.2.errno with
    | some e => if e ≠ .EAGAIN then (some e, r.2) else shakeAfter r.1 n r.2 (shakeLoop hs n)
    | none => shakeAfter r.1 n r.2 (shakeLoop hs n)

/-- `coap_client_dtls_create`, coap_client.c:407-523: `setup` says whether the calls up to the handshake succeed, `handshake i` is attempt `i` of the
handshake, `verified` the result of `coap_client_dtls_verify_peer_cert`. -/
def create (setup : Bool) (handshake : Nat → Lib Shake) (verified : Bool) (w : World) : Option Err × World :=
  if setup = false then (some .EIO, w)
  else
    match shakeLoop handshake ATTEMPTS w with
    | (some e, w) => (some e, w)
    | (none, w) => if verified = false then (some .EIO, w) else (none, w)

/-- The beginning of `coap_client_recv` with DTLS, coap_client.c:911-940. The value `-1` is `EIO` here. -/
def record (p : Lib Rec) (w : World) : Except Err Bytes × World :=
  let r := p.call { w with errno := none }
  match r.2.errno with
  | some e => (.error e, r.2)
  | none =>
    match r.1 with
    | .alert => (.error .ECONNRESET, r.2)
    | .again => (.error .EAGAIN, r.2)
    | .other => (.error .EIO, r.2)
    | .data b => if b = [] then (.error .ECONNRESET, r.2) else (.ok b, r.2)

/-- What a call of `select` finds: the socket is readable (with or without the timer having expired too), only the timer has expired, an error of
`select` itself. -/
inductive Sel where
  | readable
  | timer
  | selectErr (e : Err)
  deriving DecidableEq, Repr

/-- One return of `select` with the datagrams that have arrived since the last system call, what GnuTLS does if a record is asked for, and the failures
of the other calls while it is handled. -/
structure Input where
  ev : Sel
  arrive : List Bytes
  recv : Lib Rec
  sendErr : Option Err
  timerErr : Option Err
  parseMem : Bool

/-- The failures of the other calls, with an event of the client without DTLS. -/
def Input.with (i : Input) (ev : Ev) : Client.Input := ⟨ev, i.sendErr, i.timerErr, i.parseMem⟩

/-- The rest of `coap_client_recv`, coap_client.c:947-958, and the loop bodies as in `Client.step`. -/
def message (sx px : Bool) (req : Msg) (w : Wait) (i : Client.Input) (d : Bytes) : Out (List Obs × Next) :=
  match Client.recv sx i d with
  | .ub => .ub
  | .err e => .err e
  | .ok (o, .error e) => if e = .EAGAIN then .ok (o, .go w) else .ok (o, .done (.error e))
  | .ok (o, .ok m) =>
    match handle px req w i m with
    | .ok (o2, n) => .ok (o ++ o2, n)
    | .err e => .err e
    | .ub => .ub

/-- One return of `select`, coap_client.c:1164-1197 and 1210-1240, and what follows until the next one. -/
def step (sx px : Bool) (req : Msg) (w : Wait) (i : Input) (u : World) : Out (List Obs × Next) × World :=
  let u := { u with queue := u.queue ++ i.arrive }
  match i.ev with
  | .selectErr e => (.ok ([], .done (.error e)), u)
  | .timer => (expire req w (i.with .timer), u)
  | .readable =>
    match record i.recv u with
    | (.error e, u) => (if e = .EAGAIN then .ok ([], .go w) else .ok ([], .done (.error e)), u)
    | (.ok d, u) => (message sx px req w (i.with (.datagram d)) d, u)

/-- The loops of `coap_client_exchange_con`, `_sep` and `_non` over the inputs. -/
def waits (sx px : Bool) (req : Msg) : Wait → List Input → World → Out (List Obs × Option (Except Err Msg)) × World
  | _, [], u => (.ok ([], none), u)
  | w, i :: is, u =>
    match step sx px req w i u with
    | (.ub, u) => (.ub, u)
    | (.err e, u) => (.err e, u)
    | (.ok (o, .done r), u) => (.ok (o, some r), u)
    | (.ok (o, .go w), u) =>
      match waits sx px req w is u with
      | (.ok (o2, r), u) => (.ok (o ++ o2, r), u)
      | (.err e, u) => (.err e, u)
      | (.ub, u) => (.ub, u)

/-- `coap_client_exchange`, coap_client.c:1572-1633. The `inputs` of `x` are not used. -/
def exchange (sx px : Bool) (x : XEnv) (req : Msg) (is : List Input) (u : World) : Out (List Obs × Option (Except Err Msg)) × World :=
  if req.type = ACK ∨ req.type = RST ∨ req.codeClass ≠ 0 then (.ok ([], some (.error .EINVAL)), u)
  else
    match setMsgId req x.id with
    | .ub => (.ub, u)
    | .err e => (.ok ([], some (.error e)), u)
    | .ok req =>
      match setToken req x.token with
      | .ub => (.ub, u)
      | .err e => (.ok ([], some (.error e)), u)
      | .ok req =>
        match Client.send x.sendErr req with
        | .ub => (.ub, u)
        | .err e => (.err e, u)
        | .ok (o, some e) => (.ok (o, some (.error e)), u)
        | .ok (o, none) =>
          if req.type = CON ∨ req.type = NON then
            let (o2, w) := startWait x req.type
            match waits sx px req w is u with
            | (.ok (o3, r), u) => (.ok (o ++ o2 ++ o3, r), u)
            | (.err e, u) => (.err e, u)
            | (.ub, u) => (.ub, u)
          else (.ok (o, some (.error .EINVAL)), u)

/-! ## A library that keeps records

A datagram may carry several records (RFC 6347, section 4.1.1). GnuTLS returns one of them at each call of `gnutls_record_recv` and keeps the others. -/

/-- `gnutls_record_recv` of GnuTLS for application data: first the records it has kept, then those of the next datagram. A datagram without a record of the
session is dropped. The buffer is long enough for every UDP datagram. With the value: the records it keeps. `opens` gives the records of a datagram; that it may depend on the datagrams before is not
modelled. -/
def recordRecv (opens : Bytes → List Bytes) : List Bytes → Lib (Rec × List Bytes)
  | r :: rest => .done (.data r, rest) _root_.id
  | [] => .pull 65535 fun
    | none => .done (.again, []) _root_.id
    | some d =>
      match opens d with
      | [] => .done (.again, []) _root_.id
      | r :: rest => .done (.data r, rest) _root_.id

/-- Only the value. -/
def Lib.fst : Lib (α × β) → Lib α
  | .done r f => .done r.1 f
  | .pull len k => .pull len (fun x => (k x).fst)
  | .wait k => .wait (fun x => (k x).fst)
  | .push b k => .push b (fun x => (k x).fst)

/-- The client is about to call `select`, or is waiting in it: these datagrams have arrived, and the timer has expired or not. -/
structure Act where
  arrive : List Bytes
  expired : Bool
  deriving DecidableEq, Repr

/-- What `select` finds, coap_client.c:1181-1194 and 1227-1238: the socket is looked at before the timer, and what GnuTLS keeps is not looked at. If there
is neither, `select` does not return. `buf` are the records kept by GnuTLS. -/
def feed (opens : Bytes → List Bytes) : List Act → List Bytes → World → List Input
  | [], _, _ => []
  | a :: as, buf, u =>
    let u := { u with queue := u.queue ++ a.arrive }
    if u.queue ≠ [] then
      let r := (recordRecv opens buf).call { u with errno := none }
      ⟨.readable, a.arrive, (recordRecv opens buf).fst, none, none, true⟩ :: feed opens as r.1.2 r.2
    else if a.expired = true then ⟨.timer, a.arrive, (recordRecv opens buf).fst, none, none, true⟩ :: feed opens as buf u
    else feed opens as buf u

/-- The state after the events: the records that were given to the client, those kept by GnuTLS, the socket. -/
structure After where
  given : List Bytes
  kept : List Bytes
  world : World

/-- One event. -/
def After.next (opens : Bytes → List Bytes) (s : After) (a : Act) : After :=
  let u := { s.world with queue := s.world.queue ++ a.arrive }
  if u.queue ≠ [] then
    let r := (recordRecv opens s.kept).call { u with errno := none }
    match r.1.1 with
    | .data d => ⟨s.given ++ [d], r.1.2, r.2⟩
    | _ => ⟨s.given, r.1.2, r.2⟩
  else ⟨s.given, s.kept, u⟩

/-- All events, for a new session. -/
def after (opens : Bytes → List Bytes) (as : List Act) : After :=
  as.foldl (After.next opens) ⟨[], [], ⟨[], [], none, []⟩⟩

end FreeCoAP.Client.Dtls
