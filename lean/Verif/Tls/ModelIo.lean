import Verif.Text
import Verif.Common

/-!
# Model of reading and writing on a TLS socket

`tls_sock_handshake`, `tls_sock_rehandshake`, `tls_sock_read`, `tls_sock_read_full`, `tls_sock_write` and `tls_sock_write_full` in
`proxy/common/src/tls_sock.c`. What GnuTLS and `select` do is given by lists, one element for each call; a call that finds its list empty has not
returned yet. Times are in microseconds. `select` changes its last argument to the time that is left, as it does on Linux.
-/

namespace FreeCoAP.Tls.Io

/-- The results of `gnutls_handshake`. -/
inductive Shake where
  | success
  | warning
  | interrupted
  | again
  | fatal
  deriving DecidableEq, Repr

/-- The results of `gnutls_record_recv` and `gnutls_record_send`: up to `k + 1` bytes, the end, or an error. -/
inductive Rec where
  | data (k : Nat)
  | eof
  | rehandshake
  | interrupted
  | again
  | fatal
  deriving DecidableEq, Repr

/-- The results of `select`: the socket is ready after some time, the time runs out, or there is an error. -/
inductive Sel where
  | ready (after : Nat)
  | timeout
  | intr
  | error
  deriving DecidableEq, Repr

/-- The error codes of `sock.h`. -/
inductive Code where
  | intr
  | timeout
  | readError
  | writeError
  | handshakeError
  | warningAlert
  | refused
  deriving DecidableEq, Repr

/-- The outside: what GnuTLS and `select` will do, the stream from the peer that was not read, the bytes that GnuTLS took to be sent, and the time that has
passed in `select`. -/
structure World where
  recs : List Rec
  shakes : List Shake
  sels : List Sel
  stream : Bytes
  sent : Bytes
  waited : Nat
  deriving DecidableEq, Repr

/-- The socket: its descriptor and its timeout. -/
structure Sock where
  sd : Nat
  timeout : Nat
  server : Bool

/-- `FD_SETSIZE`. -/
def FD_SETSIZE : Nat := 1024

/-- How waiting ends: with the time that is left, or with a result of the function. -/
inductive Waited where
  | left (tv : Nat)
  | ended (c : Code)
  | waiting
  deriving DecidableEq, Repr

/-- `FD_SET` and `select` with the tests of the result (tls_sock.c 296–312, 566–582, 640–656). `FD_SET` writes outside the set if the descriptor is too large.
`fail` is the code for an error. -/
def await (s : Sock) (fail : Code) (tv : Nat) (w : World) : Out (Waited × World) :=
  if s.sd ≥ FD_SETSIZE then .ub
  else
    match w.sels with
    | [] => .ok (.waiting, w)
    | .ready d :: sels => .ok (.left (tv - min d tv), { w with sels := sels, waited := w.waited + min d tv })
    | .timeout :: sels => .ok (.ended .timeout, { w with sels := sels, waited := w.waited + tv })
    | .intr :: sels => .ok (.ended .intr, { w with sels := sels })
    | .error :: sels => .ok (.ended fail, { w with sels := sels })

/-- How a handshake ends. -/
inductive Hand where
  | ok
  | ended (c : Code)
  | waiting
  deriving DecidableEq, Repr

/-- The loop of `tls_sock_handshake` (tls_sock.c 277–313). -/
def shakeLoop (s : Sock) : List Shake → (tv : Nat) → World → Out (Hand × World)
  | [], _, w => .ok (.waiting, { w with shakes := [] })
  | .success :: l, _, w => .ok (.ok, { w with shakes := l })
  | .warning :: l, _, w => .ok (.ended .warningAlert, { w with shakes := l })
  | .interrupted :: l, _, w => .ok (.ended .intr, { w with shakes := l })
  | .fatal :: l, _, w => .ok (.ended .handshakeError, { w with shakes := l })
  | .again :: l, tv, w =>
    await s .handshakeError tv { w with shakes := l } >>= fun r =>
    match r.1 with
    | .left tv => shakeLoop s l tv r.2
    | .ended c => .ok (.ended c, r.2)
    | .waiting => .ok (.waiting, r.2)

/-- `tls_sock_handshake` (tls_sock.c 267–314). -/
def handshake (s : Sock) (w : World) : Out (Hand × World) := shakeLoop s w.shakes s.timeout w

/-- `tls_sock_rehandshake` (tls_sock.c 474–507): `asked` is the success of `gnutls_rehandshake` and `refuses` tells whether the alert is
`GNUTLS_A_NO_RENEGOTIATION`. -/
def rehandshake (s : Sock) (asked refuses : Bool) (w : World) : Out (Hand × World) :=
  if s.server ∧ asked then
    handshake s w >>= fun r =>
    match r.1 with
    | .ok => .ok (.ok, r.2)
    | .waiting => .ok (.waiting, r.2)
    | .ended .intr => .ok (.ended .intr, r.2)
    | .ended .warningAlert => .ok (.ended (if refuses then .refused else .handshakeError), r.2)
    | .ended _ => .ok (.ended .handshakeError, r.2)
  else .ok (.ended .handshakeError, w)

/-- How a read or a write ends: with bytes, with 0, with an error, or not yet. For a write, `bytes` are the ones that were taken. -/
inductive Ret where
  | bytes (b : Bytes)
  | closed
  | ended (c : Code)
  | waiting
  deriving DecidableEq, Repr

/-- The loop of `tls_sock_read` (tls_sock.c 528–583). GnuTLS gives bytes only if there are some in the stream, and a call with no space is an invalid request. -/
def readLoop (s : Sock) (len : Nat) : List Rec → (tv : Nat) → World → Out (Ret × World)
  | [], _, w => .ok (.waiting, { w with recs := [] })
  | e :: l, tv, w =>
    let again : World → Out (Ret × World) := fun w =>
      await s .readError tv w >>= fun r =>
      match r.1 with
      | .left tv => readLoop s len l tv r.2
      | .ended c => .ok (.ended c, r.2)
      | .waiting => .ok (.waiting, r.2)
    if len = 0 then .ok (.ended .readError, { w with recs := l })
    else
      match e with
      | .data k =>
        if w.stream = [] then again { w with recs := l }
        else .ok (.bytes (w.stream.take (min (k + 1) len)), { w with recs := l, stream := w.stream.drop (min (k + 1) len) })
      | .eof => .ok (.closed, { w with recs := l })
      | .rehandshake =>
        handshake s { w with recs := l } >>= fun r =>
        match r.1 with
        | .ok => again r.2
        | .ended c => .ok (.ended c, r.2)
        | .waiting => .ok (.waiting, r.2)
      | .interrupted => .ok (.ended .intr, { w with recs := l })
      | .again => again { w with recs := l }
      | .fatal => .ok (.ended .readError, { w with recs := l })

/-- `tls_sock_read` (tls_sock.c 518–584). -/
def read (s : Sock) (len : Nat) (w : World) : Out (Ret × World) := readLoop s len w.recs s.timeout w

/-- `tls_sock_read_full` (tls_sock.c 590–605): `got` is in the buffer of the caller. `fuel` is the number of bytes that are missing, and does not run out, as
each read gives at least one. -/
def readFull (s : Sock) (len : Nat) : (fuel : Nat) → (got : Bytes) → World → Out (Ret × World)
  | 0, got, w => .ok (.bytes got, w)
  | fuel + 1, got, w =>
    if got.length < len then
      read s (len - got.length) w >>= fun r =>
      match r.1 with
      | .bytes b => readFull s len fuel (got ++ b) r.2
      | e => .ok (e, r.2)
    else .ok (.bytes got, w)

/-- The loop of `tls_sock_write` (tls_sock.c 621–657). -/
def writeLoop (s : Sock) (buf : Bytes) : List Rec → (tv : Nat) → World → Out (Ret × World)
  | [], _, w => .ok (.waiting, { w with recs := [] })
  | .data k :: l, _, w => .ok (.bytes (buf.take (k + 1)), { w with recs := l, sent := w.sent ++ buf.take (k + 1) })
  | .eof :: l, _, w => .ok (.closed, { w with recs := l })
  | .interrupted :: l, _, w => .ok (.ended .intr, { w with recs := l })
  | .again :: l, tv, w =>
    await s .writeError tv { w with recs := l } >>= fun r =>
    match r.1 with
    | .left tv => writeLoop s buf l tv r.2
    | .ended c => .ok (.ended c, r.2)
    | .waiting => .ok (.waiting, r.2)
  | .rehandshake :: l, _, w => .ok (.ended .writeError, { w with recs := l })
  | .fatal :: l, _, w => .ok (.ended .writeError, { w with recs := l })

/-- `tls_sock_write` (tls_sock.c 611–658). -/
def write (s : Sock) (buf : Bytes) (w : World) : Out (Ret × World) := writeLoop s buf w.recs s.timeout w

/-- `tls_sock_write_full` (tls_sock.c 664–679): `done` was written before. `fuel` is the number of bytes that are missing. -/
def writeFull (s : Sock) : (fuel : Nat) → (done todo : Bytes) → World → Out (Ret × World)
  | 0, done, _, w => .ok (.bytes done, w)
  | fuel + 1, done, todo, w =>
    if todo ≠ [] then
      write s todo w >>= fun r =>
      match r.1 with
      | .bytes b => writeFull s fuel (done ++ b) (todo.drop b.length) r.2
      | e => .ok (e, r.2)
    else .ok (.bytes done, w)

end FreeCoAP.Tls.Io
