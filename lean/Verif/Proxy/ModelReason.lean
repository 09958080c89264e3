import Verif.Proxy.Model
import Verif.Tls.ModelIo

/-!
# Model of the reasons that a connection logs

`sock_strerror` (`proxy/common/src/sock.c`), `http_msg_strerror` (`proxy/common/src/http_msg.c`) and the messages that `connection_recv`
(`proxy/http_coap/src/connection.c`) logs when it ends without a request. A negative `errno` value is modelled by the number that it has on Linux.
-/

namespace FreeCoAP.Proxy.Reason

open FreeCoAP.DataBuf (Buf space put consume expand slice)

/-- `sock_error_str` (sock.c 36–76). -/
def table : List String :=
  ["ok", "received interrupt", "timeout", "no memory", "invalid socket type", "invalid argument",
   "unable to open socket", "unable to configure socket", "unable to resolve address", "unable to bind to address", "unable to listen on socket",
   "unable to accept connection", "unable to connect to server", "unable to read from socket", "unable to write to socket",
   "unable to initialise SSL", "unable to load SSL trust file", "unable to load SSL certificate file", "unable to load SSL key file",
   "unable to configure socket for SSL", "unable to complete SSL handshake", "SSL cache error",
   "unable to initialise TLS", "unable to load TLS trust file", "unable to load TLS credentials", "unable to configure socket for TLS",
   "unable to complete TLS handshake", "TLS rehandshake refused", "TLS warning alert received", "TLS cache error",
   "peer certificate verification failed", "unable to close socket", "lock error"]

/-- `SOCK_NUM_ERRORS` (sock.h 73). -/
def NUM : Int := 33

/-- `sock_strerror` (sock.c 78–87); `none` is the null pointer. The negation overflows for the least `int`, and an access outside the table is
undefined. -/
def sockStrerror (error : Int) : Out (Option String) :=
  if error = -2 ^ 31 then .ub
  else
    let i := -error
    if i < 0 ∨ i ≥ NUM then .ok none
    else
      match table[i.toNat]? with
      | some t => .ok (some t)
      | none => .ub

/-- The values of the codes of `sock.h` (sock.h 39–72) that reading and writing can return. -/
def value : Tls.Io.Code → Int
  | .intr => -1
  | .timeout => -2
  | .readError => -13
  | .writeError => -14
  | .handshakeError => -26
  | .refused => -27
  | .warningAlert => -28

/-- The numbers of the `errno` values on Linux. The configuration parser's own codes do not occur in a connection. -/
def errno : Err → Int
  | .EINVAL => 22
  | .ENOMEM => 12
  | .EBADMSG => 74
  | .ENOSPC => 28
  | .ETIMEDOUT => 110
  | .ECONNRESET => 104
  | .EAGAIN => 11
  | .EIO => 5
  | .ELEXICAL => 1000
  | .ESYNTAX => 1001

/-- `http_msg_strerror` (http_msg.c 47–69). -/
def httpStrerror (error : Int) : String :=
  if error = 0 then "ok"
  else if error = -11 then "incomplete"
  else if error = -12 then "no memory"
  else if error = -74 then "format error"
  else "(unknown)"

/-- The last message of `connection_recv`: it gives `errno` for `select`, the text of `sock_strerror` for a read, and the text of `http_msg_strerror` for
the parser. -/
inductive Line where
  | received
  | timedOut
  | select (e : Err)
  | read (text : Option String)
  | closed
  | tooLong
  | noMemory
  | parse (text : String)
  | nothing
  deriving DecidableEq, Repr

/-- The messages of `connection_recv` (connection.c 193–278), along the rounds of `recv`. With each event comes the code that `tls_sock_read` returns if it
fails. `ret` is the variable of this name: it has the result of `select`, 1, when the text is parsed. -/
def line (W : Nat) : Buf → (s : Bytes) → List (In × Tls.Io.Code) → Out Line
  | _, _, [] => .ok .nothing
  | _, _, (.timeout, _) :: _ => .ok .timedOut
  | _, _, (.selectError e, _) :: _ => .ok (.select e)
  | _, _, (.readError, c) :: _ => sockStrerror (value c) >>= fun t => .ok (.read t)
  | b, s, (.data k mem fresh, _) :: es =>
    let ret : Int := 1
    let d := s.take (min k (space W b))
    if d = [] then .ok .closed
    else
      put W b d >>= fun r => slice r.2.data 0 r.2.count >>= fun t =>
      match Http.parse mem t with
      | .ok (_, n) => consume W r.2 n >>= fun _ => .ok .received
      | .err .EAGAIN =>
        if space W r.2 < MIN_SPACE then
          match expand W r.2 fresh with
          | .ok b => line W b (s.drop d.length) es
          | .err .EINVAL => .ok .tooLong
          | .err _ => .ok .noMemory
          | .ub => .ub
        else line W r.2 (s.drop d.length) es
      | .err _ => .ok (.parse (httpStrerror ret))
      | .ub => .ub

end FreeCoAP.Proxy.Reason
