import Verif.Common
import Verif.Tls.ModelIo

/-!
# Model of the descriptors of the proxy

The sockets and timers that the threads of `proxy/http_coap` hold, and the descriptor sets that they are put into before `select` is called. The
steps of different threads are interleaved in any order; one step is one system call or one descriptor set. What is read and written is in
`Proxy.Model`, `Tls.ModelIo` and `Client.Model`.
-/

namespace FreeCoAP.Proxy.Fds

/-- The lowest descriptor that is not in use: what `accept`, `socket` and `timerfd_create` return according to POSIX. -/
def lowest (used : List Nat) : Option Nat :=
  (List.range (used.length + 1)).find? (fun n => !used.contains n)

/-- A system call that opens a descriptor. `lim` is the limit of the process (`RLIMIT_NOFILE`); `none` is `EMFILE`. -/
def opened (lim : Nat) (used : List Nat) : Option Nat :=
  match lowest used with
  | some n => if n < lim then some n else none
  | none => none

/-- `FD_ZERO` and `FD_SET` of each of the descriptors: a descriptor of 1024 or more is outside the array of bits. -/
def fdSets (fds : List Nat) : Out Unit :=
  if fds.any (fun fd => decide (fd ≥ Tls.Io.FD_SETSIZE)) then .ub else .ok ()

/-- The descriptors of the CoAP client of a connection: none, the socket (coap_client.c 594), the socket and the timer (coap_client.c 632). -/
inductive Coap where
  | none
  | sock (sd : Nat)
  | both (sd timer : Nat)
  deriving DecidableEq, Repr

/-- The descriptors of a CoAP client. -/
def Coap.fds : Coap → List Nat
  | .none => []
  | .sock sd => [sd]
  | .both sd timer => [sd, timer]

/-- A socket connected to an HTTP client, from `accept` in `tls_ssock_accept` (tls_sock.c 765) until it is closed in `tls_ssock_accept` or in
`connection_delete` (connection.c 800–812), and the CoAP client of the connection. -/
structure Conn where
  sd : Nat
  coap : Coap
  deriving DecidableEq, Repr

/-- The descriptors of a connection. -/
def Conn.fds (c : Conn) : List Nat := c.sd :: c.coap.fds

/-- The open descriptors of the process: the listening sockets, the connections and all others (the standard streams, files that GnuTLS reads,
sockets of `getaddrinfo`). -/
structure State where
  listeners : List Nat
  conns : List Conn
  others : List Nat
  deriving DecidableEq, Repr

/-- All open descriptors. -/
def State.used (s : State) : List Nat := s.listeners ++ (s.conns.flatMap Conn.fds ++ s.others)

/-- The steps of the threads. -/
inductive Event where
  /-- a listener waits for a connection (`tls_ssock_accept`, tls_sock.c 781–783) -/
  | listen (k : Nat)
  /-- a listener takes a connection (`tls_ssock_accept`, tls_sock.c 765; listener.c 56–95); if this fails it goes on -/
  | accept
  /-- the thread of connection `i`, or the listener during the handshake, waits for the HTTP client (`connection_recv`, connection.c 206–209;
  `tls_sock_handshake`, `tls_sock_read`, `tls_sock_write`, tls_sock.c) -/
  | wait (i : Nat)
  /-- `socket` in `coap_client_create` (coap_client.c 594); `connection_coap_client_create` is called when there is no CoAP client -/
  | coapSocket (i : Nat)
  /-- `timerfd_create` in `coap_client_create` (coap_client.c 632–638): if it fails the socket is closed -/
  | coapTimer (i : Nat)
  /-- the handshake with the CoAP server and the wait without a timer (`coap_client_dtls_listen_timeout`, coap_client.c 96–98) -/
  | coapShake (i : Nat)
  /-- the client waits for an acknowledgement or a response (`coap_client_listen_ack`, `coap_client_listen_resp`, coap_client.c 1172–1180 and
  1218–1226) -/
  | coapWait (i : Nat)
  /-- the descriptors of the CoAP client are closed: `coap_client_destroy` (coap_client.c 653–661) or a failure in `coap_client_create`
  (coap_client.c 602, 619, 626, 643–644) -/
  | coapClose (i : Nat)
  /-- the connection is closed: `connection_delete` (connection.c 800–812) or a failed handshake in `tls_ssock_accept` -/
  | close (i : Nat)
  /-- the process opens another descriptor -/
  | openOther
  /-- the process closes another descriptor -/
  | closeOther (i : Nat)
  deriving DecidableEq, Repr

/-- The connection `i` with other descriptors for its CoAP client. -/
def State.setCoap (s : State) (i : Nat) (c : Conn) (x : Coap) : State :=
  { s with conns := s.conns.set i { c with coap := x } }

/-- One step. A step of a thread that does not exist changes nothing. -/
def step (lim : Nat) (s : State) : Event → Out State
  | .listen k =>
    match s.listeners[k]? with
    | some sd => fdSets [sd] >>= fun _ => pure s
    | none => pure s
  | .accept =>
    match opened lim s.used with
    | some sd => pure { s with conns := s.conns ++ [⟨sd, .none⟩] }
    | none => pure s
  | .wait i =>
    match s.conns[i]? with
    | some c => fdSets [c.sd] >>= fun _ => pure s
    | none => pure s
  | .coapSocket i =>
    match s.conns[i]? with
    | some c =>
      match c.coap with
      | .none =>
        match opened lim s.used with
        | some sd => pure (s.setCoap i c (.sock sd))
        | none => pure s
      | _ => pure s
    | none => pure s
  | .coapTimer i =>
    match s.conns[i]? with
    | some c =>
      match c.coap with
      | .sock sd =>
        match opened lim s.used with
        | some fd => pure (s.setCoap i c (.both sd fd))
        | none => pure (s.setCoap i c .none)
      | _ => pure s
    | none => pure s
  | .coapShake i =>
    match s.conns[i]? with
    | some c =>
      match c.coap with
      | .both sd _ => fdSets [sd] >>= fun _ => pure s
      | _ => pure s
    | none => pure s
  | .coapWait i =>
    match s.conns[i]? with
    | some c =>
      match c.coap with
      | .both sd timer => fdSets [sd, timer] >>= fun _ => pure s
      | _ => pure s
    | none => pure s
  | .coapClose i =>
    match s.conns[i]? with
    | some c => pure (s.setCoap i c .none)
    | none => pure s
  | .close i => pure { s with conns := s.conns.eraseIdx i }
  | .openOther =>
    match opened lim s.used with
    | some fd => pure { s with others := s.others ++ [fd] }
    | none => pure s
  | .closeOther i => pure { s with others := s.others.eraseIdx i }

/-- A history of steps. -/
def run (lim : Nat) (s : State) : List Event → Out State
  | [] => pure s
  | e :: es => step lim s e >>= fun s' => run lim s' es

end FreeCoAP.Proxy.Fds
