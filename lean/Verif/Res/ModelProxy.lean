import Verif.Res.Model

/-!
# Model of the acquisition and release of resources in the proxy

The functions of `proxy/common/src/tls.c`, `tls_sock.c`, `thread.c`, `proxy/common/include/lock.h` and `proxy/http_coap/src/listener.c`,
`connection.c` that create and destroy objects. `prio` is the priority cache of `tls.c`; `auth` tells whether `TLS_CLIENT_AUTH` is defined. Loops
without a bound are `cut` after a number of turns that is a parameter.
-/

namespace FreeCoAP.Res

/-- `GNUTLS_E_INTERRUPTED`. -/
def INTERRUPTED : Int := -52
/-- `EINTR`. -/
def EINTR : Nat := 4

/-! ## Locks, and the objects of `tls.c` -/

/-- `tls_init` when GnuTLS has not been initialised by it (tls.c 42–61): the priority cache. -/
def tlsInit : Prog (Option Nat) :=
  sys .globalInit [] >>= fun g =>
  if g.1 ≠ 0 then pure none
  else sys .prioInit [] >>= fun p => if p.1 ≠ 0 then pure none else pure (some p.2)

/-- `tls_deinit` (tls.c 63–71). -/
def tlsDeinit (prio : Nat) : Prog Unit := run_ .prioDeinit [prio] >>= fun _ => run_ .globalDeinit [0]

/-- `lock_create` (lock.h 41–69). -/
def lockCreate : Prog (Option Nat) :=
  sys .mattrInit [] >>= fun a =>
  if a.1 ≠ 0 then pure none
  else
    sys .mattrSet [a.2] >>= fun r =>
    if r.1 ≠ 0 then run_ .mattrDestroy [a.2] >>= fun _ => pure none
    else
      sys .mutexInit [a.2] >>= fun m =>
      if m.1 ≠ 0 then run_ .mattrDestroy [a.2] >>= fun _ => pure none
      else sys .mattrDestroy [a.2] >>= fun r => if r.1 ≠ 0 then pure none else pure (some m.2)

/-- `tls_client_t` and `tls_server_t` (tls.h): credentials, parameters, elements of the cache, lock. -/
structure Tls where
  cred : Nat
  dh : Option Nat
  cache : Nat
  lock : Nat

/-- `gnutls_dh_params_deinit` if there are parameters. -/
def dhFree : Option Nat → Prog Unit
  | none => pure ()
  | some h => run_ .dhDeinit [h]

/-- The ends of `tls_client_create` (tls.c 206–236) and `tls_server_create` (tls.c 437–457): cache and lock. -/
def tlsCache (cred : Nat) (dh : Option Nat) : Prog (Option Tls) :=
  sys .malloc [] >>= fun m =>
  if m.1 = 0 then dhFree dh >>= fun _ => run_ .credFree [cred] >>= fun _ => pure none
  else
    lockCreate >>= fun k =>
    match k with
    | none => run_ .free [m.2] >>= fun _ => dhFree dh >>= fun _ => run_ .credFree [cred] >>= fun _ => pure none
    | some k => pure (some ⟨cred, dh, m.2, k⟩)

/-- Key file and parameters (tls.c 177–204 and 410–435). -/
def tlsKey (cred : Nat) : Prog (Option Tls) :=
  sys .setKey [cred] >>= fun r =>
  if r.1 ≠ 0 then run_ .credFree [cred] >>= fun _ => pure none
  else
    sys .dhInit [] >>= fun h =>
    if h.1 ≠ 0 then run_ .credFree [cred] >>= fun _ => pure none
    else
      sys .dhGenerate [h.2] >>= fun r =>
      if r.1 ≠ 0 then run_ .dhDeinit [h.2] >>= fun _ => run_ .credFree [cred] >>= fun _ => pure none
      else run_ .setDh [cred, h.2] >>= fun _ => tlsCache cred (some h.2)

/-- `tls_client_create` (tls.c 153–236); `key` tells whether the names of the files for the certificate and the key are given. -/
def tlsClientCreate (auth key : Bool) : Prog (Option Tls) :=
  sys .credAlloc [] >>= fun c =>
  if c.1 ≠ 0 then pure none
  else
    sys .setTrust [c.2] >>= fun r =>
    if r.1 < 0 then run_ .credFree [c.2] >>= fun _ => pure none
    else if auth ∧ key then tlsKey c.2
    else tlsCache c.2 none

/-- `tls_client_destroy` (tls.c 238–250). -/
def tlsClientDestroy (t : Tls) : Prog Unit :=
  run_ .mutexDestroy [t.lock] >>= fun _ => run_ .free [t.cache] >>= fun _ => dhFree t.dh >>= fun _ => run_ .credFree [t.cred]

/-- `tls_server_create` (tls.c 373–457); `trust` tells whether the name of the trust file is given. -/
def tlsServerCreate (auth trust : Bool) : Prog (Option Tls) :=
  sys .credAlloc [] >>= fun c =>
  if c.1 ≠ 0 then pure none
  else if auth ∧ trust then
    sys .setTrust [c.2] >>= fun r =>
    if r.1 < 0 then run_ .credFree [c.2] >>= fun _ => pure none else tlsKey c.2
  else tlsKey c.2

/-- `tls_server_destroy` (tls.c 459–466). -/
def tlsServerDestroy (t : Tls) : Prog Unit :=
  run_ .mutexDestroy [t.lock] >>= fun _ => dhFree t.dh >>= fun _ => run_ .credFree [t.cred] >>= fun _ => run_ .free [t.cache]

/-! ## Sockets -/

/-- `tls_sock_t` (tls_sock.h): the descriptor, the session, and whether it is a socket of a client. -/
structure Sock where
  sd : Nat
  session : Nat
  client : Bool

/-- The loop of `tls_sock_handshake` (tls_sock.c 267–314). -/
def sockHandshake (session sd : Nat) : (fuel : Nat) → Prog Bool
  | 0 => .cut
  | n + 1 =>
    sys .handshake [session, sd] >>= fun r =>
    if r.1 = 0 then pure true
    else if r.1 = WARNING_ALERT then pure false
    else if r.1 = INTERRUPTED then pure false
    else if r.1 ≠ AGAIN then pure false
    else
      sys .select [sd] >>= fun r =>
      if r.1 = 0 then pure false
      else if r.1 = -1 then pure false
      else sockHandshake session sd n

/-- `set_non_blocking` (tls_sock.c 50–66). -/
def setNonBlocking (sd : Nat) : Prog Bool :=
  sys .fcntl [sd] >>= fun r =>
  if r.1 = -1 then pure false
  else sys .fcntl [sd] >>= fun r => if r.1 = -1 then pure false else pure true

/-- The failures of `tls_sock_open_` after the session has been created. -/
def sockFail (session sd : Nat) : Prog (Option Sock) := run_ .deinit [session] >>= fun _ => run_ .close [sd] >>= fun _ => pure none

/-- `tls_sock_open_` from the handshake on (tls_sock.c 225–264). -/
def sockShake (auth client : Bool) (session sd : Nat) (name : Option Nat) (fuel : Nat) : Prog (Option Sock) :=
  sockHandshake session sd fuel >>= fun b =>
  if b = false then sockFail session sd
  else if client ∨ auth then
    verifyPeer session name >>= fun b =>
    if b = false then run_ .bye [session, sd] >>= fun _ => sockFail session sd
    else pure (some ⟨sd, session, client⟩)
  else pure (some ⟨sd, session, client⟩)

/-- `tls_sock_open_` from the credentials on (tls_sock.c 181–223); `cached` tells whether the cache has a session for the address. -/
def sockCred (auth client cached : Bool) (cred session sd : Nat) (name : Option Nat) (fuel : Nat) : Prog (Option Sock) :=
  sys .credSet [session, cred] >>= fun r =>
  if r.1 ≠ 0 then sockFail session sd
  else if client ∧ cached then
    sys .setData [session] >>= fun r =>
    if r.1 ≠ 0 then sockFail session sd else sockShake auth client session sd name fuel
  else sockShake auth client session sd name fuel

/-- `tls_sock_open_` (tls_sock.c 149–264), with the descriptor `sd`. -/
def sockOpen_ (auth client cached : Bool) (prio cred sd : Nat) (name : Option Nat) (fuel : Nat) : Prog (Option Sock) :=
  setNonBlocking sd >>= fun b =>
  if b = false then run_ .close [sd] >>= fun _ => pure none
  else
    sys .init [] >>= fun s =>
    if s.1 ≠ 0 then run_ .close [sd] >>= fun _ => pure none
    else
      sys .prioSet [s.2, prio] >>= fun r =>
      if r.1 ≠ 0 then sockFail s.2 sd
      else sockCred auth client cached cred s.2 sd name fuel

/-- The results of opening a socket: `again` is `SOCK_CONNECT_ERROR`. -/
inductive Opened where
  | ok (s : Sock)
  | again
  | failed

/-- `tls_sock_open_from_sockaddr_in` (tls_sock.c 68–100). -/
def sockOpenFrom (auth cached : Bool) (prio cred : Nat) (name : Option Nat) (fuel : Nat) : Prog Opened :=
  sys .socket [] >>= fun s =>
  if s.1 = -1 then pure .failed
  else
    sys .connect [s.1.toNat] >>= fun c =>
    if c.1 < 0 then run_ .close [s.1.toNat] >>= fun _ => pure .again
    else
      sockOpen_ auth true cached prio cred s.1.toNat name fuel >>= fun r =>
      match r with
      | none => pure .failed
      | some s => pure (.ok s)

/-- The loop of `tls_sock_open` (tls_sock.c 133–144). -/
def sockOpenLoop (auth cached : Bool) (prio cred : Nat) (name : Option Nat) (fuel : Nat) : List Bool → Prog (Option Sock)
  | [] => pure none
  | false :: rest => sockOpenLoop auth cached prio cred name fuel rest
  | true :: rest =>
    sockOpenFrom auth cached prio cred name fuel >>= fun r =>
    match r with
    | .ok s => pure (some s)
    | .failed => pure none
    | .again => sockOpenLoop auth cached prio cred name fuel rest

/-- `tls_sock_open` (tls_sock.c 102–147). -/
def sockOpen (auth cached : Bool) (prio cred : Nat) (name : Option Nat) (fuel : Nat) (addrs : List Bool) : Prog (Option Sock) :=
  sys .getaddrinfo [] >>= fun g =>
  if g.1 < 0 then pure none
  else sockOpenLoop auth cached prio cred name fuel addrs >>= fun r => run_ .freeaddrinfo [g.2] >>= fun _ => pure r

/-- The loop of `tls_sock_close` (tls_sock.c 429–455). -/
def byeLoop (session sd : Nat) : (fuel : Nat) → Prog Unit
  | 0 => .cut
  | n + 1 =>
    sys .bye [session, sd] >>= fun r =>
    if r.1 = 0 then pure ()
    else if r.1 = INTERRUPTED then pure ()
    else if r.1 ≠ AGAIN then pure ()
    else sys .select [sd] >>= fun r => if r.1 ≤ 0 then pure () else byeLoop session sd n

/-- The session data of a client (tls_sock.c 422–425): none if there are none. -/
def sockData (s : Sock) : Prog (Option Nat) :=
  if s.client then sys .getData [s.session] >>= fun r => if r.1 = 0 then pure (some r.2) else pure none else pure none

/-- `tls_sock_close` (tls_sock.c 412–472); keeping the session data in the cache is left out. -/
def sockClose (s : Sock) (fuel : Nat) : Prog Unit :=
  sockData s >>= fun d =>
  byeLoop s.session s.sd fuel >>= fun _ =>
  (match d with | none => pure () | some d => run_ .free [d]) >>= fun _ =>
  run_ .sleep [] >>= fun _ => run_ .deinit [s.session] >>= fun _ => run_ .close [s.sd]

/-- `tls_ssock_open` (tls_sock.c 681–745). -/
def ssockOpen : Prog (Option Nat) :=
  sys .socket [] >>= fun s =>
  if s.1 = -1 then pure none
  else
    sys .setsockopt [s.1.toNat] >>= fun r =>
    if r.1 < 0 then run_ .close [s.1.toNat] >>= fun _ => pure none
    else
      sys .bind [s.1.toNat] >>= fun r =>
      if r.1 < 0 then run_ .close [s.1.toNat] >>= fun _ => pure none
      else
        sys .listen [s.1.toNat] >>= fun r =>
        if r.1 < 0 then run_ .close [s.1.toNat] >>= fun _ => pure none
        else
          setNonBlocking s.1.toNat >>= fun b =>
          if b = false then run_ .close [s.1.toNat] >>= fun _ => pure none else pure (some s.1.toNat)

/-- The loop of `tls_ssock_accept` (tls_sock.c 765–798): the descriptor of the connection. The output of `accept` is `errno`. -/
def acceptLoop (ss : Nat) : (fuel : Nat) → Prog (Option Nat)
  | 0 => .cut
  | n + 1 =>
    sys .accept [ss] >>= fun a =>
    if a.1 > 0 then pure (some a.1.toNat)
    else if a.1 = -1 ∧ a.2 = EINTR then pure none
    else if a.1 = -1 ∧ a.2 ≠ EAGAIN then pure none
    else
      sys .select [ss] >>= fun r =>
      if r.1 = 0 then pure none
      else if r.1 = -1 then pure none
      else acceptLoop ss n

/-- `tls_ssock_accept` (tls_sock.c 753–803). -/
def ssockAccept (auth : Bool) (prio cred ss fuel : Nat) : Prog (Option Sock) :=
  acceptLoop ss fuel >>= fun a =>
  match a with
  | none => pure none
  | some sd => sockOpen_ auth false false prio cred sd none fuel

/-! ## Threads, the listener and connections -/

/-- `thread_ctx_create` (thread.c 37–57). -/
def threadCtxCreate : Prog (Option Nat) :=
  sys .attrInit [] >>= fun a =>
  if a.1 ≠ 0 then pure none
  else sys .attrSet [a.2] >>= fun r => if r.1 ≠ 0 then pure none else pure (some a.2)

/-- `listener_t` (listener.h): its memory, the attributes of its threads, its socket. -/
structure Listener where
  mem : Nat
  ctx : Nat
  ss : Nat

/-- `listener_new` (listener.c 98–131). -/
def listenerNew : Prog (Option Listener) :=
  sys .malloc [] >>= fun m =>
  if m.1 = 0 then pure none
  else
    threadCtxCreate >>= fun c =>
    match c with
    | none => run_ .free [m.2] >>= fun _ => pure none
    | some c =>
      ssockOpen >>= fun s =>
      match s with
      | none => run_ .attrDestroy [c] >>= fun _ => run_ .free [m.2] >>= fun _ => pure none
      | some s => pure (some ⟨m.2, c, s⟩)

/-- `listener_delete` (listener.c 133–138). -/
def listenerDelete (l : Listener) : Prog Unit :=
  run_ .close [l.ss] >>= fun _ => run_ .attrDestroy [l.ctx] >>= fun _ => run_ .free [l.mem]

/-- The CoAP client of a connection with the names of its host and port. -/
structure ConClient where
  client : Client
  host : Nat
  port : Nat

/-- The handles in `connection_t` (connection.h), without the CoAP client: the memory of the structure, of the buffers, of the body and of the
socket, and the socket. -/
structure Con where
  mem : Nat
  recv : Nat
  send : Nat
  body : Nat
  sockMem : Nat
  sock : Sock

/-- `connection_new` (connection.c 737–798). -/
def connectionNew (sockMem : Nat) (sock : Sock) : Prog (Option Con) :=
  sys .malloc [] >>= fun c =>
  if c.1 = 0 then pure none
  else
    sys .malloc [] >>= fun r =>
    if r.1 = 0 then run_ .free [c.2] >>= fun _ => pure none
    else
      sys .malloc [] >>= fun s =>
      if s.1 = 0 then run_ .free [r.2] >>= fun _ => run_ .free [c.2] >>= fun _ => pure none
      else
        sys .malloc [] >>= fun b =>
        if b.1 = 0 then run_ .free [s.2] >>= fun _ => run_ .free [r.2] >>= fun _ => run_ .free [c.2] >>= fun _ => pure none
        else pure (some ⟨c.2, r.2, s.2, b.2, sockMem, sock⟩)

/-- `connection_coap_client_create` (connection.c 129–173): the list of revocations and the name of the server are not given. -/
def conClientCreate (addrs : List Bool) (trust : Bool) : Prog (Option ConClient) :=
  clientCreate true addrs trust false none >>= fun c =>
  match c with
  | none => pure none
  | some c =>
    sys .malloc [] >>= fun h =>
    if h.1 = 0 then clientDestroy c >>= fun _ => pure none
    else
      sys .malloc [] >>= fun p =>
      if p.1 = 0 then run_ .free [h.2] >>= fun _ => clientDestroy c >>= fun _ => pure none
      else pure (some ⟨c, h.2, p.2⟩)

/-- `connection_coap_client_destroy` (connection.c 175–186). -/
def conClientDestroy (c : ConClient) : Prog Unit :=
  run_ .free [c.port] >>= fun _ => run_ .free [c.host] >>= fun _ => clientDestroy c.client

/-- Destroying the CoAP client, if there is one. -/
def conClientGone : Option ConClient → Prog Unit
  | none => pure ()
  | some c => conClientDestroy c

/-- `connection_delete` (connection.c 800–812). -/
def connectionDelete (c : Con) (k : Option ConClient) (fuel : Nat) : Prog Unit :=
  conClientGone k >>= fun _ =>
  run_ .free [c.send] >>= fun _ => run_ .free [c.recv] >>= fun _ => run_ .free [c.body] >>= fun _ =>
  sockClose c.sock fuel >>= fun _ => run_ .free [c.sockMem] >>= fun _ => run_ .free [c.mem]

/-- The requests of a connection, as far as the CoAP client is concerned (connection.c 547–577): for each request, whether it is for the same server as
the last one, and the addresses of the server. Once the creation of a client has failed, the connection is closed: the rest of the requests are not
looked at (connection.c 569–576). -/
def requests (trust : Bool) : Option ConClient → List (Bool × List Bool) → Prog (Option ConClient)
  | k, [] => pure k
  | none, r :: rs =>
    conClientCreate r.2 trust >>= fun k =>
    match k with
    | none => pure none
    | some k => requests trust (some k) rs
  | some k, r :: rs =>
    if r.1 then requests trust (some k) rs
    else
      conClientDestroy k >>= fun _ =>
      conClientCreate r.2 trust >>= fun k =>
      match k with
      | none => pure none
      | some k => requests trust (some k) rs

/-- `connection_thread_func` (connection.c 708–735) for a connection with the requests `rs`. -/
def connectionThread (trust : Bool) (c : Con) (rs : List (Bool × List Bool)) (fuel : Nat) : Prog Unit :=
  requests trust none rs >>= fun k => connectionDelete c k fuel

/-- How a turn of the loop of the listener ends: the loop is left, goes on, or goes on with a connection that has been handed to a thread. -/
inductive Turn where
  | stop
  | skip
  | con (c : Con)

/-- A turn of the loop of `listener_thread_func` with the new socket `s` (listener.c 74–90). -/
def listenerCon (l : Listener) (mem : Nat) (s : Sock) (fuel : Nat) : Prog Turn :=
  connectionNew mem s >>= fun c =>
  match c with
  | none => sockClose s fuel >>= fun _ => run_ .free [mem] >>= fun _ => pure .stop
  | some c =>
    sys .threadCreate [l.ctx] >>= fun r =>
    if r.1 ≠ 0 then connectionDelete c none fuel >>= fun _ => pure .stop else pure (.con c)

/-- A turn of the loop of `listener_thread_func` (listener.c 57–90). -/
def listenerTurn (auth : Bool) (prio cred : Nat) (l : Listener) (fuel : Nat) : Prog Turn :=
  sys .malloc [] >>= fun m =>
  if m.1 = 0 then pure .stop
  else
    ssockAccept auth prio cred l.ss fuel >>= fun s =>
    match s with
    | none => run_ .free [m.2] >>= fun _ => pure .skip
    | some s => listenerCon l m.2 s fuel

/-! ## The threads of the proxy -/

/-- The thread of the listener: in a turn of its loop, deleting the listener (listener.c 92–93), or ended. -/
inductive Lis where
  | turn (p : Prog Turn)
  | closing (p : Prog Unit)
  | ended

/-- The threads: the listener's, and one for each connection. -/
structure Threads where
  lis : Lis
  cons : List (Prog Unit)

/-- What does not change: whether certificates of clients are asked for, the priorities, the credentials, the listener, whether a trust file is given
for the CoAP client. -/
structure Fixed where
  auth : Bool
  prio : Nat
  cred : Nat
  l : Listener
  trust : Bool

/-- The thread of the listener before it looks at the flag `go` (listener.c 55): it may start another turn, or leave the loop. -/
inductive Fixed.Next (f : Fixed) : Lis → Prop where
  | turn (fuel : Nat) : f.Next (.turn (listenerTurn f.auth f.prio f.cred f.l fuel))
  | leave : f.Next (.closing (listenerDelete f.l))

/-- A step of one of the threads, with the call that it makes if it makes one (listener.c 42–95, connection.c 708–735). The requests of a connection
are arbitrary. -/
inductive Fixed.Step (f : Fixed) : Threads → Option Ev → Threads → Prop where
  | lis {op : Op} {args : List Nat} {k : Int × Nat → Prog Turn} {cs : List (Prog Unit)} (r : Int) (y : Nat) :
      f.Step ⟨.turn (.call op args k), cs⟩ (some ⟨op, args, r, y⟩) ⟨.turn (k (r, y)), cs⟩
  | stop {cs : List (Prog Unit)} : f.Step ⟨.turn (.ret .stop), cs⟩ none ⟨.closing (listenerDelete f.l), cs⟩
  | skip {cs : List (Prog Unit)} {n : Lis} : f.Next n → f.Step ⟨.turn (.ret .skip), cs⟩ none ⟨n, cs⟩
  | con {cs : List (Prog Unit)} {n : Lis} (c : Con) (rs : List (Bool × List Bool)) (fuel : Nat) : f.Next n →
      f.Step ⟨.turn (.ret (.con c)), cs⟩ none ⟨n, connectionThread f.trust c rs fuel :: cs⟩
  | closing {op : Op} {args : List Nat} {k : Int × Nat → Prog Unit} {cs : List (Prog Unit)} (r : Int) (y : Nat) :
      f.Step ⟨.closing (.call op args k), cs⟩ (some ⟨op, args, r, y⟩) ⟨.closing (k (r, y)), cs⟩
  | ended {cs : List (Prog Unit)} : f.Step ⟨.closing (.ret ()), cs⟩ none ⟨.ended, cs⟩
  | call {n : Lis} {cs ds : List (Prog Unit)} {op : Op} {args : List Nat} {k : Int × Nat → Prog Unit} (r : Int) (y : Nat) :
      f.Step ⟨n, cs ++ .call op args k :: ds⟩ (some ⟨op, args, r, y⟩) ⟨n, cs ++ k (r, y) :: ds⟩
  | done {n : Lis} {cs ds : List (Prog Unit)} : f.Step ⟨n, cs ++ .ret () :: ds⟩ none ⟨n, cs ++ ds⟩

/-- The threads after some steps, and the calls that have been made: every schedule is allowed. -/
inductive Fixed.Runs (f : Fixed) : Threads → List Ev → Threads → Prop where
  | refl (t : Threads) : f.Runs t [] t
  | quiet {t u v : Threads} {l : List Ev} : f.Runs t l u → f.Step u none v → f.Runs t l v
  | call {t u v : Threads} {l : List Ev} {e : Ev} : f.Runs t l u → f.Step u (some e) v → f.Runs t (l ++ [e]) v

/-! ## The main thread -/

/-- What `main` has when the proxy runs: the priority cache, the server, the lock of the statistics if there are any, the listener. -/
structure Up where
  prio : Nat
  tls : Tls
  stats : Option Nat
  l : Listener

/-- The end of `main` (proxy.c 279–280). -/
def proxyStop (prio : Nat) (tls : Tls) : Prog Unit := tlsServerDestroy tls >>= fun _ => tlsDeinit prio

/-- `main` from `listener_new` on (proxy.c 239–262, listener.c 140–152). -/
def proxyListen (prio : Nat) (tls : Tls) (stats : Option Nat) : Prog (Option Up) :=
  listenerNew >>= fun l =>
  match l with
  | none => proxyStop prio tls >>= fun _ => pure none
  | some l =>
    sys .threadCreate [l.ctx] >>= fun r =>
    if r.1 ≠ 0 then listenerDelete l >>= fun _ => proxyStop prio tls >>= fun _ => pure none
    else pure (some ⟨prio, tls, stats, l⟩)

/-- `connection_init` (connection.c 87–91, 112–124); `st` tells whether `CONNECTION_STATS` is defined. -/
def connectionInit (st : Bool) : Prog (Option (Option Nat)) :=
  if st then lockCreate >>= fun k => match k with | none => pure none | some k => pure (some (some k)) else pure (some none)

/-- `main` until the proxy runs (proxy.c 206–262); the parameters, the allocators and the log are left out. -/
def proxyStart (st auth trust : Bool) : Prog (Option Up) :=
  tlsInit >>= fun p =>
  match p with
  | none => pure none
  | some prio =>
    tlsServerCreate auth trust >>= fun t =>
    match t with
    | none => tlsDeinit prio >>= fun _ => pure none
    | some tls =>
      connectionInit st >>= fun k =>
      match k with
      | none => proxyStop prio tls >>= fun _ => pure none
      | some stats => proxyListen prio tls stats

end FreeCoAP.Res
