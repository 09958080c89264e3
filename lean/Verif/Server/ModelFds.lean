import Verif.Proxy.ModelFds

/-!
# Model of the descriptors of the CoAP library

The sockets and timers that the servers and clients of a process hold, and the descriptor sets that they are put into before `select` is called.
One step is one system call or one descriptor set; the steps of different threads may be interleaved in any order. `opened` and `fdSets` are those
of `Proxy.ModelFds`.
-/

namespace FreeCoAP.Server.Fds

open FreeCoAP.Proxy.Fds (opened fdSets)

/-- The number of transactions of a server (`COAP_SERVER_NUM_TRANS`, coap_server.h 46). -/
def NUM_TRANS : Nat := 8

/-- What a descriptor is used for: the socket of server `k` (`server->sd`), the timer of transaction `i` of server `k` (`trans->timer_fd`), the
socket and the timer of client `k` (`client->sd`, `client->timer_fd`), something of the application (the standard streams, files). -/
inductive Use where
  | server (k : Nat)
  | trans (k i : Nat)
  | client (k : Nat)
  | timer (k : Nat)
  | other (k : Nat)
  deriving DecidableEq, Repr

/-- The open descriptors of the process, each with its use. -/
abbrev State := List (Use × Nat)

/-- All open descriptors. -/
def used (s : State) : List Nat := s.map Prod.snd

/-- The descriptors in use for `u`: none or one. -/
def fdsOf (s : State) (u : Use) : List Nat := (s.filter (fun x => decide (x.1 = u))).map Prod.snd

/-- Is there a descriptor for `u`? -/
def has (s : State) (u : Use) : Bool := s.any (fun x => decide (x.1 = u))

/-- A call that opens a descriptor for `u`. When it fails nothing changes. -/
def openFor (lim : Nat) (s : State) (u : Use) : State :=
  match opened lim (used s) with
  | some fd => (u, fd) :: s
  | none => s

/-- `close` of the descriptors with the uses that satisfy `p`. -/
def closeAll (s : State) (p : Use → Bool) : State := s.filter (fun x => !p x.1)

/-- The uses of server `k`. -/
def ofServer (k : Nat) : Use → Bool
  | .server j => j == k
  | .trans j _ => j == k
  | _ => false

/-- The uses of client `k`. -/
def ofClient (k : Nat) : Use → Bool
  | .client j => j == k
  | .timer j => j == k
  | _ => false

/-- The timers of the active transactions of server `k`, in the order of the transactions. -/
def timers (s : State) (k : Nat) : List Nat := (List.range NUM_TRANS).flatMap (fun i => fdsOf s (.trans k i))

/-- The steps. -/
inductive Event where
  /-- `socket` in `coap_server_create` (coap_server.c 1906) -/
  | serverSocket (k : Nat)
  /-- `timerfd_create` in `coap_server_trans_create` (coap_server.c 1352), for a transaction that is not active -/
  | transTimer (k i : Nat)
  /-- the server waits during a handshake (`coap_server_dtls_listen_timeout`, coap_server.c 234–236) -/
  | serverShake (k : Nat)
  /-- the server waits for a datagram or the end of a timer (`coap_server_listen`, coap_server.c 2130–2145) -/
  | serverListen (k : Nat)
  /-- `coap_server_trans_destroy` (coap_server.c 677) or a failure in `coap_server_trans_create` (coap_server.c 1363, 1376) -/
  | transClose (k i : Nat)
  /-- `coap_server_destroy` (coap_server.c 1971–1983) or a failure in `coap_server_create` (coap_server.c 1915–1957) -/
  | serverClose (k : Nat)
  /-- `socket` in `coap_client_create` (coap_client.c 594) -/
  | clientSocket (k : Nat)
  /-- `timerfd_create` in `coap_client_create` (coap_client.c 632–638): if it fails the socket is closed -/
  | clientTimer (k : Nat)
  /-- the client waits without a timer (`coap_client_dtls_listen_timeout`, coap_client.c 96–98) -/
  | clientShake (k : Nat)
  /-- the client waits for an acknowledgement or a response (`coap_client_listen_ack`, `coap_client_listen_resp`, coap_client.c 1172–1180 and
  1218–1226) -/
  | clientWait (k : Nat)
  /-- `coap_client_destroy` (coap_client.c 653–661) or a failure in `coap_client_create` (coap_client.c 602, 619, 626, 643–644) -/
  | clientClose (k : Nat)
  /-- the application opens a descriptor -/
  | openOther (k : Nat)
  /-- the application closes a descriptor -/
  | closeOther (k : Nat)
  deriving DecidableEq, Repr

/-- One step. A step of a server, transaction or client that does not exist, or that exists already, changes nothing. -/
def step (lim : Nat) (s : State) : Event → Out State
  | .serverSocket k => pure (if has s (.server k) then s else openFor lim s (.server k))
  | .transTimer k i =>
    pure (if has s (.server k) && decide (i < NUM_TRANS) && !has s (.trans k i) then openFor lim s (.trans k i) else s)
  | .serverShake k => fdSets (fdsOf s (.server k)) >>= fun _ => pure s
  | .serverListen k => fdSets (fdsOf s (.server k) ++ timers s k) >>= fun _ => pure s
  | .transClose k i => pure (closeAll s (fun u => decide (u = .trans k i)))
  | .serverClose k => pure (closeAll s (ofServer k))
  | .clientSocket k => pure (if has s (.client k) then s else openFor lim s (.client k))
  | .clientTimer k =>
    if has s (.client k) && !has s (.timer k) then
      match opened lim (used s) with
      | some fd => pure ((.timer k, fd) :: s)
      | none => pure (closeAll s (ofClient k))
    else pure s
  | .clientShake k => fdSets (fdsOf s (.client k)) >>= fun _ => pure s
  | .clientWait k => fdSets (fdsOf s (.client k) ++ fdsOf s (.timer k)) >>= fun _ => pure s
  | .clientClose k => pure (closeAll s (ofClient k))
  | .openOther k => pure (if has s (.other k) then s else openFor lim s (.other k))
  | .closeOther k => pure (closeAll s (fun u => decide (u = .other k)))

/-- A history of steps. -/
def run (lim : Nat) (s : State) : List Event → Out State
  | [] => pure s
  | e :: es => step lim s e >>= fun s' => run lim s' es

end FreeCoAP.Server.Fds
