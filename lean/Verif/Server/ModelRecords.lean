import Verif.Server.ModelDtls

/-!
# Model of the records that the sessions of a server keep

A datagram may carry several records (RFC 6347, section 4.1.1). GnuTLS returns one of them at each call of `gnutls_record_recv` and keeps the others.
`coap_server_listen` waits with `select`, which looks at the socket and the timers only (coap_server.c:2084-2182).
-/

namespace FreeCoAP.Server.Dtls

/-- `gnutls_record_recv` of GnuTLS for application data: first the records it has kept, then those of the next datagram. A datagram without a record of
the session is dropped. The buffer is long enough for every UDP datagram. With the value: the records it keeps. `opens` gives the records of a datagram;
that it may depend on the datagrams before is not modelled. -/
def recordRecv (opens : Bytes → List Bytes) : List Bytes → Lib (Rec × List Bytes)
  | r :: rest => .done (.data r, rest) _root_.id
  | [] => .pull 65535 fun
    | none => .done (.again, []) _root_.id
    | some d =>
      match opens d with
      | [] => .done (.again, []) _root_.id
      | r :: rest => .done (.data r, rest) _root_.id

/-- Only the value. -/
def Lib.fst : Lib (α × β) → Lib α
  | .done r f => .done r.1 f
  | .pull len k => .pull len (fun x => (k x).fst)
  | .wait k => .wait (fun x => (k x).fst)
  | .push b k => .push b (fun x => (k x).fst)

/-- The sessions of a server: the records given to the server with their senders, those kept by the session of each sender, the socket. -/
structure Sessions where
  given : List (Addr × Bytes)
  kept : Addr → List Bytes
  world : World

/-- The value of `gnutls_record_recv` for the session of `a`, the records it keeps and the socket, as a change of the state. -/
def Sessions.got (s : Sessions) (a : Addr) (r : (Rec × List Bytes) × World) : Sessions :=
  ⟨match r.1.1 with | .data b => s.given ++ [(a, b)] | _ => s.given, fun x => if x = a then r.1.2 else s.kept x, r.2⟩

/-- The server is about to call `select`, or is waiting in it, and datagrams arrive. If there is a datagram in the socket, `select` returns and the session of
the sender of the first one is asked for a record (coap_server.c:2239-2260, 2283 and 1042-1046); otherwise it does not. All senders have sessions. -/
def Sessions.next (opens : Addr → Bytes → List Bytes) (s : Sessions) (arrive : List Dgram) : Sessions :=
  match s.world.queue ++ arrive with
  | [] => { s with world := { s.world with queue := [] } }
  | d :: q => s.got d.src ((recordRecv (opens d.src) (s.kept d.src)).call d.src { s.world with queue := d :: q, errno := none })

/-- All events, for new sessions. -/
def sessions (opens : Addr → Bytes → List Bytes) (as : List (List Dgram)) : Sessions :=
  as.foldl (Sessions.next opens) ⟨[], fun _ => [], ⟨[], [], none, []⟩⟩

end FreeCoAP.Server.Dtls
