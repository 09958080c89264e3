import Verif.Res.Prog

/-!
# Model of the acquisition and release of resources in the CoAP library

The functions of `lib/src/coap_client.c` and `lib/src/coap_server.c` that open and close sockets and timers and that create and destroy
objects of GnuTLS. `none` is a negative return value. What the functions do with strings and with the fields of structures other than handles is
left out. `dtls` tells whether the library is compiled with `COAP_DTLS_EN`, `auth` whether it is compiled with `COAP_CLIENT_AUTH`.
-/

namespace FreeCoAP.Res

/-- `GNUTLS_E_AGAIN`. -/
def AGAIN : Int := -28
/-- `GNUTLS_E_TIMEDOUT`. -/
def TIMEDOUT : Int := -319
/-- `GNUTLS_E_FATAL_ALERT_RECEIVED`. -/
def FATAL_ALERT : Int := -12
/-- `GNUTLS_E_WARNING_ALERT_RECEIVED`. -/
def WARNING_ALERT : Int := -16
/-- `GNUTLS_CERT_INVALID`. -/
def CERT_INVALID : Nat := 2
/-- `GNUTLS_CERT_REVOKED`. -/
def CERT_REVOKED : Nat := 32
/-- `GNUTLS_CERT_SIGNER_NOT_FOUND`. -/
def CERT_SIGNER_NOT_FOUND : Nat := 64
/-- `GNUTLS_CERT_SIGNER_NOT_CA`. -/
def CERT_SIGNER_NOT_CA : Nat := 128
/-- `GNUTLS_CRT_X509`. -/
def CRT_X509 : Int := 1
/-- `EAGAIN`. -/
def EAGAIN : Nat := 11

/-! ## Handshake and certificate -/

/-- `coap_client_dtls_listen_timeout` (coap_client.c 86–114) and `coap_server_trans_dtls_listen_timeout` (coap_server.c 226–254) with one call of
`select`: it returns when the descriptor is readable, since it is the only one. True if it is not negative. -/
def listenTimeout (sd : Nat) : Prog Bool :=
  sys .select [sd] >>= fun r => pure (decide (0 ≤ r.1))

/-- The loop of `coap_client_dtls_handshake` (coap_client.c 231–284) and of `coap_server_trans_dtls_handshake` (coap_server.c 404–457), with `n`
attempts left. The output of the call is `errno`. -/
def handshakeLoop (session sd : Nat) : (n : Nat) → Prog Bool
  | 0 => pure false
  | n + 1 =>
    sys .handshake [session, sd] >>= fun r =>
    if r.2 ≠ 0 ∧ r.2 ≠ EAGAIN then pure false
    else if r.1 = 0 then pure true
    else if r.1 = TIMEDOUT then pure false
    else if r.1 = FATAL_ALERT ∨ r.1 = WARNING_ALERT then pure false
    else if r.1 ≠ AGAIN then pure false
    else if n = 0 then pure false
    else
      sys .dtlsTimeout [session] >>= fun _ =>
      listenTimeout sd >>= fun b => if b then handshakeLoop session sd n else pure false

/-- `coap_client_dtls_handshake` (coap_client.c 218–286), `coap_server_trans_dtls_handshake` (coap_server.c 390–459);
`COAP_CLIENT_DTLS_HANDSHAKE_ATTEMPTS` and `COAP_SERVER_DTLS_HANDSHAKE_ATTEMPTS` are 60. -/
def handshake (session sd : Nat) : Prog Bool := handshakeLoop session sd 60

/-- The end of the verification, from the comparison of times (coap_client.c 362–393): `name` is the number of the name, if there is one. -/
def verifyTimes (crt : Nat) (name : Option Nat) : Prog Bool :=
  sys .time [] >>= fun now =>
  sys .expiration [crt] >>= fun e =>
  if e.1 = -1 ∨ e.1 < now.1 then run_ .crtDeinit [crt] >>= fun _ => pure false
  else
    sys .activation [crt] >>= fun a =>
    if a.1 = -1 ∨ a.1 > now.1 then run_ .crtDeinit [crt] >>= fun _ => pure false
    else
      match name with
      | none => run_ .crtDeinit [crt] >>= fun _ => pure true
      | some n =>
        sys .checkName [crt, n] >>= fun c =>
        if c.1 = 0 then run_ .crtDeinit [crt] >>= fun _ => pure false
        else run_ .crtDeinit [crt] >>= fun _ => pure true

/-- The middle of the verification (coap_client.c 340–361). -/
def verifyCert (session : Nat) (name : Option Nat) : Prog Bool :=
  sys .crtInit [] >>= fun x =>
  if x.1 ≠ 0 then pure false
  else
    sys .getPeers [session] >>= fun p =>
    if p.1 = 0 then run_ .crtDeinit [x.2] >>= fun _ => pure false
    else
      sys .crtImport [x.2, session] >>= fun i =>
      if i.1 ≠ 0 then run_ .crtDeinit [x.2] >>= fun _ => pure false
      else verifyTimes x.2 name

/-- `coap_client_dtls_verify_peer_cert` (coap_client.c 298–394), `coap_server_trans_dtls_verify_peer_cert` (coap_server.c 473–548, without a
name), `tls_sock_verify_peer_cert` (tls_sock.c 310–409). -/
def verifyPeer (session : Nat) (name : Option Nat) : Prog Bool :=
  sys .verifyPeers [session] >>= fun v =>
  if v.1 ≠ 0 then pure false
  else if v.2 &&& CERT_INVALID ≠ 0 then pure false
  else if v.2 &&& CERT_SIGNER_NOT_FOUND ≠ 0 then pure false
  else if v.2 &&& CERT_SIGNER_NOT_CA ≠ 0 then pure false
  else if v.2 &&& CERT_REVOKED ≠ 0 then pure false
  else
    sys .certType [session] >>= fun t =>
    if t.1 ≠ CRT_X509 then pure false else verifyCert session name

/-! ## The client -/

/-- The objects of GnuTLS of a client (coap_client.h): `session`, `priority` and `cred`. -/
structure Dtls where
  session : Nat
  prio : Nat
  cred : Nat

/-- The handles in `coap_client_t`. -/
structure Client where
  sd : Nat
  timer : Nat
  dtls : Option Dtls

/-- `gnutls_certificate_free_credentials` and `gnutls_global_deinit`, which end many of the paths. -/
def freeCred (cred : Nat) : Prog Unit := run_ .credFree [cred] >>= fun _ => run_ .globalDeinit [0]

/-- The release of the objects after a failure when there is a session (coap_client.c 479–483 and others). -/
def freeDtls (d : Dtls) : Prog Unit :=
  run_ .deinit [d.session] >>= fun _ => run_ .prioDeinit [d.prio] >>= fun _ => freeCred d.cred

/-- `coap_client_dtls_create` from the session on (coap_client.c 465–527). -/
def clientSession (sd cred prio : Nat) (name : Option Nat) : Prog (Option Dtls) :=
  sys .init [] >>= fun s =>
  if s.1 ≠ 0 then run_ .prioDeinit [prio] >>= fun _ => freeCred cred >>= fun _ => pure none
  else
    let d := Dtls.mk s.2 prio cred
    sys .credSet [s.2, cred] >>= fun r =>
    if r.1 ≠ 0 then freeDtls d >>= fun _ => pure none
    else
      sys .prioSet [s.2, prio] >>= fun r =>
      if r.1 ≠ 0 then freeDtls d >>= fun _ => pure none
      else
        handshake s.2 sd >>= fun b =>
        if b = false then freeDtls d >>= fun _ => pure none
        else
          verifyPeer s.2 name >>= fun b =>
          if b = false then freeDtls d >>= fun _ => pure none
          else pure (some d)

/-- `coap_client_dtls_create` from the key file on (coap_client.c 448–463). -/
def clientKey (sd cred : Nat) (name : Option Nat) : Prog (Option Dtls) :=
  sys .setKey [cred] >>= fun r =>
  if r.1 ≠ 0 then freeCred cred >>= fun _ => pure none
  else
    sys .prioInit [] >>= fun p =>
    if p.1 ≠ 0 then freeCred cred >>= fun _ => pure none
    else clientSession sd cred p.2 name

/-- A file of trusted certificates or of revocations (coap_client.c 422–447): nothing is done if there is none. True if it is not refused. -/
def file (op : Op) (given : Bool) (cred : Nat) : Prog Bool :=
  if given then sys op [cred] >>= fun r => pure (decide (¬ r.1 ≤ 0)) else pure true

/-- `coap_client_dtls_create` (coap_client.c 407–528). `trust` and `crl` tell whether the files are given. -/
def clientDtlsCreate (sd : Nat) (trust crl : Bool) (name : Option Nat) : Prog (Option Dtls) :=
  sys .globalInit [] >>= fun g =>
  if g.1 ≠ 0 then pure none
  else
    sys .credAlloc [] >>= fun c =>
    if c.1 ≠ 0 then run_ .globalDeinit [0] >>= fun _ => pure none
    else
      file .setTrust trust c.2 >>= fun b =>
      if b = false then freeCred c.2 >>= fun _ => pure none
      else
        file .setCrl crl c.2 >>= fun b =>
        if b = false then freeCred c.2 >>= fun _ => pure none
        else clientKey sd c.2 name

/-- `coap_client_dtls_destroy` (coap_client.c 534–541). -/
def clientDtlsDestroy (sd : Nat) (d : Dtls) : Prog Unit :=
  run_ .bye [d.session, sd] >>= fun _ => freeDtls d

/-- The loop over the addresses (coap_client.c 586–608); an address is `true` if family and type are right. -/
def clientConnect : List Bool → Prog (Option Nat)
  | [] => pure none
  | false :: rest => clientConnect rest
  | true :: rest =>
    sys .socket [] >>= fun s =>
    if s.1 < 0 then clientConnect rest
    else
      sys .connect [s.1.toNat] >>= fun c =>
      if c.1 < 0 then run_ .close [s.1.toNat] >>= fun _ => clientConnect rest
      else pure (some s.1.toNat)

/-- `coap_client_create` from the timer on (coap_client.c 632–650). -/
def clientTimer (dtls : Bool) (sd : Nat) (trust crl : Bool) (name : Option Nat) : Prog (Option Client) :=
  sys .timerfd [] >>= fun t =>
  if t.1 < 0 then run_ .close [sd] >>= fun _ => pure none
  else if dtls then
    clientDtlsCreate sd trust crl name >>= fun d =>
    match d with
    | none => run_ .close [t.1.toNat] >>= fun _ => run_ .close [sd] >>= fun _ => pure none
    | some d => pure (some ⟨sd, t.1.toNat, some d⟩)
  else pure (some ⟨sd, t.1.toNat, none⟩)

/-- `coap_client_create` (coap_client.c 549–651). `addrs` is the list that `getaddrinfo` returns if it succeeds. -/
def clientCreate (dtls : Bool) (addrs : List Bool) (trust crl : Bool) (name : Option Nat) : Prog (Option Client) :=
  sys .getaddrinfo [] >>= fun g =>
  if g.1 < 0 then pure none
  else
    clientConnect addrs >>= fun s =>
    run_ .freeaddrinfo [g.2] >>= fun _ =>
    match s with
    | none => pure none
    | some sd =>
      sys .fcntl [sd] >>= fun r =>
      if r.1 < 0 then run_ .close [sd] >>= fun _ => pure none
      else
        sys .fcntl [sd] >>= fun r =>
        if r.1 < 0 then run_ .close [sd] >>= fun _ => pure none
        else clientTimer dtls sd trust crl name

/-- `coap_client_destroy` (coap_client.c 653–661). -/
def clientDestroy (c : Client) : Prog Unit :=
  (match c.dtls with | none => pure () | some d => clientDtlsDestroy c.sd d) >>= fun _ =>
  run_ .close [c.timer] >>= fun _ => run_ .close [c.sd]

/-! ## The server -/

/-- The objects of GnuTLS of a server (coap_server.h). -/
structure SDtls where
  prio : Nat
  cred : Nat
  dh : Nat

/-- The handles in `coap_server_t`, without the transactions. -/
structure Server where
  sd : Nat
  dtls : Option SDtls

/-- The handles in `coap_server_trans_t`: the timer and the session. -/
structure Trans where
  timer : Nat
  session : Option Nat

/-- `coap_server_dtls_create` from the key file on (coap_server.c 1800–1836). -/
def serverKey (cred : Nat) : Prog (Option SDtls) :=
  sys .setKey [cred] >>= fun r =>
  if r.1 ≠ 0 then freeCred cred >>= fun _ => pure none
  else
    sys .dhInit [] >>= fun h =>
    if h.1 ≠ 0 then freeCred cred >>= fun _ => pure none
    else
      sys .dhGenerate [h.2] >>= fun r =>
      if r.1 ≠ 0 then run_ .dhDeinit [h.2] >>= fun _ => freeCred cred >>= fun _ => pure none
      else
        run_ .setDh [cred, h.2] >>= fun _ =>
        sys .prioInit [] >>= fun p =>
        if p.1 ≠ 0 then run_ .dhDeinit [h.2] >>= fun _ => freeCred cred >>= fun _ => pure none
        else pure (some ⟨p.2, cred, h.2⟩)

/-- `coap_server_dtls_create` (coap_server.c 1751–1837). -/
def serverDtlsCreate (trust crl : Bool) : Prog (Option SDtls) :=
  sys .globalInit [] >>= fun g =>
  if g.1 ≠ 0 then pure none
  else
    sys .credAlloc [] >>= fun c =>
    if c.1 ≠ 0 then run_ .globalDeinit [0] >>= fun _ => pure none
    else
      file .setTrust trust c.2 >>= fun b =>
      if b = false then freeCred c.2 >>= fun _ => pure none
      else
        file .setCrl crl c.2 >>= fun b =>
        if b = false then freeCred c.2 >>= fun _ => pure none
        else serverKey c.2

/-- `coap_server_dtls_destroy` (coap_server.c 1844–1850). -/
def serverDtlsDestroy (d : SDtls) : Prog Unit :=
  run_ .prioDeinit [d.prio] >>= fun _ => run_ .credFree [d.cred] >>= fun _ => run_ .dhDeinit [d.dh] >>= fun _ => run_ .globalDeinit [0]

/-- How the loop over the addresses ends. -/
inductive Bound where
  | failed
  | none
  | some (sd : Nat)

/-- The loop over the addresses (coap_server.c 1899–1928). `failed` is the return after `setsockopt`. -/
def serverBind : List Bool → Prog Bound
  | [] => pure .none
  | false :: rest => serverBind rest
  | true :: rest =>
    sys .socket [] >>= fun s =>
    if s.1 < 0 then serverBind rest
    else
      sys .setsockopt [s.1.toNat] >>= fun o =>
      if o.1 < 0 then run_ .close [s.1.toNat] >>= fun _ => pure .failed
      else
        sys .bind [s.1.toNat] >>= fun b =>
        if b.1 < 0 then run_ .close [s.1.toNat] >>= fun _ => serverBind rest
        else pure (.some s.1.toNat)

/-- `coap_server_create` from the flags on (coap_server.c 1934–1965). -/
def serverFlags (dtls : Bool) (sd : Nat) (trust crl : Bool) : Prog (Option Server) :=
  sys .fcntl [sd] >>= fun r =>
  if r.1 < 0 then run_ .close [sd] >>= fun _ => pure none
  else
    sys .fcntl [sd] >>= fun r =>
    if r.1 < 0 then run_ .close [sd] >>= fun _ => pure none
    else if dtls then
      serverDtlsCreate trust crl >>= fun d =>
      match d with
      | none => run_ .close [sd] >>= fun _ => pure none
      | some d => pure (some ⟨sd, some d⟩)
    else pure (some ⟨sd, none⟩)

/-- `coap_server_create` (coap_server.c 1858–1965). -/
def serverCreate (dtls : Bool) (addrs : List Bool) (trust crl : Bool) : Prog (Option Server) :=
  sys .getaddrinfo [] >>= fun g =>
  if g.1 < 0 then pure none
  else
    serverBind addrs >>= fun s =>
    run_ .freeaddrinfo [g.2] >>= fun _ =>
    match s with
    | .failed => pure none
    | .none => pure none
    | .some sd => serverFlags dtls sd trust crl

/-- `coap_server_trans_dtls_create` (coap_server.c 562–620). -/
def transDtlsCreate (auth : Bool) (sd : Nat) (d : SDtls) : Prog (Option Nat) :=
  sys .init [] >>= fun s =>
  if s.1 ≠ 0 then pure none
  else
    sys .credSet [s.2, d.cred] >>= fun r =>
    if r.1 ≠ 0 then run_ .deinit [s.2] >>= fun _ => pure none
    else
      sys .prioSet [s.2, d.prio] >>= fun r =>
      if r.1 ≠ 0 then run_ .deinit [s.2] >>= fun _ => pure none
      else
        handshake s.2 sd >>= fun b =>
        if b = false then run_ .deinit [s.2] >>= fun _ => pure none
        else if auth then
          verifyPeer s.2 none >>= fun b =>
          if b = false then run_ .deinit [s.2] >>= fun _ => pure none else pure (some s.2)
        else pure (some s.2)

/-- `coap_server_trans_create` (coap_server.c 1342–1383). -/
def transCreate (auth : Bool) (v : Server) : Prog (Option Trans) :=
  sys .timerfd [] >>= fun t =>
  if t.1 < 0 then pure none
  else
    sys .inetNtop [] >>= fun p =>
    if p.1 = 0 then run_ .close [t.1.toNat] >>= fun _ => pure none
    else
      match v.dtls with
      | none => pure (some ⟨t.1.toNat, none⟩)
      | some d =>
        transDtlsCreate auth v.sd d >>= fun s =>
        match s with
        | none => run_ .close [t.1.toNat] >>= fun _ => pure none
        | some s => pure (some ⟨t.1.toNat, some s⟩)

/-- `coap_server_trans_destroy` (coap_server.c 668–679) and `coap_server_trans_dtls_destroy` (coap_server.c 627–631). -/
def transDestroy (sd : Nat) (t : Trans) : Prog Unit :=
  (match t.session with | none => pure () | some s => run_ .bye [s, sd] >>= fun _ => run_ .deinit [s]) >>= fun _ =>
  run_ .close [t.timer]

/-- The loop of `coap_server_destroy` (coap_server.c 1972–1979). -/
def transsDestroy (sd : Nat) : List (Option Trans) → Prog Unit
  | [] => pure ()
  | none :: ts => transsDestroy sd ts
  | some t :: ts => transDestroy sd t >>= fun _ => transsDestroy sd ts

/-- `coap_server_destroy` (coap_server.c 1967–1985). -/
def serverDestroy (v : Server) (ts : List (Option Trans)) : Prog Unit :=
  transsDestroy v.sd ts >>= fun _ =>
  (match v.dtls with | none => pure () | some d => serverDtlsDestroy d) >>= fun _ =>
  run_ .close [v.sd]

/-- What the server does to its transactions: `enter i` is the part of `coap_server_exchange` that makes the slot `i` the transaction of a new
client (coap_server.c 2260–2281), after destroying the one that is there; `leave i` destroys the transaction in slot `i`, if there is one, after an
error (coap_server.c 2294, 2316 and others) or in the loop for timeouts. -/
inductive Act where
  | enter (i : Nat)
  | leave (i : Nat)

/-- Destroying what is in a slot. -/
def leave (sd : Nat) (ts : List (Option Trans)) (i : Nat) : Prog (List (Option Trans)) :=
  match ts[i]? with
  | some (some t) => transDestroy sd t >>= fun _ => pure (ts.set i none)
  | _ => pure ts

/-- One action; the number of a slot is always one that exists. -/
def act (auth : Bool) (v : Server) (ts : List (Option Trans)) : Act → Prog (List (Option Trans))
  | .leave i => leave v.sd ts i
  | .enter i =>
    if i < ts.length then leave v.sd ts i >>= fun ts => transCreate auth v >>= fun t => pure (ts.set i t) else pure ts

/-- A sequence of actions. -/
def acts (auth : Bool) (v : Server) : List (Option Trans) → List Act → Prog (List (Option Trans))
  | ts, [] => pure ts
  | ts, a :: as => act auth v ts a >>= fun ts => acts auth v ts as

/-- The life of a server: creation, actions, destruction. `n` is the number of slots. False if it could not be created. -/
def serverLife (dtls auth : Bool) (addrs : List Bool) (trust crl : Bool) (n : Nat) (as : List Act) : Prog Bool :=
  serverCreate dtls addrs trust crl >>= fun v =>
  match v with
  | none => pure false
  | some v => acts auth v (List.replicate n none) as >>= fun ts => serverDestroy v ts >>= fun _ => pure true

end FreeCoAP.Res
