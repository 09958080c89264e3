import Verif.Res.Model

/-!
# The sample programs from their start to their end

The functions `main`, `…_init`, `…_create`, `…_destroy` and `…_deinit` of the six programs in /repo/sample, with the memory of the pools, the
client or the server of the library, and the memory that the program itself takes. Simplifications: the calls that take nothing (printing,
`sleep`, the exchanges) are left out; which of them fail is decided by the parameters. The file that the transfer client reads is property C137.
-/

namespace FreeCoAP.Res

/-- `coap_mem_create` (coap_mem.c 39–60), with lengths that it accepts: the buffer and the bits. -/
def poolCreate : Prog (Option (Nat × Nat)) :=
  sys .malloc [] >>= fun b =>
  if b.1 = 0 then pure none
  else
    sys .malloc [] >>= fun a =>
    if a.1 = 0 then run_ .free [b.2] >>= fun _ => pure none else pure (some (b.2, a.2))

/-- `coap_mem_destroy` (coap_mem.c 62–67). -/
def poolDestroy (p : Nat × Nat) : Prog Unit := run_ .free [p.2] >>= fun _ => run_ .free [p.1]

/-- The three pools. -/
structure Pools where
  small : Nat × Nat
  medium : Nat × Nat
  large : Nat × Nat

/-- `coap_mem_all_create` (coap_mem.c 274–299). -/
def poolsCreate : Prog (Option Pools) :=
  poolCreate >>= fun s =>
  match s with
  | none => pure none
  | some s =>
    poolCreate >>= fun m =>
    match m with
    | none => poolDestroy s >>= fun _ => pure none
    | some m =>
      poolCreate >>= fun l =>
      match l with
      | none => poolDestroy m >>= fun _ => poolDestroy s >>= fun _ => pure none
      | some l => pure (some ⟨s, m, l⟩)

/-- `coap_mem_all_destroy` (coap_mem.c 301–306). -/
def poolsDestroy (p : Pools) : Prog Unit := poolDestroy p.large >>= fun _ => poolDestroy p.medium >>= fun _ => poolDestroy p.small

/-- `reg_client_init` (reg_client.c 48–75) and the functions with the same lines of the other five programs. `ver`: `gnutls_check_version` returns a
version, or DTLS is not used. -/
def sampleInit (ver : Bool) : Prog (Option Pools) :=
  poolsCreate >>= fun p =>
  match p with
  | none => pure none
  | some p => if ver = false then poolsDestroy p >>= fun _ => pure none else pure (some p)

/-- What a client program does between the creation and the destruction of the client: `transfer_client_execute` takes memory for the file and
frees it (transfer_client.c 130–249); the others take nothing. The result tells whether the program reports success. -/
def errand (file ok : Bool) : Prog Bool :=
  if file then
    sys .malloc [] >>= fun r =>
    if r.1 = 0 then pure ok else run_ .free [r.2] >>= fun _ => pure ok
  else pure ok

/-- `main` of reg_client (main.c 40–91), time_client and transfer_client (main.c). `args`: the arguments are those that the program expects. The
loop of time_client ends when a call fails. -/
def clientMain (args ver dtls : Bool) (addrs : List Bool) (trust crl : Bool) (name : Option Nat) (file ok : Bool) : Prog Bool :=
  if args = false then pure false
  else
    sampleInit ver >>= fun p =>
    match p with
    | none => pure false
    | some p =>
      clientCreate dtls addrs trust crl name >>= fun c =>
      match c with
      | none => poolsDestroy p >>= fun _ => pure false
      | some c => errand file ok >>= fun ok => clientDestroy c >>= fun _ => poolsDestroy p >>= fun _ => pure ok

/-- What a server program does while it runs: the library creates and destroys transactions, and the registration server makes an entry of its
registrar for a new client (`registrar_entry_new`, registrar.c 33–49). -/
inductive Task where
  | lib (a : Act)
  | entry

/-- The tasks, one after the other; the result is the transactions and the entries. An entry that cannot be made is answered with an error. -/
def tasks (auth : Bool) (v : Server) : List (Option Trans) → List Nat → List Task → Prog (List (Option Trans) × List Nat)
  | ts, es, [] => pure (ts, es)
  | ts, es, .lib a :: rest => act auth v ts a >>= fun ts => tasks auth v ts es rest
  | ts, es, .entry :: rest =>
    sys .malloc [] >>= fun r =>
    if r.1 = 0 then tasks auth v ts es rest else tasks auth v ts (r.2 :: es) rest

/-- `registrar_destroy` (registrar.c 67–80). The order of the entries does not matter. -/
def registrarDestroy : List Nat → Prog Unit
  | [] => pure ()
  | e :: es => run_ .free [e] >>= fun _ => registrarDestroy es

/-- `main` of reg_server (main.c 37–74), time_server and transfer_server (main.c), which differ in what they do while they run. `n` is the number of
transactions. `coap_server_run` ends when the library cannot wait any more. -/
def serverMain (args ver dtls auth : Bool) (addrs : List Bool) (trust crl : Bool) (n : Nat) (todo : List Task) (ok : Bool) : Prog Bool :=
  if args = false then pure false
  else
    sampleInit ver >>= fun p =>
    match p with
    | none => pure false
    | some p =>
      serverCreate dtls addrs trust crl >>= fun v =>
      match v with
      | none => poolsDestroy p >>= fun _ => pure false
      | some v =>
        tasks auth v (List.replicate n none) [] todo >>= fun r =>
        registrarDestroy r.2 >>= fun _ =>
        serverDestroy v r.1 >>= fun _ =>
        poolsDestroy p >>= fun _ => pure ok

end FreeCoAP.Res
