import Verif.Config.Model
import Verif.Text

/-!
# Parameters of the proxy and the log

Model of `proxy/http_coap/src/param.c`, of `util_load_txt_file` in `proxy/common/src/util.c`, of `lib/src/coap_log.c` and of the use of
them in `main` in `proxy/http_coap/src/proxy.c`. The messages written while the parameters are read are not modelled.
-/

namespace FreeCoAP.Param

open FreeCoAP.Config (Store get parse room)

/-- `coap_log_level_t` (coap_log.h 42–50), a value of which in C may be any integer. -/
def ERROR : Int := 0
def WARN : Int := 1
def NOTICE : Int := 2
def INFO : Int := 3
def DEBUG : Int := 4

/-- `coap_log_set_level` (coap_log.c 40–52): the level after it. -/
def setLevel (level : Int) : Int :=
  if level = WARN then level
  else if level = NOTICE then level
  else if level = INFO then level
  else if level = DEBUG then level
  else ERROR

/-- `coap_log_error`, `_warn`, `_notice`, `_info` and `_debug` (coap_log.c 59–127), with the severity as a parameter: whether the message
is printed. -/
def prints (severity level : Int) : Bool := severity ≤ level

/-- A use of the log. -/
inductive LogOp where
  | set (level : Int)
  | log (severity : Int) (text : Bytes)

/-- Uses of the log at a level, one after the other: the messages printed. -/
def logRun : Int → List LogOp → List (Int × Bytes)
  | _, [] => []
  | _, .set l :: ops => logRun (setLevel l) ops
  | l, .log s t :: ops => if prints s l then (s, t) :: logRun l ops else logRun l ops

/-- A file: whether `fopen` succeeds, the length that `fseek` and `ftell` find (`none` if one of them fails), and what `fread` can
deliver. -/
structure File where
  opens : Bool
  len : Option Nat
  data : Bytes

/-- The results of `util_load_txt_file` that are errors. -/
inductive LoadErr where
  | file
  | nomem
  deriving DecidableEq, Repr

/-- The part of `util_load_txt_file` from the allocation of a block of `size` bytes on (util.c 136–150). -/
def loadInto (mem : Nat → Bool) (f : File) (n size : Nat) : Out (Except LoadErr Bytes) :=
  if mem size = false then .ok (.error .nomem)
  else if (f.data.take n).length ≠ n then .ok (.error .file)
  else if n < size then .ok (.ok (f.data.take n)) else .ub

/-- `util_load_txt_file` and `util_file_len` (util.c 96–151). `max` is the greatest value of `long`: the addition of one to it overflows.
The text is read with `config_parse`, and so a NUL has to follow it in the block. -/
def load (max : Nat) (mem : Nat → Bool) (f : File) : Out (Except LoadErr Bytes) :=
  if f.opens = false then .ok (.error .file)
  else match f.len with
  | none => .ok (.error .file)
  | some n =>
    if n ≥ max then .ub
    else loadInto mem f n (n + 1)

/-- `param_t` (param.h 60–71). `none` is a null pointer. -/
structure Param where
  port : Option Bytes
  level : Int
  serverKey : Option Bytes
  serverCert : Option Bytes
  serverTrust : Option Bytes
  clientKey : Option Bytes
  clientCert : Option Bytes
  clientTrust : Option Bytes
  deriving DecidableEq, Repr

/-- All bytes zero. -/
def Param.zero : Param := ⟨none, 0, none, none, none, none, none, none⟩

/-- A value, or the default if there is none. -/
def pick (v : Option Bytes) (dflt : Bytes) : Bytes := match v with | some s => s | none => dflt

/-- `param_parse_key_val` (param.c 52–69): the copy of the value, or a failure. -/
def keyVal (mem : Nat → Bool) (st : Store) (sec key dflt : Bytes) : Option Bytes :=
  if mem ((pick (get st sec key) dflt).length + 1) then some (pick (get st sec key) dflt) else none

/-- `param_parse_log_level` (param.c 71–110). -/
def logLevel (st : Store) : Option Int :=
  if pick (get st [] (str "log_level")) (str "info") = str "error" then some ERROR
  else if pick (get st [] (str "log_level")) (str "info") = str "warning" then some WARN
  else if pick (get st [] (str "log_level")) (str "info") = str "notice" then some NOTICE
  else if pick (get st [] (str "log_level")) (str "info") = str "info" then some INFO
  else if pick (get st [] (str "log_level")) (str "info") = str "debug" then some DEBUG
  else none

/-- `param_parse` (param.c 112–206) after `config_parse`: the parameters, and whether all were set. -/
def fill (mem : Nat → Bool) (st : Store) : Param × Bool :=
  match keyVal mem st [] (str "port") (str "4430") with
  | none => (Param.zero, false)
  | some port =>
  match logLevel st with
  | none => ({ Param.zero with port := some port }, false)
  | some level =>
  match keyVal mem st (str "http_server") (str "key_file") (str "http_server_privkey.pem") with
  | none => ({ Param.zero with port := some port, level := level }, false)
  | some sk =>
  match keyVal mem st (str "http_server") (str "cert_file") (str "http_server_cert.pem") with
  | none => ({ Param.zero with port := some port, level := level, serverKey := some sk }, false)
  | some sc =>
  match keyVal mem st (str "http_server") (str "trust_file") (str "http_server_trust.pem") with
  | none => ({ Param.zero with port := some port, level := level, serverKey := some sk, serverCert := some sc }, false)
  | some tr =>
  match keyVal mem st (str "coap_client") (str "key_file") (str "coap_client_privkey.pem") with
  | none => (⟨some port, level, some sk, some sc, some tr, none, none, none⟩, false)
  | some ck =>
  match keyVal mem st (str "coap_client") (str "cert_file") (str "coap_client_cert.pem") with
  | none => (⟨some port, level, some sk, some sc, some tr, some ck, none, none⟩, false)
  | some cc =>
  match keyVal mem st (str "coap_client") (str "trust_file") (str "coap_client_trust.pem") with
  | none => (⟨some port, level, some sk, some sc, some tr, some ck, some cc, none⟩, false)
  | some ct => (⟨some port, level, some sk, some sc, some tr, some ck, some cc, some ct⟩, true)

/-- The strings of the parameters. Each is a block of memory of its own. -/
def Param.strings (p : Param) : List Bytes :=
  [p.port, p.serverKey, p.serverCert, p.serverTrust, p.clientKey, p.clientCert, p.clientTrust].filterMap id

/-- `param_destroy` (param.c 246–272): the parameters after it, and the blocks that are freed. -/
def destroy (p : Param) : Param × List Bytes :=
  (Param.zero, ([p.clientTrust, p.clientCert, p.clientKey, p.serverTrust, p.serverCert, p.serverKey, p.port].filterMap id))

/-- What `param_create` leaves: the status, the parameters, the blocks allocated for their strings and those freed. -/
structure Created where
  ok : Bool
  param : Param
  made : List Bytes
  freed : List Bytes
  deriving DecidableEq, Repr

/-- The end of `param_create` (param.c 229–243). -/
def finish (p : Param) (ok : Bool) : Created :=
  if ok then ⟨true, p, p.strings, []⟩ else ⟨false, (destroy p).1, p.strings, (destroy p).2⟩

/-- `param_create` (param.c 208–244). -/
def create (max : Nat) (mem : Nat → Bool) (f : File) : Out Created :=
  match load max mem f with
  | .ub => .ub
  | .err e => .err e
  | .ok (.error _) => .ok (finish Param.zero false)
  | .ok (.ok text) =>
    match (parse mem [] (cstr text)).status with
    | .ub => .ub
    | .err _ => .ok (finish Param.zero false)
    | .ok () => .ok (finish (fill mem (parse mem [] (cstr text)).store).1 (fill mem (parse mem [] (cstr text)).store).2)

/-- The log level of `main` (proxy.c 171, 185–193) once the parameters are read. -/
def mainLevel (p : Param) : Int := setLevel p.level

end FreeCoAP.Param
