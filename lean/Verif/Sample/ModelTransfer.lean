import Verif.Sample.ModelReg

/-!
# Model of the samples `transfer_server` and `transfer_client`

`sample/transfer_server/transfer_server.c` and `sample/transfer_client/transfer_client.c`. The initialisation of the library is left out. The
messages in the log are left out, but for the code of the response, which the client shows.
-/

namespace FreeCoAP.Sample

open FreeCoAP.Msg
open FreeCoAP.Server (HAct)

/-- What the system does when the server writes its file: `fopen` succeeds; the number of bytes `fwrite` can take; `fclose` succeeds; the number of
bytes that reach the file if `fclose` fails. -/
structure WriteIO where
  opened : Bool
  wrote : Nat
  closed : Bool
  flushed : Nat
  deriving DecidableEq, Repr

/-- The file "out" after `transfer_server_handle_rx` (transfer_server.c 52–77) was called with `body`; `none`: there is no such file. `fopen` with
mode "wb" (57) discards what was in the file before. -/
def save (disk : Option Bytes) (w : WriteIO × Bytes) : Option Bytes :=
  if !w.1.opened then disk
  else
    let taken := w.2.take w.1.wrote
    some (if w.1.closed then taken else taken.take w.1.flushed)

/-- `transfer_server_handle_rx` (transfer_server.c 52–77): the response, and what is left of the body in the transaction. Both codes are ones
`coap_msg_set_code` accepts. -/
def handleRx (io : WriteIO) (body : Bytes) (bodyEnd : Nat) (resp : Msg) : Server.RxRes :=
  if !io.opened then ⟨none, { resp with codeClass := 5, codeDetail := 0 }, body, bodyEnd⟩
  else if min io.wrote bodyEnd ≠ bodyEnd then ⟨none, { resp with codeClass := 5, codeDetail := 0 }, body, bodyEnd⟩
  else ⟨none, { resp with codeClass := 2, codeDetail := 4 }, body, 0⟩

/-- `TRANSFER_SERVER_BLOCK1_SIZE`, `TRANSFER_SERVER_BLOCK2_SIZE`, `TRANSFER_CLIENT_BLOCK1_SIZE` and `TRANSFER_CLIENT_BLOCK2_SIZE`
(transfer_server.c 48–49, transfer_client.c 48–49). -/
def BLOCK_SIZE : Nat := 64

/-- `transfer_server_handle` (transfer_server.c 79–115). The only callback for bodies has the number 0. -/
def handleTransfer (req : Msg) : Out HAct :=
  if req.ver ≠ 1 then .ok (.reply Msg.create (some .EBADMSG))
  else if req.codeClass ≠ 0 ∨ req.codeDetail ≠ 3 then setCode Msg.create 5 1 >>= fun resp => .ok (.reply resp none)
  else
    match pathOf req.ops with
    | .ub => .ub
    | .err e => .ok (.reply Msg.create (some e))
    | .ok path =>
      if path ≠ str "/client/transfer" then setCode Msg.create 4 4 >>= fun resp => .ok (.reply resp none)
      else .ok (.blockwise Msg.create BLOCK_SIZE BLOCK_SIZE [] 0 (some 0))

/-- What the system does when the client reads its file: the errors of `fopen`, `fseek`, `ftell` and `fseek`, whether there is memory, the contents of
the file and the number of bytes `fread` returns. -/
structure ReadIO where
  openErr : Option Err
  endErr : Option Err
  tellErr : Option Err
  setErr : Option Err
  mem : Bool
  file : Bytes
  read : Nat
  deriving DecidableEq, Repr

/-- `load_file` (transfer_client.c 130–178). Simplification: `fclose` does not change `errno`, and `malloc(0)` does not return a null pointer. -/
def loadFile (io : ReadIO) : Except Err Bytes :=
  match io.openErr, io.endErr, io.tellErr, io.setErr with
  | some e, _, _, _ => .error e
  | none, some e, _, _ => .error e
  | none, none, some e, _ => .error e
  | none, none, none, some e => .error e
  | none, none, none, none =>
    if !io.mem then .error .ENOMEM
    else if min io.read io.file.length ≠ io.file.length then .error .EIO
    else .ok io.file

/-- The request of `transfer_client_execute` (transfer_client.c 197–217). -/
def transferReq (mem : Nat → Bool) : Out Msg :=
  setType Msg.create CON >>= fun req =>
  setCode req 0 3 >>= fun req =>
  if !mem 0 then .err .ENOMEM
  else
    let req := addOp req URI_PATH (str "client")
    if !mem 1 then .err .ENOMEM else .ok (addOp req URI_PATH (str "transfer"))

/-- What comes of `transfer_client_execute`: what the client sends in each round, the value returned (`none`: still waiting; `ok`: 0) and the code of
the response in the log. -/
structure Ran where
  obs : List (List Client.Obs)
  ret : Option (Except Err Unit)
  log : Option (Nat × Nat)

/-- `transfer_client_execute` (transfer_client.c 180–244). If `coap_client_exchange_blockwise` fails (227–238), the value returned is that of the
last `coap_msg_add_op`, which is 0. -/
def execute (sx px : Bool) (io : ReadIO) (mem : Nat → Bool) (bs1 bs2 : List Client.BEnv) : Out Ran :=
  match loadFile io with
  | .error e => .ok ⟨[], some (.error e), none⟩
  | .ok file =>
    match transferReq mem with
    | .ub => .ub
    | .err e => .ok ⟨[], some (.error e), none⟩
    | .ok req =>
      Client.exchangeBlockwise sx px req Msg.create BLOCK_SIZE BLOCK_SIZE file file.length false bs1 bs2 >>= fun r =>
      match r.ret with
      | none => .ok ⟨r.obs, none, none⟩
      | some (.error _) => .ok ⟨r.obs, some (.ok ()), none⟩
      | some (.ok _) => .ok ⟨r.obs, some (.ok ()), some (r.resp.codeClass, r.resp.codeDetail)⟩

end FreeCoAP.Sample
