import Verif.Sample.Model
import Verif.Text
import Verif.Server.Model
import Verif.Client.Model

/-!
# Model of the samples `reg_server` and `reg_client`

`sample/reg_server/reg_server.c` and `sample/reg_client/reg_client.c`. The initialisation of the library and the log are left out.
-/

namespace FreeCoAP.Sample

open FreeCoAP.Msg
open FreeCoAP.Server (HAct Addr)

/-- The loop of `reg_server_log_registrar` (reg_server.c 56–64), without the log: it reads every entry. -/
def walk (h : Heap) : Nat → Option Nat → Out Unit
  | _, none => .ok ()
  | 0, some _ => .ub
  | n + 1, some p => deref h p >>= fun e => walk h n e.next

/-- `REG_SERVER_URI_PATH_BUF_LEN` and `REG_CLIENT_URI_PATH_BUF_LEN` (reg_server.c 39, reg_client.c 38). -/
def PATH_LEN : Nat := 32

/-- `REG_SERVER_PAYLOAD_LEN` (reg_server.c 40). -/
def PAYLOAD_LEN : Nat := 32

/-- The path of a message as a C string: `coap_msg_uri_path_to_str` with a buffer of 32 bytes, which is too small if the value returned says so
(reg_server.c 159–165, reg_client.c 193–200). -/
def pathOf (ops : List Msg.Op) : Out Bytes :=
  uriPathToStr ops (List.replicate PATH_LEN 0) PATH_LEN >>= fun x => if x.2 + 1 > PATH_LEN then .err .ENOSPC else .ok (cstr x.1)

/-- A response that has only a code (`return coap_msg_set_code(…)`). -/
def answer (r : Reg) (c d : Nat) : Out (HAct × Reg) := setCode Msg.create c d >>= fun resp => .ok (.reply resp none, r)

/-- The response to a registration (reg_server.c 116–140). `mem` tells which allocations succeed. -/
def respond (mem : Nat → Bool) (created : Bool) : Out HAct :=
  setCode Msg.create 2 (if created then 1 else 4) >>= fun resp =>
  if !mem 0 then .ok (.reply resp (some .ENOMEM))
  else
    let resp := addOp resp URI_PATH (str "client")
    if !mem 1 then .ok (.reply resp (some .ENOMEM))
    else
      let resp := addOp resp URI_PATH (str "id")
      if !mem 2 then .ok (.reply resp (some .ENOMEM))
      else .ok (.reply (setPayload resp (str "OK")) none)

/-- The registration (reg_server.c 104–140) for a payload that fits. -/
def enrol (L : Nat) (alloc : List Nat → Option Nat) (mem : Nat → Bool) (r : Reg) (addr payload : Bytes) : Out (HAct × Reg) :=
  add L r (cstr payload) addr alloc >>= fun x =>
  match x.1 with
  | .error e => .ok (.reply Msg.create (some e), x.2)
  | .ok n =>
    walk x.2.heap (x.2.heap.length + 1) x.2.first >>= fun _ =>
    respond mem (n = 0) >>= fun act => .ok (act, x.2)

/-- `reg_server_handle_client_id` (reg_server.c 66–146). `ntop` is `inet_ntop` applied to the address of the client. -/
def handleId (L : Nat) (ntop : Addr → Option Bytes) (alloc : List Nat → Option Nat) (mem : Nat → Bool) (r : Reg) (a : Addr) (req : Msg) :
    Out (HAct × Reg) :=
  if req.codeDetail = 2 then
    match ntop a with
    | none => answer r 5 0
    | some addr =>
      if req.payload = [] then answer r 4 0
      else if req.payload.length + 1 > PAYLOAD_LEN then answer r 5 0
      else enrol L alloc mem r addr req.payload
  else answer r 5 1

/-- `reg_server_handle` (reg_server.c 148–173). -/
def handle (L : Nat) (ntop : Addr → Option Bytes) (alloc : List Nat → Option Nat) (mem : Nat → Bool) (r : Reg) (a : Addr) (req : Msg) :
    Out (HAct × Reg) :=
  if req.ver ≠ 1 then .ok (.reply Msg.create (some .EBADMSG), r)
  else
    match pathOf req.ops with
    | .ub => .ub
    | .err e => .ok (.reply Msg.create (some e), r)
    | .ok path => if path ≠ str "/client/id" then answer r 4 4 else handleId L ntop alloc mem r a req

/-- The request of `reg_client_register` (reg_client.c 133–158). -/
def regReq (mem : Nat → Bool) (buf : Bytes) : Out Msg :=
  setType Msg.create CON >>= fun req =>
  setCode req 0 2 >>= fun req =>
  if !mem 0 then .err .ENOMEM
  else
    let req := addOp req URI_PATH (str "client")
    if !mem 1 then .err .ENOMEM
    else
      let req := addOp req URI_PATH (str "id")
      if buf ≠ [] ∧ !mem 2 then .err .ENOMEM else .ok (setPayload req buf)

/-- What `reg_client_register` does with the response (reg_client.c 175–235): the value returned. `len` is the size of the buffer of the caller. -/
def regResp (len : Nat) (req resp : Msg) : Out Nat :=
  if req.ver ≠ resp.ver then .err .EBADMSG
  else if resp.codeClass ≠ 2 ∨ (resp.codeDetail ≠ 1 ∧ resp.codeDetail ≠ 4) then .err .EBADMSG
  else
    pathOf resp.ops >>= fun path =>
    if path ≠ str "/client/id" then .err .EBADMSG
    else if resp.payload = [] then .err .EBADMSG
    else if resp.payload.length + 1 > len then .err .ENOSPC
    else if cstr resp.payload ≠ str "OK" then .err .EBADMSG
    else .ok resp.payload.length

/-- `reg_client_register` (reg_client.c 123–236): what the client sends, and the value returned if the exchange comes to an end. -/
def register (sx px : Bool) (x : Client.XEnv) (mem : Nat → Bool) (buf : Bytes) (len : Nat) : Out (List Client.Obs × Option (Except Err Nat)) :=
  match regReq mem buf with
  | .ub => .ub
  | .err e => .ok ([], some (.error e))
  | .ok req =>
    Client.exchange sx px x req >>= fun y =>
    match y.2 with
    | none => .ok (y.1, none)
    | some (.error e) => .ok (y.1, some (.error e))
    | some (.ok resp) =>
      match regResp len req resp with
      | .ub => .ub
      | .err e => .ok (y.1, some (.error e))
      | .ok n => .ok (y.1, some (.ok n))

end FreeCoAP.Sample
