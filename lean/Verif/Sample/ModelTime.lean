import Verif.Sample.ModelReg

/-!
# Model of the samples `time_server` and `time_client`

`sample/time_server/time_server.c` and `sample/time_client/time_client.c`. The initialisation of the library and the log are left out.
-/

namespace FreeCoAP.Sample

open FreeCoAP.Msg
open FreeCoAP.Server (HAct)

/-- `TIME_SERVER_PAYLOAD_BUF_LEN` (time_server.c 40). -/
def TIME_LEN : Nat := 32

/-- The text up to the first line feed, or all of it (time_server.c 69–71). -/
def cutLine (s : Bytes) : Bytes := s.takeWhile (· ≠ 10)

/-- The response to a GET request (time_server.c 66–88). `ctime` is the string that `ctime_r` writes, and empty if it fails. It has to fit into the
buffer with its terminator. `mem` tells which allocations succeed. -/
def tellTime (mem : Nat → Bool) (ctime : Bytes) : Out HAct :=
  if ctime.length + 1 > TIME_LEN then .ub
  else
    setCode Msg.create 2 5 >>= fun resp =>
    if !mem 0 then .ok (.reply resp (some .ENOMEM))
    else
      let resp := addOp resp URI_PATH (str "time")
      let text := cutLine (cstr ctime)
      if text ≠ [] ∧ !mem 1 then .ok (.reply resp (some .ENOMEM)) else .ok (.reply (setPayload resp text) none)

/-- `return coap_msg_set_code(resp, …)` (time_server.c 91, 114). -/
def codeOnly (c d : Nat) : Out HAct := setCode Msg.create c d >>= fun resp => .ok (.reply resp none)

/-- `time_server_handle_time` (time_server.c 48–92). -/
def handleTime (mem : Nat → Bool) (ctime : Bytes) (req : Msg) : Out HAct :=
  if req.codeDetail = 1 then tellTime mem ctime else codeOnly 5 1

/-- `time_server_handle` (time_server.c 94–117). -/
def timeHandle (mem : Nat → Bool) (ctime : Bytes) (req : Msg) : Out HAct :=
  if req.ver ≠ 1 then .ok (.reply Msg.create (some .EBADMSG))
  else
    match pathOf req.ops with
    | .ub => .ub
    | .err e => .ok (.reply Msg.create (some e))
    | .ok path => if path ≠ str "/time" then codeOnly 4 4 else handleTime mem ctime req

/-- The request of `time_client_get_time` (time_client.c 131–143). -/
def timeReq (mem : Nat → Bool) : Out Msg :=
  setType Msg.create CON >>= fun req =>
  setCode req 0 1 >>= fun req =>
  if !mem 0 then .err .ENOMEM else .ok (addOp req URI_PATH (str "time"))

/-- What `time_client_get_time` does with the response (time_client.c 159–205): the value returned and the buffer of the caller, which has `len` bytes.
If the response has no payload, then `memcpy` is called with a null pointer, which C leaves undefined for any number of bytes. -/
def timeResp (len : Nat) (req resp : Msg) : Out (Nat × Bytes) :=
  if req.ver ≠ resp.ver then .err .EBADMSG
  else if resp.codeClass ≠ 2 ∨ resp.codeDetail ≠ 5 then .err .EBADMSG
  else
    pathOf resp.ops >>= fun path =>
    if path ≠ str "/time" then .err .EBADMSG
    else if resp.payload.length + 1 > len then .err .ENOSPC
    else if resp.payload = [] then .ub
    else .ok (resp.payload.length, resp.payload ++ List.replicate (len - resp.payload.length) 0)

/-- `time_client_get_time` (time_client.c 122–206): what the client sends, and the value returned and the buffer if the exchange comes to an end. -/
def getTime (sx px : Bool) (x : Client.XEnv) (mem : Nat → Bool) (len : Nat) : Out (List Client.Obs × Option (Except Err (Nat × Bytes))) :=
  match timeReq mem with
  | .ub => .ub
  | .err e => .ok ([], some (.error e))
  | .ok req =>
    Client.exchange sx px x req >>= fun y =>
    match y.2 with
    | none => .ok (y.1, none)
    | some (.error e) => .ok (y.1, some (.error e))
    | some (.ok resp) =>
      match timeResp len req resp with
      | .ub => .ub
      | .err e => .ok (y.1, some (.error e))
      | .ok n => .ok (y.1, some (.ok n))

end FreeCoAP.Sample
