import Verif.Msg.Model
import Verif.Mem.Model

/-!
# Model of `lib/src/coap_server.c`

The server without DTLS (the code compiled when `COAP_DTLS_EN` is not defined) and
without `COAP_PROXY`. One event is the arrival of a datagram or the expiry of the
acknowledgement timer of a transaction. Everything the environment decides during an
event (the clock, results of system calls, random numbers, allocation failures and what
the application's callbacks do) is in `Env`, so that a statement about all lists of
events is about all environments and applications.

Messages are the values of `Verif/Msg/Model.lean`; the buffers of the large pool are
modelled with their addresses.
-/

namespace FreeCoAP.Server

open FreeCoAP.Msg
open FreeCoAP.Mem (Pool Call)

/-- `client_sin` and `client_sin_len` of a client: the bytes of the socket address. The
comparison of length and bytes, coap_server.c:2040-2041, is equality of lists. -/
abbrev Addr := Bytes

/-- `COAP_MSG_MAX_BUF_LEN`, lib/include/coap_msg.h:49. -/
abbrev BUF_LEN : Nat := 1152
/-- `COAP_SERVER_NUM_TRANS`, lib/include/coap_server.h:46. -/
abbrev NUM_TRANS : Nat := 8
/-- `COAP_SERVER_ACK_TIMEOUT_SEC`, coap_server.c:54, in milliseconds. -/
abbrev ACK_TIMEOUT : Nat := 2000
/-- `COAP_SERVER_MAX_RETRANSMIT`, coap_server.c:55. -/
abbrev MAX_RETRANSMIT : Nat := 4

/-- `coap_server_trans_type_t`, coap_server.h:61-70. -/
inductive TType where
  | regular | get | put1 | put2 | post1 | post2
  deriving DecidableEq, Repr

/-- The fields of `coap_server_trans_t` that belong to a blockwise transfer,
coap_server.h:128 and 138-147. `body` is the address of the buffer and the `coap_mem_large_get_len()`
bytes in it; `none` is the null pointer. `blockUri` is the C string in `block_uri`.
`blockRx` names the callback. -/
structure Blk where
  type : TType
  body : Option (Nat × Bytes)
  bodyLen : Nat
  bodyEnd : Nat
  block1Size : Nat
  block2Size : Nat
  block1Next : Nat
  block2Next : Nat
  blockUri : Bytes
  blockDetail : Nat
  blockRx : Option Nat
  deriving DecidableEq, Repr

/-- The fields cleared. -/
def Blk.none : Blk := ⟨.regular, Option.none, 0, 0, 0, 0, 0, 0, [], 0, Option.none⟩

/-- `coap_server_trans_t`, coap_server.h:125-153. `armed` says whether the timer in
`timer_fd` is running, `timeout` is in milliseconds. The text form of the address and
the pointer to the server are left out. -/
structure Trans where
  active : Bool
  lastUse : Nat
  armed : Bool
  timeout : Nat
  numRetrans : Nat
  addr : Addr
  req : Msg
  resp : Msg
  blk : Blk
  deriving DecidableEq, Repr

/-- The structure filled with zeros. -/
def Trans.zero : Trans := ⟨false, 0, false, 0, 0, [], destroyed, destroyed, Blk.none⟩

/-- The large pool, coap_mem.c:227. The log of the calls with their results does not
exist in the code. -/
structure Large where
  pool : Pool
  log : List (Call × Option Nat)
  deriving DecidableEq, Repr

/-- `coap_mem_large_alloc`, coap_mem.c:264-267. -/
def Large.alloc (L : Large) (len : Nat) : Option Nat × Large :=
  ((L.pool.alloc len).1, ⟨(L.pool.alloc len).2, L.log ++ [(.alloc len, (L.pool.alloc len).1)]⟩)

/-- `coap_mem_large_free`, coap_mem.c:269-272. -/
def Large.free (L : Large) (p : Nat) : Large := ⟨L.pool.free p, L.log ++ [(.free p, none)]⟩

/-- `coap_server_t`, coap_server.h:158-171, without the socket and the pointer to the
callback. `sepList` are the paths added by `coap_server_add_sep_resp_uri_path`. -/
structure Srv where
  msgId : Nat
  sepList : List Bytes
  trans : List Trans
  large : Large
  deriving DecidableEq, Repr

/-- What the callback for requests does. `reply resp err`: it built `resp` and returned
0 or an error. `blockwise ..`: it built `resp` so far and then returned what
`coap_server_trans_handle_blockwise` returned to it; `bodyLen` bytes of `body` are
passed. Simplification: the callback calls that function at most once, as its last
action. -/
inductive HAct where
  | reply (resp : Msg) (err : Option Err)
  | blockwise (resp : Msg) (b1 b2 : Nat) (body : Bytes) (bodyLen : Nat) (rx : Option Nat)
  deriving Repr

/-- What a `block_rx` callback does: the value returned, the response and the body
buffer and `body_end` it left behind. -/
structure RxRes where
  err : Option Err
  resp : Msg
  body : Bytes
  bodyEnd : Nat

/-- The decisions of the environment during one event. An `Option Err` is the failure of
a system call, a `Bool` says that memory was available for a message. -/
structure Env where
  now : Nat
  acceptErr : Option Err
  createErr : Option Err
  recvErr : Option Err
  rstErr : Option Err
  ackErr : Option Err
  sendErr : Option Err
  timerErr : Option Err
  parseMem : Bool
  payMem : Bool
  opMem1 : Bool
  opMem2 : Bool
  copyReqMem : Bool
  copyRespMem : Bool
  rand : Nat
  idRand : Nat
  handle : Trans → Msg → HAct
  rx : (id : Nat) → (body : Bytes) → (bodyEnd : Nat) → (req resp : Msg) → RxRes

/-- What can be seen from outside: a datagram sent, the timer of a transaction started
for so many milliseconds, the callback called for a request, a `block_rx` callback
called with the body received. -/
inductive Obs where
  | sent (addr : Addr) (bytes : Bytes)
  | arm (addr : Addr) (ms : Nat)
  | call (addr : Addr) (req : Msg)
  | rx (addr : Addr) (id : Nat) (body : Bytes)
  deriving DecidableEq, Repr

/-- `coap_server_trans_clear_blockwise`, coap_server.c:644-661. -/
def clearBlockwise (b : Blk) (L : Large) : Blk × Large :=
  match b.body with
  | some p => (Blk.none, L.free p.1)
  | none => (Blk.none, L)

/-- `coap_server_trans_destroy`, coap_server.c:668-679. -/
def destroy (t : Trans) (L : Large) : Trans × Large :=
  (Trans.zero, (clearBlockwise t.blk L).2)

/-- `coap_server_trans_match_req`, coap_server.c:701-705. -/
def matchReq (t : Trans) (m : Msg) : Bool := t.req.ver ≠ 0 ∧ t.req.msgId = m.msgId

/-- `coap_server_trans_match_resp`, coap_server.c:717-721. -/
def matchResp (t : Trans) (m : Msg) : Bool := t.resp.ver ≠ 0 ∧ t.resp.msgId = m.msgId

/-- `coap_server_trans_start_ack_timer`, coap_server.c:867-872, with init_ack_timeout
(787-797) and start_timer (822-834): the new transaction and the value returned. -/
def startAckTimer (env : Env) (t : Trans) : Trans × List Obs × Option Err :=
  let t := { t with numRetrans := 0, timeout := ACK_TIMEOUT + env.rand % 1000 }
  match env.timerErr with
  | some e => (t, [], some e)
  | none => ({ t with armed := true }, [.arm t.addr t.timeout], none)

/-- `coap_server_trans_stop_ack_timer`, coap_server.c:883-887 and 845-856. -/
def stopAckTimer (env : Env) (t : Trans) : Trans × Option Err :=
  let t := { t with numRetrans := 0 }
  match env.timerErr with
  | some e => (t, some e)
  | none => ({ t with armed := false }, none)

/-- `coap_server_trans_update_ack_timer`, coap_server.c:901-917, with double_timeout
(804-811; the product is an `unsigned`). -/
def updateAckTimer (env : Env) (t : Trans) : Trans × List Obs × Option Err :=
  if t.numRetrans ≥ MAX_RETRANSMIT then (t, [], some .ETIMEDOUT)
  else
    let t := { t with timeout := (2 * t.timeout) % 2 ^ 32 }
    match env.timerErr with
    | some e => (t, [], some e)
    | none => ({ t with armed := true, numRetrans := t.numRetrans + 1 }, [.arm t.addr t.timeout], none)

/-- `coap_server_trans_send`, coap_server.c:929-973; `e` is the failure of `sendto`. -/
def send (now : Nat) (e : Option Err) (t : Trans) (m : Msg) : Out (Trans × List Obs × Option Err) :=
  match format m (List.replicate BUF_LEN 0) BUF_LEN with
  | .ub => .ub
  | .err e => .ok (t, [], some e)
  | .ok (buf, n) =>
    match e with
    | some e => .ok (t, [], some e)
    | none => .ok ({ t with lastUse := now }, [.sent t.addr (buf.take n)], none)

/-- An Empty message of the given type and id, coap_server.c:998-1005, 1122-1129 and
1269-1276. The setters accept the type and every 16 bit id. -/
def emptyMsg (type id : Nat) : Msg := { create with type := type, msgId := id }

/-- `coap_server_trans_handle_format_error`, coap_server.c:987-1014. -/
def formatError (env : Env) (t : Trans) (mem : Bytes) (len : Nat) : Out (Trans × List Obs) :=
  match parseTypeMsgId mem len with
  | .ub => .ub
  | .err _ => .ok (t, [])
  | .ok (type, id) =>
    if type = CON then
      match send env.now env.rstErr t (emptyMsg RST id) with
      | .ok (t, o, _) => .ok (t, o)
      | .err e => .err e
      | .ub => .ub
    else .ok (t, [])

/-- The buffer of coap_server.c:1038 after a datagram was received: bytes beyond its
size are lost. -/
def recvBuf (d : Bytes) : Bytes := d.take BUF_LEN ++ List.replicate (BUF_LEN - d.length) 0

/-- `coap_server_trans_recv`, coap_server.c:1026-1101. The address test of lines
1078-1082 always passes: the same datagram is still at the head of the queue. -/
def recv (sx : Bool) (env : Env) (t : Trans) (d : Bytes) : Out (Trans × List Obs × Except Err Msg) :=
  match env.recvErr with
  | some e => .ok (t, [], .error e)
  | none =>
    if env.parseMem = false then .ok (t, [], .error .ENOMEM)
    else
      match parse sx (recvBuf d) (min d.length BUF_LEN) with
      | .ub => .ub
      | .ok m => .ok ({ t with lastUse := env.now }, [], .ok m)
      | .err e =>
        if e = .EBADMSG then
          match formatError env t (recvBuf d) (min d.length BUF_LEN) with
          | .ok (t, o) => .ok (t, o, .error e)
          | .err e => .err e
          | .ub => .ub
        else .ok (t, [], .error e)

/-- `coap_server_trans_reject`, coap_server.c:1115-1218; the value returned is not used. -/
def reject (env : Env) (t : Trans) (m : Msg) : Out (Trans × List Obs) :=
  if m.type = CON then
    match send env.now env.rstErr t (emptyMsg RST m.msgId) with
    | .ok (t, o, _) => .ok (t, o)
    | .err e => .err e
    | .ub => .ub
  else .ok (t, [])

/-- `coap_server_trans_send_ack`, coap_server.c:1262-1289. -/
def sendAck (env : Env) (t : Trans) (m : Msg) : Out (Trans × List Obs × Option Err) :=
  send env.now env.ackErr t (emptyMsg ACK m.msgId)

/-- The bytes of an ASCII text. -/
def ascii (s : String) : Bytes := s.toList.map (fun c => UInt8.ofNat c.toNat)

/-- A setter on the response: on failure the response is unchanged. -/
def setOut (o : Out Msg) (resp : Msg) : Out (Msg × Option Err) :=
  match o with
  | .ok m => .ok (m, none)
  | .err e => .ok (resp, some e)
  | .ub => .ub

/-- `coap_server_trans_handle_bad_option`, coap_server.c:1231-1250. `snprintf` cuts the
text to the buffer of `COAP_SERVER_DIAG_PAYLOAD_LEN` (coap_server.h:48) bytes. -/
def badOption (env : Env) (resp : Msg) (num : Nat) : Out (Msg × Option Err) :=
  match setOut (setCode resp 4 2) resp with
  | .ok (resp, none) =>
    if env.payMem = true then .ok (setPayload resp ((ascii s!"Bad option number: {num}").take 127), none)
    else .ok (resp, some .ENOMEM)
  | r => r

/-- The path of a request as a C string in a buffer of `n` bytes,
`coap_msg_uri_path_to_str` at coap_server.c:1445, 1728 and 2225. -/
def uriStr (n : Nat) (ops : List Op) : Out Bytes := do
  let (buf, _) ← uriPathToStr ops (List.replicate n 0) n
  pure (buf.takeWhile (· ≠ 0))

/-- The state and result of a function on the blockwise part of a transaction: `rx` are
the calls of the `block_rx` callback with the body received. -/
structure BRes where
  blk : Blk
  large : Large
  resp : Msg
  err : Option Err
  rx : List (Nat × Bytes)

/-- Clear the transfer and return an error, e.g. coap_server.c:1487-1488. -/
def failClear (b : Blk) (L : Large) (resp : Msg) (e : Err) : Out BRes :=
  .ok ⟨(clearBlockwise b L).1, (clearBlockwise b L).2, resp, some e, []⟩

/-- Set the code of the response as the last action. -/
def finishCode (b : Blk) (L : Large) (resp : Msg) (cls detail : Nat) : Out BRes :=
  match setOut (setCode resp cls detail) resp with
  | .ok (resp, e) => .ok ⟨b, L, resp, e, []⟩
  | .err e => .err e
  | .ub => .ub

/-- Clear the transfer and set an error code, e.g. coap_server.c:1426-1427. -/
def clearCode (b : Blk) (L : Large) (resp : Msg) (cls detail : Nat) : Out BRes :=
  finishCode (clearBlockwise b L).1 (clearBlockwise b L).2 resp cls detail

/-- The method a transfer belongs to, coap_server.c:1456-1458 and 1535-1536. -/
def TType.method : TType → Nat
  | .regular => 0
  | .get => 1
  | .put1 | .put2 => 3
  | .post1 | .post2 => 2

/-- The part of `coap_server_trans_handle_next_block` that answers with a block of the
body, coap_server.c:1446-1528. `num2` is the number in the Block2 option of the request
(0 if there is none) and `uri` the path of the request. The subtraction of line 1480
wraps around when the block would start after the end of the body, and as many bytes are
read: undefined. -/
def nextBlock2 (opMem payMem : Bool) (b : Blk) (L : Large) (req resp : Msg) (num2 : Nat) (uri : Bytes) : Out BRes :=
  if req.codeDetail ≠ b.type.method ∨ uri ≠ b.blockUri ∨ num2 * b.block2Size ≠ b.block2Next then
    clearCode b L resp 4 0
  else
    match calcBlockSzx b.block2Size with
    | .ub => .ub
    | .err e => failClear b L resp e
    | .ok szx =>
      let more : Bool := ¬ (b.block2Next + b.block2Size > b.bodyEnd)
      let payloadLen := if more then b.block2Size else b.bodyEnd - b.block2Next
      match formatBlockVal 3 (b.block2Next >>> (szx + 4)) more b.block2Size with
      | .ub => .ub
      | .err e => failClear b L resp e
      | .ok val =>
        if opMem = false then failClear b L resp .ENOMEM
        else
          let resp := addOp resp BLOCK2 val
          match b.body with
          | none => .ub
          | some (_, bytes) =>
            if more = false ∧ b.bodyEnd < b.block2Next then .ub
            else
              match rds (bytes.drop b.block2Next) payloadLen with
              | .ub => .ub
              | .err e => .err e
              | .ok payload =>
                if payMem = false then failClear b L { resp with payload := [] } .ENOMEM
                else
                  let resp := setPayload resp payload
                  let b := { b with block2Next := b.block2Next + payloadLen }
                  if more then finishCode b L resp 2 31
                  else clearCode b L resp 2 (if b.type = .get then 5 else b.blockDetail)

/-- The part of `coap_server_trans_handle_next_block` that accepts a block of the body,
coap_server.c:1529-1643. `blk1` is the Block1 option of the request (number 0 and more
flag 0 if there is none). `again` is the recursive call of line 1638. -/
def nextBlock1 (env : Env) (again : Blk → Large → Msg → Out BRes)
    (b : Blk) (L : Large) (req resp : Msg) (num1 : Nat) (more1 : Bool) (uri : Bytes) : Out BRes :=
  if req.codeDetail ≠ b.type.method ∨ uri ≠ b.blockUri then clearCode b L resp 4 0
  else if num1 * b.block1Size ≠ b.block1Next then clearCode b L resp 4 8
  else if req.payload = [] then clearCode b L resp 4 0
  else
    match calcBlockSzx b.block1Size with
    | .ub => .ub
    | .err e => failClear b L resp e
    | .ok szx =>
      if b.block1Next + req.payload.length > b.bodyLen then clearCode b L resp 4 13
      else
        match formatBlockVal 3 (b.block1Next >>> (szx + 4)) more1 b.block1Size with
        | .ub => .ub
        | .err e => failClear b L resp e
        | .ok val =>
          if env.opMem1 = false then failClear b L resp .ENOMEM
          else
            let resp := addOp resp BLOCK1 val
            match b.body with
            | none => .ub
            | some (p, bytes) =>
              match wrs bytes b.block1Next req.payload with
              | .ub => .ub
              | .err e => .err e
              | .ok bytes =>
                let b := { b with
                  body := some (p, bytes)
                  block1Next := b.block1Next + req.payload.length
                  bodyEnd := b.bodyEnd + req.payload.length }
                if more1 then finishCode b L resp 2 31
                else
                  match b.blockRx with
                  | none => .ub
                  | some id =>
                    let seen := [(id, bytes.take b.bodyEnd)]
                    let r := env.rx id bytes b.bodyEnd req resp
                    if r.body.length ≠ bytes.length then .ub
                    else
                      let b := { b with body := some (p, r.body), bodyEnd := r.bodyEnd }
                      match r.err with
                      | some e => .ok ⟨(clearBlockwise b L).1, (clearBlockwise b L).2, r.resp, some e, seen⟩
                      | none =>
                        if r.resp.codeClass ≠ 2 then
                          .ok ⟨(clearBlockwise b L).1, (clearBlockwise b L).2, r.resp, none, seen⟩
                        else if b.bodyEnd > 0 then
                          match again { b with
                              type := if b.type = .put1 then .put2 else .post2
                              blockDetail := r.resp.codeDetail } L r.resp with
                          | .ok x => .ok { x with rx := seen ++ x.rx }
                          | .err e => .err e
                          | .ub => .ub
                        else
                          match clearCode b L r.resp 2 r.resp.codeDetail with
                          | .ok x => .ok { x with rx := seen ++ x.rx }
                          | .err e => .err e
                          | .ub => .ub

/-- The Block1 size is reduced to the one the request asks for, if that is smaller,
coap_server.c:1429-1432. -/
def shrink1 (b : Blk) (o1 : Option Block) : Blk :=
  match o1 with
  | some o => if o.size < b.block1Size then { b with block1Size := o.size } else b
  | none => b

/-- The same for the Block2 size, coap_server.c:1441-1444. -/
def shrink2 (b : Blk) (o2 : Option Block) : Blk :=
  match o2 with
  | some o => if o.size < b.block2Size then { b with block2Size := o.size } else b
  | none => b

/-- The beginning of `coap_server_trans_handle_next_block`, coap_server.c:1420-1445: the
Block options of the request, the block sizes reduced to those it asks for, its path;
then one of the two parts. -/
def nextBlockStep (env : Env) (opMem : Bool) (again : Blk → Large → Msg → Out BRes)
    (b : Blk) (L : Large) (req resp : Msg) : Out BRes :=
  match parseBlockOp BLOCK1 req.ops with
  | .ub => .ub
  | .err _ => clearCode b L resp 4 0
  | .ok o1 =>
    let b := shrink1 b o1
    match parseBlockOp BLOCK2 req.ops with
    | .ub => .ub
    | .err _ => clearCode b L resp 4 0
    | .ok o2 =>
      let b := shrink2 b o2
      match uriStr 257 req.ops with
      | .ub => .ub
      | .err e => .err e
      | .ok uri =>
        match b.type with
        | .regular => .ok ⟨b, L, resp, none, []⟩
        | .get | .put2 | .post2 =>
          nextBlock2 opMem env.payMem b L req resp (match o2 with | some o => o.num | none => 0) uri
        | .put1 | .post1 =>
          nextBlock1 env again b L req resp
            (match o1 with | some o => o.num | none => 0) (match o1 with | some o => o.more | none => false) uri

/-- `coap_server_trans_handle_next_block`, coap_server.c:1401-1645. The recursive call
is made with type `put2` or `post2` and makes no further one. -/
def nextBlock (env : Env) (b : Blk) (L : Large) (req resp : Msg) : Out BRes :=
  nextBlockStep env env.opMem1
    (fun b L resp => nextBlockStep env env.opMem2 (fun _ _ _ => .ub) b L req resp) b L req resp

/-- A block size given by the application, coap_server.c:1660-1675. -/
def badSize (n : Nat) : Bool :=
  n > 0 && (match calcBlockSzx n with | .ok _ => false | _ => true)

/-- `coap_server_trans_handle_blockwise`, coap_server.c:1647-1731. -/
def handleBlockwise (env : Env) (b : Blk) (L : Large) (req resp : Msg)
    (b1 b2 : Nat) (body : Bytes) (bodyLen : Nat) (rx : Option Nat) : Out BRes :=
  let L := (clearBlockwise b L).2
  if badSize b1 then .ok ⟨Blk.none, L, resp, some .EINVAL, []⟩
  else if badSize b2 then .ok ⟨Blk.none, L, resp, some .EINVAL, []⟩
  else if bodyLen > L.pool.len then .ok ⟨Blk.none, L, resp, some .ENOSPC, []⟩
  else
    match L.alloc bodyLen with
    | (none, L) => .ok ⟨Blk.none, L, resp, some .ENOMEM, []⟩
    | (some p, L) =>
      let zeros : Bytes := List.replicate L.pool.len 0
      let b0 := { Blk.none with body := some (p, zeros), bodyLen := L.pool.len }
      if req.codeDetail = 1 then
        match rds body bodyLen with
        | .ub => .ub
        | .err e => .err e
        | .ok src =>
          match wrs zeros 0 src with
          | .ub => .ub
          | .err e => .err e
          | .ok bytes =>
            match uriStr 257 req.ops with
            | .ub => .ub
            | .err e => .err e
            | .ok uri =>
              nextBlock env { b0 with
                type := .get, body := some (p, bytes), bodyEnd := bodyLen
                block1Size := b1, block2Size := b2, blockUri := uri, blockRx := rx } L req resp
      else if req.codeDetail = 3 ∨ req.codeDetail = 2 then
        match rx with
        | none => .ok ⟨Blk.none, (clearBlockwise b0 L).2, resp, some .EINVAL, []⟩
        | some _ =>
          match uriStr 257 req.ops with
          | .ub => .ub
          | .err e => .err e
          | .ok uri =>
            nextBlock env { b0 with
              type := if req.codeDetail = 3 then .put1 else .post1
              block1Size := b1, block2Size := b2, blockUri := uri, blockRx := rx } L req resp
      else clearCode b0 L resp 5 1

/-- `coap_server_get_next_msg_id`, coap_server.c:1987-1998. `rnd` is the 16 bit random
number drawn when the counter leaves the range; one draw ends the loop. -/
def nextMsgId (msgId rnd : Nat) : Nat :=
  if msgId + 1 > 65535 then rnd % 65536 else msgId + 1

/-- `coap_server_get_resp_type`, coap_server.c:2220-2228, and
`coap_server_path_list_match`, coap_server.c:189-203: `true` is a separate response. -/
def isSep (sep : List Bytes) (m : Msg) : Out Bool := do
  let path ← uriStr 256 m.ops
  pure (sep.contains path)

/-- The result of handling an event for one transaction. -/
structure TRes where
  trans : Trans
  large : Large
  msgId : Nat
  obs : List Obs
  err : Option Err

/-- Destroy the transaction and return. -/
def failT (t : Trans) (L : Large) (id : Nat) (o : List Obs) (e : Option Err) : Out TRes :=
  .ok ⟨(destroy t L).1, (destroy t L).2, id, o, e⟩

/-- The end of `coap_server_exchange`, coap_server.c:2509-2546: record request and
response and start the timer. -/
def record (env : Env) (t : Trans) (L : Large) (id : Nat) (o : List Obs) (req resp : Msg) : Out TRes :=
  match copy create req with
  | .ub => .ub
  | .err e => failT t L id o (some e)
  | .ok q =>
    if env.copyReqMem = false then failT t L id o (some .ENOMEM)
    else
      match copy create resp with
      | .ub => .ub
      | .err e => failT t L id o (some e)
      | .ok r =>
        if env.copyRespMem = false then failT t L id o (some .ENOMEM)
        else
          let t := { t with req := q, resp := r }
          if resp.type = CON then
            match startAckTimer env t with
            | (t, o2, some e) => failT t L id (o ++ o2) (some e)
            | (t, o2, none) => .ok ⟨t, L, id, o ++ o2, none⟩
          else .ok ⟨t, L, id, o, none⟩

/-- coap_server.c:2449-2507: message id, token and type of the response, and sending it.
`sep` says that the response is a separate one. -/
def finish (env : Env) (t : Trans) (L : Large) (id : Nat) (o : List Obs) (sep : Bool) (req resp : Msg) : Out TRes :=
  let pig : Bool := req.type = CON ∧ sep = false
  let id' := if pig then id else nextMsgId id env.idRand
  match setMsgId resp (if pig then req.msgId else id') with
  | .ub => .ub
  | .err e => failT t L id' o (some e)
  | .ok resp =>
    match setToken resp req.token with
    | .ub => .ub
    | .err e => failT t L id' o (some e)
    | .ok resp =>
      match setType resp (if req.type = CON then (if sep = false then ACK else CON) else NON) with
      | .ub => .ub
      | .err e => failT t L id' o (some e)
      | .ok resp =>
        match send env.now env.sendErr t resp with
        | .ub => .ub
        | .err e => .err e
        | .ok (t, o2, some e) => failT t L id' (o ++ o2) (some e)
        | .ok (t, o2, none) => record env t L id' (o ++ o2) req resp

/-- Generating the response, coap_server.c:2425-2448. -/
def generate (env : Env) (t : Trans) (L : Large) (req : Msg) : Out (BRes × List Obs) :=
  if checkCriticalOps req.ops ≠ 0 then
    match badOption env create (checkCriticalOps req.ops) with
    | .ok (resp, e) => .ok (⟨t.blk, L, resp, e, []⟩, [])
    | .err e => .err e
    | .ub => .ub
  else if t.blk.type ≠ .regular then
    match nextBlock env t.blk L req create with
    | .ok r => .ok (r, [])
    | .err e => .err e
    | .ub => .ub
  else
    match env.handle t req with
    | .reply resp err => .ok (⟨t.blk, L, resp, err, []⟩, [.call t.addr req])
    | .blockwise resp b1 b2 body bodyLen rx =>
      match handleBlockwise env t.blk L req resp b1 b2 body bodyLen rx with
      | .ok r => .ok (r, [.call t.addr req])
      | .err e => .err e
      | .ub => .ub

/-- `coap_server_exchange` from line 2425 on: generate, send and record the response. -/
def respond (env : Env) (t : Trans) (L : Large) (id : Nat) (o : List Obs) (sep : Bool) (req : Msg) : Out TRes :=
  match generate env t L req with
  | .ub => .ub
  | .err e => .err e
  | .ok (r, o2) =>
    let o := o ++ o2 ++ r.rx.map (fun x => Obs.rx t.addr x.1 x.2)
    let t := { t with blk := r.blk }
    match r.err with
    | some e => failT t r.large id o (some e)
    | none => finish env t r.large id o sep req r.resp

/-- A new request, coap_server.c:2385-2424: forget the previous request and response and
acknowledge the request if the response is a separate one. -/
def request (sepList : List Bytes) (env : Env) (t : Trans) (L : Large) (id : Nat) (o : List Obs) (req : Msg) : Out TRes :=
  let t := { t with req := destroyed, resp := destroyed }
  if req.type = CON then
    match isSep sepList req with
    | .ub => .ub
    | .err e => .err e
    | .ok false => respond env t L id o false req
    | .ok true =>
      match sendAck env t req with
      | .ub => .ub
      | .err e => .err e
      | .ok (t, o2, some e) => failT t L id (o ++ o2) (some e)
      | .ok (t, o2, none) => respond env t L id (o ++ o2) true req
  else respond env t L id o false req

/-- A duplicate confirmable request, coap_server.c:2301-2330. When sending the stored
response fails the function returns 0 (line 2326 returns `ret`). -/
def duplicate (sepList : List Bytes) (env : Env) (t : Trans) (L : Large) (id : Nat) (o : List Obs) (m : Msg) : Out TRes :=
  match isSep sepList m with
  | .ub => .ub
  | .err e => .err e
  | .ok true =>
    match sendAck env t m with
    | .ub => .ub
    | .err e => .err e
    | .ok (t, o2, some e) => failT t L id (o ++ o2) (some e)
    | .ok (t, o2, none) => .ok ⟨t, L, id, o ++ o2, none⟩
  | .ok false =>
    match send env.now env.sendErr t t.resp with
    | .ub => .ub
    | .err e => .err e
    | .ok (t, o2, some _) => failT t L id (o ++ o2) none
    | .ok (t, o2, none) => .ok ⟨t, L, id, o ++ o2, none⟩

/-- `coap_server_exchange` after a message was received, coap_server.c:2298-2383. -/
def received (sepList : List Bytes) (env : Env) (t : Trans) (L : Large) (id : Nat) (o : List Obs) (m : Msg) : Out TRes :=
  if matchReq t m = true ∧ m.type = CON then duplicate sepList env t L id o m
  else if matchReq t m = true ∧ m.type = NON then .ok ⟨t, L, id, o, none⟩
  else if matchResp t m = true ∧ (m.type = ACK ∨ m.type = RST) then
    match stopAckTimer env t with
    | (t, some e) => failT t L id o (some e)
    | (t, none) => .ok ⟨t, L, id, o, none⟩
  else if m.type = ACK ∨ m.type = RST ∨ m.codeClass ≠ 0 then
    match reject env t m with
    | .ok (t, o2) => failT t L id (o ++ o2) (some .EBADMSG)
    | .err e => .err e
    | .ub => .ub
  else request sepList env t L id o m

/-- `coap_server_exchange` with the transaction of the sender, coap_server.c:2283-2546. -/
def exchangeT (sx : Bool) (sepList : List Bytes) (env : Env) (t : Trans) (L : Large) (id : Nat) (d : Bytes) : Out TRes :=
  match recv sx env t d with
  | .ub => .ub
  | .err e => .err e
  | .ok (t, o, .error e) => if e = .EAGAIN then .ok ⟨t, L, id, o, none⟩ else failT t L id o (some e)
  | .ok (t, o, .ok m) => received sepList env t L id o m

/-- `coap_server_trans_handle_ack_timeout`, coap_server.c:1304-1328. -/
def ackTimeout (env : Env) (t : Trans) (L : Large) (id : Nat) : Out TRes :=
  match updateAckTimer env t with
  | (t, o, none) =>
    match send env.now env.sendErr t t.resp with
    | .ub => .ub
    | .err e => .err e
    | .ok (t, o2, e) => .ok ⟨t, L, id, o ++ o2, e⟩
  | (t, _, some e) =>
    if e = .ETIMEDOUT then failT t L id [] none
    else .ok ⟨t, L, id, [], some e⟩

/-- `coap_server_find_trans`, coap_server.c:2031-2048. -/
def findTrans (ts : List Trans) (a : Addr) : Option Nat := ts.findIdx? (fun t => t.active && t.addr == a)

/-- `coap_server_find_empty_trans`, coap_server.c:2058-2073. -/
def findEmpty (ts : List Trans) : Option Nat := ts.findIdx? (fun t => !t.active)

/-- The loop of `coap_server_find_oldest_trans`, coap_server.c:2093-2105: `i` is the
index of the head of the list. -/
def findOldestLoop : List Trans → (i : Nat) → (minUse : Nat) → (oldest : Nat) → Nat
  | [], _, _, oldest => oldest
  | t :: ts, i, minUse, oldest =>
    if t.active = true ∧ (minUse = 0 ∨ t.lastUse < minUse) then findOldestLoop ts (i + 1) t.lastUse i
    else findOldestLoop ts (i + 1) minUse oldest

/-- `coap_server_find_oldest_trans`, coap_server.c:2085-2108. -/
def findOldest (ts : List Trans) : Nat := findOldestLoop ts 0 0 0

/-- `coap_server_trans_create`, coap_server.c:1342-1383. `createErr` is the failure of
`timerfd_create` or `inet_ntop`. -/
def createT (env : Env) (a : Addr) : Except Err Trans :=
  match env.createErr with
  | some e => .error e
  | none => .ok { Trans.zero with active := true, lastUse := env.now, addr := a, req := create, resp := create }

/-- `coap_server_exchange`, coap_server.c:2283-2546, with the transaction at index `i`. -/
def exchangeAt (sx : Bool) (env : Env) (s : Srv) (i : Nat) (d : Bytes) : Out (Srv × List Obs × Option Err) :=
  match s.trans[i]? with
  | none => .ub
  | some t =>
    match exchangeT sx s.sepList env t s.large s.msgId d with
    | .ub => .ub
    | .err e => .err e
    | .ok r => .ok ({ s with msgId := r.msgId, trans := s.trans.set i r.trans, large := r.large }, r.obs, r.err)

/-- Finding a place for a new sender, coap_server.c:2264-2269. -/
def makeRoom (s : Srv) : Nat × Srv :=
  match findEmpty s.trans with
  | some i => (i, s)
  | none =>
    let i := findOldest s.trans
    match s.trans[i]? with
    | none => (i, s)
    | some t => (i, { s with trans := s.trans.set i (destroy t s.large).1, large := (destroy t s.large).2 })

/-- `coap_server_exchange`, coap_server.c:2239-2546. -/
def exchange (sx : Bool) (env : Env) (s : Srv) (a : Addr) (d : Bytes) : Out (Srv × List Obs × Option Err) :=
  match env.acceptErr with
  | some e => .ok (s, [], some e)
  | none =>
    match findTrans s.trans a with
    | some i => exchangeAt sx env s i d
    | none =>
      let (i, s) := makeRoom s
      match createT env a with
      | .error e => .ok ({ s with trans := s.trans.set i Trans.zero }, [], some e)
      | .ok t => exchangeAt sx env { s with trans := s.trans.set i t } i d

/-- The timer of transaction `i`, coap_server.c:2154-2165. A timer that is not running
does not expire. -/
def timer (env : Env) (s : Srv) (i : Nat) : Out (Srv × List Obs × Option Err) :=
  match s.trans[i]? with
  | none => .ok (s, [], none)
  | some t =>
    if t.active = true ∧ t.armed = true then
      match ackTimeout env t s.large s.msgId with
      | .ub => .ub
      | .err e => .err e
      | .ok r => .ok ({ s with msgId := r.msgId, trans := s.trans.set i r.trans, large := r.large }, r.obs, r.err)
    else .ok (s, [], none)

/-- What can happen to a server: a datagram arrives, a timer expires, the application
asks for a message id. -/
inductive Event where
  | datagram (a : Addr) (d : Bytes)
  | timer (i : Nat)
  | appId
  deriving DecidableEq, Repr

/-- One event. `coap_server_run`, coap_server.c:2548-2573, alternates between
coap_server_listen and coap_server_exchange; which of a datagram and several expired
timers comes first is left open here. -/
def step (sx : Bool) (s : Srv) (env : Env) : Event → Out (Srv × List Obs × Option Err)
  | .datagram a d => exchange sx env s a d
  | .timer i => timer env s i
  | .appId => .ok ({ s with msgId := nextMsgId s.msgId env.idRand }, [], none)

/-- A history: the final state and what was seen at each event. -/
def run (sx : Bool) (s : Srv) : List (Env × Event) → Out (Srv × List (List Obs))
  | [] => .ok (s, [])
  | (env, ev) :: rest =>
    match step sx s env ev with
    | .ub => .ub
    | .err e => .err e
    | .ok (s1, o, _) =>
      match run sx s1 rest with
      | .ub => .ub
      | .err e => .err e
      | .ok (s2, os) => .ok (s2, o :: os)

/-- `coap_server_create`, coap_server.c:1859-1964, and the paths added with
`coap_server_add_sep_resp_uri_path`, coap_server.c:2198-2201: `id` is the random number
of line 1949. -/
def init (id : Nat) (sepList : List Bytes) (large : Pool) : Srv :=
  ⟨id % 65536, sepList, List.replicate NUM_TRANS Trans.zero, ⟨large, []⟩⟩

/-- The loop of `coap_server_destroy`, coap_server.c:1971-1978. -/
def destroyAll : List Trans → Large → List Trans × Large
  | [], L => ([], L)
  | t :: ts, L =>
    if t.active = true then
      let r := destroy t L
      let rs := destroyAll ts r.2
      (r.1 :: rs.1, rs.2)
    else
      let rs := destroyAll ts L
      (t :: rs.1, rs.2)

end FreeCoAP.Server
