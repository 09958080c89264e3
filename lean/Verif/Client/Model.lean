import Verif.Msg.Model

/-!
# Model of `lib/src/coap_client.c`

The client without DTLS (the code compiled when `COAP_DTLS_EN` is not defined). A call
of `coap_client_exchange` waits in `select` for the socket or the timer; what it finds
there each time is an `Input`. The model is a function of the list of inputs; when the
list ends before the call returns, the call is still waiting (`none`). Statements about
all lists are therefore about all executions, finite or not.

Results of system calls, random numbers and allocation failures are part of the inputs.
Messages are the values of `Verif/Msg/Model.lean`. `px` says that the library is
compiled with `COAP_PROXY`.
-/

namespace FreeCoAP.Client

open FreeCoAP.Msg

/-- `COAP_MSG_MAX_BUF_LEN`, lib/include/coap_msg.h:49. -/
abbrev BUF_LEN : Nat := 1152
/-- `COAP_CLIENT_ACK_TIMEOUT_SEC`, coap_client.c:53, in milliseconds. -/
abbrev ACK_TIMEOUT : Nat := 2000
/-- `COAP_CLIENT_MAX_RETRANSMIT`, coap_client.c:54. -/
abbrev MAX_RETRANSMIT : Nat := 4
/-- `COAP_CLIENT_RESP_TIMEOUT_SEC`, coap_client.c:55, in milliseconds. -/
abbrev RESP_TIMEOUT : Nat := 30000

/-- What can be seen from outside: a datagram sent, the timer started for so many
milliseconds. -/
inductive Obs where
  | sent (bytes : Bytes)
  | arm (ms : Nat)
  deriving DecidableEq, Repr

/-- What a call of `select` finds: a datagram (with or without the timer having expired
too), only the timer, a failing `recv` on the socket (`EAGAIN` included), or an error of
`select` itself. -/
inductive Ev where
  | datagram (d : Bytes)
  | timer
  | recvErr (e : Err)
  | selectErr (e : Err)
  deriving DecidableEq, Repr

/-- One return of `select` and the failures of the system calls and of the allocator
while it is handled. At most one datagram is sent and one timer started. -/
structure Input where
  ev : Ev
  sendErr : Option Err
  timerErr : Option Err
  parseMem : Bool
  deriving DecidableEq, Repr

/-- `coap_client_send`, coap_client.c:809-847; `e` is the failure of `send`. -/
def send (e : Option Err) (m : Msg) : Out (List Obs × Option Err) :=
  match format m (List.replicate BUF_LEN 0) BUF_LEN with
  | .ub => .ub
  | .err e => .ok ([], some e)
  | .ok (buf, n) =>
    match e with
    | some e => .ok ([], some e)
    | none => .ok ([.sent (buf.take n)], none)

/-- An Empty message of the given type and id, coap_client.c:872-884, 979-991 and
1094-1106. The setters accept the type and every 16 bit id. -/
def emptyMsg (type id : Nat) : Msg := { create with type := type, msgId := id }

/-- `coap_client_handle_format_error`, coap_client.c:862-888. -/
def formatError (e : Option Err) (mem : Bytes) (len : Nat) : Out (List Obs) :=
  match parseTypeMsgId mem len with
  | .ub => .ub
  | .err _ => .ok []
  | .ok (type, id) =>
    if type = CON then
      match send e (emptyMsg RST id) with
      | .ok (o, _) => .ok o
      | .err e => .err e
      | .ub => .ub
    else .ok []

/-- The buffer of coap_client.c:908 after a datagram was received: bytes beyond its
size are lost. -/
def recvBuf (d : Bytes) : Bytes := d.take BUF_LEN ++ List.replicate (BUF_LEN - d.length) 0

/-- `coap_client_recv`, coap_client.c:900-958, when `recv` gives the datagram `d`. -/
def recv (sx : Bool) (i : Input) (d : Bytes) : Out (List Obs × Except Err Msg) :=
  if i.parseMem = false then .ok ([], .error .ENOMEM)
  else
    match parse sx (recvBuf d) (min d.length BUF_LEN) with
    | .ub => .ub
    | .ok m => .ok ([], .ok m)
    | .err e =>
      if e = .EBADMSG then
        match formatError i.sendErr (recvBuf d) (min d.length BUF_LEN) with
        | .ok o => .ok (o, .error e)
        | .err e => .err e
        | .ub => .ub
      else .ok ([], .error e)

/-- `coap_client_reject`, coap_client.c:972-1075: the value returned is 0 or an error. -/
def reject (i : Input) (m : Msg) : Out (List Obs × Option Err) :=
  if m.type = CON then send i.sendErr (emptyMsg RST m.msgId) else .ok ([], none)

/-- `coap_client_send_ack`, coap_client.c:1087-1115. -/
def sendAck (i : Input) (m : Msg) : Out (List Obs × Option Err) := send i.sendErr (emptyMsg ACK m.msgId)

/-- `coap_client_match_token`, coap_client.c:1253-1257. -/
def matchToken (req resp : Msg) : Bool := resp.token = req.token

/-- `coap_client_check_options`, coap_client.c:1271-1278. -/
def checkOptions (px : Bool) (m : Msg) : Nat := if px then checkUnsafeOps m.ops else checkCriticalOps m.ops

/-- The state of a waiting exchange: which of `coap_client_exchange_con`, `_sep` and
`_non` is waiting, the number of retransmissions and the duration of the timer. -/
inductive Phase where
  | ack | sep | non
  deriving DecidableEq, Repr
structure Wait where
  phase : Phase
  numRetrans : Nat
  timeout : Nat
  deriving DecidableEq, Repr

/-- Waiting goes on, or the exchange returns. -/
inductive Next where
  | go (w : Wait)
  | done (r : Except Err Msg)

/-- Reject the message and return `-EBADMSG`, e.g. coap_client.c:1302-1303: the value
returned by reject is not used. -/
def bad (i : Input) (m : Msg) : Out (List Obs × Next) :=
  match reject i m with
  | .ok (o, _) => .ok (o, .done (.error .EBADMSG))
  | .err e => .err e
  | .ub => .ub

/-- Reject the message and continue listening, e.g. coap_client.c:1415-1419. -/
def skip (i : Input) (w : Wait) (m : Msg) : Out (List Obs × Next) :=
  match reject i m with
  | .ok (o, some e) => .ok (o, .done (.error e))
  | .ok (o, none) => .ok (o, .go w)
  | .err e => .err e
  | .ub => .ub

/-- `coap_client_handle_piggybacked_response`, coap_client.c:1294-1308. -/
def piggybacked (px : Bool) (i : Input) (m : Msg) : Out (List Obs × Next) :=
  if checkOptions px m ≠ 0 then bad i m else .ok ([], .done (.ok m))

/-- `coap_client_handle_sep_response`, coap_client.c:1323-1353. -/
def sepResponse (px : Bool) (i : Input) (m : Msg) : Out (List Obs × Next) :=
  if m.type = CON then
    if checkOptions px m ≠ 0 then bad i m
    else
      match sendAck i m with
      | .ok (o, some e) => .ok (o, .done (.error e))
      | .ok (o, none) => .ok (o, .done (.ok m))
      | .err e => .err e
      | .ub => .ub
  else if m.type = NON then
    if checkOptions px m ≠ 0 then bad i m else .ok ([], .done (.ok m))
  else bad i m

/-- The start of the response timer, coap_client.c:694-699 and 793-797; the value
returned is not used (lines 1376 and 1530). -/
def startResp (e : Option Err) (phase : Phase) (n : Nat) : List Obs × Wait :=
  (match e with | none => [.arm RESP_TIMEOUT] | some _ => [], ⟨phase, n, RESP_TIMEOUT⟩)

/-- `coap_msg_is_empty`, coap_msg.h:78. -/
def isEmpty (m : Msg) : Bool := m.codeClass = 0 ∧ m.codeDetail = 0

/-- A message received while waiting: the loop bodies of `coap_client_exchange_sep`
(coap_client.c:1393-1419), `_con` (1463-1505) and `_non` (1546-1567) after
`coap_client_recv`. -/
def handle (px : Bool) (req : Msg) (w : Wait) (i : Input) (m : Msg) : Out (List Obs × Next) :=
  if m.msgId = req.msgId then
    match w.phase with
    | .sep =>
      if m.type = ACK then .ok ([], .go w)
      else if m.type = RST then .ok ([], .done (.error .ECONNRESET))
      else bad i m
    | .ack =>
      if m.type = ACK ∧ isEmpty m = true then
        let (o, w) := startResp i.timerErr .sep w.numRetrans
        .ok (o, .go w)
      else if m.type = ACK ∧ matchToken req m = true then piggybacked px i m
      else if m.type = RST then .ok ([], .done (.error .ECONNRESET))
      else bad i m
    | .non =>
      if m.type = RST then .ok ([], .done (.error .ECONNRESET)) else bad i m
  else if matchToken req m = true then sepResponse px i m
  else skip i w m

/-- `coap_client_update_ack_timer`, coap_client.c:766-783, with double_timeout (706-713;
the product is an `unsigned`). -/
def updateAckTimer (e : Option Err) (w : Wait) : Wait × List Obs × Option Err :=
  if w.numRetrans ≥ MAX_RETRANSMIT then (w, [], some .ETIMEDOUT)
  else
    let w := { w with timeout := (2 * w.timeout) % 2 ^ 32 }
    match e with
    | some e => (w, [], some e)
    | none => ({ w with numRetrans := w.numRetrans + 1 }, [.arm w.timeout], none)

/-- The timer expired: `coap_client_handle_ack_timeout`, coap_client.c:1130-1152, called
by `coap_client_listen_ack` (1187-1194), or the end of `coap_client_listen_resp`
(1235-1238). -/
def expire (req : Msg) (w : Wait) (i : Input) : Out (List Obs × Next) :=
  match w.phase with
  | .ack =>
    match updateAckTimer i.timerErr w with
    | (_, o, some e) => .ok (o, .done (.error e))
    | (w, o, none) =>
      match send i.sendErr req with
      | .ok (o2, some e) => .ok (o ++ o2, .done (.error e))
      | .ok (o2, none) => .ok (o ++ o2, .go w)
      | .err e => .err e
      | .ub => .ub
  | _ => .ok ([], .done (.error .ETIMEDOUT))

/-- One return of `select`, coap_client.c:1164-1197 and 1210-1240, and what follows until
the next one. -/
def step (sx px : Bool) (req : Msg) (w : Wait) (i : Input) : Out (List Obs × Next) :=
  match i.ev with
  | .selectErr e => .ok ([], .done (.error e))
  | .timer => expire req w i
  | .recvErr e => if e = .EAGAIN then .ok ([], .go w) else .ok ([], .done (.error e))
  | .datagram d =>
    match recv sx i d with
    | .ub => .ub
    | .err e => .err e
    | .ok (o, .error e) => if e = .EAGAIN then .ok (o, .go w) else .ok (o, .done (.error e))
    | .ok (o, .ok m) =>
      match handle px req w i m with
      | .ok (o2, n) => .ok (o ++ o2, n)
      | .err e => .err e
      | .ub => .ub

/-- The loops of the three functions over the inputs. Inputs after the return are not
looked at. -/
def wait (sx px : Bool) (req : Msg) : Wait → List Input → Out (List Obs × Option (Except Err Msg))
  | _, [] => .ok ([], none)
  | w, i :: is =>
    match step sx px req w i with
    | .ub => .ub
    | .err e => .err e
    | .ok (o, .done r) => .ok (o, some r)
    | .ok (o, .go w) =>
      match wait sx px req w is with
      | .ok (o2, r) => .ok (o ++ o2, r)
      | .err e => .err e
      | .ub => .ub

/-- The environment of one exchange: the two random bytes of the message id and the four
of the token, the failures when the request is sent and the timer is started, the random
part of the timeout, and what happens then. -/
structure XEnv where
  id0 : Byte
  id1 : Byte
  tok0 : Byte
  tok1 : Byte
  tok2 : Byte
  tok3 : Byte
  sendErr : Option Err
  timerErr : Option Err
  rand : Nat
  inputs : List Input
  deriving DecidableEq, Repr

/-- coap_client.c:1589-1590. -/
def XEnv.id (x : XEnv) : Nat := (x.id1.toNat <<< 8) ||| x.id0.toNat

/-- coap_client.c:1598. -/
def XEnv.token (x : XEnv) : Bytes := [x.tok0, x.tok1, x.tok2, x.tok3]

/-- The beginning of `coap_client_exchange_con` (coap_client.c:1448) and of
`coap_client_exchange_non` (1530): start the timer; the values returned are not used. -/
def startWait (x : XEnv) (type : Nat) : List Obs × Wait :=
  if type = CON then
    let t := ACK_TIMEOUT + x.rand % 1000
    (match x.timerErr with | none => [.arm t] | some _ => [], ⟨.ack, 0, t⟩)
  else startResp x.timerErr .non 0

/-- `coap_client_exchange`, coap_client.c:1572-1633: what is seen and the value returned
with the response. (The caller's request also keeps the new id and token.) -/
def exchange (sx px : Bool) (x : XEnv) (req : Msg) : Out (List Obs × Option (Except Err Msg)) :=
  if req.type = ACK ∨ req.type = RST ∨ req.codeClass ≠ 0 then .ok ([], some (.error .EINVAL))
  else
    match setMsgId req x.id with
    | .ub => .ub
    | .err e => .ok ([], some (.error e))
    | .ok req =>
      match setToken req x.token with
      | .ub => .ub
      | .err e => .ok ([], some (.error e))
      | .ok req =>
        match send x.sendErr req with
        | .ub => .ub
        | .err e => .err e
        | .ok (o, some e) => .ok (o, some (.error e))
        | .ok (o, none) =>
          if req.type = CON ∨ req.type = NON then
            let (o2, w) := startWait x req.type
            match wait sx px req w x.inputs with
            | .ok (o3, r) => .ok (o ++ o2 ++ o3, r)
            | .err e => .err e
            | .ub => .ub
          else .ok (o, some (.error .EINVAL))

/-- The environment of one round of a blockwise transfer: an exchange and whether memory
was available for the copy of the request, the Block1 option, the Block2 option and the
payload. -/
structure BEnv where
  x : XEnv
  copyMem : Bool
  opMem1 : Bool
  opMem2 : Bool
  payMem : Bool
  deriving DecidableEq, Repr

/-- The result of a blockwise function: what is seen in each round, the value returned
(`none`: still waiting), the response and the caller's buffer. After a failure the contents
of the response are not modelled. -/
structure BRes where
  obs : List (List Obs)
  ret : Option (Except Err Nat)
  resp : Msg
  body : Bytes

/-- The result of the last round. -/
def endRound (o : List Obs) (r : Except Err Nat) (resp : Msg) (body : Bytes) : Out BRes := .ok ⟨[o], some r, resp, body⟩

/-- Add what was seen in a round. -/
def BRes.cons (o : List Obs) (x : Out BRes) : Out BRes :=
  match x with
  | .ok r => .ok { r with obs := o :: r.obs }
  | .err e => .err e
  | .ub => .ub

/-- The message of one round of `coap_client_exchange_blockwise1`, coap_client.c:1689-1741:
a copy of the request with the Block1 option, in the last round also the Block2 option,
and the payload. -/
def message1 (b : BEnv) (req : Msg) (size1 size2 szx start : Nat) (body : Bytes) (bodyLen : Nat) : Out (Except Err (Msg × Nat)) :=
  match copy create req with
  | .ub => .ub
  | .err e => .ok (.error e)
  | .ok msg =>
    if b.copyMem = false then .ok (.error .ENOMEM)
    else
      let more : Bool := ¬ (start + size1 ≥ bodyLen)
      let payloadLen := if more then size1 else bodyLen - start
      match formatBlockVal 3 (start >>> (szx + 4)) more size1 with
      | .ub => .ub
      | .err e => .ok (.error e)
      | .ok val =>
        if b.opMem1 = false then .ok (.error .ENOMEM)
        else
          let msg := addOp msg BLOCK1 val
          match (if more then .ok msg else
            match formatBlockVal 3 0 false size2 with
            | .ub => .ub
            | .err e => .err e
            | .ok val => if b.opMem2 = false then .err .ENOMEM else .ok (addOp msg BLOCK2 val) : Out Msg) with
          | .ub => .ub
          | .err e => .ok (.error e)
          | .ok msg =>
            match rds (body.drop start) payloadLen with
            | .ub => .ub
            | .err e => .err e
            | .ok payload =>
              if b.payMem = false then .ok (.error .ENOMEM) else .ok (.ok (setPayload msg payload, payloadLen))

/-- The loop of `coap_client_exchange_blockwise1`, coap_client.c:1686-1798, with the
Block1 size `size1` and its exponent `szx` in this round. The computation of the block
number in `unsigned` does not overflow: a number above 2^20 is refused by
`coap_msg_op_format_block_val`, and the start advances by one block each time. -/
def blockwise1 (sx px : Bool) (req : Msg) (size2 : Nat) (body : Bytes) (bodyLen : Nat) :
    (size1 szx start : Nat) → (resp : Msg) → List BEnv → Out BRes
  | _, _, _, resp, [] => .ok ⟨[], none, resp, body⟩
  | size1, szx, start, resp, b :: bs =>
    match message1 b req size1 size2 szx start body bodyLen with
    | .ub => .ub
    | .err e => .err e
    | .ok (.error e) => endRound [] (.error e) resp body
    | .ok (.ok (msg, payloadLen)) =>
      match exchange sx px b.x msg with
      | .ub => .ub
      | .err e => .err e
      | .ok (o, none) => .ok ⟨[o], none, resp, body⟩
      | .ok (o, some (.error e)) => endRound o (.error e) resp body
      | .ok (o, some (.ok resp)) =>
        if resp.codeClass ≠ 2 then endRound o (.ok 0) resp body
        else if resp.codeDetail ≠ 31 ∧ resp.codeDetail ≠ 1 ∧ resp.codeDetail ≠ 4 then endRound o (.ok 0) resp body
        else
          match parseBlockOp BLOCK1 resp.ops with
          | .ub => .ub
          | .err _ => endRound o (.error .EBADMSG) resp body
          | .ok none => endRound o (.error .EBADMSG) resp body
          | .ok (some blk) =>
            let size1 := if blk.size < size1 then blk.size else size1
            if blk.num * size1 ≠ start then endRound o (.error .EBADMSG) resp body
            else
              match calcBlockSzx size1 with
              | .ub => .ub
              | .err _ => endRound o (.error .EBADMSG) resp body
              | .ok szx =>
                let start := start + payloadLen
                if start ≥ bodyLen then endRound o (.ok start) resp body
                else BRes.cons o (blockwise1 sx px req size2 body bodyLen size1 szx start create bs)

/-- `coap_client_exchange_blockwise1`, coap_client.c:1652-1799. -/
def upload (sx px : Bool) (req resp : Msg) (size1 size2 : Nat) (body : Bytes) (bodyLen : Nat) (bs : List BEnv) : Out BRes :=
  if size1 = 0 ∨ size2 = 0 then .ok ⟨[], some (.error .EINVAL), resp, body⟩
  else
    match calcBlockSzx size1 with
    | .ub => .ub
    | .err e => .ok ⟨[], some (.error e), resp, body⟩
    | .ok szx =>
      match calcBlockSzx size2 with
      | .ub => .ub
      | .err e => .ok ⟨[], some (.error e), resp, body⟩
      | .ok _ => blockwise1 sx px req size2 body bodyLen size1 szx 0 resp bs

/-- The message of one round of `coap_client_exchange_blockwise2`, coap_client.c:1850-1873. -/
def message2 (b : BEnv) (req : Msg) (size2 szx start : Nat) : Out (Except Err Msg) :=
  match copy create req with
  | .ub => .ub
  | .err e => .ok (.error e)
  | .ok msg =>
    if b.copyMem = false then .ok (.error .ENOMEM)
    else
      match formatBlockVal 3 (start >>> (szx + 4)) false size2 with
      | .ub => .ub
      | .err e => .ok (.error e)
      | .ok val =>
        if b.opMem2 = false then .ok (.error .ENOMEM) else .ok (.ok (addOp msg BLOCK2 val))

/-- What a round of `coap_client_exchange_blockwise2` does with a response,
coap_client.c:1881-1957: return, or go on with a new size, exponent, start and buffer. -/
inductive Taken where
  | ret (r : Except Err Nat) (body : Bytes)
  | next (size2 szx start : Nat) (body : Bytes)

/-- coap_client.c:1881-1957. `memcpy` with a null pointer and length 0 is taken to do
nothing. -/
def take2 (method : Nat) (size2 start : Nat) (resp : Msg) (body : Bytes) (bodyLen : Nat) : Out Taken :=
  if resp.codeClass ≠ 2 then .ok (.ret (.ok 0) body)
  else if (method = 1 ∧ resp.codeDetail ≠ 31 ∧ resp.codeDetail ≠ 5) ∨
      (method ≠ 1 ∧ resp.codeDetail ≠ 31 ∧ resp.codeDetail ≠ 1 ∧ resp.codeDetail ≠ 4) then .ok (.ret (.ok 0) body)
  else
    match parseBlockOp BLOCK2 resp.ops with
    | .ub => .ub
    | .err _ => .ok (.ret (.error .EBADMSG) body)
    | .ok none => .ok (.ret (.error .EBADMSG) body)
    | .ok (some blk) =>
      let size2 := if blk.size < size2 then blk.size else size2
      if blk.num * size2 ≠ start then .ok (.ret (.error .EBADMSG) body)
      else
        match calcBlockSzx size2 with
        | .ub => .ub
        | .err _ => .ok (.ret (.error .EBADMSG) body)
        | .ok szx =>
          let payloadLen := resp.payload.length
          if payloadLen > size2 then .ok (.ret (.error .EBADMSG) body)
          else if blk.more = true ∧ payloadLen ≠ size2 then .ok (.ret (.error .EBADMSG) body)
          else if start + payloadLen > bodyLen then .ok (.ret (.error .ENOSPC) body)
          else
            match wrs body start resp.payload with
            | .ub => .ub
            | .err e => .err e
            | .ok body =>
              if blk.more = false then .ok (.ret (.ok (start + payloadLen)) body)
              else .ok (.next size2 szx (start + payloadLen) body)

/-- The loop of `coap_client_exchange_blockwise2`, coap_client.c:1845-1962, from a round
in which the response is not there yet. -/
def blockwise2 (sx px : Bool) (req : Msg) (bodyLen : Nat) :
    (size2 szx start : Nat) → (resp : Msg) → (body : Bytes) → List BEnv → Out BRes
  | _, _, _, resp, body, [] => .ok ⟨[], none, resp, body⟩
  | size2, szx, start, resp, body, b :: bs =>
    match message2 b req size2 szx start with
    | .ub => .ub
    | .err e => .err e
    | .ok (.error e) => endRound [] (.error e) resp body
    | .ok (.ok msg) =>
      match exchange sx px b.x msg with
      | .ub => .ub
      | .err e => .err e
      | .ok (o, none) => .ok ⟨[o], none, resp, body⟩
      | .ok (o, some (.error e)) => endRound o (.error e) resp body
      | .ok (o, some (.ok resp)) =>
        match take2 req.codeDetail size2 start resp body bodyLen with
        | .ub => .ub
        | .err e => .err e
        | .ok (.ret r body) => endRound o r resp body
        | .ok (.next size2 szx start body) => BRes.cons o (blockwise2 sx px req bodyLen size2 szx start create body bs)

/-- `coap_client_exchange_blockwise2`, coap_client.c:1816-1964. -/
def download (sx px : Bool) (req resp : Msg) (size2 : Nat) (body : Bytes) (bodyLen : Nat) (haveResp : Bool) (bs : List BEnv) :
    Out BRes :=
  if size2 = 0 then .ok ⟨[], some (.error .EINVAL), resp, body⟩
  else
    match calcBlockSzx size2 with
    | .ub => .ub
    | .err e => .ok ⟨[], some (.error e), resp, body⟩
    | .ok szx =>
      if haveResp = false then blockwise2 sx px req bodyLen size2 szx 0 resp body bs
      else
        match take2 req.codeDetail size2 0 resp body bodyLen with
        | .ub => .ub
        | .err e => .err e
        | .ok (.ret r body) => .ok ⟨[], some r, resp, body⟩
        | .ok (.next size2 szx start body) => blockwise2 sx px req bodyLen size2 szx start create body bs

/-- `coap_client_exchange_blockwise`, coap_client.c:1966-2028. `bs1` are the rounds of the
upload and `bs2` those of the download. -/
def exchangeBlockwise (sx px : Bool) (req resp : Msg) (size1 size2 : Nat) (body : Bytes) (bodyLen : Nat) (haveResp : Bool)
    (bs1 bs2 : List BEnv) : Out BRes :=
  if req.codeDetail = 1 then download sx px req resp size2 body bodyLen haveResp bs2
  else if req.codeDetail = 3 ∨ req.codeDetail = 2 then
    match upload sx px req resp size1 size2 body bodyLen bs1 with
    | .ub => .ub
    | .err e => .err e
    | .ok r =>
      match r.ret with
      | none => .ok r
      | some (.error _) => .ok r
      | some (.ok n) =>
        if n = 0 then .ok r
        else if r.resp.payload = [] then .ok { r with ret := some (.ok 0) }
        else
          match download sx px req r.resp size2 r.body bodyLen true bs2 with
          | .ok r2 => .ok { r2 with obs := r.obs ++ r2.obs }
          | .err e => .err e
          | .ub => .ub
  else .ok ⟨[], some (.error .EINVAL), resp, body⟩

end FreeCoAP.Client
