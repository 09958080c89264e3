import Verif.DataBuf.Model
import Verif.Cross.Model

/-!
# Model of a connection of the proxy

`proxy/http_coap/src/connection.c`: receiving requests from the HTTP client, processing them with the CoAP client, and sending the responses.
The sockets and the CoAP client are the environment (the CoAP client itself is modelled in `Verif/Client/Model.lean`). Logging (see `ModelReason.lean`), statistics (`ModelStats.lean`) and
the thread are not modelled. `W` is the number of values of `size_t`.
-/

namespace FreeCoAP.Proxy

open FreeCoAP.DataBuf (Buf space put consume expand slice)
open FreeCoAP.Http (HMsg)
open FreeCoAP.Msg (Msg)
open FreeCoAP.Uri (Uri)

/-- `CONNECTION_DATA_BUF_SIZE` (connection.c 49). -/
def BUF : Nat := 4096
/-- `CONNECTION_DATA_BUF_MAX_SIZE` (connection.c 50). -/
def MAX : Nat := 32768
/-- `CONNECTION_DATA_BUF_MIN_SPACE` (connection.c 51). -/
def MIN_SPACE : Nat := 128
/-- `CONNECTION_BODY_LEN` (connection.c 53). -/
def BODY_LEN : Nat := 8192

/-! ## Receiving -/

/-- What happens while a request is awaited: `select` times out or fails, the read fails, or there are `k` more bytes of the stream
to be read. For what follows the read, `mem` tells which allocations of the HTTP parser succeed, and `fresh` is `malloc` for the buffer. -/
inductive In where
  | timeout
  | selectError (e : Err)
  | readError
  | data (k : Nat) (mem : Nat → Bool) (fresh : Nat → Option Bytes)

/-- What `connection_recv` returns; `waiting` if it has not returned yet. -/
inductive Recv where
  | msg (m : HMsg)
  | timedOut
  | closed
  | failed (e : Err)
  | waiting
  deriving DecidableEq, Repr

/-- `connection_recv` (connection.c 193–278). `s` is the part of the stream from the HTTP client that was not read; at most as much as there is
space for is read, and nothing means that the stream has ended. The result, the buffer, the rest of the stream and the rest of the events.
Parsing consumes at least one byte (`C43_inside`), so that the third case of the test of `num` is an error. -/
def recv (W : Nat) : Buf → (s : Bytes) → List In → Out (Recv × Buf × Bytes × List In)
  | b, s, [] => .ok (.waiting, b, s, [])
  | b, s, .timeout :: es => .ok (.timedOut, b, s, es)
  | b, s, .selectError e :: es => .ok (.failed e, b, s, es)
  | b, s, .readError :: es => .ok (.failed .EIO, b, s, es)
  | b, s, .data k mem fresh :: es =>
    let d := s.take (min k (space W b))
    if d = [] then .ok (.closed, b, s, es)
    else
      put W b d >>= fun r => slice r.2.data 0 r.2.count >>= fun t =>
      match Http.parse mem t with
      | .ok (m, n) => consume W r.2 n >>= fun c => pure (.msg m, c.2, s.drop d.length, es)
      | .err .EAGAIN =>
        if space W r.2 < MIN_SPACE then
          match expand W r.2 fresh with
          | .ok b => recv W b (s.drop d.length) es
          | .err e => .ok (.failed e, r.2, s.drop d.length, es)
          | .ub => .ub
        else recv W r.2 (s.drop d.length) es
      | .err e => .ok (.failed e, r.2, s.drop d.length, es)
      | .ub => .ub

/-! ## Sending -/

/-- The result of the loop in `connection_send`. -/
inductive Fill where
  | ready (len : Nat) (b : Buf)
  | failed (e : Err) (b : Buf)
  deriving DecidableEq, Repr

/-- The loop in `connection_send` (connection.c 290–312). `fresh i` is `malloc` in the round before the last `i`. The size doubles in
every round, so that `fuel` does not run out if it starts with more than the largest size. -/
def fill (W : Nat) (m : HMsg) (fresh : Nat → Nat → Option Bytes) : (fuel : Nat) → Buf → Out Fill
  | 0, _ => .ub
  | fuel + 1, b =>
    Http.generate m b.data (space W b) >>= fun r =>
    if r.2 ≤ space W b then pure (.ready r.2 { b with data := r.1 })
    else
      match expand W { b with data := r.1 } (fresh fuel) with
      | .ok b => fill W m fresh fuel b
      | .err e => pure (.failed e { b with data := r.1 })
      | .ub => .ub

/-- One call of `tls_sock_write`: up to `k` bytes are written, or the connection is closed, or there is an error. -/
inductive Write where
  | wrote (k : Nat)
  | closed
  | error
  deriving DecidableEq, Repr

/-- How a call of `connection_send` ends. -/
inductive Sent where
  | ok
  | closed
  | failed (e : Err)
  | waiting
  deriving DecidableEq, Repr

/-- `tls_sock_write_full` (tls_sock.c 664–679) and the tests of its result (connection.c 313–325): what was written. A text of length 0 is
reported as closed. -/
def writeFull : List Write → (done : Bytes) → (todo : Bytes) → Bytes × Sent
  | _, done, [] => (done, if done = [] then .closed else .ok)
  | [], done, _ => (done, .waiting)
  | .wrote 0 :: _, done, _ => (done, .closed)
  | .wrote (k + 1) :: ws, done, todo => writeFull ws (done ++ todo.take (k + 1)) (todo.drop (k + 1))
  | .closed :: _, done, _ => (done, .closed)
  | .error :: _, done, _ => (done, .failed .EIO)

/-- `connection_send` (connection.c 284–332): the bytes that were written, the result and the buffer. -/
def send (W : Nat) (m : HMsg) (fresh : Nat → Nat → Option Bytes) (ws : List Write) (b : Buf) : Out (Bytes × Sent × Buf) :=
  fill W m fresh (MAX + 1) b >>= fun f =>
  match f with
  | .ready len b => slice b.data 0 len >>= fun t => let r := writeFull ws [] t; pure (r.1, r.2, b)
  | .failed e b => pure ([], .failed e, b)

/-! ## Processing -/

/-- A call of the CoAP client: a plain exchange, or a transfer in blocks with their sizes, the body, and whether the first response is
there already. -/
inductive Call where
  | plain (req : Msg)
  | blocks (req : Msg) (size1 size2 : Nat) (body : Bytes) (have_ : Bool)
  deriving DecidableEq, Repr

/-- What the processing of a request depends on: the conversion of the request and of the response, the URI module, whether a CoAP client can be
created for a host and port, whether the host and the port can be copied, the exchanges of the CoAP client, and what a conversion that
fails leaves in the HTTP response. -/
structure World where
  env : Cross.Env
  env' : Cross.Env
  uri : Uri.Site → Bool
  connect : Option Bytes → Option Bytes → Out Unit
  mem : Nat → Bool
  exchange : Msg → Out Msg
  blockwise : (req resp : Msg) → (size1 size2 : Nat) → (body : Bytes) → (len : Nat) → (have_ : Bool) → Out (Nat × Msg × Bytes)
  left : HMsg

/-- The calls, and the response with the buffer for the body and the length of the body in it. -/
structure Done where
  calls : List Call
  res : Out (Msg × Bytes × Nat)

/-- A transfer in blocks, for which `len` bytes of the buffer are given to the client. -/
def inBlocks (w : World) (calls : List Call) (req resp : Msg) (size1 size2 : Nat) (body : Bytes) (len : Nat) (have_ : Bool) : Done :=
  ⟨calls ++ [.blocks req size1 size2 (body.take len) have_],
    w.blockwise req resp size1 size2 body len have_ >>= fun r => pure (r.2.1, r.2.2, r.1)⟩

/-- GET in `connection_coap_exchange` (connection.c 368–406). -/
def exchangeGet (w : World) (req : Msg) (body : Bytes) (bodyEnd : Nat) : Done :=
  match w.exchange req with
  | .ok resp =>
    match Msg.parseBlockOp Msg.BLOCK2 resp.ops with
    | .ok none => ⟨[.plain req], .ok (resp, body, bodyEnd)⟩
    | .ok (some blk) => inBlocks w [.plain req] req resp blk.size blk.size body BODY_LEN true
    | .err e => ⟨[.plain req], .err e⟩
    | .ub => ⟨[.plain req], .ub⟩
  | .err e => ⟨[.plain req], .err e⟩
  | .ub => ⟨[.plain req], .ub⟩

/-- `memcpy` of the payload to the buffer of the body (connection.c 441 and 493). -/
def keepPayload (req : Msg) (body : Bytes) : Out Bytes :=
  if req.payload.length ≤ body.length then .ok (req.payload ++ body.drop req.payload.length) else .ub

/-- PUT and POST in `connection_coap_exchange` (connection.c 407–458 and 459–510), which are the same. -/
def exchangeSend (w : World) (req : Msg) (body : Bytes) (bodyEnd : Nat) : Done :=
  if bodyEnd > 0 then inBlocks w [] req Msg.create 32 32 body bodyEnd false
  else
    match w.exchange req with
    | .ok resp =>
      if resp.codeClass = 4 ∧ resp.codeDetail = 13 then
        match keepPayload req body with
        | .ok body => inBlocks w [.plain req] { req with payload := [] } resp 32 32 body req.payload.length false
        | .err e => ⟨[.plain req], .err e⟩
        | .ub => ⟨[.plain req], .ub⟩
      else ⟨[.plain req], .ok (resp, body, bodyEnd)⟩
    | .err e => ⟨[.plain req], .err e⟩
    | .ub => ⟨[.plain req], .ub⟩

/-- `connection_coap_exchange` (connection.c 358–512). The response was created empty. -/
def exchange (w : World) (req : Msg) (body : Bytes) (bodyEnd : Nat) : Done :=
  if req.codeDetail = 1 then exchangeGet w req body bodyEnd
  else if req.codeDetail = 3 then exchangeSend w req body bodyEnd
  else if req.codeDetail = 2 then exchangeSend w req body bodyEnd
  else ⟨[], .ok (Msg.create, body, bodyEnd)⟩

/-- The CoAP server that the client is connected to, by host and port. -/
abbrev Peer := Option (Bytes × Bytes)

/-- `connection_coap_client_create` (connection.c 126–173). A host or port that is not there cannot be copied. -/
def connect (w : World) (u : Uri) : Out (Bytes × Bytes) :=
  w.connect u.host u.port >>= fun _ =>
  match u.host with
  | none => .ub
  | some h =>
    if w.mem (h.length + 1) = false then .err .ENOMEM
    else
      match u.port with
      | none => .ub
      | some p => if w.mem (p.length + 1) = false then .err .ENOMEM else .ok (h, p)

/-- The choice of the CoAP server (connection.c 548–583): the server that is connected afterwards (the old connection is destroyed first),
and whether it can be used. A host or port that is not there cannot be compared. -/
def choose (w : World) (peer : Peer) (u : Uri) : Peer × Out (Bytes × Bytes) :=
  let fresh : Peer × Out (Bytes × Bytes) :=
    match connect w u with
    | .ok p => (some p, .ok p)
    | .err e => (none, .err e)
    | .ub => (none, .ub)
  match peer with
  | none => fresh
  | some (h0, p0) =>
    match u.host with
    | none => (peer, .ub)
    | some h =>
      if Http.sameText h h0 = false then fresh
      else
        match u.port with
        | none => (peer, .ub)
        | some p => if p ≠ p0 then fresh else (peer, .ok (h0, p0))

/-- `connection_gen_error_resp` (connection.c 337–353). -/
def errorResp (w : World) (m : HMsg) (code : Nat) : Out HMsg :=
  Cross.setStart w.env' m (str "HTTP/1.1") (Cross.digits 9 code) (Cross.respText code)

/-- The status code for a failed exchange (connection.c 592–614). -/
def failureCode (e : Err) : Nat :=
  match e with
  | .ETIMEDOUT => 504
  | .EBADMSG => 502
  | _ => 501

/-- What the processing of a request leaves: the server, the calls of the CoAP client with the server they went to, and the HTTP response. -/
structure Processed where
  peer : Peer
  calls : List ((Bytes × Bytes) × Call)
  res : Out HMsg

/-- The response (connection.c 585–623), after the exchange. -/
def respond (w : World) (r : Out (Msg × Bytes × Nat)) : Out HMsg :=
  match r with
  | .ok (resp, body, bodyEnd) =>
    match Cross.respToHttp w.env' resp body bodyEnd with
    | .ok h => .ok h
    | .fail _ code => errorResp w w.left code
    | .ub => .ub
  | .err e => errorResp w Cross.emptyHttp (failureCode e)
  | .ub => .ub

/-- The buffer for the body after the conversion of the request. It was set to zero (connection.c 673). -/
def bodyBuf : Option Bytes → Bytes × Nat
  | none => (List.replicate BODY_LEN 0, 0)
  | some b => (b ++ List.replicate (BODY_LEN - b.length) 0, b.length)

/-- `connection_process` (connection.c 520–623), at the beginning of a transaction (connection.c 673–674). -/
def process (w : World) (peer : Peer) (h : HMsg) : Processed :=
  match Cross.reqToCoap w.env BODY_LEN h with
  | .fail _ code => ⟨peer, [], errorResp w Cross.emptyHttp code⟩
  | .ub => ⟨peer, [], .ub⟩
  | .ok (req, blocks) =>
    match Uri.parse w.env.sx w.uri h.start1 with
    | .err e => ⟨peer, [], .err e⟩
    | .ub => ⟨peer, [], .ub⟩
    | .ok u =>
      let c := choose w peer u
      match c.2 with
      | .err e => ⟨c.1, [], .err e⟩
      | .ub => ⟨c.1, [], .ub⟩
      | .ok p =>
        let d := exchange w req (bodyBuf blocks).1 (bodyBuf blocks).2
        ⟨c.1, d.calls.map (fun x => (p, x)), respond w d.res⟩

end FreeCoAP.Proxy
