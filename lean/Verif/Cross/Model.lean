import Verif.Msg.Model
import Verif.Uri.Model
import Verif.Http.Model

/-!
# Model of the conversion between HTTP and CoAP messages

`proxy/common/src/cross.c`, with the setters of `proxy/common/src/http_msg.c`. CoAP messages are those of
`Verif/Msg/Model.lean`, HTTP messages those of `Verif/Http/Model.lean`; the fields of the start line are
not null, as they are after `http_msg_parse` and `http_msg_set_start`. Where memory is allocated, the
environment tells whether there is any.
-/

namespace FreeCoAP.Cross

open FreeCoAP.Msg (Msg Op)
open FreeCoAP.Http (HMsg Header)
open FreeCoAP.Uri (Uri)

/-- What the conversions depend on besides their arguments: the signedness of `char`, and whether
allocations succeed, in the URI module, in the HTTP module (by size), for an option of a given length
added to a given message, and for a payload of a given length. -/
structure Env where
  sx : Bool
  uri : Uri.Site → Bool
  http : Nat → Bool
  op : Msg → Nat → Bool
  payload : Nat → Bool

/-- The result of a conversion that reports an HTTP response code when it fails. -/
inductive Reply (α : Type) where
  | ok (a : α)
  | fail (e : Err) (code : Nat)
  | ub
  deriving DecidableEq, Repr

/-- The steps of a conversion: the first failure ends it. -/
def Reply.bind {α β : Type} (x : Reply α) (f : α → Reply β) : Reply β :=
  match x with
  | .ok a => f a
  | .fail e c => .fail e c
  | .ub => .ub

/-- A failure with a fixed HTTP response code. -/
def coded {α : Type} (code : Nat) : Out α → Reply α
  | .ok a => .ok a
  | .err e => .fail e code
  | .ub => .ub

/-! ## The setters of HTTP messages -/

/-- `strdup`. -/
def strdup (env : Env) (s : Bytes) : Out Bytes := if env.http (s.length + 1) then .ok s else .err .ENOMEM

/-- `http_msg_set_start` (http_msg.c 575–593). -/
def setStart (env : Env) (m : HMsg) (a b c : Bytes) : Out HMsg :=
  strdup env a >>= fun a => strdup env b >>= fun b => strdup env c >>= fun c =>
  pure { m with start0 := a, start1 := b, start2 := c }

/-- `http_msg_set_header` (http_msg.c 595–598). -/
def setHeader (env : Env) (m : HMsg) (name value : Bytes) : Out HMsg :=
  Http.addHeader env.http name value >>= fun h => pure { m with headers := m.headers ++ [h] }

/-- `http_msg_set_body` (http_msg.c 600–610): `len` bytes of `buf`, which must be there. -/
def setBody (env : Env) (m : HMsg) (buf : Bytes) (len : Nat) : Out HMsg :=
  if env.http (len + 1) = false then .err .ENOMEM
  else if len ≤ buf.length then .ok { m with body := some (buf.take len) } else .ub

/-- `http_msg_reset` (http_msg.c 241–245). Null fields of the start line are empty. -/
def emptyHttp : HMsg := ⟨[], [], [], [], none⟩

/-! ## Codes -/

/-- `cross_http_resp_code_to_str` (cross.c 46–73). -/
def respText (code : Nat) : Bytes :=
  if code = 400 then str "Bad Request"
  else if code = 406 then str "Not Acceptable"
  else if code = 500 then str "Internal Server Error"
  else if code = 501 then str "Not Implemented"
  else if code = 502 then str "Bad Gateway"
  else str "(Unknown)"

/-- `cross_method_http_to_coap` (cross.c 86–118). -/
def method (m : Msg) (h : HMsg) : Reply Msg :=
  if h.start0 = str "GET" then .ok { m with codeClass := 0, codeDetail := 1 }
  else if h.start0 = str "POST" then .ok { m with codeClass := 0, codeDetail := 2 }
  else if h.start0 = str "PUT" then .ok { m with codeClass := 0, codeDetail := 3 }
  else if h.start0 = str "DELETE" then .ok { m with codeClass := 0, codeDetail := 4 }
  else .fail .EBADMSG 501

/-- The cases of a success (cross.c 136–148). -/
def statusSuccess (detail : Nat) : Option (String × String) :=
  match detail with
  | 1 => some ("200", "OK")
  | 2 => some ("200", "OK")
  | 3 => some ("304", "Not Modified")
  | 4 => some ("200", "OK")
  | 5 => some ("200", "OK")
  | _ => none

/-- The cases of a client error (cross.c 149–173). -/
def statusClient (detail : Nat) : Option (String × String) :=
  match detail with
  | 0 => some ("400", "Bad Request")
  | 1 => some ("401", "Unauthorized")
  | 2 => some ("400", "Bad Request")
  | 3 => some ("403", "Forbidden")
  | 4 => some ("404", "Not Found")
  | 5 => some ("405", "Method Not Allowed")
  | 6 => some ("406", "Not Acceptable")
  | 12 => some ("412", "Precondition Failed")
  | 13 => some ("413", "Request Entity Too Large")
  | 15 => some ("415", "Unsupported Media Type")
  | _ => none

/-- The cases of a server error (cross.c 174–190). -/
def statusServer (detail : Nat) : Option (String × String) :=
  match detail with
  | 0 => some ("500", "Internal Server Error")
  | 1 => some ("501", "Not Implemented")
  | 2 => some ("502", "Bad Gateway")
  | 3 => some ("503", "Service Unavailable")
  | 4 => some ("504", "Gateway Timeout")
  | 5 => some ("501", "Not Implemented")
  | _ => none

/-- The status line for a code. The outer `switch` has no `break`: a success that is not among its
cases is looked up among the client errors, and what is not there among the server errors. -/
def statusLine (cls detail : Nat) : Option (String × String) :=
  if cls = 2 then (statusSuccess detail).orElse fun _ => (statusClient detail).orElse fun _ => statusServer detail
  else if cls = 4 then (statusClient detail).orElse fun _ => statusServer detail
  else if cls = 5 then statusServer detail
  else none

/-- `cross_status_coap_to_http` (cross.c 130–193). -/
def status (env : Env) (h : HMsg) (m : Msg) : Out HMsg :=
  match statusLine m.codeClass m.codeDetail with
  | some (code, reason) => setStart env h (str "HTTP/1.1") (str code) (str reason)
  | none => .err .EBADMSG

/-! ## URIs -/

/-- `coap_msg_add_op` with a C string. Lengths are kept in an `unsigned`. -/
def addOp (env : Env) (m : Msg) (num : Nat) (s : Bytes) : Out Msg :=
  if env.op m (s.length % 2 ^ 32) then .ok (Msg.addOp m num (s.take (s.length % 2 ^ 32))) else .err .ENOMEM

/-- A component that makes one option, if it is there (cross.c 234–261). -/
def addComponent (env : Env) (num : Nat) (m : Msg) : Option Bytes → Out Msg
  | none => pure m
  | some s => addOp env m num s

/-- The parts of a string between separators, as found by repeated `strchr`. -/
def split (sep : Byte) : Bytes → List Bytes
  | [] => [[]]
  | c :: s =>
    if c = sep then [] :: split sep s
    else match split sep s with
      | [] => [[c]]
      | p :: ps => (c :: p) :: ps

/-- The loops over the segments of the path and the parts of the query (cross.c 277–309 and 321–352): an
option for every part that is not empty. -/
def addParts (env : Env) (num : Nat) : Msg → List Bytes → Out Msg
  | m, [] => pure m
  | m, p :: ps =>
    if p.length % 2 ^ 32 > 0 then addOp env m num p >>= fun m => addParts env num m ps
    else addParts env num m ps

/-- The path (cross.c 263–310). -/
def addPath (env : Env) (m : Msg) : Option Bytes → Out Msg
  | none => pure m
  | some s =>
    match s with
    | 0x2F :: s => addParts env 11 m (split 0x2F s)
    | _ => .err .EBADMSG

/-- The query (cross.c 312–353). -/
def addQuery (env : Env) (m : Msg) : Option Bytes → Out Msg
  | none => pure m
  | some s => addParts env 15 m (split 0x26 s)

/-- The tests of the fragment and the scheme (cross.c 212–231). -/
def checkUri (u : Uri) : Out Unit :=
  match u.fragment, u.scheme with
  | some _, _ => .err .EBADMSG
  | none, none => .err .EBADMSG
  | none, some s => if Http.sameText s (str "coap") || Http.sameText s (str "coaps") then .ok () else .err .EBADMSG

/-- `cross_uri_http_to_coap` (cross.c 195–358), the message after a success. -/
def uriToCoap (env : Env) (m : Msg) (s : Bytes) : Out Msg :=
  Uri.parse env.sx env.uri s >>= fun u => checkUri u >>= fun _ =>
  addComponent env 3 m u.host >>= fun m => addComponent env 7 m u.port >>= fun m =>
  addPath env m u.path >>= fun m => addQuery env m u.query

/-- `CROSS_TMP_BUF_LEN` (cross.c 41). -/
def TMP : Nat := 256

/-- `memcpy` to the temporary buffer, in which `s` was written from its start, and a NUL after it: both must be
inside. -/
def toTmp (s val : Bytes) : Out Bytes := if s.length + val.length < TMP then .ok (s ++ val) else .ub

/-- The first option with a number (cross.c 377–398 and 401–423), as the string that is set. -/
def firstOp (num : Nat) (ops : List Op) : Out (Option Bytes) :=
  match ops.find? (fun o => o.num = num) with
  | none => .ok none
  | some o => if o.val.length ≥ TMP then .err .ENOSPC else toTmp [] o.val >>= fun s => pure (some (cstr s))

/-- Setting a component that is there. -/
def setComponent (env : Env) (site : Uri.Site) : Option Bytes → Out (Option Bytes)
  | none => pure none
  | some s => Uri.set env.sx env.uri site s >>= fun s => pure (some s)

/-- The loop over the Uri-Path options (cross.c 425–444): what was written to the temporary buffer. -/
def joinPath : (s : Bytes) → List Op → Out Bytes
  | s, [] => .ok s
  | s, o :: ops =>
    if o.num = 11 then
      if o.val.length + 1 > TMP - 1 - s.length then .err .ENOSPC
      else toTmp s [0x2F] >>= fun s => toTmp s o.val >>= fun s => joinPath s ops
    else joinPath s ops

/-- The loop over the Uri-Query options (cross.c 457–478). -/
def joinQuery : (s : Bytes) → List Op → Out Bytes
  | s, [] => .ok s
  | s, o :: ops =>
    if o.num = 15 then
      if o.val.length + 1 > TMP - 1 - s.length then .err .ENOSPC
      else (if s.length > 0 then toTmp s [0x26] else pure s) >>= fun s => toTmp s o.val >>= fun s => joinQuery s ops
    else joinQuery s ops

/-- The components of the URI (cross.c 368–487). -/
def uriOfOps (env : Env) (ops : List Op) : Out Uri :=
  Uri.set env.sx env.uri .scheme (str "coaps") >>= fun scheme =>
  firstOp 3 ops >>= fun h => setComponent env .host h >>= fun host =>
  firstOp 7 ops >>= fun p => setComponent env .port p >>= fun port =>
  joinPath [] ops >>= fun s => Uri.set env.sx env.uri .path (if s.length = 0 then [0x2F] else cstr s) >>= fun path =>
  joinQuery [] ops >>= fun s => setComponent env .query (if s.length > 0 then some (cstr s) else none) >>= fun query =>
  pure { scheme := some scheme, host := host, port := port, path := some path, query := query }

/-- `cross_uri_coap_to_http` (cross.c 360–497): the buffer after a success. `len - 1` is computed in
`size_t`. -/
def uriToHttp (env : Env) (buf : Bytes) (len : Nat) (ops : List Op) : Out Bytes :=
  uriOfOps env ops >>= fun u => Uri.generate u buf len >>= fun r =>
  if r.2 > (len + 2 ^ 64 - 1) % 2 ^ 64 then .err .ENOSPC else pure r.1

/-! ## Headers -/

/-- `strstr`: the string from the first occurrence of a text on. -/
def find (pat : Bytes) : Bytes → Option Bytes
  | [] => if pat = [] then some [] else none
  | c :: s => if pat.isPrefixOf (c :: s) then some (c :: s) else find pat s

/-- `sscanf(s, "%u", &n)` of the GNU C library: `strtoul`, which stops at the largest `unsigned long`, and
the low 32 bits. -/
def scanUnsigned (s : Bytes) : Option Nat :=
  let (neg, s) := Http.sign (s.dropWhile isSpace)
  match s with
  | [] => none
  | c :: _ =>
    if isDigit c = false then none
    else
      let n := Http.decimal 0 s
      if n < 2 ^ 64 then some (if neg then (2 ^ 64 - n) % 2 ^ 32 else n % 2 ^ 32) else some (2 ^ 32 - 1)

/-- `%u` and `%zu`: the decimal digits of a number. The fuel is the largest number of digits less one. -/
def digits : (fuel : Nat) → Nat → Bytes
  | 0, n => [UInt8.ofNat (0x30 + n % 10)]
  | fuel + 1, n => if n < 10 then [UInt8.ofNat (0x30 + n)] else digits fuel (n / 10) ++ [UInt8.ofNat (0x30 + n % 10)]

/-- The number after `max-age=` (cross.c 548–552). -/
def maxAge (value : Bytes) : Option Nat :=
  match find (str "max-age=") value with
  | none => none
  | some s => scanUnsigned (s.drop (str "max-age=").length)

/-- One header of a request (cross.c 537–593). `strncasecmp` compares the first ten characters. -/
def headerToCoap (env : Env) (m : Msg) (h : Header) : Reply Msg :=
  if Http.sameText h.name (str "Etag") then coded 502 (addOp env m 4 h.value)
  else if Http.sameText h.name (str "Cache-Control") then
    match maxAge h.value with
    | none => .ok m
    | some n => coded 502 (addOp env m 14 (digits 9 n))
  else if Http.sameText h.name (str "Accept") then
    if Http.sameText (h.value.take 10) (str "text/plain") then coded 502 (addOp env m 17 (str "0"))
    else .fail .EBADMSG 406
  else .ok m

/-- `cross_headers_http_to_coap` (cross.c 510–596). -/
def headersToCoap (env : Env) : Msg → List Header → Reply Msg
  | m, [] => .ok m
  | m, h :: hs => (headerToCoap env m h).bind fun m => headersToCoap env m hs

/-- One option of a response (cross.c 637–683). The temporary buffer has room for the header: ten digits at most
after `max-age=`. -/
def opToHttp (env : Env) (h : HMsg) (o : Op) : Out HMsg :=
  if o.val.length ≥ TMP then .err .ENOSPC
  else
    toTmp [] o.val >>= fun s =>
    if o.num = 4 then setHeader env h (str "Etag") (cstr s)
    else if o.num = 14 then
      match scanUnsigned (cstr s) with
      | none => pure h
      | some n => setHeader env h (str "Cache-Control") (str "max-age=" ++ digits 9 n)
    else if o.num = 17 then
      if o.val = str "0" then setHeader env h (str "Accept") (str "text/plain") else pure h
    else pure h

/-- `cross_headers_coap_to_http` (cross.c 608–686). -/
def opsToHttp (env : Env) : HMsg → List Op → Out HMsg
  | h, [] => pure h
  | h, o :: ops => opToHttp env h o >>= fun h => opsToHttp env h ops

/-- `cross_body_coap_to_http` (cross.c 724–740). -/
def bodyToHttp (env : Env) (h : HMsg) (buf : Bytes) (len : Nat) : Out HMsg :=
  setBody env h buf len >>= fun h => setHeader env h (str "Content-Length") (digits 19 len)

/-! ## Messages -/

/-- The body of a request (cross.c 768–787): the message, and the body for a blockwise transfer if that is used.
`space` is the length of the buffer for it. -/
def bodyToCoap (env : Env) (space : Nat) (m : Msg) (b : Bytes) : Reply (Msg × Option Bytes) :=
  if b.length > 1024 then
    if b.length > space then .fail .ENOSPC 502 else .ok (m, some b)
  else if b.length > 0 ∧ env.payload b.length = false then .fail .ENOMEM 502
  else .ok (Msg.setPayload m b, none)

/-- `cross_req_http_to_coap` (cross.c 742–789). A message type of 0 is a confirmable message. -/
def reqToCoap (env : Env) (space : Nat) (h : HMsg) : Reply (Msg × Option Bytes) :=
  (method Msg.create h).bind fun m =>
  (coded 400 (uriToCoap env m h.start1)).bind fun m =>
  (headersToCoap env m h.headers).bind fun m =>
  bodyToCoap env space m (h.body.getD [])

/-- `cross_resp_coap_to_http` (cross.c 791–833): `len` bytes of `buf` are the body that was received in blocks. -/
def respToHttp (env : Env) (m : Msg) (buf : Bytes) (len : Nat) : Reply HMsg :=
  coded 502 (status env emptyHttp m >>= fun h => opsToHttp env h m.ops >>= fun h =>
    if len > 0 then bodyToHttp env h buf len
    else if m.payload.length > 0 then bodyToHttp env h m.payload m.payload.length
    else pure h)

end FreeCoAP.Cross
