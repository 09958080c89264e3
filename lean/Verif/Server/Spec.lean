import Verif.Server.Model
import Verif.Msg.Spec

/-!
# Specification of the server

What an observer of the network and of the calls to the application can say about the
server. Only the types of the model are used, and the parser for "the datagram carries
the message" (that the parser is right is property C07).
-/

namespace FreeCoAP.Server

open FreeCoAP.Msg

/-- The fixed header and the token of a datagram. -/
structure Header where
  type : Nat
  cls : Nat
  detail : Nat
  id : Nat
  token : Bytes
  deriving DecidableEq, Repr

/-- RFC 7252 section 3, figure 7. -/
def header : Bytes → Option Header
  | b0 :: b1 :: b2 :: b3 :: rest =>
    some ⟨b0.toNat / 16 % 4, b1.toNat / 32, b1.toNat % 32, 256 * b2.toNat + b3.toNat, rest.take (b0.toNat % 16)⟩
  | _ => none

/-- The datagram `d` carries the message `m` (datagrams longer than the server's buffer
are cut). -/
def Carries (sx : Bool) (d : Bytes) (m : Msg) : Prop :=
  parse sx (recvBuf d) (min d.length 1152) = .ok m

/-- The path of a request as a C string of at most `n` bytes. -/
def cpath (n : Nat) (ops : List Op) : Bytes := ((pathStr ops).take n).takeWhile (· ≠ 0)

/-- The request is for one of the paths with a separate response. -/
def Separate (sepList : List Bytes) (m : Msg) : Prop := cpath 255 m.ops ∈ sepList

instance (sepList : List Bytes) (m : Msg) : Decidable (Separate sepList m) := by
  unfold Separate; infer_instance

/-- The sender an observation is about. -/
def Obs.addr : Obs → Addr
  | .sent a _ => a
  | .arm a _ => a
  | .call a _ => a
  | .rx a _ _ => a

/-- The datagrams sent. -/
def sends (o : List Obs) : List (Addr × Bytes) :=
  o.filterMap (fun | .sent a b => some (a, b) | _ => none)

/-- The requests passed to the application. -/
def calls (o : List Obs) : List (Addr × Msg) :=
  o.filterMap (fun | .call a m => some (a, m) | _ => none)

/-- The bodies passed to the application, each with the sender and the callback. -/
def bodies (o : List Obs) : List (Addr × Nat × Bytes) :=
  o.filterMap (fun | .rx a i b => some (a, i, b) | _ => none)
/-- Those of one sender. -/
def bodiesOf (a : Addr) (o : List Obs) : List (Addr × Nat × Bytes) := (bodies o).filter (fun x => x.1 = a)

/-- The times for which timers were started. -/
def arms (o : List Obs) : List (Addr × Nat) :=
  o.filterMap (fun | .arm a n => some (a, n) | _ => none)

/-- A message as the functions of the library leave it: every application starts from
`coap_msg_create` and uses the setters, see `Built.create` and the lemmas after it. -/
structure Built (m : Msg) : Prop where
  ver : m.ver = 1
  type : m.type < 4
  cls : m.codeClass < 8
  detail : m.codeDetail < 32
  msgId : m.msgId < 65536
  token : m.token.length ≤ 8
  sorted : Sorted m.ops

/-- The response a callback built. -/
def HAct.resp : HAct → Msg
  | .reply m _ => m
  | .blockwise m _ _ _ _ _ => m

/-- The application builds its responses with the functions of the library. -/
structure AppOK (env : Env) : Prop where
  handle : ∀ t m, Built (env.handle t m).resp
  rx : ∀ id body e req resp, Built resp → Built (env.rx id body e req resp).resp

/-- The state after a history from the creation of a server with a large pool of `num`
buffers of `len` bytes. -/
def Reach (sx : Bool) (evs : List (Env × Event)) (s : Srv) (trace : List (List Obs)) : Prop :=
  ∃ id sepList pool, run sx (init id sepList pool) evs = .ok (s, trace)

/-- The transaction of a sender. -/
def ofAddr (s : Srv) (a : Addr) : Option Trans := s.trans.find? (fun t => t.active && t.addr == a)

/-- The message is one the server may answer with a response: a confirmable or
non-confirmable message with a code of class 0. (A request has a method, see `Request`;
code 0.00 is an Empty message.) -/
def Asks (m : Msg) : Prop := (m.type = CON ∨ m.type = NON) ∧ m.codeClass = 0

instance (m : Msg) : Decidable (Asks m) := by unfold Asks; infer_instance

/-- RFC 7252 section 5.2: a request has a method code 0.01 - 0.31. -/
def Request (m : Msg) : Prop := Asks m ∧ m.codeDetail ≠ 0

instance (m : Msg) : Decidable (Request m) := by unfold Request; infer_instance

/-- The header of a response is the right one for the request `m`: same token;
acknowledgement with the same id if piggybacked, confirmable if separate,
non-confirmable if the request was. -/
def Answers (sepList : List Bytes) (m : Msg) (h : Header) : Prop :=
  h.token = m.token ∧
  ((m.type = CON ∧ ¬ Separate sepList m ∧ h.type = ACK ∧ h.id = m.msgId) ∨
   (m.type = CON ∧ Separate sepList m ∧ h.type = CON) ∨
   (m.type = NON ∧ h.type = NON))

/-- The datagram has code 0.00. -/
def IsEmpty (b : Bytes) : Prop := ∃ h, header b = some h ∧ h.cls = 0 ∧ h.detail = 0

/-- RFC 7252 section 4.2: an Empty acknowledgement. -/
def emptyAck (id : Nat) : Bytes := [0x60, 0, UInt8.ofNat (id / 256), UInt8.ofNat (id % 256)]

/-- RFC 7252 section 4.2: a reset. -/
def reset (id : Nat) : Bytes := [0x70, 0, UInt8.ofNat (id / 256), UInt8.ofNat (id % 256)]

/-- The datagram arrives undamaged at the server and memory is available for it. -/
def Arrives (env : Env) : Prop := env.acceptErr = none ∧ env.recvErr = none ∧ env.parseMem = true

/-- Nothing fails during the event. -/
structure NoFault (env : Env) : Prop where
  arrives : Arrives env
  create : env.createErr = none
  rst : env.rstErr = none
  ack : env.ackErr = none
  send : env.sendErr = none
  timer : env.timerErr = none
  pay : env.payMem = true
  op1 : env.opMem1 = true
  op2 : env.opMem2 = true
  copyReq : env.copyReqMem = true
  copyResp : env.copyRespMem = true

/-- The server remembers the sender at every moment of the history. -/
def Kept (sx : Bool) (a : Addr) : Srv → List (Env × Event) → Prop
  | s, [] => ofAddr s a ≠ none
  | s, (env, ev) :: rest => ofAddr s a ≠ none ∧ ∀ s1 o e, step sx s env ev = .ok (s1, o, e) → Kept sx a s1 rest

/-- The message that arrived with an event of the sender `a`. -/
def arrived (sx : Bool) (a : Addr) (x : Env × Event) : Option Msg :=
  match x.2 with
  | .datagram b d =>
    if b = a ∧ x.1.acceptErr = none ∧ x.1.recvErr = none ∧ x.1.parseMem = true then
      match parse sx (recvBuf d) (min d.length 1152) with
      | .ok m => some m
      | _ => none
    else none
  | _ => none

/-- The last request that arrived from the sender. -/
def lastRequest (sx : Bool) (a : Addr) (evs : List (Env × Event)) : Option Msg :=
  (evs.filterMap (arrived sx a)).reverse.find? (fun m => decide (Asks m))

/-- The datagram `b` sent to `a` is a response to a request in the history `evs` that
came from `a`. If it is not piggybacked its id is the one generated for it. -/
def AnswerTo (sx : Bool) (s0 : Srv) (evs : List (Env × Event)) (a : Addr) (b : Bytes) : Prop :=
  ∃ pre env d post m h sj trj, evs = pre ++ (env, .datagram a d) :: post ∧ Carries sx d m ∧ Asks m ∧
    header b = some h ∧ Answers s0.sepList m h ∧
    run sx s0 pre = .ok (sj, trj) ∧ (h.type = ACK ∨ h.id = nextMsgId sj.msgId env.idRand)

/-- The Empty confirmable message with id 0. -/
def emptyCon : Bytes := [0x40, 0, 0, 0]

/-- The datagram is an Empty message. -/
def Empty (b : Bytes) : Prop := (∃ i < 65536, b = emptyAck i) ∨ (∃ i < 65536, b = reset i) ∨ b = emptyCon

/-- The reply to a duplicate of a request answered with `r`. -/
def again (sepList : List Bytes) (a : Addr) (m : Msg) (r : Bytes) : List (Addr × Bytes) :=
  if m.type = NON then [] else if Separate sepList m then [(a, emptyAck m.msgId)] else [(a, r)]

/-- The event is a contact with `a`: a datagram from `a` was accepted or something was sent to `a`. -/
def contact (a : Addr) (x : (Env × Event) × List Obs) : Bool :=
  (match x.1.2 with | .datagram b _ => b == a && x.1.1.acceptErr.isNone | _ => false) || (sends x.2).any (·.1 == a)

/-- The time of the last contact with `a`. -/
def lastContact (a : Addr) (hist : List ((Env × Event) × List Obs)) : Option Nat :=
  ((hist.filter (contact a)).getLast?).map (fun x => x.1.1.now)

/-- The times of the timers started for `a`. -/
def armsOf (a : Addr) (o : List Obs) : List Nat := (arms o).filterMap (fun x => if x.1 = a then some x.2 else none)

/-- The number of times the datagram `r` was sent to `a`. -/
def transmissions (a : Addr) (r : Bytes) (o : List Obs) : Nat := (sends o).count (a, r)

/-- The only messages from `a` that are not acknowledgements or resets are `m`. -/
def OnlyAgain (sx : Bool) (a : Addr) (m : Msg) (x : Env × Event) : Prop :=
  ∀ m', arrived sx a x = some m' → m'.type = CON ∨ m'.type = NON → m' = m

/-- All observations of a history. -/
def obsOf (tr : List (List Obs)) : List Obs := tr.flatten

/-- The sender has a block transfer in progress. -/
def Transfer (s : Srv) (a : Addr) : Prop := ∃ t, ofAddr s a = some t ∧ t.blk.type ≠ .regular

/-- All critical options of the message are known to the server. -/
def AllKnown (m : Msg) : Prop := ∀ o ∈ m.ops, Critical o → o.num ∈ known

instance (m : Msg) : Decidable (AllKnown m) := by
  unfold AllKnown Critical
  exact List.decidableBAll _ _

/-- The message `m` in the datagram `d` from `a` is a request whose id is not the one of
the sender's previous request. -/
structure NewRequest (sx : Bool) (evs : List (Env × Event)) (a : Addr) (d : Bytes) (m : Msg) : Prop where
  carries : Carries sx d m
  request : Request m
  id : ∀ m', lastRequest sx a evs = some m' → m'.msgId ≠ m.msgId

/-- The application in this history never starts a block transfer. -/
def NoBlockwise (env : Env) : Prop := ∀ t m, ∃ resp err, env.handle t m = .reply resp err

/-- The buffer of the large pool a transfer holds. -/
def own (b : Blk) : List Nat := match b.body with | some p => [p.1] | none => []

/-- The buffers held by all transfers. -/
def owned (ts : List Trans) : List Nat := ts.flatMap (fun t => own t.blk)

/-- The large pool was created with `num` buffers of `len` bytes. -/
def PoolOf (num len : Nat) (pool : Mem.Pool) : Prop := ∃ W st st' r1 r2, Mem.create W st r1 r2 num len = (.ok pool, st')

/-- The datagram `r` is the encoding of the message `x` (that the encoding is right is
property C05). -/
def Formats (x : Msg) (r : Bytes) : Prop :=
  ∃ buf n, format x (List.replicate 1152 0) 1152 = .ok (buf, n) ∧ r = buf.take n

/-- RFC 7959 section 2.2: the message carries block `num` of `body` cut in blocks of `size`
bytes. It has one Block2 option, with this number and size and the flag that tells whether
there are more blocks; the payload is the block; the code is 2.31 if there are more blocks
and 2.`fin` on the last one. A block that ends exactly at the end of the body is followed by
one more, empty, block. -/
structure CarriesBlock (body : Bytes) (fin num size : Nat) (x : Msg) : Prop where
  cls : x.codeClass = 2
  detail : x.codeDetail = if (num + 1) * size ≤ body.length then 31 else fin
  option : ∃ val, x.ops.filter (fun o => o.num = BLOCK2) = [⟨BLOCK2, val⟩] ∧
    blockSpec val = some ⟨num, (num + 1) * size ≤ body.length, size⟩
  inside : num * size ≤ body.length
  payload : x.payload = (body.drop (num * size)).take size

/-- The message has no Block2 option. -/
def NoBlock2 (m : Msg) : Prop := ∀ o ∈ m.ops, o.num ≠ BLOCK2

/-- The transfer state of a sender that is being sent `body`: the next block starts at byte
`next` and has `size` bytes. -/
structure ServingT (method : Nat) (uri body : Bytes) (fin next size : Nat) (b : Blk) : Prop where
  type : b.type = .get ∨ b.type = .put2 ∨ b.type = .post2
  meth : b.type.method = method
  path : b.blockUri = uri
  buf : ∃ p bytes, b.body = some (p, bytes) ∧ b.bodyEnd ≤ bytes.length ∧ bytes.take b.bodyEnd = body
  start : b.block2Next = next
  inside : next ≤ body.length
  width : b.block2Size = size
  last : (if b.type = .get then 5 else b.blockDetail) = fin
  detail : b.blockDetail < 32

/-- The server is sending `body` to `a`; the last request it answered had the id `id`. -/
def Serving (s : Srv) (a : Addr) (id method : Nat) (uri body : Bytes) (fin next size : Nat) : Prop :=
  ∃ t, ofAddr s a = some t ∧ t.req.ver ≠ 0 ∧ t.req.msgId = id ∧ ServingT method uri body fin next size t.blk

/-- The request asks for block `num` of at most `size` bytes. -/
def AsksBlock2 (m : Msg) (num size : Nat) : Prop := ∃ more, parseBlockOp BLOCK2 m.ops = .ok (some ⟨num, more, size⟩)

/-- The number, the more flag and the size of a Block option that may be absent. Without one
the message carries the only block. -/
def numOf (o : Option Block) : Nat := match o with | some o => o.num | none => 0
def moreOf (o : Option Block) : Bool := match o with | some o => o.more | none => false
/-- The size of the blocks after a request: the smaller one of the present size and the
size in the request. -/
def sizeOf2 (o : Option Block) (size : Nat) : Nat := match o with | some o => min o.size size | none => size

/-- The request has no Block1 option, or a readable one. -/
def Block1OK (m : Msg) : Prop := ∃ o, parseBlockOp BLOCK1 m.ops = .ok o

/-- RFC 7959 section 2.2: the block sizes are 16, 32, ..., 1024. -/
def BlockSize (size : Nat) : Prop := ∃ k, k < 7 ∧ size = 2 ^ (k + 4)

/-- The requests of the sender that arrive are repetitions of the one with this id. -/
def OnlyRepeats (sx : Bool) (a : Addr) (id : Nat) (x : Env × Event) : Prop :=
  ∀ m, arrived sx a x = some m → Asks m → m.msgId = id

/-- A request of a download, and the events until the next one. -/
structure Asked where
  env : Env
  d : Bytes
  m : Msg
  mid : List (Env × Event)

/-- The events of a download. -/
def script (a : Addr) (rs : List Asked) : List (Env × Event) := rs.flatMap (fun q => (q.env, .datagram a q.d) :: q.mid)

/-- The request arrives, nothing fails while it is handled and it is for this resource. -/
structure AsksFor (sx : Bool) (method : Nat) (uri : Bytes) (q : Asked) : Prop where
  noFault : NoFault q.env
  carries : Carries sx q.d q.m
  request : Request q.m
  known : AllKnown q.m
  method : q.m.codeDetail = method
  path : cpath 256 q.m.ops = uri
  block1 : Block1OK q.m

/-- Consecutive requests have different ids, and between them the sender only repeats the
last one. -/
def Chain (sx : Bool) (a : Addr) : Nat → List Asked → Prop
  | _, [] => True
  | id, q :: rs => q.m.msgId ≠ id ∧ (∀ x ∈ q.mid, OnlyRepeats sx a q.m.msgId x) ∧ Chain sx a q.m.msgId rs

/-! ## Uploads -/

/-- The request has no Block2 option, or a readable one. -/
def Block2OK (m : Msg) : Prop := ∃ o, parseBlockOp BLOCK2 m.ops = .ok o

/-- The request carries block `num` of `size` bytes of its body, with the more flag. -/
def AsksBlock1 (m : Msg) (num : Nat) (more : Bool) (size : Nat) : Prop := parseBlockOp BLOCK1 m.ops = .ok (some ⟨num, more, size⟩)

/-- After `got` bytes received in blocks of `size` bytes, the message `m` with the Block1
option `o` carries the next block: it is for the same resource, its block begins where the
bytes received end, and it is not empty. -/
structure Continues (method : Nat) (uri : Bytes) (got size : Nat) (o : Option Block) (m : Msg) : Prop where
  option : parseBlockOp BLOCK1 m.ops = .ok o
  meth : m.codeDetail = method
  path : cpath 256 m.ops = uri
  start : numOf o * sizeOf2 o size = got
  payload : m.payload ≠ []

/-- The payloads of messages one after the other. -/
def joined (ms : List Msg) : Bytes := ms.flatMap (·.payload)

/-- The messages carry the first blocks of a body in order, none of them the last one; the
size of the blocks is `b1` first and `size` in the end. -/
inductive Collected (method : Nat) (uri : Bytes) (b1 : Nat) : List Msg → Nat → Prop where
  | start : Collected method uri b1 [] b1
  | next {ms : List Msg} {size : Nat} {o : Option Block} {m : Msg} (h : Collected method uri b1 ms size)
      (hc : Continues method uri (joined ms).length size o m) (hm : moreOf o = true) :
      Collected method uri b1 (ms ++ [m]) (sizeOf2 o size)

/-- The messages carry all the blocks of a body in order. -/
def Whole (method : Nat) (uri : Bytes) (b1 : Nat) (ms : List Msg) : Prop :=
  ∃ ms' m size o, ms = ms' ++ [m] ∧ Collected method uri b1 ms' size ∧
    Continues method uri (joined ms').length size o m ∧ moreOf o = false

/-- The transfer state of a sender from which `got` has been received. -/
structure CollectT (method : Nat) (uri : Bytes) (rx : Option Nat) (room : Nat) (got : Bytes) (size : Nat) (b : Blk) : Prop where
  type : b.type = .put1 ∨ b.type = .post1
  meth : b.type.method = method
  path : b.blockUri = uri
  callback : b.blockRx = rx
  cap : b.bodyLen = room
  buf : ∃ p bytes, b.body = some (p, bytes) ∧ bytes.length = room ∧ bytes.take got.length = got
  inside : got.length ≤ room
  start : b.block1Next = got.length
  stop : b.bodyEnd = got.length
  width : b.block1Size = size

/-- The request `m` begins an upload: the server is not in a transfer with the sender, and
the application answers that it takes a body in blocks of `size` bytes. -/
structure Starts (s : Srv) (env : Env) (a : Addr) (m : Msg) (method : Nat) (uri : Bytes) (rx : Option Nat) (room size : Nat) : Prop where
  idle : ¬ Transfer s a
  meth : m.codeDetail = method
  kind : method = 2 ∨ method = 3
  path : cpath 256 m.ops = uri
  app : ∃ resp b2 body bodyLen, (∀ t, env.handle t m = .blockwise resp size b2 body bodyLen rx) ∧ resp.ops = [] ∧
    resp.payload.length ≤ 1024 ∧ (b2 = 0 ∨ BlockSize b2) ∧ bodyLen ≤ room ∧ rx ≠ none

/-- The server is receiving a body from `a` and has received `got`; the last request it
answered had the id `id`. -/
def Receiving (s : Srv) (a : Addr) (id method : Nat) (uri : Bytes) (rx : Option Nat) (room : Nat) (got : Bytes) (size : Nat) : Prop :=
  ∃ t, ofAddr s a = some t ∧ t.req.ver ≠ 0 ∧ t.req.msgId = id ∧ CollectT method uri rx room got size t.blk

/-- When the request `m` arrives from `a` the server is in an upload in which it has received
`got`, or the request begins one. -/
def Expects (s : Srv) (env : Env) (a : Addr) (m : Msg) (method : Nat) (uri : Bytes) (rx : Option Nat) (room : Nat) (got : Bytes)
    (size : Nat) : Prop :=
  (∃ id, Receiving s a id method uri rx room got size) ∨ (got = [] ∧ Starts s env a m method uri rx room size)

/-- The message confirms a block: 2.31 with a Block1 option with this number and size and the
more flag. -/
structure Confirms (num size : Nat) (x : Msg) : Prop where
  cls : x.codeClass = 2
  detail : x.codeDetail = 31
  option : ∃ val, x.ops = [⟨BLOCK1, val⟩] ∧ blockSpec val = some ⟨num, true, size⟩

/-- The options of a message are ones `format` can count: none has a number less than 13
and a value of 13 to 268 bytes, and none is longer than `unsigned` arithmetic allows. -/
def Plain (m : Msg) : Prop :=
  ∀ o ∈ m.ops, (o.num < 13 → o.val.length < 13 ∨ 269 ≤ o.val.length) ∧ o.val.length + 5 < 2 ^ 32

/-- What the application must keep to: plain options in its responses, a body at least
as long as it says, and at the end of an upload a response body that lies in the buffer
it was given. -/
structure AppSafe (env : Env) : Prop where
  handle : ∀ t m, Plain (env.handle t m).resp
  body : ∀ t m resp b1 b2 body len rx, env.handle t m = .blockwise resp b1 b2 body len rx → len ≤ body.length
  rx : ∀ id body e req resp, Plain resp → Plain (env.rx id body e req resp).resp
  rxBody : ∀ id body e req resp, (env.rx id body e req resp).body.length = body.length
  rxEnd : ∀ id body e req resp, e ≤ body.length → (env.rx id body e req resp).bodyEnd ≤ body.length

/-- No Block option of the message has an empty value. -/
def NoEmptyBlock (m : Msg) : Prop := ∀ o ∈ m.ops, (o.num = BLOCK1 ∨ o.num = BLOCK2) → o.val ≠ []

/-- The datagram leaves a byte of the server's buffer free, and no Block option in it is
empty. -/
def Harmless (sx : Bool) (d : Bytes) : Prop := d.length < 1152 ∧ ∀ m, Carries sx d m → NoEmptyBlock m

/-- The callback `y.1` of the application reports success for the body `y.2`. -/
def Succeeds (env : Env) (y : Nat × Bytes) : Prop :=
  ∃ (body : Bytes) (len : Nat) (req resp : Msg), body.take len = y.2 ∧ (env.rx y.1 body len req resp).err = none ∧
    (env.rx y.1 body len req resp).resp.codeClass = 2

end FreeCoAP.Server
