import Verif.Client.Model
import Verif.Server.Spec

/-!
# Specification of the client

What an observer of the network sees of an exchange. The notions of header, Empty
messages, "the datagram carries the message" and "the datagram is the encoding of the
message" are those of the specification of the server.
-/

namespace FreeCoAP.Client

open FreeCoAP.Msg
open FreeCoAP.Server (header Header emptyAck reset Built Carries Formats BlockSize joined)

deriving instance DecidableEq for Except

/-- The datagrams sent. -/
def sends (o : List Obs) : List Bytes := o.filterMap (fun | .sent b => some b | _ => none)

/-- The times for which the timer was started. -/
def arms (o : List Obs) : List Nat := o.filterMap (fun | .arm n => some n | _ => none)

/-- The acknowledgements among the datagrams. -/
def acks (o : List Obs) : List Bytes := (sends o).filter (fun b => (header b).any (fun h => h.type = ACK))

/-- The caller's message with the message id and the token replaced. -/
def stamped (x : XEnv) (req : Msg) : Msg :=
  { req with msgId := 256 * x.id1.toNat + x.id0.toNat, token := [x.tok0, x.tok1, x.tok2, x.tok3] }

/-- RFC 7252 section 5.4: the options of a response are acceptable: the critical ones are
known, or, for a proxy, the ones unsafe to forward are. -/
def Acceptable (px : Bool) (m : Msg) : Prop :=
  ∀ o ∈ m.ops, (if px = true then Unsafe o else Critical o) → o.num ∈ known

/-- The message answers the request `req` sent by the client: same token; an
acknowledgement with the id of a confirmable request that is not Empty, or a separate
confirmable or non-confirmable message. -/
def Matches (req m : Msg) : Prop :=
  m.token = req.token ∧
  ((req.type = CON ∧ m.type = ACK ∧ m.msgId = req.msgId ∧ (m.codeClass, m.codeDetail) ≠ (0, 0)) ∨
   ((m.type = CON ∨ m.type = NON) ∧ m.msgId ≠ req.msgId))

/-- The acknowledgements due when the exchange ends (or goes on) like this: one, Empty and
with the id of the response, if it returns a confirmable response. -/
def acksFor : Option (Except Err Msg) → List Bytes
  | some (.ok m) => if m.type = CON then [emptyAck m.msgId] else []
  | _ => []

/-- What is left of a trace when datagrams other than `b` are dropped. -/
def about (b : Bytes) (o : List Obs) : List Obs :=
  o.filter (fun | .sent d => d = b | .arm _ => true)

/-- Retransmissions `k + 1`, ..., `k + n`: before each the time is doubled. -/
def retries (b : Bytes) (t k n : Nat) : List Obs :=
  (List.range' k n).flatMap (fun j => [.arm (2 ^ (j + 1) * t), .sent b])

/-- Nothing fails at this input. -/
def Fine (i : Input) : Prop :=
  i.sendErr = none ∧ i.timerErr = none ∧ i.parseMem = true ∧ (i.ev = .timer ∨ ∃ d, i.ev = .datagram d)

/-- The input is a reset of the message with this id. -/
def ResetBy (sx : Bool) (id : Nat) (i : Input) : Prop :=
  i.parseMem = true ∧ ∃ d m, i.ev = .datagram d ∧ Carries sx d m ∧ m.type = RST ∧ m.msgId = id

/-! ## Which messages end an exchange -/

/-- The input is a datagram with the message `m`, and nothing fails while it is handled. -/
def Gives (sx : Bool) (i : Input) (m : Msg) : Prop :=
  i.sendErr = none ∧ i.parseMem = true ∧ ∃ d, i.ev = .datagram d ∧ Carries sx d m

/-- The input is an Empty acknowledgement of the message with this id. -/
def AckedBy (sx : Bool) (id : Nat) (i : Input) : Prop :=
  ∃ d m, i.ev = .datagram d ∧ Carries sx d m ∧ m.type = ACK ∧ m.msgId = id ∧ m.codeClass = 0 ∧ m.codeDetail = 0

/-- The code is that of a response: success, client error or server error. -/
def IsResponse (m : Msg) : Prop := m.codeClass = 2 ∨ m.codeClass = 4 ∨ m.codeClass = 5

/-- RFC 7252 section 5.3.2: the message is a response to `req`. It has the token of the
request. In an acknowledgement it also has the id of the confirmable request, which was
not acknowledged before. The id of a separate response is chosen by the server. -/
def Answers (req m : Msg) (acked : Prop) : Prop :=
  IsResponse m ∧ m.token = req.token ∧
  ((m.type = CON ∨ m.type = NON) ∨ (req.type = CON ∧ m.type = ACK ∧ m.msgId = req.msgId ∧ ¬ acked))

/-- The datagram has nothing to do with the request `req`: no message is in it, or one
with another token that is no acknowledgement and no reset of the request. -/
def Stray (sx : Bool) (req : Msg) (d : Bytes) : Prop :=
  ∀ m, Carries sx d m → m.token ≠ req.token ∧ ¬ ((m.type = ACK ∨ m.type = RST) ∧ m.msgId = req.msgId)

/-- The reset sent for a message that is not expected. -/
def resetFor (m : Msg) : List Obs := if m.type = CON then [.sent (reset m.msgId)] else []

/-- The id of the message in the datagram, if it is a confirmable one of version 1 as far as
the header goes. -/
def confirmable : Bytes → Option Nat
  | b0 :: _ :: b2 :: b3 :: _ => if b0.toNat / 16 = 4 then some (256 * b2.toNat + b3.toNat) else none
  | _ => none

/-- What is due to the sender of a datagram when the exchange is left in this state: an
acknowledgement if the message was accepted as the response, a reset for other confirmable
messages, nothing for others. -/
def dueTo (d : Bytes) (r : Option (Except Err Msg)) : List Bytes :=
  match confirmable d with
  | none => []
  | some id => [match r with | some (.ok _) => emptyAck id | _ => reset id]

/-- The datagram leaves a byte of the client's buffer free. -/
def Short (i : Input) : Prop := ∀ d, i.ev = .datagram d → d.length < 1152

/-- The datagrams that arrive in this round leave a byte of the client's buffer free and
have no empty Block option. -/
def Quiet (sx : Bool) (b : BEnv) : Prop := ∀ i ∈ b.x.inputs, ∀ d, i.ev = .datagram d → Server.Harmless sx d

/-! ## Blockwise transfers -/

/-- The options other than Block1 and Block2. -/
def others (m : Msg) : List Op := m.ops.filter (fun o => o.num ≠ BLOCK1 ∧ o.num ≠ BLOCK2)

/-- The values of the options with this number. -/
def values (k : Nat) (m : Msg) : List Bytes := (m.ops.filter (fun o => o.num = k)).map (·.val)

/-- The caller's message has no Block options of its own. -/
def NoBlocks (m : Msg) : Prop := ∀ o ∈ m.ops, o.num ≠ BLOCK1 ∧ o.num ≠ BLOCK2

/-- The message is the request `req` with one block of the body, which begins at offset
`off`. RFC 7959 section 2.2: the block number times the size is the offset, all blocks but
the last have the size announced and the more flag. The last one announces the size of
the blocks of the response. -/
structure Part (req : Msg) (size2 off : Nat) (last : Bool) (m : Msg) : Prop where
  built : Built m
  type : m.type = req.type
  code : m.codeClass = req.codeClass ∧ m.codeDetail = req.codeDetail
  options : others m = req.ops
  block1 : ∃ val num size, values BLOCK1 m = [val] ∧ val.length = 3 ∧ blockSpec val = some ⟨num, !last, size⟩ ∧ num * size = off ∧
    (if last = true then m.payload.length ≤ size else m.payload.length = size)
  block2 : if last = true then ∃ val, values BLOCK2 m = [val] ∧ val.length = 3 ∧ blockSpec val = some ⟨0, false, size2⟩ else values BLOCK2 m = []

/-- The messages are the blocks of a body from offset `off` on; only the last one is
marked as such. -/
inductive Parts (req : Msg) (size2 : Nat) : Nat → List Msg → Prop where
  | last {off : Nat} {m : Msg} (h : Part req size2 off true m) : Parts req size2 off [m]
  | next {off : Nat} {m : Msg} {ms : List Msg} (h : Part req size2 off false m)
      (hs : Parts req size2 (off + m.payload.length) ms) : Parts req size2 off (m :: ms)

/-- In the exchange with this environment the message `m` is transmitted, with the message
id and the token of the exchange and possibly several times, besides it only Empty
messages, and the response `r`, with the same token, is received. -/
def Exchanged (sx : Bool) (x : XEnv) (m r : Msg) (o : List Obs) : Prop :=
  (∃ b, Formats (stamped x m) b ∧ (sends o).head? = some b ∧
    ∀ d ∈ sends o, d = b ∨ ∃ id < 65536, d = reset id ∨ d = emptyAck id) ∧
  Matches (stamped x m) r ∧ ∃ i ∈ x.inputs, ∃ d, i.ev = .datagram d ∧ Carries sx d r

/-- The exchanges with the messages and the responses, one after the other. -/
inductive Rounds (sx : Bool) : List BEnv → List Msg → List Msg → List (List Obs) → Prop where
  | done {bs : List BEnv} : Rounds sx bs [] [] []
  | round {b : BEnv} {bs : List BEnv} {m r : Msg} {ms rs : List Msg} {o : List Obs} {os : List (List Obs)}
      (h : Exchanged sx b.x m r o) (hs : Rounds sx bs ms rs os) : Rounds sx (b :: bs) (m :: ms) (r :: rs) (o :: os)

/-- The response confirms a block. -/
def Confirmed (r : Msg) : Prop := r.codeClass = 2 ∧ (r.codeDetail = 31 ∨ r.codeDetail = 1 ∨ r.codeDetail = 4)

/-- The response is one to the method with part of the body. -/
def Content (method : Nat) (r : Msg) : Prop :=
  r.codeClass = 2 ∧ (r.codeDetail = 31 ∨ if method = 1 then r.codeDetail = 5 else r.codeDetail = 1 ∨ r.codeDetail = 4)

/-- The response `r` carries the block of the body at offset `off`: its block number times
the size of the blocks, which is at most the one announced in the response, is the offset;
all blocks but the last have this size. -/
structure Piece (method off : Nat) (last : Bool) (r : Msg) : Prop where
  content : Content method r
  block2 : ∃ num size blk, parseBlockOp BLOCK2 r.ops = .ok (some blk) ∧ blk.num = num ∧ blk.more = !last ∧
    size ≤ blk.size ∧ BlockSize size ∧ num * size = off ∧
    (if last = true then r.payload.length ≤ size else r.payload.length = size)

/-- The responses carry the blocks of a body from offset `off` on. -/
inductive Pieces (method : Nat) : Nat → List Msg → Prop where
  | last {off : Nat} {r : Msg} (h : Piece method off true r) : Pieces method off [r]
  | next {off : Nat} {r : Msg} {rs : List Msg} (h : Piece method off false r)
      (hs : Pieces method (off + r.payload.length) rs) : Pieces method off (r :: rs)

/-- The message is the request `req` for the block at offset `off` of the response. -/
structure Wants (req : Msg) (off : Nat) (m : Msg) : Prop where
  built : Built m
  same : { m with ops := [] } = { req with ops := [] }
  options : others m = req.ops
  block1 : values BLOCK1 m = []
  block2 : ∃ val num size, values BLOCK2 m = [val] ∧ val.length = 3 ∧ blockSpec val = some ⟨num, false, size⟩ ∧ num * size = off

/-- The requests ask for the blocks the responses carry. -/
inductive WantsAll (req : Msg) : Nat → List Msg → List Msg → Prop where
  | done {off : Nat} : WantsAll req off [] []
  | next {off : Nat} {m r : Msg} {ms rs : List Msg} (h : Wants req off m)
      (hs : WantsAll req (off + r.payload.length) ms rs) : WantsAll req off (m :: ms) (r :: rs)

/-- The result with more memory after the buffer. -/
def more (e : Bytes) : Out BRes → Out BRes
  | .ok r => .ok { r with body := r.body ++ e }
  | .err x => .err x
  | .ub => .ub

end FreeCoAP.Client
