import Verif.Server.Spec

/-! # Every request is answered: what is required of the application -/

namespace FreeCoAP.Server

open FreeCoAP.Msg

/-- The message fits in the buffer of the server as a response, whatever type, id and token
the server gives it. -/
def CanBeSent (x : Msg) : Prop :=
  ∀ type id token, type ≠ RST → token.length ≤ 8 → ∃ r, Formats { x with type := type, msgId := id, token := token } r

/-- What the application must keep to when it answers a request to a server with buffers of
`room` bytes for bodies. If it answers at once, it reports no error and the response can be
sent. If it starts a transfer, it puts no options in the response and at most 1024 bytes of
payload, the body is not larger than a buffer, the block sizes are those of RFC 7959 section
2.2 (the one for receiving may be 0 if nothing is received), and it has a callback to
receive the body of a PUT or a POST. -/
def FitAction (room : Nat) (m : Msg) : HAct → Prop
  | .reply x err => err = none ∧ Built x ∧ CanBeSent x
  | .blockwise x b1 b2 _ len rx =>
    Built x ∧ x.ops = [] ∧ x.payload.length ≤ 1024 ∧ len ≤ room ∧ BlockSize b2 ∧ (BlockSize b1 ∨ b1 = 0 ∧ m.codeDetail = 1) ∧
      (m.codeDetail = 2 ∨ m.codeDetail = 3 → rx ≠ none)

/-- What the callback that receives a body must keep to: it reports no error, sets a code
that is not 0.xx, adds no options and leaves at most 1024 bytes of payload. -/
structure FitResult (resp : Msg) (r : RxRes) : Prop where
  err : r.err = none
  built : Built r.resp
  code : r.resp.codeClass ≠ 0
  ops : r.resp.ops = resp.ops
  payload : resp.payload.length ≤ 1024 → r.resp.payload.length ≤ 1024

/-- The application keeps to both. -/
structure FitApp (room : Nat) (env : Env) : Prop where
  handle : ∀ t m, FitAction room m (env.handle t m)
  rx : ∀ id body e req resp, Built resp → FitResult resp (env.rx id body e req resp)

/-- The request `m` from `a` is answered: the event ends without an error, and the server
sends one response to `a`, with the header that answers `m`, after the acknowledgement if
the response is a separate one. -/
def Answered (sepList : List Bytes) (a : Addr) (m : Msg) (o : List Obs) (e : Option Err) : Prop :=
  e = none ∧ ∃ x r h,
    sends o = (if m.type = CON ∧ Separate sepList m then [(a, emptyAck m.msgId)] else []) ++ [(a, r)] ∧
    Formats x r ∧ header r = some h ∧ Answers sepList m h

/-- A block size that is not given, or is one of RFC 7959. -/
def SizeOrNone (n : Nat) : Prop := n = 0 ∨ BlockSize n

/-- The wrong ways to start a transfer for the request `m`, with the error reported: a block
size that does not exist, a body larger than a buffer, no callback to receive the body of a
PUT or a POST, and no block size for the direction in which the body goes. -/
inductive BadStart (room : Nat) (m : Msg) (b1 b2 len : Nat) (rx : Option Nat) : Err → Prop where
  | size (h : ¬ SizeOrNone b1 ∨ ¬ SizeOrNone b2) : BadStart room m b1 b2 len rx .EINVAL
  | space (h1 : SizeOrNone b1) (h2 : SizeOrNone b2) (h : room < len) : BadStart room m b1 b2 len rx .ENOSPC
  | callback (h1 : SizeOrNone b1) (h2 : SizeOrNone b2) (h3 : len ≤ room) (h : m.codeDetail = 2 ∨ m.codeDetail = 3) (h4 : rx = none) :
      BadStart room m b1 b2 len rx .EINVAL
  | noSize2 (h1 : SizeOrNone b1) (h2 : b2 = 0) (h3 : len ≤ room) (h : m.codeDetail = 1)
      (hp : ∀ o ∈ m.ops, o.num ≠ BLOCK1 ∧ o.num ≠ BLOCK2) : BadStart room m b1 b2 len rx .EINVAL
  | noSize1 (h1 : b1 = 0) (h2 : SizeOrNone b2) (h3 : len ≤ room) (h : m.codeDetail = 2 ∨ m.codeDetail = 3) (h4 : rx ≠ none)
      (h5 : m.payload ≠ []) (hp : ∀ o ∈ m.ops, o.num ≠ BLOCK1 ∧ o.num ≠ BLOCK2) : BadStart room m b1 b2 len rx .EINVAL

end FreeCoAP.Server
