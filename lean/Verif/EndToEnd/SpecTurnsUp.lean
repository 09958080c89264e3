import Verif.EndToEnd.SpecTurns

/-! # Specification of a blockwise upload over a network that delivers -/

namespace FreeCoAP.EndToEnd

open FreeCoAP.Msg
open FreeCoAP.Server (Env Built BlockSize cpath)
open FreeCoAP.Client (BEnv BRes upload exchangeBlockwise)

/-- The course of a call with a PUT or POST request in the turns `bs`: the upload takes some of them, and the rest are there for the response. -/
def courseUp (sx px : Bool) (req resp : Msg) (size1 size2 : Nat) (buf : Bytes) (bodyLen : Nat) (bs : List BEnv) : Out BRes :=
  match upload sx px req resp size1 size2 buf bodyLen bs with
  | .ok r => exchangeBlockwise sx px req resp size1 size2 buf bodyLen false bs (bs.drop r.obs.length)
  | .err e => .err e
  | .ub => .ub

/-- The message has a Block1 option: it carries a block of a body. -/
def HasBlock1 (m : Msg) : Prop := ∃ o ∈ m.ops, o.num = BLOCK1

/-- The application takes bodies for `uri` in blocks of `b1` bytes and passes them to the receiver with the number `id`, which answers 2.`d` without a body. -/
def Accepts (uri : Bytes) (method b1 room id d : Nat) (env : Env) : Prop :=
  (∃ resp b2 body len, (∀ t m, m.codeDetail = method → cpath 256 m.ops = uri → HasBlock1 m → env.handle t m = .blockwise resp b1 b2 body len (some id)) ∧
    Built resp ∧ resp.ops = [] ∧ resp.payload = [] ∧ (b2 = 0 ∨ BlockSize b2) ∧ len ≤ room) ∧
  ∀ bytes e req resp, (env.rx id bytes e req resp).err = none ∧ (env.rx id bytes e req resp).bodyEnd = 0 ∧
    (env.rx id bytes e req resp).resp = { resp with codeClass := 2, codeDetail := d }

/-- The number of bytes that `k` turns can carry. The first block has the size the client begins with, the others have the size agreed upon. -/
def carried (size1 size : Nat) : Nat → Nat
  | 0 => 0
  | k + 1 => size1 + k * size

/-- A request of an upload: the request of the application with a Block1 option and a block of at most `size` bytes, and in the last one a Block2 option. -/
def BlockRequest (req : Msg) (size : Nat) (m : Msg) : Prop :=
  ∃ v1 p, v1.length = 3 ∧ p.length ≤ size ∧
    (m = setPayload (addOp req BLOCK1 v1) p ∨ ∃ v2, v2.length = 3 ∧ m = setPayload (addOp (addOp req BLOCK1 v1) BLOCK2 v2) p)

end FreeCoAP.EndToEnd
