import Verif.EndToEnd.SpecTurnsUp

/-! # Specification of a blockwise upload that is answered with a body, over a network that delivers -/

namespace FreeCoAP.EndToEnd

open FreeCoAP.Msg
open FreeCoAP.Server (Env Built cpath)

/-- The application takes bodies for `uri` in blocks of `b1` bytes and passes them to the receiver with the number `id`, which is given buffers of `room` bytes.
It answers the body `c` with 2.`d` and the body `f c`, which is sent in blocks of `b2` bytes. -/
def Replies (uri : Bytes) (method b1 b2 room id d : Nat) (f : Bytes → Bytes) (env : Env) : Prop :=
  (∃ resp body len, (∀ t m, m.codeDetail = method → cpath 256 m.ops = uri → HasBlock1 m → env.handle t m = .blockwise resp b1 b2 body len (some id)) ∧
    Built resp ∧ resp.ops = [] ∧ resp.payload = [] ∧ len ≤ room) ∧
  ∀ bytes e req resp, bytes.length = room → (env.rx id bytes e req resp).err = none ∧
    (env.rx id bytes e req resp).bodyEnd ≤ (env.rx id bytes e req resp).body.length ∧
    (env.rx id bytes e req resp).body.take (env.rx id bytes e req resp).bodyEnd = f (bytes.take e) ∧
    (env.rx id bytes e req resp).resp = { resp with codeClass := 2, codeDetail := d }

/-- The number of turns that an upload of `len` bytes takes, if the first block has `size1` bytes and the others have `size`. -/
def upTurns (size1 size len : Nat) : Nat := 1 + (len - size1 + (size - 1)) / size

end FreeCoAP.EndToEnd
