import Verif.Server.Spec

/-! # Specification of transfers in which the client chooses the size of the blocks -/

namespace FreeCoAP.Server

open FreeCoAP.Msg

/-- The requests carry the blocks of a body in order, from byte `off` on (RFC 7959 section 2.3): each block says its own size and its number
among blocks of this size, all blocks but the last one are full, and no block is larger than the one before (`cap` bytes). -/
def SendsBlocks (cap off : Nat) : List Msg → Prop
  | [] => False
  | m :: ms => ∃ num size, AsksBlock1 m num (decide (ms ≠ [])) size ∧ size ≤ cap ∧ num * size = off ∧ m.payload ≠ [] ∧ m.payload.length ≤ size ∧
      (ms ≠ [] → m.payload.length = size ∧ SendsBlocks size (off + size) ms)

/-- The block in the request has at most `size` bytes. -/
def AtMost (size : Nat) (m : Msg) : Prop := ∀ num more z, AsksBlock1 m num more z → z ≤ size

/-- The requests ask for the blocks of a body of `len` bytes in order, from byte `off` on: each asks for the block that begins where the one
before ended, of the same size or a smaller one; the first one may ask for larger blocks than the server sends (`cap` bytes), or may leave the
size to the server. There is a next request as long as the response says that there are more blocks. -/
def AsksBlocks (len cap off : Nat) : List Msg → Prop
  | [] => False
  | m :: ms => ∃ num size, (AsksBlock2 m num size ∧ num * size = off ∧ (off ≠ 0 → size ≤ cap) ∨ NoBlock2 m ∧ off = 0 ∧ size = cap) ∧
      (if off + min size cap ≤ len then AsksBlocks len (min size cap) (off + min size cap) ms else ms = [])

end FreeCoAP.Server
