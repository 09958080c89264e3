import Verif.Client.Spec2

/-!
# Specification of a download from any server

The server is not the one of this library, but any that follows RFC 7959. Its resource can have several representations, one after the other, each
with its ETag.
-/

namespace FreeCoAP.Client

open FreeCoAP.Msg
open FreeCoAP.Server (Built)

/-- `ETag` (RFC 7252 section 5.10). -/
def ETAG : Nat := 4

/-- RFC 7959 section 2.2: the response carries the block of the representation `R` that its Block2 option says, and there are more blocks exactly if the option
says so. -/
def BlockFrom (R : Bytes) (r : Msg) : Prop :=
  ∃ blk, blockOf BLOCK2 r = some blk ∧ r.payload = (R.drop (blk.num * blk.size)).take blk.size ∧
    (blk.more = true ↔ (blk.num + 1) * blk.size < R.length)

/-- RFC 7959 section 2.4: the blocks are not larger than those asked for. -/
def NotLarger (m r : Msg) : Prop :=
  ∀ q blk, blockOf BLOCK2 m = some q → blockOf BLOCK2 r = some blk → blk.size ≤ q.size

/-- In the rounds of a download the server sends blocks of representations for which `P` holds. -/
def Serves (sx px : Bool) (req : Msg) (P : Msg → Prop) (bs : List BEnv) : Prop :=
  ∀ b ∈ bs, ∀ off m o r, Wants req off m → exchange sx px b.x m = .ok (o, some (.ok r)) → Content req.codeDetail r → P r ∧ NotLarger m r

/-- In the rounds of an upload the server confirms blocks, and its answer, if it has a payload, is a block of a representation for which `P` holds. -/
def Replies (sx px : Bool) (P : Msg → Prop) (bs : List BEnv) : Prop :=
  ∀ b ∈ bs, ∀ m o r, Built m → exchange sx px b.x m = .ok (o, some (.ok r)) → Confirmed r → r.payload ≠ [] → P r

/-- The response carries a block of the representation that its ETag names. -/
def TaggedFrom (reps : Bytes → Bytes) (r : Msg) : Prop := ∃ tag, values ETAG r = [tag] ∧ BlockFrom (reps tag) r

end FreeCoAP.Client
