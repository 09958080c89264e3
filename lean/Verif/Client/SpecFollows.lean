import Verif.Client.SpecAny

/-!
# Specification of a server that follows RFC 7959

What such a server may answer to the blocks of a request and to the requests for blocks.
-/

namespace FreeCoAP.Client

open FreeCoAP.Msg

/-- RFC 7959 section 2.4: the response to a request for a block of the resource `R` has this block, or one that begins at the same byte and is smaller. -/
structure Follows (R : Bytes) (m r : Msg) : Prop where
  block : BlockFrom R r
  size : NotLarger m r
  offset : ∀ q blk, blockOf BLOCK2 m = some q → blockOf BLOCK2 r = some blk → blk.num * blk.size = q.num * q.size

/-- RFC 7959 section 2.3: the confirmation of a block of a request has the number of this block, and the size of the blocks that the server would like from now
on. -/
def Acks (m r : Msg) : Prop := ∀ q, blockOf BLOCK1 m = some q → ∃ blk, blockOf BLOCK1 r = some blk ∧ blk.num = q.num

/-- The server asks for smaller blocks, if at all, when it confirms the first one. -/
def Early (m r : Msg) : Prop := ∀ q blk, blockOf BLOCK1 m = some q → blockOf BLOCK1 r = some blk → blk.num = 0 ∨ q.size ≤ blk.size

/-- The response has the whole answer `R` of the server in its payload, and no Block2 option. -/
def Whole (R : Bytes) (r : Msg) : Prop := values BLOCK2 r = [] ∧ r.payload = R

/-- The response to the last block of a request has no payload or the first block of the answer `R`, which is at most as large as asked for. -/
def Opens (R : Bytes) (size2 : Nat) (r : Msg) : Prop :=
  r.payload = [] ∨ BlockFrom R r ∧ ∃ blk, blockOf BLOCK2 r = some blk ∧ blk.num = 0 ∧ blk.size ≤ size2

/-- What a server that follows RFC 7959 sends to confirm the block in `m`. -/
def RfcConfirms (R : Bytes) (size2 : Nat) (last : Bool) (m r : Msg) : Prop := Acks m r ∧ (last = true → Opens R size2 r ∨ Whole R r)

/-- In the rounds of an upload, in each of which is observed what `os` says, every confirmation is such that `P` holds for it and for the message with the block,
and no exchange ends with `EBADMSG`. -/
def Confirming (sx px : Bool) (req : Msg) (size2 : Nat) (P : Bool → Msg → Msg → Prop) (bs : List BEnv) (os : List (List Obs)) : Prop :=
  ∀ (i : Nat) (b : BEnv) (o : List Obs), bs[i]? = some b → os[i]? = some o → ∀ off last m, Part req size2 off last m →
    (∀ r, exchange sx px b.x m = .ok (o, some (.ok r)) → Confirmed r → P last m r) ∧ exchange sx px b.x m ≠ .ok (o, some (.error .EBADMSG))

/-- In the rounds of a download, in each of which is observed what `os` says, the server sends blocks of `R`, and no exchange ends with `EBADMSG`. -/
def Providing (sx px : Bool) (req : Msg) (R : Bytes) (bs : List BEnv) (os : List (List Obs)) : Prop :=
  ∀ (i : Nat) (b : BEnv) (o : List Obs), bs[i]? = some b → os[i]? = some o → ∀ off m, Wants req off m →
    (∀ r, exchange sx px b.x m = .ok (o, some (.ok r)) → Content req.codeDetail r → Follows R m r) ∧
    exchange sx px b.x m ≠ .ok (o, some (.error .EBADMSG))

end FreeCoAP.Client
