import Verif.Client.Spec

/-!
# Specification of the course of a blockwise transfer

Unlike `Parts` and `Pieces`, which describe transfers that succeed, the relations here say
how every transfer goes, whatever the server answers and whatever fails.
-/

namespace FreeCoAP.Client

open FreeCoAP.Msg
open FreeCoAP.Server (Built BlockSize)

/-- What the first option with the number `k` says. A value has up to three bytes; more are
not looked at. -/
def blockOf (k : Nat) (m : Msg) : Option Block :=
  match values k m with
  | [] => none
  | v :: _ => blockSpec (v.take 3)

/-- The value returned and, with success, the response. -/
def BRes.outcome (res : BRes) : Option (Except Err (Nat × Msg)) :=
  match res.ret with
  | none => none
  | some (.error e) => some (.error e)
  | some (.ok n) => some (.ok (n, res.resp))

/-- The message is the request `req` with the block of the body at offset `off` that is in
its turn when blocks have `size` bytes, and says this size. -/
def IsBlock (req : Msg) (size size2 off : Nat) (body : Bytes) (m : Msg) : Prop :=
  Built m ∧ m.payload = (body.drop off).take size ∧
  (off < 2 ^ 20 * size → Part req size2 off (decide (body.length ≤ off + size)) m ∧ ∃ num more, blockOf BLOCK1 m = some ⟨num, more, size⟩)

/-- No message can be made for the block at offset `off`: memory is short, or the block
number does not fit. -/
inductive Unable (b : BEnv) (size off : Nat) : Err → Prop where
  | memory (h : (b.copyMem && b.opMem1 && b.opMem2 && b.payMem) = false) : Unable b size off .ENOMEM
  | number (h : 2 ^ 20 * size < off) : Unable b size off .EINVAL

/-- The response `r` confirms the block at offset `off` when blocks have `size` bytes; from
now on they have `size'`. -/
def Confirms (size off : Nat) (r : Msg) (size' : Nat) : Prop :=
  ∃ blk, blockOf BLOCK1 r = some blk ∧ size' = min blk.size size ∧ blk.num * size' = off

/-- The course of an upload of `body` from offset `off` on, in blocks of `size` bytes: what
is seen in each round, and how it ends. -/
inductive Uploads (sx px : Bool) (req : Msg) (size2 : Nat) (body : Bytes) :
    (size off : Nat) → List BEnv → List (List Obs) → Option (Except Err (Nat × Msg)) → Prop where
  /-- It is not over. -/
  | begin {size off : Nat} : Uploads sx px req size2 body size off [] [] none
  /-- No message can be made. -/
  | unable {size off : Nat} {b : BEnv} {bs : List BEnv} {e : Err} (h : Unable b size off e) :
      Uploads sx px req size2 body size off (b :: bs) [[]] (some (.error e))
  /-- There is no response yet. -/
  | waits {size off : Nat} {b : BEnv} {bs : List BEnv} {m : Msg} {o : List Obs} (hm : IsBlock req size size2 off body m)
      (h : exchange sx px b.x m = .ok (o, none)) : Uploads sx px req size2 body size off (b :: bs) [o] none
  /-- The exchange fails; so does the transfer. -/
  | fails {size off : Nat} {b : BEnv} {bs : List BEnv} {m : Msg} {o : List Obs} {e : Err} (hm : IsBlock req size size2 off body m)
      (h : exchange sx px b.x m = .ok (o, some (.error e))) :
      Uploads sx px req size2 body size off (b :: bs) [o] (some (.error e))
  /-- The server answers with something else than a confirmation: this is the response
  returned. -/
  | refused {size off : Nat} {b : BEnv} {bs : List BEnv} {m r : Msg} {o : List Obs} (hm : IsBlock req size size2 off body m)
      (h : exchange sx px b.x m = .ok (o, some (.ok r))) (hr : ¬ Confirmed r) :
      Uploads sx px req size2 body size off (b :: bs) [o] (some (.ok (0, r)))
  /-- The confirmation is not one of this block. -/
  | wrong {size off : Nat} {b : BEnv} {bs : List BEnv} {m r : Msg} {o : List Obs} (hm : IsBlock req size size2 off body m)
      (h : exchange sx px b.x m = .ok (o, some (.ok r))) (hr : Confirmed r) (hc : ∀ s, ¬ Confirms size off r s) :
      Uploads sx px req size2 body size off (b :: bs) [o] (some (.error .EBADMSG))
  /-- The last block is confirmed. -/
  | last {size off size' : Nat} {b : BEnv} {bs : List BEnv} {m r : Msg} {o : List Obs} (hm : IsBlock req size size2 off body m)
      (h : exchange sx px b.x m = .ok (o, some (.ok r))) (hr : Confirmed r) (hc : Confirms size off r size')
      (hl : body.length ≤ off + m.payload.length) :
      Uploads sx px req size2 body size off (b :: bs) [o] (some (.ok (body.length, r)))
  /-- A block is confirmed, and there are more. -/
  | next {size off size' : Nat} {b : BEnv} {bs : List BEnv} {m r : Msg} {o : List Obs} {os : List (List Obs)}
      {ret : Option (Except Err (Nat × Msg))} (hm : IsBlock req size size2 off body m)
      (h : exchange sx px b.x m = .ok (o, some (.ok r))) (hr : Confirmed r) (hc : Confirms size off r size')
      (hl : off + m.payload.length < body.length)
      (ht : Uploads sx px req size2 body size' (off + m.payload.length) bs os ret) :
      Uploads sx px req size2 body size off (b :: bs) (o :: os) ret

/-- The response `r` carries the block at offset `off` of a body when blocks have `size`
bytes; from now on they have `size'`. -/
def Fits (size off : Nat) (r : Msg) (last : Bool) (size' : Nat) : Prop :=
  ∃ blk, blockOf BLOCK2 r = some blk ∧ size' = min blk.size size ∧ blk.num * size' = off ∧ blk.more = !last ∧
    r.payload.length ≤ size' ∧ (last = false → r.payload.length = size')

/-- The buffer with the payload of `r` written at offset `off`. -/
def written (off : Nat) (r : Msg) (buf : Bytes) : Bytes :=
  buf.take off ++ r.payload ++ buf.drop (off + r.payload.length)

/-- The response `r` ends a download into a buffer of `bodyLen` bytes; the value returned
and the buffer. -/
inductive Finishes (method bodyLen size off : Nat) (r : Msg) (buf : Bytes) : Except Err (Nat × Msg) → Bytes → Prop where
  /-- It is a response without part of the body, such as an error: it is returned. -/
  | other (h : ¬ Content method r) : Finishes method bodyLen size off r buf (.ok (0, r)) buf
  /-- It is not the block asked for. -/
  | wrong (h : Content method r) (hf : ∀ l s, ¬ Fits size off r l s) : Finishes method bodyLen size off r buf (.error .EBADMSG) buf
  /-- The buffer is too small. -/
  | full {l : Bool} {size' : Nat} (h : Content method r) (hf : Fits size off r l size') (hl : bodyLen < off + r.payload.length) :
      Finishes method bodyLen size off r buf (.error .ENOSPC) buf
  /-- It is the last block. -/
  | last {size' : Nat} (h : Content method r) (hf : Fits size off r true size') (hl : off + r.payload.length ≤ bodyLen) :
      Finishes method bodyLen size off r buf (.ok (off + r.payload.length, r)) (written off r buf)

/-- The message asks for the block of `size` bytes at offset `off`. -/
def AsksFor (req : Msg) (size off : Nat) (m : Msg) : Prop :=
  Built m ∧ (off < 2 ^ 20 * size → Wants req off m ∧ ∃ num, blockOf BLOCK2 m = some ⟨num, false, size⟩)

/-- The course of a download from offset `off` on into a buffer of `bodyLen` bytes: what is
seen in each round, and how it ends. -/
inductive Downloads (sx px : Bool) (req : Msg) (bodyLen : Nat) :
    (size off : Nat) → Bytes → List BEnv → List (List Obs) → Option (Except Err (Nat × Msg)) → Bytes → Prop where
  /-- It is not over. -/
  | begin {size off : Nat} {buf : Bytes} : Downloads sx px req bodyLen size off buf [] [] none buf
  /-- No message can be made. -/
  | unable {size off : Nat} {buf : Bytes} {b : BEnv} {bs : List BEnv} {e : Err} (h : Unable b size off e) :
      Downloads sx px req bodyLen size off buf (b :: bs) [[]] (some (.error e)) buf
  /-- There is no response yet. -/
  | waits {size off : Nat} {buf : Bytes} {b : BEnv} {bs : List BEnv} {m : Msg} {o : List Obs} (hm : AsksFor req size off m)
      (h : exchange sx px b.x m = .ok (o, none)) : Downloads sx px req bodyLen size off buf (b :: bs) [o] none buf
  /-- The exchange fails; so does the transfer. -/
  | fails {size off : Nat} {buf : Bytes} {b : BEnv} {bs : List BEnv} {m : Msg} {o : List Obs} {e : Err}
      (hm : AsksFor req size off m) (h : exchange sx px b.x m = .ok (o, some (.error e))) :
      Downloads sx px req bodyLen size off buf (b :: bs) [o] (some (.error e)) buf
  /-- The response ends the transfer. -/
  | ends {size off : Nat} {buf buf' : Bytes} {b : BEnv} {bs : List BEnv} {m r : Msg} {o : List Obs} {ret : Except Err (Nat × Msg)}
      (hm : AsksFor req size off m) (h : exchange sx px b.x m = .ok (o, some (.ok r)))
      (hf : Finishes req.codeDetail bodyLen size off r buf ret buf') :
      Downloads sx px req bodyLen size off buf (b :: bs) [o] (some ret) buf'
  /-- A block is received, and there are more. -/
  | next {size off size' : Nat} {buf buf' : Bytes} {b : BEnv} {bs : List BEnv} {m r : Msg} {o : List Obs} {os : List (List Obs)}
      {ret : Option (Except Err (Nat × Msg))} (hm : AsksFor req size off m)
      (h : exchange sx px b.x m = .ok (o, some (.ok r))) (hc : Content req.codeDetail r) (hf : Fits size off r false size')
      (hl : off + r.payload.length ≤ bodyLen)
      (ht : Downloads sx px req bodyLen size' (off + r.payload.length) (written off r buf) bs os ret buf') :
      Downloads sx px req bodyLen size off buf (b :: bs) (o :: os) ret buf'

/-- A download whose first response is there already. -/
inductive Resumes (sx px : Bool) (req : Msg) (bodyLen size : Nat) (r : Msg) (buf : Bytes) (bs : List BEnv) :
    List (List Obs) → Option (Except Err (Nat × Msg)) → Bytes → Prop where
  | ends {ret : Except Err (Nat × Msg)} {buf' : Bytes} (hf : Finishes req.codeDetail bodyLen size 0 r buf ret buf') :
      Resumes sx px req bodyLen size r buf bs [] (some ret) buf'
  | next {size' : Nat} {os : List (List Obs)} {ret : Option (Except Err (Nat × Msg))} {buf' : Bytes}
      (hc : Content req.codeDetail r) (hf : Fits size 0 r false size') (hl : r.payload.length ≤ bodyLen)
      (ht : Downloads sx px req bodyLen size' r.payload.length (written 0 r buf) bs os ret buf') :
      Resumes sx px req bodyLen size r buf bs os ret buf'

/-- A PUT or POST: an upload, and a download if the response to its last block has a
payload. -/
inductive Puts (sx px : Bool) (req : Msg) (size1 size2 bodyLen : Nat) (buf : Bytes) (bs1 bs2 : List BEnv) :
    List (List Obs) → Option (Except Err (Nat × Msg)) → Bytes → Prop where
  /-- The upload is not over, has failed or was refused, or the body is empty. -/
  | ends {os : List (List Obs)} {ret : Option (Except Err (Nat × Msg))}
      (hu : Uploads sx px req size2 (buf.take bodyLen) size1 0 bs1 os ret) (h0 : ∀ n r, ret = some (.ok (n, r)) → n = 0) :
      Puts sx px req size1 size2 bodyLen buf bs1 bs2 os ret buf
  /-- The response has no body. -/
  | done {os : List (List Obs)} {n : Nat} {r : Msg} (hu : Uploads sx px req size2 (buf.take bodyLen) size1 0 bs1 os (some (.ok (n, r))))
      (h0 : n ≠ 0) (hp : r.payload = []) : Puts sx px req size1 size2 bodyLen buf bs1 bs2 os (some (.ok (0, r))) buf
  /-- The body of the response is fetched. -/
  | fetch {os os2 : List (List Obs)} {n : Nat} {r : Msg} {ret : Option (Except Err (Nat × Msg))} {buf' : Bytes}
      (hu : Uploads sx px req size2 (buf.take bodyLen) size1 0 bs1 os (some (.ok (n, r)))) (h0 : n ≠ 0) (hp : r.payload ≠ [])
      (hd : Resumes sx px req bodyLen size2 r buf bs2 os2 ret buf') :
      Puts sx px req size1 size2 bodyLen buf bs1 bs2 (os ++ os2) ret buf'

end FreeCoAP.Client
