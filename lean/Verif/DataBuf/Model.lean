import Verif.Common

/-!
# Model of the data buffer of the proxy

`proxy/common/src/data_buf.c` and `proxy/common/include/data_buf.h`.
`W` is the number of values of `size_t`.
-/

namespace FreeCoAP.DataBuf

/-- `data_buf_t` (data_buf.h 57–64). `data` is the whole block `data` points to, so its
length is the size of the allocation. -/
structure Buf where
  count : Nat
  size : Nat
  maxSize : Nat
  data : Bytes
  deriving DecidableEq, Repr

/-- `data_buf_create` (data_buf.c 39–54). `mem` tells whether `calloc` succeeds. -/
def create (W size maxSize : Nat) (mem : Bool) : Out Buf :=
  if size > maxSize then .err .EINVAL
  else if mem then .ok ⟨0, size, maxSize, List.replicate ((size + 1) % W) 0⟩
  else .err .ENOMEM

/-- `data_buf_get_space` (data_buf.h 54). -/
def space (W : Nat) (b : Buf) : Nat := (b.size + W - b.count) % W

/-- `memcpy` or `read` of `src` to offset `at` of a block: undefined outside the block. -/
def copyTo (block : Bytes) (at_ : Nat) (src : Bytes) : Out Bytes :=
  if at_ + src.length ≤ block.length then .ok (block.take at_ ++ src ++ block.drop (at_ + src.length)) else .ub

/-- The bytes `[at_, at_ + len)` of a block: undefined outside the block. -/
def slice (block : Bytes) (at_ len : Nat) : Out Bytes :=
  if at_ + len ≤ block.length then .ok ((block.drop at_).take len) else .ub

/-- `memset` of `len` bytes to zero from offset `at_`. The bound is tested before the bytes
are made. -/
def zero (block : Bytes) (at_ len : Nat) : Out Bytes :=
  if at_ + len ≤ block.length then .ok (block.take at_ ++ List.replicate len 0 ++ block.drop (at_ + len)) else .ub

/-- `data_buf_expand` (data_buf.c 62–83). `fresh n` is the block of `n` bytes, with
unspecified contents, that `malloc` returns, or `none` if it fails. -/
def expand (W : Nat) (b : Buf) (fresh : Nat → Option Bytes) : Out Buf :=
  let newSize := (2 * b.size) % W
  if newSize > b.maxSize then .err .EINVAL
  else
    match fresh ((newSize + 1) % W) with
    | none => .err .ENOMEM
    | some block => do
      let used ← slice b.data 0 b.count
      let d ← copyTo block 0 used
      let d ← zero d b.count ((newSize + W - b.count) % W)
      pure ⟨b.count, newSize, b.maxSize, d⟩

/-- `data_buf_add` (data_buf.c 85–94). -/
def add (W : Nat) (b : Buf) (num : Nat) : Nat × Buf :=
  let num := if num > space W b then space W b else num
  (num, { b with count := (b.count + num) % W })

/-- The way bytes get into the buffer (connection.c 222–236, `tls_sock_read` into
`data_buf_get_next` of at most `data_buf_get_space` bytes): the caller writes what fits of
`bs` at `data + count` and then adds all of it, which returns how much was taken. -/
def put (W : Nat) (b : Buf) (bs : Bytes) : Out (Nat × Buf) := do
  let d ← copyTo b.data b.count (bs.take (space W b))
  pure (add W { b with data := d } bs.length)

/-- `data_buf_consume` (data_buf.c 96–104). -/
def consume (W : Nat) (b : Buf) (num : Nat) : Out (Nat × Buf) :=
  let num := if num > b.count then b.count else num
  do
    let rest ← slice b.data num ((b.size + W - num) % W)
    let d ← copyTo b.data 0 rest
    let d ← zero d ((b.size + W - num) % W) num
    pure (num, { b with count := (b.count + W - num) % W, data := d })

/-- A call of the owner of the buffer. -/
inductive Call where
  | put (bs : Bytes)
  | expand (fresh : Nat → Option Bytes)
  | consume (num : Nat)

/-- What the owner sees of a call: the number of bytes taken or given up, and for a
consumption the bytes that were there before (`data_buf_get_data`). -/
inductive Obs where
  | put (num : Nat)
  | expanded
  | failed (e : Err)
  | consume (bs : Bytes)
  deriving DecidableEq, Repr

/-- One call. -/
def step (W : Nat) (b : Buf) : Call → Out (Obs × Buf)
  | .put bs => do
    let (n, b) ← put W b bs
    pure (.put n, b)
  | .expand fresh =>
    match expand W b fresh with
    | .ok b => .ok (.expanded, b)
    | .err e => .ok (.failed e, b)
    | .ub => .ub
  | .consume num => do
    let (n, b') ← consume W b num
    let bs ← slice b.data 0 n
    pure (.consume bs, b')

/-- A sequence of calls. -/
def run (W : Nat) (b : Buf) : List Call → Out (List Obs × Buf)
  | [] => .ok ([], b)
  | c :: cs => do
    let (o, b) ← step W b c
    let (os, b) ← run W b cs
    pure (o :: os, b)

end FreeCoAP.DataBuf
