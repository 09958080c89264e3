import Verif.Common

/-!
# Model of `lib/src/coap_msg.c` (values)

Messages as values. Memory management (which pool buffers a message owns, and
allocation failure) is modelled in `Verif/Msg/Heap.lean`, whose functions are
proved to compute these values.

A buffer argument `char *p` is the list `mem` of the bytes of the underlying
object from `p` on; reading past the end of that list is `ub`. The parameter `len`
is the length argument of the C function, which may differ from the size of the
object. `sx` says whether plain `char` is signed on the platform.
-/

namespace FreeCoAP.Msg

/-- `coap_msg_op_t`, lib/include/coap_msg.h:193-200; `len` is the length of `val`. -/
structure Op where
  num : Nat
  val : Bytes
  deriving DecidableEq, Repr

/-- `op->len`. -/
abbrev Op.len (o : Op) : Nat := o.val.length

/-- `coap_msg_t`, coap_msg.h:215-228. `token` is the first `token_len` bytes of the
token array (the others are never read); `payload` is the payload of `payload_len`
bytes, empty when the pointer is null. -/
structure Msg where
  ver : Nat
  type : Nat
  codeClass : Nat
  codeDetail : Nat
  msgId : Nat
  token : Bytes
  ops : List Op
  payload : Bytes
  deriving DecidableEq, Repr

/-! Constants, coap_msg.h:40-188. -/

/-- `COAP_MSG_CON`, coap_msg.h:86. -/
abbrev CON : Nat := 0
/-- `COAP_MSG_NON`, coap_msg.h:87. -/
abbrev NON : Nat := 1
/-- `COAP_MSG_ACK`, coap_msg.h:88. -/
abbrev ACK : Nat := 2
/-- `COAP_MSG_RST`, coap_msg.h:89. -/
abbrev RST : Nat := 3
/-- `COAP_MSG_URI_PATH`, coap_msg.h:175. -/
abbrev URI_PATH : Nat := 11
/-- `COAP_MSG_BLOCK2`, coap_msg.h:181. -/
abbrev BLOCK2 : Nat := 23
/-- `COAP_MSG_BLOCK1`, coap_msg.h:182. -/
abbrev BLOCK1 : Nat := 27

/-- `p[i]` (read). -/
def rd (mem : Bytes) (i : Nat) : Out Byte :=
  match mem[i]? with
  | some b => .ok b
  | none => .ub

/-- `memcpy(.., p, n)` (read of `n` bytes). -/
def rds (mem : Bytes) (n : Nat) : Out Bytes :=
  if n ≤ mem.length then .ok (mem.take n) else .ub

/-- `memcpy(&buf[p], bs, n)` and single stores: write `bs` at offset `p` of an object. -/
def wrs (buf : Bytes) (p : Nat) (bs : Bytes) : Out Bytes :=
  if p + bs.length ≤ buf.length then .ok (buf.take p ++ bs ++ buf.drop (p + bs.length)) else .ub

/-- `coap_msg_op_num_is_recognized`, coap_msg.c:64-89. -/
def isRecognized (num : Nat) : Bool :=
  match num with
  | 1 | 3 | 4 | 5 | 7 | 8 | 11 | 12 | 14 | 15 | 17 | 20 | 23 | 27 | 28 | 35 | 39 | 60 => true
  | _ => false

/-- `coap_msg_op_calc_block_szx`, coap_msg.c:91-106. -/
def calcBlockSzx (size : Nat) : Out Nat :=
  if size = 1 <<< 4 then .ok 0
  else if size = 1 <<< 5 then .ok 1
  else if size = 1 <<< 6 then .ok 2
  else if size = 1 <<< 7 then .ok 3
  else if size = 1 <<< 8 then .ok 4
  else if size = 1 <<< 9 then .ok 5
  else if size = 1 <<< 10 then .ok 6
  else .err .EINVAL

/-- The contents of a Block1 or Block2 option. -/
structure Block where
  num : Nat
  more : Bool
  size : Nat
  deriving DecidableEq, Repr

/-- `coap_msg_op_parse_block_val`, coap_msg.c:108-135. -/
def parseBlockVal (val : Bytes) (len : Nat) : Out Block :=
  (match len with
   | 1 => do
     let v0 ← rd val 0
     pure (⟨(v0.toNat &&& 0xf0) >>> 4, v0.toNat &&& 0x08 ≠ 0, 1 <<< ((v0.toNat &&& 0x07) + 4)⟩ : Block)
   | 2 => do
     let v1 ← rd val 1
     let v0 ← rd val 0
     pure ⟨(v0.toNat <<< 4) ||| ((v1.toNat &&& 0xf0) >>> 4), v1.toNat &&& 0x08 ≠ 0,
       1 <<< ((v1.toNat &&& 0x07) + 4)⟩
   | _ => do
     let v2 ← rd val 2
     let v0 ← rd val 0
     let v1 ← rd val 1
     pure ⟨(v0.toNat <<< 12) ||| (v1.toNat <<< 4) ||| ((v2.toNat &&& 0xf0) >>> 4),
       v2.toNat &&& 0x08 ≠ 0, 1 <<< ((v2.toNat &&& 0x07) + 4)⟩)
  >>= fun b => if b.size > 1024 then .err .EINVAL else .ok b

/-- `(char)x`. -/
abbrev toByte (x : Nat) : Byte := UInt8.ofNat x

/-- `coap_msg_op_format_block_val`, coap_msg.c:137-183. `val` is assumed to have at
least `len` bytes, as in every caller; the result is the bytes written. `1 <<< 4`
and so on are the bounds of lines 152, 161 and 171. -/
def formatBlockVal (len num : Nat) (more : Bool) (size : Nat) : Out Bytes := do
  let szx ← calcBlockSzx size
  let m := (if more then 1 else 0) <<< 3
  match len with
  | 1 =>
    if num > 1 <<< 4 then .err .EINVAL
    else pure [toByte (num <<< 4) ||| toByte m ||| toByte szx]
  | 2 =>
    if num > 1 <<< 12 then .err .EINVAL
    else pure [toByte (num >>> 4), toByte (num <<< 4) ||| toByte m ||| toByte szx]
  | 3 =>
    if num > 1 <<< 20 then .err .EINVAL
    else pure [toByte (num >>> 12), toByte (num >>> 4), toByte (num <<< 4) ||| toByte m ||| toByte szx]
  | _ => .err .EINVAL

/-- The loop of `coap_msg_op_list_add`, coap_msg.c:330-345: insertion after `prev`,
the head of the list. -/
def opInsertAfter (op : Op) (prev : Op) : List Op → List Op
  | [] => [prev, op]
  | next :: rest =>
    if prev.num ≤ op.num ∧ op.num < next.num then prev :: op :: next :: rest
    else prev :: opInsertAfter op next rest

/-- `coap_msg_op_list_add`, coap_msg.c:306-346. -/
def opListAdd (op : Op) : List Op → List Op
  | [] => [op]
  | first :: rest =>
    if op.num < first.num then op :: first :: rest else opInsertAfter op first rest

/-- `coap_msg_op_list_add_last`, coap_msg.c:270-290. -/
def opListAddLast (op : Op) (l : List Op) : List Op := l ++ [op]

/-- The structure after `coap_msg_destroy`, coap_msg.c:355-363. -/
def destroyed : Msg := ⟨0, 0, 0, 0, 0, [], [], []⟩

/-- `coap_msg_create`, coap_msg.c:348-353; also the result of `coap_msg_reset`,
coap_msg.c:365-369. -/
def create : Msg := { destroyed with ver := 1 }

/-- `coap_msg_check`, coap_msg.c:392-414. -/
def check (m : Msg) : Out Unit :=
  if m.codeClass = 0 ∧ m.codeDetail = 0 then
    if m.type = NON ∨ m.token.length ≠ 0 ∨ m.ops ≠ [] ∨ m.payload.length ≠ 0 then .err .EBADMSG
    else .ok ()
  else
    if m.type = RST then .err .EBADMSG else .ok ()

/-- `coap_msg_check_critical_ops`, coap_msg.c:416-433, from an option on. -/
def checkCriticalOps : List Op → Nat
  | [] => 0
  | op :: rest =>
    if op.num &&& 1 ≠ 0 ∧ isRecognized op.num = false then op.num else checkCriticalOps rest

/-- `coap_msg_check_unsafe_ops`, coap_msg.c:435-452, from an option on. -/
def checkUnsafeOps : List Op → Nat
  | [] => 0
  | op :: rest =>
    if op.num &&& 2 ≠ 0 ∧ isRecognized op.num = false then op.num else checkUnsafeOps rest

/-- `coap_msg_parse_type_msg_id`, coap_msg.c:454-463. The shift of a negative `char`
is followed by a mask and gives the same bits as for an unsigned one. -/
def parseTypeMsgId (mem : Bytes) (len : Nat) : Out (Nat × Nat) :=
  if len < 4 then .err .EBADMSG
  else do
    let b0 ← rd mem 0
    let b2 ← rd mem 2
    let b3 ← rd mem 3
    pure ((b0.toNat >>> 4) &&& 0x03, (b2.toNat <<< 8) ||| b3.toNat)

/-- The header fields of a message being parsed; `tokenLen` is `msg->token_len`. -/
structure Hdr where
  ver : Nat
  type : Nat
  tokenLen : Nat
  codeClass : Nat
  codeDetail : Nat
  msgId : Nat
  deriving DecidableEq, Repr

/-- `coap_msg_parse_hdr`, coap_msg.c:476-508. It parses 4 bytes when it succeeds. -/
def parseHdr (mem : Bytes) (len : Nat) : Out Hdr :=
  if len < 4 then .err .EBADMSG
  else do
    let p0 ← rd mem 0
    let ver := (p0.toNat >>> 6) &&& 0x03
    if ver ≠ 1 then .err .EINVAL
    else do
      let type := (p0.toNat >>> 4) &&& 0x03
      let tokenLen := p0.toNat &&& 0x0f
      if tokenLen > 8 then .err .EBADMSG
      else do
        let p1 ← rd mem 1
        let codeDetail := p1.toNat &&& 0x1f
        let codeClass := (p1.toNat >>> 5) &&& 0x07
        if codeClass ≠ 0 ∧ codeClass ≠ 2 ∧ codeClass ≠ 4 ∧ codeClass ≠ 5 then .err .EBADMSG
        else do
          let p2 ← rd mem 2
          let p3 ← rd mem 3
          pure ⟨ver, type, tokenLen, codeClass, codeDetail, (p2.toNat <<< 8) ||| p3.toNat⟩

/-- `coap_msg_parse_token`, coap_msg.c:521-529. -/
def parseToken (tokenLen : Nat) (mem : Bytes) (len : Nat) : Out Bytes :=
  if len < tokenLen then .err .EBADMSG else rds mem tokenLen

/-- A plain `char` converted to `unsigned` (32 bits), as in coap_msg.c:569 and 589. -/
def charVal (sx : Bool) (b : Byte) : Nat :=
  if sx = true ∧ 128 ≤ b.toNat then 2 ^ 32 - 256 + b.toNat else b.toNat

/-- The extended option delta, coap_msg.c:563-582, and the extended option length,
coap_msg.c:583-602 (the same statements on another variable): the value and the
number of bytes it occupies. -/
def parseExt (sx : Bool) (nib : Nat) (mem : Bytes) (len : Nat) : Out (Nat × Nat) :=
  if nib = 13 then
    if len < 1 then .err .EBADMSG
    else do
      let b ← rd mem 0
      pure ((13 + charVal sx b) % 2 ^ 32, 1)
  else if nib = 14 then
    if len < 2 then .err .EBADMSG
    else do
      let b0 ← rd mem 0
      let b1 ← rd mem 1
      pure (269 + ((b0.toNat <<< 8) ||| b1.toNat), 2)
  else pure (nib, 0)

/-- `coap_msg_parse_op`, coap_msg.c:542-623: the new option and the number of bytes
parsed. `acc` is the option list so far. -/
def parseOp (sx : Bool) (acc : List Op) (mem : Bytes) (len : Nat) : Out (Op × Nat) :=
  if len < 1 then .err .EBADMSG
  else do
    let p0 ← rd mem 0
    let d := (p0.toNat >>> 4) &&& 0x0f
    let l := p0.toNat &&& 0x0f
    if d = 15 ∨ l = 15 then .err .EBADMSG
    else do
      let (delta, n1) ← parseExt sx d (mem.drop 1) (len - 1)
      let (oplen, n2) ← parseExt sx l (mem.drop (1 + n1)) (len - 1 - n1)
      if len - 1 - n1 - n2 < oplen then .err .EBADMSG
      else do
        let num := match acc.getLast? with
          | none => delta
          | some prev => (prev.num + delta) % 2 ^ 32
        let val ← rds (mem.drop (1 + n1 + n2)) oplen
        pure (⟨num, val⟩, 1 + n1 + n2 + oplen)

/-- `coap_msg_parse_ops`, coap_msg.c:636-656: the options and the number of bytes
parsed. `fuel` bounds the number of iterations; `parse` gives it more than the
length, each iteration parses at least one byte, and `ub` is proved unreachable
there, so that the bound is never met. The test of line 643 reads `p[0]` before it
looks at `len`. -/
def parseOps (sx : Bool) : (fuel : Nat) → List Op → Bytes → Nat → Out (List Op × Nat)
  | 0, _, _, _ => .ub
  | fuel + 1, acc, mem, len => do
    let p0 ← rd mem 0
    if p0.toNat &&& 0xff = 0xff ∨ len = 0 then pure (acc, 0)
    else do
      let (op, n) ← parseOp sx acc mem len
      let (ops, k) ← parseOps sx fuel (opListAddLast op acc) (mem.drop n) (len - n)
      pure (ops, n + k)

/-- `coap_msg_parse_payload`, coap_msg.c:692-720. -/
def parsePayload (mem : Bytes) (len : Nat) : Out Bytes :=
  if len = 0 then .ok []
  else do
    let p0 ← rd mem 0
    if p0.toNat &&& 0xff ≠ 0xff then .err .EBADMSG
    else if len - 1 = 0 then .err .EBADMSG
    else rds (mem.drop 1) (len - 1)

/-- `coap_msg_parse`, coap_msg.c:722-759, when memory is available. -/
def parse (sx : Bool) (mem : Bytes) (len : Nat) : Out Msg := do
  let h ← parseHdr mem len
  let token ← parseToken h.tokenLen (mem.drop 4) (len - 4)
  let mem2 := mem.drop (4 + h.tokenLen)
  let len2 := len - 4 - h.tokenLen
  let (ops, n) ← parseOps sx (len2 + 1) [] mem2 len2
  let payload ← parsePayload (mem2.drop n) (len2 - n)
  let m : Msg := ⟨h.ver, h.type, h.codeClass, h.codeDetail, h.msgId, token, ops, payload⟩
  let _ ← check m
  pure m

/-- `coap_msg_parse_block_op`, coap_msg.c:658-679; `none` is the return value 1 (not
found). `type` is `BLOCK1` or `BLOCK2`. -/
def parseBlockOp (type : Nat) : List Op → Out (Option Block)
  | [] => .ok none
  | op :: rest =>
    if (op.num = BLOCK1 ∧ type = BLOCK1) ∨ (op.num = BLOCK2 ∧ type = BLOCK2) then do
      let b ← parseBlockVal op.val op.len
      pure (some b)
    else parseBlockOp type rest

/-- `coap_msg_set_type`, coap_msg.c:761-772. -/
def setType (m : Msg) (type : Nat) : Out Msg :=
  if type ≠ CON ∧ type ≠ NON ∧ type ≠ ACK ∧ type ≠ RST then .err .EINVAL
  else .ok { m with type := type }

/-- `coap_msg_set_code`, coap_msg.c:774-787. -/
def setCode (m : Msg) (codeClass codeDetail : Nat) : Out Msg :=
  if codeClass > 7 then .err .EINVAL
  else if codeDetail > 31 then .err .EINVAL
  else .ok { m with codeClass := codeClass, codeDetail := codeDetail }

/-- `coap_msg_set_msg_id`, coap_msg.c:789-797. -/
def setMsgId (m : Msg) (msgId : Nat) : Out Msg :=
  if msgId > (1 <<< 16) - 1 then .err .EINVAL else .ok { m with msgId := msgId }

/-- `coap_msg_set_token`, coap_msg.c:799-808, with the `len` bytes of `buf`. -/
def setToken (m : Msg) (buf : Bytes) : Out Msg :=
  if buf.length > 8 then .err .EINVAL else .ok { m with token := buf }

/-- `coap_msg_add_op`, coap_msg.c:810-813, when memory is available. -/
def addOp (m : Msg) (num : Nat) (val : Bytes) : Msg := { m with ops := opListAdd ⟨num, val⟩ m.ops }

/-- `coap_msg_set_payload`, coap_msg.c:815-835, when memory is available; with the
empty list it is `coap_msg_clear_payload`, coap_msg.c:837-845. -/
def setPayload (m : Msg) (buf : Bytes) : Msg := { m with payload := buf }

/-- Subtraction on `size_t` (64 bits), which wraps. -/
@[irreducible] def subW (a b : Nat) : Nat := (a + 2 ^ 64 - b) % 2 ^ 64

/-- `htons` followed by `memcpy` of 2 bytes: the low 16 bits, high byte first. -/
def be16 (x : Nat) : Bytes := [toByte (x >>> 8), toByte x]

/-- `coap_msg_format_hdr`, coap_msg.c:858-874. It writes at offset `p` of `buf` and
returns the new contents and 4. -/
def formatHdr (m : Msg) (buf : Bytes) (p len : Nat) : Out (Bytes × Nat) :=
  if len < 4 then .err .ENOSPC
  else do
    let buf ← wrs buf p [toByte ((1 <<< 6) ||| ((m.type &&& 0x03) <<< 4) ||| (m.token.length &&& 0x0f))]
    let buf ← wrs buf (p + 1) [toByte (((m.codeClass &&& 0x07) <<< 5) ||| (m.codeDetail &&& 0x1f))]
    let buf ← wrs buf (p + 2) (be16 m.msgId)
    pure (buf, 4)

/-- `coap_msg_format_token`, coap_msg.c:887-895. -/
def formatToken (m : Msg) (buf : Bytes) (p len : Nat) : Out (Bytes × Nat) :=
  if len < m.token.length then .err .ENOSPC
  else do
    let buf ← wrs buf p m.token
    pure (buf, m.token.length)

/-- The nibble for an option delta, coap_msg.c:947-958, or length, 961-972. -/
def nibble (x : Nat) : Nat := if x ≥ 269 then 14 else if x ≥ 13 then 13 else x

/-- The extended option delta, coap_msg.c:977-989, or length, 992-1004. -/
def extBytes (x : Nat) : Bytes :=
  if x ≥ 269 then be16 (x - 269) else if x ≥ 13 then [toByte (x - 13)] else []

/-- The option delta, coap_msg.c:916, on `unsigned` (32 bits). -/
@[irreducible] def deltaOf (op : Op) (prevNum : Nat) : Nat := (op.num + 2 ^ 32 - prevNum) % 2 ^ 32

/-- The size computed before writing, coap_msg.c:917-940, an `unsigned` (32 bits).
Line 934 tests `op->num`. -/
@[irreducible] def opCheck (op : Op) (delta : Nat) : Nat :=
  (1 + (if delta ≥ 269 then 2 else if delta ≥ 13 then 1 else 0)
    + (if op.len ≥ 269 then 2 else if op.num ≥ 13 then 1 else 0) + op.len) % 2 ^ 32

/-- `coap_msg_format_op`, coap_msg.c:909-1011. -/
def formatOp (op : Op) (prevNum : Nat) (buf : Bytes) (p len : Nat) : Out (Bytes × Nat) :=
  let delta := deltaOf op prevNum
  if opCheck op delta > len then .err .ENOSPC
  else do
    let b0 := toByte (nibble delta <<< 4) ||| toByte (nibble op.len)
    let buf ← wrs buf p [b0]
    let p1 := p + 1
    let buf ← wrs buf p1 (extBytes delta)
    let p2 := p1 + (extBytes delta).length
    let buf ← wrs buf p2 (extBytes op.len)
    let p3 := p2 + (extBytes op.len).length
    let buf ← wrs buf p3 op.val
    pure (buf, p3 + op.len - p)

/-- `coap_msg_format_ops`, coap_msg.c:1024-1045, from an option on. -/
def formatOps : List Op → (prevNum : Nat) → Bytes → (p len : Nat) → Out (Bytes × Nat)
  | [], _, buf, _, _ => pure (buf, 0)
  | op :: rest, prevNum, buf, p, len => do
    let (buf, n) ← formatOp op prevNum buf p len
    let (buf, k) ← formatOps rest op.num buf (p + n) (subW len n)
    pure (buf, n + k)

/-- `coap_msg_format_payload`, coap_msg.c:1058-1071. -/
def formatPayload (m : Msg) (buf : Bytes) (p len : Nat) : Out (Bytes × Nat) :=
  if m.payload.length = 0 then pure (buf, 0)
  else if m.payload.length + 1 > len then .err .ENOSPC
  else do
    let buf ← wrs buf p [0xff]
    let buf ← wrs buf (p + 1) m.payload
    pure (buf, m.payload.length + 1)

/-- `coap_msg_format`, coap_msg.c:1073-1112: the new contents of the buffer and the
value returned. `buf` is the whole object the pointer argument points to. -/
def format (m : Msg) (buf : Bytes) (len : Nat) : Out (Bytes × Nat) := do
  let _ ← check m
  let (buf, n1) ← formatHdr m buf 0 len
  let len := subW len n1
  let (buf, n2) ← formatToken m buf n1 len
  let len := subW len n2
  let (buf, n3) ← formatOps m.ops 0 buf (n1 + n2) len
  let len := subW len n3
  let (buf, n4) ← formatPayload m buf (n1 + n2 + n3) len
  pure (buf, n1 + n2 + n3 + n4)

/-- The loop of `coap_msg_copy`, coap_msg.c:1140-1149. -/
def copyOps (dst : Msg) : List Op → Msg
  | [] => dst
  | op :: rest => copyOps (addOp dst op.num op.val) rest

/-- `coap_msg_copy`, coap_msg.c:1114-1156, when memory is available: the new `dst`. -/
def copy (dst src : Msg) : Out Msg := do
  let dst := { dst with ver := src.ver }
  let dst ← setType dst src.type
  let dst ← setCode dst src.codeClass src.codeDetail
  let dst ← setMsgId dst src.msgId
  let dst ← setToken dst src.token
  let dst := copyOps dst src.ops
  pure (setPayload dst src.payload)

/-- The loop of `coap_msg_uri_path_to_str`, coap_msg.c:1173-1195. The state is the
buffer, the offset `p`, the space left `n` and the count `c`. -/
def uriPathLoop : List Op → Bytes → (p n c : Nat) → Out (Bytes × Nat × Nat)
  | [], buf, p, _, c => pure (buf, p, c)
  | op :: rest, buf, p, n, c =>
    if op.num = URI_PATH then do
      let m1 := if 1 > n then n else 1
      let buf ← wrs buf p (([0x2f] : Bytes).take m1)
      let p1 := p + m1
      let n1 := n - m1
      let m2 := if op.len > n1 then n1 else op.len
      let buf ← wrs buf p1 (op.val.take m2)
      uriPathLoop rest buf (p1 + m2) (n1 - m2) (c + 1 + op.len)
    else uriPathLoop rest buf p n c

/-- `coap_msg_uri_path_to_str`, coap_msg.c:1158-1202: the new contents of the buffer
and the value returned. -/
def uriPathToStr (ops : List Op) (buf : Bytes) (len : Nat) : Out (Bytes × Nat) :=
  if len = 0 then pure (buf, 0)
  else do
    let buf ← wrs buf 0 (List.replicate len 0)
    let (buf, p, c) ← uriPathLoop ops buf 0 (len - 1) 0
    if p = 0 ∧ len > 1 then do
      let buf ← wrs buf p [0x2f]
      pure (buf, 1)
    else pure (buf, c)

end FreeCoAP.Msg
