import Verif.Msg.Model
import Verif.Mem.Spec

/-!
# Model of `lib/src/coap_msg.c` (memory)

The same functions as in `Verif/Msg/Model.lean`, now with the buffers a message takes
from the small and medium pools of `coap_mem.c` and with allocation failure. The bytes
of an option value or a payload are kept with the owner and not in a memory indexed by
address: `Mem.C01_buffers_exclusive` says that the buffers of a pool do not overlap.

`S` is `sizeof(coap_msg_op_t)`. The reads of a value from the datagram are done by the
functions of `Verif/Msg/Model.lean`; the code does them after the allocation, which
differs only when such a read is undefined.
-/

namespace FreeCoAP.Msg.Heap

open FreeCoAP.Mem (Pool Call)

/-- The small and medium pools, coap_mem.c:123 and 175. The logs of the calls with
their results and `lost` do not exist in the code; they record what happened. -/
structure Heap where
  small : Pool
  medium : Pool
  smallLog : List (Call × Option Nat)
  mediumLog : List (Call × Option Nat)
  lost : List Nat
  deriving DecidableEq, Repr

/-- The state after `coap_mem_all_create`. -/
def Heap.init (small medium : Pool) : Heap := ⟨small, medium, [], [], []⟩

/-- `coap_mem_small_alloc`, coap_mem.c:160-163. -/
def Heap.smallAlloc (h : Heap) (l : Nat) : Option Nat × Heap :=
  ((h.small.alloc l).1,
   { h with small := (h.small.alloc l).2, smallLog := h.smallLog ++ [(.alloc l, (h.small.alloc l).1)] })

/-- `coap_mem_medium_alloc`, coap_mem.c:212-215. -/
def Heap.mediumAlloc (h : Heap) (l : Nat) : Option Nat × Heap :=
  ((h.medium.alloc l).1,
   { h with medium := (h.medium.alloc l).2, mediumLog := h.mediumLog ++ [(.alloc l, (h.medium.alloc l).1)] })

/-- `coap_mem_small_free`, coap_mem.c:165-168. -/
def Heap.smallFree (h : Heap) (p : Nat) : Heap :=
  { h with small := h.small.free p, smallLog := h.smallLog ++ [(.free p, none)] }

/-- `coap_mem_medium_free`, coap_mem.c:217-220. -/
def Heap.mediumFree (h : Heap) (p : Nat) : Heap :=
  { h with medium := h.medium.free p, mediumLog := h.mediumLog ++ [(.free p, none)] }

/-- `coap_msg_op_t`: `addr` is the address of the structure and `valAddr` the pointer
`val`. -/
structure HOp where
  addr : Nat
  valAddr : Nat
  num : Nat
  val : Bytes
  deriving DecidableEq, Repr

/-- `coap_msg_t`; the payload is `none` when the pointer is null. -/
structure HMsg where
  ver : Nat
  type : Nat
  codeClass : Nat
  codeDetail : Nat
  msgId : Nat
  token : Bytes
  ops : List HOp
  payload : Option (Nat × Bytes)
  deriving DecidableEq, Repr

/-- The option without addresses. -/
def HOp.abs (o : HOp) : Op := ⟨o.num, o.val⟩

/-- The address of a payload, if there is one. -/
def plAddr : Option (Nat × Bytes) → List Nat
  | none => []
  | some p => [p.1]

/-- The bytes of a payload. -/
def plBytes : Option (Nat × Bytes) → Bytes
  | none => []
  | some p => p.2

/-- The message without addresses. -/
def HMsg.abs (m : HMsg) : Msg :=
  ⟨m.ver, m.type, m.codeClass, m.codeDetail, m.msgId, m.token, m.ops.map HOp.abs, plBytes m.payload⟩

/-- The buffers of the small pool a message points to. -/
def HMsg.ownSmall (m : HMsg) : List Nat := m.ops.map (·.addr)

/-- The buffers of the medium pool a message points to. -/
def HMsg.ownMedium (m : HMsg) : List Nat :=
  m.ops.map (·.valAddr) ++ plAddr m.payload

/-- `coap_msg_op_new`, coap_msg.c:195-215. When there is no buffer for the value, line
209 gives the structure back to the medium pool and not to the small one. -/
def opNew (S : Nat) (h : Heap) (num : Nat) (val : Bytes) : Option HOp × Heap :=
  match h.smallAlloc S with
  | (none, h1) => (none, h1)
  | (some op, h1) =>
    match h1.mediumAlloc val.length with
    | (none, h2) => (none, { h2.mediumFree op with lost := op :: h2.lost })
    | (some v, h2) => (some ⟨op, v, num, val⟩, h2)

/-- `coap_msg_op_delete`, coap_msg.c:222-226. -/
def opDelete (h : Heap) (op : HOp) : Heap := (h.mediumFree op.valAddr).smallFree op.addr

/-- `coap_msg_op_list_destroy`, coap_msg.c:243-256. -/
def listDestroy : Heap → List HOp → Heap
  | h, [] => h
  | h, op :: rest => listDestroy (opDelete h op) rest

/-- The zeroed structure. -/
def zero : HMsg := ⟨0, 0, 0, 0, 0, [], [], none⟩

/-- `coap_msg_create`, coap_msg.c:348-353. -/
def create : HMsg := { zero with ver := 1 }

/-- `coap_msg_clear_payload`, coap_msg.c:837-845, and the same statements in
coap_msg_destroy (358-361) and coap_msg_set_payload (817-822). -/
def clearPayload (h : Heap) (m : HMsg) : HMsg × Heap :=
  match m.payload with
  | none => (m, h)
  | some p => ({ m with payload := none }, h.mediumFree p.1)

/-- `coap_msg_destroy`, coap_msg.c:355-363. -/
def destroy (h : Heap) (m : HMsg) : HMsg × Heap :=
  (zero, (clearPayload (listDestroy h m.ops) m).2)

/-- `coap_msg_reset`, coap_msg.c:365-369. -/
def reset (h : Heap) (m : HMsg) : HMsg × Heap := (create, (destroy h m).2)

/-- The position at which `coap_msg_op_list_add` inserts, coap_msg.c:330-345. -/
def opInsertAfter (op : HOp) (prev : HOp) : List HOp → List HOp
  | [] => [prev, op]
  | next :: rest =>
    if prev.num ≤ op.num ∧ op.num < next.num then prev :: op :: next :: rest
    else prev :: opInsertAfter op next rest

/-- The insertion of `coap_msg_op_list_add`, coap_msg.c:316-345. -/
def opInsert (op : HOp) : List HOp → List HOp
  | [] => [op]
  | first :: rest =>
    if op.num < first.num then op :: first :: rest else opInsertAfter op first rest

/-- `coap_msg_add_op`, coap_msg.c:810-813 and 306-346. -/
def addOp (S : Nat) (h : Heap) (m : HMsg) (num : Nat) (val : Bytes) : Out Unit × HMsg × Heap :=
  match opNew S h num val with
  | (none, h1) => (.err .ENOMEM, m, h1)
  | (some op, h1) => (.ok (), { m with ops := opInsert op m.ops }, h1)

/-- `coap_msg_set_payload`, coap_msg.c:815-835. -/
def setPayload (h : Heap) (m : HMsg) (buf : Bytes) : Out Unit × HMsg × Heap :=
  let (m1, h1) := clearPayload h m
  if buf.length > 0 then
    match h1.mediumAlloc buf.length with
    | (none, h2) => (.err .ENOMEM, m1, h2)
    | (some p, h2) => (.ok (), { m1 with payload := some (p, buf) }, h2)
  else (.ok (), m1, h1)

/-- `coap_msg_parse_ops`, coap_msg.c:636-656, with coap_msg_op_list_add_last (270-290):
the status, the option list and the pools. -/
def parseOps (S : Nat) (sx : Bool) : (fuel : Nat) → List HOp → Bytes → Nat → Heap →
    Out Nat × List HOp × Heap
  | 0, acc, _, _, h => (.ub, acc, h)
  | fuel + 1, acc, mem, len, h =>
    match rd mem 0 with
    | .ub => (.ub, acc, h)
    | .err e => (.err e, acc, h)
    | .ok p0 =>
      if p0.toNat &&& 0xff = 0xff ∨ len = 0 then (.ok 0, acc, h)
      else
        match parseOp sx (acc.map HOp.abs) mem len with
        | .ub => (.ub, acc, h)
        | .err e => (.err e, acc, h)
        | .ok (op, n) =>
          match opNew S h op.num op.val with
          | (none, h1) => (.err .ENOMEM, acc, h1)
          | (some o, h1) =>
            match parseOps S sx fuel (acc ++ [o]) (mem.drop n) (len - n) h1 with
            | (.ok k, ops, h2) => (.ok (n + k), ops, h2)
            | (.err e, ops, h2) => (.err e, ops, h2)
            | (.ub, ops, h2) => (.ub, ops, h2)

/-- `coap_msg_parse_payload`, coap_msg.c:692-720. -/
def parsePayload (mem : Bytes) (len : Nat) (h : Heap) : Out (Option (Nat × Bytes)) × Heap :=
  match Msg.parsePayload mem len with
  | .ub => (.ub, h)
  | .err e => (.err e, h)
  | .ok pl =>
    if len = 0 then (.ok none, h)
    else
      match h.mediumAlloc (len - 1) with
      | (none, h1) => (.err .ENOMEM, h1)
      | (some p, h1) => (.ok (some (p, pl)), h1)

/-- `coap_msg_parse`, coap_msg.c:722-759. A failure in a section destroys the message;
a failure of the final check does not. -/
def parse (S : Nat) (sx : Bool) (h : Heap) (m : HMsg) (mem : Bytes) (len : Nat) : Out Unit × HMsg × Heap :=
  let (m0, h0) := reset h m
  match parseHdr mem len with
  | .ub => (.ub, m0, h0)
  | .err e => (.err e, destroy h0 m0)
  | .ok hd =>
    match parseToken hd.tokenLen (mem.drop 4) (len - 4) with
    | .ub => (.ub, m0, h0)
    | .err e => (.err e, destroy h0 m0)
    | .ok token =>
      let mem2 := mem.drop (4 + hd.tokenLen)
      let len2 := len - 4 - hd.tokenLen
      let m1 : HMsg := ⟨hd.ver, hd.type, hd.codeClass, hd.codeDetail, hd.msgId, token, [], none⟩
      match parseOps S sx (len2 + 1) [] mem2 len2 h0 with
      | (.ub, ops, h1) => (.ub, { m1 with ops := ops }, h1)
      | (.err e, ops, h1) => (.err e, destroy h1 { m1 with ops := ops })
      | (.ok n, ops, h1) =>
        match parsePayload (mem2.drop n) (len2 - n) h1 with
        | (.ub, h2) => (.ub, { m1 with ops := ops }, h2)
        | (.err e, h2) => (.err e, destroy h2 { m1 with ops := ops })
        | (.ok pl, h2) =>
          let m2 := { m1 with ops := ops, payload := pl }
          (check m2.abs, m2, h2)

/-- The loop of `coap_msg_copy`, coap_msg.c:1140-1149. -/
def copyOps (S : Nat) (h : Heap) (dst : HMsg) : List HOp → Out Unit × HMsg × Heap
  | [] => (.ok (), dst, h)
  | op :: rest =>
    match addOp S h dst op.num op.val with
    | (.ok _, d, h1) => copyOps S h1 d rest
    | (.err e, d, h1) => (.err e, d, h1)
    | (.ub, d, h1) => (.ub, d, h1)

/-- `coap_msg_copy`, coap_msg.c:1114-1156, between different messages. A scalar field of
`src` outside the limits makes a setter fail before any allocation. -/
def copy (S : Nat) (h : Heap) (dst src : HMsg) : Out Unit × HMsg × Heap :=
  if src.type > 3 then (.err .EINVAL, { dst with ver := src.ver }, h)
  else if src.codeClass > 7 ∨ src.codeDetail > 31 then
    (.err .EINVAL, { dst with ver := src.ver, type := src.type }, h)
  else if src.msgId > 65535 then
    (.err .EINVAL, { dst with ver := src.ver, type := src.type, codeClass := src.codeClass,
                              codeDetail := src.codeDetail }, h)
  else
    let d1 := { dst with ver := src.ver, type := src.type, codeClass := src.codeClass,
                         codeDetail := src.codeDetail, msgId := src.msgId }
    if src.token.length > 8 then (.err .EINVAL, d1, h)
    else
      match copyOps S h { d1 with token := src.token } src.ops with
      | (.ok _, d2, h1) => setPayload h1 d2 (plBytes src.payload)
      | (.err e, d2, h1) => (.err e, d2, h1)
      | (.ub, d2, h1) => (.ub, d2, h1)

/-! ## Histories -/

/-- A call on one of the messages of a program; messages are numbered in the order of
their creation. `setFields` stands for the calls of the setters coap_msg.c:761-808, which
use no buffers. -/
inductive Cmd where
  | create
  | destroy (i : Nat)
  | reset (i : Nat)
  | parse (i : Nat) (mem : Bytes) (len : Nat)
  | addOp (i num : Nat) (val : Bytes)
  | setPayload (i : Nat) (buf : Bytes)
  | clearPayload (i : Nat)
  | setFields (i type codeClass codeDetail msgId : Nat) (token : Bytes)
  | copy (dst src : Nat)

/-- The pools and the messages of a program. -/
structure Prog where
  heap : Heap
  msgs : List HMsg

/-- Replace message `i`. -/
def put (msgs : List HMsg) (i : Nat) (r : HMsg × Heap) : Prog := ⟨r.2, msgs.set i r.1⟩

/-- One call. Calls on messages that do not exist, and a copy of a message onto
itself, do nothing. -/
def step (S : Nat) (sx : Bool) (p : Prog) : Cmd → Prog
  | .create => { p with msgs := p.msgs ++ [create] }
  | .destroy i => match p.msgs[i]? with
    | none => p
    | some m => put p.msgs i (destroy p.heap m)
  | .reset i => match p.msgs[i]? with
    | none => p
    | some m => put p.msgs i (reset p.heap m)
  | .parse i mem len => match p.msgs[i]? with
    | none => p
    | some m => put p.msgs i (parse S sx p.heap m mem len).2
  | .addOp i num val => match p.msgs[i]? with
    | none => p
    | some m => put p.msgs i (addOp S p.heap m num val).2
  | .setPayload i buf => match p.msgs[i]? with
    | none => p
    | some m => put p.msgs i (setPayload p.heap m buf).2
  | .clearPayload i => match p.msgs[i]? with
    | none => p
    | some m => put p.msgs i (clearPayload p.heap m)
  | .setFields i t cc cd mi tk => match p.msgs[i]? with
    | none => p
    | some m => put p.msgs i ({ m with type := t, codeClass := cc, codeDetail := cd, msgId := mi, token := tk }, p.heap)
  | .copy d s => match p.msgs[d]?, p.msgs[s]? with
    | some dst, some src => if d = s then p else put p.msgs d (copy S p.heap dst src).2
    | _, _ => p

/-- A history of calls. -/
def run (S : Nat) (sx : Bool) (p : Prog) (cs : List Cmd) : Prog := cs.foldl (step S sx) p

end FreeCoAP.Msg.Heap
