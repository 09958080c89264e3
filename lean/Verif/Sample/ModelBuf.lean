import Verif.Client.ModelBuf

/-!
# What the sample clients take and give back

The functions `reg_client_register` (sample/reg_client/reg_client.c:123-236), `time_client_get_time` (sample/time_client/time_client.c:122-206)
and `transfer_client_execute` (sample/transfer_client/transfer_client.c:180-249) with the small and medium pools of message buffers, and the
file and the memory that the last one uses. Simplification: which datagrams arrive, which error an exchange ends with and which check of the
response fails is decided by the environment; so is the result of every call of the standard library.
-/

namespace FreeCoAP.Sample.Buf

open FreeCoAP.Msg.Heap (Heap HMsg addOp setPayload destroy)

/-- What is done with the file and with the memory for its content. -/
inductive Ev where
  | opened
  | closed
  | taken
  | freed
  deriving DecidableEq, Repr

/-- When a function returns: its status (`none`: no error), what its local messages hold then, the pools, and what was done with the file. -/
structure Ret where
  status : Option Err
  left : List HMsg
  heap : Heap
  files : List Ev

/-- What the environment decides for a single exchange: the datagrams that the client parses, the error of the exchange and the error of the
checks that the sample makes on the response. -/
structure Talk where
  datagrams : List (Bytes × Nat)
  failed : Option Err
  refused : Option Err

/-- Consecutive calls `coap_msg_add_op(&req, COAP_MSG_URI_PATH, …)`, stopping at the first error: reg_client.c:138-151, time_client.c:136-142,
transfer_client.c:203-218. -/
def addPath (S : Nat) (h : Heap) (m : HMsg) : List Bytes → Out Unit × HMsg × Heap
  | [] => (.ok (), m, h)
  | v :: vs =>
    match addOp S h m 11 v with
    | (.ok _, m, h) => addPath S h m vs
    | r => r

/-- `coap_msg_destroy(&req); return ret`. -/
def drop (e : Err) (h : Heap) (req : HMsg) (ev : List Ev) : Ret := ⟨some e, [(destroy h req).1], (destroy h req).2, ev⟩

/-- `coap_msg_destroy(&resp); coap_msg_destroy(&req); return ret`. -/
def dropBoth (st : Option Err) (h : Heap) (req resp : HMsg) (ev : List Ev) : Ret :=
  ⟨st, [(destroy h resp).1, (destroy (destroy h resp).2 req).1], (destroy (destroy h resp).2 req).2, ev⟩

/-- The exchange and the checks of the response, reg_client.c:161-235 and time_client.c:145-205: every return is preceded by the destruction of
both messages. -/
def converse (S : Nat) (sx : Bool) (h : Heap) (req : HMsg) (t : Talk) : Out Ret :=
  match Client.Buf.exchange S sx h Msg.Heap.create t.datagrams with
  | .ub => .ub
  | .err e => .err e
  | .ok (resp, h) =>
    match t.failed with
    | some e => .ok (dropBoth (some e) h req resp [])
    | none => .ok (dropBoth t.refused h req resp [])

/-- "client" -/
def CLIENT : Bytes := [99, 108, 105, 101, 110, 116]
/-- "id" -/
def ID : Bytes := [105, 100]
/-- "time" -/
def TIME : Bytes := [116, 105, 109, 101]
/-- "transfer" -/
def TRANSFER : Bytes := [116, 114, 97, 110, 115, 102, 101, 114]

/-- `reg_client_register`, reg_client.c:123-236; `buf` is the identifier. -/
def register (S : Nat) (sx : Bool) (h : Heap) (buf : Bytes) (t : Talk) : Out Ret :=
  match addPath S h Msg.Heap.create [CLIENT, ID] with
  | (.ub, _, _) => .ub
  | (.err e, req, h) => .ok (drop e h req [])
  | (.ok _, req, h) =>
    match setPayload h req buf with
    | (.ub, _, _) => .ub
    | (.err e, req, h) => .ok (drop e h req [])
    | (.ok _, req, h) => converse S sx h req t

/-- `time_client_get_time`, time_client.c:122-206. -/
def getTime (S : Nat) (sx : Bool) (h : Heap) (t : Talk) : Out Ret :=
  match addPath S h Msg.Heap.create [TIME] with
  | (.ub, _, _) => .ub
  | (.err e, req, h) => .ok (drop e h req [])
  | (.ok _, req, h) => converse S sx h req t

/-- The results of the calls of `load_file`: an error of `fopen`, `fseek`, `ftell`, `fseek`; for `malloc` either memory (`none`) or no memory
with the value of `errno` (`some none`: `errno` is 0, as `malloc(0)` may leave it); `fread` read less than asked. -/
structure Load where
  fopen : Option Err
  seekEnd : Option Err
  tell : Option Err
  seekSet : Option Err
  malloc : Option (Option Err)
  short : Bool

/-- `load_file`, transfer_client.c:130-178: its status, whether `*buf` points to memory, and what was done. -/
def load (l : Load) : Option Err × Bool × List Ev :=
  match l.fopen with
  | some e => (some e, false, [])
  | none =>
    match l.seekEnd with
    | some e => (some e, false, [.opened, .closed])
    | none =>
      match l.tell with
      | some e => (some e, false, [.opened, .closed])
      | none =>
        match l.seekSet with
        | some e => (some e, false, [.opened, .closed])
        | none =>
          match l.malloc with
          | some e => (e, false, [.opened, .closed])
          | none =>
            if l.short then (some .EIO, false, [.opened, .taken, .freed, .closed])
            else (none, true, [.opened, .taken, .closed])

/-- `free(file_buf)`; freeing a null pointer does nothing. -/
def release (b : Bool) : List Ev := if b then [.freed] else []

/-- `transfer_client_execute`, transfer_client.c:180-249. `more`, `rs1`, `rs2` are what the environment decides in
`coap_client_exchange_blockwise`; `none`: the exchange is still running. The status is that of the exchange: the function itself returns 0 after
a failed exchange (property C93). When the exchange succeeds the messages are not destroyed (244-248). -/
def transfer (S : Nat) (sx : Bool) (h : Heap) (l : Load) (more : Bool) (rs1 rs2 : List Client.Buf.Round) : Out (Option Ret) :=
  match load l with
  | (some e, _, ev) => .ok (some ⟨some e, [], h, ev⟩)
  | (none, b, ev) =>
    match addPath S h Msg.Heap.create [CLIENT, TRANSFER] with
    | (.ub, _, _) => .ub
    | (.err e, req, h) => .ok (some (drop e h req (ev ++ release b)))
    | (.ok _, req, h) =>
      match Client.Buf.blockwise S sx h req Msg.Heap.create false false more rs1 rs2 with
      | .ub => .ub
      | .err e => .err e
      | .ok none => .ok none
      | .ok (some x) =>
        match x.status with
        | some e =>
          let r := dropBoth (some e) x.heap req x.resp (ev ++ release b)
          .ok (some { r with left := x.left ++ r.left })
        | none => .ok (some ⟨none, x.left ++ [x.resp, req], x.heap, ev ++ release b⟩)

end FreeCoAP.Sample.Buf
