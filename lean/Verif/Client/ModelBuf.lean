import Verif.Msg.Heap

/-!
# The buffers that the messages of the client use

`coap_client_exchange_blockwise` and its two parts (coap_client.c:1652-2028) with the small and medium pools. Every call of the message functions
that can take or return a buffer is made on the pools. Simplification: the values of the options, the number of blocks and the results of calls
that use no message buffer are decided by the environment (`Round`). The empty messages that the client sends have no options and no payload;
they use no buffers and are left out.
-/

namespace FreeCoAP.Client.Buf

open FreeCoAP.Msg.Heap

/-- What the environment decides for one block. -/
structure Round where
  /-- the value of the first option can be formatted -/
  format : Bool
  val : Bytes
  /-- the last block of the request: the Block2 option is added -/
  last : Bool
  format2 : Bool
  val2 : Bytes
  payload : Bytes
  /-- the datagrams that the exchange receives, and its error -/
  datagrams : List (Bytes × Nat)
  failed : Option Err
  /-- the status with which the function returns after the exchange, or it goes on -/
  done : Option (Option Err)

/-- When a function returns: its status, what the local variables `msg` hold then, the response and the pools. -/
structure Ret where
  status : Option Err
  left : List HMsg
  resp : HMsg
  heap : Heap

/-- `coap_client_exchange` (coap_client.c:1572-1629): each datagram is parsed into the response (947). -/
def exchange (S : Nat) (sx : Bool) (h : Heap) (resp : HMsg) : List (Bytes × Nat) → Out (HMsg × Heap)
  | [] => .ok (resp, h)
  | (mem, len) :: ds =>
    match parse S sx h resp mem len with
    | (.ub, _, _) => .ub
    | (_, resp, h) => exchange S sx h resp ds

/-- The end of the loop: after the exchange `msg` is destroyed and the function returns, or both messages are reset
(coap_client.c:1744-1797 and 1881-1960). The next state of the loop is the response and the pools; `msg` has been reset. -/
def finish (S : Nat) (sx : Bool) (h : Heap) (msg resp : HMsg) (r : Round) : Out (Ret ⊕ HMsg × Heap) :=
  match r.done with
  | some st => .ok (.inl ⟨st, [(destroy h msg).1], resp, (destroy h msg).2⟩)
  | none =>
    let h := (reset h msg).2
    .ok (.inr (reset h resp))

/-- The exchange of a block and the end of the loop. -/
def trade (S : Nat) (sx : Bool) (h : Heap) (msg resp : HMsg) (r : Round) : Out (Ret ⊕ HMsg × Heap) :=
  match exchange S sx h resp r.datagrams with
  | .ub => .ub
  | .err e => .err e
  | .ok (resp, h) =>
    match r.failed with
    | some e => .ok (.inl ⟨some e, [(destroy h msg).1], resp, (destroy h msg).2⟩)
    | none => finish S sx h msg resp r

/-- Return after `coap_msg_destroy(&msg)`. -/
def leave (e : Err) (h : Heap) (msg resp : HMsg) : Out (Ret ⊕ HMsg × Heap) :=
  .ok (.inl ⟨some e, [(destroy h msg).1], resp, (destroy h msg).2⟩)

/-- `coap_msg_set_payload` and what follows, coap_client.c:1736-1797. -/
def withPayload (S : Nat) (sx : Bool) (h : Heap) (msg resp : HMsg) (r : Round) : Out (Ret ⊕ HMsg × Heap) :=
  match setPayload h msg r.payload with
  | (.ub, _, _) => .ub
  | (.err e, msg, h) => leave e h msg resp
  | (.ok _, msg, h) => trade S sx h msg resp r

/-- One block of `coap_client_exchange_blockwise1`, coap_client.c:1686-1797. When the request cannot be copied the function returns without
destroying `msg` (1690-1694). `msg` is new or has been reset. -/
def round1 (S : Nat) (sx : Bool) (h : Heap) (req resp : HMsg) (r : Round) : Out (Ret ⊕ HMsg × Heap) :=
  match copy S h create req with
  | (.ub, _, _) => .ub
  | (.err e, msg, h) => .ok (.inl ⟨some e, [msg], resp, h⟩)
  | (.ok _, msg, h) =>
    if r.format = false then leave .EINVAL h msg resp
    else
      match addOp S h msg 27 r.val with
      | (.ub, _, _) => .ub
      | (.err e, msg, h) => leave e h msg resp
      | (.ok _, msg, h) =>
        if r.last then
          if r.format2 = false then leave .EINVAL h msg resp
          else
            match addOp S h msg 23 r.val2 with
            | (.ub, _, _) => .ub
            | (.err e, msg, h) => leave e h msg resp
            | (.ok _, msg, h) => withPayload S sx h msg resp r
        else withPayload S sx h msg resp r

/-- One block of `coap_client_exchange_blockwise2`, coap_client.c:1845-1961; `have_` tells that the response is there already. -/
def round2 (S : Nat) (sx : Bool) (h : Heap) (req resp : HMsg) (have_ : Bool) (r : Round) : Out (Ret ⊕ HMsg × Heap) :=
  if have_ then finish S sx h create resp r
  else
    match copy S h create req with
    | (.ub, _, _) => .ub
    | (.err e, msg, h) => .ok (.inl ⟨some e, [msg], resp, h⟩)
    | (.ok _, msg, h) =>
      if r.format = false then leave .EINVAL h msg resp
      else
        match addOp S h msg 23 r.val with
        | (.ub, _, _) => .ub
        | (.err e, msg, h) => leave e h msg resp
        | (.ok _, msg, h) => trade S sx h msg resp r

/-- The loop of `coap_client_exchange_blockwise1`. `none`: it is still running after these blocks. -/
def blockwise1 (S : Nat) (sx : Bool) (h : Heap) (req resp : HMsg) : List Round → Out (Option Ret)
  | [] => .ok none
  | r :: rs =>
    match round1 S sx h req resp r with
    | .ub => .ub
    | .err e => .err e
    | .ok (.inl x) => .ok (some x)
    | .ok (.inr (resp, h)) => blockwise1 S sx h req resp rs

/-- The loop of `coap_client_exchange_blockwise2`. -/
def blockwise2 (S : Nat) (sx : Bool) (h : Heap) (req resp : HMsg) (have_ : Bool) : List Round → Out (Option Ret)
  | [] => .ok none
  | r :: rs =>
    match round2 S sx h req resp have_ r with
    | .ub => .ub
    | .err e => .err e
    | .ok (.inl x) => .ok (some x)
    | .ok (.inr (resp, h)) => blockwise2 S sx h req resp false rs

/-- `coap_client_exchange_blockwise`, coap_client.c:1966-2028: `get` for a GET request; otherwise the body is sent first, and `more` tells
whether there is a body in the response. -/
def blockwise (S : Nat) (sx : Bool) (h : Heap) (req resp : HMsg) (get have_ more : Bool) (rs1 rs2 : List Round) : Out (Option Ret) :=
  if get then blockwise2 S sx h req resp have_ rs2
  else
    match blockwise1 S sx h req resp rs1 with
    | .ub => .ub
    | .err e => .err e
    | .ok none => .ok none
    | .ok (some x) => if x.status = none ∧ more = true then
        (match blockwise2 S sx x.heap req x.resp true rs2 with
          | .ok (some y) => .ok (some { y with left := x.left ++ y.left })
          | r => r)
      else .ok (some x)

end FreeCoAP.Client.Buf
