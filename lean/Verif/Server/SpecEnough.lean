import Verif.Server.ModelBuf
import Verif.Msg.HeapSpec

/-! # Specification of the number of buffers that a server needs -/

namespace FreeCoAP.Msg.Heap

open FreeCoAP.Mem (Call)

/-- Neither pool has refused a request so far. -/
def Unrefused (h : Heap) : Prop := (∀ l, (Call.alloc l, none) ∉ h.smallLog) ∧ ∀ l, (Call.alloc l, none) ∉ h.mediumLog

/-- The options at the beginning of `mem`, up to the end, the payload or the first option that is not well formed, and what is left. `acc` are the
options before. -/
def optionsOf (sx : Bool) : Nat → List Op → Bytes → Nat → List Op × Bytes × Nat
  | 0, _, mem, len => ([], mem, len)
  | fuel + 1, acc, mem, len =>
    if mem.head? = some 0xff ∨ len = 0 then ([], mem, len)
    else
      match parseOp sx acc mem len with
      | .ok (op, n) =>
        let r := optionsOf sx fuel (acc ++ [op]) (mem.drop n) (len - n)
        (op :: r.1, r.2)
      | _ => ([], mem, len)

/-- The options in a datagram of `len` bytes, and what is left. The options follow the header of four bytes and the token, whose length is in the
first byte. -/
def optionsIn (sx : Bool) (mem : Bytes) (len : Nat) : List Op × Bytes × Nat :=
  let n := 4 + (match mem.head? with | none => 0 | some b => b.toNat % 16)
  optionsOf sx (len - n + 1) [] (mem.drop n) (len - n)

/-- The datagram has at most `k` options, and neither an option nor the payload (after its marker 0xff) is longer than `l` bytes. -/
structure Few (sx : Bool) (k l : Nat) (mem : Bytes) (len : Nat) : Prop where
  count : (optionsIn sx mem len).1.length ≤ k
  value : ∀ op ∈ (optionsIn sx mem len).1, op.val.length ≤ l
  payload : (optionsIn sx mem len).2.1.head? = some 0xff → (optionsIn sx mem len).2.2 ≤ l + 1

/-- A message with at most `k` options and nothing longer than `l` bytes. -/
structure Fits (k l : Nat) (m : HMsg) : Prop where
  count : m.ops.length ≤ k
  value : ∀ o ∈ m.ops, o.val.length ≤ l
  payload : (plBytes m.payload).length ≤ l

end FreeCoAP.Msg.Heap

namespace FreeCoAP.Server.Buf

open FreeCoAP.Msg.Heap

/-- The number of options of a response after a call; `k` is the largest number of options of a request. -/
def grow (k j : Nat) : Edit → Nat
  | .addOp _ _ => j + 1
  | .reset => 0
  | .copy => j + k
  | _ => j

/-- Nothing in the call is longer than `l` bytes. -/
def short (l : Nat) : Edit → Prop
  | .addOp _ val => val.length ≤ l
  | .setPayload buf => buf.length ≤ l
  | _ => True

/-- While the response is generated it never has more than `k` options, and nothing in it is longer than `l` bytes. -/
def Modest (k l : Nat) : Nat → List Edit → Prop
  | j, [] => j ≤ k
  | j, e :: es => j ≤ k ∧ short l e ∧ Modest k l (grow k j e) es

/-- The request and the response of a turn have at most `k` options, and nothing in them is longer than `l` bytes. -/
structure Small (sx : Bool) (k l : Nat) (t : Turn) : Prop where
  datagram : ∀ mem len, t.arrives = some (mem, len) → len < mem.length ∧ Few sx k l mem len
  response : Modest k l 0 t.edits

/-- All turns of a history are small. -/
def AllSmall (sx : Bool) (k l : Nat) (es : List Event) : Prop := ∀ t, Event.turn t ∈ es → Small sx k l t

end FreeCoAP.Server.Buf
