import Verif.Msg.Model

/-!
# Specification of CoAP messages

The message format of RFC 7252 section 3 as a grammar: a relation between
messages and byte strings, written without reference to the parser or the
formatter (only the structures `Msg` and `Op` are used).
-/

namespace FreeCoAP.Msg

/-- RFC 7252 section 3.1: an option delta or length is a 4 bit value, extended by one
byte (13) or two bytes (14). -/
inductive Ext : (value nibble : Nat) → Bytes → Prop where
  | small (n : Nat) (h : n < 13) : Ext n n []
  | byte (b : UInt8) : Ext (13 + b.toNat) 13 [b]
  | word (hi lo : UInt8) : Ext (269 + 256 * hi.toNat + lo.toNat) 14 [hi, lo]

/-- RFC 7252 section 3.1: a sequence of options, each given by the difference of its
number to that of the previous one. -/
inductive Options : (prev : Nat) → List Op → Bytes → Prop where
  | nil (prev : Nat) : Options prev [] []
  | cons {prev delta dn ln : Nat} {db lb val rest : Bytes} {ops : List Op}
      (hd : Ext delta dn db) (hl : Ext val.length ln lb) (ht : Options (prev + delta) ops rest) :
      Options prev (⟨prev + delta, val⟩ :: ops)
        (UInt8.ofNat (16 * dn + ln) :: (db ++ lb ++ val ++ rest))

/-- RFC 7252 section 3: a nonempty payload is preceded by the marker 0xff; there is
no marker without payload. -/
inductive Payload : Bytes → Bytes → Prop where
  | none : Payload [] []
  | some (p : Bytes) (h : p ≠ []) : Payload p (0xff :: p)

/-- RFC 7252 sections 4.1 - 4.3: an Empty message (code 0.00) has no token, options
or payload and is not non-confirmable; a Reset is Empty. -/
def Shape (m : Msg) : Prop :=
  (m.codeClass = 0 ∧ m.codeDetail = 0 → m.token = [] ∧ m.ops = [] ∧ m.payload = [] ∧ m.type ≠ NON) ∧
  (m.type = RST → m.codeClass = 0 ∧ m.codeDetail = 0)

/-- Field limits, with the code classes that are not reserved. -/
structure Fields (m : Msg) : Prop where
  ver : m.ver = 1
  type : m.type < 4
  cls : m.codeClass = 0 ∨ m.codeClass = 2 ∨ m.codeClass = 4 ∨ m.codeClass = 5
  detail : m.codeDetail < 32
  msgId : m.msgId < 65536
  token : m.token.length ≤ 8

/-- `b` is an encoding of the message `m`. -/
def Encodes (m : Msg) (b : Bytes) : Prop :=
  Fields m ∧ Shape m ∧ ∃ ob pb, Options 0 m.ops ob ∧ Payload m.payload pb ∧
    b = [UInt8.ofNat (64 * 1 + 16 * m.type + m.token.length), UInt8.ofNat (32 * m.codeClass + m.codeDetail),
         UInt8.ofNat (m.msgId / 256), UInt8.ofNat (m.msgId % 256)] ++ m.token ++ ob ++ pb

/-- The options can be encoded: sorted by number, with differences and lengths in the
range of the extended format. -/
def OptsOK : (prev : Nat) → List Op → Prop
  | _, [] => True
  | prev, o :: os => prev ≤ o.num ∧ o.num - prev < 65805 ∧ o.val.length < 65805 ∧ OptsOK o.num os

/-- A message within the limits of the protocol. -/
structure WF (m : Msg) : Prop where
  fields : Fields m
  shape : Shape m
  opts : OptsOK 0 m.ops

/-- Size of an option delta or length extension. -/
def extSize (x : Nat) : Nat := if x < 13 then 0 else if x < 269 then 1 else 2

/-- Encoded size of an option sequence. -/
def optsSize : (prev : Nat) → List Op → Nat
  | _, [] => 0
  | prev, o :: os => 1 + extSize (o.num - prev) + extSize o.val.length + o.val.length + optsSize o.num os

/-- Encoded size of a message. -/
def size (m : Msg) : Nat :=
  4 + m.token.length + optsSize 0 m.ops + (if m.payload = [] then 0 else 1 + m.payload.length)

/-- No option delta or length is in the range that needs an extension byte of 0x80
or more. -/
def NoHighExt : (prev : Nat) → List Op → Prop
  | _, [] => True
  | prev, o :: os => ¬ (141 ≤ o.num - prev ∧ o.num - prev < 269) ∧
      ¬ (141 ≤ o.val.length ∧ o.val.length < 269) ∧ NoHighExt o.num os

/-- No extension byte is misread on this platform: nothing to ask when `char` is
unsigned. -/
def SafeOps (sx : Bool) (prev : Nat) (ops : List Op) : Prop := sx = true → NoHighExt prev ops

/-- No option has a number below 13 and a value of 13 to 268 bytes. -/
def NoUnder (ops : List Op) : Prop := ∀ o ∈ ops, o.num < 13 → o.val.length < 13 ∨ 269 ≤ o.val.length

/-- No option has a number of 13 or more and a value of less than 13 bytes. -/
def NoOver (ops : List Op) : Prop := ∀ o ∈ ops, 13 ≤ o.num → 13 ≤ o.val.length

/-- The options are sorted by number. -/
def Sorted (ops : List Op) : Prop := ops.Pairwise (fun a b => a.num ≤ b.num)

/-- The Uri-Path segments (option number 11), each preceded by '/'. -/
def segments (ops : List Op) : Bytes := (ops.filter (fun o => o.num = 11)).flatMap (fun o => 0x2f :: o.val)

/-- The path of a message as a string: '/' when there is no segment. -/
def pathStr (ops : List Op) : Bytes := if ∃ o ∈ ops, o.num = 11 then segments ops else [0x2f]

/-- RFC 7252 section 3.2: an unsigned integer option value, high byte first. -/
def uintVal (val : Bytes) : Nat := val.foldl (fun a b => 256 * a + b.toNat) 0

/-- RFC 7959 section 2.2: a Block option value is an unsigned integer of 0 to 3
bytes: block number, then the more flag (1 bit), then the size exponent (3 bits, 7
is reserved). -/
def blockSpec (val : Bytes) : Option Block :=
  if uintVal val % 8 = 7 then none
  else some ⟨uintVal val / 16, uintVal val / 8 % 2 = 1, 2 ^ (uintVal val % 8 + 4)⟩

/-- The options of RFC 7252 table 4 and RFC 7959 table 1. -/
def known : List Nat := [1, 3, 4, 5, 7, 8, 11, 12, 14, 15, 17, 20, 23, 27, 28, 35, 39, 60]

/-- RFC 7252 section 5.4.6: an option with an odd number is critical. -/
def Critical (o : Op) : Prop := o.num % 2 = 1

/-- RFC 7252 section 5.4.6: bit 1 of the number says that the option is unsafe to
forward. -/
def Unsafe (o : Op) : Prop := o.num / 2 % 2 = 1

end FreeCoAP.Msg
