import Verif.Common

/-!
# Model of `lib/src/coap_mem.c`

A pool of `num` buffers of `len` bytes with a bitset of the buffers in use.
Addresses are natural numbers and 0 is the null pointer.
-/

namespace FreeCoAP.Mem

/-- `coap_mem_t`, lib/include/coap_mem.h:48-55 (`buf`, `num`, `len`, `active`).
`activePtr` is the address in the pointer `active`, and `active` the bytes it
points to. -/
structure Pool where
  buf : Nat
  num : Nat
  len : Nat
  activePtr : Nat
  active : List (BitVec 8)
  deriving DecidableEq, Repr

/-- The all-zero `coap_mem_t`, coap_mem.c:41, 57, 67 and 123. -/
def Pool.zero : Pool := ⟨0, 0, 0, 0, []⟩

/-- `coap_mem_get_active_len`, coap_mem.h:43. -/
def Pool.activeLen (m : Pool) : Nat := m.num >>> 3

/-- `&mem->buf[(8 * byte + bit) * mem->len]`, coap_mem.c:89 and 108. -/
def Pool.slotAddr (m : Pool) (byte bit : Nat) : Nat := m.buf + (8 * byte + bit) * m.len

/-- The inner loop of `coap_mem_alloc`, coap_mem.c:83-92: the first clear bit of
one byte at or after position `bit`; `fuel` is the number of bits left. -/
def findBit (a : BitVec 8) : (bit fuel : Nat) → Option Nat
  | _, 0 => none
  | bit, fuel + 1 =>
    if a &&& (1#8 <<< bit) = 0#8 then some bit else findBit a (bit + 1) fuel

/-- The outer loop of `coap_mem_alloc`, coap_mem.c:81-93: position of the first
clear bit and the bitset with that bit set (coap_mem.c:88). `byte` is the index of
the head of the list. -/
def findByte : (active : List (BitVec 8)) → (byte : Nat) → Option ((Nat × Nat) × List (BitVec 8))
  | [], _ => none
  | a :: as, byte =>
    match findBit a 0 8 with
    | some bit => some ((byte, bit), (a ||| (1#8 <<< bit)) :: as)
    | none =>
      match findByte as (byte + 1) with
      | some (pos, as') => some (pos, a :: as')
      | none => none

/-- `coap_mem_alloc`, coap_mem.c:70-95. `none` is the null pointer. -/
def Pool.alloc (m : Pool) (len : Nat) : Option Nat × Pool :=
  if len > m.len then (none, m)
  else
    match findByte m.active 0 with
    | some ((byte, bit), active') => (some (m.slotAddr byte bit), { m with active := active' })
    | none => (none, m)

/-- The inner loop of `coap_mem_free`, coap_mem.c:106-114, over the bits of one
byte from position `bit` on; `fuel` is the number of bits left. -/
def freeBits (m : Pool) (p : Nat) (byte : Nat) : (bit fuel : Nat) → BitVec 8 → BitVec 8
  | _, 0, a => a
  | bit, fuel + 1, a =>
    freeBits m p byte (bit + 1) fuel
      (if p = m.slotAddr byte bit then a &&& ~~~(1#8 <<< bit) else a)

/-- The outer loop of `coap_mem_free`, coap_mem.c:104-115. -/
def freeBytes (m : Pool) (p : Nat) : (active : List (BitVec 8)) → (byte : Nat) → List (BitVec 8)
  | [], _ => []
  | a :: as, byte => freeBits m p byte 0 8 a :: freeBytes m p as (byte + 1)

/-- `coap_mem_free`, coap_mem.c:97-116. -/
def Pool.free (m : Pool) (p : Nat) : Pool := { m with active := freeBytes m p m.active 0 }

/-- The blocks obtained from the system allocator and not yet returned: address
and size. -/
abbrev Sys := List (Nat × Nat)

/-- `free` of the C library on a block address (no effect on the null pointer). -/
def sysFree (s : Sys) (p : Nat) : Sys := s.filter (fun b => b.1 ≠ p)

/-- `coap_mem_create`, coap_mem.c:39-61. `W` is the number of values of `size_t`;
the product `num * len` is taken modulo `W` (line 46). `r1` and `r2` are what
`malloc` (line 46) and `calloc` (line 53) return, `none` being the null pointer. -/
def create (W : Nat) (s : Sys) (r1 r2 : Option Nat) (num len : Nat) :
    (Except Err Pool) × Sys :=
  if num &&& 7 ≠ 0 ∨ len = 0 then (.error .EINVAL, s)
  else
    match r1 with
    | none => (.error .ENOMEM, s)
    | some buf =>
      let s1 := (buf, (num * len) % W) :: s
      match r2 with
      | none => (.error .ENOMEM, sysFree s1 buf)
      | some act =>
        (.ok ⟨buf, num, len, act, List.replicate (num >>> 3) 0#8⟩, (act, num >>> 3) :: s1)

/-- `coap_mem_destroy`, coap_mem.c:63-68. -/
def destroy (s : Sys) (m : Pool) : Pool × Sys :=
  (Pool.zero, sysFree (sysFree s m.activePtr) m.buf)

/-- The three static pools, coap_mem.c:123, 175 and 227. -/
structure Pools where
  small : Pool
  medium : Pool
  large : Pool
  deriving DecidableEq, Repr

/-- What the system allocator returns to the two calls of one `coap_mem_create`. -/
abbrev SysRes := Option Nat × Option Nat

/-- `coap_mem_all_create`, coap_mem.c:274-299. -/
def allCreate (W : Nat) (s : Sys) (rs rm rl : SysRes)
    (smallNum smallLen mediumNum mediumLen largeNum largeLen : Nat) :
    (Except Err Pools) × Sys :=
  match create W s rs.1 rs.2 smallNum smallLen with
  | (.error e, s1) => (.error e, s1)
  | (.ok small, s1) =>
    match create W s1 rm.1 rm.2 mediumNum mediumLen with
    | (.error e, s2) => (.error e, (destroy s2 small).2)
    | (.ok medium, s2) =>
      match create W s2 rl.1 rl.2 largeNum largeLen with
      | (.error e, s3) => (.error e, (destroy (destroy s3 medium).2 small).2)
      | (.ok large, s3) => (.ok ⟨small, medium, large⟩, s3)

/-- `coap_mem_all_destroy`, coap_mem.c:301-306. -/
def allDestroy (s : Sys) (p : Pools) : Sys :=
  (destroy (destroy (destroy s p.large).2 p.medium).2 p.small).2

/-- One call on a pool by the rest of the program. -/
inductive Call where
  | alloc (len : Nat)
  | free (p : Nat)
  deriving DecidableEq, Repr

/-- Effect and returned pointer of one call. -/
def step (m : Pool) : Call → Option Nat × Pool
  | .alloc len => m.alloc len
  | .free p => (none, m.free p)

/-- A history of calls: the observable trace (call and returned pointer) and the
final state. -/
def run (m : Pool) : List Call → List (Call × Option Nat) × Pool
  | [] => ([], m)
  | c :: cs =>
    let (r, m1) := step m c
    let (t, m2) := run m1 cs
    ((c, r) :: t, m2)

end FreeCoAP.Mem
