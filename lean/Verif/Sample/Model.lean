import Verif.Common

/-!
# Model of the registrar of the sample server `reg_server`

`sample/reg_server/registrar.c`. Strings are the bytes before the terminating NUL. The entries are blocks of memory with addresses, so that a pointer
to memory that was freed can be told from one that is valid: following such a pointer is `ub`.
-/

namespace FreeCoAP.Sample

/-- `registrar_entry_t` (registrar.h 46–53). -/
structure Entry where
  id : Bytes
  addr : Bytes
  prev : Option Nat
  next : Option Nat
  deriving DecidableEq, Repr

/-- The blocks of memory that are allocated, with their addresses. -/
abbrev Heap := List (Nat × Entry)

/-- `registrar_t` (registrar.h 55–60) and the memory. -/
structure Reg where
  first : Option Nat
  last : Option Nat
  heap : Heap
  deriving DecidableEq, Repr

/-- `REGISTRAR_ID_MAX_BUF_LEN` (registrar.h 34). -/
def ID_LEN : Nat := 32

/-- `strncpy` to a buffer of `n` bytes, the last of which is then set to NUL (registrar.c 42–45 and 63–64). -/
def copy (n : Nat) (s : Bytes) : Bytes := s.take (n - 1)

/-- The entry at an address. -/
def look : Heap → Nat → Option Entry
  | [], _ => none
  | (q, e) :: h, p => if q = p then some e else look h p

/-- Read an entry through a pointer. -/
def deref (h : Heap) (p : Nat) : Out Entry :=
  match look h p with
  | some e => .ok e
  | none => .ub

/-- Write an entry through a pointer. -/
def put : Heap → Nat → Entry → Heap
  | [], _, _ => []
  | (q, e) :: h, p, x => if q = p then (q, x) :: h else (q, e) :: put h p x

/-- `free`: the block must be allocated. -/
def free (h : Heap) (p : Nat) : Out Heap :=
  match look h p with
  | some _ => .ok (h.filter (fun b => b.1 ≠ p))
  | none => .ub

/-- `registrar_create` (registrar.c 56–59). -/
def create : Reg := ⟨none, none, []⟩

/-- The loop of `registrar_find` (registrar.c 86–95). A walk that is longer than the number of blocks comes back to an entry and never ends; this
is `ub`, too. -/
def findFrom (h : Heap) (id : Bytes) : Nat → Option Nat → Out (Option Nat)
  | _, none => .ok none
  | 0, some _ => .ub
  | n + 1, some p =>
    deref h p >>= fun e =>
    if e.id = id then .ok (some p) else findFrom h id n e.next

/-- `registrar_find` (registrar.c 82–97). -/
def find (r : Reg) (id : Bytes) : Out (Option Nat) := findFrom r.heap id (r.heap.length + 1) r.first

/-- `registrar_entry_new` (registrar.c 33–49) with the address that `malloc` returns. `L` is the size of the buffer for addresses,
`COAP_IPV_INET_ADDRSTRLEN`. -/
def entryNew (L : Nat) (h : Heap) (p : Nat) (id addr : Bytes) : Heap := h ++ [(p, ⟨copy ID_LEN id, copy L addr, none, none⟩)]

/-- `registrar_entry_set_addr` (registrar.c 61–65). -/
def setAddr (L : Nat) (h : Heap) (p : Nat) (addr : Bytes) : Out Heap :=
  deref h p >>= fun e => .ok (put h p { e with addr := copy L addr })

/-- Append the new entry `p` to the list (registrar.c 114–124). -/
def link (r : Reg) (p : Nat) : Out Reg :=
  if r.first = none ∧ r.last = none then .ok { r with first := some p, last := some p }
  else
    deref r.heap p >>= fun e =>
    let h := put r.heap p { e with prev := r.last }
    match r.last with
    | none => .ub
    | some q => deref h q >>= fun e => .ok { r with heap := put h q { e with next := some p }, last := some p }

/-- `registrar_add` (registrar.c 98–126). `alloc` is `malloc`, given the addresses of the blocks that are allocated. The value returned is 0 for a new
entry and 1 for one that exists. -/
def add (L : Nat) (r : Reg) (id addr : Bytes) (alloc : List Nat → Option Nat) : Out (Except Err Nat × Reg) :=
  find r id >>= fun p =>
  match p with
  | some p => setAddr L r.heap p addr >>= fun h => .ok (.ok 1, { r with heap := h })
  | none =>
    match alloc (r.heap.map Prod.fst) with
    | none => .ok (.error .ENOMEM, r)
    | some p => link { r with heap := entryNew L r.heap p id addr } p >>= fun r => .ok (.ok 0, r)

/-- `registrar_del` (registrar.c 128–143). The neighbours of the entry keep their pointers to it. -/
def del (r : Reg) (id : Bytes) : Out (Except Err Nat × Reg) :=
  find r id >>= fun p =>
  match p with
  | none => .ok (.error .EINVAL, r)
  | some p =>
    deref r.heap p >>= fun e =>
    let first := if r.first = some p then e.next else r.first
    let last := if r.last = some p then e.prev else r.last
    free r.heap p >>= fun h => .ok (.ok 0, ⟨first, last, h⟩)

/-- The loop of `registrar_destroy` (registrar.c 72–78). -/
def destroyFrom : Nat → Heap → Option Nat → Out Heap
  | _, h, none => .ok h
  | 0, _, some _ => .ub
  | n + 1, h, some p => deref h p >>= fun e => free h p >>= fun h => destroyFrom n h e.next

/-- `registrar_destroy` (registrar.c 67–80): the memory that is still allocated. -/
def destroy (r : Reg) : Out Heap := destroyFrom (r.heap.length + 1) r.heap r.first

/-- A call of the registrar. -/
inductive Op where
  | add (id addr : Bytes) (alloc : List Nat → Option Nat)
  | find (id : Bytes)
  | del (id : Bytes)

/-- What the caller sees: the value returned, or the entry that was found. -/
inductive Res where
  | ret (r : Except Err Nat)
  | found (e : Option (Bytes × Bytes))

/-- One call. -/
def step (L : Nat) (r : Reg) : Op → Out (Res × Reg)
  | .add id addr alloc => add L r id addr alloc >>= fun x => .ok (.ret x.1, x.2)
  | .del id => del r id >>= fun x => .ok (.ret x.1, x.2)
  | .find id =>
    find r id >>= fun p =>
    match p with
    | none => .ok (.found none, r)
    | some p => deref r.heap p >>= fun e => .ok (.found (some (e.id, e.addr)), r)

/-- A sequence of calls. -/
def run (L : Nat) : Reg → List Op → Out (List Res × Reg)
  | r, [] => .ok ([], r)
  | r, op :: ops => step L r op >>= fun x => run L x.2 ops >>= fun y => .ok (x.1 :: y.1, y.2)

end FreeCoAP.Sample
