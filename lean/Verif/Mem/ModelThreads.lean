import Verif.Mem.Model

/-!
# Model of the use of a pool by several threads

The proxy has a thread for each connection (proxy/http_coap/src/listener.c:84) and all threads use the same pools. `coap_mem_alloc` and `coap_mem_free` have no
lock. A step of a thread is one access to the bitset or one turn of a loop without an access. The accesses of all threads happen one after the other, in
any order: C gives no meaning to such programs at all, so that this is the most favourable reading.
-/

namespace FreeCoAP.Mem

/-- Where a thread is. `look`: before the read in the test at coap_mem.c:86; `setR` and `setW`: before the read and before the write of coap_mem.c:88, where the
write is of `v` with the bit; `scan`: before the test at coap_mem.c:109; `clrR` and `clrW`: before the read and before the write of coap_mem.c:112. `idle`: in no
call. -/
inductive At where
  | idle
  | look (byte bit : Nat)
  | setR (byte bit : Nat)
  | setW (byte bit : Nat) (v : BitVec 8)
  | scan (p byte bit : Nat)
  | clrR (p byte bit : Nat)
  | clrW (p byte bit : Nat) (v : BitVec 8)
  deriving DecidableEq, Repr

/-- A thread: where it is, and the buffers it has been given and has not yet begun to free. -/
structure Thread where
  pc : At
  held : List Nat

/-- A pool and the threads that use it. -/
structure Shared where
  pool : Pool
  th : Nat → Thread

/-- The thread `t` becomes `x`. -/
def Shared.put (s : Shared) (t : Nat) (x : Thread) : Shared := { s with th := fun u => if u = t then x else s.th u }

/-- The next turn of the loops of `coap_mem_alloc`, coap_mem.c:81-84. -/
def lookNext (byte bit : Nat) : At := if bit + 1 < 8 then .look byte (bit + 1) else .look (byte + 1) 0

/-- The next turn of the loops of `coap_mem_free`, coap_mem.c:104-106. -/
def scanNext (p byte bit : Nat) : At := if bit + 1 < 8 then .scan p byte (bit + 1) else .scan p (byte + 1) 0

/-- A step of the thread `t`. If it is in no call, it begins the call `c`; it frees only buffers that it has. Accesses outside the bitset are undefined. -/
def tstep (s : Shared) (t : Nat) (c : Call) : Out Shared :=
  let x := s.th t
  match x.pc with
  | .idle =>
    match c with
    | .alloc len => .ok (if len > s.pool.len then s else s.put t { x with pc := .look 0 0 })
    | .free p => .ok (if p ∈ x.held then s.put t ⟨.scan p 0 0, x.held.erase p⟩ else s)
  | .look byte bit =>
    if byte < s.pool.activeLen then
      match s.pool.active[byte]? with
      | none => .ub
      | some a => .ok (s.put t { x with pc := if a &&& (1#8 <<< bit) = 0#8 then .setR byte bit else lookNext byte bit })
    else .ok (s.put t { x with pc := .idle })
  | .setR byte bit =>
    match s.pool.active[byte]? with
    | none => .ub
    | some a => .ok (s.put t { x with pc := .setW byte bit a })
  | .setW byte bit v =>
    if byte < s.pool.active.length then
      .ok ({ s with pool := { s.pool with active := s.pool.active.set byte (v ||| (1#8 <<< bit)) } }.put t ⟨.idle, s.pool.slotAddr byte bit :: x.held⟩)
    else .ub
  | .scan p byte bit =>
    if byte < s.pool.activeLen then .ok (s.put t { x with pc := if p = s.pool.slotAddr byte bit then .clrR p byte bit else scanNext p byte bit })
    else .ok (s.put t { x with pc := .idle })
  | .clrR p byte bit =>
    match s.pool.active[byte]? with
    | none => .ub
    | some a => .ok (s.put t { x with pc := .clrW p byte bit a })
  | .clrW p byte bit v =>
    if byte < s.pool.active.length then
      .ok ({ s with pool := { s.pool with active := s.pool.active.set byte (v &&& ~~~(1#8 <<< bit)) } }.put t { x with pc := scanNext p byte bit })
    else .ub

/-- A schedule: which thread makes the next step, and the call that it begins if it is in none. -/
def trun (s : Shared) : List (Nat × Call) → Out Shared
  | [] => .ok s
  | e :: es => tstep s e.1 e.2 >>= fun s => trun s es

/-- The threads at the beginning. -/
def tinit (m : Pool) : Shared := ⟨m, fun _ => ⟨.idle, []⟩⟩

end FreeCoAP.Mem
