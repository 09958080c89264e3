import Verif.Server.Model

/-!
# The list of paths with separate responses

`coap_server_add_sep_resp_uri_path` and the list it adds to (coap_server.c:72-205, 2198-2201). Both parts of a list element, the
structure and the string, are buffers of the small pool, which the messages use too. Simplification: a structure is a value; its fields
are in a buffer that nobody else holds (property C01).
-/

namespace FreeCoAP.Server.Sep

open FreeCoAP.Msg

/-- `coap_server_path_t`, coap_server.h:101-108: the address of the structure, the pointer `str` and the contents of the buffer it points to. -/
structure Path where
  node : Nat
  str : Nat
  text : Bytes
  deriving DecidableEq, Repr

/-- The list from `first` to `last` and the small pool. -/
structure State where
  list : List Path
  small : Large
  deriving DecidableEq, Repr

/-- The C string at the beginning of a buffer. -/
def cstr (b : Bytes) : Bytes := b.takeWhile (· ≠ 0)

/-- `strncpy`: copy at most `n` bytes and fill up with zeros. -/
def strncpy (dst src : Bytes) (n : Nat) : Out Bytes := wrs dst 0 (src.take n ++ List.replicate (n - src.length) 0)

/-- `coap_server_path_new`, coap_server.c:83-103. `size` is the size of the structure and `old` are the bytes in the second buffer. With a
pool without room in its buffers the length in lines 99 and 100 would wrap; `ub` stands for that. -/
def pathNew (size : Nat) (old : Bytes) (L : Large) (str : Bytes) : Out (Option Path × Large) :=
  match L.alloc size with
  | (none, L) => .ok (none, L)
  | (some p, L) =>
    match L.alloc (str.length + 1) with
    | (none, L) => .ok (none, L.free p)
    | (some q, L) =>
      if L.pool.len = 0 then .ub
      else
        match strncpy old str (L.pool.len - 1) with
        | .ub => .ub
        | .err e => .err e
        | .ok buf =>
          match wrs buf (L.pool.len - 1) [0] with
          | .ub => .ub
          | .err e => .err e
          | .ok buf => .ok (some ⟨p, q, buf⟩, L)

/-- `coap_server_path_delete`, coap_server.c:109-113. -/
def pathDelete (p : Path) (L : Large) : Large := (L.free p.str).free p.node

/-- `coap_server_path_list_destroy`, coap_server.c:130-143. -/
def destroy : List Path → Large → Large
  | [], L => L
  | p :: ps, L => destroy ps (pathDelete p L)

/-- `coap_server_path_list_add`, coap_server.c:155-175. -/
def add (size : Nat) (old : Bytes) (s : State) (str : Bytes) : Out (Option Err × State) :=
  match pathNew size old s.small str with
  | .ub => .ub
  | .err e => .err e
  | .ok (none, L) => .ok (some .ENOMEM, { s with small := L })
  | .ok (some p, L) => .ok (none, ⟨s.list ++ [p], L⟩)

/-- `coap_server_path_list_match`, coap_server.c:187-203. -/
def pathMatch : List Path → Bytes → Bool
  | [], _ => false
  | p :: ps, str => if cstr p.text = str then true else pathMatch ps str

/-- `coap_server_get_resp_type`, coap_server.c:2220-2228: `true` is a separate response. -/
def respType (s : State) (m : Msg) : Out Bool :=
  match uriStr 256 m.ops with
  | .ub => .ub
  | .err e => .err e
  | .ok path => .ok (pathMatch s.list path)

/-- A call of `coap_server_add_sep_resp_uri_path`, or a call of somebody else on the small pool. -/
inductive Act where
  | add (old str : Bytes)
  | alloc (len : Nat)
  | free (p : Nat)
  deriving DecidableEq, Repr

/-- One call. The result is the status of a registration. -/
def step (size : Nat) (s : State) : Act → Out (Option Err × State)
  | .add old str => add size old s str
  | .alloc len => .ok (none, { s with small := (s.small.alloc len).2 })
  | .free p => .ok (none, { s with small := s.small.free p })

/-- A history of calls. -/
def run (size : Nat) (s : State) : List Act → Out (List (Option Err) × State)
  | [] => .ok ([], s)
  | x :: xs =>
    match step size s x with
    | .ub => .ub
    | .err e => .err e
    | .ok (r, s) =>
      match run size s xs with
      | .ub => .ub
      | .err e => .err e
      | .ok (rs, s) => .ok (r :: rs, s)

/-- `coap_server_path_list_create`, coap_server.c:120-123. -/
def init (pool : Mem.Pool) : State := ⟨[], ⟨pool, []⟩⟩

end FreeCoAP.Server.Sep
