import Verif.DataBuf.Model
import Verif.Text

/-!
# Model of the caches of TLS sessions

`proxy/common/src/tls.c` without the calls of GnuTLS, and `util_strncpy` of `proxy/common/src/util.c`. A lock makes each call atomic, so that the
calls of several threads are a sequence; `lg` and `lp` tell whether the lock can be got and put back. The error codes of the socket module
become `EINVAL` (`SOCK_ARG_ERROR`, `SOCK_TLS_CACHE_ERROR`), `ENOMEM` and `EIO` (`SOCK_LOCK_ERROR`).
`A` is `SOCK_INET_ADDRSTRLEN` (sock.h 83 and 97).
-/

namespace FreeCoAP.Tls

open FreeCoAP.DataBuf (copyTo slice)

/-- `TLS_SERVER_MAX_SESSION_ID_SIZE` (tls.h 46). -/
def ID : Nat := 32
/-- `TLS_SERVER_MAX_SESSION_DATA_SIZE` and `TLS_CLIENT_MAX_SESSION_DATA_SIZE` (tls.h 47 and 42). -/
def DATA : Nat := 2048
/-- `TLS_SERVER_CACHE_SIZE` and `TLS_CLIENT_CACHE_SIZE` (tls.h 48 and 43). -/
def CACHE : Nat := 50

/-! ## The cache of the server -/

/-- `tls_server_cache_element_t` (tls.h 81–88). The arrays have their full lengths. -/
structure Elem where
  id : Bytes
  data : Bytes
  idSize : Nat
  dataSize : Nat
  deriving DecidableEq

/-- An element of zeros. -/
def Elem.zero : Elem := ⟨List.replicate ID 0, List.replicate DATA 0, 0, 0⟩

/-- `tls_server_cache_t` (tls.h 90–96); `size` is the number of elements. -/
structure Cache where
  elems : List Elem
  index : Nat
  deriving DecidableEq

/-- `tls_server_cache_create` (tls.c 290–305). -/
def create (size : Nat) (mem : Bool) : Out Cache :=
  if size = 0 then .err .EINVAL
  else if mem = false then .err .ENOMEM
  else .ok ⟨List.replicate size Elem.zero, 0⟩

/-- `tls_server_cache_set` (tls.c 313–330). -/
def cacheSet (c : Cache) (key data : Bytes) : Out Cache :=
  if key.length > ID ∨ data.length > DATA then .err .EINVAL
  else
    match c.elems[c.index]? with
    | none => .ub
    | some e =>
      copyTo e.id 0 key >>= fun i => copyTo e.data 0 data >>= fun d =>
      pure ⟨c.elems.set c.index ⟨i, d, key.length, data.length⟩, (c.index + 1) % c.elems.length⟩

/-- The test for a key in the loops (tls.c 342–343 and 363–364). `memcmp` reads the whole length. -/
def hit (e : Elem) (key : Bytes) : Out Bool :=
  if key.length = e.idSize then slice e.id 0 key.length >>= fun i => pure (decide (i = key)) else .ok false

/-- The loops (tls.c 340–353 and 361–369): the first element with the key. -/
def find (key : Bytes) : List Elem → (i : Nat) → Out (Option (Nat × Elem))
  | [], _ => .ok none
  | e :: es, i => hit e key >>= fun b => if b then pure (some (i, e)) else find key es (i + 1)

/-- The result of a lookup: `size` is 0, or there was no memory (`size` is not 0 and `data` is `NULL`), or data. -/
inductive Got where
  | nothing
  | noMemory
  | data (d : Bytes)
  deriving DecidableEq, Repr

/-- `tls_server_cache_get` (tls.c 332–355). -/
def cacheGet (c : Cache) (key : Bytes) (mem : Bool) : Out Got :=
  find key c.elems 0 >>= fun r =>
  match r with
  | none => pure .nothing
  | some (_, e) =>
    if e.dataSize = 0 then pure .nothing
    else if mem = false then pure .noMemory
    else slice e.data 0 e.dataSize >>= fun d => pure (.data d)

/-- `tls_server_cache_delete` (tls.c 357–371). -/
def cacheDelete (c : Cache) (key : Bytes) : Out Cache :=
  find key c.elems 0 >>= fun r =>
  match r with
  | none => .err .EINVAL
  | some (i, _) => pure { c with elems := c.elems.set i Elem.zero }

/-- A call: `tls_server_set` (tls.c 468–486), `tls_server_delete` (tls.c 508–526). -/
inductive Op where
  | set (key data : Bytes) (lg lp : Bool)
  | delete (key : Bytes) (lg lp : Bool)

/-- The cache after a call, and the status. -/
def step (c : Cache) : Op → Out (Cache × Option Err)
  | .set key data lg lp =>
    if lg = false then .ok (c, some .EIO)
    else
      match cacheSet c key data with
      | .ok c => .ok (c, if lp then none else some .EIO)
      | .err e => .ok (c, some (if lp then e else .EIO))
      | .ub => .ub
  | .delete key lg lp =>
    if lg = false then .ok (c, some .EIO)
    else
      match cacheDelete c key with
      | .ok c => .ok (c, if lp then none else some .EIO)
      | .err e => .ok (c, some (if lp then e else .EIO))
      | .ub => .ub

/-- The cache after a history of calls. -/
def run (c : Cache) : List Op → Out Cache
  | [] => .ok c
  | o :: os => step c o >>= fun r => run r.1 os

/-- `tls_server_get` (tls.c 488–506). -/
def get (c : Cache) (key : Bytes) (mem lg lp : Bool) : Out Got :=
  if lg = false then .ok .nothing
  else cacheGet c key mem >>= fun g => pure (if lp then g else .nothing)

/-! ## The cache of the client -/

/-- The loop of `util_strncpy` (util.c 51–59): the buffer, `i` and `j`. -/
def cpyLoop (len : Nat) : Bytes → (i : Nat) → Bytes → Out (Bytes × Nat)
  | dst, i, [] => .ok (dst, i)
  | dst, i, b :: src => if i < len - 1 then poke dst i b >>= fun dst => cpyLoop len dst (i + 1) src else cpyLoop len dst i src

/-- `util_strncpy` (util.c 42–62) for the C string `src`: the buffer and the length returned. -/
def strncpy (dst src : Bytes) (len : Nat) : Out (Bytes × Nat) :=
  if len = 0 then .ok (dst, 0)
  else cpyLoop len dst 0 src >>= fun r => poke r.1 r.2 0 >>= fun dst => pure (dst, src.length)

/-- `tls_client_cache_element_t` (tls.h 54–60). -/
structure CElem where
  addr : Bytes
  data : Bytes
  size : Nat
  deriving DecidableEq

/-- An element of zeros. -/
def CElem.zero (A : Nat) : CElem := ⟨List.replicate A 0, List.replicate DATA 0, 0⟩

/-- `tls_client_cache_t` (tls.h 62–68). -/
structure CCache where
  elems : List CElem
  index : Nat
  deriving DecidableEq

/-- `tls_client_cache_create` (tls.c 82–97). -/
def ccreate (A size : Nat) (mem : Bool) : Out CCache :=
  if size = 0 then .err .EINVAL
  else if mem = false then .err .ENOMEM
  else .ok ⟨List.replicate size (CElem.zero A), 0⟩

/-- `strcmp` with the string in an element: undefined if it is not terminated. -/
def cfind (addr : Bytes) : List CElem → (i : Nat) → Out (Option Nat)
  | [], _ => .ok none
  | e :: es, i => if 0 ∈ e.addr then (if cstr e.addr = addr then .ok (some i) else cfind addr es (i + 1)) else .ub

/-- The end of `tls_client_cache_set` (tls.c 129–133): the address and the data go into element `i`. -/
def cput (A : Nat) (c : CCache) (i index : Nat) (addr data : Bytes) : Out CCache :=
  match c.elems[i]? with
  | none => .ub
  | some e =>
    strncpy e.addr addr A >>= fun a => copyTo e.data 0 data >>= fun d =>
    pure ⟨c.elems.set i ⟨a.1, d, data.length⟩, index⟩

/-- `tls_client_cache_set` (tls.c 105–134). -/
def ccacheSet (A : Nat) (c : CCache) (addr data : Bytes) : Out CCache :=
  if data.length > DATA then .err .EINVAL
  else
    cfind addr c.elems 0 >>= fun r =>
    match r with
    | some i => cput A c i c.index addr data
    | none => cput A c c.index ((c.index + 1) % c.elems.length) addr data

/-- `tls_client_cache_get` (tls.c 136–151) returns a pointer to the data in the element, which is the number of the element here, and the
size. -/
def ccacheGet (c : CCache) (addr : Bytes) : Out (Option (Nat × Nat)) :=
  cfind addr c.elems 0 >>= fun r =>
  match r with
  | none => pure none
  | some i =>
    match c.elems[i]? with
    | none => .ub
    | some e => pure (some (i, e.size))

/-- `tls_client_set` (tls.c 252–269): the cache and the status. -/
def cset (A : Nat) (c : CCache) (addr data : Bytes) (lg lp : Bool) : Out (CCache × Option Err) :=
  if lg = false then .ok (c, some .EIO)
  else
    match ccacheSet A c addr data with
    | .ok c => .ok (c, if lp then none else some .EIO)
    | .err e => .ok (c, some (if lp then e else .EIO))
    | .ub => .ub

/-- `tls_client_get` (tls.c 271–288). -/
def cget (c : CCache) (addr : Bytes) (lg lp : Bool) : Out (Option (Nat × Nat)) :=
  if lg = false then .ok none
  else ccacheGet c addr >>= fun r => pure (if lp then r else none)

/-- What the caller reads through the pointer that `tls_client_get` returned (tls_sock.c 192–195), in the cache as it is then. Nothing if the
size is 0. -/
def cread (c : CCache) : Option (Nat × Nat) → Out Bytes
  | none => .ok []
  | some (i, n) =>
    match c.elems[i]? with
    | none => .ub
    | some e => slice e.data 0 n

/-- A call of `tls_client_set`. -/
structure CSet where
  addr : Bytes
  data : Bytes
  lg : Bool
  lp : Bool

/-- The cache after a history of calls. -/
def crun (A : Nat) (c : CCache) : List CSet → Out CCache
  | [] => .ok c
  | o :: os => cset A c o.addr o.data o.lg o.lp >>= fun r => crun A r.1 os

end FreeCoAP.Tls
