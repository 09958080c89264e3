import Verif.DataBuf.Model

/-!
# Specification of the data buffer: a bounded queue of bytes

What was put and what was consumed is read off the calls and their observable results.
-/

namespace FreeCoAP.DataBuf

/-- All bytes taken over the calls, in order. -/
def taken : List Call → List Obs → Bytes
  | .put bs :: cs, .put n :: os => bs.take n ++ taken cs os
  | _ :: cs, _ :: os => taken cs os
  | _, _ => []

/-- All bytes given up over the calls, in order. -/
def given : List Obs → Bytes
  | .consume bs :: os => bs ++ given os
  | _ :: os => given os
  | [] => []

/-- The bytes in the buffer. -/
def content (b : Buf) : Bytes := b.data.take b.count

/-- The trace of an ideal queue of at most `size` bytes (doubled by an expansion up to
`max`), with contents `q`. -/
def queue (W max : Nat) : (size : Nat) → (q : Bytes) → List Call → List Obs × Nat × Bytes
  | size, q, [] => ([], size, q)
  | size, q, .put bs :: cs =>
    let n := min bs.length (size - q.length)
    let r := queue W max size (q ++ bs.take n) cs
    (.put n :: r.1, r.2)
  | size, q, .expand fresh :: cs =>
    if 2 * size > max then let r := queue W max size q cs; (.failed .EINVAL :: r.1, r.2)
    else if fresh (2 * size + 1) = none then let r := queue W max size q cs; (.failed .ENOMEM :: r.1, r.2)
    else let r := queue W max (2 * size) q cs; (.expanded :: r.1, r.2)
  | size, q, .consume n :: cs =>
    let r := queue W max size (q.drop n) cs
    (.consume (q.take n) :: r.1, r.2)

/-- The allocator returns blocks of the length asked for. -/
def Allocates (cs : List Call) : Prop :=
  ∀ c ∈ cs, ∀ fresh, c = .expand fresh → ∀ n block, fresh n = some block → block.length = n

end FreeCoAP.DataBuf
