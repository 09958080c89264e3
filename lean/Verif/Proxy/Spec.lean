import Verif.Proxy.Model
import Verif.Http.Spec
import Verif.Cross.Spec

/-!
# Specification of a connection of the proxy
-/

namespace FreeCoAP.Proxy

open FreeCoAP.DataBuf (Buf)
open FreeCoAP.Http (HMsg RawMsg)

/-! ## Sending -/

/-- A response that is to be sent, with what the allocator and the socket do meanwhile. -/
structure Job where
  m : HMsg
  fresh : Nat → Nat → Option Bytes
  ws : List Write

/-- Responses sent one after another: the bytes that were written for each and the results. -/
def sends (W : Nat) : Buf → List Job → Out (List (Bytes × Sent))
  | _, [] => .ok []
  | b, j :: js => do
    let (out, r, b) ← send W j.m j.fresh j.ws b
    let rs ← sends W b js
    pure ((out, r) :: rs)

/-- The allocator returns blocks of the length asked for. -/
def Sized (fresh : Nat → Option Bytes) : Prop := ∀ n block, fresh n = some block → block.length = n

/-- One of the sizes that the buffer can have. -/
def IsSize (n : Nat) : Prop := n ∈ [4096, 8192, 16384, 32768]

instance (n : Nat) : Decidable (IsSize n) := inferInstanceAs (Decidable (_ ∈ _))

/-! ## Receiving -/

/-- The allocators during an event work, and `malloc` returns blocks of the length asked for. -/
def In.Ample : In → Prop
  | .data _ mem fresh => (∀ n, mem n = true) ∧ ∀ n, ∃ block, fresh n = some block ∧ block.length = n
  | _ => True

/-- There is something to read. -/
def In.Some : In → Prop
  | .data k _ _ => 0 < k
  | _ => False

/-- The requests received one after another, each with `recv`, until one call of it does not return a request: the requests, the
last result and the rest of the stream. -/
def recvs (W : Nat) : (fuel : Nat) → Buf → Bytes → List In → Out (List HMsg × Recv × Bytes)
  | 0, _, s, _ => .ok ([], .waiting, s)
  | fuel + 1, b, s, es =>
    match recv W b s es with
    | .ok (.msg m, b, s, es) =>
      match recvs W fuel b s es with
      | .ok (ms, r) => .ok (m :: ms, r)
      | .err e => .err e
      | .ub => .ub
    | .ok (r, _, s, _) => .ok ([], r, s)
    | .err e => .err e
    | .ub => .ub

/-- The text of requests, one after another. -/
def texts (rs : List RawMsg) : Bytes := rs.flatMap RawMsg.text

/-! ## Processing -/

/-- The method, the options and the other fields of the request of a call, without its content. -/
def Call.head : Call → Msg.Msg
  | .plain q => { q with payload := [] }
  | .blocks q _ _ _ _ => { q with payload := [] }

/-- The content of the request of a call. -/
def Call.content : Call → Bytes
  | .plain q => q.payload
  | .blocks _ _ _ body _ => body

/-- The CoAP client returned `resp` from a call; `bl` is what it received in blocks. -/
inductive Answered (w : World) : Call → Msg.Msg → Bytes → Prop where
  | plain {q resp} : w.exchange q = .ok resp → Answered w (.plain q) resp []
  | blocks {q r s1 s2 body len have_ n resp body'} : w.blockwise q r s1 s2 body len have_ = .ok (n, resp, body') →
      Answered w (.blocks q s1 s2 (body.take len) have_) resp (body'.take n)

/-- The CoAP client failed in a call. -/
inductive Failed (w : World) : Call → Err → Prop where
  | plain {q e} : w.exchange q = .err e → Failed w (.plain q) e
  | blocks {q r s1 s2 body len have_ e} : w.blockwise q r s1 s2 body len have_ = .err e → Failed w (.blocks q s1 s2 (body.take len) have_) e

/-- The calls for one request: it is sent once; if the response to a GET request is the first block of a larger one, the transfer goes on from there with
blocks of the same size; a POST or PUT request with a body of more than 1024 bytes is sent in blocks at once, and a shorter one is
sent again in blocks if the server says that it is too large (4.13). -/
inductive Once (w : World) (method body : Bytes) : List Call → Prop where
  | plain {q resp} : w.exchange q = .ok resp → (method = str "GET" → ∀ o ∈ resp.ops, o.num ≠ 23) →
      (method ≠ str "GET" → body.length ≤ 1024 ∧ ¬ (resp.codeClass = 4 ∧ resp.codeDetail = 13)) → Once w method body [.plain q]
  | failed {q} : (∀ resp, w.exchange q ≠ .ok resp) → (method ≠ str "GET" → body.length ≤ 1024) → Once w method body [.plain q]
  | unread {q resp} : method = str "GET" → w.exchange q = .ok resp → (∀ b, Msg.parseBlockOp 23 resp.ops ≠ .ok (some b)) → Once w method body [.plain q]
  | rest {q resp b c} : method = str "GET" → w.exchange q = .ok resp → Msg.parseBlockOp 23 resp.ops = .ok (some b) →
      Once w method body [.plain q, .blocks q b.size b.size c true]
  | large {q} : method ≠ str "GET" → 1024 < body.length → Once w method body [.blocks q 32 32 body false]
  | again {q resp} : method ≠ str "GET" → body.length ≤ 1024 → w.exchange q = .ok resp → resp.codeClass = 4 → resp.codeDetail = 13 →
      Once w method body [.plain q, .blocks { q with payload := [] } 32 32 body false]

/-- The status of the response if the CoAP client fails (RFC 8075, 7): 504 if the CoAP server does not answer in time, 502 if its answer is not
understood, and otherwise 501. -/
def statusOf : Err → Bytes
  | .ETIMEDOUT => str "504"
  | .EBADMSG => str "502"
  | _ => str "501"

end FreeCoAP.Proxy
