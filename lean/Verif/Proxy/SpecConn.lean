import Verif.Proxy.ModelConn
import Verif.Proxy.LemmasRecv

/-!
# Specification of the transactions of a connection
-/

namespace FreeCoAP.Proxy

open FreeCoAP.Http (HMsg RawMsg)

/-- The response was written in full. The last byte of a text exactly as long as the buffer can be wrong (C50). -/
def Wrote (h : HMsg) (out : Bytes) : Prop :=
  out = Http.text h ∨ IsSize (Http.text h).length ∧ out = (Http.text h).dropLast ++ [0]

/-- Nothing but the beginning of the response was written. -/
def WroteSome (h : HMsg) (out : Bytes) : Prop :=
  ∃ whole rest, Wrote h whole ∧ whole = out ++ rest

/-- Why no request came: the time ran out, there was an error, or a request is too long. The HTTP client may close the connection or keep silent at
any time. -/
def Silence (rs : List RawMsg) (es : List In) : Status → Prop
  | .done => False
  | .timedOut => .timeout ∈ es
  | .closed => True
  | .waiting => True
  | .failed e => .selectError e ∈ es ∨ .readError ∈ es ∧ e = .EIO ∨ e = .EINVAL ∧ ∃ r ∈ rs, LIMIT < r.text.length

/-- Why a response was not written completely: the socket was closed or does not take more, there was an error, the response is too long, or
there was no memory. -/
def Break (t : Turn) (h : HMsg) : Status → Prop
  | .done => False
  | .timedOut => False
  | .closed => .closed ∈ t.ws ∨ .wrote 0 ∈ t.ws
  | .waiting => t.ws.length < (Http.text h).length
  | .failed e => e = .EIO ∧ .error ∈ t.ws ∨ e = .EINVAL ∧ 32768 < (Http.text h).length ∨ e = .ENOMEM ∧ ∃ i n, t.fresh i n = none

/-- A connection as the HTTP client and the CoAP servers see it, without buffers and segments. `peer` is the CoAP server that is connected,
`rs` are the requests of the HTTP client. In each turn the next request is processed once, and then its response is written, before the next request is
looked at. `es` are the events while requests are awaited. Until a response is complete the next request is not processed, and after a transaction that did not succeed there is none. -/
inductive Dialog (es : List In) : Peer → List RawMsg → List Turn → List Entry → Status → Prop where
  /-- As far as there are turns. -/
  | sofar {p rs} : Dialog es p rs [] [] .done
  /-- No request has come. -/
  | none {p rs t ts e} : Silence rs es e → Dialog es p rs (t :: ts) [] e
  /-- The next request could not be processed: nothing is written. -/
  | lost {p r rs t ts p' calls e} : process t.w p r.msg = ⟨p', calls, .err e⟩ → Dialog es p (r :: rs) (t :: ts) [⟨calls, []⟩] (.failed e)
  /-- The response was not written completely. -/
  | cut {p r rs t ts p' calls h out e} : process t.w p r.msg = ⟨p', calls, .ok h⟩ → WroteSome h out → Break t h e →
      Dialog es p (r :: rs) (t :: ts) [⟨calls, out⟩] e
  /-- The next request was answered. -/
  | answered {p r rs t ts p' calls h out l e} : process t.w p r.msg = ⟨p', calls, .ok h⟩ → Wrote h out → Dialog es p' rs ts l e →
      Dialog es p (r :: rs) (t :: ts) (⟨calls, out⟩ :: l) e

/-- Transactions with requests that are sent one at a time, each after the response to the one before, with the events while it is awaited: what
was done and the last status. -/
def conversation (W : Nat) : Conn → List (Bytes × List In × Turn) → Out (List Entry × Status)
  | _, [] => .ok ([], .done)
  | c, (s, es, t) :: l =>
    transact W t c s es >>= fun r =>
    match r.1 with
    | .done => conversation W r.2.2.1 l >>= fun x => pure (r.2.1.toList ++ x.1, x.2)
    | e => pure (r.2.1.toList, e)

/-- The HTTP client sends `r` completely, there is memory, and the client reads the response. -/
structure Fair (r : RawMsg) (es : List In) (t : Turn) : Prop where
  wf : r.WF
  short : r.text.length ≤ LIMIT
  ample : ∀ e ∈ es, e.Ample ∧ e.Some
  enough : r.text.length ≤ es.length
  sized : ∀ i, Sized (t.fresh i)
  memory : ∀ i n, t.fresh i n ≠ none
  takes : ∀ w ∈ t.ws, ∃ k, w = .wrote (k + 1)
  all : 32768 ≤ t.ws.length

/-- The requests, the turns and what comes out if every request is answered. -/
inductive AllAnswered : Peer → List RawMsg → List Turn → List Entry → Prop where
  | nil {p} : AllAnswered p [] [] []
  | cons {p r rs t ts p' calls h l} : process t.w p r.msg = ⟨p', calls, .ok h⟩ → AllAnswered p' rs ts l →
      AllAnswered p (r :: rs) (t :: ts) (⟨calls, Http.text h⟩ :: l)

/-- The last transfer coding that the headers name is `chunked` (RFC 7230, 3.3.1), perhaps after others. -/
def LastChunked (hs : List Http.Header) : Prop :=
  ∃ a h b, hs = a ++ h :: b ∧ Http.Named h "Transfer-Encoding" ∧ (∀ x ∈ b, ¬ Http.Named x "Transfer-Encoding") ∧
    ∃ before, h.value.map toLower = before ++ str "chunked" ∧ (before = [] ∨ ∃ x, before = x ++ str ", ")

/-- The text of `r` is one message (RFC 7230, 3.3.3): as `RawMsg.WF`, but other transfer codings may come before `chunked`. -/
structure OneMessage (r : RawMsg) : Prop where
  start0 : r.start0 ≠ [] ∧ 0x20 ∉ r.start0 ∧ 0x0D ∉ r.start0
  start1 : r.start1 ≠ [] ∧ 0x20 ∉ r.start1 ∧ 0x0D ∉ r.start1
  start2 : r.start2 ≠ [] ∧ 0x0D ∉ r.start2
  headers : ∀ h ∈ r.headers, h.WF
  text : 0x00 ∉ r.text
  body : match r.body with
    | .chunked cs digits ext trailers => LastChunked (r.headers.map Http.RawHeader.header) ∧
        (∀ c ∈ cs, Http.SizeLine c.digits c.ext c.data.length ∧ c.data ≠ []) ∧ Http.SizeLine digits ext 0 ∧ (∀ t ∈ trailers, t.WF) ∧
        (cs.flatMap Http.RawChunk.data).length + 1 < 2 ^ 31
    | b => b.WF (r.headers.map Http.RawHeader.header)

end FreeCoAP.Proxy
