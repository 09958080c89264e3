import Verif.Proxy.Model

/-!
# Model of receiving from a TLS connection

`connection_recv` in `proxy/http_coap/src/connection.c` together with `select`, `tls_sock_read` (`proxy/common/src/tls_sock.c`) and what GnuTLS keeps
between reads. TLS carries the stream in records. `gnutls_record_recv` decrypts a whole record and keeps what the caller has no space for;
`select` looks at the socket only. Each record is taken to arrive as a whole; the HTTP client has sent what there is and now waits.
-/

namespace FreeCoAP.Proxy

open FreeCoAP.DataBuf (Buf space)

/-- What the HTTP client has sent and the connection has not read: `left` was decrypted, `recs` are the records that wait in the socket. -/
structure Link where
  left : Bytes
  recs : List Bytes
  deriving DecidableEq, Repr

/-- All the bytes that can be read. -/
def Link.bytes (l : Link) : Bytes := l.left ++ l.recs.flatten

/-- `gnutls_record_recv` with `n` bytes of space, which `tls_sock_read` returns (tls_sock.c 530–538): what is left of the last record, or else the next
one. -/
def Link.read (l : Link) (n : Nat) : Bytes × Link :=
  match l.left, l.recs with
  | [], [] => ([], l)
  | [], r :: rs => (r.take n, ⟨r.drop n, rs⟩)
  | x :: left, rs => ((x :: left).take n, ⟨(x :: left).drop n, rs⟩)

/-- `connection_recv` (connection.c 193–278). `select` (connection.c 203–218) is first, and times out if there is no record in the socket. The rounds of the
loop are those of `recv`, with the bytes that were read. There is one element of the list for each round, with the allocators. -/
def recvOn (W : Nat) : List ((Nat → Bool) × (Nat → Option Bytes)) → Buf → Link → Out (Recv × Buf × Link)
  | [], b, l => .ok (.waiting, b, l)
  | (mem, fresh) :: rs, b, l =>
    if l.recs = [] then .ok (.timedOut, b, l)
    else
      let r := l.read (space W b)
      recv W b r.1 [.data r.1.length mem fresh] >>= fun x =>
      match x.1 with
      | .waiting => recvOn W rs x.2.1 r.2
      | res => .ok (res, x.2.1, r.2)

end FreeCoAP.Proxy
