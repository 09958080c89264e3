import Verif.Http.Model

/-!
# Model of the generation of chunks in `proxy/common/src/http_msg.c`
-/

namespace FreeCoAP.Http

/-- A digit of the conversion `%x`. -/
def hexChar (n : Nat) : Byte := if n < 10 then UInt8.ofNat (0x30 + n) else UInt8.ofNat (0x57 + n)

/-- The conversion `%zx` of `snprintf`. -/
def hexText (n : Nat) : Bytes := if n < 16 then [hexChar n] else hexText (n / 16) ++ [hexChar (n % 16)]

/-- `snprintf(block + at_, len, …)`, where `s` is the text that results from the format. A failure of the C library
is left out. -/
def snprintf (block : Bytes) (at_ len : Nat) (s : Bytes) : Out Bytes :=
  if len = 0 then .ok block else copyTo block at_ (s.take (len - 1) ++ [0])

/-- The size line (http_msg.c 661–665): the buffer, `out` and `out_len`. -/
def genSize (out : Bytes) (len : Nat) (inLen : Nat) : Out (Bytes × Nat × Nat) :=
  let line := hexText inLen ++ str "\r\n"
  snprintf out 0 len line >>= fun out =>
  let actual := if line.length ≤ len then line.length else len
  pure (out, actual, len - actual)

/-- The data and the end of the line (http_msg.c 667–678), from the offset `at_` with `len` bytes left. `out_len - 1`
and `out_len -= actual` are computed with `size_t`. -/
def genData (out : Bytes) (at_ len : Nat) (inp : Bytes) : Out Bytes :=
  let last := if len = 0 then 2 ^ 64 - 1 else len - 1
  let actual := if inp.length ≤ last then inp.length else last
  copyTo out at_ (inp.take actual) >>= fun out =>
  snprintf out (at_ + actual) ((len + 2 ^ 64 - actual) % 2 ^ 64) (str "\r\n")

/-- `http_msg_generate_chunk` (http_msg.c 653–681): the buffer and the returned length. -/
def genChunk (out : Bytes) (len : Nat) (inp : Bytes) : Out (Bytes × Nat) :=
  if len ≤ out.length then
    genSize (List.replicate len 0 ++ out.drop len) len inp.length >>= fun r =>
    genData r.1 r.2.1 r.2.2 inp >>= fun out =>
    pure (out, (hexText inp.length ++ str "\r\n").length + inp.length + 2)
  else .ub

/-- `http_msg_generate_last_chunk` (http_msg.c 683–686). -/
def genLast (buf : Bytes) (len : Nat) : Out (Bytes × Nat) :=
  snprintf buf 0 len (str "0\r\n") >>= fun b => pure (b, 3)

/-- `http_msg_generate_trailer` (http_msg.c 688–691). -/
def genTrailer (buf : Bytes) (len : Nat) (name value : Bytes) : Out (Bytes × Nat) :=
  snprintf buf 0 len (name ++ str ": " ++ value ++ str "\r\n") >>= fun b =>
  pure (b, (name ++ str ": " ++ value ++ str "\r\n").length)

/-- `http_msg_generate_blank_line` (http_msg.c 693–696). -/
def genBlank (buf : Bytes) (len : Nat) : Out (Bytes × Nat) :=
  snprintf buf 0 len (str "\r\n") >>= fun b => pure (b, 2)

end FreeCoAP.Http
