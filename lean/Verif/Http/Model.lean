import Verif.Text

/-!
# Model of the HTTP message module of the proxy

`proxy/common/src/http_msg.c`, and `util_strncat` of `proxy/common/src/util.c`. Strings are C
strings (`Verif/Text.lean`). `mem n` tells whether an allocation of `n` bytes succeeds. Conversions
of numbers (`atoi`, `sscanf`) follow the GNU C library where the C standard leaves the
result undefined (numbers out of range).
-/

namespace FreeCoAP.Http

/-- `http_msg_header_t` (http_msg.h 54–60). -/
structure Header where
  name : Bytes
  value : Bytes
  deriving DecidableEq, Repr

/-- `http_msg_t` (http_msg.h 75–83). The body is `none` where the C code has a null pointer. -/
structure HMsg where
  start0 : Bytes
  start1 : Bytes
  start2 : Bytes
  headers : List Header
  body : Option Bytes
  deriving DecidableEq, Repr

/-- `http_msg_trim_ws` after the leading whitespace (http_msg.c 190–208). `sp` is the flag of
the same name: whitespace was skipped. -/
def squeeze : (sp : Bool) → Bytes → Bytes
  | _, [] => []
  | sp, c :: s => if isSpace c then squeeze true s else (if sp then [0x20, c] else [c]) ++ squeeze false s

/-- `http_msg_trim_ws` (http_msg.c 180–214). -/
def trimWs (s : Bytes) : Bytes := squeeze false (s.dropWhile isSpace)

/-- `strstr(s, "\r\n")`: what is before and what is after its first occurrence. -/
def crlf : Bytes → Option (Bytes × Bytes)
  | [] => none
  | c :: s =>
    if c = 0x0D ∧ s.head? = some 0x0A then some ([], s.drop 1) else (crlf s).map (fun p => (c :: p.1, p.2))

/-- Allocate a block of `size` bytes, copy bytes to it and put a NUL after them (http_msg.c 290–296, 503–509 and 563–569). This is undefined if they do
not fit. -/
def store (mem : Nat → Bool) (size : Nat) (s : Bytes) : Out Bytes :=
  if mem size then if s.length < size then .ok s else .ub else .err .ENOMEM

/-- One field of the start line (http_msg.c 281–295). -/
def startField (mem : Nat → Bool) (s : Bytes) : Out Bytes :=
  if s.length = 0 then .err .EBADMSG else store mem (s.length + 1) s

/-- `strchr` of a space in the start line (http_msg.c 271–279). -/
def startSplit (s : Bytes) : Out (Bytes × Bytes) :=
  match cut 0x20 s with
  | none => .err .EBADMSG
  | some p => .ok p

/-- `http_msg_parse_start` (http_msg.c 257–299): the fields and the rest of the text. -/
def parseStart (mem : Nat → Bool) (s : Bytes) : Out ((Bytes × Bytes × Bytes) × Bytes) :=
  match crlf s with
  | none => .err .EAGAIN
  | some (line, rest) =>
    startSplit line >>= fun p => startField mem p.1 >>= fun a =>
    startSplit p.2 >>= fun p => startField mem p.1 >>= fun b =>
    startField mem p.2 >>= fun c => pure ((a, b, c), rest)

/-- The end of a header (http_msg.c 321–341): the first CRLF that is not followed by a space or
a tab, with what is before and what is after it. -/
def lineEnd : Bytes → Option (Bytes × Bytes)
  | [] => none
  | c :: s =>
    match c, s with
    | 0x0D, 0x0A :: d :: rest =>
      if d = 0x20 ∨ d = 0x09 then (lineEnd rest).map (fun p => (0x0D :: 0x0A :: d :: p.1, p.2))
      else some ([], d :: rest)
    | 0x0D, [0x0A] => some ([], [])
    | c, s => (lineEnd s).map (fun p => (c :: p.1, p.2))

/-- `http_msg_list_add` (http_msg.c 155–169): the allocations of `http_msg_header_new` (the
structure has three pointers). -/
def addHeader (mem : Nat → Bool) (name value : Bytes) : Out Header :=
  if mem 24 && mem (name.length + 1) && mem (value.length + 1) then .ok ⟨name, value⟩ else .err .ENOMEM

/-- `http_msg_parse_headers` (http_msg.c 311–357): the headers and the text after the blank
line. Every header takes at least two characters, so that `fuel` does not run out when it starts with
more than the length of the text. -/
def parseHeaders (mem : Nat → Bool) : (fuel : Nat) → Bytes → Out (List Header × Bytes)
  | 0, _ => .ub
  | fuel + 1, s =>
    match crlf s with
    | none => .err .EAGAIN
    | some ([], rest) => .ok ([], rest)
    | some (_ :: _, _) =>
      match lineEnd s with
      | none => .err .EAGAIN
      | some (line, rest) =>
        match cut 0x3A line with
        | none => .err .EBADMSG
        | some (name, value) =>
          addHeader mem (trimWs name) (trimWs value) >>= fun h =>
          parseHeaders mem fuel rest >>= fun r => pure (h :: r.1, r.2)

/-- `strcasecmp(a, b) == 0`. -/
def sameText (a b : Bytes) : Bool := a.map toLower == b.map toLower

/-- The decimal digits at the start of a string, as a number. -/
def decimal : (acc : Nat) → Bytes → Nat
  | acc, [] => acc
  | acc, c :: s => if isDigit c then decimal (acc * 10 + (c.toNat - 0x30)) s else acc

/-- The sign at the start of a number, and what follows it. -/
def sign : Bytes → Bool × Bytes
  | [] => (false, [])
  | c :: s => if c = 0x2D then (true, s) else if c = 0x2B then (false, s) else (false, c :: s)

/-- The value of an `int` with the low 32 bits of `n`. -/
def toInt32 (n : Int) : Int := (n + 2 ^ 31) % 2 ^ 32 - 2 ^ 31

/-- `atoi` of the GNU C library: `strtol`, which stops at the limits of `long`, and a
conversion to `int`. -/
def atoi (s : Bytes) : Int :=
  let (neg, s) := sign (s.dropWhile isSpace)
  let n := decimal 0 s
  toInt32 (if neg then -(min n (2 ^ 63)) else min n (2 ^ 63 - 1))

/-- Assignment of an `int` to a `size_t`. -/
def toSize (n : Int) : Nat := (n % 2 ^ 64).toNat

/-- The header says that the body is chunked (http_msg.c 390–394). -/
def isChunked (h : Header) : Bool := sameText h.name (str "Transfer-Encoding") && sameText h.value (str "chunked")

/-- `content_len` after the loop over the headers (http_msg.c 387–400): that of the last header
of this name. -/
def contentLen (hs : List Header) : Nat :=
  hs.foldl (fun n h => if sameText h.name (str "Content-Length") then toSize (atoi h.value) else n) 0

/-- A hexadecimal digit. -/
def isHex (c : Byte) : Bool := isDigit c || (0x41 ≤ c && c ≤ 0x46) || (0x61 ≤ c && c ≤ 0x66)

/-- The value of a hexadecimal digit. -/
def hexVal (c : Byte) : Nat := if isDigit c then c.toNat - 0x30 else (toUpper c).toNat - 0x41 + 10

/-- The hexadecimal digits at the start of a string, as a number. -/
def hexadecimal : (acc : Nat) → Bytes → Nat
  | acc, [] => acc
  | acc, c :: s => if isHex c then hexadecimal (acc * 16 + hexVal c) s else acc

/-- The digits of `%x` after the sign: the number is missing (`none`) if there is no digit and no
prefix. A prefix without digits counts as 0 in the GNU C library. -/
def scanDigits (s : Bytes) : Option Nat :=
  match s with
  | 0x30 :: c :: rest => if c = 0x78 ∨ c = 0x58 then some (hexadecimal 0 rest) else some (hexadecimal 0 s)
  | c :: _ => if isHex c then some (hexadecimal 0 s) else none
  | [] => none

/-- `sscanf(s, "%x", &n)` of the GNU C library into an `int`: whitespace, of lines too, is
skipped; `strtoul` stops at the largest `unsigned long`; the low 32 bits are stored. -/
def scanHex (s : Bytes) : Option Int :=
  let (neg, s) := sign (s.dropWhile isSpace)
  match scanDigits s with
  | none => none
  | some n =>
    if n < 2 ^ 64 then some (toInt32 (if neg then -(n : Int) else n)) else some (toInt32 (2 ^ 64 - 1))

/-- The position after the first CRLF from `pos` on. -/
def crlfFrom (t : Bytes) (pos : Nat) : Option Nat := (crlf (t.drop pos)).map (fun p => pos + p.1.length + 2)

/-- The text after the first semicolon of the size line was replaced by a space
(http_msg.c 425–430). -/
def dropParam (t : Bytes) (pos next : Nat) : Bytes :=
  match cut 0x3B (t.drop pos) with
  | none => t
  | some (a, _) => if pos + a.length < next then t.set (pos + a.length) 0x20 else t

/-- One pass over the chunks (http_msg.c 411–471): the text afterwards, the chunks as pairs of a
position in the text and a length, and the position after the line of the last chunk. A negative
length moves backwards; a position before the body is taken as undefined, and so is
running out of `fuel`, which takes going backwards: the loop then goes on until the sum of the lengths leaves
the range of `int`. Positions after the end are only compared. -/
def chunks : (fuel : Nat) → Bytes → (pos : Nat) → Out (Bytes × List (Nat × Int) × Nat)
  | 0, _, _ => .ub
  | fuel + 1, t, pos =>
    match crlfFrom t pos with
    | none => .err .EAGAIN
    | some next =>
      let t := dropParam t pos next
      match scanHex (t.drop pos) with
      | none => .err .EBADMSG
      | some n =>
        if n = 0 then .ok (t, [], next)
        else
          let stop : Int := next + n
          if stop + 2 > t.length then .err .EAGAIN
          else if stop < 0 then .ub
          else if t[stop.toNat]? ≠ some 0x0D ∨ t[stop.toNat + 1]? ≠ some 0x0A then .err .EBADMSG
          else chunks fuel t (stop.toNat + 2) >>= fun r => pure (r.1, (next, n) :: r.2.1, r.2.2)

/-- The sum of the lengths (http_msg.c 443–446): leaving the range of `int` is undefined. -/
def totalLen : (acc : Int) → List (Nat × Int) → Out Int
  | acc, [] => .ok acc
  | acc, (_, n) :: cs => if -(2 ^ 31) ≤ acc + n ∧ acc + n < 2 ^ 31 then totalLen (acc + n) cs else .ub

/-- The copying of the second pass (http_msg.c 465–469): `memcpy` of each chunk to the body of
`size` bytes. A negative length is a huge one for `memcpy`. -/
def gather (t : Bytes) (size : Nat) : (dest : Bytes) → List (Nat × Int) → Out Bytes
  | dest, [] => .ok dest
  | dest, (off, n) :: cs =>
    if n < 0 then .ub
    else if off + n.toNat ≤ t.length + 1 ∧ dest.length + n.toNat ≤ size then
      gather t size (dest ++ (t.drop off).take n.toNat) cs
    else .ub

/-- The body of a chunked message (http_msg.c 402–492): the body, the trailers and the text after
them. The sum of the length and 1 is an `int` (http_msg.c 474): beyond its range it is
undefined. The copying is put after the second pass, during which it takes place. With a total of -1
nothing is allocated and the byte before it is written. -/
def parseChunked (mem : Nat → Bool) (s : Bytes) : Out (Bytes × List Header × Bytes) :=
  chunks (s.length + 1) s 0 >>= fun r =>
  totalLen 0 r.2.1 >>= fun total =>
  if total + 1 ≥ 2 ^ 31 then .ub
  else if mem (toSize (total + 1)) = false then .err .ENOMEM
  else if total < 0 then .ub
  else
    chunks (s.length + 1) r.1 0 >>= fun r =>
    gather r.1 (total.toNat + 1) [] r.2.1 >>= fun body =>
    parseHeaders mem (s.length + 1) (r.1.drop r.2.2) >>= fun h =>
    pure (body, h.1, h.2)

/-- `http_msg_parse_body` (http_msg.c 369–514): the message with its body, and the text after
it. -/
def parseBody (mem : Nat → Bool) (m : HMsg) (s : Bytes) : Out (HMsg × Bytes) :=
  if m.headers.any isChunked then
    parseChunked mem s >>= fun r => pure ({ m with body := some r.1, headers := m.headers ++ r.2.1 }, r.2.2)
  else if contentLen m.headers ≠ 0 then
    if contentLen m.headers > s.length then .err .EAGAIN
    else
      store mem (contentLen m.headers + 1) (s.take (contentLen m.headers)) >>= fun body =>
      .ok ({ m with body := some body }, s.drop (contentLen m.headers))
  else .ok (m, s)

/-- `__http_msg_parse` (http_msg.c 528–555): the message and the rest of the text. -/
def parseText (mem : Nat → Bool) (s : Bytes) : Out (HMsg × Bytes) :=
  parseStart mem s >>= fun r =>
  parseHeaders mem (r.2.length + 1) r.2 >>= fun h =>
  parseBody mem ⟨r.1.1, r.1.2.1, r.1.2.2, h.1, none⟩ h.2

/-- `http_msg_parse` (http_msg.c 557–573): the message and the number of bytes consumed. The bytes
are copied and a NUL is added, and the copy is treated as a C string. -/
def parse (mem : Nat → Bool) (buf : Bytes) : Out (HMsg × Nat) :=
  store mem (buf.length + 1) buf >>= fun text =>
  parseText mem (cstr text) >>= fun r => pure (r.1, (cstr text).length - r.2.length)

/-- The copying loop of `util_strncat` (util.c 77–85): the buffer and `i`. -/
def catLoop (len : Nat) : (dst : Bytes) → (src : Bytes) → (i : Nat) → Out (Bytes × Nat)
  | dst, [], i => .ok (dst, i)
  | dst, c :: src, i =>
    if i < len - 1 then poke dst i c >>= fun dst => catLoop len dst src (i + 1)
    else catLoop len dst src i

/-- `util_strncat` (util.c 68–95). -/
def strncat (dst src : Bytes) (n len : Nat) : Out (Bytes × Nat) :=
  if len = 0 then .ok (dst, 0)
  else
    catLoop len dst src n >>= fun r =>
    poke r.1 (if r.2 < len then r.2 else len - 1) 0 >>= fun dst =>
    pure (dst, n + src.length)

/-- The pieces of text that `http_msg_generate` appends one after the other
(http_msg.c 617–635). -/
def pieces (m : HMsg) : List Bytes :=
  [m.start0, str " ", m.start1, str " ", m.start2, str "\r\n"] ++
  m.headers.flatMap (fun h => [h.name, str ": ", h.value, str "\r\n"]) ++ [str "\r\n"]

/-- The calls of `util_strncat` one after the other. -/
def catAll (len : Nat) : (dst : Bytes) → (n : Nat) → List Bytes → Out (Bytes × Nat)
  | dst, n, [] => .ok (dst, n)
  | dst, n, s :: ss => strncat dst s n len >>= fun r => catAll len r.1 r.2 ss

/-- `memcpy` to offset `at_` of a block. -/
def copyTo (block : Bytes) (at_ : Nat) (src : Bytes) : Out Bytes :=
  if at_ + src.length ≤ block.length then .ok (block.take at_ ++ src ++ block.drop (at_ + src.length)) else .ub

/-- The body in `http_msg_generate` (http_msg.c 637–649). `len - 1` is computed with `size_t`: for a buffer of
length 0 it is the largest value. -/
def genBody (b dst : Bytes) (n len : Nat) : Out (Bytes × Nat) :=
  let last := if len = 0 then 2 ^ 64 - 1 else len - 1
  if n + b.length < len then copyTo dst n b >>= fun dst => pure (dst, n + b.length)
  else if n < last then
    if last - n ≤ b.length then copyTo dst n (b.take (last - n)) >>= fun dst => pure (dst, n + b.length)
    else .ub
  else .ok (dst, n + b.length)

/-- `http_msg_generate` (http_msg.c 612–651): the buffer and the returned length. The fields
of the start line are not null. -/
def generate (m : HMsg) (buf : Bytes) (len : Nat) : Out (Bytes × Nat) :=
  if len ≤ buf.length then
    catAll len (List.replicate len 0 ++ buf.drop len) 0 (pieces m) >>= fun r =>
    match m.body with
    | none => pure r
    | some b => genBody b r.1 r.2 len
  else .ub

end FreeCoAP.Http
