import Verif.Text

/-!
# Model of the URI module of the proxy

`proxy/common/src/uri.c`. Strings are C strings (`Verif/Text.lean`); a component is `none`
where the C code has a null pointer. Sums of string lengths are taken not to wrap: all the
strings lie in one address space. Null arguments are not modelled. `sx` tells whether `char`
is signed.
-/

namespace FreeCoAP.Uri

/-- `uri_t` (uri.h 45–55). -/
structure Uri where
  scheme : Option Bytes := none
  userinfo : Option Bytes := none
  host : Option Bytes := none
  port : Option Bytes := none
  path : Option Bytes := none
  query : Option Bytes := none
  fragment : Option Bytes := none
  deriving DecidableEq, Repr

/-- `URI_SUB_DELIMS` (uri.c 56). -/
def subDelims : Bytes := str "!$&'()*+,;="

/-- `uri_hex` (uri.c 61). -/
def hexDigits : Bytes := str "0123456789ABCDEF"

/-- `uri_is_unreserved` (uri.c 72–75). -/
def isUnreserved (c : Byte) : Bool := isAlpha c || isDigit c || c = 0x2D || c = 0x2E || c = 0x5F || c = 0x7E

/-- `uri_is_allowed` (uri.c 86–89). The character is not NUL at the only call. -/
def isAllowed (c : Byte) : Bool := isUnreserved c || subDelims.contains c

/-- `uri_hex_to_int` (uri.c 100–108). -/
def hexToInt (h : Byte) : Option Nat :=
  let c := toUpper h
  if 0x41 ≤ c && c ≤ 0x46 then some (c.toNat - 0x41 + 10)
  else if 0x30 ≤ c && c ≤ 0x39 then some (c.toNat - 0x30)
  else none

/-- `uri_2_hex_to_int` (uri.c 119–135). -/
def twoHexToInt (a b : Byte) : Option Nat :=
  match hexToInt a with
  | none => none
  | some i0 =>
    match hexToInt b with
    | none => none
    | some i1 => some (i0 * 16 + i1)

/-- `uri_encode_octet` (uri.c 143–151): the three characters written. The shift of a negative
`char` is arithmetic, and the mask leaves the upper half of the byte. -/
def encodeOctet (val : Byte) : Option Bytes :=
  match hexDigits[val.toNat / 16]?, hexDigits[val.toNat % 16]? with
  | some h1, some h0 => some [0x25, h1, h0]
  | _, _ => none

/-- `uri_encode_str` (uri.c 198–224). -/
def encodeStr (dest : Bytes) (except : Bytes) (destLen : Nat) : (src : Bytes) → (n : Nat) → Out (Bytes × Nat)
  | [], n => .ok (dest, n)
  | c :: src, n =>
    if isAllowed c || except.contains c then
      if n + 1 < destLen then do
        let dest ← poke dest n c
        encodeStr dest except destLen src (n + 1)
      else encodeStr dest except destLen src (n + 1)
    else
      if n + 3 < destLen then
        match encodeOctet c with
        | some [a, b, d] => do
          let dest ← poke dest n a
          let dest ← poke dest (n + 1) b
          let dest ← poke dest (n + 2) d
          encodeStr dest except destLen src (n + 3)
        | _ => .ub
      else encodeStr dest except destLen src (n + 3)

/-- `uri_copy_str` (uri.c 236–250). -/
def copyStr (dest : Bytes) (destLen : Nat) : (src : Bytes) → (n : Nat) → Out (Bytes × Nat)
  | [], n => .ok (dest, n)
  | c :: src, n =>
    if n + 1 < destLen then do
      let dest ← poke dest n c
      copyStr dest destLen src (n + 1)
    else copyStr dest destLen src (n + 1)

/-- Write a character of the decoded text if there is room for it and the NUL (uri.c 273–276). The text starts at `off` in the block. -/
def put (off destLen : Nat) (dest : Bytes) (n : Nat) (c : Byte) : Out Bytes :=
  if n + 1 < destLen then poke dest (off + n) c else .ok dest

/-- `uri_decode_octet` and `uri_decode_str` (uri.c 160–187, 262–280): the block and the length of
the text, or `none` for the return value -1. A `%` takes the up to two characters after it; a
missing one is the NUL of `num`, which is no digit. A plain character is converted to `int`: where
`char` is signed, the byte 0xFF gives -1, the error value. -/
def decodeInto (sx : Bool) (off destLen : Nat) : Bytes → (dest : Bytes) → (n : Nat) → Out (Option (Bytes × Nat))
  | [], dest, n => .ok (some (dest, n))
  | c :: s, dest, n =>
    if c = 0x25 then
      match s with
      | a :: b :: rest =>
        match twoHexToInt a b with
        | none => .ok none
        | some v => put off destLen dest n (UInt8.ofNat v) >>= fun dest => decodeInto sx off destLen rest dest (n + 1)
      | _ => .ok none
    else if sx = true ∧ c = 0xFF then .ok none
    else put off destLen dest n c >>= fun dest => decodeInto sx off destLen s dest (n + 1)

/-- The test of the result of `uri_decode_str`, and the C string in the block. In `uri_set_query` the test is `num > len`
(uri.c 969), which makes no difference since the length is never `len`. A block without a NUL cannot be read. -/
def decoded (len : Nat) : Option (Bytes × Nat) → Out Bytes
  | none => .err .EBADMSG
  | some (dest, n) => if n ≥ len then .err .EBADMSG else if 0 ∈ dest then .ok (cstr dest) else .ub

/-- `uri_find_port` (uri.c 295–324), with the split at the colon it finds. -/
def findPort : (inside : Bool) → Bytes → Option (Bytes × Bytes)
  | _, [] => none
  | inside, c :: s =>
    let inside := if !inside then (if c = 0x5B then true else false) else (if c = 0x5D then false else true)
    if !inside && c = 0x3A then some ([], s) else (findPort inside s).map (fun p => (c :: p.1, p.2))

/-- The places where memory is allocated while parsing. -/
inductive Site where
  | copy | scheme | userinfo | host | port | path | query | fragment
  deriving DecidableEq, Repr

/-- A block from `calloc`. -/
def zeros (size : Nat) : Bytes := List.replicate size 0

/-- `calloc` and `uri_decode_str` of a component. On failure the callers destroy the URI. -/
def component (sx : Bool) (mem : Site → Bool) (site : Site) (s : Bytes) : Out Bytes :=
  if mem site then decodeInto sx 0 (s.length + 1) s (zeros (s.length + 1)) 0 >>= decoded (s.length + 1) else .err .ENOMEM

/-- `calloc` and `uri_decode_str` of a path after a slash (uri.c 521–535). -/
def slashed (sx : Bool) (mem : Site → Bool) (s : Bytes) : Out Bytes :=
  if mem .path then
    poke (zeros (s.length + 1 + 1)) 0 0x2F >>= fun dest =>
    decodeInto sx 1 (s.length + 1) s dest 0 >>= decoded (s.length + 1)
  else .err .ENOMEM

/-- `uri_parse_scheme` (uri.c 360–395): the URI and the rest of the text. -/
def parseScheme (sx : Bool) (mem : Site → Bool) (u : Uri) (q : Bytes) : Out (Uri × Bytes) :=
  match cut 0x3A q with
  | none => .ok (u, q)
  | some (p, rest) =>
    if p.length + 1 > 1 then do
      let s ← component sx mem .scheme p
      pure ({ u with scheme := some s }, rest)
    else .ok (u, rest)

/-- `strsep(q, delims)`: the text before the first of the delimiters, and the delimiter and
the text after it, if there is one. -/
def strsep (delims : Bytes) : Bytes → Bytes × Option (Byte × Bytes)
  | [] => ([], none)
  | c :: s => if delims.contains c then ([], some (c, s)) else ((c :: (strsep delims s).1), (strsep delims s).2)

/-- The host as it stands in the text, without enclosing brackets (uri.c 471–481). -/
def stripBrackets (p : Bytes) : Bytes :=
  if p.length + 1 > 2 ∧ p.head? = some 0x5B ∧ p.getLast? = some 0x5D then (p.drop 1).dropLast else p

/-- The user information (uri.c 437–458): the URI and what is after the `@`. -/
def parseUserinfo (sx : Bool) (mem : Site → Bool) (u : Uri) (p : Bytes) : Out (Uri × Bytes) :=
  match cut 0x40 p with
  | some (a, b) => component sx mem .userinfo a >>= fun s => pure ({ u with userinfo := some s }, b)
  | none => pure (u, p)

/-- The split in host, port and path (uri.c 461–474). The path is without its slash. -/
def splitPort (p : Bytes) : Bytes × Option Bytes × Option Bytes :=
  match findPort false p with
  | some (p, port) =>
    match cut 0x2F port with
    | some (port, path) => (p, some port, some path)
    | none => (p, some port, none)
  | none =>
    match cut 0x2F p with
    | some (p, path) => (p, none, some path)
    | none => (p, none, none)

/-- The host (uri.c 477–501). -/
def parseHost (sx : Bool) (mem : Site → Bool) (u : Uri) (p : Bytes) : Out Uri :=
  if (stripBrackets p).length + 1 > 1 then
    component sx mem .host (stripBrackets p) >>= fun s => pure { u with host := some s }
  else pure u

/-- The port (uri.c 503–519). -/
def parsePort (sx : Bool) (mem : Site → Bool) (u : Uri) : Option Bytes → Out Uri
  | some port => component sx mem .port port >>= fun s => pure { u with port := some s }
  | none => pure u

/-- The path after an authority (uri.c 521–538): the slash that was cut off is written
first. -/
def parsePath (sx : Bool) (mem : Site → Bool) (u : Uri) : Option Bytes → Out Uri
  | some path => slashed sx mem path >>= fun s => pure { u with path := some s }
  | none => pure u

/-- `uri_parse_hier_part` after the split of the text (uri.c 428–554). -/
def parseHier (sx : Bool) (mem : Site → Bool) (u : Uri) (p : Bytes) : Out Uri :=
  match p with
  | 0x2F :: 0x2F :: p =>
    parseUserinfo sx mem u p >>= fun r =>
    parseHost sx mem r.1 (splitPort r.2).1 >>= fun u =>
    parsePort sx mem u (splitPort r.2).2.1 >>= fun u =>
    parsePath sx mem u (splitPort r.2).2.2
  | [] => .ok u
  | p => component sx mem .path p >>= fun s => pure { u with path := some s }

/-- The query, if the text goes on with one (uri.c 679–693): the URI and what follows. -/
def parseQuery (sx : Bool) (mem : Site → Bool) (u : Uri) : Option (Byte × Bytes) → Out (Uri × Option (Byte × Bytes))
  | some (c, q) =>
    if c = 0x3F then
      component sx mem .query (strsep [0x23] q).1 >>= fun t => pure ({ u with query := some t }, (strsep [0x23] q).2)
    else pure (u, some (c, q))
  | none => pure (u, none)

/-- The fragment (uri.c 694–708). Anything else that is left is an error (uri.c 711–714). -/
def parseFragment (sx : Bool) (mem : Site → Bool) (u : Uri) : Option (Byte × Bytes) → Out Uri
  | some (c, q) =>
    if c = 0x23 then component sx mem .fragment q >>= fun t => pure { u with fragment := some t }
    else .err .EBADMSG
  | none => pure u

/-- `uri_parse` (uri.c 642–719). The previous contents of the URI are destroyed first, and on
failure it is left empty. -/
def parse (sx : Bool) (mem : Site → Bool) (s : Bytes) : Out Uri :=
  if mem .copy = false then .err .ENOMEM
  else
    (if s.head? = some 0x2F then pure ({}, s) else parseScheme sx mem {} s) >>= fun r =>
    parseHier sx mem r.1 (strsep [0x3F, 0x23] r.2).1 >>= fun u =>
    parseQuery sx mem u (strsep [0x3F, 0x23] r.2).2 >>= fun r =>
    parseFragment sx mem r.1 r.2

/-- The steps of `uri_generate`: the scheme (uri.c 1016–1020). -/
def genScheme (u : Uri) (len : Nat) (buf : Bytes) (n : Nat) : Out (Bytes × Nat) :=
  match u.scheme with
  | some s => encodeStr buf [] len s n >>= fun p => copyStr p.1 len (str ":") p.2
  | none => pure (buf, n)

/-- The slashes before an authority (uri.c 1021–1024). -/
def genSlashes (u : Uri) (len : Nat) (buf : Bytes) (n : Nat) : Out (Bytes × Nat) :=
  if u.userinfo ≠ none ∨ u.host ≠ none ∨ u.port ≠ none then copyStr buf len (str "//") n else pure (buf, n)

/-- The user information (uri.c 1025–1029). -/
def genUserinfo (u : Uri) (len : Nat) (buf : Bytes) (n : Nat) : Out (Bytes × Nat) :=
  match u.userinfo with
  | some s => encodeStr buf (str ":") len s n >>= fun p => copyStr p.1 len (str "@") p.2
  | none => pure (buf, n)

/-- The host (uri.c 1030–1043). -/
def genHost (u : Uri) (len : Nat) (buf : Bytes) (n : Nat) : Out (Bytes × Nat) :=
  match u.host with
  | some s =>
    if cut 0x3A s ≠ none then
      copyStr buf len (str "[") n >>= fun p => encodeStr p.1 (str ":") len s p.2 >>= fun p => copyStr p.1 len (str "]") p.2
    else encodeStr buf [] len s n
  | none => pure (buf, n)

/-- The port (uri.c 1044–1048). -/
def genPort (u : Uri) (len : Nat) (buf : Bytes) (n : Nat) : Out (Bytes × Nat) :=
  match u.port with
  | some s => copyStr buf len (str ":") n >>= fun p => encodeStr p.1 [] len s p.2
  | none => pure (buf, n)

/-- The path (uri.c 1049–1052). -/
def genPath (u : Uri) (len : Nat) (buf : Bytes) (n : Nat) : Out (Bytes × Nat) :=
  match u.path with
  | some s => encodeStr buf (str "/:@") len s n
  | none => pure (buf, n)

/-- The query (uri.c 1053–1057). -/
def genQuery (u : Uri) (len : Nat) (buf : Bytes) (n : Nat) : Out (Bytes × Nat) :=
  match u.query with
  | some s => copyStr buf len (str "?") n >>= fun p => encodeStr p.1 (str "?/:@") len s p.2
  | none => pure (buf, n)

/-- The fragment (uri.c 1058–1062). -/
def genFragment (u : Uri) (len : Nat) (buf : Bytes) (n : Nat) : Out (Bytes × Nat) :=
  match u.fragment with
  | some s => copyStr buf len (str "#") n >>= fun p => encodeStr p.1 (str "?/:@") len s p.2
  | none => pure (buf, n)

/-- `uri_generate` (uri.c 1007–1064): the buffer and the returned length. `memset` clears
the buffer first. -/
def generate (u : Uri) (buf : Bytes) (len : Nat) : Out (Bytes × Nat) :=
  if len ≤ buf.length then
    genScheme u len (List.replicate len 0 ++ buf.drop len) 0 >>= fun p => genSlashes u len p.1 p.2 >>= fun p =>
    genUserinfo u len p.1 p.2 >>= fun p => genHost u len p.1 p.2 >>= fun p => genPort u len p.1 p.2 >>= fun p =>
    genPath u len p.1 p.2 >>= fun p => genQuery u len p.1 p.2 >>= fun p => genFragment u len p.1 p.2
  else .ub

/-- `strdup` of a component in `uri_copy`, if it is there, and the test of the result. -/
def copyPart (mem : Site → Bool) (site : Site) : Option Bytes → Out (Option Bytes)
  | none => .ok none
  | some s => if mem site then .ok (some s) else .err .ENOMEM

/-- The copy of the host and of the port (uri.c 747–764): it is the scheme of the copy that is
tested afterwards, and not the result of `strdup`. -/
def copyUntested (mem : Site → Bool) (site : Site) (scheme : Option Bytes) : Option Bytes → Out (Option Bytes)
  | none => .ok none
  | some s => if scheme = none then .err .ENOMEM else .ok (if mem site then some s else none)

/-- `uri_copy` (uri.c 721–794). On failure the copy is destroyed. -/
def copy (mem : Site → Bool) (src : Uri) : Out Uri := do
  let scheme ← copyPart mem .scheme src.scheme
  let userinfo ← copyPart mem .userinfo src.userinfo
  let host ← copyUntested mem .host scheme src.host
  let port ← copyUntested mem .port scheme src.port
  let path ← copyPart mem .path src.path
  let query ← copyPart mem .query src.query
  let fragment ← copyPart mem .fragment src.fragment
  pure ⟨scheme, userinfo, host, port, path, query, fragment⟩

/-- The setters (uri.c 796–1005), value of the component afterwards: `none` after a failure.
`uri_set_path` puts a slash in front if there is none. -/
def set (sx : Bool) (mem : Site → Bool) (site : Site) (s : Bytes) : Out Bytes :=
  if site = .path ∧ s.head? ≠ some 0x2F then
    if mem site then
      decodeInto sx 0 (s.length + 2) (str "/") (zeros (s.length + 2)) 0 >>= fun r =>
      match r with
      | none => .err .EBADMSG
      | some (dest, n) => decodeInto sx 0 (s.length + 2) s dest n >>= decoded (s.length + 2)
    else .err .ENOMEM
  else component sx mem site s

end FreeCoAP.Uri
