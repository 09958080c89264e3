import Verif.Http.Model

/-!
# Specification of HTTP messages

Texts of messages, with the message that each text stands for, after RFC 7230. Nothing here refers to the
parser.
-/

namespace FreeCoAP.Http

/-- The end of a line. -/
def CRLF : Bytes := [0x0D, 0x0A]

/-- A string with single spaces inside and no other whitespace. -/
structure Tidy (s : Bytes) : Prop where
  blank : ∀ c ∈ s, isSpace c = true → c = 0x20
  first : s.head? ≠ some 0x20
  last : s.getLast? ≠ some 0x20
  single : ∀ a b, s ≠ a ++ 0x20 :: 0x20 :: b

/-- The header `s` has the name `n`: letters are compared without case. -/
def Named (h : Header) (n : String) : Prop := h.name.map toLower = (str n).map toLower

instance (h : Header) (n : String) : Decidable (Named h n) := inferInstanceAs (Decidable (_ = _))

/-- The number that a string of decimal digits stands for. -/
def ofDecimal (s : Bytes) : Nat := s.foldl (fun n c => n * 10 + (c.toNat - 0x30)) 0

/-- The hexadecimal digits; the last six stand for the same numbers as the six before. -/
def hexDigits : Bytes := str "0123456789abcdefABCDEF"

/-- The number that a hexadecimal digit stands for. -/
def hexDigit (c : Byte) : Nat := if hexDigits.idxOf c < 16 then hexDigits.idxOf c else hexDigits.idxOf c - 6

/-- The number that a string of hexadecimal digits stands for. -/
def ofHex (s : Bytes) : Nat := s.foldl (fun n c => n * 16 + hexDigit c) 0

/-- The headers say that the body is chunked. -/
def SaysChunked (hs : List Header) : Prop :=
  ∃ h ∈ hs, Named h "Transfer-Encoding" ∧ h.value.map toLower = str "chunked"

/-- The headers say that the body has `n` bytes: the last header of the name has `n` as its value, written
with decimal digits. -/
def SaysLength (hs : List Header) (n : Nat) : Prop :=
  ∃ a h b, hs = a ++ h :: b ∧ Named h "Content-Length" ∧ (∀ h ∈ b, ¬ Named h "Content-Length") ∧
    h.value ≠ [] ∧ (∀ c ∈ h.value, isDigit c = true) ∧ ofDecimal h.value = n

/-- The headers do not say what length the body has. -/
def NoLength (hs : List Header) : Prop := ∀ h ∈ hs, ¬ Named h "Content-Length"

/-- The text of a message: start line, headers, blank line, body. -/
def text (m : HMsg) : Bytes :=
  m.start0 ++ str " " ++ m.start1 ++ str " " ++ m.start2 ++ CRLF ++
  m.headers.flatMap (fun h => h.name ++ str ": " ++ h.value ++ CRLF) ++ CRLF ++ m.body.getD []

/-- A message with well-formed fields: the fields of the start line are not empty and are on one line, the
first two without spaces; names of headers have no colon; names and values of headers have no whitespace that parsing
would remove; the headers say what length the body has. -/
structure WF (m : HMsg) : Prop where
  start0 : m.start0 ≠ [] ∧ 0x20 ∉ m.start0 ∧ 0x0D ∉ m.start0 ∧ 0x00 ∉ m.start0
  start1 : m.start1 ≠ [] ∧ 0x20 ∉ m.start1 ∧ 0x0D ∉ m.start1 ∧ 0x00 ∉ m.start1
  start2 : m.start2 ≠ [] ∧ 0x0D ∉ m.start2 ∧ 0x00 ∉ m.start2
  names : ∀ h ∈ m.headers, Tidy h.name ∧ 0x3A ∉ h.name ∧ 0x00 ∉ h.name
  values : ∀ h ∈ m.headers, Tidy h.value ∧ 0x00 ∉ h.value
  plain : ¬ SaysChunked m.headers
  length : match m.body with
    | none => NoLength m.headers ∨ SaysLength m.headers 0
    | some b => b ≠ [] ∧ b.length < 2 ^ 31 ∧ SaysLength m.headers b.length

/-- A line of a header as it is received: the text before the colon and after it. -/
structure RawHeader where
  name : Bytes
  value : Bytes

/-- A chunk as it is received. -/
structure RawChunk where
  digits : Bytes
  ext : Bytes
  data : Bytes

/-- A body as it is received. -/
inductive RawBody where
  | none
  | plain (b : Bytes)
  | chunked (cs : List RawChunk) (digits ext : Bytes) (trailers : List RawHeader)

/-- A message as it is received. -/
structure RawMsg where
  start0 : Bytes
  start1 : Bytes
  start2 : Bytes
  headers : List RawHeader
  body : RawBody

/-- The text of lines of headers. -/
def headersText (hs : List RawHeader) : Bytes := hs.flatMap (fun h => h.name ++ str ":" ++ h.value ++ CRLF)

/-- The text of chunks. -/
def chunksText (cs : List RawChunk) : Bytes := cs.flatMap (fun c => c.digits ++ c.ext ++ CRLF ++ c.data ++ CRLF)

/-- The text of a body. -/
def RawBody.text : RawBody → Bytes
  | .none => []
  | .plain b => b
  | .chunked cs digits ext trailers =>
    chunksText cs ++ digits ++ ext ++ CRLF ++ headersText trailers ++ CRLF

/-- The text of a message. -/
def RawMsg.text (r : RawMsg) : Bytes :=
  r.start0 ++ str " " ++ r.start1 ++ str " " ++ r.start2 ++ CRLF ++ headersText r.headers ++ CRLF ++ r.body.text

/-- The words of a string: the runs of characters that are not whitespace. -/
def words : Bytes → List Bytes
  | [] => []
  | c :: s =>
    if isSpace c then words s
    else
      match s, words s with
      | [], ws => [c] :: ws
      | d :: _, ws => if isSpace d then [c] :: ws else
        match ws with
        | [] => [[c]]
        | w :: ws => (c :: w) :: ws

/-- The words of a string with single spaces between them. -/
def tidy (s : Bytes) : Bytes := [0x20].intercalate (words s)

/-- The header that a line stands for. -/
def RawHeader.header (h : RawHeader) : Header := ⟨tidy h.name, tidy h.value⟩

/-- The content of a body. -/
def RawBody.content : RawBody → Option Bytes
  | .none => Option.none
  | .plain b => some b
  | .chunked cs _ _ _ => some (cs.flatMap RawChunk.data)

/-- The trailers of a body. -/
def RawBody.trailers : RawBody → List RawHeader
  | .chunked _ _ _ ts => ts
  | _ => []

/-- The message that a text stands for: the trailers count as headers. -/
def RawMsg.msg (r : RawMsg) : HMsg :=
  ⟨r.start0, r.start1, r.start2, (r.headers ++ r.body.trailers).map RawHeader.header, r.body.content⟩

/-- A well-formed line of a header. -/
structure RawHeader.WF (h : RawHeader) : Prop where
  first : h.name.head? ≠ some 0x20 ∧ h.name.head? ≠ some 0x09
  name : 0x3A ∉ h.name ∧ 0x0D ∉ h.name
  value : 0x0D ∉ h.value

/-- The number of hexadecimal digits `digits`, followed by an extension `ext` or nothing. -/
structure SizeLine (digits ext : Bytes) (n : Nat) : Prop where
  number : digits ≠ [] ∧ ∀ c ∈ digits, c ∈ hexDigits
  size : ofHex digits = n
  after : ext = [] ∨ ext.head? = some 0x3B ∨ ext.head? = some 0x20 ∨ ext.head? = some 0x09
  line : 0x0D ∉ ext

/-- A well-formed body after given headers. -/
def RawBody.WF (hs : List Header) : RawBody → Prop
  | .none => ¬ SaysChunked hs ∧ (NoLength hs ∨ SaysLength hs 0)
  | .plain b => ¬ SaysChunked hs ∧ b ≠ [] ∧ b.length < 2 ^ 31 ∧ SaysLength hs b.length
  | .chunked cs digits ext trailers =>
    SaysChunked hs ∧ (∀ c ∈ cs, SizeLine c.digits c.ext c.data.length ∧ c.data ≠ []) ∧
    SizeLine digits ext 0 ∧ (∀ t ∈ trailers, t.WF) ∧ (cs.flatMap RawChunk.data).length + 1 < 2 ^ 31

/-- A well-formed text of a message. -/
structure RawMsg.WF (r : RawMsg) : Prop where
  start0 : r.start0 ≠ [] ∧ 0x20 ∉ r.start0 ∧ 0x0D ∉ r.start0
  start1 : r.start1 ≠ [] ∧ 0x20 ∉ r.start1 ∧ 0x0D ∉ r.start1
  start2 : r.start2 ≠ [] ∧ 0x0D ∉ r.start2
  headers : ∀ h ∈ r.headers, h.WF
  body : r.body.WF (r.headers.map RawHeader.header)
  text : 0x00 ∉ r.text

/-- A position after a CRLF, or the start of the text. -/
def LineStart (s : Bytes) (pos : Nat) : Prop :=
  pos = 0 ∨ (2 ≤ pos ∧ s[pos - 2]? = some 0x0D ∧ s[pos - 1]? = some 0x0A)

/-- The text with spaces in place of semicolons. -/
def blank (s : Bytes) : Bytes := s.map (fun c => if c = 0x3B then 0x20 else c)

/-- No line begins with a number that is negative as an `int`: of 2^31 or more, or with a minus sign. A
semicolon before the number counts as a space. -/
def SmallSizes (s : Bytes) : Prop :=
  ∀ pos n, LineStart s pos → scanHex ((blank s).drop pos) = some n → 0 ≤ n

end FreeCoAP.Http
