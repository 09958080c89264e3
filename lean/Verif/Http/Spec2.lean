import Verif.Http.Spec

/-!
# Specification of the texts that are accepted

The framing of messages as it is taken from a text: where the start line, each header and the body begin and end.
Compared with `RawMsg.WF` this allows headers over several lines, and numbers with a sign, with a prefix or with
something behind them. Nothing here refers to the parser.
-/

namespace FreeCoAP.Http

/-- A text without an end of line. -/
def OneLine (s : Bytes) : Prop := ∀ a b, s ≠ a ++ CRLF ++ b

/-- A text in which every end of line is followed by a space or a tab: a line that is continued on the lines that
follow. -/
def Folded (s : Bytes) : Prop := ∀ a b, s = a ++ CRLF ++ b → b.head? = some 0x20 ∨ b.head? = some 0x09

/-- A header on one line or several: its name ends with the first colon. -/
structure RawHeader.Loose (h : RawHeader) : Prop where
  name : 0x3A ∉ h.name
  line : Folded (h.name ++ str ":" ++ h.value)
  first : ¬ CRLF <+: h.name

/-- Headers one after the other: none but the first begins with a space or a tab. -/
def LooseHeaders (hs : List RawHeader) : Prop :=
  (∀ h ∈ hs, h.Loose) ∧ ∀ h ∈ hs.tail, h.name.head? ≠ some 0x20 ∧ h.name.head? ≠ some 0x09

/-- `sg` is the sign before `s`, if there is one. -/
def Sign (sg s : Bytes) : Prop :=
  sg = str "+" ∨ sg = str "-" ∨ (sg = [] ∧ s.head? ≠ some 0x2B ∧ s.head? ≠ some 0x2D)

/-- The number with its sign. -/
def signed (sg : Bytes) (n : Nat) : Int := if sg = str "-" then -(n : Int) else n

/-- `px` is the prefix of hexadecimal numbers before `s`, if there is one. -/
def Prefix (px s : Bytes) : Prop :=
  px = str "0x" ∨ px = str "0X" ∨ (px = [] ∧ ¬ str "0x" <+: s ∧ ¬ str "0X" <+: s)

/-- The text begins with the decimal number `z`: after whitespace and a sign all the digits that follow. Without digits
the number is 0. -/
def DecimalAt (s : Bytes) (z : Int) : Prop :=
  ∃ w sg d r, s = w ++ (sg ++ (d ++ r)) ∧ (∀ c ∈ w, isSpace c = true) ∧
    (∀ c, (sg ++ (d ++ r)).head? = some c → isSpace c = false) ∧ Sign sg (d ++ r) ∧
    (∀ c ∈ d, isDigit c = true) ∧ (∀ c, r.head? = some c → isDigit c = false) ∧ z = signed sg (ofDecimal d)

/-- The text begins with the hexadecimal number `z`: after whitespace, a sign and a prefix all the digits that follow.
There is a digit or a prefix. -/
def HexAt (s : Bytes) (z : Int) : Prop :=
  ∃ w sg px d r, s = w ++ (sg ++ (px ++ (d ++ r))) ∧ (∀ c ∈ w, isSpace c = true) ∧
    (∀ c, (sg ++ (px ++ (d ++ r))).head? = some c → isSpace c = false) ∧ Sign sg (px ++ (d ++ r)) ∧
    Prefix px (d ++ r) ∧ (px ≠ [] ∨ d ≠ []) ∧
    (∀ c ∈ d, c ∈ hexDigits) ∧ (∀ c, r.head? = some c → c ∉ hexDigits) ∧ z = signed sg (ofHex d)

/-- `n` is what an `int` has after the number `z` was stored in it, and is not negative. -/
def Stored (z : Int) (n : Nat) : Prop := n < 2 ^ 31 ∧ z % 2 ^ 32 = n

/-- The headers give the body the length `n`: the last header of the name has a number as its value, of which a
`long` has the nearest value, and an `int` the low 32 bits. -/
def Announces (hs : List Header) (n : Nat) : Prop :=
  (NoLength hs ∧ n = 0) ∨
  ∃ a h b z, hs = a ++ h :: b ∧ Named h "Content-Length" ∧ (∀ h ∈ b, ¬ Named h "Content-Length") ∧
    DecimalAt h.value z ∧ Stored (max (-(2 ^ 63)) (min z (2 ^ 63 - 1))) n

/-- The first semicolon replaced by a space. -/
def soften : Bytes → Bytes
  | [] => []
  | c :: s => if c = 0x3B then 0x20 :: s else c :: soften s

/-- The line `line` followed by `more` gives a chunk the length `n`. -/
def LooseSize (line more : Bytes) (n : Nat) : Prop :=
  OneLine line ∧ ∃ z, HexAt (soften line ++ CRLF ++ more) z ∧ z.natAbs < 2 ^ 64 ∧ Stored z n

/-- Chunks with `more` behind them. -/
def LooseChunks : List RawChunk → (more : Bytes) → Prop
  | [], _ => True
  | c :: cs, more =>
    LooseSize (c.digits ++ c.ext) (c.data ++ CRLF ++ (chunksText cs ++ more)) c.data.length ∧ c.data ≠ [] ∧
    LooseChunks cs more

/-- A body after given headers, with `more` behind it. -/
def RawBody.Loose (hs : List Header) (more : Bytes) : RawBody → Prop
  | .none => ¬ SaysChunked hs ∧ Announces hs 0
  | .plain b => ¬ SaysChunked hs ∧ b ≠ [] ∧ Announces hs b.length
  | .chunked cs digits ext trailers =>
    SaysChunked hs ∧ LooseChunks cs (digits ++ ext ++ CRLF ++ (headersText trailers ++ CRLF ++ more)) ∧
    LooseSize (digits ++ ext) (headersText trailers ++ CRLF ++ more) 0 ∧ LooseHeaders trailers ∧
    (cs.flatMap RawChunk.data).length + 1 < 2 ^ 31

/-- The text of a message, with `more` behind it. -/
structure RawMsg.Loose (r : RawMsg) (more : Bytes) : Prop where
  start0 : r.start0 ≠ [] ∧ 0x20 ∉ r.start0
  start1 : r.start1 ≠ [] ∧ 0x20 ∉ r.start1
  start2 : r.start2 ≠ []
  line : OneLine (r.start0 ++ str " " ++ r.start1 ++ str " " ++ r.start2)
  headers : LooseHeaders r.headers
  body : r.body.Loose (r.headers.map RawHeader.header) more

/-- The line has more than whitespace and a semicolon. -/
def Written (line : Bytes) : Prop := ∃ c ∈ soften line, isSpace c = false

/-- The lines with the sizes of the chunks are not blank. -/
def RawBody.Written : RawBody → Prop
  | .chunked cs digits ext _ => (∀ c ∈ cs, Http.Written (c.digits ++ c.ext)) ∧ Http.Written (digits ++ ext)
  | _ => True

end FreeCoAP.Http
