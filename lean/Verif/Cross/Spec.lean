import Verif.Uri.Spec
import Verif.Http.Spec
import Verif.Msg.Spec

/-!
# Specification of the conversion between HTTP and CoAP

Written from RFC 7252 (section 6: `coap` URIs and the Uri options; section 10.2: the status codes) and
RFC 3986. Of the models only the records of messages are used.
-/

namespace FreeCoAP.Cross

open FreeCoAP.Msg (Msg Op)
open FreeCoAP.Http (HMsg Header)

/-- The values of the options with a number, in order. -/
def values (k : Nat) (m : Msg) : List Bytes := (m.ops.filter (fun o => o.num = k)).map Op.val

/-- An HTTP status code is of the kind of a CoAP code of class `cls`: a success is 2xx or 304 (Not Modified), a
client error 4xx, a server error 5xx. -/
def SameKind (cls : Nat) (code : Bytes) : Prop :=
  code.length = 3 ∧ (∀ c ∈ code, isDigit c = true) ∧
  ((cls = 2 ∧ (code.head? = some 0x32 ∨ code = str "304")) ∨ (cls = 4 ∧ code.head? = some 0x34) ∨
    (cls = 5 ∧ code.head? = some 0x35))

instance (cls : Nat) (code : Bytes) : Decidable (SameKind cls code) := by unfold SameKind; infer_instance

/-- The HTTP status for each response code of RFC 7252, section 12.1.2, given as class and detail. -/
def table : List ((Nat × Nat) × String) :=
  [((2, 1), "200"), ((2, 2), "200"), ((2, 3), "304"), ((2, 4), "200"), ((2, 5), "200"),
   ((4, 0), "400"), ((4, 1), "401"), ((4, 2), "400"), ((4, 3), "403"), ((4, 4), "404"), ((4, 5), "405"), ((4, 6), "406"), ((4, 12), "412"),
   ((4, 13), "413"), ((4, 15), "415"), ((5, 0), "500"), ((5, 1), "501"), ((5, 2), "502"), ((5, 3), "503"), ((5, 4), "504"), ((5, 5), "501")]

/-- The response codes of RFC 7252, section 12.1.2, as class and detail. -/
def registered : List (Nat × Nat) :=
  [(2, 1), (2, 2), (2, 3), (2, 4), (2, 5), (4, 0), (4, 1), (4, 2), (4, 3), (4, 4), (4, 5), (4, 6), (4, 12), (4, 13),
   (4, 15), (5, 0), (5, 1), (5, 2), (5, 3), (5, 4), (5, 5)]

/-! ## Percent-encoded texts -/

/-- `c` is a hexadecimal digit, of either case, with the value `n`. -/
def Hex (c : Byte) (n : Nat) : Prop := n < 16 ∧ toUpper c = Uri.hexDigit n

/-- Removing the percent-encoding from `t` gives `s` (RFC 3986, 2.1). -/
inductive Decodes : (t s : Bytes) → Prop where
  | nil : Decodes [] []
  | char {c : Byte} {t s : Bytes} : c ≠ 0x25 → Decodes t s → Decodes (c :: t) (c :: s)
  | escape {a b : Byte} {i j : Nat} {t s : Bytes} :
    Hex a i → Hex b j → Decodes t s → Decodes (0x25 :: a :: b :: t) (UInt8.ofNat (i * 16 + j) :: s)

/-- The texts of a list of parts decode to the parts of another. -/
inductive AllDecode : (ts ss : List Bytes) → Prop where
  | nil : AllDecode [] []
  | cons {t s : Bytes} {ts ss : List Bytes} : Decodes t s → AllDecode ts ss → AllDecode (t :: ts) (s :: ss)

/-- Parts with a separator between them. -/
def join (sep : Byte) : List Bytes → Bytes
  | [] => []
  | [s] => s
  | s :: ss => s ++ sep :: join sep ss

/-! ## `coap` URIs -/

/-- The parts of a `coap` or `coaps` URI (RFC 7252, 6.1), as they stand in the text: the host is given
without the brackets of an IP literal. -/
structure CoapUri where
  scheme : Bytes
  literal : Bool
  host : Bytes
  port : Option Bytes
  segments : List Bytes
  params : Option (List Bytes)

/-- A part with its delimiter, or nothing. -/
def after (delim : Byte) : Option Bytes → Bytes
  | none => []
  | some s => delim :: s

/-- The path: a slash before every segment. -/
def CoapUri.path (r : CoapUri) : Bytes := r.segments.flatMap (fun s => 0x2F :: s)

/-- The authority and the path. -/
def CoapUri.hier (r : CoapUri) : Bytes :=
  (if r.literal then 0x5B :: r.host ++ [0x5D] else r.host) ++ after 0x3A r.port ++ r.path

/-- The text of the URI. -/
def CoapUri.text (r : CoapUri) : Bytes :=
  r.scheme ++ str "://" ++ r.hier ++ after 0x3F (r.params.map (join 0x26))

/-- The grammar: the scheme is `coap` or `coaps`; the text is ASCII without NUL; no part contains the delimiters that
would end it. -/
structure CoapUri.WF (r : CoapUri) : Prop where
  scheme : r.scheme.map toLower = str "coap" ∨ r.scheme.map toLower = str "coaps"
  host : r.host ≠ [] ∧ (∀ c ∈ r.host, c ∉ str "/?#@[]") ∧ (r.literal = false → 0x3A ∉ r.host)
  port : ∀ p, r.port = some p → ∀ c ∈ p, isDigit c = true
  segments : ∀ s ∈ r.segments, ∀ c ∈ s, c ∉ str "/?#"
  params : ∀ ps, r.params = some ps → ps ≠ [] ∧ ∀ p ∈ ps, ∀ c ∈ p, c ∉ str "&#"
  ascii : ∀ c ∈ r.text, 0 < c ∧ c < 0x80

/-- The parts of the URI decoded. -/
structure Decoded (r : CoapUri) (host : Bytes) (segments params : List Bytes) : Prop where
  host : Decodes r.host host
  segments : AllDecode r.segments segments
  params : AllDecode (r.params.getD []) params

/-- The options that RFC 7252, 6.4, derives from the parts, apart from rules about default values: the host, the port,
the segments of the path, the parts of the query; empty segments and parts are left out. -/
structure HasOptions (m m' : Msg) (host : Bytes) (port : Option Bytes) (segments params : List Bytes) : Prop where
  host : values 3 m' = values 3 m ++ [host]
  port : values 7 m' = values 7 m ++ port.toList
  path : values 11 m' = values 11 m ++ segments.filter (· ≠ [])
  query : values 15 m' = values 15 m ++ params.filter (· ≠ [])
  others : ∀ k, k ≠ 3 → k ≠ 7 → k ≠ 11 → k ≠ 15 → values k m' = values k m
  rest : m' = { m with ops := m'.ops }
  sorted : FreeCoAP.Msg.Sorted m'.ops

/-! ## Messages -/

/-- The methods of HTTP that CoAP has, with their codes (RFC 7252, 12.1.1). -/
def methods : List (Bytes × Nat) := [(str "GET", 1), (str "POST", 2), (str "PUT", 3), (str "DELETE", 4)]

/-- The values of the headers with a name, in order. -/
def headerValues (n : String) (hs : List Header) : List Bytes := (hs.filter (fun h => Http.Named h n)).map Header.value

/-- The integer that the value of an option stands for: big endian (RFC 7252, 3.2). -/
def uintValue (s : Bytes) : Nat := s.foldl (fun n c => n * 256 + c.toNat) 0

/-- The body of an HTTP message: a missing one is empty. -/
def bodyOf (h : HMsg) : Bytes := h.body.getD []

/-- The content of a CoAP response: what was received in blocks, if that is not empty, or else the payload. -/
def contentOf (blocks : Bytes) (m : Msg) : Bytes := if blocks = [] then m.payload else blocks

end FreeCoAP.Cross
