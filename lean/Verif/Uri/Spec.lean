import Verif.Text
import Verif.Uri.Model

/-!
# Specification of URIs (RFC 3986)

Percent-encoding and the composition of a URI from its components, written from RFC 3986
(sections 2 and 5.3). Of the model only the record of the components is used.
-/

namespace FreeCoAP.Uri

/-- Unreserved characters and sub-delimiters (RFC 3986, 2.2 and 2.3). -/
def Literal (c : Byte) : Prop :=
  (0x41 ≤ c ∧ c ≤ 0x5A) ∨ (0x61 ≤ c ∧ c ≤ 0x7A) ∨ (0x30 ≤ c ∧ c ≤ 0x39) ∨ c ∈ str "-._~" ∨ c ∈ str "!$&'()*+,;="

instance (c : Byte) : Decidable (Literal c) := by unfold Literal; infer_instance

/-- An upper case hexadecimal digit. -/
def hexDigit (n : Nat) : Byte := if n < 10 then UInt8.ofNat (0x30 + n) else UInt8.ofNat (0x41 + (n - 10))

/-- The text of one byte of a component in which the characters `extra` need no encoding. -/
def pctByte (extra : Bytes) (c : Byte) : Bytes :=
  if Literal c ∨ c ∈ extra then [c] else [0x25, hexDigit (c.toNat / 16), hexDigit (c.toNat % 16)]

/-- The text of a component. -/
def pct (extra : Bytes) (s : Bytes) : Bytes := s.flatMap (pctByte extra)

/-- A component with what goes before and after it, or nothing. -/
def part (before : Bytes) (extra : Bytes) (after : Bytes) : Option Bytes → Bytes
  | none => []
  | some s => before ++ pct extra s ++ after

/-- The URI has an authority. -/
def Authority (u : Uri) : Prop := u.userinfo ≠ none ∨ u.host ≠ none ∨ u.port ≠ none

instance (u : Uri) : Decidable (Authority u) := by unfold Authority; infer_instance

/-- The text of the host: addresses with colons are put in brackets. -/
def hostText (h : Option Bytes) : Bytes :=
  match h with
  | none => []
  | some s => if 0x3A ∈ s then part (str "[") (str ":") (str "]") h else part [] [] [] h

/-- The text of a URI (RFC 3986, 5.3). -/
def text (u : Uri) : Bytes :=
  part [] [] (str ":") u.scheme ++ (if Authority u then str "//" else []) ++ part [] (str ":") (str "@") u.userinfo ++
  hostText u.host ++ part (str ":") [] [] u.port ++ part [] (str "/:@") [] u.path ++
  part (str "?") (str "?/:@") [] u.query ++ part (str "#") (str "?/:@") [] u.fragment

/-- All components are C strings. -/
def Clean (u : Uri) : Prop :=
  ∀ s, (u.scheme = some s ∨ u.userinfo = some s ∨ u.host = some s ∨ u.port = some s ∨ u.path = some s ∨
    u.query = some s ∨ u.fragment = some s) → (0 : Byte) ∉ s

/-- A URI that RFC 3986 allows: a scheme, that is not empty, a host if there is an authority, in that
case a path that is empty or starts with a slash, and otherwise a path that does not start with two
slashes. An empty path is no path. -/
structure Rfc (u : Uri) : Prop where
  clean : Clean u
  scheme : ∃ s, u.scheme = some s ∧ s ≠ []
  host : Authority u → ∃ s, u.host = some s ∧ s ≠ []
  path : u.path ≠ some []
  rooted : ∀ p, Authority u → u.path = some p → p.head? = some 0x2F
  noslash : ∀ p, ¬ Authority u → u.path = some p → ¬ (str "//" <+: p)

/-- The URIs that survive being written and read: the components are C strings; the scheme,
the host and the path are not empty where they are present; with an authority the path starts
with a slash, and without one it does not start with two; a text without scheme starts with a
slash or has no colon; and after an authority there is a `@` in the path only if there is user
information and a `:` only if there is a port. -/
structure Readable (u : Uri) : Prop where
  clean : Clean u
  scheme : u.scheme ≠ some []
  host : u.host ≠ some []
  path : u.path ≠ some []
  rooted : ∀ p, Authority u → u.path = some p → p.head? = some 0x2F
  noslash : ∀ p, ¬ Authority u → u.path = some p → ¬ (str "//" <+: p)
  relative : u.scheme = none → Authority u ∨ (∃ p, u.path = some p ∧ p.head? = some 0x2F) ∨
    ∀ s, (u.path = some s ∨ u.query = some s ∨ u.fragment = some s) → (0x3A : Byte) ∉ s
  atSign : ∀ p, Authority u → u.userinfo = none → u.path = some p → (0x40 : Byte) ∉ p
  colon : ∀ p, Authority u → u.port = none → u.path = some p → (0x3A : Byte) ∉ p

end FreeCoAP.Uri
