import Verif.Http.ModelChunk
import Verif.Http.Spec

/-!
# Specification of the generation of chunks
-/

namespace FreeCoAP.Http

/-- The lowercase hexadecimal digits of a number, without leading zeros. -/
structure HexOf (digits : Bytes) (n : Nat) : Prop where
  number : digits ≠ [] ∧ ∀ c ∈ digits, c ∈ str "0123456789abcdef"
  value : ofHex digits = n
  short : digits.head? = some 0x30 → digits = [0x30]

/-- The text `t` of a chunk with the data `d` and no extension. -/
def ChunkOf (t d : Bytes) : Prop := ∃ digits, HexOf digits d.length ∧ t = digits ++ CRLF ++ d ++ CRLF

/-- What is found in a buffer, of which `len` bytes could be used, after a text was written to it: as much of the text
as leaves room for a NUL, and a NUL after it, and nothing is changed behind these bytes. -/
structure Writes (before : Bytes) (len : Nat) (t after : Bytes) : Prop where
  length : after.length = before.length
  rest : after.drop len = before.drop len
  text : after.take (min t.length (len - 1)) = t.take (len - 1)
  nul : 0 < len → after[min t.length (len - 1)]? = some 0

/-- A call that returned a length that is less than the length of its buffer, and the text of this length in the
buffer. -/
def Gives (call : Out (Bytes × Nat)) (len : Nat) (t : Bytes) : Prop :=
  ∃ b n, call = .ok (b, n) ∧ n < len ∧ b.take n = t

end FreeCoAP.Http
