import Verif.Common

/-! # Specification of the string functions of the proxy -/

namespace FreeCoAP.Util

/-- The buffer after `s` was written to it from position `i` on. -/
def written (dst : Bytes) (i : Nat) (s : Bytes) : Bytes := dst.take i ++ s ++ dst.drop (i + s.length)

/-- The buffer holds as much of the text `t` as fits into its first `len` bytes together with a terminating NUL. -/
def Holds (len : Nat) (dst t : Bytes) : Prop := t.take (len - 1) ++ [0] <+: dst

end FreeCoAP.Util
