import Verif.Msg.Spec

/-!
# Datagrams as they are read where plain `char` is signed

The grammar of `Spec.lean`, except that an extension byte of 0x80 or more counts as a negative number. The first
argument says whether there is such a byte.
-/

namespace FreeCoAP.Msg

/-- An option delta or length: an extension byte `b` of 0x80 or more stands for `13 + (b - 256)` modulo 2^32. -/
inductive SExt : (misread : Bool) → (value nibble : Nat) → Bytes → Prop where
  | small (n : Nat) (h : n < 13) : SExt false n n []
  | low (b : UInt8) (h : b.toNat < 128) : SExt false (13 + b.toNat) 13 [b]
  | high (b : UInt8) (h : 128 ≤ b.toNat) : SExt true ((2 ^ 32 + b.toNat - 243) % 2 ^ 32) 13 [b]
  | word (hi lo : UInt8) : SExt false (269 + 256 * hi.toNat + lo.toNat) 14 [hi, lo]

/-- A sequence of options; the number of an option is computed modulo 2^32. -/
inductive SOptions : (misread : Bool) → (prev : Nat) → List Op → Bytes → Prop where
  | nil (prev : Nat) : SOptions false prev [] []
  | cons {q r s : Bool} {prev delta dn ln : Nat} {db lb val rest : Bytes} {ops : List Op}
      (hd : SExt q delta dn db) (hl : SExt r val.length ln lb) (ht : SOptions s ((prev + delta) % 2 ^ 32) ops rest) :
      SOptions (q || r || s) prev (⟨(prev + delta) % 2 ^ 32, val⟩ :: ops)
        (UInt8.ofNat (16 * dn + ln) :: (db ++ lb ++ val ++ rest))

/-- The datagram `b` is read as the message `m`. -/
def Reads (misread : Bool) (m : Msg) (b : Bytes) : Prop :=
  Fields m ∧ Shape m ∧ ∃ ob pb, SOptions misread 0 m.ops ob ∧ Payload m.payload pb ∧
    b = [UInt8.ofNat (64 * 1 + 16 * m.type + m.token.length), UInt8.ofNat (32 * m.codeClass + m.codeDetail),
         UInt8.ofNat (m.msgId / 256), UInt8.ofNat (m.msgId % 256)] ++ m.token ++ ob ++ pb

end FreeCoAP.Msg
