import Verif.Text

/-!
# The character classes against the alphabets

The functions of `<ctype.h>` occur in models and specifications alike; here they are compared
with the alphabets written out.
-/

namespace FreeCoAP

def digits : Bytes := str "0123456789"
def lowers : Bytes := str "abcdefghijklmnopqrstuvwxyz"
def uppers : Bytes := str "ABCDEFGHIJKLMNOPQRSTUVWXYZ"

theorem isDigit_iff (c : Byte) : isDigit c = true ↔ c ∈ digits :=
  forall_byte (P := fun c => isDigit c = true ↔ c ∈ digits) (by decide +kernel) c

theorem isAlpha_iff (c : Byte) : isAlpha c = true ↔ c ∈ lowers ∨ c ∈ uppers :=
  forall_byte (P := fun c => isAlpha c = true ↔ c ∈ lowers ∨ c ∈ uppers) (by decide +kernel) c

/-- Space, horizontal and vertical tab, form feed, line feed and carriage return. -/
theorem isSpace_iff (c : Byte) : isSpace c = true ↔ c ∈ [0x20, 0x09, 0x0B, 0x0C, 0x0A, 0x0D] :=
  forall_byte (P := fun c => isSpace c = true ↔ c ∈ [0x20, 0x09, 0x0B, 0x0C, 0x0A, 0x0D]) (by decide +kernel) c

/-- A letter is replaced by the one at the same place of the other alphabet, everything else is kept. -/
theorem toLower_letter : uppers.map toLower = lowers := by decide +kernel
theorem toLower_other (c : Byte) (h : c ∉ uppers) : toLower c = c :=
  forall_byte (P := fun c => c ∉ uppers → toLower c = c) (by decide +kernel) c h
theorem toUpper_letter : lowers.map toUpper = uppers := by decide +kernel
theorem toUpper_other (c : Byte) (h : c ∉ lowers) : toUpper c = c :=
  forall_byte (P := fun c => c ∉ lowers → toUpper c = c) (by decide +kernel) c h

/-- A write is undefined exactly outside the block, and otherwise changes the one byte. -/
theorem poke_ub (block : Bytes) (i : Nat) (b : Byte) : poke block i b = .ub ↔ block.length ≤ i := by
  unfold poke
  split <;> simp <;> omega
theorem poke_ok {block block' : Bytes} {i : Nat} {b : Byte} (h : poke block i b = .ok block') :
    block'.length = block.length ∧ block'[i]? = some b ∧ ∀ j, j ≠ i → block'[j]? = block[j]? := by
  unfold poke at h
  split at h
  · next hi =>
    cases h
    refine ⟨List.length_set, ?_, fun j hj => List.getElem?_set_ne (Ne.symm hj)⟩
    rw [List.getElem?_set_self hi]
  · cases h

end FreeCoAP
