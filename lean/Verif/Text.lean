import Verif.Common

/-!
# C strings and character classes

Shared by the models of the text handling modules of the proxy. A C string is the list of
its bytes without the terminating NUL. The functions of `<ctype.h>` are those of the "C"
locale. The proxy calls them with plain `char` arguments, which can be negative: the C
standard leaves that undefined, the GNU C library defines it (the result is "no" and
`toupper` is the identity), and the models follow the GNU C library.
-/

namespace FreeCoAP

/-- The bytes of a string literal. -/
def str (s : String) : Bytes := s.toList.map (fun c => UInt8.ofNat c.toNat)

/-- The C string at the start of a block: the bytes before the first NUL. -/
def cstr (b : Bytes) : Bytes := b.takeWhile (· ≠ 0)

/-- `strchr` for a nonzero character: what is before and what is after its first
occurrence. -/
def cut (c : Byte) : Bytes → Option (Bytes × Bytes)
  | [] => none
  | x :: s => if x = c then some ([], s) else (cut c s).map (fun p => (x :: p.1, p.2))

/-- `isalpha`. -/
def isAlpha (c : Byte) : Bool := (0x41 ≤ c && c ≤ 0x5A) || (0x61 ≤ c && c ≤ 0x7A)

/-- `isdigit`. -/
def isDigit (c : Byte) : Bool := 0x30 ≤ c && c ≤ 0x39

/-- `isspace`. -/
def isSpace (c : Byte) : Bool := c = 0x20 || (0x09 ≤ c && c ≤ 0x0D)

/-- `toupper`. -/
def toUpper (c : Byte) : Byte := if 0x61 ≤ c && c ≤ 0x7A then c - 0x20 else c

/-- `tolower`. -/
def toLower (c : Byte) : Byte := if 0x41 ≤ c && c ≤ 0x5A then c + 0x20 else c

/-- A write of one byte to a block: undefined outside the block. -/
def poke (block : Bytes) (i : Nat) (b : Byte) : Out Bytes :=
  if i < block.length then .ok (block.set i b) else .ub

theorem cut_eq_some {c : Byte} {s a b : Bytes} : cut c s = some (a, b) ↔ s = a ++ c :: b ∧ c ∉ a := by
  induction s generalizing a b with
  | nil => simp [cut]
  | cons x s ih =>
    unfold cut
    by_cases h : x = c
    · subst h
      rw [if_pos rfl]
      cases a with
      | nil => simp [eq_comm]
      | cons y a =>
        constructor
        · intro h; cases h
        · rintro ⟨h1, h2⟩
          cases h1
          simp at h2
    · rw [if_neg h]
      cases a with
      | nil =>
        constructor
        · intro h
          cases hc : cut c s <;> rw [hc] at h <;> cases h
        · rintro ⟨h1, -⟩
          cases h1
          exact absurd rfl h
      | cons y a =>
        constructor
        · intro hh
          cases hc : cut c s with
          | none => rw [hc] at hh; cases hh
          | some p =>
            rw [hc] at hh
            obtain ⟨p1, p2⟩ := p
            cases hh
            obtain ⟨e1, e2⟩ := ih.1 hc
            refine ⟨by rw [e1]; rfl, ?_⟩
            simp only [List.mem_cons, not_or]
            exact ⟨fun e => h e.symm, e2⟩
        · rintro ⟨h1, h2⟩
          cases h1
          rw [ih.2 ⟨rfl, fun hm => h2 (List.mem_cons_of_mem _ hm)⟩]
          rfl

theorem cut_eq_none {c : Byte} {s : Bytes} : cut c s = none ↔ c ∉ s := by
  constructor
  · intro h hm
    obtain ⟨a, b, e⟩ := List.append_of_mem hm
    induction s generalizing a b with
    | nil => cases hm
    | cons x s ih =>
      unfold cut at h
      by_cases hx : x = c
      · rw [if_pos hx] at h; cases h
      · rw [if_neg hx] at h
        have hm' : c ∈ s := by
          cases hm with
          | head => exact absurd rfl hx
          | tail _ h => exact h
        obtain ⟨a', b', e'⟩ := List.append_of_mem hm'
        cases hc : cut c s with
        | none => exact ih hc hm' a' b' e'
        | some p => rw [hc] at h; cases h
  · intro h
    cases hc : cut c s with
    | none => rfl
    | some p =>
      obtain ⟨a, b⟩ := p
      obtain ⟨e, -⟩ := cut_eq_some.1 hc
      exact absurd (by rw [e]; simp) h

theorem cut_append {c : Byte} {a : Bytes} (b : Bytes) (h : c ∉ a) : cut c (a ++ c :: b) = some (a, b) :=
  cut_eq_some.2 ⟨rfl, h⟩

theorem cstr_append {a b : Bytes} (h : (0 : Byte) ∉ a) : cstr (a ++ 0 :: b) = a := by
  unfold cstr
  rw [List.takeWhile_append_of_pos]
  · simp
  · intro x hx
    simp only [decide_eq_true_eq]
    rintro rfl
    exact h hx

theorem cstr_of_no_nul {b : Bytes} (h : (0 : Byte) ∉ b) : cstr b = b := by
  have := cstr_append (b := []) h
  unfold cstr at this ⊢
  rw [List.takeWhile_append_of_pos] at this
  · have e := List.takeWhile_append_of_pos (p := fun x : Byte => decide (x ≠ 0)) (l₁ := b) (l₂ := [])
      (fun x hx => by simp only [decide_eq_true_eq]; rintro rfl; exact h hx)
    simpa using e
  · exact fun x hx => by simp only [decide_eq_true_eq]; rintro rfl; exact h hx

theorem cstr_no_nul (b : Bytes) : (0 : Byte) ∉ cstr b := by
  intro h
  induction b with
  | nil => cases h
  | cons x b ih =>
    unfold cstr at h ih
    rw [List.takeWhile_cons] at h
    split at h
    · rename_i hx
      cases h with
      | head => simp at hx
      | tail _ h => exact ih h
    · cases h

/-- Every statement on bytes can be checked on all of them. -/
theorem forall_byte {P : Byte → Prop} (h : ∀ n, n < 256 → P (UInt8.ofNat n)) (c : Byte) : P c := by
  have := h c.toNat (UInt8.toNat_lt c)
  rwa [UInt8.ofNat_toNat] at this

end FreeCoAP
