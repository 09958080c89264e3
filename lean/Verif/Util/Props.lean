import Verif.Util.Spec
import Verif.Http.Model
import Verif.Tls.Model

/-!
# Bounded copies and appends of strings (C120)

`util_strncpy` and `util_strncat` (`proxy/common/src/util.c`), whose models are `Tls.strncpy` and `Http.strncat`. The strings are given without their
terminating NUL.
-/

namespace FreeCoAP.Util

open FreeCoAP.Http (strncat catLoop catAll)
open FreeCoAP.Tls (strncpy cpyLoop)

theorem written_length {dst s : Bytes} {i : Nat} (h : i + s.length ≤ dst.length) : (written dst i s).length = dst.length := by
  simp only [written, List.length_append, List.length_take, List.length_drop]
  omega

theorem written_nil (dst : Bytes) (i : Nat) : written dst i [] = dst := by simp [written]

theorem written_cons {dst s : Bytes} {i : Nat} {c : Byte} (h : i < dst.length) : written (dst.set i c) (i + 1) s = written dst i (c :: s) := by
  have e1 : (dst.set i c).take (i + 1) = dst.take i ++ [c] := by
    rw [List.take_set, List.take_add_one, List.getElem?_eq_getElem h, List.set_append_right _ _ (by rw [List.length_take]; omega)]
    rw [show i - (dst.take i).length = 0 by rw [List.length_take]; omega]
    rfl
  unfold written
  rw [e1, List.length_cons, List.drop_set_of_lt (by omega), show i + 1 + s.length = i + (s.length + 1) by omega]
  simp

theorem written_set {dst s : Bytes} {i : Nat} {c : Byte} (h : i + s.length < dst.length) :
    (written dst i s).set (i + s.length) c = written dst i (s ++ [c]) := by
  have hl : (dst.take i ++ s).length = i + s.length := by
    rw [List.length_append, List.length_take]
    omega
  unfold written
  rw [← hl, List.set_append_right _ _ (Nat.le_refl _), Nat.sub_self, hl, List.drop_eq_getElem_cons h, List.set_cons_zero, List.length_append,
    List.length_singleton, ← Nat.add_assoc]
  simp

/-- The loops of the two functions are the same. -/
theorem cpyLoop_eq (len : Nat) (src : Bytes) : ∀ (dst : Bytes) (i : Nat), cpyLoop len dst i src = catLoop len dst src i := by
  induction src with
  | nil => intro dst i; rfl
  | cons c src ih =>
    intro dst i
    unfold cpyLoop catLoop
    split
    · congr 1
      funext d
      exact ih d (i + 1)
    · exact ih dst i

theorem catLoop_eq {len : Nat} (src : Bytes) : ∀ (dst : Bytes) (i : Nat), len ≤ dst.length →
    catLoop len dst src i = .ok (written dst i (src.take (len - 1 - i)), i + (src.take (len - 1 - i)).length) := by
  induction src with
  | nil => intro dst i _; simp [catLoop, written_nil]
  | cons c src ih =>
    intro dst i h
    unfold catLoop
    by_cases hi : i < len - 1
    · rw [if_pos hi, poke, if_pos (by omega), Out.bind_ok, ih _ _ (by rw [List.length_set]; exact h), written_cons (by omega),
        show len - 1 - i = (len - 1 - (i + 1)) + 1 by omega, List.take_succ_cons, List.length_cons]
      congr 2
      omega
    · rw [if_neg hi, ih _ _ h, show len - 1 - i = 0 by omega, List.take_zero, List.take_zero]

/-! ## C120 -/

/-- What the comments of the functions say about the value that they return: the length of the string that the buffer would hold if it were long enough. -/
def C120_statement : Prop :=
  (∀ (dst src : Bytes) (len : Nat), len ≤ dst.length → ∃ dst', strncpy dst src len = .ok (dst', src.length)) ∧
  ∀ (dst src : Bytes) (n len : Nat), len ≤ dst.length → ∃ dst', strncat dst src n len = .ok (dst', n + src.length)

/-- It is violated for buffers of length 0: the functions return 0. -/
theorem C120_violated : ¬ C120_statement := by
  rintro ⟨h, -⟩
  obtain ⟨d, h⟩ := h [] [1] 0 (Nat.le_refl _)
  cases h

/-- With room for at least the terminating NUL, the copy writes as much of the string as leaves room for the NUL, then the NUL, and nothing else; it returns the
length of the string. -/
theorem C120_copy_partial (dst src : Bytes) (len : Nat) (h0 : 0 < len) (h : len ≤ dst.length) :
    strncpy dst src len = .ok (written dst 0 (src.take (len - 1) ++ [0]), src.length) := by
  unfold strncpy
  rw [if_neg (by omega), cpyLoop_eq, catLoop_eq src dst 0 h, Out.bind_ok]
  have hl : (src.take (len - 1 - 0)).length ≤ len - 1 := by rw [List.length_take]; omega
  dsimp only
  rw [poke, if_pos (by rw [written_length (by omega)]; omega), Out.bind_ok, written_set (by omega)]
  rfl

/-- The append, to a string whose length would be `n`, of which only `len - 1` bytes are there if it did not fit. -/
theorem C120_append_partial (dst src : Bytes) (n len : Nat) (h0 : 0 < len) (h : len ≤ dst.length) :
    strncat dst src n len = .ok (written dst (min n (len - 1)) (src.take (len - 1 - n) ++ [0]), n + src.length) := by
  unfold strncat
  rw [if_neg (by omega), catLoop_eq src dst n h, Out.bind_ok]
  dsimp only
  by_cases hn : n < len - 1
  · have hl : (src.take (len - 1 - n)).length ≤ len - 1 - n := by rw [List.length_take]; omega
    rw [if_pos (by omega), poke, if_pos (by rw [written_length (by omega)]; omega), Out.bind_ok, written_set (by omega), Nat.min_eq_left (by omega)]
    rfl
  · rw [show len - 1 - n = 0 by omega, List.take_zero, written_nil, List.length_nil, Nat.add_zero, List.nil_append, Nat.min_eq_right (by omega)]
    have e : (if n < len then n else len - 1) = len - 1 := by split <;> omega
    rw [e, poke, if_pos (by omega), Out.bind_ok]
    have := written_set (dst := dst) (s := []) (i := len - 1) (c := 0) (by simp; omega)
    rw [written_nil, List.length_nil, Nat.add_zero, List.nil_append] at this
    rw [this]
    rfl

theorem written_holds {len : Nat} {dst t src : Bytes} (h0 : 0 < len) (h : len ≤ dst.length) (ht : Holds len dst t) :
    Holds len (written dst (min t.length (len - 1)) (src.take (len - 1 - t.length) ++ [0])) (t ++ src) := by
  obtain ⟨rest, rfl⟩ := ht
  unfold Holds written
  have e : (t.take (len - 1) ++ [0] ++ rest).take (min t.length (len - 1)) = t.take (len - 1) := by
    rw [List.append_assoc, List.take_append_of_le_length (by rw [List.length_take]; omega), List.take_of_length_le (by rw [List.length_take]; omega)]
  rw [e, List.take_append]
  rw [← List.append_assoc (t.take (len - 1))]
  exact List.prefix_append _ _

theorem written_drop {len i : Nat} {dst s : Bytes} (h : i + s.length ≤ len) (hl : len ≤ dst.length) : (written dst i s).drop len = dst.drop len := by
  unfold written
  have e : (dst.take i ++ s).length = i + s.length := by rw [List.length_append, List.length_take]; omega
  rw [List.drop_append, List.drop_of_length_le (by omega), List.nil_append, List.drop_drop, e, show i + s.length + (len - (i + s.length)) = len by omega]

/-- Appends one after the other, each with the length that the one before returned. -/
theorem appends {len : Nat} (h0 : 0 < len) (ss : List Bytes) : ∀ (dst t : Bytes), len ≤ dst.length → Holds len dst t →
    ∃ dst', catAll len dst t.length ss = .ok (dst', (t ++ ss.flatten).length) ∧ Holds len dst' (t ++ ss.flatten) ∧
      dst'.length = dst.length ∧ dst'.drop len = dst.drop len := by
  induction ss with
  | nil => intro dst t h ht; exact ⟨dst, by simp [catAll], by simpa using ht, rfl, rfl⟩
  | cons s ss ih =>
    intro dst t h ht
    have hb : min t.length (len - 1) + (s.take (len - 1 - t.length) ++ [0]).length ≤ len := by
      rw [List.length_append, List.length_take, List.length_singleton]
      omega
    have hl := written_length (dst := dst) (show min t.length (len - 1) + (s.take (len - 1 - t.length) ++ [0]).length ≤ dst.length by omega)
    obtain ⟨d, g1, g2, g3, g4⟩ := ih _ (t ++ s) (by rw [hl]; exact h) (written_holds h0 h ht)
    refine ⟨d, ?_, ?_, g3.trans hl, g4.trans (written_drop hb h)⟩
    · unfold catAll
      rw [C120_append_partial dst s t.length len h0 h, Out.bind_ok]
      dsimp only
      rw [← List.length_append, g1, List.flatten_cons, List.append_assoc]
    · rw [List.flatten_cons, ← List.append_assoc]
      exact g2

/-- A string that is copied and then extended by any number of appends, each with the length that the call before returned: in the end the buffer holds as
much of the text as fits, with a terminating NUL; what is behind the buffer is unchanged; and the length returned is that of the whole text, so that the text is
complete exactly if this length is less than that of the buffer. -/
theorem C120_sequence_partial (dst src : Bytes) (ss : List Bytes) (len : Nat) (h0 : 0 < len) (h : len ≤ dst.length) (hs : (0 : Byte) ∉ src ++ ss.flatten) :
    ∃ dst1 dst' n, strncpy dst src len = .ok (dst1, src.length) ∧ catAll len dst1 src.length ss = .ok (dst', n) ∧
      n = (src ++ ss.flatten).length ∧ cstr dst' = (src ++ ss.flatten).take (len - 1) ∧ (cstr dst' = src ++ ss.flatten ↔ n < len) ∧
      dst'.length = dst.length ∧ dst'.drop len = dst.drop len := by
  have hb : 0 + (src.take (len - 1) ++ [0]).length ≤ len := by
    rw [List.length_append, List.length_take, List.length_singleton]
    omega
  have hl := written_length (dst := dst) (show 0 + (src.take (len - 1) ++ [0]).length ≤ dst.length by omega)
  have hh : Holds len (written dst 0 (src.take (len - 1) ++ [0])) src := by
    unfold Holds written
    rw [List.take_zero, List.nil_append]
    exact List.prefix_append _ _
  obtain ⟨d, g1, g2, g3, g4⟩ := appends h0 ss _ src (by rw [hl]; exact h) hh
  have hc : cstr d = (src ++ ss.flatten).take (len - 1) := by
    obtain ⟨rest, rfl⟩ := g2
    unfold cstr
    rw [List.append_assoc, List.takeWhile_append_of_pos, List.singleton_append, List.takeWhile_cons_of_neg (by simp), List.append_nil]
    intro b hb
    have : b ≠ 0 := fun e => hs (e ▸ List.mem_of_mem_take hb)
    simpa using this
  refine ⟨_, d, _, C120_copy_partial dst src len h0 h, g1, rfl, hc, ?_, g3.trans hl, g4.trans (written_drop hb h)⟩
  rw [hc]
  constructor
  · intro e
    have := congrArg List.length e
    rw [List.length_take] at this
    omega
  · intro e
    exact List.take_of_length_le (by omega)

/-- "ab", "c" and "de" in a buffer of five bytes, of which the second copy may use four. -/
example : strncpy [9, 9, 9, 9, 9] [97, 98] 5 = .ok ([97, 98, 0, 9, 9], 2) ∧ catAll 5 [97, 98, 0, 9, 9] 2 [[99], [100, 101]] = .ok ([97, 98, 99, 100, 0], 5) ∧
    strncpy [9, 9, 9, 9, 9] [97, 98, 99, 100] 4 = .ok ([97, 98, 99, 0, 9], 4) := by decide +kernel

/-- The hypotheses are met. -/
example : (0 : Nat) < 5 ∧ 5 ≤ [9, 9, 9, 9, 9].length ∧ (0 : Byte) ∉ ([97, 98] : Bytes) ++ [[99], [100, 101]].flatten := by decide

end FreeCoAP.Util
