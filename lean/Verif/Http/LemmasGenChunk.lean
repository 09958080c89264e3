import Verif.Http.SpecChunk
import Verif.Http.LemmasGen

/-!
# Generation of chunks
-/

namespace FreeCoAP.Http

/-! ## Hexadecimal numbers -/

theorem hexChar_mem : ∀ n < 16, hexChar n ∈ str "0123456789abcdef" := by decide

theorem hexChar_value : ∀ n < 16, hexDigit (hexChar n) = n := by decide

theorem hexChar_zero : ∀ n < 16, hexChar n = 0x30 → n = 0 := by decide

theorem ofHex_append (s : Bytes) (c : Byte) : ofHex (s ++ [c]) = ofHex s * 16 + hexDigit c := by
  unfold ofHex
  rw [List.foldl_append]
  rfl

theorem hexText_ne (n : Nat) : hexText n ≠ [] := by
  rw [hexText]
  split <;> simp

theorem hexText_hexOf (n : Nat) : HexOf (hexText n) n := by
  rw [hexText]
  split
  · next h =>
    refine ⟨⟨by simp, ?_⟩, ?_, ?_⟩
    · intro c hc
      rw [List.mem_singleton] at hc
      exact hc ▸ hexChar_mem n h
    · have := hexChar_value n h
      simpa [ofHex] using this
    · intro e
      simp only [List.head?_cons, Option.some.injEq] at e
      rw [e]
  · next h =>
    have ih := hexText_hexOf (n / 16)
    have hr : n % 16 < 16 := Nat.mod_lt _ (by decide)
    refine ⟨⟨by simp, ?_⟩, ?_, ?_⟩
    · intro c hc
      rw [List.mem_append, List.mem_singleton] at hc
      rcases hc with hc | rfl
      · exact ih.number.2 c hc
      · exact hexChar_mem _ hr
    · rw [ofHex_append, ih.value, hexChar_value _ hr]
      omega
    · intro e
      have hne := hexText_ne (n / 16)
      have e1 : (hexText (n / 16)).head? = some 0x30 := by
        cases hx : hexText (n / 16) with
        | nil => exact absurd hx hne
        | cons a as => rw [hx] at e; exact e
      have e2 := ih.short e1
      have e3 := ih.value
      rw [e2] at e3
      have : ofHex [0x30] = 0 := by decide
      omega
termination_by n

/-! ## Buffers -/

/-- Copying is undefined exactly if it leaves the block. -/
theorem copyTo_ub (block : Bytes) (i : Nat) (src : Bytes) :
    copyTo block i src = .ub ↔ block.length < i + src.length := by
  unfold copyTo
  split <;> simp <;> omega

theorem copyTo_shape {len : Nat} {t : Bytes} (tail u : Bytes) (hu : t.length + u.length ≤ len - 1) :
    copyTo (shape len t tail) t.length u = .ok (shape len (t ++ u) tail) := by
  unfold copyTo
  rw [if_pos (by rw [shape_length]; omega)]
  congr 1
  unfold shape
  rw [List.take_of_length_le (l := t) (by omega), List.take_of_length_le (l := t ++ u) (by rw [List.length_append]; omega)]
  have e1 : len - min t.length (len - 1) = u.length + (len - min (t ++ u).length (len - 1)) := by
    rw [List.length_append]
    omega
  rw [e1, ← List.replicate_append_replicate]
  have e2 : t ++ (List.replicate u.length 0 ++ List.replicate (len - min (t ++ u).length (len - 1)) 0) ++ tail =
      t ++ (List.replicate u.length 0 ++ (List.replicate (len - min (t ++ u).length (len - 1)) 0 ++ tail)) := by
    simp only [List.append_assoc]
  rw [e2, List.take_left, List.drop_append]
  have e3 : List.drop (t.length + u.length) t = [] := List.drop_eq_nil_of_le (by omega)
  have e4 : t.length + u.length - t.length = u.length := by omega
  rw [e3, e4, List.nil_append]
  have e5 := List.drop_left (l₁ := List.replicate u.length (0 : Byte))
    (l₂ := List.replicate (len - min (t ++ u).length (len - 1)) 0 ++ tail)
  rw [List.length_replicate] at e5
  rw [e5]
  simp only [List.append_assoc]

theorem shape_take {len : Nat} (t u tail : Bytes) (h : t.length ≤ len - 1) :
    shape len (t ++ u.take (len - 1 - t.length)) tail = shape len (t ++ u) tail := by
  have e : t ++ u = t ++ u.take (len - 1 - t.length) ++ u.drop (len - 1 - t.length) := by
    rw [List.append_assoc, List.take_append_drop]
  by_cases hu : u.length ≤ len - 1 - t.length
  · rw [List.take_of_length_le hu]
  · rw [e]
    exact (shape_full _ tail (by rw [List.length_append, List.length_take]; omega)).symm

theorem snprintf_shape {len : Nat} {t : Bytes} (u tail : Bytes) (h : t.length < len) :
    snprintf (shape len t tail) t.length (len - t.length) u = .ok (shape len (t ++ u) tail) := by
  unfold snprintf
  rw [if_neg (by omega), show len - t.length - 1 = len - 1 - t.length by omega, ← shape_take t u tail (by omega)]
  have hv : (u.take (len - 1 - t.length)).length ≤ len - 1 - t.length := by rw [List.length_take]; omega
  generalize u.take (len - 1 - t.length) = v at hv
  have h1 := copyTo_shape tail v (len := len) (t := t) (by omega)
  unfold copyTo at h1 ⊢
  rw [if_pos (by rw [shape_length]; omega)] at h1
  rw [if_pos (by rw [shape_length, List.length_append, List.length_singleton]; omega)]
  have h2 := Out.ok.inj h1
  congr 1
  rw [← h2]
  have h3 : (shape len t tail).drop (t.length + v.length) = 0 :: (shape len t tail).drop (t.length + (v ++ [0]).length) := by
    rw [List.length_append, List.length_singleton, ← Nat.add_assoc]
    rw [List.drop_eq_getElem_cons (by rw [shape_length]; omega)]
    congr 1
    have : (shape len t tail)[t.length + v.length]? = some 0 := by
      unfold shape
      rw [List.take_of_length_le (l := t) (by omega), List.append_assoc, List.getElem?_append_right (by omega),
        List.getElem?_append_left (by rw [List.length_replicate]; omega), List.getElem?_replicate, if_pos (by omega)]
    rw [List.getElem?_eq_getElem (by rw [shape_length]; omega)] at this
    exact Option.some.inj this
  rw [h3]
  simp only [List.append_assoc, List.cons_append, List.nil_append]

theorem shape_nil (len : Nat) (tail : Bytes) : List.replicate len 0 ++ tail = shape len [] tail := by
  simp [shape]

theorem shape_writes {len : Nat} {buf : Bytes} (t : Bytes) (h : 0 < len) (hl : len ≤ buf.length) :
    Writes buf len t (shape len t (buf.drop len)) := by
  have h1 : (t.take (len - 1)).length = min t.length (len - 1) := by rw [List.length_take]; omega
  refine ⟨?_, ?_, ?_, fun _ => ?_⟩
  · rw [shape_length, List.length_drop]
    omega
  · unfold shape
    have h2 : (t.take (len - 1) ++ List.replicate (len - min t.length (len - 1)) 0).length = len := by
      rw [List.length_append, List.length_replicate, h1]
      omega
    generalize hu : t.take (len - 1) ++ List.replicate (len - min t.length (len - 1)) 0 = u at h2
    rw [← h2, List.drop_left]
  · unfold shape
    rw [← h1, List.append_assoc, List.take_left]
  · unfold shape
    rw [List.append_assoc, List.getElem?_append_right (by omega), h1, Nat.sub_self]
    obtain ⟨k, hk⟩ : ∃ k, len - min t.length (len - 1) = k + 1 := ⟨len - min t.length (len - 1) - 1, by omega⟩
    rw [hk]
    rfl

theorem snprintf_writes {len : Nat} {buf : Bytes} (t : Bytes) (hl : len ≤ buf.length) :
    ∃ b, snprintf buf 0 len t = .ok b ∧ Writes buf len t b := by
  unfold snprintf
  split
  · next h => exact ⟨buf, rfl, rfl, rfl, by simp [h], fun h' => by omega⟩
  · next h =>
    have h1 : (t.take (len - 1)).length = min t.length (len - 1) := by rw [List.length_take]; omega
    unfold copyTo
    have h2 : (t.take (len - 1) ++ [0]).length = min t.length (len - 1) + 1 := by
      rw [List.length_append, List.length_singleton, h1]
    rw [if_pos (by rw [h2]; omega)]
    refine ⟨_, rfl, ?_, ?_, ?_, fun _ => ?_⟩
    · rw [h2]
      simp only [List.take_zero, List.nil_append, List.length_append, List.length_drop, List.length_singleton, h1]
      omega
    · rw [h2, List.take_zero, List.nil_append, List.drop_append, h2, List.drop_drop,
        List.drop_eq_nil_of_le (by rw [h2]; omega), List.nil_append]
      congr 1
      omega
    · rw [List.take_zero, List.nil_append, List.append_assoc, ← h1, List.take_left]
    · rw [List.take_zero, List.nil_append, List.append_assoc, List.getElem?_append_right (by omega), h1, Nat.sub_self]
      rfl

theorem Writes.take {buf t b : Bytes} {len : Nat} (h : Writes buf len t b) (hl : t.length < len) :
    b.take t.length = t := by
  have := h.text
  rwa [Nat.min_eq_left (by omega), List.take_of_length_le (l := t) (by omega)] at this

/-- The text that is written for a chunk. -/
def chunkText (d : Bytes) : Bytes := hexText d.length ++ CRLF ++ d ++ CRLF

theorem chunkText_length (d : Bytes) : (chunkText d).length = (hexText d.length ++ str "\r\n").length + d.length + 2 := by
  unfold chunkText
  simp only [List.length_append]
  rfl

theorem genChunk_shape {out inp : Bytes} {len : Nat} (hl : len ≤ out.length) (hw : len < 2 ^ 64)
    (h : (hexText inp.length).length + 2 < len) :
    genChunk out len inp = .ok (shape len (chunkText inp) (out.drop len), (chunkText inp).length) := by
  unfold genChunk
  rw [if_pos hl, shape_nil]
  generalize hline : hexText inp.length ++ str "\r\n" = line
  have hll : line.length = (hexText inp.length).length + 2 := by rw [← hline, List.length_append]; rfl
  have h1 : genSize (shape len [] (out.drop len)) len inp.length =
      .ok (shape len line (out.drop len), line.length, len - line.length) := by
    unfold genSize
    dsimp only
    have := snprintf_shape (len := len) (t := []) line (out.drop len) (by simp; omega)
    rw [List.length_nil, Nat.sub_zero, List.nil_append] at this
    rw [hline, this, Out.bind_ok, if_pos (by omega)]
    rfl
  rw [h1, Out.bind_ok]
  dsimp only
  have h2 : genData (shape len line (out.drop len)) line.length (len - line.length) inp =
      .ok (shape len (chunkText inp) (out.drop len)) := by
    unfold genData
    dsimp only
    rw [if_neg (show ¬ len - line.length = 0 by omega)]
    have hn : (if inp.length ≤ len - line.length - 1 then inp.length else len - line.length - 1) =
        min inp.length (len - line.length - 1) := by split <;> omega
    rw [hn]
    have ht : (inp.take (min inp.length (len - line.length - 1))).length = min inp.length (len - line.length - 1) := by
      rw [List.length_take]; omega
    rw [copyTo_shape _ _ (by rw [ht]; omega), Out.bind_ok]
    have e1 : line.length + min inp.length (len - line.length - 1) =
        (line ++ inp.take (min inp.length (len - line.length - 1))).length := by rw [List.length_append, ht]
    have e2 : (len - line.length + 2 ^ 64 - min inp.length (len - line.length - 1)) % 2 ^ 64 =
        len - (line ++ inp.take (min inp.length (len - line.length - 1))).length := by
      rw [← e1]
      have e3 : len - line.length + 2 ^ 64 - min inp.length (len - line.length - 1) =
        len - (line.length + min inp.length (len - line.length - 1)) + 2 ^ 64 := by omega
      rw [e3, Nat.add_mod_right, Nat.mod_eq_of_lt (by omega)]
    rw [e2, e1, snprintf_shape _ _ (by rw [← e1]; omega)]
    congr 1
    have e4 : chunkText inp = line ++ inp ++ str "\r\n" := by unfold chunkText; rw [← hline]; rfl
    rw [e4]
    by_cases hf : inp.length ≤ len - line.length - 1
    · rw [Nat.min_eq_left hf, List.take_of_length_le (Nat.le_refl _)]
    · rw [shape_full _ _ (by rw [← e1]; omega), List.append_assoc line, ← shape_take line (inp ++ str "\r\n") _ (by omega)]
      rw [Nat.min_eq_right (by omega), List.take_append_of_le_length (by omega)]
      congr 3
      omega
  rw [h2, Out.bind_ok, chunkText_length, hline]
  rfl

/-- The size line fills the buffer: what is left is 0, and the largest number is taken for the space of the data. -/
theorem genChunk_overflow {out inp : Bytes} (h : out.length ≤ (hexText inp.length).length + 2) (hd : inp ≠ [])
    (hl : inp.length < 2 ^ 64) : genChunk out out.length inp = .ub := by
  unfold genChunk
  rw [if_pos (Nat.le_refl _), shape_nil, List.drop_length]
  generalize hline : hexText inp.length ++ str "\r\n" = line
  have hll : line.length = (hexText inp.length).length + 2 := by rw [← hline, List.length_append]; rfl
  have h1 : ∃ b, genSize (shape out.length [] []) out.length inp.length = .ok (b, out.length, 0) ∧
      b.length = out.length := by
    unfold genSize
    dsimp only
    rw [hline]
    obtain ⟨b, e1, e2⟩ := snprintf_writes (len := out.length) (buf := shape out.length [] []) line
      (by rw [shape_length]; omega)
    rw [e1, Out.bind_ok]
    have e3 : (if line.length ≤ out.length then line.length else out.length) = out.length := by split <;> omega
    rw [e3, Nat.sub_self]
    refine ⟨b, rfl, ?_⟩
    rw [e2.length, shape_length]
    rfl
  obtain ⟨b, e1, e2⟩ := h1
  rw [e1, Out.bind_ok]
  dsimp only
  have h3 : genData b out.length 0 inp = .ub := by
    unfold genData
    dsimp only
    rw [if_pos rfl, if_pos (by omega)]
    unfold copyTo
    have : 0 < inp.length := List.length_pos_iff.2 hd
    rw [if_neg (by rw [List.length_take]; omega)]
    rfl
  rw [h3]
  rfl

end FreeCoAP.Http
