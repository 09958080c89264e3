import Verif.Http.Spec

/-!
# Lemmas on the HTTP message module
-/

namespace FreeCoAP.Http

/-! ## Blocks that are large enough -/

theorem store_eq (mem : Nat → Bool) {size : Nat} {s : Bytes} (h : s.length < size) : store mem size s = if mem size then .ok s else .err .ENOMEM := by
  unfold store
  rw [if_pos h]

theorem startField_eq (mem : Nat → Bool) (s : Bytes) :
    startField mem s = if s.length = 0 then .err .EBADMSG else if mem (s.length + 1) then .ok s else .err .ENOMEM := by
  unfold startField
  rw [store_eq mem (Nat.lt_succ_self _)]

theorem parseBody_eq (mem : Nat → Bool) (m : HMsg) (s : Bytes) : parseBody mem m s =
    if m.headers.any isChunked then
      parseChunked mem s >>= fun r => pure ({ m with body := some r.1, headers := m.headers ++ r.2.1 }, r.2.2)
    else if contentLen m.headers ≠ 0 then
      if contentLen m.headers > s.length then .err .EAGAIN
      else if mem (contentLen m.headers + 1) then
        .ok ({ m with body := some (s.take (contentLen m.headers)) }, s.drop (contentLen m.headers))
      else .err .ENOMEM
    else .ok (m, s) := by
  unfold parseBody
  rw [store_eq mem (show (s.take (contentLen m.headers)).length < contentLen m.headers + 1 by rw [List.length_take]; omega)]
  cases mem (contentLen m.headers + 1) <;> rfl

theorem parse_eq (mem : Nat → Bool) (buf : Bytes) : parse mem buf =
    if mem (buf.length + 1) then
      parseText mem (cstr buf) >>= fun r => pure (r.1, (cstr buf).length - r.2.length)
    else .err .ENOMEM := by
  unfold parse
  rw [store_eq mem (Nat.lt_succ_self _)]
  cases mem (buf.length + 1) <;> rfl

theorem intercalate_cons {w : Bytes} {ws : List Bytes} (h : ws ≠ []) :
    [0x20].intercalate (w :: ws) = w ++ 0x20 :: [0x20].intercalate ws := by
  cases ws with
  | nil => exact absurd rfl h
  | cons v ws => simp [List.intercalate, List.intersperse]

theorem words_space {c : Byte} {s : Bytes} (h : isSpace c = true) : words (c :: s) = words s := by
  conv => lhs; unfold words
  rw [if_pos h]

theorem words_cons {c d : Byte} {s : Bytes} (h : isSpace c = false) (hd : isSpace d = false) :
    words (c :: d :: s) = (c :: (words (d :: s)).headD []) :: (words (d :: s)).tail := by
  conv => lhs; unfold words
  rw [if_neg (by simp [h])]
  dsimp only
  rw [if_neg (by simp [hd])]
  cases words (d :: s) <;> rfl

theorem words_cons_space {c d : Byte} {s : Bytes} (h : isSpace c = false) (hd : isSpace d = true) :
    words (c :: d :: s) = [c] :: words s := by
  conv => lhs; unfold words
  rw [if_neg (by simp [h])]
  dsimp only
  rw [if_pos hd, words_space hd]

theorem words_ne_nil {c : Byte} {s : Bytes} (h : isSpace c = false) : words (c :: s) ≠ [] := by
  cases s with
  | nil => simp [words, h]
  | cons d s =>
    by_cases hd : isSpace d = true
    · rw [words_cons_space h hd]; simp
    · rw [words_cons h (by simpa using hd)]; simp

theorem squeeze_words (s : Bytes) :
    (squeeze true s = if words s = [] then [] else 0x20 :: tidy s) ∧
    ∀ c, isSpace c = false → tidy (c :: s) = c :: squeeze false s := by
  induction s with
  | nil =>
    refine ⟨by simp [squeeze, words], fun c hc => ?_⟩
    simp [tidy, words, hc, squeeze, List.intercalate]
  | cons d s ih =>
    obtain ⟨ih1, ih2⟩ := ih
    by_cases hd : isSpace d = true
    · have e1 : ∀ sp, squeeze sp (d :: s) = squeeze true s := fun sp => by
        conv => lhs; unfold squeeze
        rw [if_pos hd]
      refine ⟨?_, fun c hc => ?_⟩
      · rw [e1, ih1, words_space hd]
        simp only [tidy, words_space hd]
      · rw [e1, ih1]
        by_cases hw : words s = []
        · rw [if_pos hw]
          simp [tidy, words_cons_space hc hd, hw, List.intercalate]
        · rw [if_neg hw]
          unfold tidy
          rw [words_cons_space hc hd, intercalate_cons hw]
          rfl
    · have hd' : isSpace d = false := by simpa using hd
      have e1 : squeeze false (d :: s) = d :: squeeze false s := by
        conv => lhs; unfold squeeze
        rw [if_neg hd, if_neg (by simp)]
        rfl
      have e2 : squeeze true (d :: s) = 0x20 :: d :: squeeze false s := by
        conv => lhs; unfold squeeze
        rw [if_neg hd, if_pos rfl]
        rfl
      refine ⟨?_, fun c hc => ?_⟩
      · rw [e2, if_neg (words_ne_nil hd'), ih2 d hd']
      · rw [e1, ← ih2 d hd']
        unfold tidy
        rw [words_cons hc hd']
        cases hw : words (d :: s) with
        | nil => exact absurd hw (words_ne_nil hd')
        | cons w ws =>
          cases ws with
          | nil => simp [List.intercalate]
          | cons v ws =>
            simp only [List.headD_cons, List.tail_cons]
            rw [intercalate_cons (w := c :: w) (by simp), intercalate_cons (w := w) (by simp)]
            rfl

theorem words_dropWhile (s : Bytes) : words (s.dropWhile isSpace) = words s := by
  induction s with
  | nil => rfl
  | cons c s ih =>
    by_cases h : isSpace c = true
    · rw [List.dropWhile_cons_of_pos h, ih, words_space h]
    · rw [List.dropWhile_cons_of_neg h]

theorem trimWs_eq (s : Bytes) : trimWs s = tidy s := by
  have e : tidy s = tidy (s.dropWhile isSpace) := by unfold tidy; rw [words_dropWhile]
  rw [e]
  unfold trimWs
  cases h : s.dropWhile isSpace with
  | nil => rfl
  | cons c s' =>
    have hc : isSpace c = false := by
      have := List.head?_dropWhile_not isSpace s
      rw [h] at this
      simpa using this
    rw [(squeeze_words s').2 c hc]
    conv => lhs; unfold squeeze
    rw [if_neg (by simp [hc]), if_neg (by simp)]
    rfl

/-- A tidy string is left alone. -/
theorem squeeze_tidy : (s : Bytes) → (hb : ∀ c ∈ s, isSpace c = true → c = 0x20) →
    (hl : s.getLast? ≠ some 0x20) → (hs : ∀ a b, s ≠ a ++ 0x20 :: 0x20 :: b) → (hh : s.head? ≠ some 0x20) →
    squeeze false s = s
  | [], _, _, _, _ => rfl
  | c :: s, hb, hl, hs, hh => by
    have hc : isSpace c = false := by
      by_cases h : isSpace c = true
      · exact absurd (by rw [hb c (by simp) h]; rfl) hh
      · simpa using h
    conv => lhs; unfold squeeze
    rw [if_neg (by simp [hc]), if_neg (by simp)]
    match s with
    | [] => rfl
    | [d] =>
      have hd : isSpace d = false := by
        by_cases h : isSpace d = true
        · exact absurd (by rw [hb d (by simp) h]; rfl) hl
        · simpa using h
      simp [squeeze, hd]
    | d :: e :: s =>
      by_cases hd : isSpace d = true
      · have ed := hb d (by simp) hd
        have he : isSpace e = false := by
          by_cases h : isSpace e = true
          · exact absurd (by rw [ed, hb e (by simp) h]; rfl) (hs [c] s)
          · simpa using h
        have := squeeze_tidy (e :: s)
          (fun x hx => hb x (List.mem_cons_of_mem _ (List.mem_cons_of_mem _ hx)))
          (by simpa [List.getLast?_cons] using hl)
          (fun a b h => hs (c :: d :: a) b (by rw [h]; rfl))
          (by
            intro h
            simp only [List.head?_cons, Option.some.injEq] at h
            rw [h] at he
            exact absurd he (by decide))
        conv => lhs; unfold squeeze
        rw [if_pos hd]
        conv => lhs; unfold squeeze
        rw [if_neg (by simp [he]), if_pos rfl, ed]
        have h2 : squeeze false (e :: s) = e :: squeeze false s := by
          conv => lhs; unfold squeeze
          rw [if_neg (by simp [he]), if_neg (by simp)]
          rfl
        rw [h2] at this
        simp only [List.cons_append, List.nil_append, List.cons.injEq, true_and] at this ⊢
        exact this
      · have hd' : isSpace d = false := by simpa using hd
        have := squeeze_tidy (d :: e :: s)
          (fun x hx => hb x (List.mem_cons_of_mem _ hx))
          (by simpa [List.getLast?_cons] using hl)
          (fun a b h => hs (c :: a) b (by rw [h]; rfl))
          (by
            intro h
            simp only [List.head?_cons, Option.some.injEq] at h
            rw [h] at hd'
            exact absurd hd' (by decide))
        rw [this]
        rfl
  termination_by s => s.length

theorem Tidy.trim {s : Bytes} (h : Tidy s) : trimWs s = s := by
  have e : s.dropWhile isSpace = s := by
    cases s with
    | nil => rfl
    | cons c s =>
      refine List.dropWhile_cons_of_neg fun hc => ?_
      exact h.first (by rw [h.blank c (by simp) hc]; rfl)
  unfold trimWs
  rw [e]
  exact squeeze_tidy s h.blank h.last h.single h.first

/-- White space before a tidy string is removed. -/
theorem Tidy.trim_cons {s : Bytes} (h : Tidy s) : trimWs (0x20 :: s) = s := by
  have := h.trim
  unfold trimWs at this ⊢
  rw [List.dropWhile_cons_of_pos (by decide)]
  exact this

theorem crlf_line {line : Bytes} (rest : Bytes) (h : 0x0D ∉ line) :
    crlf (line ++ CRLF ++ rest) = some (line, rest) := by
  induction line with
  | nil => rfl
  | cons c s ih =>
    have hc : c ≠ 0x0D := fun e => h (by simp [e])
    have := ih (fun hm => h (List.mem_cons_of_mem _ hm))
    simp only [List.cons_append, crlf]
    rw [if_neg (fun e => hc e.1), this]
    rfl

theorem crlf_none {s : Bytes} (h : 0x0D ∉ s) : crlf s = none ∧ crlf (s ++ [0x0D]) = none := by
  induction s with
  | nil => exact ⟨rfl, rfl⟩
  | cons c s ih =>
    have hc : c ≠ 0x0D := fun e => h (by simp [e])
    obtain ⟨h1, h2⟩ := ih (fun hm => h (List.mem_cons_of_mem _ hm))
    refine ⟨?_, ?_⟩
    · rw [crlf, if_neg (fun e => hc e.1), h1]; rfl
    · rw [List.cons_append, crlf, if_neg (fun e => hc e.1), h2]; rfl

/-- A text that stops before the end of its line. -/
theorem take_line {line rest : Bytes} {k : Nat} (h : 0x0D ∉ line) (hk : k < line.length + 2) :
    ∃ s, 0x0D ∉ s ∧ ((line ++ CRLF ++ rest).take k = s ∨ (line ++ CRLF ++ rest).take k = s ++ [0x0D]) := by
  by_cases hl : k ≤ line.length
  · refine ⟨line.take k, fun hm => h (List.mem_of_mem_take hm), .inl ?_⟩
    rw [List.append_assoc, List.take_append_of_le_length hl]
  · refine ⟨line, h, .inr ?_⟩
    have : k = line.length + 1 := by omega
    subst this
    rw [List.append_assoc, List.take_length_add_append]
    rfl

theorem crlf_take {line rest : Bytes} {k : Nat} (h : 0x0D ∉ line) (hk : k < line.length + 2) :
    crlf ((line ++ CRLF ++ rest).take k) = none := by
  obtain ⟨s, hs, e | e⟩ := take_line (rest := rest) h hk <;> rw [e]
  · exact (crlf_none hs).1
  · exact (crlf_none hs).2

theorem lineEnd_cons {c : Byte} (s : Bytes) (h : c ≠ 0x0D) :
    lineEnd (c :: s) = (lineEnd s).map (fun p => (c :: p.1, p.2)) := by
  conv => lhs; unfold lineEnd
  split <;> first | rfl | exact absurd rfl h

theorem lineEnd_line {line rest : Bytes} (h : 0x0D ∉ line)
    (hr : rest.head? ≠ some 0x20 ∧ rest.head? ≠ some 0x09) :
    lineEnd (line ++ CRLF ++ rest) = some (line, rest) := by
  induction line with
  | nil =>
    cases rest with
    | nil => rfl
    | cons d rest =>
      change lineEnd (0x0D :: 0x0A :: d :: rest) = _
      conv => lhs; unfold lineEnd
      simp only
      rw [if_neg]
      rintro (e | e) <;> subst e
      · exact hr.1 rfl
      · exact hr.2 rfl
  | cons c s ih =>
    have hc : c ≠ 0x0D := fun e => h (by simp [e])
    simp only [List.cons_append]
    rw [lineEnd_cons _ hc, ih (fun hm => h (List.mem_cons_of_mem _ hm))]
    rfl

end FreeCoAP.Http
