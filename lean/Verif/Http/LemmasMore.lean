import Verif.Http.LemmasSafe

/-!
# More bytes after a text that was accepted
-/

namespace FreeCoAP.Http

theorem crlf_more : {s a b : Bytes} → crlf s = some (a, b) → (u : Bytes) → crlf (s ++ u) = some (a, b ++ u)
  | [], _, _, h, _ => by cases h
  | c :: s, a, b, h, u => by
    unfold crlf at h
    rw [List.cons_append]
    unfold crlf
    split at h
    · rename_i hc
      cases h
      cases s with
      | nil => simp at hc
      | cons d s =>
        rw [List.cons_append, if_pos (by simpa using hc)]
        rfl
    · rename_i hc
      cases hs : crlf s with
      | none => rw [hs] at h; cases h
      | some p =>
        rw [hs] at h
        cases h
        rw [if_neg, crlf_more hs u]
        · rfl
        · cases s with
          | nil => cases hs
          | cons d s => simpa using hc

theorem lineEnd_more : {s a b : Bytes} → lineEnd s = some (a, b) → b ≠ [] → (u : Bytes) →
    lineEnd (s ++ u) = some (a, b ++ u)
  | [], _, _, h, _, _ => by cases h
  | [c], a, b, h, _, _ => by
    have := congrArg List.length (lineEnd_some h)
    simp only [List.length_append, CRLF, List.length_cons, List.length_nil] at this
    omega
  | c :: d :: s, a, b, h, hb, u => by
    by_cases hc : c = 0x0D ∧ d = 0x0A
    · obtain ⟨rfl, rfl⟩ := hc
      cases s with
      | nil =>
        cases h
        exact absurd rfl hb
      | cons e s =>
        have key : ∀ r, lineEnd (0x0D :: 0x0A :: e :: r) =
          if e = 0x20 ∨ e = 0x09 then (lineEnd r).map (fun p => (0x0D :: 0x0A :: e :: p.1, p.2))
          else some ([], e :: r) := fun r => rfl
        rw [key] at h
        rw [List.cons_append, List.cons_append, List.cons_append, key]
        split at h
        · rename_i he
          cases hs : lineEnd s with
          | none => rw [hs] at h; cases h
          | some p =>
            rw [hs] at h
            cases h
            rw [if_pos he, lineEnd_more hs hb u]
            rfl
        · rename_i he
          cases h
          rw [if_neg he]
          rfl
    · have key : ∀ r, lineEnd (c :: d :: r) = (lineEnd (d :: r)).map (fun p => (c :: p.1, p.2)) := by
        intro r
        conv => lhs; unfold lineEnd
        split
        · rename_i heq; cases heq; exact absurd ⟨rfl, rfl⟩ hc
        · rename_i heq; cases heq; exact absurd ⟨rfl, rfl⟩ hc
        · rfl
      rw [key] at h
      rw [List.cons_append, List.cons_append, key]
      cases hs : lineEnd (d :: s) with
      | none => rw [hs] at h; cases h
      | some p =>
        rw [hs] at h
        cases h
        have := lineEnd_more hs hb u
        rw [List.cons_append] at this
        rw [this]
        rfl

variable {mem : Nat → Bool}

theorem parseHeaders_nil (fuel : Nat) {r} : parseHeaders mem fuel [] ≠ .ok r := by
  cases fuel with
  | zero => simp [parseHeaders]
  | succ fuel => simp [parseHeaders, crlf]

theorem parseHeaders_more : (fuel : Nat) → {s : Bytes} → {hs : List Header} → {r : Bytes} →
    parseHeaders mem fuel s = .ok (hs, r) → (u : Bytes) → (fuel' : Nat) → fuel ≤ fuel' →
    parseHeaders mem fuel' (s ++ u) = .ok (hs, r ++ u)
  | 0, _, _, _, h, _, _, _ => by cases h
  | fuel + 1, s, hs, r, h, u, fuel', hf => by
    obtain ⟨f', rfl⟩ : ∃ f, fuel' = f + 1 := ⟨fuel' - 1, by omega⟩
    unfold parseHeaders at h ⊢
    split at h
    · cases h
    · rename_i rest hc
      cases h
      rw [crlf_more hc]
    · rename_i x y z hc
      rw [crlf_more hc]
      dsimp only
      split at h
      · cases h
      · rename_i line rest hle
        split at h
        · cases h
        · rename_i name value hcut
          obtain ⟨hd, e1, h⟩ := Out.bind_eq_ok.1 h
          obtain ⟨⟨y1, y2⟩, hy, h⟩ := Out.bind_eq_ok.1 h
          cases h
          have hne : rest ≠ [] := by
            rintro rfl
            exact parseHeaders_nil fuel hy
          rw [lineEnd_more hle hne]
          dsimp only
          rw [hcut]
          dsimp only
          rw [e1, Out.bind_ok, parseHeaders_more fuel hy u f' (by omega), Out.bind_ok]
          rfl

theorem parseStart_more {s : Bytes} {x : Bytes × Bytes × Bytes} {r : Bytes} (h : parseStart mem s = .ok (x, r))
    (u : Bytes) : parseStart mem (s ++ u) = .ok (x, r ++ u) := by
  unfold parseStart at h ⊢
  split at h
  · cases h
  · rename_i line rest hc
    rw [crlf_more hc]
    dsimp only
    obtain ⟨a1, e1, h⟩ := Out.bind_eq_ok.1 h
    obtain ⟨a2, e2, h⟩ := Out.bind_eq_ok.1 h
    obtain ⟨a3, e3, h⟩ := Out.bind_eq_ok.1 h
    obtain ⟨a4, e4, h⟩ := Out.bind_eq_ok.1 h
    obtain ⟨a5, e5, h⟩ := Out.bind_eq_ok.1 h
    cases h
    rw [e1, Out.bind_ok, e2, Out.bind_ok, e3, Out.bind_ok, e4, Out.bind_ok, e5, Out.bind_ok]
    rfl

/-- Parsing of the body does not remove headers. -/
theorem parseBody_headers {m m' : HMsg} {s r : Bytes} (h : parseBody mem m s = .ok (m', r)) :
    SaysChunked m.headers → SaysChunked m'.headers := by
  intro hc
  rw [parseBody_eq] at h
  rw [if_pos ((any_isChunked _).2 hc)] at h
  obtain ⟨x, -, h⟩ := Out.bind_eq_ok.1 h
  cases h
  obtain ⟨y, hy, h1⟩ := hc
  exact ⟨y, List.mem_append_left _ hy, h1⟩

theorem parseBody_more {m m' : HMsg} {s r : Bytes} (h : parseBody mem m s = .ok (m', r))
    (hc : ¬ SaysChunked m.headers) (u : Bytes) : parseBody mem m (s ++ u) = .ok (m', r ++ u) := by
  rw [parseBody_eq] at h ⊢
  rw [if_neg (fun e => hc ((any_isChunked _).1 e))] at h ⊢
  split at h
  · rename_i h0
    rw [if_pos h0]
    split at h
    · cases h
    · rename_i h1
      split at h
      · rename_i h2
        cases h
        rw [if_neg (by rw [List.length_append]; omega), if_pos h2, List.take_append_of_le_length (by omega),
          List.drop_append_of_le_length (by omega)]
      · cases h
  · rename_i h0
    cases h
    rw [if_neg h0]

theorem parseText_more {m : HMsg} {s r : Bytes} (h : parseText mem s = .ok (m, r)) (hc : ¬ SaysChunked m.headers)
    (u : Bytes) : parseText mem (s ++ u) = .ok (m, r ++ u) := by
  unfold parseText at h ⊢
  obtain ⟨⟨x, r1⟩, h1, h⟩ := Out.bind_eq_ok.1 h
  obtain ⟨⟨y, r2⟩, h2, h⟩ := Out.bind_eq_ok.1 h
  rw [parseStart_more h1, Out.bind_ok]
  dsimp only at h2 h ⊢
  rw [parseHeaders_more _ h2 u _ (by rw [List.length_append]; omega), Out.bind_ok]
  exact parseBody_more h (fun hh => hc (parseBody_headers h hh)) u

theorem parseChunked_length {s : Bytes} {b : Bytes} {hs : List Header} {r : Bytes}
    (h : parseChunked mem s = .ok (b, hs, r)) : r.length ≤ s.length := by
  unfold parseChunked at h
  obtain ⟨⟨t, cs, n⟩, h1, h⟩ := Out.bind_eq_ok.1 h
  obtain ⟨total, h2, h⟩ := Out.bind_eq_ok.1 h
  split at h
  · cases h
  split at h
  · cases h
  split at h
  · cases h
  obtain ⟨⟨t', cs', n'⟩, h3, h⟩ := Out.bind_eq_ok.1 h
  obtain ⟨x, -, h⟩ := Out.bind_eq_ok.1 h
  obtain ⟨⟨y1, y2⟩, h4, h⟩ := Out.bind_eq_ok.1 h
  cases h
  obtain ⟨_, -, -, e1⟩ := Soft.chunks _ (Soft.refl s) 0 h1
  obtain ⟨_, -, -, e2⟩ := Soft.chunks _ (Soft.refl t) 0 h3
  obtain ⟨p, hp⟩ := parseHeaders_rest _ _ h4
  have hl := congrArg List.length hp
  have h5 := e1.length
  have h6 := e2.length
  simp only [List.length_append, List.length_drop] at hl
  dsimp only
  omega

/-- The rest of the text is shorter than the text. -/
theorem parseText_length {m : HMsg} {s r : Bytes} (h : parseText mem s = .ok (m, r)) : r.length < s.length := by
  unfold parseText at h
  obtain ⟨⟨x, r1⟩, h1, g⟩ := Out.bind_eq_ok.1 h
  obtain ⟨⟨y, r2⟩, h2, f⟩ := Out.bind_eq_ok.1 g
  clear h g
  obtain ⟨p, rfl⟩ := parseStart_rest h1
  dsimp only at h2 f
  obtain ⟨q, rfl⟩ := parseHeaders_rest _ _ h2
  have hr : r.length ≤ r2.length := by
    rw [parseBody_eq] at f
    split at f
    · obtain ⟨⟨z1, z2, z3⟩, hz, f'⟩ := Out.bind_eq_ok.1 f
      cases f'
      exact parseChunked_length hz
    · split at f
      · split at f
        · cases f
        · split at f
          · cases f
            rw [List.length_drop]
            omega
          · cases f
      · cases f
        exact Nat.le_refl _
  simp only [List.length_append, CRLF, List.length_cons, List.length_nil]
  omega

end FreeCoAP.Http
