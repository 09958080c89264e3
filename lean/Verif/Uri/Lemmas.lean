import Verif.Uri.LemmasDecode

/-!
# Lemmas on the URI module
-/

namespace FreeCoAP.Uri

/-! ## Characters -/

theorem isAllowed_iff (c : Byte) : isAllowed c = true ↔ Literal c := by
  have := forall_byte (P := fun c => isAllowed c = decide (Literal c)) (by decide +kernel) c
  rw [this]; simp

theorem encodeOctet_eq (c : Byte) :
    encodeOctet c = some [0x25, hexDigit (c.toNat / 16), hexDigit (c.toNat % 16)] :=
  forall_byte (P := fun c => encodeOctet c = some [0x25, hexDigit (c.toNat / 16), hexDigit (c.toNat % 16)])
    (by decide +kernel) c

theorem twoHex_digits (c : Byte) :
    (twoHexToInt (hexDigit (c.toNat / 16)) (hexDigit (c.toNat % 16))).map UInt8.ofNat = some c :=
  forall_byte (P := fun c => (twoHexToInt (hexDigit (c.toNat / 16)) (hexDigit (c.toNat % 16))).map UInt8.ofNat = some c)
    (by decide +kernel) c

theorem hexDigit_literal (c : Byte) : Literal (hexDigit (c.toNat / 16)) ∧ Literal (hexDigit (c.toNat % 16)) :=
  forall_byte (P := fun c => Literal (hexDigit (c.toNat / 16)) ∧ Literal (hexDigit (c.toNat % 16))) (by decide +kernel) c

theorem not_literal_pct : ¬ Literal 0x25 := by decide +kernel
theorem not_literal_ff : ¬ Literal 0xFF := by decide +kernel
theorem not_literal_nul : ¬ Literal 0 := by decide +kernel
theorem not_literal_colon : ¬ Literal 0x3A := by decide +kernel
theorem not_literal_slash : ¬ Literal 0x2F := by decide +kernel
theorem not_literal_at : ¬ Literal 0x40 := by decide +kernel
theorem not_literal_quest : ¬ Literal 0x3F := by decide +kernel
theorem not_literal_hash : ¬ Literal 0x23 := by decide +kernel
theorem not_literal_open : ¬ Literal 0x5B := by decide +kernel
theorem not_literal_close : ¬ Literal 0x5D := by decide +kernel

theorem pct_nil (ex : Bytes) : pct ex [] = [] := rfl

theorem pct_cons (ex : Bytes) (c : Byte) (s : Bytes) : pct ex (c :: s) = pctByte ex c ++ pct ex s := by
  simp [pct]

theorem pct_append (ex a b : Bytes) : pct ex (a ++ b) = pct ex a ++ pct ex b := by simp [pct]

theorem pctByte_mem {ex : Bytes} {c x : Byte} (h : x ∈ pctByte ex c) : Literal x ∨ (x ∈ ex ∧ x = c) ∨ x = 0x25 := by
  unfold pctByte at h
  split at h
  · rename_i hc
    simp only [List.mem_singleton] at h
    subst h
    rcases hc with hc | hc
    · exact Or.inl hc
    · exact Or.inr (Or.inl ⟨hc, rfl⟩)
  · simp only [List.mem_cons, List.not_mem_nil, or_false] at h
    rcases h with h | h | h
    · exact Or.inr (Or.inr h)
    · exact Or.inl (h ▸ (hexDigit_literal c).1)
    · exact Or.inl (h ▸ (hexDigit_literal c).2)

/-- The characters of the text of a component. -/
theorem pct_mem {ex s : Bytes} {x : Byte} (h : x ∈ pct ex s) : Literal x ∨ (x ∈ ex ∧ x ∈ s) ∨ x = 0x25 := by
  unfold pct at h
  obtain ⟨c, hc, hx⟩ := List.mem_flatMap.1 h
  rcases pctByte_mem hx with h1 | ⟨h1, rfl⟩ | h1
  · exact Or.inl h1
  · exact Or.inr (Or.inl ⟨h1, hc⟩)
  · exact Or.inr (Or.inr h1)

theorem not_mem_pct {ex s : Bytes} {x : Byte} (h1 : ¬ Literal x) (h2 : x ∉ ex ∨ x ∉ s) (h3 : x ≠ 0x25) : x ∉ pct ex s := by
  intro h
  rcases pct_mem h with h | h | h
  · exact h1 h
  · rcases h2 with h2 | h2
    · exact h2 h.1
    · exact h2 h.2
  · exact h3 h

theorem pct_ne_nil {ex s : Bytes} (h : s ≠ []) : pct ex s ≠ [] := by
  cases s with
  | nil => exact absurd rfl h
  | cons c s =>
    rw [pct_cons]
    unfold pctByte
    split <;> simp

/-- The text of a component starts with a character of its own only if it need not be
encoded. -/
theorem pct_head {ex s : Bytes} {x : Byte} (h1 : ¬ Literal x) (h3 : x ≠ 0x25) (h : (pct ex s).head? = some x) :
    s.head? = some x ∧ x ∈ ex := by
  cases s with
  | nil => cases h
  | cons c s =>
    rw [pct_cons] at h
    unfold pctByte at h
    split at h
    · rename_i hc
      simp only [List.cons_append, List.head?_cons, Option.some.injEq] at h
      subst h
      rcases hc with hc | hc
      · exact absurd hc h1
      · exact ⟨rfl, hc⟩
    · simp only [List.cons_append, List.head?_cons, Option.some.injEq] at h
      exact absurd h.symm h3

/-! ## Decoding -/

theorem decodeStr_plain {sx : Bool} {c : Byte} (s : Bytes) (h1 : c ≠ 0x25) (h2 : sx = true → c ≠ 0xFF) :
    decodeStr sx (c :: s) = (decodeStr sx s).map (fun t => c :: t) := by
  rw [decodeStr.eq_def]
  simp only
  rw [if_neg h1, if_neg (fun hh => h2 hh.1 hh.2)]

theorem decodeStr_escape {sx : Bool} (c : Byte) (s : Bytes) :
    decodeStr sx (0x25 :: hexDigit (c.toNat / 16) :: hexDigit (c.toNat % 16) :: s) =
      (decodeStr sx s).map (fun t => c :: t) := by
  rw [decodeStr.eq_def]
  simp only [if_true]
  have := twoHex_digits c
  cases h : twoHexToInt (hexDigit (c.toNat / 16)) (hexDigit (c.toNat % 16)) with
  | none => rw [h] at this; cases this
  | some v =>
    rw [h] at this
    simp only [Option.map_some, Option.some.injEq] at this
    simp only [this]

/-- Decoding undoes encoding. -/
theorem decode_pct {sx : Bool} {ex : Bytes} (h1 : (0x25 : Byte) ∉ ex) (h2 : sx = true → (0xFF : Byte) ∉ ex) (s : Bytes) :
    decodeStr sx (pct ex s) = some s := by
  induction s with
  | nil => simp [pct, decodeStr]
  | cons c s ih =>
    rw [pct_cons]
    unfold pctByte
    split
    · rename_i hc
      rw [List.singleton_append, decodeStr_plain, ih]
      · rfl
      · rintro rfl
        rcases hc with hc | hc
        · exact not_literal_pct hc
        · exact h1 hc
      · rintro hs rfl
        rcases hc with hc | hc
        · exact not_literal_ff hc
        · exact h2 hs hc
    · simp only [List.cons_append, List.nil_append]
      rw [decodeStr_escape, ih]
      rfl

theorem component_pct {sx : Bool} {mem : Site → Bool} {site : Site} {ex s : Bytes} (hm : mem site = true)
    (h1 : (0x25 : Byte) ∉ ex) (h2 : (0xFF : Byte) ∉ ex) (hs : (0 : Byte) ∉ s) :
    component sx mem site (pct ex s) = .ok s := by
  rw [component_eq]; unfold decode
  rw [if_pos hm, decode_pct h1 (fun _ => h2)]
  simp only
  rw [cstr_of_no_nul hs]

/-! ## Writing -/

/-- The buffer holds the text `t`, as far as it fits in `len` bytes with a NUL after it; the
bytes after the first `len` are `rest`. -/
def Holds (len : Nat) (rest t buf : Bytes) : Prop :=
  ∃ pre, pre <+: t ∧ buf = pre ++ List.replicate (len - pre.length) 0 ++ rest ∧ pre.length ≤ len ∧
    (0 < len → pre.length < len) ∧ (pre = t ∨ (len ≤ t.length ∧ len ≤ pre.length + 3))

theorem set_append_replicate {pre rest : Bytes} {k : Nat} (c : Byte) :
    (pre ++ List.replicate (k + 1) 0 ++ rest).set pre.length c = pre ++ [c] ++ List.replicate k 0 ++ rest := by
  rw [List.append_assoc, List.set_append_right _ _ (Nat.le_refl _), Nat.sub_self, List.replicate_succ]
  simp

theorem Holds.put {len : Nat} {rest t buf : Bytes} (h : Holds len rest t buf) (c : Byte) (hn : t.length + 1 < len) :
    ∃ buf', poke buf t.length c = .ok buf' ∧ Holds len rest (t ++ [c]) buf' := by
  obtain ⟨pre, hp, rfl, hl, hl', hor⟩ := h
  rcases hor with rfl | ⟨h1, -⟩
  · unfold poke
    rw [if_pos (by simp only [List.length_append, List.length_replicate]; omega)]
    refine ⟨_, rfl, pre ++ [c], List.prefix_refl _, ?_, ?_, ?_, Or.inl rfl⟩
    · rw [show len - pre.length = len - (pre ++ [c]).length + 1 from by simp; omega]
      exact set_append_replicate c
    · simp; omega
    · intro; simp; omega
  · omega

theorem Holds.skip {len : Nat} {rest t buf : Bytes} (h : Holds len rest t buf) (cs : Bytes) (hc : cs.length ≤ 3)
    (hn : len ≤ t.length + cs.length) (h0 : cs ≠ [] ) : Holds len rest (t ++ cs) buf := by
  obtain ⟨pre, hp, rfl, hl, hl', hor⟩ := h
  refine ⟨pre, hp.trans (List.prefix_append _ _), rfl, hl, hl', Or.inr ⟨by simp; omega, ?_⟩⟩
  rcases hor with rfl | ⟨-, h2⟩
  · omega
  · exact h2

theorem encodeStr_holds {len : Nat} {rest ex : Bytes} : ∀ (src t buf : Bytes), Holds len rest t buf →
    ∃ buf', encodeStr buf ex len src t.length = .ok (buf', (t ++ pct ex src).length) ∧ Holds len rest (t ++ pct ex src) buf'
  | [], t, buf, h => ⟨buf, by simp [encodeStr, pct_nil], by simpa [pct_nil] using h⟩
  | c :: src, t, buf, h => by
    rw [encodeStr.eq_def]
    simp only
    rw [pct_cons]
    by_cases hc : Literal c ∨ c ∈ ex
    · have hb : (isAllowed c || ex.contains c) = true := by
        rcases hc with hc | hc
        · rw [(isAllowed_iff c).2 hc]; rfl
        · rw [List.contains_iff_mem.2 hc, Bool.or_true]
      have ep : pctByte ex c = [c] := by unfold pctByte; rw [if_pos hc]
      rw [if_pos hb, ep, ← List.append_assoc]
      have el : t.length + 1 = (t ++ [c]).length := by simp
      by_cases hn : t.length + 1 < len
      · rw [if_pos hn]
        obtain ⟨buf1, e1, h1⟩ := h.put c hn
        rw [e1, Out.bind_ok, el]
        exact encodeStr_holds src _ _ h1
      · rw [if_neg hn, el]
        exact encodeStr_holds src _ _ (h.skip [c] (by simp) (by simp; omega) (by simp))
    · have hb : ¬ (isAllowed c || ex.contains c) = true := by
        rw [Bool.or_eq_true, isAllowed_iff, List.contains_iff_mem]
        exact hc
      have ep : pctByte ex c = [0x25, hexDigit (c.toNat / 16), hexDigit (c.toNat % 16)] := by
        unfold pctByte; rw [if_neg hc]
      rw [if_neg hb, ep, ← List.append_assoc]
      by_cases hn : t.length + 3 < len
      · rw [if_pos hn, encodeOctet_eq]
        simp only
        generalize hexDigit (c.toNat / 16) = x
        generalize hexDigit (c.toNat % 16) = y
        obtain ⟨buf1, e1, h1⟩ := h.put 0x25 (by omega)
        rw [e1, Out.bind_ok]
        obtain ⟨buf2, e2, h2⟩ := h1.put x (by simp; omega)
        rw [show t.length + 1 = (t ++ [0x25]).length from by simp, e2, Out.bind_ok]
        obtain ⟨buf3, e3, h3⟩ := h2.put y (by simp; omega)
        rw [show t.length + 2 = (t ++ [0x25] ++ [x]).length from by simp, e3, Out.bind_ok]
        rw [show t ++ [0x25, x, y] = t ++ [0x25] ++ [x] ++ [y] from by simp,
          show t.length + 3 = (t ++ [0x25] ++ [x] ++ [y]).length from by simp]
        exact encodeStr_holds src _ _ h3
      · rw [if_neg hn]
        generalize hexDigit (c.toNat / 16) = x
        generalize hexDigit (c.toNat % 16) = y
        rw [show t.length + 3 = (t ++ [0x25, x, y]).length from by simp]
        exact encodeStr_holds src _ _ (h.skip [0x25, x, y] (by simp) (by simp; omega) (by simp))

theorem copyStr_holds {len : Nat} {rest : Bytes} : ∀ (src t buf : Bytes), Holds len rest t buf →
    ∃ buf', copyStr buf len src t.length = .ok (buf', (t ++ src).length) ∧ Holds len rest (t ++ src) buf'
  | [], t, buf, h => ⟨buf, by simp [copyStr], by simpa using h⟩
  | c :: src, t, buf, h => by
    rw [copyStr.eq_def]
    simp only
    have el : t.length + 1 = (t ++ [c]).length := by simp
    rw [show t ++ c :: src = t ++ [c] ++ src from by simp]
    by_cases hn : t.length + 1 < len
    · rw [if_pos hn]
      obtain ⟨buf1, e1, h1⟩ := h.put c hn
      rw [e1, Out.bind_ok, el]
      exact copyStr_holds src _ _ h1
    · rw [if_neg hn, el]
      exact copyStr_holds src _ _ (h.skip [c] (by simp) (by simp; omega) (by simp))

/-- What a step of `generate` does to the buffer: it appends `a` to the text. -/
def Appends (len : Nat) (rest a : Bytes) (f : Bytes → Nat → Out (Bytes × Nat)) : Prop :=
  ∀ t buf, Holds len rest t buf → ∃ buf', f buf t.length = .ok (buf', (t ++ a).length) ∧ Holds len rest (t ++ a) buf'

theorem Appends.seq {len : Nat} {rest a b : Bytes} {f g : Bytes → Nat → Out (Bytes × Nat)}
    (hf : Appends len rest a f) (hg : Appends len rest b g) :
    Appends len rest (a ++ b) (fun buf n => f buf n >>= fun p => g p.1 p.2) := by
  intro t buf h
  obtain ⟨b1, e1, h1⟩ := hf t buf h
  obtain ⟨b2, e2, h2⟩ := hg _ _ h1
  refine ⟨b2, ?_, ?_⟩
  · show (f buf t.length >>= fun p => g p.1 p.2) = _
    rw [e1, Out.bind_ok, e2, List.append_assoc]
  · rw [← List.append_assoc]; exact h2

theorem Appends.encode (len : Nat) (rest ex src : Bytes) :
    Appends len rest (pct ex src) (fun buf n => encodeStr buf ex len src n) := fun t buf h => encodeStr_holds src t buf h

theorem Appends.copy (len : Nat) (rest src : Bytes) :
    Appends len rest src (fun buf n => copyStr buf len src n) := fun t buf h => copyStr_holds src t buf h

theorem Appends.skip (len : Nat) (rest : Bytes) : Appends len rest [] (fun buf n => pure (buf, n)) :=
  fun t buf h => ⟨buf, by simp, by simpa using h⟩

theorem Holds.start (len : Nat) (rest : Bytes) : Holds len rest [] (List.replicate len 0 ++ rest) :=
  ⟨[], List.prefix_refl _, by simp, by simp, by simp, Or.inl rfl⟩

theorem hostText_some (s : Bytes) : hostText (some s) =
    if cut 0x3A s ≠ none then str "[" ++ (pct (str ":") s ++ str "]") else pct [] s := by
  simp only [hostText, part, List.nil_append, List.append_nil, List.append_assoc]
  by_cases h : (0x3A : Byte) ∈ s
  · rw [if_pos h, if_pos (fun hc => cut_eq_none.1 hc h)]
  · rw [if_neg h, if_neg (fun hc => hc (cut_eq_none.2 h))]

theorem genScheme_appends (u : Uri) (len : Nat) (rest : Bytes) :
    Appends len rest (part [] [] (str ":") u.scheme) (genScheme u len) := by
  unfold genScheme
  cases u.scheme with
  | none => exact Appends.skip len rest
  | some s => exact (Appends.encode len rest [] s).seq (Appends.copy len rest (str ":"))

theorem genSlashes_appends (u : Uri) (len : Nat) (rest : Bytes) :
    Appends len rest (if Authority u then str "//" else []) (genSlashes u len) := by
  unfold genSlashes
  by_cases h : Authority u
  · rw [if_pos h]
    simp only [Authority] at h
    simp only [if_pos h]
    exact Appends.copy len rest (str "//")
  · rw [if_neg h]
    simp only [Authority] at h
    simp only [if_neg h]
    exact Appends.skip len rest

theorem genUserinfo_appends (u : Uri) (len : Nat) (rest : Bytes) :
    Appends len rest (part [] (str ":") (str "@") u.userinfo) (genUserinfo u len) := by
  unfold genUserinfo
  cases u.userinfo with
  | none => exact Appends.skip len rest
  | some s => exact (Appends.encode len rest (str ":") s).seq (Appends.copy len rest (str "@"))

theorem genHost_appends (u : Uri) (len : Nat) (rest : Bytes) :
    Appends len rest (hostText u.host) (genHost u len) := by
  unfold genHost
  cases u.host with
  | none => exact Appends.skip len rest
  | some s =>
    rw [hostText_some]
    by_cases h : cut 0x3A s ≠ none
    · simp only [if_pos h]
      exact (Appends.copy len rest (str "[")).seq ((Appends.encode len rest (str ":") s).seq (Appends.copy len rest (str "]")))
    · simp only [if_neg h]
      exact Appends.encode len rest [] s

theorem genPort_appends (u : Uri) (len : Nat) (rest : Bytes) :
    Appends len rest (part (str ":") [] [] u.port) (genPort u len) := by
  unfold genPort
  cases u.port with
  | none => exact Appends.skip len rest
  | some s =>
    simp only [part, List.append_nil]
    exact (Appends.copy len rest (str ":")).seq (Appends.encode len rest [] s)

theorem genPath_appends (u : Uri) (len : Nat) (rest : Bytes) :
    Appends len rest (part [] (str "/:@") [] u.path) (genPath u len) := by
  unfold genPath
  cases u.path with
  | none => exact Appends.skip len rest
  | some s =>
    simp only [part, List.append_nil, List.nil_append]
    exact Appends.encode len rest (str "/:@") s

theorem genQuery_appends (u : Uri) (len : Nat) (rest : Bytes) :
    Appends len rest (part (str "?") (str "?/:@") [] u.query) (genQuery u len) := by
  unfold genQuery
  cases u.query with
  | none => exact Appends.skip len rest
  | some s =>
    simp only [part, List.append_nil]
    exact (Appends.copy len rest (str "?")).seq (Appends.encode len rest (str "?/:@") s)

theorem genFragment_appends (u : Uri) (len : Nat) (rest : Bytes) :
    Appends len rest (part (str "#") (str "?/:@") [] u.fragment) (genFragment u len) := by
  unfold genFragment
  cases u.fragment with
  | none => exact Appends.skip len rest
  | some s =>
    simp only [part, List.append_nil]
    exact (Appends.copy len rest (str "#")).seq (Appends.encode len rest (str "?/:@") s)

/-- The whole of `generate`. -/
theorem generate_holds (u : Uri) {buf : Bytes} {len : Nat} (hl : len ≤ buf.length) :
    ∃ buf', generate u buf len = .ok (buf', (text u).length) ∧ Holds len (buf.drop len) (text u) buf' := by
  have h0 := Holds.start len (buf.drop len)
  unfold generate
  rw [if_pos hl]
  have := ((genScheme_appends u len (buf.drop len)).seq ((genSlashes_appends u len (buf.drop len)).seq
    ((genUserinfo_appends u len (buf.drop len)).seq ((genHost_appends u len (buf.drop len)).seq
    ((genPort_appends u len (buf.drop len)).seq ((genPath_appends u len (buf.drop len)).seq
    ((genQuery_appends u len (buf.drop len)).seq (genFragment_appends u len (buf.drop len)))))))))
  obtain ⟨b, e, h⟩ := this [] _ h0
  refine ⟨b, ?_, ?_⟩
  · simpa only [text, List.nil_append, List.append_assoc, List.length_nil] using e
  · simpa only [text, List.nil_append, List.append_assoc] using h

end FreeCoAP.Uri
