import Verif.Uri.LemmasParse

/-!
# C39, C40, C41, C55: URIs
-/

namespace FreeCoAP.Uri

theorem text_no_nul (u : Uri) : (0 : Byte) ∉ text u := by
  have hp : ∀ before ex after o, (0 : Byte) ∉ before → (0 : Byte) ∉ ex → (0 : Byte) ∉ after → (0 : Byte) ∉ part before ex after o :=
    fun _ _ _ _ h1 h2 h3 => not_mem_part not_literal_nul (by decide) h1 h2 h3
  unfold text
  simp only [List.mem_append, not_or]
  refine ⟨⟨⟨⟨⟨⟨⟨?_, ?_⟩, ?_⟩, ?_⟩, ?_⟩, ?_⟩, ?_⟩, ?_⟩
  · exact hp _ _ _ _ (by simp) (by simp) (by decide)
  · split
    · decide
    · simp
  · exact hp _ _ _ _ (by simp) (by decide) (by decide)
  · exact not_mem_host not_literal_nul (by decide) (by decide) (by decide) (by decide)
  · exact hp _ _ _ _ (by decide) (by simp) (by simp)
  · exact hp _ _ _ _ (by simp) (by decide) (by simp)
  · exact hp _ _ _ _ (by decide) (by decide) (by simp)
  · exact hp _ _ _ _ (by decide) (by decide) (by simp)

/-! ## C39 -/

/-- C39: encoding a string to a cleared buffer that is large enough leaves its
percent-encoding there, in which all characters are unreserved, sub-delimiters, extra ones
or percent signs, and decoding it gives the string back. The extra characters can be any
that are not `%` and, where `char` is signed, not 0xFF. -/
theorem C39_roundtrip {sx : Bool} {ex s buf : Bytes} {len : Nat} (h1 : (0x25 : Byte) ∉ ex)
    (h2 : sx = true → (0xFF : Byte) ∉ ex) (hl : (pct ex s).length < len) (hb : buf = List.replicate len 0) :
    ∃ buf' n, encodeStr buf ex len s 0 = .ok (buf', n) ∧ buf' = pct ex s ++ List.replicate (len - n) 0 ∧
      n = (pct ex s).length ∧ (∀ c ∈ buf'.take n, Literal c ∨ c ∈ ex ∨ c = 0x25) ∧ decodeStr sx (buf'.take n) = some s := by
  have h0 := Holds.start len []
  rw [List.append_nil, ← hb] at h0
  obtain ⟨buf', e, pre, -, e2, -, -, hor⟩ := encodeStr_holds (ex := ex) s [] buf h0
  rw [List.nil_append] at e hor
  rcases hor with rfl | ⟨h, -⟩
  · refine ⟨buf', _, e, by rw [e2, List.append_nil], rfl, ?_, ?_⟩
    · intro c hc
      rw [e2, List.append_nil, List.take_left] at hc
      rcases pct_mem hc with h | h | h
      · exact Or.inl h
      · exact Or.inr (Or.inl h.1)
      · exact Or.inr (Or.inr h)
    · rw [e2, List.append_nil, List.take_left, decode_pct h1 h2]
  · omega

/-- The hypotheses of C39 are met: `a/b c` with the slash as an extra character. -/
example : encodeStr (List.replicate 10 0) (str "/") 10 (str "a/b c") 0 = .ok (str "a/b%20c" ++ [0, 0, 0], 7) ∧
    pct (str "/") (str "a/b c") = str "a/b%20c" ∧ decodeStr true (str "a/b%20c") = some (str "a/b c") := by decide +kernel

/-- Every byte needs at most three characters. -/
theorem C39_length (ex s : Bytes) : s.length ≤ (pct ex s).length ∧ (pct ex s).length ≤ 3 * s.length := by
  induction s with
  | nil => simp [pct]
  | cons c s ih =>
    rw [pct_cons]
    unfold pctByte
    split <;> simp <;> omega

/-- Different strings have different encodings. -/
theorem C39_injective {ex s t : Bytes} (h1 : (0x25 : Byte) ∉ ex) (h : pct ex s = pct ex t) : s = t := by
  have e1 := decode_pct (sx := false) h1 (by intro h; cases h) s
  have e2 := decode_pct (sx := false) h1 (by intro h; cases h) t
  rw [h, e2] at e1
  exact (Option.some.inj e1).symm

/-- Setting a component to the percent-encoding of a string sets it to the string; a path gets
a slash in front if it has none. -/
theorem C39_set {sx : Bool} {mem : Site → Bool} {site : Site} {ex s : Bytes} (hm : mem site = true) (h1 : (0x25 : Byte) ∉ ex)
    (h2 : (0xFF : Byte) ∉ ex) (h3 : (0x2F : Byte) ∈ ex) (hs : (0 : Byte) ∉ s) :
    set sx mem site (pct ex s) = .ok (if site = .path ∧ s.head? ≠ some 0x2F then 0x2F :: s else s) := by
  have hh : (pct ex s).head? = some 0x2F ↔ s.head? = some 0x2F := by
    constructor
    · exact fun h => (pct_head not_literal_slash (by decide) h).1
    · intro h
      cases s with
      | nil => cases h
      | cons c s =>
        cases h
        rw [pct_cons]
        unfold pctByte
        rw [if_pos (Or.inr h3)]
        rfl
  rw [set_eq]
  by_cases hp : site = .path ∧ s.head? ≠ some 0x2F
  · rw [if_pos ⟨hp.1, fun h => hp.2 (hh.1 h)⟩, if_pos hm, if_pos hp, decode_pct h1 (fun _ => h2)]
    simp only
    rw [cstr_of_no_nul]
    simp only [List.mem_cons, not_or]
    exact ⟨by decide, hs⟩
  · rw [if_neg (fun h => hp ⟨h.1, fun h' => h.2 (hh.2 h')⟩), if_neg hp]
    exact component_pct hm h1 h2 hs

example : set true (fun _ => true) .path (str "a%20b") = .ok (str "/a b") := by decide +kernel

/-! ## C41 -/

/-- C41: with a buffer of `len` bytes, `generate` returns the length of the whole text of the
URI, and writes only to the first `len` bytes. If the text is shorter than `len`, it is there,
followed by NULs. Otherwise a prefix of it is there that ends with a NUL inside the buffer,
and at most three characters of the first `len` are missing, so that no escape is cut. -/
theorem C41_generate (u : Uri) {buf : Bytes} {len : Nat} (hl : len ≤ buf.length) :
    ∃ buf' pre, generate u buf len = .ok (buf', (text u).length) ∧
      buf' = pre ++ List.replicate (len - pre.length) 0 ++ buf.drop len ∧ pre <+: text u ∧ pre.length ≤ len ∧
      (0 < len → pre.length < len ∧ cstr (buf'.take len) = pre) ∧
      ((text u).length < len → pre = text u) ∧ (len ≤ (text u).length → len ≤ pre.length + 3) := by
  obtain ⟨buf', e, pre, hp, hb, h1, h2, hor⟩ := generate_holds u hl
  refine ⟨buf', pre, e, hb, hp, h1, ?_, ?_, ?_⟩
  · intro h0
    refine ⟨h2 h0, ?_⟩
    have hn : (0 : Byte) ∉ pre := fun h => text_no_nul u (hp.subset h)
    have := h2 h0
    have e1 : buf'.take len = pre ++ List.replicate (len - pre.length) 0 := by
      rw [hb, List.take_append_of_le_length (by simp; omega), List.take_of_length_le (by simp; omega)]
    obtain ⟨k, hk⟩ : ∃ k, len - pre.length = k + 1 := ⟨len - pre.length - 1, by omega⟩
    rw [e1, hk, List.replicate_succ, cstr_append hn]
  · intro h
    rcases hor with h' | ⟨h', -⟩
    · exact h'
    · omega
  · intro h
    rcases hor with h' | ⟨-, h'⟩
    · have : 0 < len ∨ len = 0 := by omega
      rcases this with h0 | h0
      · have := h2 h0; rw [h'] at this; omega
      · omega
    · exact h'

/-- Nothing outside the buffer is touched. -/
theorem C41_inside (u : Uri) {buf buf' : Bytes} {len n : Nat} (hl : len ≤ buf.length) (h : generate u buf len = .ok (buf', n)) :
    n = (text u).length ∧ buf'.length = buf.length ∧ buf'.drop len = buf.drop len := by
  obtain ⟨b, pre, e, hb, -, h1, -⟩ := C41_generate u hl
  rw [h] at e
  cases e
  refine ⟨rfl, ?_, ?_⟩
  · rw [hb]; simp; omega
  · rw [hb, List.drop_append]
    simp only [List.length_append, List.length_replicate]
    rw [List.drop_of_length_le (by simp; omega), List.nil_append, show len - (pre.length + (len - pre.length)) = 0 from by omega,
      List.drop_zero]

/-- A URI with all its parts. -/
def exUri : Uri := ⟨some (str "coap"), some (str "a b"), some (str "::1"), some (str "5683"), some (str "/x y/z"), some (str "k=v"), some (str "f")⟩

/-- The hypothesis of C41 is met; with 20 bytes the text is cut before the escape `%20` of the path. -/
example : text exUri = str "coap://a%20b@[::1]:5683/x%20y/z?k=v#f" ∧
    generate exUri (List.replicate 40 1) 40 = .ok (str "coap://a%20b@[::1]:5683/x%20y/z?k=v#f" ++ [0, 0, 0], 37) ∧
    generate exUri (List.replicate 28 1) 27 = .ok (str "coap://a%20b@[::1]:5683/x" ++ [0, 0, 1], 37) := by decide +kernel

/-! ## C40 -/

/-- C40 in full: URIs allowed by RFC 3986 survive being written and read. -/
def C40_statement (sx : Bool) : Prop :=
  ∀ u buf len buf' n, Rfc u → generate u buf len = .ok (buf', n) → n < len →
    parse sx (fun _ => true) (cstr buf') = .ok u

/-- C40 holds for the readable URIs: where RFC 3986 asks for it, the additional condition is
that, after an authority, a path has an `@` only if there is user information and a `:` only
if there is a port. -/
theorem C40_roundtrip_partial {sx : Bool} {mem : Site → Bool} {u : Uri} {buf buf' : Bytes} {len n : Nat} (hm : ∀ s, mem s = true)
    (hr : Readable u) (hl : len ≤ buf.length) (h : generate u buf len = .ok (buf', n)) (hn : n < len) :
    parse sx mem (cstr buf') = .ok u := by
  obtain ⟨b, pre, e, hb, -, -, -, h1, -⟩ := C41_generate u hl
  rw [h] at e
  cases e
  have hp := h1 hn
  subst hp
  obtain ⟨k, hk⟩ : ∃ k, len - (text u).length = k + 1 := ⟨len - (text u).length - 1, by omega⟩
  rw [hb, hk, List.replicate_succ, List.append_assoc, List.cons_append, cstr_append (text_no_nul u)]
  exact parse_text hm hr

/-- The condition in terms of RFC 3986. -/
theorem C40_rfc_partial {sx : Bool} {mem : Site → Bool} {u : Uri} {buf buf' : Bytes} {len n : Nat} (hm : ∀ s, mem s = true)
    (hr : Rfc u) (h1 : ∀ p, Authority u → u.userinfo = none → u.path = some p → (0x40 : Byte) ∉ p)
    (h2 : ∀ p, Authority u → u.port = none → u.path = some p → (0x3A : Byte) ∉ p)
    (hl : len ≤ buf.length) (h : generate u buf len = .ok (buf', n)) (hn : n < len) : parse sx mem (cstr buf') = .ok u := by
  obtain ⟨s, hs1, hs2⟩ := hr.scheme
  refine C40_roundtrip_partial hm ⟨hr.clean, ?_, ?_, hr.path, hr.rooted, hr.noslash, ?_, h1, h2⟩ hl h hn
  · rw [hs1]; intro e; exact hs2 (Option.some.inj e)
  · intro hh
    obtain ⟨t, ht1, ht2⟩ := hr.host (Or.inr (Or.inl (by rw [hh]; simp)))
    rw [hh] at ht1
    exact ht2 (Option.some.inj ht1).symm
  · intro h; rw [hs1] at h; cases h

/-- The hypotheses of C40 are met by a URI with all its parts. -/
theorem exUri_rfc : Rfc exUri := by
  refine ⟨?_, ⟨_, rfl, by decide⟩, fun _ => ⟨_, rfl, by decide⟩, by decide, ?_, ?_⟩
  · intro s hs
    rcases hs with h | h | h | h | h | h | h <;> cases h <;> decide
  · intro p _ hp; cases hp; decide
  · intro p ha; exact absurd (Or.inl (by decide)) ha

example : parse true (fun _ => true) (str "coap://a%20b@[::1]:5683/x%20y/z?k=v#f") = .ok exUri := by decide +kernel

/-- `coap://h/a:b`: RFC 3986 allows colons in a path. -/
def colonUri : Uri := { scheme := some (str "coap"), host := some (str "h"), path := some (str "/a:b") }

/-- `coap://h/a@b`: RFC 3986 allows `@` in a path. -/
def atUri : Uri := { scheme := some (str "coap"), host := some (str "h"), path := some (str "/a@b") }

/-- C40 fails: a colon in the path after an authority without port is taken for the start of
the port, and an `@` for the end of the user information. -/
theorem C40_violated (sx : Bool) : ¬ C40_statement sx := by
  intro h
  have hr : Rfc colonUri := by
    refine ⟨?_, ⟨_, rfl, by decide⟩, fun _ => ⟨_, rfl, by decide⟩, by decide, ?_, ?_⟩
    · intro s hs
      rcases hs with h | h | h | h | h | h | h <;> cases h <;> decide
    · intro p _ hp; cases hp; decide
    · intro p ha; exact absurd (Or.inr (Or.inl (by decide))) ha
  have := h colonUri (List.replicate 20 0) 20 (str "coap://h/a:b" ++ List.replicate 8 0) 12 hr (by decide +kernel) (by decide)
  have e : parse sx (fun _ => true) (cstr (str "coap://h/a:b" ++ List.replicate 8 0)) =
      .ok { scheme := some (str "coap"), host := some (str "h/a"), port := some (str "b") } := by
    cases sx <;> decide +kernel
  rw [e] at this
  exact absurd this (by decide)

theorem C40_violated_at (sx : Bool) :
    (∃ buf, generate atUri (List.replicate 20 0) 20 = .ok (buf, 12) ∧
      parse sx (fun _ => true) (cstr buf) = .ok { scheme := some (str "coap"), userinfo := some (str "h/a"), host := some (str "b") }) := by
  refine ⟨str "coap://h/a@b" ++ List.replicate 8 0, by decide +kernel, ?_⟩
  cases sx <;> decide +kernel

/-- Reading any text has a defined outcome: a URI, or one of the errors. -/
theorem C40_total (sx : Bool) (mem : Site → Bool) (s : Bytes) : parse sx mem s ≠ .ub := by
  have hc : ∀ site t, component sx mem site t ≠ .ub := by
    intro site t
    rw [component_eq]; unfold decode
    split
    · split <;> simp
    · simp
  have hb : ∀ {α β : Type} {x : Out α} {f : α → Out β}, x ≠ .ub → (∀ a, f a ≠ .ub) → (x >>= f) ≠ .ub := by
    intro α β x f h1 h2 h
    rcases Out.bind_eq_ub.1 h with h | ⟨a, -, h⟩
    · exact h1 h
    · exact h2 a h
  have hp : ∀ {α : Type} (a : α), (pure a : Out α) ≠ .ub := by intro α a h; cases h
  unfold parse
  split
  · simp
  · refine hb ?_ (fun r => hb ?_ (fun u => hb ?_ (fun r => ?_)))
    · split
      · exact hp _
      · unfold parseScheme
        split
        · simp
        · split
          · exact hb (hc _ _) (fun _ => hp _)
          · simp
    · unfold parseHier
      split
      · refine hb ?_ (fun r => hb ?_ (fun u => hb ?_ (fun u => ?_)))
        · unfold parseUserinfo
          split
          · exact hb (hc _ _) (fun _ => hp _)
          · exact hp _
        · unfold parseHost
          split
          · exact hb (hc _ _) (fun _ => hp _)
          · exact hp _
        · unfold parsePort
          split
          · exact hb (hc _ _) (fun _ => hp _)
          · exact hp _
        · unfold parsePath
          split
          · exact hb (by rw [slashed_eq]; exact hb (hc _ _) (fun _ => hp _)) (fun _ => hp _)
          · exact hp _
      · simp
      · exact hb (hc _ _) (fun _ => hp _)
    · unfold parseQuery
      split
      · split
        · exact hb (hc _ _) (fun _ => hp _)
        · exact hp _
      · exact hp _
    · unfold parseFragment
      split
      · split
        · exact hb (hc _ _) (fun _ => hp _)
        · simp
      · exact hp _

/-! ## C55 -/

/-- C55 in full: a copy equals the original, or the failure of an allocation is reported. -/
def C55_statement : Prop :=
  ∀ mem u, (∀ v, copy mem u = .ok v → v = u) ∧ ((∀ s, mem s = true) → copy mem u = .ok u)

/-- C55 holds for URIs with a scheme when the memory for the host and the port is there. -/
theorem C55_copy_partial (mem : Site → Bool) (u : Uri) (hs : u.scheme ≠ none) (h1 : mem .host = true) (h2 : mem .port = true) :
    (∀ v, copy mem u = .ok v → v = u) ∧ ((∀ s, mem s = true) → copy mem u = .ok u) := by
  have k1 : ∀ {site : Site} {o v : Option Bytes}, copyPart mem site o = .ok v → v = o := by
    intro site o v h
    unfold copyPart at h
    split at h
    · cases h; rfl
    · split at h <;> cases h
      rfl
  have k2 : ∀ {site : Site} {c o v : Option Bytes}, mem site = true → copyUntested mem site c o = .ok v → v = o := by
    intro site c o v hm h
    unfold copyUntested at h
    split at h
    · cases h; rfl
    · split at h
      · cases h
      · cases h; rfl
  constructor
  · intro v hv
    unfold copy at hv
    obtain ⟨a1, e1, hv⟩ := Out.bind_eq_ok.1 hv
    obtain ⟨a2, e2, hv⟩ := Out.bind_eq_ok.1 hv
    obtain ⟨a3, e3, hv⟩ := Out.bind_eq_ok.1 hv
    obtain ⟨a4, e4, hv⟩ := Out.bind_eq_ok.1 hv
    obtain ⟨a5, e5, hv⟩ := Out.bind_eq_ok.1 hv
    obtain ⟨a6, e6, hv⟩ := Out.bind_eq_ok.1 hv
    obtain ⟨a7, e7, hv⟩ := Out.bind_eq_ok.1 hv
    cases hv
    rw [k1 e1, k1 e2, k2 h1 e3, k2 h2 e4, k1 e5, k1 e6, k1 e7]
  · intro hm
    have k3 : ∀ site o, copyPart mem site o = .ok o := by
      intro site o
      unfold copyPart
      split
      · rfl
      · rw [if_pos (hm _)]
    have k4 : ∀ site o, copyUntested mem site u.scheme o = .ok o := by
      intro site o
      unfold copyUntested
      split
      · rfl
      · rw [if_neg hs, if_pos (hm _)]
    unfold copy
    simp only [k3, k4, Out.bind_ok, Out.pure_eq]

/-- C55 fails both ways: the copy of a URI without scheme fails although there is memory, and
when the allocation of the host fails the copy succeeds without it. -/
theorem C55_violated : ¬ C55_statement := by
  intro h
  have := (h (fun _ => true) { host := some (str "h") }).2 (fun _ => rfl)
  exact absurd this (by decide)

theorem C55_violated_lost : copy (fun s => s ≠ .host) { scheme := some (str "coap"), host := some (str "h") } =
    .ok { scheme := some (str "coap") } := by decide +kernel

example : copy (fun _ => true) exUri = .ok exUri := by decide +kernel

end FreeCoAP.Uri
