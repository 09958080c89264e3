import Verif.Http.LemmasGenChunk
import Verif.Http.Props2

/-!
# Properties of the generation of chunks: C75, C76
-/

namespace FreeCoAP.Http

theorem chunkText_chunkOf (d : Bytes) : ChunkOf (chunkText d) d := ⟨hexText d.length, hexText_hexOf _, rfl⟩

/-- **C75.** The functions that generate a chunk, the last chunk, a trailer and the blank line return the length of
their text and write as much of it as leaves room for a NUL, for every length of the buffer, and nothing behind that
length. -/
def C75_statement : Prop :=
  ∀ (buf : Bytes) (len : Nat), len ≤ buf.length → len < 2 ^ 64 →
    (∀ d : Bytes, d.length < 2 ^ 63 → ∃ b t, genChunk buf len d = .ok (b, t.length) ∧ ChunkOf t d ∧ Writes buf len t b) ∧
    (∃ b, genLast buf len = .ok (b, 3) ∧ Writes buf len (str "0\r\n") b) ∧
    (∀ name value : Bytes, ∃ b, genTrailer buf len name value =
      .ok (b, (name ++ str ": " ++ value ++ CRLF).length) ∧ Writes buf len (name ++ str ": " ++ value ++ CRLF) b) ∧
    ∃ b, genBlank buf len = .ok (b, 2) ∧ Writes buf len CRLF b

/-- C75 for chunks whose size line leaves room in the buffer. -/
theorem C75_chunk_partial {buf d : Bytes} {len : Nat} (hl : len ≤ buf.length) (hw : len < 2 ^ 64)
    (h : ∀ digits, HexOf digits d.length → digits.length + 2 < len) :
    ∃ b t, genChunk buf len d = .ok (b, t.length) ∧ ChunkOf t d ∧ Writes buf len t b := by
  have h1 := h _ (hexText_hexOf d.length)
  exact ⟨_, _, genChunk_shape hl hw h1, chunkText_chunkOf d, shape_writes _ (by omega) hl⟩

/-- C75 for the other functions. -/
theorem C75_others_partial {buf : Bytes} {len : Nat} (hl : len ≤ buf.length) :
    (∃ b, genLast buf len = .ok (b, 3) ∧ Writes buf len (str "0\r\n") b) ∧
    (∀ name value : Bytes, ∃ b, genTrailer buf len name value =
      .ok (b, (name ++ str ": " ++ value ++ CRLF).length) ∧ Writes buf len (name ++ str ": " ++ value ++ CRLF) b) ∧
    ∃ b, genBlank buf len = .ok (b, 2) ∧ Writes buf len CRLF b := by
  refine ⟨?_, ?_, ?_⟩
  · obtain ⟨b, e, h⟩ := snprintf_writes (str "0\r\n") hl
    refine ⟨b, ?_, h⟩
    unfold genLast
    rw [e]
    rfl
  · intro name value
    obtain ⟨b, e, h⟩ := snprintf_writes (name ++ str ": " ++ value ++ str "\r\n") hl
    refine ⟨b, ?_, h⟩
    unfold genTrailer
    rw [e]
    rfl
  · obtain ⟨b, e, h⟩ := snprintf_writes (str "\r\n") hl
    refine ⟨b, ?_, h⟩
    unfold genBlank
    rw [e]
    rfl

/-- Each number has one text. -/
theorem HexOf.unique {s t : Bytes} {n : Nat} (hs : HexOf s n) (ht : HexOf t n) : s = t := by
  have key : ∀ k : Nat, ∀ s t : Bytes, ∀ n, s.length ≤ k → HexOf s n → HexOf t n → s = t := by
    intro k
    induction k with
    | zero =>
      intro s t n hk hs
      exact absurd (List.length_eq_zero_iff.1 (Nat.le_zero.1 hk)) hs.number.1
    | succ k ih =>
      intro s t n hk hs ht
      have split : ∀ u : Bytes, HexOf u n → ∃ c, c ∈ str "0123456789abcdef" ∧ hexDigit c < 16 ∧
          ((u = [c] ∧ n = hexDigit c) ∨
          ∃ v, v ≠ [] ∧ u = v ++ [c] ∧ n = ofHex v * 16 + hexDigit c ∧ HexOf v (n / 16) ∧ 16 ≤ n) := by
        intro u hu
        have hb : ∀ c ∈ str "0123456789abcdef", hexDigit c < 16 := by decide
        have hz : ∀ c ∈ str "0123456789abcdef", hexDigit c = 0 → c = 0x30 := by decide
        obtain ⟨v, c, rfl⟩ : ∃ v c, u = v ++ [c] :=
          ⟨u.dropLast, u.getLast hu.number.1, (List.dropLast_concat_getLast hu.number.1).symm⟩
        have hc := hu.number.2 c (by simp)
        have hc16 := hb c hc
        have hv := hu.value
        rw [ofHex_append] at hv
        refine ⟨c, hc, hc16, ?_⟩
        cases v with
        | nil => exact .inl ⟨rfl, by simp [ofHex] at hv; omega⟩
        | cons a v =>
          have h30 : a ≠ 0x30 := by
            rintro rfl
            have := hu.short rfl
            simp at this
          have hp : ∀ (w : Bytes) (m : Nat), 0 < m → 0 < w.foldl (fun n c => n * 16 + hexDigit c) m := by
            intro w
            induction w with
            | nil => intro m hm; exact hm
            | cons x w ihw => intro m hm; exact ihw _ (show 0 < m * 16 + hexDigit x by omega)
          have hpos : 0 < ofHex (a :: v) := by
            have ha : hexDigit a ≠ 0 := fun e => h30 (hz a (hu.number.2 a (by simp)) e)
            exact hp v _ (show 0 < 0 * 16 + hexDigit a by omega)
          refine .inr ⟨a :: v, by simp, rfl, hv.symm, ⟨⟨by simp, ?_⟩, by omega, ?_⟩, by omega⟩
          · intro x hx
            exact hu.number.2 x (List.mem_append_left _ hx)
          · intro e
            exact absurd (Option.some.inj e) h30
      have inj : ∀ a ∈ str "0123456789abcdef", ∀ b ∈ str "0123456789abcdef", hexDigit a = hexDigit b → a = b := by decide
      obtain ⟨c, hc, hc16, h1⟩ := split s hs
      obtain ⟨c', hc', hc16', h2⟩ := split t ht
      rcases h1 with ⟨rfl, e1⟩ | ⟨v, hv, rfl, e1, h1, g1⟩
      · rcases h2 with ⟨rfl, e2⟩ | ⟨v', hv', rfl, e2, h2, g2⟩
        · rw [inj c hc c' hc' (by omega)]
        · omega
      · rcases h2 with ⟨rfl, e2⟩ | ⟨v', hv', rfl, e2, h2, g2⟩
        · omega
        · rw [List.length_append, List.length_singleton] at hk
          have e3 := ih v v' (n / 16) (by omega) h1 h2
          subst e3
          rw [inj c hc c' hc' (by omega)]
  exact key _ s t n (Nat.le_refl _) hs ht

/-- In every buffer that the size line fills, the data are written behind the end. -/
theorem C75_violated_every {buf d digits : Bytes} (hd : d ≠ []) (hl : d.length < 2 ^ 64)
    (hx : HexOf digits d.length) (h : buf.length ≤ digits.length + 2) : genChunk buf buf.length d = .ub := by
  have := hx.unique (hexText_hexOf d.length)
  subst this
  exact genChunk_overflow h hd hl

/-- The text `5\r\n` fits into three bytes without a NUL. -/
theorem C75_violated : ¬ C75_statement := by
  intro h
  obtain ⟨b, t, e, -⟩ := (h [1, 2, 3] 3 (by decide) (by decide)).1 (str "hello") (by decide)
  have h1 : genChunk [1, 2, 3] ([1, 2, 3] : Bytes).length (str "hello") = .ub :=
    C75_violated_every (digits := str "5") (by decide) (by decide) ⟨by decide, by decide, by decide⟩ (by decide)
  rw [show ([1, 2, 3] : Bytes).length = 3 from rfl, e] at h1
  cases h1

example : genChunk [1, 2, 3, 4, 5, 6, 7, 8, 9] 9 (str "hello") = .ok (str "5\r\nhello" ++ [0], 10) := by decide +kernel

example : genChunk [1, 2, 3, 4, 5, 6, 7, 8, 9, 10, 11, 12] 11 (str "hello") = .ok (str "5\r\nhello\r\n" ++ [0, 12], 10) := by
  decide +kernel

example : ∃ b t, genChunk (List.replicate 9 1) 9 (str "hello") = .ok (b, t.length) ∧ ChunkOf t (str "hello") ∧
    Writes (List.replicate 9 1) 9 t b :=
  C75_chunk_partial (by decide) (by decide) (fun digits hd => by
    rw [hd.unique (hexText_hexOf _)]
    decide +kernel)

/-! ## Reading generated chunks -/

/-- The fields of a message whose body is sent in chunks. -/
structure ChunkedHead (m : HMsg) : Prop where
  start0 : m.start0 ≠ [] ∧ 0x20 ∉ m.start0 ∧ 0x0D ∉ m.start0 ∧ 0x00 ∉ m.start0
  start1 : m.start1 ≠ [] ∧ 0x20 ∉ m.start1 ∧ 0x0D ∉ m.start1 ∧ 0x00 ∉ m.start1
  start2 : m.start2 ≠ [] ∧ 0x0D ∉ m.start2 ∧ 0x00 ∉ m.start2
  headers : ∀ h ∈ m.headers, Tidy h.name ∧ 0x3A ∉ h.name ∧ 0x00 ∉ h.name ∧ Tidy h.value ∧ 0x00 ∉ h.value
  chunked : SaysChunked m.headers
  body : m.body = none

theorem gives_chunk {buf d t : Bytes} {len : Nat} (hl : len ≤ buf.length) (hw : len < 2 ^ 64)
    (h : Gives (genChunk buf len d) len t) : t = chunkText d := by
  obtain ⟨b, n, e, h1, rfl⟩ := h
  have hn : n = (chunkText d).length := by
    unfold genChunk at e
    rw [if_pos hl] at e
    obtain ⟨r, -, e⟩ := Out.bind_eq_ok.1 e
    obtain ⟨o, -, e⟩ := Out.bind_eq_ok.1 e
    rw [chunkText_length]
    exact (Prod.mk.inj (Out.ok.inj e)).2.symm
  subst hn
  rw [genChunk_shape hl hw (by rw [chunkText_length, List.length_append] at h1; simp [str] at h1; omega)] at e
  cases e
  exact (shape_writes _ (by omega) hl).take h1

theorem gives_writes {buf t u : Bytes} {len : Nat} {call : Out (Bytes × Nat)}
    (hc : ∃ b, call = .ok (b, u.length) ∧ Writes buf len u b) (h : Gives call len t) : t = u := by
  obtain ⟨b, e, hw⟩ := hc
  obtain ⟨b', n, e', h1, rfl⟩ := h
  rw [e] at e'
  cases e'
  exact hw.take h1

/-- **C76.** A message of which the body was generated in chunks, each call with a buffer that was large enough, is
parsed with the headers and trailers and the whole body. -/
theorem C76_roundtrip {mem : Nat → Bool} (hm : ∀ n, mem n = true) {m : HMsg} (hh : ChunkedHead m)
    {buf : Bytes} {len : Nat} (hl : len ≤ buf.length) (hw : len < 2 ^ 64)
    {head last blank : Bytes} {ps : List (Bytes × Bytes)} {ts : List (Header × Bytes)}
    (g1 : Gives (generate m buf len) len head)
    (g2 : ∀ p ∈ ps, Gives (genChunk buf len p.1) len p.2 ∧ p.1 ≠ [] ∧ 0x00 ∉ p.1)
    (hs : (ps.flatMap Prod.fst).length + 1 < 2 ^ 31)
    (g3 : Gives (genLast buf len) len last)
    (g4 : ∀ t ∈ ts, Gives (genTrailer buf len t.1.name t.1.value) len t.2 ∧
      Tidy t.1.name ∧ 0x3A ∉ t.1.name ∧ 0x00 ∉ t.1.name ∧ Tidy t.1.value ∧ 0x00 ∉ t.1.value)
    (g5 : Gives (genBlank buf len) len blank) (more : Bytes) :
    ∃ t, t = head ++ ps.flatMap Prod.snd ++ last ++ ts.flatMap Prod.snd ++ blank ∧
      parse mem (t ++ more) =
        .ok ({ m with headers := m.headers ++ ts.map Prod.fst, body := some (ps.flatMap Prod.fst) }, t.length) := by
  have hraw : ∀ h : Header, Tidy h.name ∧ 0x3A ∉ h.name ∧ 0x00 ∉ h.name ∧ Tidy h.value ∧ 0x00 ∉ h.value →
      (⟨h.name, 0x20 :: h.value⟩ : RawHeader).WF ∧ (⟨h.name, 0x20 :: h.value⟩ : RawHeader).header = h := by
    intro h ⟨h1, h2, h3, h4, h5⟩
    refine ⟨⟨⟨h1.first, h1.no_tab⟩, ⟨h2, h1.no_cr⟩, ?_⟩, ?_⟩
    · simp only [List.mem_cons, not_or]
      exact ⟨by decide, h4.no_cr⟩
    · have e1 := h1.trim
      have e2 := h4.trim_cons
      rw [trimWs_eq] at e1 e2
      simp only [RawHeader.header, e1, e2]
  have hmap : ∀ hs : List Header, (∀ h ∈ hs, Tidy h.name ∧ 0x3A ∉ h.name ∧ 0x00 ∉ h.name ∧ Tidy h.value ∧ 0x00 ∉ h.value) →
      (hs.map (fun h => (⟨h.name, 0x20 :: h.value⟩ : RawHeader))).map RawHeader.header = hs := by
    intro hs hx
    rw [List.map_map]
    have : ∀ h ∈ hs, (RawHeader.header ∘ fun h : Header => (⟨h.name, 0x20 :: h.value⟩ : RawHeader)) h = h :=
      fun h hm => (hraw h (hx h hm)).2
    rw [List.map_congr_left this]
    simp
  have htext : ∀ hs : List Header, headersText (hs.map (fun h => ⟨h.name, 0x20 :: h.value⟩)) =
      hs.flatMap (fun h => h.name ++ str ": " ++ h.value ++ CRLF) := by
    intro hs
    induction hs with
    | nil => rfl
    | cons x hs ih =>
      rw [List.map_cons, headersText_cons, List.flatMap_cons, ih]
      have e : str ":" ++ 0x20 :: x.value = str ": " ++ x.value := rfl
      simp only [List.append_assoc] at e ⊢
      rw [← List.append_assoc (str ":"), e]
      simp only [List.append_assoc]
  have hts : ∀ h ∈ ts.map Prod.fst, Tidy h.name ∧ 0x3A ∉ h.name ∧ 0x00 ∉ h.name ∧ Tidy h.value ∧ 0x00 ∉ h.value := by
    intro h hx
    obtain ⟨t, ht, rfl⟩ := List.mem_map.1 hx
    exact (g4 t ht).2
  -- the texts
  have hlen : 0 < len := by
    obtain ⟨b, n, -, h1, -⟩ := g5
    omega
  have e1 : head = text m := by
    obtain ⟨b, n, e, h1, rfl⟩ := g1
    rw [generate_shape m hlen hl] at e
    cases e
    exact (shape_writes _ hlen hl).take h1
  have e2 : ps.flatMap Prod.snd = chunksText (ps.map (fun p => ⟨hexText p.1.length, [], p.1⟩)) := by
    clear hs
    induction ps with
    | nil => rfl
    | cons p ps ih =>
      rw [List.flatMap_cons, List.map_cons, chunksText_cons, ih (fun q hq => g2 q (List.mem_cons_of_mem _ hq)),
        gives_chunk hl hw (g2 p List.mem_cons_self).1]
      unfold chunkText
      simp only [List.append_nil, List.append_assoc]
  obtain ⟨c1, c2, c3⟩ := C75_others_partial hl
  have e3 : last = str "0" ++ CRLF := gives_writes c1 g3
  have e5 : blank = CRLF := gives_writes c3 g5
  have e4 : ts.flatMap Prod.snd = headersText ((ts.map Prod.fst).map (fun h => ⟨h.name, 0x20 :: h.value⟩)) := by
    rw [htext]
    clear hts
    induction ts with
    | nil => rfl
    | cons t ts ih =>
      rw [List.flatMap_cons, List.map_cons, List.flatMap_cons, ih (fun q hq => g4 q (List.mem_cons_of_mem _ hq)),
        gives_writes (c2 _ _) (g4 t List.mem_cons_self).1]
  let r : RawMsg := ⟨m.start0, m.start1, m.start2, m.headers.map (fun h => ⟨h.name, 0x20 :: h.value⟩),
    .chunked (ps.map (fun p => ⟨hexText p.1.length, [], p.1⟩)) (str "0") []
      ((ts.map Prod.fst).map (fun h => ⟨h.name, 0x20 :: h.value⟩))⟩
  have hr : head ++ ps.flatMap Prod.snd ++ last ++ ts.flatMap Prod.snd ++ blank = r.text := by
    rw [e1, e2, e3, e4, e5]
    show _ = m.start0 ++ str " " ++ m.start1 ++ str " " ++ m.start2 ++ CRLF ++
      headersText (m.headers.map (fun h => ⟨h.name, 0x20 :: h.value⟩)) ++ CRLF ++
      (chunksText _ ++ str "0" ++ [] ++ CRLF ++ headersText _ ++ CRLF)
    unfold text
    rw [htext m.headers, hh.body]
    simp only [Option.getD_none, List.append_nil, List.append_assoc]
  have hdata : (ps.map (fun p => (⟨hexText p.1.length, [], p.1⟩ : RawChunk))).flatMap RawChunk.data = ps.flatMap Prod.fst := by
    rw [List.flatMap_map]
  have hmsg : r.msg = { m with headers := m.headers ++ ts.map Prod.fst, body := some (ps.flatMap Prod.fst) } := by
    show (⟨_, _, _, _, _⟩ : HMsg) = ⟨_, _, _, _, _⟩
    congr 1
    · show List.map RawHeader.header (_ ++ _) = _
      rw [List.map_append, hmap _ hh.headers]
      congr 1
      exact hmap _ hts
    · exact congrArg some hdata
  have hx : ∀ (n : Nat), ∀ c ∈ hexText n, c ∈ hexDigits ∧ c ≠ 0x00 := by
    intro n c hc
    have h1 := (hexText_hexOf n).number.2 c hc
    have h2 : ∀ c ∈ str "0123456789abcdef", c ∈ hexDigits ∧ c ≠ 0x00 := by decide
    exact h2 c h1
  have hwf : r.WF := by
    refine ⟨⟨hh.start0.1, hh.start0.2.1, hh.start0.2.2.1⟩, ⟨hh.start1.1, hh.start1.2.1, hh.start1.2.2.1⟩,
      ⟨hh.start2.1, hh.start2.2.1⟩, ?_, ?_, ?_⟩
    · intro h hy
      obtain ⟨x, hz, rfl⟩ := List.mem_map.1 hy
      exact (hraw x (hh.headers x hz)).1
    · rw [show r.headers.map RawHeader.header = m.headers from hmap _ hh.headers]
      refine ⟨hh.chunked, ?_, ⟨by decide, by decide, .inl rfl, by decide⟩, ?_, ?_⟩
      · intro c hc
        obtain ⟨p, hp, rfl⟩ := List.mem_map.1 hc
        exact ⟨⟨⟨hexText_ne _, fun c hc => (hx _ c hc).1⟩, (hexText_hexOf _).value, .inl rfl, by simp⟩, (g2 p hp).2.1⟩
      · intro t ht
        obtain ⟨x, hx, rfl⟩ := List.mem_map.1 ht
        exact (hraw x (hts x hx)).1
      · rw [hdata]
        exact hs
    · rw [← hr, e1, e2, e3, e4, e5, htext]
      unfold text chunksText
      rw [hh.body]
      have hcr : (0x00 : Byte) ∉ CRLF := by decide
      have hcs : (0x00 : Byte) ∉ str ": " := by decide
      have nz : ∀ {a b : Bytes}, 0x00 ∉ a → 0x00 ∉ b → 0x00 ∉ a ++ b := by
        intro a b ha hb hc
        rcases List.mem_append.1 hc with hc | hc
        · exact ha hc
        · exact hb hc
      have h1 : ∀ hs : List Header,
          (∀ h ∈ hs, Tidy h.name ∧ 0x3A ∉ h.name ∧ 0x00 ∉ h.name ∧ Tidy h.value ∧ 0x00 ∉ h.value) →
          0x00 ∉ hs.flatMap (fun h => h.name ++ str ": " ++ h.value ++ CRLF) := by
        intro hs hx hc
        obtain ⟨h, hm, hc⟩ := List.mem_flatMap.1 hc
        have := hx h hm
        exact nz (nz (nz this.2.2.1 hcs) this.2.2.2.2) hcr hc
      have h2 : 0x00 ∉ (ps.map (fun p => (⟨hexText p.1.length, [], p.1⟩ : RawChunk))).flatMap
          (fun c => c.digits ++ c.ext ++ CRLF ++ c.data ++ CRLF) := by
        intro hc
        obtain ⟨c, hm, hc⟩ := List.mem_flatMap.1 hc
        obtain ⟨p, hp, rfl⟩ := List.mem_map.1 hm
        exact nz (nz (nz (nz (fun hc => (hx _ _ hc).2 rfl) List.not_mem_nil) hcr) (g2 p hp).2.2) hcr hc
      exact nz (nz (nz (nz (nz (nz (nz (nz (nz (nz (nz (nz hh.start0.2.2.2 (by decide)) hh.start1.2.2.2) (by decide))
        hh.start2.2.2) hcr) (h1 _ hh.headers)) hcr) List.not_mem_nil) h2) (by decide)) (h1 _ hts)) hcr
  refine ⟨_, rfl, ?_⟩
  rw [hr, parse_exact hm hwf, hmsg]

/-- A message with a chunked body. -/
def exHead : HMsg := ⟨str "HTTP/1.1", str "200", str "OK", [⟨str "Transfer-Encoding", str "chunked"⟩], none⟩

/-- A buffer. -/
def exBuf : Bytes := List.replicate 64 0xAA

/-- The text in the buffer after a call. -/
def got (call : Out (Bytes × Nat)) : Bytes :=
  match call with
  | .ok (b, n) => b.take n
  | _ => []

/-- Whether a call returned a length below the length of the buffer. -/
def givesB (call : Out (Bytes × Nat)) (len : Nat) : Bool :=
  match call with
  | .ok (_, n) => n < len
  | _ => false

theorem gives_of {call : Out (Bytes × Nat)} {len : Nat} (h : givesB call len = true) : Gives call len (got call) := by
  unfold givesB at h
  split at h
  · next b n => exact ⟨b, n, rfl, by simpa using h, rfl⟩
  · cases h

example : ∃ t, t = str "HTTP/1.1 200 OK\r\nTransfer-Encoding: chunked\r\n\r\n2\r\nab\r\n1\r\nc\r\n0\r\nx: y\r\n\r\n" ∧
    parse always (t ++ str "GET") =
      .ok (⟨str "HTTP/1.1", str "200", str "OK", [⟨str "Transfer-Encoding", str "chunked"⟩, ⟨str "x", str "y"⟩],
        some (str "abc")⟩, t.length) := by
  obtain ⟨t, e, h⟩ := C76_roundtrip (mem := always) (fun _ => rfl) (m := exHead)
    ⟨by decide, by decide, by decide, (by
      intro h hx
      rw [List.mem_singleton.1 hx]
      exact ⟨tidy_of (by decide), by decide, by decide, tidy_of (by decide), by decide⟩),
      ⟨_, List.mem_singleton.2 rfl, by decide, by decide⟩, rfl⟩
    (buf := exBuf) (len := 64) (by decide) (by decide)
    (ps := [(str "ab", str "2\r\nab\r\n"), (str "c", str "1\r\nc\r\n")]) (ts := [(⟨str "x", str "y"⟩, str "x: y\r\n")])
    (gives_of (show givesB (generate exHead exBuf 64) 64 = true by decide +kernel))
    (by
      intro p hp
      simp only [List.mem_cons, List.not_mem_nil, or_false] at hp
      rcases hp with rfl | rfl
      · have := gives_of (show givesB (genChunk exBuf 64 (str "ab")) 64 = true by decide +kernel)
        rw [show got (genChunk exBuf 64 (str "ab")) = str "2\r\nab\r\n" by decide +kernel] at this
        exact ⟨this, by decide, by decide⟩
      · have := gives_of (show givesB (genChunk exBuf 64 (str "c")) 64 = true by decide +kernel)
        rw [show got (genChunk exBuf 64 (str "c")) = str "1\r\nc\r\n" by decide +kernel] at this
        exact ⟨this, by decide, by decide⟩)
    (by decide)
    (gives_of (show givesB (genLast exBuf 64) 64 = true by decide +kernel))
    (by
      intro p hp
      rw [List.mem_singleton.1 hp]
      have := gives_of (show givesB (genTrailer exBuf 64 (str "x") (str "y")) 64 = true by decide +kernel)
      rw [show got (genTrailer exBuf 64 (str "x") (str "y")) = str "x: y\r\n" by decide +kernel] at this
      exact ⟨this, tidy_of (by decide), by decide, by decide, tidy_of (by decide), by decide⟩)
    (gives_of (show givesB (genBlank exBuf 64) 64 = true by decide +kernel)) (str "GET")
  refine ⟨t, ?_, h⟩
  rw [e]
  decide +kernel

end FreeCoAP.Http
