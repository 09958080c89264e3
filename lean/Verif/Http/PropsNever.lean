import Verif.Http.Props2

/-!
# Property theorems on HTTP messages: waiting for the rest
-/

namespace FreeCoAP.Http

/-- The text up to the body: a start line of three fields, headers and the blank line. -/
structure RawMsg.Head (r : RawMsg) : Prop where
  start0 : r.start0 ≠ [] ∧ 0x20 ∉ r.start0
  start1 : r.start1 ≠ [] ∧ 0x20 ∉ r.start1
  start2 : r.start2 ≠ []
  line : OneLine (r.start0 ++ str " " ++ r.start1 ++ str " " ++ r.start2)
  headers : LooseHeaders r.headers
  body : r.body = .none
  text : 0x00 ∉ r.text

/-- Something that fits in memory and can follow, after which the text is accepted. -/
def CanBeCompleted (buf : Bytes) : Prop :=
  ∃ more : Bytes, 0x00 ∉ more ∧ more.length < 2 ^ 63 ∧ ∃ m n, parse always (buf ++ more) = .ok (m, n)

/-- **C149.** If the parser asks for more after the headers, then there is something that can follow, after which it
accepts the text. -/
def C149_statement : Prop :=
  ∀ r : RawMsg, r.Head → parse always r.text = .err .EAGAIN → CanBeCompleted r.text

theorem headText {r : RawMsg} (h : r.Head) (b : RawBody) : RawMsg.text { r with body := b } = r.text ++ b.text := by
  simp [RawMsg.text, h.body, RawBody.text]

/-- A text with a chunked body, or with a length that is not negative as an `int`, can be completed. -/
theorem C149_completed_partial {r : RawMsg} (h : r.Head)
    (hl : SaysChunked (r.headers.map RawHeader.header) ∨ ∃ n, Announces (r.headers.map RawHeader.header) n) :
    CanBeCompleted r.text := by
  by_cases hc : SaysChunked (r.headers.map RawHeader.header)
  · have hz : SizeLine (str "0") [] 0 := ⟨by decide, by decide, .inl rfl, by decide⟩
    have hs := hz.loose (by decide) (headersText [] ++ CRLF ++ [])
    have hr : RawMsg.Loose { r with body := .chunked [] (str "0") [] [] } [] :=
      ⟨h.start0, h.start1, h.start2, h.line, h.headers, hc, trivial, hs.1, ⟨by simp, by simp⟩, by decide⟩
    have e := headText h (.chunked [] (str "0") [] [])
    have g := C74_exact (mem := always) (fun _ => rfl) hr ⟨by simp, hs.2⟩ (by
      rw [e, List.mem_append]
      exact fun x => x.elim h.text (by decide)) []
    rw [e, List.append_nil] at g
    exact ⟨_, by decide, by decide, _, _, g⟩
  · obtain ⟨n, hn⟩ := hl.resolve_left hc
    by_cases h0 : n = 0
    · subst h0
      have hr : RawMsg.Loose { r with body := .none } [] :=
        ⟨h.start0, h.start1, h.start2, h.line, h.headers, hc, hn⟩
      have e := headText h .none
      have g := C74_exact (mem := always) (fun _ => rfl) hr trivial (by
        rw [e, List.mem_append]
        exact fun x => x.elim h.text (by simp [RawBody.text])) []
      rw [e, List.append_nil] at g
      exact ⟨_, by simp [RawBody.text], by simp [RawBody.text], _, _, g⟩
    · have hb : (List.replicate n (0x61 : Byte)).length = n := List.length_replicate
      have hlt : n < 2 ^ 31 := by
        rcases hn with ⟨-, e⟩ | ⟨_, _, _, _, -, -, -, -, e⟩
        · omega
        · exact e.1
      have hr : RawMsg.Loose { r with body := .plain (List.replicate n 0x61) } [] :=
        ⟨h.start0, h.start1, h.start2, h.line, h.headers, hc, by
          intro e
          rw [e] at hb
          exact h0 hb.symm, by rw [hb]; exact hn⟩
      have h61 : (0x00 : Byte) ∉ List.replicate n (0x61 : Byte) := by
        intro x
        exact absurd (List.eq_of_mem_replicate x) (by decide)
      have e := headText h (.plain (List.replicate n 0x61))
      have g := C74_exact (mem := always) (fun _ => rfl) hr trivial (by
        rw [e, List.mem_append]
        exact fun x => x.elim h.text h61) []
      rw [e, List.append_nil] at g
      exact ⟨_, h61, by show (List.replicate n (0x61 : Byte)).length < _; omega, _, _, g⟩

/-- The same when a part of the body has come. -/
theorem C149_body_partial {r : RawMsg} (h : r.Head) (hc : ¬ SaysChunked (r.headers.map RawHeader.header)) {n : Nat}
    (hn : Announces (r.headers.map RawHeader.header) n) {rest : Bytes} (h0 : 0x00 ∉ rest) :
    CanBeCompleted (r.text ++ rest) := by
  have hlt : n < 2 ^ 31 := by
    rcases hn with ⟨-, e⟩ | ⟨_, _, _, _, -, -, -, -, e⟩
    · omega
    · exact e.1
  have h61 : (0x00 : Byte) ∉ List.replicate n (0x61 : Byte) := by
    intro x
    exact absurd (List.eq_of_mem_replicate x) (by decide)
  refine ⟨List.replicate n 0x61, h61, by rw [List.length_replicate]; omega, ?_⟩
  rw [List.append_assoc]
  by_cases hz : n = 0
  · subst hz
    have hr : RawMsg.Loose { r with body := .none } [] :=
      ⟨h.start0, h.start1, h.start2, h.line, h.headers, hc, hn⟩
    have e := headText h .none
    rw [show RawBody.none.text = [] from rfl, List.append_nil] at e
    have g := C74_exact (mem := always) (fun _ => rfl) hr trivial (by rw [e]; exact h.text)
      (rest ++ List.replicate 0 0x61)
    rw [e] at g
    exact ⟨_, _, g⟩
  · have hb : ((rest ++ List.replicate n (0x61 : Byte)).take n).length = n := by
      rw [List.length_take, List.length_append, List.length_replicate]
      omega
    have hr : RawMsg.Loose { r with body := .plain ((rest ++ List.replicate n 0x61).take n) } [] :=
      ⟨h.start0, h.start1, h.start2, h.line, h.headers, hc, by
        intro e
        rw [e] at hb
        exact hz hb.symm, by rw [hb]; exact hn⟩
    have e := headText h (.plain ((rest ++ List.replicate n 0x61).take n))
    have g := C74_exact (mem := always) (fun _ => rfl) hr trivial (by
      rw [e, List.mem_append]
      refine fun x => x.elim h.text fun y => ?_
      exact (List.mem_append.1 (List.mem_of_mem_take y)).elim h0 h61) ((rest ++ List.replicate n 0x61).drop n)
    rw [e, List.append_assoc] at g
    dsimp only [RawBody.text] at g
    rw [List.take_append_drop] at g
    exact ⟨_, _, g⟩

theorem toSize_negative {z : Int} (h : ¬ toSize (toInt32 z) < 2 ^ 31) : 2 ^ 63 < toSize (toInt32 z) := by
  unfold toSize toInt32 at h ⊢
  omega

theorem contentLen_negative {hs : List Header} (h : ¬ contentLen hs < 2 ^ 31) : 2 ^ 63 < contentLen hs := by
  rcases contentLen_split hs with ⟨-, h2⟩ | ⟨a, x, b, e, h1, h2, h3⟩
  · rw [h2] at h
    exact absurd (by decide) h
  · rw [h3] at h ⊢
    exact toSize_negative h

/-- With any other length the parser asks for more, whatever follows: it never accepts the text and never refuses
it. -/
theorem C149_never {r : RawMsg} (h : r.Head) (hc : ¬ SaysChunked (r.headers.map RawHeader.header))
    (hn : ∀ n, ¬ Announces (r.headers.map RawHeader.header) n) {more : Bytes} (h0 : 0x00 ∉ more)
    (hl : more.length < 2 ^ 63) : parse always (r.text ++ more) = .err .EAGAIN := by
  have hbig : 2 ^ 63 < contentLen (r.headers.map RawHeader.header) := by
    refine contentLen_negative fun hlt => ?_
    exact hn _ (announces_of hlt)
  have e : r.text ++ more = r.start0 ++ str " " ++ r.start1 ++ str " " ++ r.start2 ++ CRLF ++
      (headersText r.headers ++ CRLF ++ more) := by
    simp only [RawMsg.text, h.body, RawBody.text, List.append_assoc, List.append_nil, List.nil_append]
  rw [parse_eq, if_pos (show always _ = true from rfl), cstr_of_no_nul (by
    rw [List.mem_append]
    exact fun x => x.elim h.text h0)]
  have : parseText always (r.text ++ more) = .err .EAGAIN := by
    unfold parseText
    rw [e, parseStart_loose (mem := always) (fun _ => rfl) h.start0 h.start1 h.start2 h.line, Out.bind_ok]
    dsimp only
    rw [parseHeaders_loose (mem := always) (fun _ => rfl) h.headers _ _ (by
      have := length_headersText r.headers
      simp only [List.length_append]
      omega), Out.bind_ok]
    dsimp only
    rw [parseBody_eq]
    dsimp only
    rw [if_neg (fun x => hc ((any_isChunked _).1 x)), if_pos (by omega), if_pos (by omega)]
  rw [this]
  rfl

/-- Nor is any part of such a text accepted, so that it does not matter in which segments it comes. -/
theorem C149_parts {r : RawMsg} (h : r.Head) (hc : ¬ SaysChunked (r.headers.map RawHeader.header))
    (hn : ∀ n, ¬ Announces (r.headers.map RawHeader.header) n) {more : Bytes} (h0 : 0x00 ∉ more)
    (hl : more.length < 2 ^ 63) (k : Nat) (m : HMsg) (n : Nat) :
    parse always ((r.text ++ more).take k) ≠ .ok (m, n) := by
  intro g
  have hnul : (0x00 : Byte) ∉ r.text ++ more := by
    rw [List.mem_append]
    exact fun x => x.elim h.text h0
  have hnul' : (0x00 : Byte) ∉ (r.text ++ more).take k := fun x => hnul (List.mem_of_mem_take x)
  have e : r.text ++ more = r.start0 ++ str " " ++ r.start1 ++ str " " ++ r.start2 ++ CRLF ++
      (headersText r.headers ++ CRLF ++ more) := by
    simp only [RawMsg.text, h.body, RawBody.text, List.append_assoc, List.append_nil, List.nil_append]
  have hm : SaysChunked m.headers → SaysChunked (r.headers.map RawHeader.header) := by
    intro hm
    rw [parse_eq, if_pos (show always _ = true from rfl), cstr_of_no_nul hnul'] at g
    obtain ⟨⟨m', rest⟩, g1, g2⟩ := Out.bind_eq_ok.1 g
    cases g2
    unfold parseText at g1
    obtain ⟨⟨x, s1⟩, g3, g1⟩ := Out.bind_eq_ok.1 g1
    obtain ⟨⟨hs, s2⟩, g4, g1⟩ := Out.bind_eq_ok.1 g1
    have k1 := parseStart_more g3 ((r.text ++ more).drop k)
    rw [List.take_append_drop, e, parseStart_loose (mem := always) (fun _ => rfl) h.start0 h.start1 h.start2 h.line] at k1
    simp only [Out.ok.injEq, Prod.mk.injEq] at k1
    have k2 := parseHeaders_more _ g4 ((r.text ++ more).drop k)
      (s1.length + 1 + (r.headers.length + 1)) (by dsimp only; omega)
    dsimp only at k2
    rw [← e] at k1
    rw [← k1.2, parseHeaders_loose (mem := always) (fun _ => rfl) h.headers _ _ (by omega)] at k2
    simp only [Out.ok.injEq, Prod.mk.injEq] at k2
    rw [k2.1]
    by_cases hx : SaysChunked hs
    · exact hx
    · dsimp only at g1
      rw [parseBody_eq] at g1
      dsimp only at g1
      rw [if_neg (fun x => hx ((any_isChunked _).1 x))] at g1
      split at g1
      · split at g1
        · cases g1
        · split at g1
          · cases g1
            exact hm
          · cases g1
      · cases g1
        exact hm
  have g' := C43_stable_partial (mem := always) (fun _ => rfl) hnul' g (fun x => hc (hm x)) ((r.text ++ more).drop k)
  rw [List.take_append_drop, C149_never h hc hn h0 hl] at g'
  cases g'

/-- So exactly these texts can be completed. -/
theorem C149_exact {r : RawMsg} (h : r.Head) : CanBeCompleted r.text ↔
    SaysChunked (r.headers.map RawHeader.header) ∨ ∃ n, Announces (r.headers.map RawHeader.header) n := by
  refine ⟨fun ⟨more, h0, hl, m, n, g⟩ => ?_, C149_completed_partial h⟩
  by_cases hc : SaysChunked (r.headers.map RawHeader.header)
  · exact .inl hc
  · by_cases hn : ∃ n, Announces (r.headers.map RawHeader.header) n
    · exact .inr hn
    · rw [C149_never h hc (fun n x => hn ⟨n, x⟩) h0 hl] at g
      cases g

/-- A request with a length of −1. -/
def minusOne : RawMsg :=
  ⟨str "PUT", str "/", str "HTTP/1.1", [⟨str "Content-Length", str "-1"⟩], .none⟩

/-- A request with a length of 3. -/
def three : RawMsg :=
  ⟨str "PUT", str "/", str "HTTP/1.1", [⟨str "Content-Length", str "3"⟩], .none⟩

theorem minusOne_head : minusOne.Head :=
  ⟨by decide, by decide, by decide, oneLine_of_no_cr (by decide),
    looseHeaders_of (by
      intro x hx
      simp only [minusOne, List.mem_cons, List.not_mem_nil, or_false] at hx
      subst hx
      exact ⟨by decide, by decide, by decide⟩), rfl, by decide⟩

theorem three_head : three.Head :=
  ⟨by decide, by decide, by decide, oneLine_of_no_cr (by decide),
    looseHeaders_of (by
      intro x hx
      simp only [three, List.mem_cons, List.not_mem_nil, or_false] at hx
      subst hx
      exact ⟨by decide, by decide, by decide⟩), rfl, by decide⟩

theorem minusOne_not_chunked : ¬ SaysChunked (minusOne.headers.map RawHeader.header) := by
  rw [← any_isChunked]
  decide +kernel

theorem minusOne_length (n : Nat) : ¬ Announces (minusOne.headers.map RawHeader.header) n := by
  intro h
  have e := contentLen_of h
  have hlt : n < 2 ^ 31 := by
    rcases h with ⟨-, e⟩ | ⟨_, _, _, _, -, -, -, -, e⟩
    · omega
    · exact e.1
  have g : contentLen (minusOne.headers.map RawHeader.header) = 2 ^ 64 - 1 := by decide +kernel
  omega

/-- The property does not hold: after a length of −1 the parser asks for more for ever. -/
theorem C149_violated : ¬ C149_statement := by
  intro h
  have g := h minusOne minusOne_head (by decide +kernel)
  rcases (C149_exact minusOne_head).1 g with hc | ⟨n, hn⟩
  · exact minusOne_not_chunked hc
  · exact minusOne_length n hn

example : ∃ r : RawMsg, r.Head ∧ parse always r.text = .err .EAGAIN ∧
    (SaysChunked (r.headers.map RawHeader.header) ∨ ∃ n, Announces (r.headers.map RawHeader.header) n) :=
  ⟨three, three_head, by decide +kernel, .inr ⟨_, announces_of (hs := three.headers.map RawHeader.header) (by decide +kernel)⟩⟩

example : ∃ (r : RawMsg) (n : Nat) (rest : Bytes), r.Head ∧ ¬ SaysChunked (r.headers.map RawHeader.header) ∧
    Announces (r.headers.map RawHeader.header) n ∧ 0x00 ∉ rest ∧ parse always (r.text ++ rest) = .err .EAGAIN :=
  ⟨three, _, str "ab", three_head, by rw [← any_isChunked]; decide +kernel,
    announces_of (hs := three.headers.map RawHeader.header) (by decide +kernel), by decide, by decide +kernel⟩

example : ∃ r : RawMsg, r.Head ∧ ¬ SaysChunked (r.headers.map RawHeader.header) ∧
    ∀ n, ¬ Announces (r.headers.map RawHeader.header) n :=
  ⟨minusOne, minusOne_head, minusOne_not_chunked, minusOne_length⟩

end FreeCoAP.Http
