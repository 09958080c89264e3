import Verif.Http.Props
import Verif.Http.LemmasAccept2

/-!
# Property theorems on HTTP messages: what is accepted
-/

namespace FreeCoAP.Http

/-- The headers determine the end of the body as RFC 7230 says: with a Transfer-Encoding it is chunked; without it
the Content-Length, if there is one, is a decimal number. -/
def Framed (r : RawMsg) : Prop :=
  match r.body with
  | .chunked .. => True
  | .plain b => (∀ h ∈ r.msg.headers, ¬ Named h "Transfer-Encoding") ∧ SaysLength r.msg.headers b.length
  | .none => (∀ h ∈ r.msg.headers, ¬ Named h "Transfer-Encoding") ∧ (NoLength r.msg.headers ∨ SaysLength r.msg.headers 0)

/-- **C74.** What is accepted is the text of a message: a start line of three fields, headers each with a colon, and a
body that ends where the headers say; and what is returned are these parts of the text. -/
def C74_statement : Prop :=
  ∀ (buf : Bytes) (m : HMsg) (n : Nat), 0x00 ∉ buf → buf.length < 2 ^ 31 → parse always buf = .ok (m, n) →
    ∃ (r : RawMsg) (more : Bytes), buf = r.text ++ more ∧ r.text.length = n ∧ r.Loose more ∧ r.msg = m ∧ Framed r

/-- What is accepted has the form of a message, and the message that is returned is the one that the text stands for.
Lengths may have a sign, may be followed by other text, and count modulo 2^32. -/
theorem C74_accepted_partial {mem : Nat → Bool} {buf : Bytes} {m : HMsg} {n : Nat} (hl : buf.length < 2 ^ 31)
    (h : parse mem buf = .ok (m, n)) :
    ∃ (r : RawMsg) (more : Bytes), cstr buf = r.text ++ more ∧ r.text.length = n ∧ r.Loose more ∧ r.msg = m := by
  rw [parse_eq] at h
  split at h
  · obtain ⟨⟨m', rest⟩, h1, h2⟩ := Out.bind_eq_ok.1 h
    have hl' : (cstr buf).length ≤ buf.length := (List.takeWhile_sublist _).length_le
    obtain ⟨r, e, h3, h4⟩ := parseText_sound (by omega) h1
    cases h2
    refine ⟨r, rest, e, ?_, h3, h4⟩
    have := congrArg List.length e
    rw [List.length_append] at this
    dsimp only
    omega
  · cases h

/-- Every text of this form is accepted with the message that it stands for, if no chunk has a blank line in place of
its size; what follows does not matter. -/
theorem C74_exact {mem : Nat → Bool} (hm : ∀ n, mem n = true) {r : RawMsg} {more : Bytes} (h : r.Loose more)
    (hw : r.body.Written) (h0 : 0x00 ∉ r.text) (more' : Bytes) :
    parse mem (r.text ++ more') = .ok (r.msg, r.text.length) := by
  rw [parse_eq]
  rw [if_pos (hm _), cstr_text h0, parseText_loose hm h hw, Out.bind_ok]
  simp only [List.length_append, Out.pure_eq, Out.ok.injEq, Prod.mk.injEq, true_and]
  omega

/-- Two texts of this form that are parts of one text are the same. -/
theorem C74_unique {r r' : RawMsg} {more more' u u' : Bytes} (h : r.Loose more) (h' : r'.Loose more')
    (hw : r.body.Written) (hw' : r'.body.Written) (h0 : 0x00 ∉ r.text) (h0' : 0x00 ∉ r'.text)
    (e : r.text ++ u = r'.text ++ u') : r.text = r'.text ∧ r.msg = r'.msg := by
  have h1 := C74_exact (mem := always) (fun _ => rfl) h hw h0 u
  have h2 := C74_exact (mem := always) (fun _ => rfl) h' hw' h0' u'
  rw [e, h2] at h1
  simp only [Out.ok.injEq, Prod.mk.injEq] at h1
  exact ⟨(List.append_inj e h1.2.symm).1, h1.1.symm⟩

/-- More bytes after an accepted message change nothing, or a chunk has a blank line in place of its size. -/
theorem C43_chunked_partial {mem : Nat → Bool} (hm : ∀ n, mem n = true) {buf : Bytes} {m : HMsg} {n : Nat}
    (h0 : 0x00 ∉ buf) (hl : buf.length < 2 ^ 31) (h : parse mem buf = .ok (m, n)) :
    (∀ more, parse mem (buf ++ more) = .ok (m, n)) ∨
    ∃ (r : RawMsg) (more : Bytes), buf = r.text ++ more ∧ r.Loose more ∧ ¬ r.body.Written := by
  obtain ⟨r, more, e, h1, h2, h3⟩ := C74_accepted_partial hl h
  rw [cstr_of_no_nul h0] at e
  by_cases hw : r.body.Written
  · left
    intro more'
    have hn : 0x00 ∉ r.text := fun hh => h0 (by rw [e]; exact List.mem_append_left _ hh)
    rw [e, List.append_assoc, C74_exact hm h2 hw hn, h1, h3]
  · exact .inr ⟨r, more, e, h2, hw⟩

/-! ## The well-formed texts have this form -/

theorem looseHeaders_of {hs : List RawHeader} (h : ∀ x ∈ hs, x.WF) : LooseHeaders hs := by
  refine ⟨fun x hx => ?_, fun x hx => (h x (List.mem_of_mem_tail hx)).first⟩
  have w := h x hx
  refine ⟨w.name.1, ?_, ?_⟩
  · rintro a b e
    exact absurd (by rw [e]; simp [CRLF]) w.no_cr
  · rintro ⟨y, e⟩
    exact w.name.2 (by rw [← e]; simp [CRLF])

theorem stored_self {n : Nat} (h : n < 2 ^ 31) : Stored n n := ⟨h, by omega⟩

theorem announces_says {hs : List Header} {n : Nat} (hn : n < 2 ^ 31) (h : SaysLength hs n) : Announces hs n := by
  obtain ⟨a, x, b, e, h1, h2, h3, h4, rfl⟩ := h
  refine .inr ⟨a, x, b, ofDecimal x.value, e, h1, h2, ⟨[], [], x.value, [], by simp, by simp, ?_, ?_, h4, by simp, ?_⟩, ?_⟩
  · intro c hc
    simp only [List.nil_append, List.append_nil] at hc
    exact (isDigit_facts c (h4 c (List.mem_of_mem_head? hc))).1
  · refine .inr (.inr ⟨rfl, ?_, ?_⟩)
    · intro hc
      rw [List.append_nil] at hc
      exact (isDigit_facts _ (h4 _ (List.mem_of_mem_head? hc))).2.2 rfl
    · intro hc
      rw [List.append_nil] at hc
      exact (isDigit_facts _ (h4 _ (List.mem_of_mem_head? hc))).2.1 rfl
  · simp [signed, str]
  · rw [show max (-(2 ^ 63 : Int)) (min (ofDecimal x.value : Int) (2 ^ 63 - 1)) = ofDecimal x.value by omega]
    exact stored_self hn

theorem SizeLine.loose {digits ext : Bytes} {n : Nat} (h : SizeLine digits ext n) (hn : n < 2 ^ 31) (more : Bytes) :
    LooseSize (digits ++ ext) more n ∧ Written (digits ++ ext) := by
  have hs := h.soft
  have he := hs.2.ends more
  obtain ⟨c, d, hd⟩ : ∃ c d, digits = c :: d := by
    cases digits with
    | nil => exact absurd rfl h.number.1
    | cons c d => exact ⟨c, d, rfl⟩
  have hc := isHex_facts c (h.hex c (by rw [hd]; simp))
  refine ⟨⟨oneLine_of_no_cr h.no_cr, n, ?_, by omega, stored_self hn⟩, c, ?_, hc.1⟩
  · rw [hs.1, List.append_assoc, List.append_assoc, ← List.append_assoc (soften ext)]
    obtain ⟨x, u, e1, e2, e3, e4⟩ := he
    rw [e1]
    refine ⟨[], [], [], digits, x :: u, by simp, by simp, ?_, ?_, ?_, .inr h.number.1, h.number.2, ?_, ?_⟩
    · intro y hy
      rw [hd] at hy
      cases hy
      exact hc.1
    · refine .inr (.inr ⟨rfl, ?_, ?_⟩) <;> rw [hd] <;> intro hy <;> cases hy
      · exact hc.2.2.1 rfl
      · exact hc.2.1 rfl
    · have key : ∀ q : Byte, q = 0x78 ∨ q = 0x58 → ¬ [0x30, q] <+: digits ++ x :: u := by
        rintro q hq ⟨y, hy⟩
        cases hdd : d with
        | nil =>
          rw [hd, hdd] at hy
          cases hy
          rcases hq with hq | hq
          · exact e3 hq
          · exact e4 hq
        | cons z d' =>
          rw [hd, hdd] at hy
          simp only [List.cons_append, List.cons.injEq] at hy
          have := isHex_facts z (h.hex z (by rw [hd, hdd]; simp))
          rcases hq with hq | hq
          · exact this.2.2.2.1 (hy.2.1.symm.trans hq)
          · exact this.2.2.2.2.1 (hy.2.1.symm.trans hq)
      exact .inr (.inr ⟨rfl, key _ (.inl rfl), key _ (.inr rfl)⟩)
    · intro y hy
      cases hy
      intro hh
      rw [(isHex_iff x).2 hh] at e2
      cases e2
    · simp [signed, str, h.size]
  · rw [hs.1, hd]
    simp

/-- A well-formed text is one of these, and none of its sizes is blank. -/
theorem C74_wellformed {r : RawMsg} (h : r.WF) (more : Bytes) : r.Loose more ∧ r.body.Written := by
  have hbody : r.body.Loose (r.headers.map RawHeader.header) more ∧ r.body.Written := by
    have hb := h.body
    cases hr : r.body with
    | none =>
      rw [hr] at hb
      refine ⟨⟨hb.1, ?_⟩, trivial⟩
      rcases hb.2 with h1 | h1
      · exact .inl ⟨h1, rfl⟩
      · exact announces_says (by decide) h1
    | plain b =>
      rw [hr] at hb
      exact ⟨⟨hb.1, hb.2.1, announces_says hb.2.2.1 hb.2.2.2⟩, trivial⟩
    | chunked cs digits ext ts =>
      rw [hr] at hb
      obtain ⟨h1, h2, h3, h4, h5⟩ := hb
      have hlen : ∀ c ∈ cs, c.data.length < 2 ^ 31 := by
        intro c hc
        have : c.data.length ≤ (cs.flatMap RawChunk.data).length := by
          clear h2 hr h5
          induction cs with
          | nil => cases hc
          | cons x cs ih =>
            rw [List.flatMap_cons, List.length_append]
            cases hc with
            | head => omega
            | tail _ hc => have := ih hc; omega
        omega
      refine ⟨⟨h1, ?_, ?_, looseHeaders_of h4, h5⟩, ?_, ?_⟩
      · clear hr h5
        induction cs with
        | nil => trivial
        | cons x cs ih =>
          exact ⟨((h2 x (by simp)).1.loose (hlen x (by simp)) _).1, (h2 x (by simp)).2,
            ih (fun y hy => h2 y (List.mem_cons_of_mem _ hy)) (fun y hy => hlen y (List.mem_cons_of_mem _ hy))⟩
      · exact (h3.loose (by decide) _).1
      · exact fun c hc => ((h2 c hc).1.loose (hlen c hc) []).2
      · exact (h3.loose (by decide) []).2
  refine ⟨⟨⟨h.start0.1, h.start0.2.1⟩, ⟨h.start1.1, h.start1.2.1⟩, h.start2.1, ?_, looseHeaders_of h.headers, hbody.1⟩,
    hbody.2⟩
  refine oneLine_of_no_cr ?_
  have h2 : (0x0D : Byte) ∉ str " " := by decide
  simp only [List.mem_append, not_or]
  exact ⟨⟨⟨⟨h.start0.2.2, h2⟩, h.start1.2.2⟩, h2⟩, h.start2.2⟩

/-! ## Counterexamples -/

/-- A message whose body is announced as 2^32 + 5 bytes. -/
def longBody : Bytes := str "PUT / HTTP/1.1\r\nContent-Length: 4294967301\r\n\r\nhello"

/-- It is accepted with 5 bytes. -/
theorem longBody_accepted : parse always longBody =
    .ok (⟨str "PUT", str "/", str "HTTP/1.1", [⟨str "Content-Length", str "4294967301"⟩], some (str "hello")⟩, 51) := by
  decide +kernel

/-- A message whose body is compressed and chunked. -/
def gzipBody : Bytes := str "PUT / HTTP/1.1\r\nTransfer-Encoding: gzip, chunked\r\n\r\n24\r\nGET /admin HTTP/1.1\r\n"

/-- It is accepted without its body. -/
theorem gzipBody_accepted : parse always gzipBody =
    .ok (⟨str "PUT", str "/", str "HTTP/1.1", [⟨str "Transfer-Encoding", str "gzip, chunked"⟩], none⟩, 52) := by
  decide +kernel

/-- A body is cut off where its length modulo 2^32 says. -/
theorem C74_violated : ¬ C74_statement := by
  intro h
  obtain ⟨r, more, -, -, h1, h2, h3⟩ := h _ _ _ (by decide) (by decide) longBody_accepted
  have hb : r.body.content = some (str "hello") := congrArg HMsg.body h2
  have hh : r.msg.headers = [⟨str "Content-Length", str "4294967301"⟩] := congrArg HMsg.headers h2
  unfold Framed at h3
  cases hr : r.body with
  | none => rw [hr] at hb; cases hb
  | plain b =>
    rw [hr] at hb h3
    cases hb
    obtain ⟨-, a, x, b, e, -, -, -, -, h4⟩ := h3
    rw [hh] at e
    have : x.value = str "4294967301" := by
      cases a with
      | nil => cases e; rfl
      | cons y a => cases a <;> cases e
    rw [this] at h4
    exact absurd h4 (by decide +kernel)
  | chunked cs digits ext ts =>
    have hl := h1.body
    rw [hr] at hl
    obtain ⟨y, hy, hn, -⟩ := hl.1
    have hm : y ∈ r.msg.headers := by
      simp only [RawMsg.msg, List.map_append]
      exact List.mem_append_left _ hy
    rw [hh, List.mem_singleton] at hm
    subst hm
    exact absurd hn (by decide)

/-- The body of a message with another transfer coding is taken for what follows the message. -/
theorem C74_violated_coding : ∃ buf m n, parse always buf = .ok (m, n) ∧ m.body = none ∧
    (∃ h ∈ m.headers, Named h "Transfer-Encoding") ∧ n < buf.length :=
  ⟨gzipBody, _, _, gzipBody_accepted, rfl, ⟨_, List.mem_singleton.2 rfl, by decide⟩, by decide⟩

/-! ## Examples -/

/-- A header over two lines, and a length with a sign and with other text behind it. -/
def folded : RawMsg :=
  ⟨str "PUT", str "/", str "HTTP/1.1", [⟨str "a", str " b\r\n c"⟩, ⟨str "Content-Length", str "+5, 6"⟩], .plain (str "hello")⟩

theorem folded_parse : parse always (folded.text ++ str "GET") = .ok (folded.msg, 55) ∧
    folded.msg.headers.head? = some ⟨str "a", str "b c"⟩ := by decide +kernel

example : ∃ (r : RawMsg) (more : Bytes), cstr folded.text = r.text ++ more ∧ r.text.length = 55 ∧ r.Loose more ∧ r.msg = folded.msg :=
  C74_accepted_partial (mem := always) (buf := folded.text) (by decide)
    (show parse always folded.text = .ok (folded.msg, 55) by decide +kernel)

/-- A text to which `C74_exact` applies and that is not well-formed. -/
theorem folded_loose : folded.Loose (str "GET") where
  start0 := by decide
  start1 := by decide
  start2 := by decide
  line := oneLine_of_no_cr (by decide)
  headers := by
    refine ⟨?_, by decide⟩
    intro x hx
    simp only [folded, List.mem_cons, List.not_mem_nil, or_false] at hx
    rcases hx with rfl | rfl
    · refine ⟨by decide, ?_, by decide⟩
      refine (lineEnd_folded (s := str "a: b\r\n c\r\n") (a := str "a: b\r\n c") (b := []) (by decide)).1
    · exact ⟨by decide, fun a b e => absurd (show (0x0D : Byte) ∈ str "Content-Length" ++ str ":" ++ str "+5, 6" by
        rw [show str "Content-Length" ++ str ":" ++ str "+5, 6" = a ++ CRLF ++ b from e]; simp [CRLF]) (by decide), by decide⟩
  body := by
    refine ⟨?_, by decide, .inr ⟨[_], _, [], 5, rfl, by decide, by simp, ?_, by decide, by decide⟩⟩
    · rw [← any_isChunked]
      decide
    · exact ⟨[], str "+", str "5", str ", 6", by decide, by simp, by decide, .inl rfl, by decide, by decide, by decide⟩

example : ∃ r : RawMsg, r.Loose (str "GET") ∧ r.body.Written ∧ 0x00 ∉ r.text ∧ ¬ r.WF :=
  ⟨folded, folded_loose, trivial, by decide, fun h => absurd (h.headers _ (List.mem_cons_self ..)).value (by decide)⟩

end FreeCoAP.Http
