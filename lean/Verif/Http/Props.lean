import Verif.Http.LemmasMore

/-!
# Properties of the HTTP message module: C42, C43, C44, C56
-/

namespace FreeCoAP.Http

/-- Allocation never fails. -/
def always : Nat → Bool := fun _ => true

/-- **C42.** Parsing the text generated for an HTTP message gives back its start line, headers and body and consumes
the whole text. -/
def C42_statement : Prop :=
  ∀ (m : HMsg) (buf : Bytes) (len : Nat), WF m → len ≤ buf.length → (text m).length < len →
    ∃ b, generate m buf len = .ok (b, (text m).length) ∧
      parse always (b.take (text m).length) = .ok (m, (text m).length)

/-- C42 for messages whose body has no NUL. The text may be followed by other bytes. -/
theorem C42_roundtrip_partial {mem : Nat → Bool} (hm : ∀ n, mem n = true) {m : HMsg} (hw : WF m)
    (hb : ∀ b, m.body = some b → 0x00 ∉ b) {buf : Bytes} {len : Nat} (hl : len ≤ buf.length)
    (ht : (text m).length < len) (more : Bytes) :
    ∃ b, generate m buf len = .ok (b, (text m).length) ∧ b.take (text m).length = text m ∧
      parse mem (b.take (text m).length ++ more) = .ok (m, (text m).length) := by
  have e : (shape len (text m) (buf.drop len)).take (text m).length = text m := by
    unfold shape
    rw [List.take_of_length_le (l := text m) (by omega), List.append_assoc, List.take_left]
  refine ⟨_, generate_shape m (by omega) hl, e, ?_⟩
  rw [e, ← raw_text, parse_exact hm (raw_wf hw hb), raw_msg hw]

/-- A message with a NUL in its body. -/
def binary : HMsg :=
  ⟨str "HTTP/1.1", str "200", str "OK", [⟨str "Content-Length", str "3"⟩], some [0x61, 0x00, 0x62]⟩

/-- A message with a text. -/
def sample : HMsg :=
  ⟨str "HTTP/1.1", str "404", str "Not Found", [⟨str "Server", str "a b"⟩, ⟨str "content-length", str "5"⟩],
    some (str "hello")⟩

theorem tidy_of {s : Bytes} (h : s.all (fun c => !isSpace c) = true) : Tidy s := by
  have key : ∀ c ∈ s, isSpace c = false := by
    intro c hc
    have := List.all_eq_true.1 h c hc
    simpa using this
  refine ⟨fun c hc e => ?_, fun e => ?_, fun e => ?_, fun a b e => ?_⟩
  · rw [key c hc] at e; cases e
  · exact absurd (key 0x20 (List.mem_of_mem_head? (by rw [e]; rfl))) (by decide)
  · exact absurd (key 0x20 (List.mem_of_mem_getLast? (by rw [e]; rfl))) (by decide)
  · exact absurd (key 0x20 (by rw [e]; simp)) (by decide)

theorem binary_wf : WF binary where
  start0 := by decide
  start1 := by decide
  start2 := by decide
  names := by
    intro h hh
    simp only [binary, List.mem_singleton] at hh
    subst hh
    exact ⟨tidy_of (by decide), by decide, by decide⟩
  values := by
    intro h hh
    simp only [binary, List.mem_singleton] at hh
    subst hh
    exact ⟨tidy_of (by decide), by decide⟩
  plain := by
    rw [← any_isChunked]
    decide
  length := ⟨by simp, by decide, [], _, [], rfl, by decide, by simp, by decide, by decide, by decide⟩

/-- C42 does not hold for bodies with a NUL: the parser waits for more although it has the whole text. -/
theorem C42_violated : ¬ C42_statement := by
  intro h
  obtain ⟨b, hg, hp⟩ := h binary (List.replicate 100 0) 60 binary_wf (by decide) (by decide)
  have e : b = (generate binary (List.replicate 100 0) 60 |> fun r => match r with
    | .ok (b, _) => b
    | _ => []) := by rw [hg]
  rw [e] at hp
  exact absurd hp (by decide +kernel)

theorem sample_wf : WF sample where
  start0 := by decide
  start1 := by decide
  start2 := by decide
  names := by
    intro h hh
    simp only [sample, List.mem_cons, List.not_mem_nil, or_false] at hh
    rcases hh with rfl | rfl <;> exact ⟨tidy_of (by decide), by decide, by decide⟩
  values := by
    intro h hh
    simp only [sample, List.mem_cons, List.not_mem_nil, or_false] at hh
    rcases hh with rfl | rfl
    · refine ⟨⟨by decide, by decide, by decide, ?_⟩, by decide⟩
      intro a b e
      have := congrArg List.length e
      match a with
      | [] => cases e
      | [x] => cases e
      | [x, y] => cases e
      | x :: y :: z :: a =>
        simp only [List.length_append, List.length_cons] at this
        have h3 : (str "a b").length = 3 := by decide
        rw [h3] at this
        omega
    · exact ⟨tidy_of (by decide), by decide⟩
  plain := by
    rw [← any_isChunked]
    decide
  length := ⟨by decide, by decide, [_], _, [], rfl, by decide, by simp, by decide, by decide, by decide⟩

example : ∃ m : HMsg, WF m ∧ m.headers.length = 2 ∧ ∀ b, m.body = some b → 0x00 ∉ b :=
  ⟨sample, sample_wf, rfl, by rintro b ⟨⟩; decide⟩

/-- **C43.** A parse that succeeds on some received bytes gives the same message and consumes the same number of bytes
when further bytes follow, and consumes no more than the bytes received; an incomplete message is reported as such
rather than as an error. -/
def C43_statement : Prop :=
  ∀ (buf : Bytes) (m : HMsg) (n : Nat), 0x00 ∉ buf → parse always buf = .ok (m, n) →
    n ≤ buf.length ∧ (∀ more, 0x00 ∉ more → parse always (buf ++ more) = .ok (m, n)) ∧
    (∀ k, k < n → parse always (buf.take k) = .err .EAGAIN)

/-- What is consumed was received, and is not empty. -/
theorem C43_inside {mem : Nat → Bool} {buf : Bytes} {m : HMsg} {n : Nat} (h : parse mem buf = .ok (m, n)) :
    0 < n ∧ n ≤ buf.length := by
  rw [parse_eq] at h
  split at h
  · obtain ⟨⟨m', r⟩, h1, h2⟩ := Out.bind_eq_ok.1 h
    have := parseText_length h1
    have hl : (cstr buf).length ≤ buf.length := (List.takeWhile_sublist _).length_le
    cases h2
    dsimp only
    omega
  · cases h

/-- More bytes after an accepted message that is not chunked change nothing. -/
theorem C43_stable_partial {mem : Nat → Bool} (hm : ∀ n, mem n = true) {buf : Bytes} {m : HMsg} {n : Nat}
    (h0 : 0x00 ∉ buf) (h : parse mem buf = .ok (m, n)) (hc : ¬ SaysChunked m.headers) (more : Bytes) :
    parse mem (buf ++ more) = .ok (m, n) := by
  rw [parse_eq] at h ⊢
  rw [if_pos (hm _), cstr_of_no_nul h0] at h
  rw [if_pos (hm _), cstr_text h0]
  obtain ⟨⟨m', r⟩, h1, h2⟩ := Out.bind_eq_ok.1 h
  cases h2
  rw [parseText_more h1 hc, Out.bind_ok]
  have := parseText_length h1
  simp only [List.length_append, Out.pure_eq, Out.ok.injEq, Prod.mk.injEq, true_and]
  omega

/-- A well-formed text is accepted whatever follows it, with all its bytes and no others. -/
theorem C43_wellformed_partial {mem : Nat → Bool} (hm : ∀ n, mem n = true) {r : RawMsg} (hw : r.WF) (more : Bytes) :
    parse mem (r.text ++ more) = .ok (r.msg, r.text.length) := parse_exact hm hw more

/-- Every part of a well-formed text is reported as incomplete. -/
theorem C43_incomplete_partial {mem : Nat → Bool} (hm : ∀ n, mem n = true) {r : RawMsg} (hw : r.WF) {k : Nat}
    (hk : k < r.text.length) : parse mem (r.text.take k) = .err .EAGAIN := parse_part hm hw hk

/-- The first line of a header that has its colon on the second line is an error if the second line has not been
received. -/
theorem C43_violated : ¬ C43_statement := by
  intro h
  have := (h (str "GET / HTTP/1.1\r\nabc\r\n :d\r\n\r\n")
    ⟨str "GET", str "/", str "HTTP/1.1", [⟨str "abc", str "d"⟩], none⟩ 28 (by decide) (by decide +kernel)).2.2 21
    (by decide)
  exact absurd this (by decide +kernel)

/-- A text that is accepted, with a chunk size after its end: the blank size line makes the parser
read on. -/
def blankSize : Bytes := str "PUT / HTTP/1.1\r\nTransfer-Encoding: chunked\r\n\r\n\r\n\r\n0"

/-- More bytes after an accepted message can turn it into one that is not accepted. -/
theorem C43_violated_more :
    (∃ m, parse always blankSize = .ok (m, 50)) ∧ parse always (blankSize ++ str "5") = .err .EAGAIN :=
  ⟨⟨⟨str "PUT", str "/", str "HTTP/1.1", [⟨str "Transfer-Encoding", str "chunked"⟩], some []⟩, by decide +kernel⟩,
    by decide +kernel⟩

/-- A chunked message with an extension and a trailer. -/
def chunkedSample : RawMsg :=
  ⟨str "PUT", str "/", str "HTTP/1.1", [⟨str "Transfer-Encoding", str " Chunked "⟩],
    .chunked [⟨str "06", str "", str "chunk1"⟩, ⟨str "b", str "; param=value", str "1234\r\n\r\n 12"⟩] (str "0") []
      [⟨str "name", str "  a \t value"⟩]⟩

theorem chunkedSample_wf : chunkedSample.WF where
  start0 := by decide
  start1 := by decide
  start2 := by decide
  headers := by
    intro h hh
    simp only [chunkedSample, List.mem_singleton] at hh
    subst hh
    exact ⟨by decide, by decide, by decide⟩
  body := by
    refine ⟨?_, ?_, ⟨by decide, by decide, by decide, by decide⟩, ?_, by decide⟩
    · rw [← any_isChunked]
      decide
    · intro c hc
      simp only [List.mem_cons, List.not_mem_nil, or_false] at hc
      rcases hc with rfl | rfl
      · exact ⟨⟨by decide, by decide, by decide, by decide⟩, by decide⟩
      · exact ⟨⟨by decide, by decide, by decide, by decide⟩, by decide⟩
    · intro t ht
      simp only [List.mem_singleton] at ht
      subst ht
      exact ⟨by decide, by decide, by decide⟩
  text := by decide

example : ∃ r : RawMsg, r.WF ∧ r.msg.body = some (str "chunk11234\r\n\r\n 12") ∧
    r.msg.headers = [⟨str "Transfer-Encoding", str "Chunked"⟩, ⟨str "name", str "a value"⟩] :=
  ⟨chunkedSample, chunkedSample_wf, by decide, by decide⟩

/-- **C44.** Parsing a chunked HTTP body never reads or writes outside its buffers and yields the concatenation of the
chunks. -/
def C44_statement : Prop :=
  (∀ buf : Bytes, parse always buf ≠ .ub) ∧
  (∀ (r : RawMsg), r.WF → ∀ cs digits ext ts, r.body = .chunked cs digits ext ts →
    ∃ m n, parse always r.text = .ok (m, n) ∧ m.body = some (cs.flatMap RawChunk.data))

/-- The chunks of a well-formed body, put together. -/
theorem C44_body {mem : Nat → Bool} (hm : ∀ n, mem n = true) {r : RawMsg} (hw : r.WF) {cs : List RawChunk}
    {digits ext : Bytes} {ts : List RawHeader} (hb : r.body = .chunked cs digits ext ts) (more : Bytes) :
    ∃ m, parse mem (r.text ++ more) = .ok (m, r.text.length) ∧ m.body = some (cs.flatMap RawChunk.data) ∧
      m.headers = (r.headers ++ ts).map RawHeader.header := by
  refine ⟨_, parse_exact hm hw more, ?_, ?_⟩
  · simp only [RawMsg.msg, hb, RawBody.content]
  · simp only [RawMsg.msg, hb, RawBody.trailers]

/-- No text in which no line begins with a negative size leads outside the buffers. -/
theorem C44_safe_partial {mem : Nat → Bool} {buf : Bytes} (hs : SmallSizes (cstr buf)) (hl : buf.length < 2 ^ 31) :
    parse mem buf ≠ .ub := by
  refine parse_ne_ub hs ?_
  have : (cstr buf).length ≤ buf.length := (List.takeWhile_sublist _).length_le
  omega

/-- A chunk of size -2: its end is the end of its own size line. The sizes add up to 2 and two bytes are allocated;
copying -2 bytes is copying a huge number of bytes. -/
def negativeSize : Bytes :=
  str "PUT / HTTP/1.1\r\nTransfer-Encoding: chunked\r\n\r\nFFFFFFFE\r\n4\r\nabcd\r\n0\r\n\r\n"

theorem C44_violated : ¬ C44_statement := fun h => h.1 negativeSize (by decide +kernel)

/-- The undefined behaviour of `C44_violated` is the copying: both passes succeed. -/
theorem C44_violated_at :
    chunks 40 (str "FFFFFFFE\r\n4\r\nabcd\r\n0\r\n\r\n") 0 =
      .ok (str "FFFFFFFE\r\n4\r\nabcd\r\n0\r\n\r\n", [(10, -2), (13, 4)], 22) ∧
    totalLen 0 [(10, -2), (13, 4)] = .ok 2 ∧
    gather (str "FFFFFFFE\r\n4\r\nabcd\r\n0\r\n\r\n") 3 [] [(10, -2), (13, 4)] = .ub := by
  refine ⟨by decide +kernel, by decide +kernel, by decide +kernel⟩

theorem lineStart_lt {s : Bytes} {pos : Nat} (h : LineStart s pos) : pos ≤ s.length := by
  rcases h with rfl | ⟨h1, -, h2⟩
  · omega
  · have := (List.getElem?_eq_some_iff.1 h2).1
    omega

instance (s : Bytes) (pos : Nat) : Decidable (LineStart s pos) := inferInstanceAs (Decidable (_ ∨ _))

/-- Only the positions in the text matter. -/
theorem smallSizes_of {s : Bytes} (h : ∀ pos, pos < s.length + 1 → LineStart s pos →
    (scanHex ((blank s).drop pos)).all (fun n => decide (0 ≤ n)) = true) : SmallSizes s := by
  intro pos n hl hn
  have := h pos (by have := lineStart_lt hl; omega) hl
  rw [hn] at this
  simpa using this

example : ∃ buf : Bytes, SmallSizes (cstr buf) ∧ ∃ m n, parse always buf = .ok (m, n) ∧ m.body = some (str "abcd") :=
  ⟨str "PUT / HTTP/1.1\r\nTransfer-Encoding: chunked\r\n\r\n4\r\nabcd\r\n0\r\n\r\n",
    smallSizes_of (by decide +kernel),
    ⟨str "PUT", str "/", str "HTTP/1.1", [⟨str "Transfer-Encoding", str "chunked"⟩], some (str "abcd")⟩, 60,
    by decide +kernel, rfl⟩

/-- **C56.** Generating an HTTP message returns the length of its text and writes as much of it as leaves room for a
NUL, for every length of the buffer, and nothing behind that length. -/
def C56_statement : Prop :=
  ∀ (m : HMsg) (buf : Bytes) (len : Nat), len ≤ buf.length →
    ∃ b, generate m buf len = .ok (b, (text m).length) ∧ b.length = buf.length ∧ b.drop len = buf.drop len ∧
      b.take (min (text m).length (len - 1)) = (text m).take (len - 1) ∧
      (0 < len → b[min (text m).length (len - 1)]? = some 0)

/-- C56 for buffers that are not empty. -/
theorem C56_generate_partial (m : HMsg) {buf : Bytes} {len : Nat} (h : 0 < len) (hl : len ≤ buf.length) :
    ∃ b, generate m buf len = .ok (b, (text m).length) ∧ b.length = buf.length ∧ b.drop len = buf.drop len ∧
      b.take (min (text m).length (len - 1)) = (text m).take (len - 1) ∧
      b[min (text m).length (len - 1)]? = some 0 := by
  have h1 : ((text m).take (len - 1)).length = min (text m).length (len - 1) := by rw [List.length_take]; omega
  refine ⟨_, generate_shape m h hl, ?_, ?_, ?_, ?_⟩
  · rw [shape_length, List.length_drop]
    omega
  · unfold shape
    have h2 : ((text m).take (len - 1) ++ List.replicate (len - min (text m).length (len - 1)) 0).length = len := by
      rw [List.length_append, List.length_replicate, h1]
      omega
    generalize hu : (text m).take (len - 1) ++ List.replicate (len - min (text m).length (len - 1)) 0 = u at h2
    rw [← h2, List.drop_left]
  · unfold shape
    rw [← h1, List.append_assoc, List.take_left]
  · unfold shape
    rw [List.append_assoc, List.getElem?_append_right (by omega), h1, Nat.sub_self]
    obtain ⟨k, hk⟩ : ∃ k, len - min (text m).length (len - 1) = k + 1 :=
      ⟨len - min (text m).length (len - 1) - 1, by omega⟩
    rw [hk]
    rfl

/-- With a buffer of length 0 the code copies the body with the largest length there is. -/
theorem C56_violated : ¬ C56_statement := by
  intro h
  obtain ⟨b, hg, -⟩ := h binary [] 0 (by decide)
  exact absurd hg (by
    have : generate binary [] 0 = .ub := by decide +kernel
    rw [this]
    simp)

end FreeCoAP.Http
