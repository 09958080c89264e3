import Verif.Msg.LemmasMisc

/-!
# Properties of messages (C05 - C12, C14 - C18, C51)

`parse sx mem len` is `coap_msg_parse` on an object with the bytes `mem`, told that
the datagram has `len` bytes; `sx` says that plain `char` is signed. `format m buf
len` is `coap_msg_format` into an object `buf`, told that it has `len` bytes; it gives
the new contents of the object and the number returned. `.ub` is undefined behaviour.
-/

namespace FreeCoAP.Msg

/-! ## C05 -/

/-- A message within the limits enforced by the setters (any code class up to 7) and
with options that the option format can express. -/
structure Settable (m : Msg) : Prop where
  ver : m.ver = 1
  type : m.type < 4
  cls : m.codeClass < 8
  detail : m.codeDetail < 32
  msgId : m.msgId < 65536
  token : m.token.length ≤ 8
  opts : OptsOK 0 m.ops
  u32 : ∀ o ∈ m.ops, o.num < 2 ^ 32

/-- C05 in full: what is formatted is parsed to the same message, on every platform. -/
def C05_statement : Prop :=
  ∀ (sx : Bool) (m : Msg) (buf b' : Bytes) (len n : Nat), Settable m → format m buf len = .ok (b', n) →
    ∀ x t, parse sx (b'.take n ++ x :: t) n = .ok m

/-- A request with one option with number 141. -/
def msg141 : Msg := ⟨1, CON, 0, 1, 7, [], [⟨141, []⟩], []⟩

/-- A message with a code of class 1, which the setter accepts. -/
def msgClass1 : Msg := ⟨1, CON, 1, 0, 7, [], [], []⟩

/-- The code violates C05 in two ways: where `char` is signed, an option delta (or
length) of 141 to 268 is not read back; on every platform a code of class 1, 3, 6 or 7
is formatted but not parsed. -/
theorem C05_violated : ¬ C05_statement ∧
    (∃ b' n, format msg141 (List.replicate 8 0) 8 = .ok (b', n) ∧ WF msg141 ∧
      ∃ m', parse true (b'.take n ++ [0]) n = .ok m' ∧ m' ≠ msg141) ∧
    (∃ b' n, format msgClass1 (List.replicate 4 0) 4 = .ok (b', n) ∧ Settable msgClass1 ∧
      parse false (b'.take n ++ [0]) n = .err .EBADMSG) := by
  have h3 : (∃ b' n, format msgClass1 (List.replicate 4 0) 4 = .ok (b', n) ∧ Settable msgClass1 ∧
      parse false (b'.take n ++ [0]) n = .err .EBADMSG) := by
    refine ⟨[0x40, 0x20, 0, 7], 4, by decide +kernel, ?_, by decide +kernel⟩
    exact ⟨rfl, by decide, by decide, by decide, by decide, by decide, trivial, by simp [msgClass1]⟩
  refine ⟨?_, ?_, h3⟩
  · intro h
    obtain ⟨b', n, h1, h2, h3⟩ := h3
    have := h false _ _ _ _ _ h2 h1 0 []
    rw [h3] at this
    cases this
  · refine ⟨[0x40, 0x01, 0, 7, 0xd0, 0x80, 0, 0], 6, by decide +kernel, ?_,
      ⟨1, CON, 0, 1, 7, [], [⟨4294967181, []⟩], []⟩, by decide +kernel, by decide +kernel⟩
    refine ⟨⟨rfl, by decide, by decide, by decide, by decide, by decide⟩, ?_, ?_⟩
    · simp [Shape, msg141]
    · simp [OptsOK, msg141]

/-- C05, for the code classes of CoAP and, where `char` is signed, for options without
deltas and lengths of 141 to 268. The byte after the datagram is needed only by
messages without payload (C08). -/
theorem C05_roundtrip_partial (sx : Bool) {m : Msg} {buf b' : Bytes} {len n : Nat} (hm : WF m)
    (hw : ∀ o ∈ m.ops, o.num < 2 ^ 32) (hs : SafeOps sx 0 m.ops) (hf : format m buf len = .ok (b', n))
    (t : Bytes) (ht : t ≠ [] ∨ m.payload ≠ []) : parse sx (b'.take n ++ t) n = .ok m := by
  obtain ⟨-, rfl, h3⟩ := format_ok hf
  obtain ⟨h4, rfl⟩ := wrs_eq_ok.1 h3
  have e : ((buf.take 0 ++ enc m ++ buf.drop (0 + (enc m).length)).take (enc m).length) = enc m := by
    simp
  rw [e]
  exact parse_complete (enc_encodes hm hw) hs hw t ht

/-- On platforms with an unsigned `char` no condition on the options is left. -/
theorem C05_roundtrip_unsigned_char {m : Msg} {buf b' : Bytes} {len n : Nat} (hm : WF m)
    (hw : ∀ o ∈ m.ops, o.num < 2 ^ 32) (hf : format m buf len = .ok (b', n)) (x : Byte) (t : Bytes) :
    parse false (b'.take n ++ x :: t) n = .ok m :=
  C05_roundtrip_partial false hm hw (by intro h; cases h) hf (x :: t) (Or.inl (by simp))

/-- A confirmable PUT with a token, three options (one of 20 bytes) and a payload. -/
def msgPut : Msg := ⟨1, CON, 0, 3, 0x1234, [1, 2, 3], [⟨11, [0x61]⟩, ⟨11, [0x62, 0x63]⟩, ⟨60, List.replicate 20 7⟩], [9, 8]⟩

theorem msgPut_WF : WF msgPut := by
  refine ⟨⟨rfl, by decide, by decide, by decide, by decide, by decide⟩, ?_, ?_⟩
  · simp [Shape, msgPut]
  · simp [OptsOK, msgPut]

theorem msgPut_u32 : ∀ o ∈ msgPut.ops, o.num < 2 ^ 32 := by simp [msgPut]

/-- The hypotheses of C05 are met, for signed `char` too. -/
example : WF msgPut ∧ (∀ o ∈ msgPut.ops, o.num < 2 ^ 32) ∧ SafeOps true 0 msgPut.ops ∧
    ∃ b', format msgPut (List.replicate 64 0) 64 = .ok (b', 38) :=
  ⟨msgPut_WF, msgPut_u32, by simp [SafeOps, NoHighExt, msgPut],
   [0x43, 3, 0x12, 0x34, 1, 2, 3, 0xb1, 0x61, 2, 0x62, 0x63, 0xdd, 0x24, 0x07, 7, 7, 7, 7, 7, 7, 7, 7, 7, 7, 7, 7,
     7, 7, 7, 7, 7, 7, 7, 7, 0xff, 9, 8, 0, 0, 0, 0, 0, 0, 0, 0, 0, 0, 0, 0, 0, 0, 0, 0, 0, 0, 0, 0, 0, 0, 0, 0, 0, 0], by decide +kernel⟩

/-! ## C06 -/

/-- C06 in full. -/
def C06_statement : Prop :=
  ∀ (sx : Bool) (b b2 : Bytes) (x : Byte) (m : Msg), b.length ≤ 65535 → b2.length ≤ 65535 →
    parse sx (b ++ [x]) b.length = .ok m → parse sx (b2 ++ [x]) b2.length = .ok m → b = b2

/-- The code violates C06 where `char` is signed: the length byte 0xf3 is read as -13
and gives the same option as no extension at all. -/
theorem C06_violated : ¬ C06_statement := by
  intro h
  have := h true [0x40, 1, 0, 0, 0x0d, 0xf3] [0x40, 1, 0, 0, 0x00] 0 ⟨1, CON, 0, 1, 0, [], [⟨0, []⟩], []⟩
    (by decide) (by decide) (by decide +kernel) (by decide +kernel)
  cases this

theorem parse_u32 {b t : Bytes} {m : Msg} (hb : b.length ≤ 65535)
    (h : parse false (b ++ t) b.length = .ok m) : Encodes m b ∧ ∀ o ∈ m.ops, o.num < 2 ^ 32 := by
  have e := parse_sound (by simp) (by omega) h
  rw [List.take_left] at e
  refine ⟨e, ?_⟩
  obtain ⟨-, -, ob, pb, ho, -, he⟩ := e
  have hl : ob.length ≤ b.length := by rw [he]; simp; omega
  intro o hm
  have := ho.num_le o hm
  omega

/-- C06, for unsigned `char`: every accepted datagram is what the formatter writes for
the message it was parsed to, and some buffer is large enough for it to do so. The
length of a datagram is at most 65535. -/
theorem C06_format_parse_partial {b t : Bytes} {m : Msg} (hb : b.length ≤ 65535)
    (h : parse false (b ++ t) b.length = .ok m) :
    (∀ buf len b' n, format m buf len = .ok (b', n) → n = b.length ∧ b'.take n = b) ∧
    (∀ buf len, len ≤ buf.length → len < 2 ^ 64 → b.length + m.ops.length ≤ len →
      ∃ b', format m buf len = .ok (b', b.length)) := by
  obtain ⟨he, hw⟩ := parse_u32 hb h
  obtain ⟨h1, h2⟩ := encodes_eq_enc he hw
  constructor
  · intro buf len b' n hf
    obtain ⟨-, rfl, h3⟩ := format_ok hf
    obtain ⟨h4, rfl⟩ := wrs_eq_ok.1 h3
    refine ⟨by rw [h1], ?_⟩
    simp [h1]
  · intro buf len hl hlw hr
    obtain ⟨b', hb'⟩ := format_room (m := m) hl hlw h2.shape
      (by
        intro o ho
        have : o.val.length < 65805 := by
          have : ∀ (ops : List Op) (prev : Nat), OptsOK prev ops → ∀ o ∈ ops, o.val.length < 65805 := by
            intro ops
            induction ops with
            | nil => intro _ _ o ho; cases ho
            | cons a as ih =>
              intro prev h o ho
              rcases List.mem_cons.1 ho with rfl | ho
              · exact h.2.2.1
              · exact ih _ h.2.2.2 o ho
          exact this _ _ h2.opts o ho
        omega) (by rw [← h1]; exact hr)
    exact ⟨b', by rw [hb', h1]⟩

/-- C06, for unsigned `char`: different datagrams give different messages. -/
theorem C06_injective_partial {b b2 t t2 : Bytes} {m : Msg} (hb : b.length ≤ 65535) (hb2 : b2.length ≤ 65535)
    (h : parse false (b ++ t) b.length = .ok m) (h2 : parse false (b2 ++ t2) b2.length = .ok m) : b = b2 := by
  obtain ⟨he, hw⟩ := parse_u32 hb h
  obtain ⟨he2, hw2⟩ := parse_u32 hb2 h2
  rw [(encodes_eq_enc he hw).1, (encodes_eq_enc he2 hw2).1]

example : parse false ([0x41, 2, 0, 9, 0xaa, 0xb1, 0x61, 0xd1, 0x04, 0x10, 0xff, 5] ++ [0]) 12 =
    .ok ⟨1, CON, 0, 2, 9, [0xaa], [⟨11, [0x61]⟩, ⟨28, [0x10]⟩], [5]⟩ := by decide +kernel

/-! ## C07 -/

/-- C07 in full: given memory, the parser succeeds exactly on the grammar, with the
message the grammar assigns. -/
def C07_statement : Prop :=
  ∀ (sx : Bool) (b : Bytes) (x : Byte) (t : Bytes) (m : Msg), b.length ≤ 65535 →
    (parse sx (b ++ x :: t) b.length = .ok m ↔ Encodes m b)

/-- C07 for unsigned `char`. -/
theorem C07_parse_iff_grammar_partial (b : Bytes) (x : Byte) (t : Bytes) (m : Msg) (hb : b.length ≤ 65535) :
    parse false (b ++ x :: t) b.length = .ok m ↔ Encodes m b := by
  constructor
  · intro h; exact (parse_u32 hb h).1
  · intro h
    refine parse_complete h (by intro h; cases h) ?_ _ (Or.inl (by simp))
    obtain ⟨-, -, ob, pb, ho, -, he⟩ := h
    have hl : ob.length ≤ b.length := by rw [he]; simp; omega
    intro o hm
    have := ho.num_le o hm
    omega

/-- C07 for signed `char`: the messages of the grammar without deltas and lengths of
141 to 268 are parsed. -/
theorem C07_complete_signed_partial (b : Bytes) (x : Byte) (t : Bytes) (m : Msg) (hb : b.length ≤ 65535)
    (h : Encodes m b) (hn : NoHighExt 0 m.ops) : parse true (b ++ x :: t) b.length = .ok m := by
  refine parse_complete h (fun _ => hn) ?_ _ (Or.inl (by simp))
  obtain ⟨-, -, ob, pb, ho, -, he⟩ := h
  have hl : ob.length ≤ b.length := by rw [he]; simp; omega
  intro o hm
  have := ho.num_le o hm
  omega

/-- The code violates C07 where `char` is signed. -/
theorem C07_violated : ¬ C07_statement := by
  intro h
  have h1 := (h true [0x40, 1, 0, 7, 0xd0, 0x80] 0 [] msg141 (by decide)).2
    ((C07_parse_iff_grammar_partial [0x40, 1, 0, 7, 0xd0, 0x80] 0 [] msg141 (by decide)).1 (by decide +kernel))
  revert h1
  decide +kernel

/-- The two sides of C07 are met by a message with options and a payload. -/
example : Encodes ⟨1, CON, 0, 2, 9, [0xaa], [⟨11, [0x61]⟩, ⟨28, [0x10]⟩], [5]⟩
    [0x41, 2, 0, 9, 0xaa, 0xb1, 0x61, 0xd1, 0x04, 0x10, 0xff, 5] :=
  (C07_parse_iff_grammar_partial _ 0 [] _ (by decide)).1 (by decide +kernel)

/-! ## C08 -/

/-- C08 in full: no read outside the datagram. -/
def C08_statement : Prop := ∀ (sx : Bool) (mem : Bytes) (len : Nat), len ≤ mem.length → parse sx mem len ≠ .ub

/-- The code violates C08: after the last option the parser looks for the payload
marker before it looks at the length. Every message without payload that fills its
object makes it read the byte after the object; `[0x40, 1, 0, 0]` is a GET without
options. -/
theorem C08_violated : ¬ C08_statement := by
  intro h
  exact h false [0x40, 1, 0, 0] 4 (by decide) (by decide +kernel)

/-- C08 when at least one byte follows the datagram in its object: no read outside the
object, and the bytes after that one are not looked at. -/
theorem C08_reads_inside_partial (sx : Bool) (mem : Bytes) (len : Nat) (hl : len < mem.length) :
    parse sx mem len ≠ .ub ∧ ∀ t, parse sx (mem ++ t) len = parse sx mem len :=
  ⟨parse_ne_ub hl, fun _ => parse_append hl⟩

/-- The value of the byte after the datagram has no influence. -/
theorem C08_byte_after_irrelevant_partial (b : Bytes) (x y : Byte) (t u : Bytes) (m : Msg) (hb : b.length ≤ 65535)
    (h : parse false (b ++ x :: t) b.length = .ok m) : parse false (b ++ y :: u) b.length = .ok m :=
  (C07_parse_iff_grammar_partial b y u m hb).2 ((C07_parse_iff_grammar_partial b x t m hb).1 h)

/-- Exactly which accepted datagrams are read past their end: those without payload. -/
theorem C08_overread_iff_partial (sx : Bool) (b : Bytes) (x : Byte) (m : Msg)
    (h : parse sx (b ++ [x]) b.length = .ok m) :
    (parse sx b b.length = .ub ↔ m.payload = []) ∧ (m.payload ≠ [] → parse sx b b.length = .ok m) := by
  rcases parse_tight (sx := sx) x [] b with ⟨h1, h2⟩ | ⟨h1, h2⟩
  · have := h2 m h
    exact ⟨⟨fun _ => this, fun _ => h1⟩, fun hn => absurd this hn⟩
  · rw [h] at h1
    have := h2 m h1
    rw [h1]
    refine ⟨⟨fun hu => ?_, fun hp => absurd hp this⟩, fun _ => rfl⟩
    cases hu

example : parse false ([0x40, 1, 0, 0, 0xb1, 0x61] ++ [0]) 6 = .ok ⟨1, CON, 0, 1, 0, [], [⟨11, [0x61]⟩], []⟩ ∧
    parse false [0x40, 1, 0, 0, 0xb1, 0x61] 6 = .ub ∧
    parse false [0x40, 1, 0, 0, 0xff, 0x61] 6 = .ok ⟨1, CON, 0, 1, 0, [], [], [0x61]⟩ := by decide +kernel

/-! ## C09, C10 -/

/-- C09 in full: no write outside the first `len` bytes of the buffer. -/
def C09_statement : Prop :=
  ∀ (m : Msg) (buf : Bytes) (len : Nat), len ≤ buf.length → format m buf len ≠ .ub ∧
    ∀ b' n, format m buf len = .ok (b', n) → n ≤ len ∧ b'.drop len = buf.drop len

/-- A GET with one Uri-Path segment of 13 bytes. -/
def msgLong : Msg := ⟨1, CON, 0, 1, 7, [], [⟨11, List.replicate 13 0x61⟩], []⟩

/-- The same with a payload of two bytes. -/
def msgLongP : Msg := { msgLong with payload := [1, 2] }

/-- The code violates C09: the size test of an option looks at its number where it
should look at its length, so that a segment of 13 to 268 bytes is written one byte
past the end of a buffer that is one byte too small. -/
theorem C09_violated : ¬ C09_statement ∧ format msgLong (List.replicate 18 0) 18 = .ub ∧
    (∃ b', format msgLong (List.replicate 30 0) 18 = .ok (b', 19)) := by
  have h : format msgLong (List.replicate 18 0) 18 = .ub := by decide +kernel
  refine ⟨fun hs => (hs msgLong _ 18 (by decide)).1 h, h, ?_⟩
  exact ⟨[0x40, 1, 0, 7, 0xbd, 0, 0x61, 0x61, 0x61, 0x61, 0x61, 0x61, 0x61, 0x61, 0x61, 0x61, 0x61, 0x61, 0x61, 0, 0, 0, 0, 0,
    0, 0, 0, 0, 0, 0], by decide +kernel⟩

/-- After that byte the space left wraps to 2^64 - 1 and the payload, of any length, is
written outside too. -/
theorem C09_violated_payload : ∃ b', format msgLongP (List.replicate 30 0) 18 = .ok (b', 22) :=
  ⟨[0x40, 1, 0, 7, 0xbd, 0, 0x61, 0x61, 0x61, 0x61, 0x61, 0x61, 0x61, 0x61, 0x61, 0x61, 0x61, 0x61, 0x61, 0xff, 1, 2, 0, 0,
    0, 0, 0, 0, 0, 0], by decide +kernel⟩

theorem wrs_outside {buf bs b' : Bytes} {len : Nat} (h : wrs buf 0 bs = .ok b') (hl : bs.length ≤ len) :
    b'.drop len = buf.drop len := by
  obtain ⟨-, rfl⟩ := wrs_eq_ok.1 h
  simp [List.drop_append, List.drop_eq_nil_of_le hl]
  congr 1; omega

/-- C09 for messages without an option of number less than 13 and length 13 to 268.
`o.val.length + 5 < 2 ^ 32` says that the option fits `unsigned` arithmetic. -/
theorem C09_writes_inside_partial (m : Msg) (buf : Bytes) (len : Nat) (hl : len ≤ buf.length) (hw : len < 2 ^ 64)
    (hn : NoUnder m.ops) (ho : ∀ o ∈ m.ops, o.val.length + 5 < 2 ^ 32) :
    format m buf len ≠ .ub ∧
    ∀ b' n, format m buf len = .ok (b', n) → n ≤ len ∧ b'.length = buf.length ∧ b'.drop len = buf.drop len := by
  rcases check_cases m with hc | hc
  · have hs := (check_ok_iff m).1 hc
    rcases format_inside hl hw hs hn ho with h | ⟨b1, h, h2⟩
    · rw [h]; exact ⟨by simp, by intro b' n h; cases h⟩
    · obtain ⟨-, -, h3⟩ := format_ok h
      rw [h]
      refine ⟨by simp, ?_⟩
      intro b' n e
      cases e
      exact ⟨h2, wrs_length h3, wrs_outside h3 h2⟩
  · have : format m buf len = .err .EBADMSG := by unfold format; rw [hc]; rfl
    rw [this]
    exact ⟨by simp, by intro b' n h; cases h⟩

/-- C09 holds for every message when the buffer has a spare byte per option. -/
theorem C09_spare_partial (m : Msg) (buf : Bytes) (len : Nat) (hl : len ≤ buf.length) (hw : len < 2 ^ 64)
    (hm : WF m) (hu : ∀ o ∈ m.ops, o.num < 2 ^ 32) (ho : ∀ o ∈ m.ops, o.val.length + 5 < 2 ^ 32)
    (hr : size m + m.ops.length ≤ len) :
    ∃ b', format m buf len = .ok (b', size m) ∧ b'.drop len = buf.drop len := by
  obtain ⟨b', h⟩ := format_room hl hw hm.shape ho (by rw [enc_length hm hu]; exact hr)
  rw [enc_length hm hu] at h
  refine ⟨b', h, ?_⟩
  obtain ⟨-, h2, h3⟩ := format_ok h
  exact wrs_outside h3 (by omega)

/-- The hypotheses of C09 and C10 are met by a message with options, a tight buffer and
one that is too small. -/
example : NoUnder msgPut.ops ∧ NoOver msgPut.ops ∧ size msgPut = 38 ∧
    format msgPut (List.replicate 40 0) 37 = .err .ENOSPC := by
  refine ⟨by simp [NoUnder, msgPut], by simp [NoOver, msgPut], by decide +kernel, by decide +kernel⟩

/-- C10 in full. -/
def C10_statement : Prop :=
  ∀ (m : Msg) (buf : Bytes) (len : Nat), WF m → (∀ o ∈ m.ops, o.num < 2 ^ 32) → len ≤ buf.length → len < 2 ^ 64 →
    (size m ≤ len → ∃ b', format m buf len = .ok (b', size m)) ∧ (len < size m → format m buf len = .err .ENOSPC)

/-- The code violates C10 for the same reason as C09: the message of 19 bytes is not
refused for a buffer of 18; and a message of 6 bytes with an option of number 141 is
refused for a buffer of 6. -/
theorem C10_violated : ¬ C10_statement ∧ size msg141 = 6 ∧ format msg141 (List.replicate 6 0) 6 = .err .ENOSPC := by
  have h : format msg141 (List.replicate 6 0) 6 = .err .ENOSPC := by decide +kernel
  refine ⟨fun hs => ?_, by decide +kernel, h⟩
  have := (hs msg141 (List.replicate 6 0) 6 ?_ ?_ (by decide) (by decide)).1 (by decide +kernel)
  · obtain ⟨b', e⟩ := this
    rw [h] at e; cases e
  · refine ⟨⟨rfl, by decide, by decide, by decide, by decide, by decide⟩, ?_, ?_⟩
    · simp [Shape, msg141]
    · simp [OptsOK, msg141]
  · simp [msg141]

/-- C10 for messages whose options are counted correctly. -/
theorem C10_fits_iff_partial (m : Msg) (buf : Bytes) (len : Nat) (hm : WF m) (hu : ∀ o ∈ m.ops, o.num < 2 ^ 32)
    (hl : len ≤ buf.length) (hw : len < 2 ^ 64) (hn : NoUnder m.ops) (hv : NoOver m.ops)
    (ho : ∀ o ∈ m.ops, o.val.length + 5 < 2 ^ 32) :
    (size m ≤ len → ∃ b', format m buf len = .ok (b', size m)) ∧ (len < size m → format m buf len = .err .ENOSPC) := by
  have e := enc_length hm hu
  rcases format_inside hl hw hm.shape hn ho with h | ⟨b1, h, h2⟩
  · refine ⟨fun hle => ?_, fun _ => h⟩
    exact absurd h (format_fits hl hw hm.shape hn ho hv (by omega))
  · rw [e] at h h2
    exact ⟨fun _ => ⟨b1, h⟩, fun hlt => by omega⟩

/-- Without the condition on short values of high-numbered options a buffer that is too
small is still refused. -/
theorem C10_refuses_partial (m : Msg) (buf : Bytes) (len : Nat) (hm : WF m) (hu : ∀ o ∈ m.ops, o.num < 2 ^ 32)
    (hl : len ≤ buf.length) (hw : len < 2 ^ 64) (hn : NoUnder m.ops)
    (ho : ∀ o ∈ m.ops, o.val.length + 5 < 2 ^ 32) (hlt : len < size m) : format m buf len = .err .ENOSPC := by
  have e := enc_length hm hu
  rcases format_inside hl hw hm.shape hn ho with h | ⟨b1, h, h2⟩
  · exact h
  · omega

/-! ## C11 -/

/-- A history of `coap_msg_add_op` calls. -/
def addAll (m : Msg) (calls : List Op) : Msg := calls.foldl (fun m o => addOp m o.num o.val) m

/-- C11. After any sequence of additions to a new message the options are sorted by
number, are the added ones, and those with the same number are in the order in which
they were added. -/
theorem C11_options_sorted_stable (calls : List Op) :
    Sorted (addAll create calls).ops ∧ (addAll create calls).ops.Perm calls ∧
    ∀ k, (addAll create calls).ops.filter (fun o => o.num = k) = calls.filter (fun o => o.num = k) := by
  have gen : ∀ (calls : List Op) (m : Msg), Sorted m.ops →
      Sorted (addAll m calls).ops ∧ (addAll m calls).ops.Perm (m.ops ++ calls) ∧
      ∀ k, (addAll m calls).ops.filter (fun o => o.num = k) = (m.ops ++ calls).filter (fun o => o.num = k) := by
    intro calls
    induction calls with
    | nil => intro m h; simpa [addAll] using h
    | cons c cs ih =>
      intro m h
      have e : addAll m (c :: cs) = addAll (addOp m c.num c.val) cs := rfl
      have e2 : (addOp m c.num c.val).ops = ins c m.ops := by unfold addOp; rw [opListAdd_eq]
      obtain ⟨i1, i2, i3⟩ := ih (addOp m c.num c.val) (by rw [e2]; exact ins_sorted c _ h)
      rw [e]
      rw [e2] at i2 i3
      refine ⟨i1, ?_, ?_⟩
      · refine i2.trans (((ins_perm c m.ops).append_right cs).trans ?_)
        exact List.perm_middle.symm
      · intro k
        rw [i3 k, List.filter_append, ins_filter c k _ h, ← List.filter_append]
        simp
  simpa [create, destroyed, Sorted] using gen calls create (by simp [create, destroyed, Sorted])

/-- Nothing else in the message changes. -/
theorem C11_other_fields (m : Msg) (num : Nat) (val : Bytes) :
    { addOp m num val with ops := m.ops } = m := rfl

example : (addAll create [⟨11, [1]⟩, ⟨3, [2]⟩, ⟨11, [3]⟩, ⟨60, [4]⟩, ⟨3, [5]⟩]).ops =
    [⟨3, [2]⟩, ⟨3, [5]⟩, ⟨11, [1]⟩, ⟨11, [3]⟩, ⟨60, [4]⟩] := by decide

/-! ## C12 -/

/-- C12. A message with code 0.00 and a token, an option or a payload, a
non-confirmable message with code 0.00 and a reset message with another code are
refused by the formatter, for every buffer, and never returned by the parser. -/
theorem C12_malformed_refused (m : Msg)
    (h : (m.codeClass = 0 ∧ m.codeDetail = 0 ∧ (m.token ≠ [] ∨ m.ops ≠ [] ∨ m.payload ≠ [] ∨ m.type = NON)) ∨
      (m.type = RST ∧ ¬ (m.codeClass = 0 ∧ m.codeDetail = 0))) :
    (∀ buf len, format m buf len = .err .EBADMSG) ∧ (∀ sx mem len, parse sx mem len ≠ .ok m) := by
  have hns : ¬ Shape m := by
    unfold Shape
    rintro ⟨h1, h2⟩
    rcases h with ⟨a, b, c⟩ | ⟨a, b⟩
    · obtain ⟨d1, d2, d3, d4⟩ := h1 ⟨a, b⟩
      rcases c with c | c | c | c <;> contradiction
    · exact b (h2 a)
  have hc : check m = .err .EBADMSG := by
    rcases check_cases m with hc | hc
    · exact absurd ((check_ok_iff m).1 hc) hns
    · exact hc
  constructor
  · intro buf len
    unfold format; rw [hc]; rfl
  · intro sx mem len hp
    unfold parse at hp
    simp only [Out.bind_eq_ok] at hp
    obtain ⟨hd, -, tok, -, ⟨ops, n⟩, -, hp⟩ := hp
    simp only at hp
    obtain ⟨pl, -, u, hck, hp⟩ := hp
    cases hp
    rw [hc] at hck
    cases hck

/-- Every other message passes the check: with enough space it is formatted. -/
theorem C12_others_not_refused (m : Msg) (hm : WF m) (hu : ∀ o ∈ m.ops, o.num < 2 ^ 32)
    (ho : ∀ o ∈ m.ops, o.val.length + 5 < 2 ^ 32) (buf : Bytes)
    (hw : buf.length < 2 ^ 64) (hr : size m + m.ops.length ≤ buf.length) :
    ∃ b' n, format m buf buf.length = .ok (b', n) := by
  obtain ⟨b', hb⟩ := format_room (Nat.le_refl _) hw hm.shape ho (by rw [enc_length hm hu]; exact hr)
  exact ⟨b', _, hb⟩

/-- An Empty message with a token is malformed, a ping and a GET are not. -/
example : (∃ m : Msg, m.codeClass = 0 ∧ m.codeDetail = 0 ∧ m.token ≠ []) ∧
    Shape ⟨1, CON, 0, 0, 5, [], [], []⟩ ∧ Shape ⟨1, CON, 0, 1, 5, [1], [], []⟩ :=
  ⟨⟨⟨1, CON, 0, 0, 5, [1], [], []⟩, by decide⟩, by simp [Shape], by simp [Shape]⟩

/-! ## C14 -/

/-- C14. Copying a message with sorted options and fields within the setters' limits
into a new (or reset) message gives an equal message. The source is an argument of a
function and cannot change. -/
theorem C14_copy_equal (src : Msg) (h1 : src.type < 4) (h2 : src.codeClass < 8) (h3 : src.codeDetail < 32)
    (h4 : src.msgId < 65536) (h5 : src.token.length ≤ 8) (hs : Sorted src.ops) : copy create src = .ok src := by
  unfold copy setType setCode setMsgId setToken
  simp only
  rw [if_neg (by simp only [CON, NON, ACK, RST]; omega)]
  rw [Out.bind_ok, if_neg (by omega), if_neg (by omega), Out.bind_ok, if_neg (by omega), Out.bind_ok,
    if_neg (by omega), Out.bind_ok]
  rw [copyOps_eq]
  · simp [setPayload, create, destroyed]
  · simpa [create, destroyed] using hs

/-- The messages the parser returns and those built with `coap_msg_add_op` have sorted
options (for unsigned `char`), so that C14 applies to them. -/
theorem C14_applies {b t : Bytes} {m : Msg} (hb : b.length ≤ 65535)
    (h : parse false (b ++ t) b.length = .ok m) : copy create m = .ok m := by
  obtain ⟨he, hw⟩ := parse_u32 hb h
  obtain ⟨-, hwf⟩ := encodes_eq_enc he hw
  have hf := hwf.fields
  refine C14_copy_equal m hf.type ?_ hf.detail hf.msgId hf.token ?_
  · rcases hf.cls with h | h | h | h <;> omega
  · have gen : ∀ (ops : List Op) (prev : Nat), OptsOK prev ops → Sorted ops ∧ ∀ o ∈ ops, prev ≤ o.num := by
      intro ops
      induction ops with
      | nil => intro _ _; exact ⟨List.Pairwise.nil, by simp⟩
      | cons a as ih =>
        intro prev hp
        obtain ⟨p1, -, -, p4⟩ := hp
        obtain ⟨i1, i2⟩ := ih a.num p4
        refine ⟨List.pairwise_cons.2 ⟨i2, i1⟩, ?_⟩
        intro o ho
        rcases List.mem_cons.1 ho with rfl | ho
        · exact p1
        · have := i2 o ho; omega
    exact (gen _ _ hwf.opts).1

example : copy create msgPut = .ok msgPut :=
  C14_copy_equal msgPut (by decide) (by decide) (by decide) (by decide) (by decide) (by simp [Sorted, msgPut])

/-! ## C15 -/

/-- C15 in full. -/
def C15_statement : Prop :=
  ∀ (ops : List Op) (buf : Bytes) (len : Nat), len ≤ buf.length →
    ∃ b', uriPathToStr ops buf len = .ok (b', (pathStr ops).length) ∧ b'.drop len = buf.drop len ∧
      (0 < len → b'.take len =
        (pathStr ops).take (len - 1) ++ List.replicate (len - min (pathStr ops).length (len - 1)) 0)

/-- The code violates C15 in the value returned for a buffer of 0 bytes, and for a
buffer of one byte when there is no segment. -/
theorem C15_violated : ¬ C15_statement := by
  intro h
  obtain ⟨b', h1, -⟩ := h [] [1] 1 (by decide)
  have : uriPathToStr [] [1] 1 = .ok ([0], 0) := by decide +kernel
  rw [this] at h1
  cases h1

/-- C15 except in those two cases: the string, truncated to fit and padded with zeros
(at least one), is what the buffer holds; nothing after the buffer is written and the
untruncated length is returned. -/
theorem C15_path_string_partial (ops : List Op) (buf : Bytes) (len : Nat) (hl : len ≤ buf.length)
    (h : 1 < len ∨ len = 1 ∧ ∃ o ∈ ops, o.num = 11) :
    ∃ b', uriPathToStr ops buf len = .ok (b', (pathStr ops).length) ∧ b'.drop len = buf.drop len ∧
      b'.take len = (pathStr ops).take (len - 1) ++ List.replicate (len - min (pathStr ops).length (len - 1)) 0 := by
  have hpos : 0 < len := by omega
  unfold uriPathToStr
  rw [if_neg (by omega), wrs_ok (by simp; omega), Out.bind_ok]
  have e : buf.take 0 ++ List.replicate len 0 ++ buf.drop (0 + (List.replicate len (0 : UInt8)).length) =
      ([] : Bytes) ++ List.replicate (len - 1) 0 ++ (0 :: buf.drop len) := by
    obtain ⟨k, rfl⟩ : ∃ k, len = k + 1 := ⟨len - 1, by omega⟩
    simp [List.replicate_succ']
  rw [e]
  have hloop := uriPathLoop_ok ops [] (len - 1) 0 (0 :: buf.drop len)
  simp only [List.length_nil] at hloop
  rw [hloop, Out.bind_ok]
  simp only [List.nil_append, Nat.zero_add]
  by_cases hex : ∃ o ∈ ops, o.num = 11
  · have hp : pathStr ops = segments ops := by simp only [pathStr, if_pos hex]
    have hne : 0 < (segments ops).length := by
      obtain ⟨o, ho, hn⟩ := hex
      have hm : 0x2f ∈ segments ops :=
        List.mem_flatMap.2 ⟨o, List.mem_filter.2 ⟨ho, by simpa using hn⟩, by simp⟩
      exact List.length_pos_of_mem hm
    rw [if_neg (by rintro ⟨h1, h2⟩; omega), hp]
    refine ⟨_, rfl, ?_, ?_⟩
    · have hl2 : ((segments ops).take (len - 1) ++ List.replicate (len - 1 - (segments ops).length) 0).length = len - 1 := by
        simp; omega
      rw [List.drop_append, hl2]
      have : len - (len - 1) = 1 := by omega
      rw [this, List.drop_eq_nil_of_le (by omega)]
      rfl
    · have hl2 : ((segments ops).take (len - 1) ++ List.replicate (len - 1 - (segments ops).length) 0).length = len - 1 := by
        simp; omega
      rw [List.take_append, hl2, List.take_of_length_le (by omega)]
      have : len - (len - 1) = 1 := by omega
      rw [this]
      simp only [List.take_succ_cons, List.take_zero, List.append_assoc]
      congr 1
      have : len - min (segments ops).length (len - 1) = (len - 1 - (segments ops).length) + 1 := by omega
      rw [this, List.replicate_succ']
  · have hp : pathStr ops = [0x2f] := by simp only [pathStr, if_neg hex]
    have hseg : segments ops = [] := by
      unfold segments
      have : ops.filter (fun o => o.num = 11) = [] := by
        apply List.filter_eq_nil_iff.2
        intro o ho
        simp only [decide_eq_true_eq]
        exact fun hn => hex ⟨o, ho, hn⟩
      rw [this]; rfl
    have h1 : 1 < len := by rcases h with h | ⟨-, h⟩; exact h; exact absurd h hex
    rw [hseg, hp]
    rw [if_pos ⟨by simp, h1⟩]
    obtain ⟨k, rfl⟩ : ∃ k, len = k + 2 := ⟨len - 2, by omega⟩
    simp only [List.take_nil, List.nil_append, List.length_nil, Nat.sub_zero, Nat.zero_min]
    rw [wrs_ok (by simp; omega), Out.bind_ok]
    have e3 : k + 2 - 1 = k + 1 := by omega
    rw [e3, List.replicate_succ]
    refine ⟨_, rfl, ?_, ?_⟩
    · simp [List.drop_append]
    · have e4 : k + 2 - min 1 (k + 1) = k + 1 := by omega
      simp only [List.length_cons, List.length_nil, Nat.zero_add]
      rw [e4, List.replicate_succ']
      simp [List.take_append]

example : (∃ o ∈ msgPut.ops, o.num = 11) ∧ pathStr msgPut.ops = [0x2f, 0x61, 0x2f, 0x62, 0x63] ∧
    uriPathToStr msgPut.ops [9, 9, 9, 9, 9] 4 = .ok ([0x2f, 0x61, 0x2f, 0, 9], 5) := by decide +kernel

/-! ## C16, C51 -/

/-- C16 in full: the decoder gives back what was encoded. -/
def C16_statement : Prop :=
  ∀ (len num size : Nat) (more : Bool) (v : Bytes), formatBlockVal len num more size = .ok v →
    v.length = len ∧ parseBlockVal v len = .ok ⟨num, more, size⟩

/-- The code violates C16: a block number of 16 is accepted for a value of one byte,
4096 for two and 2^20 for three, and each is encoded as 0. -/
theorem C16_violated : ¬ C16_statement ∧
    (∀ p ∈ [(1, 16), (2, 4096), (3, 1048576)], ∃ v, formatBlockVal p.1 p.2 true 16 = .ok v ∧
      parseBlockVal v p.1 = .ok ⟨0, true, 16⟩) := by
  constructor
  · intro h
    have := (h 1 16 16 true [8] (by decide +kernel)).2
    revert this
    decide +kernel
  · intro p hp
    simp only [List.mem_cons, List.not_mem_nil, or_false] at hp
    rcases hp with rfl | rfl | rfl
    · exact ⟨[8], by decide +kernel, by decide +kernel⟩
    · exact ⟨[0, 8], by decide +kernel, by decide +kernel⟩
    · exact ⟨[0, 0, 8], by decide +kernel, by decide +kernel⟩

/-- C16 for block numbers that fit: encoding succeeds exactly for values of one to three
bytes and sizes of 16 to 1024, and decoding gives the arguments back. -/
theorem C16_block_roundtrip_partial (len num size : Nat) (more : Bool) (hn : num < 2 ^ (8 * len - 4)) :
    if 1 ≤ len ∧ len ≤ 3 ∧ ∃ szx, szx < 7 ∧ size = 2 ^ (szx + 4) then
      ∃ v, formatBlockVal len num more size = .ok v ∧ v.length = len ∧ parseBlockVal v len = .ok ⟨num, more, size⟩
    else formatBlockVal len num more size = .err .EINVAL := by
  split
  · rename_i h
    obtain ⟨h1, h3, szx, hz, hs⟩ := h
    obtain ⟨v, e1, e2, e3⟩ := formatBlockVal_ok (more := more) (calcBlockSzx_ok.2 ⟨hz, hs⟩) ⟨h1, h3⟩ hn
    refine ⟨v, e1, e2, ?_⟩
    have hp := parseBlockVal_eq (val := v) (by omega) (by omega)
    rw [e2] at hp
    rw [hp]
    unfold blockSpec
    rw [e3]
    have hm : (if more = true then 1 else 0) ≤ 1 := by split <;> omega
    have hm2 : decide ((if more = true then 1 else 0) = 1) = more := by cases more <;> rfl
    generalize (if more = true then 1 else 0) = mm at hm hm2
    have a1 : (16 * num + 8 * mm + szx) % 8 = szx := by omega
    have a2 : (16 * num + 8 * mm + szx) / 16 = num := by omega
    have a3 : (16 * num + 8 * mm + szx) / 8 % 2 = mm := by omega
    rw [a1, a2, a3, if_neg (by omega), hs, hm2]
  · rename_i h
    unfold formatBlockVal
    rcases calcBlockSzx_cases size with ⟨szx, hs⟩ | hs
    · rw [hs, Out.bind_ok]
      have hl : ¬ (1 ≤ len ∧ len ≤ 3) := fun hl => h ⟨hl.1, hl.2, szx, calcBlockSzx_ok.1 hs⟩
      simp only
      split
      · omega
      · omega
      · omega
      · rfl
    · rw [hs]; rfl

/-- Numbers beyond the next power of two are refused. -/
theorem C16_large_refused (len num size : Nat) (more : Bool) (hl : 1 ≤ len ∧ len ≤ 3)
    (hn : 2 ^ (8 * len - 4) < num) : formatBlockVal len num more size = .err .EINVAL := by
  unfold formatBlockVal
  rcases calcBlockSzx_cases size with ⟨szx, hs⟩ | hs
  · rw [hs, Out.bind_ok]
    have : len = 1 ∨ len = 2 ∨ len = 3 := by omega
    rcases this with rfl | rfl | rfl
    · exact if_pos (c := num > 1 <<< 4) hn
    · exact if_pos (c := num > 1 <<< 12) hn
    · exact if_pos (c := num > 1 <<< 20) hn
  · rw [hs]; rfl

example : formatBlockVal 2 1234 true 256 = .ok [77, 44] ∧ parseBlockVal [77, 44] 2 = .ok ⟨1234, true, 256⟩ := by
  decide +kernel

/-- C51 in full: a Block option value of 0 to 3 bytes is decoded as RFC 7959 says. -/
def C51_statement : Prop :=
  ∀ val : Bytes, val.length ≤ 3 → parseBlockVal val val.length =
    match blockSpec val with
    | none => .err .EINVAL
    | some b => .ok b

/-- The code violates C51: the empty value stands for block 0 of 16 bytes without more
flag, but the decoder reads three bytes that do not belong to the value. -/
theorem C51_violated : ¬ C51_statement ∧ blockSpec [] = some ⟨0, false, 16⟩ ∧ parseBlockVal [] 0 = .ub := by
  refine ⟨fun h => ?_, by decide +kernel, by decide +kernel⟩
  have := h [] (by decide)
  revert this
  decide +kernel

/-- C51 for values of one to three bytes. -/
theorem C51_block_decode_partial (val : Bytes) (h1 : 1 ≤ val.length) (h3 : val.length ≤ 3) :
    parseBlockVal val val.length =
      match blockSpec val with
      | none => .err .EINVAL
      | some b => .ok b := parseBlockVal_eq h1 h3

/-! ## C17 -/

/-- C17. The critical-option check returns the number of the first critical option the
library does not know, and 0 when it knows all of them; 0 is not such a number. -/
theorem C17_critical (ops : List Op) :
    (checkCriticalOps ops = 0 ↔ ∀ o ∈ ops, Critical o → o.num ∈ known) ∧
    (checkCriticalOps ops ≠ 0 → ∃ pre o post, ops = pre ++ o :: post ∧ checkCriticalOps ops = o.num ∧
      Critical o ∧ o.num ∉ known ∧ ∀ p ∈ pre, Critical p → p.num ∈ known) := by
  induction ops with
  | nil => simp [checkCriticalOps]
  | cons a as ih =>
    unfold checkCriticalOps
    have hc : (a.num &&& 1 ≠ 0 ∧ isRecognized a.num = false) ↔ (Critical a ∧ a.num ∉ known) := by
      rw [and_one]
      unfold Critical
      have := isRecognized_iff a.num
      cases hr : isRecognized a.num <;> simp [hr] at this <;> simp [this]
    by_cases h : a.num &&& 1 ≠ 0 ∧ isRecognized a.num = false
    · rw [if_pos h]
      have h' := hc.1 h
      have hne : a.num ≠ 0 := by have := h'.1; unfold Critical at this; omega
      refine ⟨⟨fun h0 => absurd h0 hne, fun ha => absurd (ha a (by simp) h'.1) h'.2⟩, fun _ => ?_⟩
      exact ⟨[], a, as, rfl, rfl, h'.1, h'.2, by simp⟩
    · rw [if_neg h]
      have h' : Critical a → a.num ∈ known := by
        intro c
        exact Decidable.byContradiction fun hn => h (hc.2 ⟨c, hn⟩)
      constructor
      · rw [ih.1]
        constructor
        · intro hh o ho
          rcases List.mem_cons.1 ho with rfl | ho
          · exact h'
          · exact hh o ho
        · intro hh o ho; exact hh o (by simp [ho])
      · intro hne
        obtain ⟨pre, o, post, e1, e2, e3, e4, e5⟩ := ih.2 hne
        refine ⟨a :: pre, o, post, by rw [e1]; rfl, e2, e3, e4, ?_⟩
        intro p hp
        rcases List.mem_cons.1 hp with rfl | hp
        · exact h'
        · exact e5 p hp

/-- C17 for the unsafe-option check. -/
theorem C17_unsafe (ops : List Op) :
    (checkUnsafeOps ops = 0 ↔ ∀ o ∈ ops, Unsafe o → o.num ∈ known) ∧
    (checkUnsafeOps ops ≠ 0 → ∃ pre o post, ops = pre ++ o :: post ∧ checkUnsafeOps ops = o.num ∧
      Unsafe o ∧ o.num ∉ known ∧ ∀ p ∈ pre, Unsafe p → p.num ∈ known) := by
  induction ops with
  | nil => simp [checkUnsafeOps]
  | cons a as ih =>
    unfold checkUnsafeOps
    have hc : (a.num &&& 2 ≠ 0 ∧ isRecognized a.num = false) ↔ (Unsafe a ∧ a.num ∉ known) := by
      rw [and_two]
      unfold Unsafe
      have := isRecognized_iff a.num
      cases hr : isRecognized a.num <;> simp [hr] at this <;> simp [this]
    by_cases h : a.num &&& 2 ≠ 0 ∧ isRecognized a.num = false
    · rw [if_pos h]
      have h' := hc.1 h
      have hne : a.num ≠ 0 := by have := h'.1; unfold Unsafe at this; omega
      refine ⟨⟨fun h0 => absurd h0 hne, fun ha => absurd (ha a (by simp) h'.1) h'.2⟩, fun _ => ?_⟩
      exact ⟨[], a, as, rfl, rfl, h'.1, h'.2, by simp⟩
    · rw [if_neg h]
      have h' : Unsafe a → a.num ∈ known := by
        intro c
        exact Decidable.byContradiction fun hn => h (hc.2 ⟨c, hn⟩)
      constructor
      · rw [ih.1]
        constructor
        · intro hh o ho
          rcases List.mem_cons.1 ho with rfl | ho
          · exact h'
          · exact hh o ho
        · intro hh o ho; exact hh o (by simp [ho])
      · intro hne
        obtain ⟨pre, o, post, e1, e2, e3, e4, e5⟩ := ih.2 hne
        refine ⟨a :: pre, o, post, by rw [e1]; rfl, e2, e3, e4, ?_⟩
        intro p hp
        rcases List.mem_cons.1 hp with rfl | hp
        · exact h'
        · exact e5 p hp

example : checkCriticalOps [⟨11, []⟩, ⟨2, []⟩, ⟨9, []⟩, ⟨13, []⟩] = 9 ∧ checkUnsafeOps [⟨11, []⟩, ⟨2, []⟩, ⟨9, []⟩] = 2 ∧
    checkCriticalOps [⟨11, []⟩, ⟨23, []⟩, ⟨2, []⟩] = 0 := by decide

/-! ## C18 -/

/-- C18. Each setter succeeds exactly within the protocol limit, and then changes its
own field only; otherwise it fails with `EINVAL` (a failing function of the model has
no new message: the C code returns before any assignment). -/
theorem C18_setters (m : Msg) (x y : Nat) (tok : Bytes) :
    (setType m x = if x ≤ 3 then .ok { m with type := x } else .err .EINVAL) ∧
    (setCode m x y = if x ≤ 7 ∧ y ≤ 31 then .ok { m with codeClass := x, codeDetail := y } else .err .EINVAL) ∧
    (setMsgId m x = if x ≤ 65535 then .ok { m with msgId := x } else .err .EINVAL) ∧
    (setToken m tok = if tok.length ≤ 8 then .ok { m with token := tok } else .err .EINVAL) ∧
    (setPayload m tok = { m with payload := tok }) := by
  refine ⟨?_, ?_, ?_, ?_, rfl⟩
  · unfold setType
    by_cases h : x ≤ 3
    · rw [if_pos h, if_neg (by simp only [CON, NON, ACK, RST]; omega)]
    · rw [if_neg h, if_pos (by simp only [CON, NON, ACK, RST]; omega)]
  · unfold setCode
    by_cases h : x ≤ 7
    · rw [if_neg (by omega)]
      by_cases h2 : y ≤ 31
      · rw [if_neg (by omega), if_pos ⟨h, h2⟩]
      · rw [if_pos (by omega), if_neg (by omega)]
    · rw [if_pos (by omega), if_neg (by omega)]
  · unfold setMsgId
    have : (1 <<< 16) - 1 = 65535 := rfl
    rw [this]
    by_cases h : x ≤ 65535
    · rw [if_pos h, if_neg (by omega)]
    · rw [if_neg h, if_pos (by omega)]
  · unfold setToken
    by_cases h : tok.length ≤ 8
    · rw [if_pos h, if_neg (by omega)]
    · rw [if_neg h, if_pos (by omega)]

end FreeCoAP.Msg
