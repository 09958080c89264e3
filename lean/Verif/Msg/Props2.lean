import Verif.Msg.LemmasSigned
import Verif.Msg.Props

/-!
# C06 and C07 where plain `char` is signed
-/

namespace FreeCoAP.Msg

/-- What the parser accepts where `char` is signed, and the message it returns, for datagrams of any length. -/
theorem C07_signed_exact (b : Bytes) (x : Byte) (t : Bytes) (m : Msg) :
    parse true (b ++ x :: t) b.length = .ok m ↔ ∃ q, Reads q m b := by
  constructor
  · intro h
    have := parse_signed (by simp) h
    rwa [List.take_left] at this
  · rintro ⟨q, h⟩
    exact parse_signed_complete h _ (.inl (by simp))

/-- Without an extension byte of 0x80 or more this is the grammar. -/
theorem C07_signed_grammar {m : Msg} {b : Bytes} (hb : b.length ≤ 65535) :
    Reads false m b ↔ Encodes m b ∧ NoHighExt 0 m.ops := by
  constructor
  · rintro ⟨hf, hs, ob, pb, ho, hp, rfl⟩
    have hl : ob.length ≤ 65535 := by simp at hb; omega
    obtain ⟨h1, h2⟩ := ho.options rfl (by omega)
    exact ⟨⟨hf, hs, ob, pb, h1, hp, rfl⟩, h2⟩
  · rintro ⟨⟨hf, hs, ob, pb, ho, hp, rfl⟩, hn⟩
    have hl : ob.length ≤ 65535 := by simp at hb; omega
    exact ⟨hf, hs, ob, pb, ho.soptions hn (by omega), hp, rfl⟩

/-- A datagram with such a byte is never read as the message that the grammar assigns to it. -/
theorem C07_signed_misread {m : Msg} {b : Bytes} (hb : b.length ≤ 65535) (h : Reads true m b) : ¬ Encodes m b := by
  rintro ⟨-, -, ob', pb', ho', -, e'⟩
  obtain ⟨-, -, ob, pb, ho, -, e⟩ := h
  have hl : ob'.length ≤ 65535 := by rw [e'] at hb; simp at hb; omega
  rw [e] at e'
  simp only [List.append_assoc] at e'
  have e1 := List.append_cancel_left (List.append_cancel_left e')
  exact ho.differ rfl ho' (by omega) e1

/-- Where `char` is signed a datagram is accepted with the message of the grammar exactly if no extension byte is
misread. -/
theorem C07_signed_partial (b : Bytes) (x : Byte) (t : Bytes) (m : Msg) (hb : b.length ≤ 65535) :
    (parse true (b ++ x :: t) b.length = .ok m ∧ Encodes m b ↔ Encodes m b ∧ NoHighExt 0 m.ops) ∧
    (parse true (b ++ x :: t) b.length = .ok m ∧ ¬ Encodes m b ↔ Reads true m b) := by
  rw [C07_signed_exact]
  refine ⟨⟨?_, ?_⟩, ⟨?_, ?_⟩⟩
  · rintro ⟨⟨q, h⟩, he⟩
    cases q with
    | false => exact (C07_signed_grammar hb).1 h
    | true => exact absurd he (C07_signed_misread hb h)
  · intro h
    exact ⟨⟨false, (C07_signed_grammar hb).2 h⟩, h.1⟩
  · rintro ⟨⟨q, h⟩, he⟩
    cases q with
    | false => exact absurd ((C07_signed_grammar hb).1 h).1 he
    | true => exact h
  · exact fun h => ⟨⟨true, h⟩, C07_signed_misread hb h⟩

/-- C06 where `char` is signed: datagrams in the grammar that give the same message are equal, and each is what the
formatter writes for its message. -/
theorem C06_signed_partial {b b2 t t2 : Bytes} {x x2 : Byte} {m : Msg} (hb : b.length ≤ 65535) (hb2 : b2.length ≤ 65535)
    (h : parse true (b ++ x :: t) b.length = .ok m) (h2 : parse true (b2 ++ x2 :: t2) b2.length = .ok m)
    (hq : ¬ Reads true m b) (hq2 : ¬ Reads true m b2) :
    b = b2 ∧ ∀ buf len b' n, format m buf len = .ok (b', n) → n = b.length ∧ b'.take n = b := by
  have key : ∀ {c u : Bytes} {y : Byte}, c.length ≤ 65535 → parse true (c ++ y :: u) c.length = .ok m → ¬ Reads true m c →
      parse false (c ++ y :: u) c.length = .ok m := by
    intro c u y hc hp hn
    have he : Encodes m c := by
      by_cases h : Encodes m c
      · exact h
      · exact absurd (((C07_signed_partial c y u m hc).2).1 ⟨hp, h⟩) hn
    exact (C07_parse_iff_grammar_partial c y u m hc).2 he
  have h1 := key hb h hq
  exact ⟨C06_injective_partial hb hb2 h1 (key hb2 h2 hq2), (C06_format_parse_partial hb h1).1⟩

/-- Two options of which the second is read with a smaller number than the first: 269, then 269 - 115. -/
theorem C07_signed_unsorted : ∃ b m, Reads true m b ∧ ¬ Sorted m.ops ∧
    parse true (b ++ [0]) b.length = .ok m := by
  refine ⟨[0x40, 1, 0, 7, 0xe0, 0x00, 0x00, 0xd0, 0x80], ⟨1, CON, 0, 1, 7, [], [⟨269, []⟩, ⟨154, []⟩], []⟩, ?_, ?_, ?_⟩
  · have h : parse true ([0x40, 1, 0, 7, 0xe0, 0x00, 0x00, 0xd0, 0x80] ++ [0]) 9 =
        .ok ⟨1, CON, 0, 1, 7, [], [⟨269, []⟩, ⟨154, []⟩], []⟩ := by decide +kernel
    refine (C07_signed_partial _ 0 [] _ (by decide)).2.1 ⟨h, ?_⟩
    intro he
    have := (C07_parse_iff_grammar_partial _ 0 [] _ (by decide)).2 he
    revert this
    decide +kernel
  · unfold Sorted
    decide
  · decide +kernel

example : Reads false ⟨1, CON, 0, 2, 9, [0xaa], [⟨11, [0x61]⟩, ⟨28, [0x10]⟩], [5]⟩
    [0x41, 2, 0, 9, 0xaa, 0xb1, 0x61, 0xd1, 0x04, 0x10, 0xff, 5] :=
  (C07_signed_grammar (by decide)).2 ⟨(C07_parse_iff_grammar_partial _ 0 [] _ (by decide)).1 (by decide +kernel),
    by simp [NoHighExt]⟩

end FreeCoAP.Msg
