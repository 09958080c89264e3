import Verif.Http.Lemmas

/-!
# Parsing of well-formed texts

A stage of the parser is exact on a text if it takes the whole text whatever follows it, and asks for more on every
part of the text.
-/

namespace FreeCoAP.Http

/-- The stage `f` takes the text `t` and gives `a`. -/
structure Exact (f : Bytes → Out (α × Bytes)) (t : Bytes) (a : α) : Prop where
  whole : ∀ more, f (t ++ more) = .ok (a, more)
  part : ∀ k, k < t.length → f (t.take k) = .err .EAGAIN

theorem Exact.bind {f : Bytes → Out (α × Bytes)} {g : α → Bytes → Out (β × Bytes)} {t u : Bytes} {a : α} {b : β}
    (hf : Exact f t a) (hg : Exact (g a) u b) : Exact (fun s => f s >>= fun r => g r.1 r.2) (t ++ u) b where
  whole more := by
    rw [List.append_assoc, hf.whole, Out.bind_ok]
    exact hg.whole more
  part k hk := by
    by_cases h : k < t.length
    · rw [List.take_append_of_le_length (Nat.le_of_lt h), hf.part k h]
      rfl
    · have e : k = t.length + (k - t.length) := by omega
      rw [e, List.take_length_add_append, hf.whole, Out.bind_ok]
      refine hg.part _ ?_
      rw [List.length_append] at hk
      omega

theorem Exact.congr {f g : Bytes → Out (α × Bytes)} {t : Bytes} {a : α} (h : Exact f t a) (e : ∀ s, g s = f s) :
    Exact g t a where
  whole more := by rw [e]; exact h.whole more
  part k hk := by rw [e]; exact h.part k hk

variable {mem : Nat → Bool}

theorem startField_ok (hm : ∀ n, mem n = true) {s : Bytes} (h : s ≠ []) : startField mem s = .ok s := by
  rw [startField_eq]
  rw [if_neg (by simpa using h), if_pos (hm _)]

theorem startSplit_ok {a : Bytes} (b : Bytes) (h : 0x20 ∉ a) : startSplit (a ++ str " " ++ b) = .ok (a, b) := by
  unfold startSplit
  have : a ++ str " " ++ b = a ++ 0x20 :: b := by rw [List.append_assoc]; rfl
  rw [this, cut_append _ h]

theorem parseStart_exact (hm : ∀ n, mem n = true) {a b c : Bytes}
    (ha : a ≠ [] ∧ 0x20 ∉ a ∧ 0x0D ∉ a) (hb : b ≠ [] ∧ 0x20 ∉ b ∧ 0x0D ∉ b) (hc : c ≠ [] ∧ 0x0D ∉ c) :
    Exact (parseStart mem) (a ++ str " " ++ b ++ str " " ++ c ++ CRLF) (a, b, c) := by
  have hl : 0x0D ∉ a ++ str " " ++ b ++ str " " ++ c := by
    have h2 : (0x0D : Byte) ∉ str " " := by decide
    simp only [List.mem_append, not_or]
    exact ⟨⟨⟨⟨ha.2.2, h2⟩, hb.2.2⟩, h2⟩, hc.2⟩
  constructor
  · intro more
    unfold parseStart
    rw [crlf_line _ hl]
    dsimp only
    have e : a ++ str " " ++ b ++ str " " ++ c = a ++ str " " ++ (b ++ str " " ++ c) := by
      simp only [List.append_assoc]
    rw [e, startSplit_ok _ ha.2.1, Out.bind_ok, startField_ok hm ha.1, Out.bind_ok,
      startSplit_ok _ hb.2.1, Out.bind_ok, startField_ok hm hb.1, Out.bind_ok, startField_ok hm hc.1, Out.bind_ok]
    rfl
  · intro k hk
    unfold parseStart
    have := crlf_take (rest := []) hl (k := k) (by
      rw [List.length_append] at hk
      exact hk)
    rw [List.append_nil] at this
    rw [this]

theorem headersText_cons (h : RawHeader) (hs : List RawHeader) :
    headersText (h :: hs) = h.name ++ str ":" ++ h.value ++ CRLF ++ headersText hs := by
  simp [headersText]

theorem RawHeader.WF.no_cr {h : RawHeader} (w : h.WF) : 0x0D ∉ h.name ++ str ":" ++ h.value := by
  have h2 : (0x0D : Byte) ∉ str ":" := by decide
  simp only [List.mem_append, not_or]
  exact ⟨⟨w.name.2, h2⟩, w.value⟩

theorem RawHeader.WF.ne_nil (h : RawHeader) : ∃ c s, h.name ++ str ":" ++ h.value = c :: s := by
  cases e : h.name ++ str ":" ++ h.value with
  | nil =>
    have := congrArg List.length e
    simp [str] at this
  | cons c s => exact ⟨c, s, rfl⟩

/-- What can follow a header: another header, the blank line, or nothing yet. -/
theorem headersText_head {hs : List RawHeader} (hw : ∀ h ∈ hs, h.WF) (more : Bytes) :
    (headersText hs ++ CRLF ++ more).head? ≠ some 0x20 ∧ (headersText hs ++ CRLF ++ more).head? ≠ some 0x09 := by
  cases hs with
  | nil => exact ⟨by simp [headersText, CRLF], by simp [headersText, CRLF]⟩
  | cons h hs =>
    have w := hw h (by simp)
    rw [headersText_cons]
    cases hn : h.name with
    | nil => simp [str]
    | cons c s =>
      have := w.first
      rw [hn] at this
      simpa using this

theorem take_head {s : Bytes} {c : Byte} (k : Nat) (h : s.head? ≠ some c) : (s.take k).head? ≠ some c := by
  cases s with
  | nil => simp
  | cons d s =>
    cases k with
    | zero => simp
    | succ k => simpa using h

theorem addHeader_ok (hm : ∀ n, mem n = true) (a b : Bytes) : addHeader mem a b = .ok ⟨a, b⟩ := by
  unfold addHeader
  rw [if_pos (by simp [hm])]

/-- One header. -/
theorem parseHeaders_cons (hm : ∀ n, mem n = true) {h : RawHeader} (hw : h.WF) {rest : Bytes} {fuel : Nat}
    (hr : rest.head? ≠ some 0x20 ∧ rest.head? ≠ some 0x09) :
    parseHeaders mem (fuel + 1) (h.name ++ str ":" ++ h.value ++ CRLF ++ rest) =
      parseHeaders mem fuel rest >>= fun r => pure (h.header :: r.1, r.2) := by
  conv => lhs; unfold parseHeaders
  rw [crlf_line _ hw.no_cr]
  obtain ⟨c, s, e⟩ := RawHeader.WF.ne_nil h
  rw [lineEnd_line hw.no_cr hr]
  have hc : cut 0x3A (h.name ++ str ":" ++ h.value) = some (h.name, h.value) := by
    have : h.name ++ str ":" ++ h.value = h.name ++ 0x3A :: h.value := by rw [List.append_assoc]; rfl
    rw [this, cut_append _ hw.name.1]
  rw [e] at hc ⊢
  dsimp only
  rw [hc]
  dsimp only
  rw [addHeader_ok hm, Out.bind_ok, trimWs_eq, trimWs_eq]
  rfl

theorem parseHeaders_whole (hm : ∀ n, mem n = true) {hs : List RawHeader} (hw : ∀ h ∈ hs, h.WF) (more : Bytes) :
    (fuel : Nat) → (hs.length < fuel) →
    parseHeaders mem fuel (headersText hs ++ CRLF ++ more) = .ok (hs.map RawHeader.header, more) := by
  induction hs with
  | nil =>
    intro fuel hf
    obtain ⟨fuel, rfl⟩ : ∃ f, fuel = f + 1 := ⟨fuel - 1, by simp only [List.length_nil] at hf; omega⟩
    rfl
  | cons h hs ih =>
    intro fuel hf
    obtain ⟨fuel, rfl⟩ : ∃ f, fuel = f + 1 := ⟨fuel - 1, by simp only [List.length_cons] at hf; omega⟩
    have hw' : ∀ h ∈ hs, h.WF := fun x hx => hw x (List.mem_cons_of_mem _ hx)
    rw [headersText_cons]
    have e : h.name ++ str ":" ++ h.value ++ CRLF ++ headersText hs ++ CRLF ++ more =
        h.name ++ str ":" ++ h.value ++ CRLF ++ (headersText hs ++ CRLF ++ more) := by
      simp only [List.append_assoc]
    rw [e, parseHeaders_cons hm (hw h (by simp)) (headersText_head hw' more),
      ih hw' fuel (by simp only [List.length_cons] at hf; omega), Out.bind_ok]
    rfl

theorem parseHeaders_part (hm : ∀ n, mem n = true) {hs : List RawHeader} (hw : ∀ h ∈ hs, h.WF) :
    (fuel k : Nat) → (k < (headersText hs ++ CRLF).length) → (k < fuel) →
    parseHeaders mem fuel ((headersText hs ++ CRLF).take k) = .err .EAGAIN := by
  induction hs with
  | nil =>
    intro fuel k hk hf
    obtain ⟨fuel, rfl⟩ : ∃ f, fuel = f + 1 := ⟨fuel - 1, by omega⟩
    have := crlf_take (line := []) (rest := []) (k := k) (by simp) hk
    rw [List.append_nil] at this
    unfold parseHeaders
    have e : headersText [] = [] := rfl
    rw [e, this]
  | cons h hs ih =>
    intro fuel k hk hf
    obtain ⟨fuel, rfl⟩ : ∃ f, fuel = f + 1 := ⟨fuel - 1, by omega⟩
    have w := hw h (by simp)
    have hw' : ∀ h ∈ hs, h.WF := fun x hx => hw x (List.mem_cons_of_mem _ hx)
    rw [headersText_cons] at hk ⊢
    have e : h.name ++ str ":" ++ h.value ++ CRLF ++ headersText hs ++ CRLF =
        h.name ++ str ":" ++ h.value ++ CRLF ++ (headersText hs ++ CRLF) := by
      simp only [List.append_assoc]
    rw [e] at hk ⊢
    by_cases hl : k < (h.name ++ str ":" ++ h.value).length + 2
    · unfold parseHeaders
      rw [crlf_take w.no_cr hl]
    · have hL : (h.name ++ str ":" ++ h.value ++ CRLF).length = (h.name ++ str ":" ++ h.value).length + 2 := by
        rw [List.length_append]; rfl
      generalize hT : h.name ++ str ":" ++ h.value ++ CRLF = T at hk hL ⊢
      have ek : k = T.length + (k - T.length) := by omega
      rw [ek, List.take_length_add_append, ← hT]
      have hh := headersText_head hw' []
      rw [List.append_nil] at hh
      rw [parseHeaders_cons hm w ⟨take_head _ hh.1, take_head _ hh.2⟩, hT]
      rw [List.length_append] at hk
      rw [ih hw' fuel (k - T.length) (by omega) (by omega)]
      rfl

theorem length_headersText (hs : List RawHeader) : hs.length ≤ (headersText hs).length := by
  induction hs with
  | nil => simp
  | cons h hs ih =>
    rw [headersText_cons]
    simp only [List.length_cons, List.length_append, CRLF, List.length_nil]
    omega

theorem parseHeaders_exact (hm : ∀ n, mem n = true) {hs : List RawHeader} (hw : ∀ h ∈ hs, h.WF) :
    Exact (fun s => parseHeaders mem (s.length + 1) s) (headersText hs ++ CRLF) (hs.map RawHeader.header) where
  whole more := by
    refine parseHeaders_whole hm hw more _ ?_
    have := length_headersText hs
    simp only [List.length_append]
    omega
  part k hk := by
    exact parseHeaders_part hm hw _ k hk (by rw [List.length_take]; omega)

end FreeCoAP.Http
