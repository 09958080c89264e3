import Verif.Http.LemmasChunk

/-!
# Whole messages
-/

namespace FreeCoAP.Http

theorem sameText_iff (h : Header) (n : String) : sameText h.name (str n) = true ↔ Named h n := by
  simp [sameText, Named]

theorem isDigit_facts (c : Byte) : isDigit c = true → isSpace c = false ∧ c ≠ 0x2D ∧ c ≠ 0x2B := by
  exact forall_byte (P := fun c => isDigit c = true → isSpace c = false ∧ c ≠ 0x2D ∧ c ≠ 0x2B)
    (by decide +kernel) c

theorem decimal_digits {s : Bytes} (acc : Nat) (h : ∀ c ∈ s, isDigit c = true) :
    decimal acc s = s.foldl (fun n c => n * 10 + (c.toNat - 0x30)) acc := by
  induction s generalizing acc with
  | nil => rfl
  | cons c s ih =>
    rw [decimal, if_pos (h c (by simp)), ih _ (fun x hx => h x (List.mem_cons_of_mem _ hx))]
    rfl

theorem atoi_digits {s : Bytes} (hn : s ≠ []) (h : ∀ c ∈ s, isDigit c = true) (hs : ofDecimal s < 2 ^ 31) :
    toSize (atoi s) = ofDecimal s := by
  have h1 : sign (s.dropWhile isSpace) = (false, s) := by
    cases s with
    | nil => exact absurd rfl hn
    | cons c s =>
      have := isDigit_facts c (h c (by simp))
      rw [List.dropWhile_cons_of_neg (by simp [this.1])]
      unfold sign
      dsimp only
      rw [if_neg this.2.1, if_neg this.2.2]
  unfold atoi
  rw [h1]
  dsimp only
  rw [if_neg (by simp), decimal_digits 0 h]
  have e : s.foldl (fun n c => n * 10 + (c.toNat - 0x30)) 0 = ofDecimal s := rfl
  rw [e, Int.min_eq_left (by omega), toInt32_small hs]
  unfold toSize
  omega

theorem contentLen_none {hs : List Header} (h : NoLength hs) : contentLen hs = 0 := by
  unfold contentLen
  suffices ∀ n, hs.foldl (fun n h => if sameText h.name (str "Content-Length") then toSize (atoi h.value) else n) n = n
    from this 0
  induction hs with
  | nil => intro n; rfl
  | cons x hs ih =>
    intro n
    rw [List.foldl_cons, if_neg (fun e => h x (by simp) ((sameText_iff _ _).1 e)),
      ih (fun y hy => h y (List.mem_cons_of_mem _ hy))]

theorem contentLen_says {hs : List Header} {n : Nat} (h : SaysLength hs n) (hn : n < 2 ^ 31) : contentLen hs = n := by
  obtain ⟨a, x, b, rfl, hx, hb, hv, hd, rfl⟩ := h
  unfold contentLen
  rw [List.foldl_append, List.foldl_cons, if_pos ((sameText_iff _ _).2 hx), atoi_digits hv hd hn]
  generalize ofDecimal x.value = n
  induction b with
  | nil => rfl
  | cons y b ih =>
    rw [List.foldl_cons, if_neg (fun e => hb y (by simp) ((sameText_iff _ _).1 e)),
      ih (fun z hz => hb z (List.mem_cons_of_mem _ hz))]

theorem any_isChunked (hs : List Header) : hs.any isChunked = true ↔ SaysChunked hs := by
  simp only [List.any_eq_true, SaysChunked, isChunked, Bool.and_eq_true, sameText_iff]
  have : (str "chunked").map toLower = str "chunked" := by decide
  simp only [sameText, this, beq_iff_eq]

variable {mem : Nat → Bool}

theorem parseBody_exact (hm : ∀ n, mem n = true) {m : HMsg} (hb : m.body = none) {b : RawBody} (hw : b.WF m.headers) :
    Exact (parseBody mem m) b.text { m with body := b.content, headers := m.headers ++ b.trailers.map RawHeader.header } := by
  have hd : ∀ k, ¬ k < ([] : Bytes).length := by simp
  cases b with
  | none =>
    obtain ⟨h1, h2⟩ := hw
    have h0 : contentLen m.headers = 0 := h2.elim contentLen_none (fun h => contentLen_says h (by omega))
    refine ⟨fun more => ?_, fun k hk => absurd hk (hd k)⟩
    rw [parseBody_eq]
    rw [if_neg (fun e => h1 ((any_isChunked _).1 e)), if_neg (by omega)]
    obtain ⟨s0, s1, s2, hs, body⟩ := m
    cases hb
    simp only [RawBody.text, RawBody.content, RawBody.trailers, List.map_nil, List.append_nil, List.nil_append]
  | plain b =>
    obtain ⟨h1, h2, h3, h4⟩ := hw
    have h0 := contentLen_says h4 h3
    have hp : 0 < b.length := List.length_pos_iff.2 h2
    refine ⟨fun more => ?_, fun k hk => ?_⟩
    · rw [parseBody_eq]
      rw [if_neg (fun e => h1 ((any_isChunked _).1 e)), if_pos (by omega), h0, if_neg (by simp [RawBody.text]),
        if_pos (hm _)]
      simp only [RawBody.text, RawBody.content, RawBody.trailers, List.map_nil, List.append_nil, List.take_left,
        List.drop_left]
    · rw [parseBody_eq]
      change k < b.length at hk
      rw [if_neg (fun e => h1 ((any_isChunked _).1 e)), if_pos (by omega), h0, if_pos]
      change b.length > (b.take k).length
      rw [List.length_take]
      omega
  | chunked cs digits ext ts =>
    obtain ⟨h1, h2, h3, h4, h5⟩ := hw
    have hc : ∀ c ∈ cs, c.WF := by
      intro c hc
      refine ⟨(h2 c hc).1, (h2 c hc).2, ?_⟩
      obtain ⟨a, b, rfl⟩ := List.append_of_mem hc
      simp only [List.flatMap_append, List.flatMap_cons, List.length_append] at h5
      omega
    have he := parseChunked_exact hm hc h3 h5 h4
    refine ⟨fun more => ?_, fun k hk => ?_⟩
    · have := he.whole more
      rw [parseBody_eq]
      rw [if_pos ((any_isChunked _).2 h1)]
      obtain ⟨⟨b, hs, rest⟩, hr, e⟩ := Out.bind_eq_ok.1 this
      simp only [Out.pure_eq, Out.ok.injEq, Prod.mk.injEq] at e
      obtain ⟨⟨rfl, rfl⟩, rfl⟩ := e
      rw [hr, Out.bind_ok]
      rfl
    · have := he.part k hk
      rw [parseBody_eq]
      rw [if_pos ((any_isChunked _).2 h1)]
      cases hr : parseChunked mem ((RawBody.chunked cs digits ext ts).text.take k) with
      | ok r => rw [hr] at this; cases this
      | err e => rw [hr] at this; cases this; rfl
      | ub => rw [hr] at this; cases this

theorem parseText_exact (hm : ∀ n, mem n = true) {r : RawMsg} (hw : r.WF) : Exact (parseText mem) r.text r.msg := by
  have h1 := parseStart_exact hm hw.start0 hw.start1 hw.start2
  have h2 := parseHeaders_exact hm hw.headers
  have h3 := parseBody_exact hm (m := ⟨r.start0, r.start1, r.start2, r.headers.map RawHeader.header, none⟩) rfl hw.body
  have e : r.text = r.start0 ++ str " " ++ r.start1 ++ str " " ++ r.start2 ++ CRLF ++
      (headersText r.headers ++ CRLF ++ r.body.text) := by
    simp only [RawMsg.text, List.append_assoc]
  have em : r.msg = { (⟨r.start0, r.start1, r.start2, r.headers.map RawHeader.header, none⟩ : HMsg) with
      body := r.body.content,
      headers := r.headers.map RawHeader.header ++ r.body.trailers.map RawHeader.header } := by
    simp only [RawMsg.msg, List.map_append]
  rw [e, em]
  exact Exact.bind (g := fun a s => parseHeaders mem (s.length + 1) s >>= fun h =>
    parseBody mem ⟨a.1, a.2.1, a.2.2, h.1, none⟩ h.2) h1
    (Exact.bind (g := fun hs s => parseBody mem ⟨r.start0, r.start1, r.start2, hs, none⟩ s) h2 h3)

theorem cstr_text {t : Bytes} (h : (0 : Byte) ∉ t) (more : Bytes) : cstr (t ++ more) = t ++ cstr more := by
  unfold cstr
  rw [List.takeWhile_append_of_pos]
  intro x hx
  simp only [decide_eq_true_eq]
  rintro rfl
  exact h hx

theorem parse_exact (hm : ∀ n, mem n = true) {r : RawMsg} (hw : r.WF) (more : Bytes) :
    parse mem (r.text ++ more) = .ok (r.msg, r.text.length) := by
  rw [parse_eq]
  rw [if_pos (hm _), cstr_text hw.text, (parseText_exact hm hw).whole, Out.bind_ok, List.length_append,
    Nat.add_sub_cancel]
  rfl

theorem parse_part (hm : ∀ n, mem n = true) {r : RawMsg} (hw : r.WF) {k : Nat} (hk : k < r.text.length) :
    parse mem (r.text.take k) = .err .EAGAIN := by
  rw [parse_eq]
  rw [if_pos (hm _), cstr_of_no_nul (fun h => hw.text (List.mem_of_mem_take h)), (parseText_exact hm hw).part k hk]
  rfl

/-- The generated text as a received one. -/
def raw (m : HMsg) : RawMsg :=
  ⟨m.start0, m.start1, m.start2, m.headers.map (fun h => ⟨h.name, 0x20 :: h.value⟩),
    match m.body with
    | none => .none
    | some b => .plain b⟩

theorem raw_text (m : HMsg) : (raw m).text = text m := by
  have h : ∀ hs : List Header, headersText (hs.map (fun h => ⟨h.name, 0x20 :: h.value⟩)) =
      hs.flatMap (fun h => h.name ++ str ": " ++ h.value ++ CRLF) := by
    intro hs
    induction hs with
    | nil => rfl
    | cons x hs ih =>
      rw [List.map_cons, headersText_cons, List.flatMap_cons, ih]
      have e : str ":" ++ 0x20 :: x.value = str ": " ++ x.value := rfl
      simp only [List.append_assoc] at e ⊢
      rw [← List.append_assoc (str ":"), e]
      simp only [List.append_assoc]
  obtain ⟨s0, s1, s2, hs, body⟩ := m
  simp only [RawMsg.text, raw, text, h]
  cases body <;> rfl

theorem Tidy.no_cr {s : Bytes} (h : Tidy s) : 0x0D ∉ s := fun hm => absurd (h.blank _ hm (by decide)) (by decide)

theorem Tidy.no_tab {s : Bytes} (h : Tidy s) : s.head? ≠ some 0x09 := by
  cases s with
  | nil => simp
  | cons c s =>
    intro e
    simp only [List.head?_cons, Option.some.injEq] at e
    subst e
    exact absurd (h.blank 0x09 (by simp) (by decide)) (by decide)

theorem raw_headers {m : HMsg} (hw : WF m) :
    (m.headers.map (fun h => (⟨h.name, 0x20 :: h.value⟩ : RawHeader))).map RawHeader.header = m.headers := by
  rw [List.map_map]
  have : ∀ h ∈ m.headers, (RawHeader.header ∘ fun h : Header => (⟨h.name, 0x20 :: h.value⟩ : RawHeader)) h = h := by
    intro h hh
    have e1 := (hw.names h hh).1.trim
    have e2 := (hw.values h hh).1.trim_cons
    rw [trimWs_eq] at e1 e2
    simp only [Function.comp, RawHeader.header, e1, e2]
  rw [List.map_congr_left this]
  simp

theorem raw_msg {m : HMsg} (hw : WF m) : (raw m).msg = m := by
  have h := raw_headers hw
  obtain ⟨s0, s1, s2, hs, body⟩ := m
  cases body <;>
  · simp only [raw, RawMsg.msg, RawBody.trailers, RawBody.content, List.append_nil]
    simp only at h
    rw [h]

theorem raw_wf {m : HMsg} (hw : WF m) (hb : ∀ b, m.body = some b → 0x00 ∉ b) : (raw m).WF where
  start0 := ⟨hw.start0.1, hw.start0.2.1, hw.start0.2.2.1⟩
  start1 := ⟨hw.start1.1, hw.start1.2.1, hw.start1.2.2.1⟩
  start2 := ⟨hw.start2.1, hw.start2.2.1⟩
  headers := by
    intro h hh
    obtain ⟨x, hx, rfl⟩ := List.mem_map.1 hh
    have h1 := hw.names x hx
    have h2 := hw.values x hx
    refine ⟨⟨h1.1.first, h1.1.no_tab⟩, ⟨h1.2.1, h1.1.no_cr⟩, ?_⟩
    simp only [List.mem_cons, not_or]
    exact ⟨by decide, h2.1.no_cr⟩
  body := by
    have e : (raw m).headers.map RawHeader.header = m.headers := raw_headers hw
    rw [e]
    have := hw.length
    unfold raw
    cases hbd : m.body with
    | none => rw [hbd] at this; exact ⟨hw.plain, this⟩
    | some b => rw [hbd] at this; exact ⟨hw.plain, this⟩
  text := by
    rw [raw_text]
    unfold text
    have h0 : (0x00 : Byte) ∉ str " " := by decide
    have h1 : (0x00 : Byte) ∉ CRLF := by decide
    have h2 : (0x00 : Byte) ∉ str ": " := by decide
    have h3 : (0x00 : Byte) ∉ m.headers.flatMap (fun h => h.name ++ str ": " ++ h.value ++ CRLF) := by
      intro hm
      obtain ⟨h, hh, hm⟩ := List.mem_flatMap.1 hm
      simp only [List.mem_append] at hm
      rcases hm with ((hm | hm) | hm) | hm
      · exact (hw.names h hh).2.2 hm
      · exact h2 hm
      · exact (hw.values h hh).2 hm
      · exact h1 hm
    have h4 : (0x00 : Byte) ∉ m.body.getD [] := by
      cases hbd : m.body with
      | none => simp
      | some b => exact hb b hbd
    simp only [List.mem_append, not_or]
    exact ⟨⟨⟨⟨⟨⟨⟨⟨hw.start0.2.2.2, h0⟩, hw.start1.2.2.2⟩, h0⟩, hw.start2.2.2⟩, h1⟩, h3⟩, h1⟩, h4⟩

end FreeCoAP.Http
