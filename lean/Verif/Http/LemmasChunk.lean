import Verif.Http.LemmasExact
import Verif.Http.Spec2

/-!
# Chunked bodies
-/

namespace FreeCoAP.Http

@[simp] theorem soften_length (s : Bytes) : (soften s).length = s.length := by
  induction s with
  | nil => rfl
  | cons c s ih =>
    unfold soften
    split
    · rfl
    · simp [ih]

theorem soften_append {a b : Bytes} (h : 0x3B ∉ a) : soften (a ++ b) = a ++ soften b := by
  induction a with
  | nil => rfl
  | cons c s ih =>
    rw [List.cons_append]
    conv => lhs; unfold soften
    rw [if_neg (fun e => h (by simp [e])), ih (fun hm => h (List.mem_cons_of_mem _ hm))]
    rfl

theorem soften_of_not_mem {a : Bytes} (h : 0x3B ∉ a) : soften a = a := by
  have := soften_append (b := []) h
  simpa [soften] using this

theorem dropParam_line (pre line rest : Bytes) :
    dropParam (pre ++ (line ++ CRLF ++ rest)) pre.length (pre.length + line.length + 2) =
      pre ++ (soften line ++ CRLF ++ rest) := by
  unfold dropParam
  rw [List.drop_left]
  by_cases h : (0x3B : Byte) ∈ line
  · obtain ⟨a, b, rfl, ha⟩ := List.append_of_mem h |> fun ⟨a, b, e⟩ => (by
      cases hc : cut 0x3B line with
      | none => exact absurd h (cut_eq_none.1 hc)
      | some p => exact ⟨p.1, p.2, (cut_eq_some.1 hc).1, (cut_eq_some.1 hc).2⟩ :
        ∃ a b, line = a ++ 0x3B :: b ∧ (0x3B : Byte) ∉ a)
    have e : a ++ 0x3B :: b ++ CRLF ++ rest = a ++ 0x3B :: (b ++ CRLF ++ rest) := by simp
    rw [e, cut_append _ ha]
    dsimp only
    rw [if_pos (by simp only [List.length_append, List.length_cons]; omega), soften_append ha]
    rw [List.set_append_right _ _ (by omega), Nat.add_sub_cancel_left, List.set_append_right _ _ (by omega),
      Nat.sub_self]
    simp [soften]
  · rw [soften_of_not_mem h]
    cases hc : cut 0x3B (line ++ CRLF ++ rest) with
    | none => rfl
    | some p =>
      obtain ⟨a, b⟩ := p
      dsimp only
      rw [if_neg]
      obtain ⟨e, ha⟩ := cut_eq_some.1 hc
      intro hl
      have hl : a.length < line.length + 2 := by omega
      have h1 := congrArg (fun s => s[a.length]?) e
      rw [List.getElem?_append_right (Nat.le_refl _), Nat.sub_self] at h1
      have h2 : a.length < (line ++ CRLF).length := by rw [List.length_append]; exact hl
      rw [List.getElem?_append_left h2] at h1
      have h3 : (0x3B : Byte) ∈ line ++ CRLF := List.mem_of_getElem? h1
      rw [List.mem_append] at h3
      exact h3.elim h (by decide)

/-- A character that ends a number. -/
def Ends (u : Bytes) : Prop := ∃ c u', u = c :: u' ∧ isHex c = false ∧ c ≠ 0x78 ∧ c ≠ 0x58

theorem isHex_iff (c : Byte) : isHex c = true ↔ c ∈ hexDigits :=
  forall_byte (P := fun c => isHex c = true ↔ c ∈ hexDigits) (by decide +kernel) c

theorem hexVal_eq (c : Byte) : isHex c = true → hexVal c = hexDigit c :=
  forall_byte (P := fun c => isHex c = true → hexVal c = hexDigit c) (by decide +kernel) c

theorem hexadecimal_append {digits u : Bytes} (acc : Nat) (hd : ∀ c ∈ digits, isHex c = true) (hu : Ends u) :
    hexadecimal acc (digits ++ u) = digits.foldl (fun n c => n * 16 + hexDigit c) acc := by
  induction digits generalizing acc with
  | nil =>
    obtain ⟨c, u', rfl, h, -, -⟩ := hu
    simp [hexadecimal, h]
  | cons c s ih =>
    rw [List.cons_append, hexadecimal, if_pos (hd c (by simp)), hexVal_eq c (hd c (by simp)), ih _ (fun x hx => hd x (List.mem_cons_of_mem _ hx))]
    rfl

theorem SizeLine.hex {digits ext : Bytes} {n : Nat} (h : SizeLine digits ext n) : ∀ c ∈ digits, isHex c = true :=
  fun c hc => (isHex_iff c).2 (h.number.2 c hc)

theorem isHex_facts (c : Byte) : isHex c = true →
    isSpace c = false ∧ c ≠ 0x2D ∧ c ≠ 0x2B ∧ c ≠ 0x78 ∧ c ≠ 0x58 ∧ c ≠ 0x3B ∧ c ≠ 0x0D ∧ c ≠ 0x0A := by
  exact forall_byte (P := fun c => isHex c = true →
    isSpace c = false ∧ c ≠ 0x2D ∧ c ≠ 0x2B ∧ c ≠ 0x78 ∧ c ≠ 0x58 ∧ c ≠ 0x3B ∧ c ≠ 0x0D ∧ c ≠ 0x0A)
    (by decide +kernel) c

theorem scanDigits_append {digits u : Bytes} (hn : digits ≠ []) (hd : ∀ c ∈ digits, isHex c = true) (hu : Ends u) :
    scanDigits (digits ++ u) = some (ofHex digits) := by
  have hv : hexadecimal 0 (digits ++ u) = ofHex digits := hexadecimal_append 0 hd hu
  cases digits with
  | nil => exact absurd rfl hn
  | cons c s =>
    obtain ⟨d, r, hr⟩ : ∃ d r, s ++ u = d :: r := by
      obtain ⟨e, u', rfl, -⟩ := hu
      cases s with
      | nil => exact ⟨_, _, rfl⟩
      | cons d s => exact ⟨_, _, rfl⟩
    have hx : d ≠ 0x78 ∧ d ≠ 0x58 := by
      cases s with
      | nil =>
        obtain ⟨e, u', rfl, h⟩ := hu
        cases hr
        exact h.2
      | cons d' s =>
        cases hr
        have := isHex_facts d (hd d (by simp))
        exact ⟨this.2.2.2.1, this.2.2.2.2.1⟩
    rw [List.cons_append] at hv ⊢
    rw [hr] at hv ⊢
    by_cases h0 : c = 0x30
    · subst h0
      change (if d = 0x78 ∨ d = 0x58 then _ else _) = _
      rw [if_neg (by rintro (h | h); exact hx.1 h; exact hx.2 h), hv]
    · unfold scanDigits
      split
      · rename_i heq
        cases heq
        exact absurd rfl h0
      · rename_i heq
        cases heq
        rw [if_pos (hd c (by simp)), hv]
      · rename_i heq
        cases heq

theorem toInt32_small {n : Nat} (h : n < 2 ^ 31) : toInt32 n = n := by
  unfold toInt32
  omega

theorem scanHex_append {digits u : Bytes} (hn : digits ≠ []) (hd : ∀ c ∈ digits, isHex c = true) (hu : Ends u)
    (hs : ofHex digits < 2 ^ 31) : scanHex (digits ++ u) = some (ofHex digits : Int) := by
  unfold scanHex
  have h1 : sign ((digits ++ u).dropWhile isSpace) = (false, digits ++ u) := by
    cases digits with
    | nil => exact absurd rfl hn
    | cons c s =>
      have := isHex_facts c (hd c (by simp))
      rw [List.cons_append, List.dropWhile_cons_of_neg (by simp [this.1])]
      unfold sign
      dsimp only
      rw [if_neg this.2.1, if_neg this.2.2.1]
  rw [h1]
  dsimp only
  rw [scanDigits_append hn hd hu]
  dsimp only
  rw [if_pos (by omega), if_neg (by simp), toInt32_small hs]

theorem SizeLine.ends {digits ext : Bytes} {n : Nat} (h : SizeLine digits ext n) (r : Bytes) :
    Ends (ext ++ CRLF ++ r) := by
  cases ext with
  | nil => exact ⟨0x0D, 0x0A :: r, rfl, by decide, by decide, by decide⟩
  | cons c s =>
    refine ⟨c, s ++ CRLF ++ r, rfl, ?_⟩
    rcases h.after with e | e | e | e
    · cases e
    all_goals
      simp only [List.head?_cons, Option.some.injEq] at e
      subst e
      decide

theorem SizeLine.soft {digits ext : Bytes} {n : Nat} (h : SizeLine digits ext n) :
    soften (digits ++ ext) = digits ++ soften ext ∧ SizeLine digits (soften ext) n := by
  have hd : (0x3B : Byte) ∉ digits := fun hm => (isHex_facts _ (h.hex _ hm)).2.2.2.2.2.1 rfl
  refine ⟨soften_append hd, h.number, h.size, ?_, ?_⟩
  · cases ext with
    | nil => exact .inl rfl
    | cons c s =>
      unfold soften
      split
      · exact .inr (.inr (.inl rfl))
      · simpa using h.after
  · have := h.line
    clear h
    induction ext with
    | nil => exact this
    | cons c s ih =>
      unfold soften
      simp only [List.mem_cons, not_or] at this
      split
      · simp only [List.mem_cons, not_or]
        exact ⟨by decide, this.2⟩
      · simp only [List.mem_cons, not_or]
        exact ⟨this.1, ih this.2⟩

theorem SizeLine.no_cr {digits ext : Bytes} {n : Nat} (h : SizeLine digits ext n) : 0x0D ∉ digits ++ ext := by
  rw [List.mem_append, not_or]
  exact ⟨fun hm => (isHex_facts _ (h.hex _ hm)).2.2.2.2.2.2.1 rfl, h.line⟩

theorem crlfFrom_line {pre line rest : Bytes} (h : 0x0D ∉ line) :
    crlfFrom (pre ++ (line ++ CRLF ++ rest)) pre.length = some (pre.length + line.length + 2) := by
  unfold crlfFrom
  rw [List.drop_left, crlf_line _ h]
  rfl

/-- The line of the last chunk. -/
theorem chunks_last {pre digits ext rest : Bytes} {fuel : Nat} (h : SizeLine digits ext 0) :
    chunks (fuel + 1) (pre ++ (digits ++ ext ++ CRLF ++ rest)) pre.length =
      .ok (pre ++ (digits ++ soften ext ++ CRLF ++ rest), [], pre.length + (digits ++ ext).length + 2) := by
  unfold chunks
  rw [crlfFrom_line h.no_cr]
  dsimp only
  rw [dropParam_line, h.soft.1, List.drop_left]
  have e : digits ++ soften ext ++ CRLF ++ rest = digits ++ (soften ext ++ CRLF ++ rest) := by
    simp only [List.append_assoc]
  have hs := h.size
  rw [e, scanHex_append h.number.1 h.hex (h.soft.2.ends rest) (by omega)]
  dsimp only
  rw [if_pos (by omega)]

/-- The size line of a chunk that is not complete. -/
theorem chunks_short {pre digits ext rest : Bytes} {fuel n : Nat} (h : SizeLine digits ext n) (h0 : 0 < n)
    (hn : n < 2 ^ 31) (hr : rest.length < n + 2) :
    chunks (fuel + 1) (pre ++ (digits ++ ext ++ CRLF ++ rest)) pre.length = .err .EAGAIN := by
  unfold chunks
  rw [crlfFrom_line h.no_cr]
  dsimp only
  rw [dropParam_line, h.soft.1, List.drop_left]
  have e : digits ++ soften ext ++ CRLF ++ rest = digits ++ (soften ext ++ CRLF ++ rest) := by
    simp only [List.append_assoc]
  have hs := h.size
  rw [e, scanHex_append h.number.1 h.hex (h.soft.2.ends rest) (by omega)]
  dsimp only
  rw [if_neg (by omega), if_pos]
  have hc : CRLF.length = 2 := rfl
  simp only [List.length_append, soften_length]
  omega

/-- A chunk that is complete. -/
theorem chunks_cons {pre digits ext data rest : Bytes} {fuel : Nat} (h : SizeLine digits ext data.length)
    (h0 : data ≠ []) (hn : data.length < 2 ^ 31) :
    chunks (fuel + 1) (pre ++ (digits ++ ext ++ CRLF ++ (data ++ CRLF ++ rest))) pre.length =
      chunks fuel (pre ++ (digits ++ soften ext ++ CRLF ++ data ++ CRLF) ++ rest)
        (pre ++ (digits ++ soften ext ++ CRLF ++ data ++ CRLF)).length >>= fun r =>
      pure (r.1, (pre.length + (digits ++ ext).length + 2, (data.length : Int)) :: r.2.1, r.2.2) := by
  conv => lhs; unfold chunks
  rw [crlfFrom_line h.no_cr]
  dsimp only
  rw [dropParam_line, h.soft.1, List.drop_left]
  have e : digits ++ soften ext ++ CRLF ++ (data ++ CRLF ++ rest) =
      digits ++ (soften ext ++ CRLF ++ (data ++ CRLF ++ rest)) := by
    simp only [List.append_assoc]
  have hs := h.size
  rw [e, scanHex_append h.number.1 h.hex (h.soft.2.ends _) (by omega)]
  dsimp only
  have hp : 0 < data.length := List.length_pos_iff.2 h0
  have hc : CRLF.length = 2 := rfl
  rw [if_neg (by omega), if_neg (by simp only [List.length_append, soften_length]; omega), if_neg (by omega)]
  have hstop : ((pre.length + (digits ++ ext).length + 2 : Nat) + (ofHex digits : Int)).toNat =
      (pre ++ (digits ++ soften ext ++ CRLF ++ data)).length := by
    simp only [List.length_append, soften_length]
    omega
  have hsplit : pre ++ (digits ++ (soften ext ++ CRLF ++ (data ++ CRLF ++ rest))) =
      pre ++ (digits ++ soften ext ++ CRLF ++ data) ++ (CRLF ++ rest) := by
    simp only [List.append_assoc]
  rw [hstop, hsplit, List.getElem?_append_right (Nat.le_refl _), Nat.sub_self,
    List.getElem?_append_right (Nat.le_add_right _ _), Nat.add_sub_cancel_left]
  rw [if_neg (by simp [CRLF])]
  have h1 : pre ++ (digits ++ soften ext ++ CRLF ++ data) ++ (CRLF ++ rest) =
      pre ++ (digits ++ soften ext ++ CRLF ++ data ++ CRLF) ++ rest := by simp only [List.append_assoc]
  have h2 : (pre ++ (digits ++ soften ext ++ CRLF ++ data)).length + 2 =
      (pre ++ (digits ++ soften ext ++ CRLF ++ data ++ CRLF)).length := by
    simp only [List.length_append]
    omega
  rw [h1, h2, hs]

/-- A chunk as it is after a pass. -/
def RawChunk.soft (c : RawChunk) : RawChunk := ⟨c.digits, soften c.ext, c.data⟩

/-- The positions of the data of the chunks. -/
def offsets : (pos : Nat) → List RawChunk → List (Nat × Int)
  | _, [] => []
  | pos, c :: cs => (pos + (c.digits ++ c.ext).length + 2, (c.data.length : Int)) ::
      offsets (pos + (c.digits ++ c.ext).length + 2 + c.data.length + 2) cs

/-- A well-formed chunk. -/
def RawChunk.WF (c : RawChunk) : Prop := SizeLine c.digits c.ext c.data.length ∧ c.data ≠ [] ∧ c.data.length < 2 ^ 31

theorem chunksText_cons (c : RawChunk) (cs : List RawChunk) :
    chunksText (c :: cs) = c.digits ++ c.ext ++ CRLF ++ c.data ++ CRLF ++ chunksText cs := by
  simp [chunksText]

theorem RawChunk.WF.soft {c : RawChunk} (h : c.WF) : c.soft.WF := ⟨h.1.soft.2, h.2⟩

theorem soft_length (cs : List RawChunk) : (chunksText (cs.map RawChunk.soft)).length = (chunksText cs).length := by
  induction cs with
  | nil => rfl
  | cons c cs ih =>
    rw [List.map_cons, chunksText_cons, chunksText_cons]
    simp only [List.length_append, ih, RawChunk.soft, soften_length]

theorem offsets_soft (pos : Nat) (cs : List RawChunk) : offsets pos (cs.map RawChunk.soft) = offsets pos cs := by
  induction cs generalizing pos with
  | nil => rfl
  | cons c cs ih =>
    simp only [List.map_cons, offsets, RawChunk.soft, List.length_append, soften_length]
    rw [ih]

theorem chunks_whole {cs : List RawChunk} (hw : ∀ c ∈ cs, c.WF) {digits ext rest : Bytes} (h : SizeLine digits ext 0) :
    (pre : Bytes) → (fuel : Nat) → (cs.length < fuel) →
    chunks fuel (pre ++ (chunksText cs ++ (digits ++ ext ++ CRLF ++ rest))) pre.length =
      .ok (pre ++ (chunksText (cs.map RawChunk.soft) ++ (digits ++ soften ext ++ CRLF ++ rest)),
        offsets pre.length cs, pre.length + (chunksText cs ++ (digits ++ ext ++ CRLF)).length) := by
  induction cs with
  | nil =>
    intro pre fuel hf
    obtain ⟨fuel, rfl⟩ : ∃ f, fuel = f + 1 := ⟨fuel - 1, by simp only [List.length_nil] at hf; omega⟩
    have := chunks_last (pre := pre) (rest := rest) (fuel := fuel) h
    change chunks (fuel + 1) (pre ++ ([] ++ (digits ++ ext ++ CRLF ++ rest))) pre.length = _
    rw [List.nil_append, this]
    have e : pre.length + (digits ++ ext).length + 2 = pre.length + (chunksText [] ++ (digits ++ ext ++ CRLF)).length := by
      have hc : CRLF.length = 2 := rfl
      have h0 : (chunksText []).length = 0 := rfl
      simp only [List.length_append]
      omega
    rw [e]
    rfl
  | cons c cs ih =>
    intro pre fuel hf
    obtain ⟨fuel, rfl⟩ : ∃ f, fuel = f + 1 := ⟨fuel - 1, by simp only [List.length_cons] at hf; omega⟩
    obtain ⟨w1, w2, w3⟩ := hw c (by simp)
    have e : pre ++ (chunksText (c :: cs) ++ (digits ++ ext ++ CRLF ++ rest)) =
        pre ++ (c.digits ++ c.ext ++ CRLF ++ (c.data ++ CRLF ++
          (chunksText cs ++ (digits ++ ext ++ CRLF ++ rest)))) := by
      rw [chunksText_cons]
      simp only [List.append_assoc]
    rw [e, chunks_cons w1 w2 w3, ih (fun x hx => hw x (List.mem_cons_of_mem _ hx)) _ fuel
      (by simp only [List.length_cons] at hf; omega), Out.bind_ok]
    have hc : CRLF.length = 2 := rfl
    have hl : (pre ++ (c.digits ++ soften c.ext ++ CRLF ++ c.data ++ CRLF)).length =
        pre.length + (c.digits ++ c.ext).length + 2 + c.data.length + 2 := by
      simp only [List.length_append, soften_length]
      omega
    have h1 : pre ++ (c.digits ++ soften c.ext ++ CRLF ++ c.data ++ CRLF) ++
        (chunksText (cs.map RawChunk.soft) ++ (digits ++ soften ext ++ CRLF ++ rest)) =
        pre ++ (chunksText ((c :: cs).map RawChunk.soft) ++ (digits ++ soften ext ++ CRLF ++ rest)) := by
      rw [List.map_cons, chunksText_cons]
      simp only [List.append_assoc, RawChunk.soft]
    have h2 : pre.length + (c.digits ++ c.ext).length + 2 + c.data.length + 2 +
        (chunksText cs ++ (digits ++ ext ++ CRLF)).length =
        pre.length + (chunksText (c :: cs) ++ (digits ++ ext ++ CRLF)).length := by
      rw [chunksText_cons]
      simp only [List.length_append]
      omega
    rw [hl, h1, h2]
    rfl

theorem chunks_part {cs : List RawChunk} (hw : ∀ c ∈ cs, c.WF) {digits ext : Bytes} (h : SizeLine digits ext 0) :
    (pre : Bytes) → (fuel k : Nat) → (k < (chunksText cs ++ (digits ++ ext ++ CRLF)).length) → (k < fuel) →
    chunks fuel (pre ++ (chunksText cs ++ (digits ++ ext ++ CRLF)).take k) pre.length = .err .EAGAIN := by
  have hc : CRLF.length = 2 := rfl
  induction cs with
  | nil =>
    intro pre fuel k hk hf
    obtain ⟨fuel, rfl⟩ : ∃ f, fuel = f + 1 := ⟨fuel - 1, by omega⟩
    have e : chunksText [] ++ (digits ++ ext ++ CRLF) = digits ++ ext ++ CRLF := rfl
    rw [e] at hk ⊢
    rw [List.length_append] at hk
    have := crlf_take (rest := []) h.no_cr (k := k) hk
    rw [List.append_nil] at this
    unfold chunks crlfFrom
    rw [List.drop_left, this]
    rfl
  | cons c cs ih =>
    intro pre fuel k hk hf
    obtain ⟨fuel, rfl⟩ : ∃ f, fuel = f + 1 := ⟨fuel - 1, by omega⟩
    obtain ⟨w1, w2, w3⟩ := hw c (by simp)
    have hp : 0 < c.data.length := List.length_pos_iff.2 w2
    have e : chunksText (c :: cs) ++ (digits ++ ext ++ CRLF) =
        c.digits ++ c.ext ++ CRLF ++ (c.data ++ CRLF ++ (chunksText cs ++ (digits ++ ext ++ CRLF))) := by
      rw [chunksText_cons]
      simp only [List.append_assoc]
    rw [e] at hk ⊢
    by_cases h1 : k < (c.digits ++ c.ext).length + 2
    · unfold chunks crlfFrom
      rw [List.drop_left, crlf_take w1.no_cr h1]
      rfl
    · generalize hT : chunksText cs ++ (digits ++ ext ++ CRLF) = T at hk ⊢
      obtain ⟨j, rfl⟩ : ∃ j, k = (c.digits ++ c.ext ++ CRLF).length + j :=
        ⟨k - (c.digits ++ c.ext ++ CRLF).length, by rw [List.length_append]; omega⟩
      rw [List.take_length_add_append]
      by_cases h2 : j < c.data.length + 2
      · rw [chunks_short w1 hp w3]
        rw [List.length_take]
        omega
      · obtain ⟨i, rfl⟩ : ∃ i, j = (c.data ++ CRLF).length + i :=
          ⟨j - (c.data ++ CRLF).length, by rw [List.length_append]; omega⟩
        rw [List.take_length_add_append, chunks_cons w1 w2 w3, ← hT]
        rw [ih (fun x hx => hw x (List.mem_cons_of_mem _ hx)) _ fuel i ?_ ?_]
        · rfl
        · rw [hT]
          simp only [List.length_append] at hk ⊢
          omega
        · simp only [List.length_append] at hf ⊢
          omega

/-- The sum of the sizes. -/
theorem totalLen_offsets (cs : List RawChunk) : (pos acc : Nat) →
    (acc + (cs.flatMap RawChunk.data).length < 2 ^ 31) →
    totalLen acc (offsets pos cs) = .ok ((acc + (cs.flatMap RawChunk.data).length : Nat) : Int) := by
  induction cs with
  | nil => intro pos acc h; simp [totalLen, offsets]
  | cons c cs ih =>
    intro pos acc h
    rw [List.flatMap_cons, List.length_append] at h ⊢
    unfold offsets totalLen
    rw [if_pos (by omega)]
    have := ih (pos + (c.digits ++ c.ext).length + 2 + c.data.length + 2) (acc + c.data.length) (by omega)
    rw [← Nat.add_assoc, ← this]
    rfl

/-- The data of the chunks. -/
theorem gather_offsets (cs : List RawChunk) (rest : Bytes) (size : Nat) : (pre dest : Bytes) →
    (dest.length + (cs.flatMap RawChunk.data).length ≤ size) →
    gather (pre ++ (chunksText cs ++ rest)) size dest (offsets pre.length cs) =
      .ok (dest ++ cs.flatMap RawChunk.data) := by
  have hc : CRLF.length = 2 := rfl
  induction cs with
  | nil => intro pre dest h; simp [gather, offsets]
  | cons c cs ih =>
    intro pre dest h
    rw [List.flatMap_cons, List.length_append] at h
    unfold offsets gather
    rw [if_neg (by omega), Int.toNat_natCast]
    have e : pre ++ (chunksText (c :: cs) ++ rest) =
        (pre ++ (c.digits ++ c.ext ++ CRLF)) ++ (c.data ++ (CRLF ++ (chunksText cs ++ rest))) := by
      rw [chunksText_cons]
      simp only [List.append_assoc]
    have hl : pre.length + (c.digits ++ c.ext).length + 2 = (pre ++ (c.digits ++ c.ext ++ CRLF)).length := by
      simp only [List.length_append]
      omega
    rw [if_pos (by
      constructor
      · rw [e, hl]
        simp only [List.length_append]
        omega
      · omega)]
    have ht : ((pre ++ (chunksText (c :: cs) ++ rest)).drop (pre.length + (c.digits ++ c.ext).length + 2)).take
        c.data.length = c.data := by
      rw [hl, e, List.drop_left, List.take_left]
    rw [ht]
    have e2 : pre ++ (chunksText (c :: cs) ++ rest) =
        (pre ++ (c.digits ++ c.ext ++ CRLF ++ c.data ++ CRLF)) ++ (chunksText cs ++ rest) := by
      rw [chunksText_cons]
      simp only [List.append_assoc]
    have hl2 : pre.length + (c.digits ++ c.ext).length + 2 + c.data.length + 2 =
        (pre ++ (c.digits ++ c.ext ++ CRLF ++ c.data ++ CRLF)).length := by
      simp only [List.length_append]
      omega
    rw [e2, hl2, ih _ _ (by rw [List.length_append]; omega), List.flatMap_cons, List.append_assoc]

theorem length_chunksText (cs : List RawChunk) : cs.length ≤ (chunksText cs).length := by
  induction cs with
  | nil => simp
  | cons c cs ih =>
    rw [chunksText_cons]
    simp only [List.length_cons, List.length_append, CRLF, List.length_nil]
    omega

variable {mem : Nat → Bool}

/-- Two passes over a well-formed text. -/
theorem parseChunked_text (hm : ∀ n, mem n = true) {cs : List RawChunk} (hw : ∀ c ∈ cs, c.WF) {digits ext : Bytes}
    (h : SizeLine digits ext 0) (hl : (cs.flatMap RawChunk.data).length + 1 < 2 ^ 31) (rest : Bytes) :
    parseChunked mem (chunksText cs ++ (digits ++ ext ++ CRLF ++ rest)) =
      parseHeaders mem ((chunksText cs ++ (digits ++ ext ++ CRLF ++ rest)).length + 1) rest >>= fun h =>
        pure (cs.flatMap RawChunk.data, h.1, h.2) := by
  have hf : ∀ u, cs.length < (chunksText cs ++ u).length + 1 := fun u => by
    have := length_chunksText cs
    rw [List.length_append]
    omega
  unfold parseChunked
  have h1 := chunks_whole hw h (rest := rest) [] _ (hf (digits ++ ext ++ CRLF ++ rest))
  simp only [List.nil_append, List.length_nil, Nat.zero_add] at h1
  rw [h1, Out.bind_ok]
  have h2 := totalLen_offsets cs 0 0 (by omega)
  rw [Nat.zero_add] at h2
  rw [show (0 : Int) = ((0 : Nat) : Int) from rfl, h2, Out.bind_ok, if_neg (by omega), if_neg (by simp [hm]), if_neg (by omega)]
  have hw2 : ∀ c ∈ cs.map RawChunk.soft, c.WF := by
    intro c hc
    obtain ⟨d, hd, rfl⟩ := List.mem_map.1 hc
    exact (hw d hd).soft
  have h3 := chunks_whole hw2 h.soft.2 (rest := rest) []
    ((chunksText cs ++ (digits ++ ext ++ CRLF ++ rest)).length + 1) (by rw [List.length_map]; exact hf _)
  simp only [List.nil_append, List.length_nil, Nat.zero_add] at h3
  rw [h3, Out.bind_ok]
  dsimp only
  have hfm : ∀ l : List RawChunk, (l.map RawChunk.soft).flatMap RawChunk.data = l.flatMap RawChunk.data := by
    intro l
    induction l with
    | nil => rfl
    | cons c l ih => rw [List.map_cons, List.flatMap_cons, List.flatMap_cons, ih]; rfl
  have h4 := gather_offsets ((cs.map RawChunk.soft).map RawChunk.soft)
    (digits ++ soften (soften ext) ++ CRLF ++ rest) ((cs.flatMap RawChunk.data).length + 1) [] []
    (by rw [hfm, hfm]; simp)
  rw [offsets_soft] at h4
  simp only [List.nil_append, List.length_nil, hfm] at h4
  rw [Int.toNat_natCast, h4, Out.bind_ok]
  have h5 : ((chunksText ((cs.map RawChunk.soft).map RawChunk.soft) ++
      (digits ++ soften (soften ext) ++ CRLF ++ rest)).drop
      (chunksText (cs.map RawChunk.soft) ++ (digits ++ soften ext ++ CRLF)).length) = rest := by
    have e1 : chunksText ((cs.map RawChunk.soft).map RawChunk.soft) ++ (digits ++ soften (soften ext) ++ CRLF ++ rest) =
        (chunksText ((cs.map RawChunk.soft).map RawChunk.soft) ++ (digits ++ soften (soften ext) ++ CRLF)) ++ rest := by
      simp only [List.append_assoc]
    have e2 : (chunksText (cs.map RawChunk.soft) ++ (digits ++ soften ext ++ CRLF)).length =
        (chunksText ((cs.map RawChunk.soft).map RawChunk.soft) ++ (digits ++ soften (soften ext) ++ CRLF)).length := by
      simp only [List.length_append, soft_length, soften_length]
    rw [e1, e2, List.drop_left]
  rw [h5]

theorem parseChunked_exact (hm : ∀ n, mem n = true) {cs : List RawChunk} (hw : ∀ c ∈ cs, c.WF) {digits ext : Bytes}
    (h : SizeLine digits ext 0) (hl : (cs.flatMap RawChunk.data).length + 1 < 2 ^ 31) {ts : List RawHeader}
    (ht : ∀ t ∈ ts, t.WF) :
    Exact (fun s => parseChunked mem s >>= fun r => pure ((r.1, r.2.1), r.2.2))
      (RawBody.chunked cs digits ext ts).text (cs.flatMap RawChunk.data, ts.map RawHeader.header) := by
  have et : (RawBody.chunked cs digits ext ts).text =
      chunksText cs ++ (digits ++ ext ++ CRLF ++ (headersText ts ++ CRLF)) := by
    simp only [RawBody.text, List.append_assoc]
  rw [et]
  constructor
  · intro more
    have e : chunksText cs ++ (digits ++ ext ++ CRLF ++ (headersText ts ++ CRLF)) ++ more =
        chunksText cs ++ (digits ++ ext ++ CRLF ++ (headersText ts ++ CRLF ++ more)) := by
      simp only [List.append_assoc]
    rw [e, parseChunked_text hm hw h hl, parseHeaders_whole hm ht more _ ?_]
    · rfl
    · have := length_headersText ts
      simp only [List.length_append]
      omega
  · intro k hk
    by_cases h1 : k < (chunksText cs ++ (digits ++ ext ++ CRLF)).length
    · have e : chunksText cs ++ (digits ++ ext ++ CRLF ++ (headersText ts ++ CRLF)) =
          chunksText cs ++ (digits ++ ext ++ CRLF) ++ (headersText ts ++ CRLF) := by
        simp only [List.append_assoc]
      rw [e, List.take_append_of_le_length (Nat.le_of_lt h1)]
      have := chunks_part hw h [] (((chunksText cs ++ (digits ++ ext ++ CRLF)).take k).length + 1) k h1
        (by rw [List.length_take]; omega)
      simp only [List.nil_append, List.length_nil] at this
      unfold parseChunked
      rw [this]
      rfl
    · obtain ⟨j, rfl⟩ : ∃ j, k = (chunksText cs ++ (digits ++ ext ++ CRLF)).length + j :=
        ⟨k - (chunksText cs ++ (digits ++ ext ++ CRLF)).length, by omega⟩
      have e : chunksText cs ++ (digits ++ ext ++ CRLF ++ (headersText ts ++ CRLF)) =
          chunksText cs ++ (digits ++ ext ++ CRLF) ++ (headersText ts ++ CRLF) := by
        simp only [List.append_assoc]
      rw [e] at hk ⊢
      rw [List.length_append (bs := headersText ts ++ CRLF)] at hk
      rw [List.take_length_add_append]
      have e2 : chunksText cs ++ (digits ++ ext ++ CRLF) ++ (headersText ts ++ CRLF).take j =
          chunksText cs ++ (digits ++ ext ++ CRLF ++ (headersText ts ++ CRLF).take j) := by
        simp only [List.append_assoc]
      rw [e2, parseChunked_text hm hw h hl, parseHeaders_part hm ht _ j (by omega)
        (by simp only [List.length_append, List.length_take] at hk ⊢; omega)]
      rfl

end FreeCoAP.Http
