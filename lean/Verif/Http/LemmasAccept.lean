import Verif.Http.LemmasMore

/-!
# What is accepted
-/

namespace FreeCoAP.Http

theorem OneLine.nil : OneLine [] := by
  intro a b h
  have := congrArg List.length h
  simp [CRLF] at this

theorem OneLine.cons {c : Byte} {a : Bytes} (h : OneLine a) (hc : ¬ (c = 0x0D ∧ a.head? = some 0x0A)) :
    OneLine (c :: a) := by
  rintro (_ | ⟨d, x⟩) y e
  · simp only [CRLF, List.nil_append, List.cons_append, List.cons.injEq] at e
    obtain ⟨rfl, rfl⟩ := e
    exact hc ⟨rfl, rfl⟩
  · simp only [List.cons_append, List.cons.injEq] at e
    exact h _ _ e.2

theorem OneLine.tail {c : Byte} {a : Bytes} (h : OneLine (c :: a)) : OneLine a := by
  intro x y e
  exact h (c :: x) y (by rw [e]; rfl)

theorem OneLine.head {c : Byte} {a : Bytes} (h : OneLine (c :: a)) : ¬ (c = 0x0D ∧ a.head? = some 0x0A) := by
  rintro ⟨rfl, h2⟩
  cases a with
  | nil => cases h2
  | cons d a =>
    simp only [List.head?_cons, Option.some.injEq] at h2
    subst h2
    exact h [] a rfl

theorem oneLine_of_no_cr {s : Bytes} (h : 0x0D ∉ s) : OneLine s := by
  rintro a b rfl
  exact h (by simp [CRLF])

theorem crlf_first {a b : Bytes} (h : OneLine a) : crlf (a ++ CRLF ++ b) = some (a, b) := by
  induction a with
  | nil => rfl
  | cons c a ih =>
    rw [List.cons_append, List.cons_append]
    unfold crlf
    rw [if_neg, ih h.tail]
    · rfl
    · rintro ⟨rfl, h2⟩
      cases a with
      | nil => simp [CRLF] at h2
      | cons d a => exact h.head ⟨rfl, h2⟩

theorem crlf_oneLine : {s a b : Bytes} → crlf s = some (a, b) → OneLine a
  | [], _, _, h => by cases h
  | c :: s, a, b, h => by
    unfold Http.crlf at h
    split at h
    · cases h; exact .nil
    · rename_i hc
      cases hs : Http.crlf s with
      | none => rw [hs] at h; cases h
      | some p =>
        rw [hs] at h
        cases h
        have e := crlf_some (a := p.1) (b := p.2) hs
        refine (crlf_oneLine (a := p.1) (b := p.2) hs).cons ?_
        rintro ⟨rfl, h2⟩
        refine hc ⟨rfl, ?_⟩
        rw [e]
        cases hp : p.1 with
        | nil => rw [hp] at h2; cases h2
        | cons d a => rw [hp] at h2; exact h2

/-! ## Lines of headers -/

theorem Folded.nil : Folded [] := fun a b h => by
  have := congrArg List.length h
  simp [CRLF] at this

theorem Folded.cons {c : Byte} {a : Bytes} (h : Folded a) (hc : ¬ (c = 0x0D ∧ a.head? = some 0x0A)) :
    Folded (c :: a) := by
  rintro (_ | ⟨d, x⟩) y e
  · simp only [CRLF, List.nil_append, List.cons_append, List.cons.injEq] at e
    obtain ⟨rfl, rfl⟩ := e
    exact absurd ⟨rfl, rfl⟩ hc
  · simp only [List.cons_append, List.cons.injEq] at e
    exact h _ _ e.2

theorem Folded.fold {e : Byte} {a : Bytes} (h : Folded a) (he : e = 0x20 ∨ e = 0x09) :
    Folded (0x0D :: 0x0A :: e :: a) := by
  have h1 : Folded (e :: a) := h.cons (by rcases he with rfl | rfl <;> exact fun h => absurd h.1 (by decide))
  have h2 : Folded (0x0A :: e :: a) := h1.cons (fun h => absurd h.1 (by decide))
  rintro (_ | ⟨d, x⟩) y eq
  · simp only [CRLF, List.nil_append, List.cons_append, List.cons.injEq, true_and] at eq
    rw [← eq]
    rcases he with rfl | rfl
    · exact .inl rfl
    · exact .inr rfl
  · simp only [List.cons_append, List.cons.injEq] at eq
    exact h2 _ _ eq.2

theorem Folded.tail {c : Byte} {a : Bytes} (h : Folded (c :: a)) : Folded a := by
  intro x y e
  exact h (c :: x) y (by rw [e]; rfl)

theorem lineEnd_fold (e : Byte) (s : Bytes) : lineEnd (0x0D :: 0x0A :: e :: s) =
    if e = 0x20 ∨ e = 0x09 then (lineEnd s).map (fun p => (0x0D :: 0x0A :: e :: p.1, p.2))
      else some ([], e :: s) := rfl

theorem lineEnd_step {c d : Byte} (hc : ¬ (c = 0x0D ∧ d = 0x0A)) (s : Bytes) :
    lineEnd (c :: d :: s) = (lineEnd (d :: s)).map (fun p => (c :: p.1, p.2)) := by
  conv => lhs; unfold lineEnd
  split
  · rename_i heq; cases heq; exact absurd ⟨rfl, rfl⟩ hc
  · rename_i heq; cases heq; exact absurd ⟨rfl, rfl⟩ hc
  · rfl

theorem lineEnd_folded : {s a b : Bytes} → lineEnd s = some (a, b) →
    Folded a ∧ b.head? ≠ some 0x20 ∧ b.head? ≠ some 0x09
  | [], _, _, h => by cases h
  | [c], a, b, h => by
    have := congrArg List.length (lineEnd_some h)
    simp only [List.length_append, CRLF, List.length_cons, List.length_nil] at this
    omega
  | c :: d :: s, a, b, h => by
    by_cases hc : c = 0x0D ∧ d = 0x0A
    · obtain ⟨rfl, rfl⟩ := hc
      cases s with
      | nil =>
        cases h
        exact ⟨.nil, by simp, by simp⟩
      | cons e s =>
        rw [lineEnd_fold] at h
        split at h
        · rename_i he
          cases hs : lineEnd s with
          | none => rw [hs] at h; cases h
          | some p =>
            rw [hs] at h
            cases h
            have := lineEnd_folded (a := p.1) (b := p.2) hs
            exact ⟨this.1.fold he, this.2⟩
        · rename_i he
          cases h
          refine ⟨.nil, ?_, ?_⟩
          · simp only [List.head?_cons, ne_eq, Option.some.injEq]; exact fun h => he (.inl h)
          · simp only [List.head?_cons, ne_eq, Option.some.injEq]; exact fun h => he (.inr h)
    · rw [lineEnd_step hc] at h
      cases hs : lineEnd (d :: s) with
      | none => rw [hs] at h; cases h
      | some p =>
        rw [hs] at h
        cases h
        have := lineEnd_folded (a := p.1) (b := p.2) hs
        have e := lineEnd_some (a := p.1) (b := p.2) hs
        refine ⟨this.1.cons ?_, this.2⟩
        rintro ⟨rfl, h2⟩
        refine hc ⟨rfl, ?_⟩
        cases hp : p.1 with
        | nil => rw [hp] at h2; cases h2
        | cons x a =>
          rw [hp] at h2 e
          simp only [List.head?_cons, Option.some.injEq] at h2
          simp only [List.cons_append, List.cons.injEq] at e
          rw [e.1, h2]

theorem lineEnd_first {b : Bytes} (hb : b.head? ≠ some 0x20 ∧ b.head? ≠ some 0x09) : {a : Bytes} → Folded a →
    lineEnd (a ++ CRLF ++ b) = some (a, b)
  | [], _ => by
    cases b with
    | nil => rfl
    | cons e b =>
      change lineEnd (0x0D :: 0x0A :: e :: b) = _
      rw [lineEnd_fold, if_neg]
      simpa using hb
  | [c], _ => by
    change lineEnd (c :: 0x0D :: 0x0A :: b) = _
    have := lineEnd_first hb (a := []) .nil
    rw [lineEnd_step (fun h => absurd h.2 (by decide))]
    rw [show (0x0D :: 0x0A :: b : Bytes) = [] ++ CRLF ++ b from rfl, this]
    rfl
  | c :: d :: s, h => by
    by_cases hc : c = 0x0D ∧ d = 0x0A
    · obtain ⟨rfl, rfl⟩ := hc
      have h1 := h [] s rfl
      cases s with
      | nil => simp at h1
      | cons e s =>
        have he : e = 0x20 ∨ e = 0x09 := by simpa using h1
        change lineEnd (0x0D :: 0x0A :: e :: (s ++ CRLF ++ b)) = _
        rw [lineEnd_fold, if_pos he, lineEnd_first hb h.tail.tail.tail]
        rfl
    · have := lineEnd_first hb h.tail
      rw [List.cons_append, List.cons_append] at this ⊢
      rw [List.cons_append, List.cons_append] 
      rw [lineEnd_step hc, this]
      rfl

variable {mem : Nat → Bool}

theorem RawHeader.Loose.ne {h : RawHeader} (w : h.Loose) (y : Bytes) :
    h.name ++ str ":" ++ h.value ≠ CRLF ++ y := by
  intro e
  refine w.first ?_
  match hn : h.name with
  | [] => rw [hn] at e; simp [str, CRLF] at e
  | [c] => rw [hn] at e; simp [str, CRLF] at e
  | c :: d :: s =>
    rw [hn] at e
    simp only [CRLF, List.cons_append, List.cons.injEq] at e
    rw [e.1, e.2.1]
    exact ⟨s, rfl⟩

/-- Headers that were taken from a text. -/
theorem parseHeaders_sound : (fuel : Nat) → {s : Bytes} → {hs : List Header} → {r : Bytes} →
    parseHeaders mem fuel s = .ok (hs, r) →
    ∃ ls : List RawHeader, s = headersText ls ++ CRLF ++ r ∧ LooseHeaders ls ∧ hs = ls.map RawHeader.header
  | 0, _, _, _, h => by cases h
  | fuel + 1, s, hs, r, h => by
    unfold parseHeaders at h
    split at h
    · cases h
    · rename_i rest hc
      cases h
      exact ⟨[], crlf_some hc, ⟨by simp, by simp⟩, rfl⟩
    · rename_i c1 line1 rest1 hc
      split at h
      · cases h
      · rename_i line rest hle
        split at h
        · cases h
        · rename_i name value hcut
          obtain ⟨x, hx, h⟩ := Out.bind_eq_ok.1 h
          obtain ⟨y, hy, h⟩ := Out.bind_eq_ok.1 h
          obtain ⟨hs', r'⟩ := y
          cases h
          obtain ⟨ls, e1, e2, e3⟩ := parseHeaders_sound fuel hy
          obtain ⟨c2, c3⟩ := cut_eq_some.1 hcut
          have hf := lineEnd_folded hle
          have hse := lineEnd_some hle
          have hline : name ++ str ":" ++ value = line := by rw [c2]; simp [str]
          have hx' : x = RawHeader.header ⟨name, value⟩ := by
            unfold addHeader at hx
            split at hx
            · cases hx
              rw [trimWs_eq, trimWs_eq]
              rfl
            · cases hx
          have hl : RawHeader.Loose ⟨name, value⟩ := by
            refine ⟨c3, hline ▸ hf.1, ?_⟩
            rintro ⟨y, hy⟩
            have hy : CRLF ++ y = name := hy
            have e : s = [] ++ CRLF ++ (y ++ str ":" ++ value ++ CRLF ++ rest) := by
              rw [hse, ← hline, ← hy]
              simp only [List.append_assoc, List.nil_append]
            rw [e, crlf_first .nil] at hc
            cases hc
          refine ⟨⟨name, value⟩ :: ls, ?_, ⟨?_, ?_⟩, ?_⟩
          · rw [headersText_cons, hse, e1]
            dsimp only
            rw [hline]
            simp only [List.append_assoc]
          · intro z hz
            cases hz with
            | head => exact hl
            | tail _ hz => exact e2.1 z hz
          · intro z hz
            rw [List.tail_cons] at hz
            cases ls with
            | nil => cases hz
            | cons l ls =>
              cases hz with
              | tail _ hz => exact e2.2 z hz
              | head =>
                have hh := hf.2
                rw [e1, headersText_cons] at hh
                cases hn : z.name with
                | nil => simp
                | cons c n =>
                  rw [hn] at hh
                  simpa using hh
          · rw [List.map_cons, ← e3, hx']

theorem headersText_first {l : RawHeader} {ls : List RawHeader} (h : LooseHeaders (l :: ls)) (more : Bytes) :
    (headersText ls ++ CRLF ++ more).head? ≠ some 0x20 ∧ (headersText ls ++ CRLF ++ more).head? ≠ some 0x09 := by
  cases ls with
  | nil => exact ⟨by simp [headersText, CRLF], by simp [headersText, CRLF]⟩
  | cons l' ls =>
    have := h.2 l' (by simp)
    rw [headersText_cons]
    cases hn : l'.name with
    | nil => simp [str]
    | cons c n =>
      rw [hn] at this
      simpa using this

/-- Headers are taken from their text. -/
theorem parseHeaders_loose (hm : ∀ n, mem n = true) {ls : List RawHeader} (hw : LooseHeaders ls) (more : Bytes) :
    (fuel : Nat) → (ls.length < fuel) →
    parseHeaders mem fuel (headersText ls ++ CRLF ++ more) = .ok (ls.map RawHeader.header, more) := by
  induction ls with
  | nil =>
    intro fuel hf
    obtain ⟨f, rfl⟩ : ∃ f, fuel = f + 1 := ⟨fuel - 1, by simp at hf; omega⟩
    rfl
  | cons l ls ih =>
    intro fuel hf
    obtain ⟨f, rfl⟩ : ∃ f, fuel = f + 1 := ⟨fuel - 1, by simp at hf; omega⟩
    have hl := hw.1 l (by simp)
    have hr := headersText_first hw more
    have ht : LooseHeaders ls := ⟨fun z hz => hw.1 z (List.mem_cons_of_mem _ hz), fun z hz => by
      cases ls with
      | nil => cases hz
      | cons a ls => exact hw.2 z (List.mem_cons_of_mem _ hz)⟩
    have ih := ih ht f (by simp at hf; omega)
    have e : headersText (l :: ls) ++ CRLF ++ more =
        (l.name ++ str ":" ++ l.value) ++ CRLF ++ (headersText ls ++ CRLF ++ more) := by
      rw [headersText_cons]
      simp only [List.append_assoc]
    rw [e]
    generalize headersText ls ++ CRLF ++ more = rest at hr ih ⊢
    have hcut : cut 0x3A (l.name ++ str ":" ++ l.value) = some (l.name, l.value) := by
      have : l.name ++ str ":" ++ l.value = l.name ++ 0x3A :: l.value := by simp [str]
      rw [this]
      exact cut_append _ hl.name
    unfold parseHeaders
    rw [lineEnd_first hr hl.line]
    cases hc : crlf (l.name ++ str ":" ++ l.value ++ CRLF ++ rest) with
    | none =>
      exfalso
      generalize l.name ++ str ":" ++ l.value = q at hc
      clear hw hl ih e hr hcut ht
      induction q with
      | nil => cases hc
      | cons c q ih =>
        rw [List.cons_append, List.cons_append] at hc
        unfold crlf at hc
        split at hc
        · cases hc
        · exact ih (by simpa using hc)
    | some p =>
      obtain ⟨a, b⟩ := p
      cases a with
      | nil =>
        exfalso
        have e := crlf_some hc
        rw [List.nil_append, List.append_assoc] at e
        cases hq : l.name ++ str ":" ++ l.value with
        | nil => simp [str] at hq
        | cons c q =>
          rw [hq] at e
          cases q with
          | nil =>
            simp only [CRLF, List.cons_append, List.cons.injEq, List.nil_append] at e
            exact absurd e.2.1 (by decide)
          | cons d q =>
            simp only [CRLF, List.cons_append, List.cons.injEq] at e
            refine hl.ne q ?_
            rw [hq, e.1, e.2.1]
            rfl
      | cons c a =>
        dsimp only
        rw [hcut]
        dsimp only
        rw [addHeader_ok hm, Out.bind_ok, ih, Out.bind_ok, trimWs_eq, trimWs_eq]
        rfl

/-! ## The start line -/

theorem parseStart_sound {s : Bytes} {a b c r : Bytes} (h : parseStart mem s = .ok ((a, b, c), r)) :
    s = a ++ str " " ++ b ++ str " " ++ c ++ CRLF ++ r ∧ (a ≠ [] ∧ 0x20 ∉ a) ∧ (b ≠ [] ∧ 0x20 ∉ b) ∧ c ≠ [] ∧
      OneLine (a ++ str " " ++ b ++ str " " ++ c) := by
  have split : ∀ {s : Bytes} {p : Bytes × Bytes}, startSplit s = .ok p → s = p.1 ++ str " " ++ p.2 ∧ 0x20 ∉ p.1 := by
    intro s p h
    unfold startSplit at h
    split at h
    · cases h
    · rename_i q hc
      cases h
      have := cut_eq_some.1 hc
      exact ⟨by rw [this.1]; simp [str], this.2⟩
  have field : ∀ {s a : Bytes}, startField mem s = .ok a → a = s ∧ s ≠ [] := by
    intro s a h
    rw [startField_eq] at h
    split at h
    · cases h
    · rename_i hl
      split at h
      · cases h; exact ⟨rfl, fun e => hl (by rw [e]; rfl)⟩
      · cases h
  unfold parseStart at h
  split at h
  · cases h
  · rename_i line rest hc
    obtain ⟨p, h1, h⟩ := Out.bind_eq_ok.1 h
    obtain ⟨x, h2, h⟩ := Out.bind_eq_ok.1 h
    obtain ⟨q, h3, h⟩ := Out.bind_eq_ok.1 h
    obtain ⟨y, h4, h⟩ := Out.bind_eq_ok.1 h
    obtain ⟨z, h5, h⟩ := Out.bind_eq_ok.1 h
    cases h
    obtain ⟨rfl, n2⟩ := field h2
    obtain ⟨rfl, n4⟩ := field h4
    obtain ⟨rfl, n5⟩ := field h5
    obtain ⟨e1, m1⟩ := split h1
    obtain ⟨e3, m3⟩ := split h3
    have hl := crlf_oneLine hc
    have hs := crlf_some hc
    have e : line = p.1 ++ str " " ++ q.1 ++ str " " ++ q.2 := by
      rw [e1, e3]
      simp only [List.append_assoc]
    exact ⟨by rw [hs, e], ⟨n2, m1⟩, ⟨n4, m3⟩, n5, e ▸ hl⟩

theorem parseStart_loose (hm : ∀ n, mem n = true) {a b c : Bytes} (ha : a ≠ [] ∧ 0x20 ∉ a) (hb : b ≠ [] ∧ 0x20 ∉ b)
    (hc : c ≠ []) (hl : OneLine (a ++ str " " ++ b ++ str " " ++ c)) (r : Bytes) :
    parseStart mem (a ++ str " " ++ b ++ str " " ++ c ++ CRLF ++ r) = .ok ((a, b, c), r) := by
  unfold parseStart
  rw [crlf_first hl]
  dsimp only
  have e : a ++ str " " ++ b ++ str " " ++ c = a ++ str " " ++ (b ++ str " " ++ c) := by
    simp only [List.append_assoc]
  rw [e, startSplit_ok _ ha.2, Out.bind_ok, startField_ok hm ha.1, Out.bind_ok,
    startSplit_ok _ hb.2, Out.bind_ok, startField_ok hm hb.1, Out.bind_ok, startField_ok hm hc, Out.bind_ok]
  rfl

/-! ## Numbers -/

theorem sign_spec (s : Bytes) : ∃ sg, s = sg ++ (sign s).2 ∧ Sign sg (sign s).2 ∧
    ((sign s).1 = true ↔ sg = str "-") := by
  cases s with
  | nil => exact ⟨[], rfl, .inr (.inr ⟨rfl, by simp [sign], by simp [sign]⟩), by simp [sign, str]⟩
  | cons c s =>
    unfold sign
    by_cases h1 : c = 0x2D
    · subst h1
      exact ⟨str "-", rfl, .inr (.inl rfl), by simp⟩
    · by_cases h2 : c = 0x2B
      · subst h2
        exact ⟨str "+", rfl, .inl rfl, ⟨fun h => absurd h (by simp), fun h => absurd h (by decide)⟩⟩
      · dsimp only
        rw [if_neg h1, if_neg h2]
        exact ⟨[], rfl, .inr (.inr ⟨rfl, by simpa using h2, by simpa using h1⟩), by simp [str]⟩

theorem sign_of {sg s : Bytes} (h : Sign sg s) : sign (sg ++ s) = (decide (sg = str "-"), s) := by
  rcases h with rfl | rfl | ⟨rfl, h1, h2⟩
  · rfl
  · rfl
  · cases s with
    | nil => rfl
    | cons c s =>
      rw [List.nil_append]
      unfold sign
      dsimp only
      rw [if_neg (by simpa using h2), if_neg (by simpa using h1)]
      rfl

theorem decimal_spec (s : Bytes) : ∃ d r, s = d ++ r ∧ (∀ c ∈ d, isDigit c = true) ∧
    (∀ c, r.head? = some c → isDigit c = false) ∧ decimal 0 s = ofDecimal d := by
  unfold ofDecimal
  generalize 0 = acc
  induction s generalizing acc with
  | nil => exact ⟨[], [], rfl, by simp, by simp, rfl⟩
  | cons c s ih =>
    unfold decimal
    by_cases h : isDigit c = true
    · obtain ⟨d, r, e1, e2, e3, e4⟩ := ih (acc * 10 + (c.toNat - 0x30))
      rw [if_pos h, e4]
      refine ⟨c :: d, r, by rw [e1]; rfl, ?_, e3, rfl⟩
      intro x hx
      cases hx with
      | head => exact h
      | tail _ hx => exact e2 x hx
    · rw [if_neg h]
      exact ⟨[], c :: s, rfl, by simp, by simpa using h, rfl⟩

theorem decimal_of {d r : Bytes} (hd : ∀ c ∈ d, isDigit c = true) (hr : ∀ c, r.head? = some c → isDigit c = false) :
    decimal 0 (d ++ r) = ofDecimal d := by
  unfold ofDecimal
  generalize 0 = acc
  induction d generalizing acc with
  | nil =>
    cases r with
    | nil => rfl
    | cons c r =>
      have := hr c rfl
      rw [List.nil_append, decimal, if_neg (by simp [this])]
      rfl
  | cons c d ih =>
    rw [List.cons_append, decimal, if_pos (hd c (by simp)), ih (fun x hx => hd x (List.mem_cons_of_mem _ hx))]
    rfl

theorem hexadecimal_spec (s : Bytes) : ∃ d r, s = d ++ r ∧ (∀ c ∈ d, c ∈ hexDigits) ∧
    (∀ c, r.head? = some c → c ∉ hexDigits) ∧ hexadecimal 0 s = ofHex d := by
  unfold ofHex
  generalize 0 = acc
  induction s generalizing acc with
  | nil => exact ⟨[], [], rfl, by simp, by simp, rfl⟩
  | cons c s ih =>
    unfold hexadecimal
    by_cases h : isHex c = true
    · obtain ⟨d, r, e1, e2, e3, e4⟩ := ih (acc * 16 + hexVal c)
      rw [if_pos h, e4]
      refine ⟨c :: d, r, by rw [e1]; rfl, ?_, e3, by rw [List.foldl_cons, hexVal_eq c h]⟩
      intro x hx
      cases hx with
      | head => exact (isHex_iff c).1 h
      | tail _ hx => exact e2 x hx
    · rw [if_neg h]
      refine ⟨[], c :: s, rfl, by simp, ?_, rfl⟩
      intro x hx
      cases hx
      exact fun hh => h ((isHex_iff c).2 hh)

theorem hexadecimal_of {d r : Bytes} (hd : ∀ c ∈ d, c ∈ hexDigits) (hr : ∀ c, r.head? = some c → c ∉ hexDigits) :
    hexadecimal 0 (d ++ r) = ofHex d := by
  unfold ofHex
  generalize 0 = acc
  induction d generalizing acc with
  | nil =>
    cases r with
    | nil => rfl
    | cons c r =>
      have := hr c rfl
      rw [List.nil_append, hexadecimal, if_neg (fun h => this ((isHex_iff c).1 h))]
      rfl
  | cons c d ih =>
    have hc := (isHex_iff c).2 (hd c (by simp))
    rw [List.cons_append, hexadecimal, if_pos hc, ih (fun x hx => hd x (List.mem_cons_of_mem _ hx)), hexVal_eq c hc]
    rfl

theorem dropSpace_head (s : Bytes) (c : Byte) (h : (s.dropWhile isSpace).head? = some c) : isSpace c = false := by
  induction s with
  | nil => cases h
  | cons x s ih =>
    by_cases hx : isSpace x = true
    · rw [List.dropWhile_cons_of_pos hx] at h
      exact ih h
    · rw [List.dropWhile_cons_of_neg hx] at h
      cases h
      simpa using hx

theorem dropSpace_of {w s : Bytes} (hw : ∀ c ∈ w, isSpace c = true) (hs : ∀ c, s.head? = some c → isSpace c = false) :
    (w ++ s).dropWhile isSpace = s := by
  induction w with
  | nil =>
    cases s with
    | nil => rfl
    | cons c s => rw [List.nil_append, List.dropWhile_cons_of_neg (by simp [hs c rfl])]
  | cons c w ih =>
    rw [List.cons_append, List.dropWhile_cons_of_pos (hw c (by simp)), ih (fun x hx => hw x (List.mem_cons_of_mem _ hx))]

theorem takeSpace (s : Bytes) : ∀ c ∈ s.takeWhile isSpace, isSpace c = true := by
  induction s with
  | nil => simp
  | cons x s ih =>
    rw [List.takeWhile_cons]
    split
    · rename_i h
      intro c hc
      cases hc with
      | head => exact h
      | tail _ hc => exact ih c hc
    · simp

theorem clamp_eq (neg : Prop) [Decidable neg] (n : Nat) :
    (if neg then -((min n (2 ^ 63) : Nat) : Int) else min (n : Int) (2 ^ 63 - 1)) =
      max (-(2 ^ 63)) (min (if neg then -(n : Int) else n) (2 ^ 63 - 1)) := by
  split <;> omega

theorem atoi_spec (s : Bytes) : ∃ z, DecimalAt s z ∧ atoi s = toInt32 (max (-(2 ^ 63)) (min z (2 ^ 63 - 1))) := by
  obtain ⟨sg, e1, h1, h2⟩ := sign_spec (s.dropWhile isSpace)
  obtain ⟨d, r, e2, h3, h4, h5⟩ := decimal_spec (sign (s.dropWhile isSpace)).2
  refine ⟨signed sg (ofDecimal d), ⟨s.takeWhile isSpace, sg, d, r, ?_, takeSpace s, ?_, ?_, h3, h4, rfl⟩, ?_⟩
  · rw [← e2, ← e1, List.takeWhile_append_dropWhile]
  · rw [← e2, ← e1]
    exact dropSpace_head s
  · rw [← e2]
    exact h1
  · unfold atoi signed
    generalize sign (s.dropWhile isSpace) = p at *
    obtain ⟨neg, t⟩ := p
    dsimp only at *
    rw [h5, clamp_eq]
    cases neg with
    | true => rw [if_pos rfl, if_pos (h2.1 rfl)]
    | false => rw [if_neg (by simp), if_neg (fun h => absurd (h2.2 h) (by simp))]

theorem atoi_of {s : Bytes} {z : Int} (h : DecimalAt s z) : atoi s = toInt32 (max (-(2 ^ 63)) (min z (2 ^ 63 - 1))) := by
  obtain ⟨w, sg, d, r, rfl, hw, hs, hg, hd, hr, rfl⟩ := h
  unfold atoi signed
  rw [dropSpace_of hw hs, sign_of hg]
  dsimp only
  rw [decimal_of hd hr, clamp_eq]
  by_cases h : sg = str "-"
  · rw [if_pos (by simpa using h), if_pos h]
  · rw [if_neg (by simpa using h), if_neg h]

theorem scanDigits_spec {s : Bytes} {n : Nat} (h : scanDigits s = some n) : ∃ px d r, s = px ++ (d ++ r) ∧
    Prefix px (d ++ r) ∧ (px ≠ [] ∨ d ≠ []) ∧ (∀ c ∈ d, c ∈ hexDigits) ∧ (∀ c, r.head? = some c → c ∉ hexDigits) ∧
    n = ofHex d := by
  have plain : ∀ c t, s = c :: t → isHex c = true → ¬ str "0x" <+: s → ¬ str "0X" <+: s → hexadecimal 0 s = n →
      ∃ px d r, s = px ++ (d ++ r) ∧ Prefix px (d ++ r) ∧ (px ≠ [] ∨ d ≠ []) ∧ (∀ c ∈ d, c ∈ hexDigits) ∧
        (∀ c, r.head? = some c → c ∉ hexDigits) ∧ n = ofHex d := by
    intro c t hs hc n1 n2 hn
    obtain ⟨d, r, e, h1, h2, h3⟩ := hexadecimal_spec s
    refine ⟨[], d, r, e, .inr (.inr ⟨rfl, e ▸ n1, e ▸ n2⟩), .inr ?_, h1, h2, hn ▸ h3⟩
    rintro rfl
    rw [List.nil_append] at e
    subst e
    exact h2 c (by rw [hs]; rfl) ((isHex_iff c).1 hc)
  unfold scanDigits at h
  split at h
  · rename_i c rest
    split at h
    · rename_i hc
      cases h
      obtain ⟨d, r, e, h1, h2, h3⟩ := hexadecimal_spec rest
      subst e
      refine ⟨[0x30, c], d, r, rfl, ?_, .inl (by simp), h1, h2, h3⟩
      rcases hc with rfl | rfl
      · exact .inl rfl
      · exact .inr (.inl rfl)
    · rename_i hc
      cases h
      refine plain _ _ rfl (by decide) ?_ ?_ rfl
      · rintro ⟨y, hy⟩
        cases hy
        exact hc (.inl rfl)
      · rintro ⟨y, hy⟩
        cases hy
        exact hc (.inr rfl)
  · rename_i c t hne
    split at h
    · rename_i hc
      cases h
      refine plain c t rfl hc ?_ ?_ rfl
      · rintro ⟨y, hy⟩
        cases hy
        exact hne _ _ rfl rfl
      · rintro ⟨y, hy⟩
        cases hy
        exact hne _ _ rfl rfl
    · cases h
  · cases h

theorem scanDigits_of {px d r : Bytes} (hp : Prefix px (d ++ r)) (hn : px ≠ [] ∨ d ≠ []) (hd : ∀ c ∈ d, c ∈ hexDigits)
    (hr : ∀ c, r.head? = some c → c ∉ hexDigits) : scanDigits (px ++ (d ++ r)) = some (ofHex d) := by
  rcases hp with rfl | rfl | ⟨rfl, n1, n2⟩
  · rw [← hexadecimal_of hd hr]
    rfl
  · rw [← hexadecimal_of hd hr]
    rfl
  · have hn : d ≠ [] := hn.resolve_left (by simp)
    rw [List.nil_append]
    cases d with
    | nil => exact absurd rfl hn
    | cons c d =>
      have e := hexadecimal_of hd hr
      rw [List.cons_append] at e n1 n2 ⊢
      unfold scanDigits
      split
      · rename_i x rest heq
        rw [List.cons.injEq] at heq
        obtain ⟨rfl, h2⟩ := heq
        rw [if_neg, e]
        rw [h2] at n1 n2
        rintro (rfl | rfl)
        · exact n1 ⟨_, rfl⟩
        · exact n2 ⟨_, rfl⟩
      · rename_i heq
        cases heq
        rw [if_pos ((isHex_iff c).2 (hd c (by simp))), e]
      · rename_i heq; cases heq

theorem scanHex_spec {s : Bytes} {n : Nat} (h : scanHex s = some (n : Int)) :
    ∃ z, HexAt s z ∧ z.natAbs < 2 ^ 64 ∧ Stored z n := by
  obtain ⟨sg, e1, h1, h2⟩ := sign_spec (s.dropWhile isSpace)
  unfold scanHex at h
  cases hd : scanDigits (sign (s.dropWhile isSpace)).2 with
  | none => dsimp only at h; rw [hd] at h; cases h
  | some k =>
    obtain ⟨px, d, r, e2, g1, g2, g3, g4, rfl⟩ := scanDigits_spec hd
    refine ⟨signed sg (ofHex d), ⟨s.takeWhile isSpace, sg, px, d, r, ?_, takeSpace s, ?_, ?_, g1, g2, g3, g4, rfl⟩, ?_⟩
    · rw [← e2, ← e1, List.takeWhile_append_dropWhile]
    · rw [← e2, ← e1]
      exact dropSpace_head s
    · rw [← e2]
      exact h1
    · dsimp only at h
      rw [hd] at h
      dsimp only at h
      have hsg : signed sg (ofHex d) = if (sign (s.dropWhile isSpace)).1 = true then -(ofHex d : Int) else ofHex d := by
        unfold signed
        by_cases hh : sg = str "-"
        · rw [if_pos hh, if_pos (h2.2 hh)]
        · rw [if_neg hh, if_neg (fun x => hh (h2.1 x))]
      generalize ofHex d = k at *
      rw [hsg]
      unfold Stored
      split at h
      · simp only [Option.some.injEq] at h
        unfold toInt32 at h
        split at h <;> rename_i hneg
        · rw [if_pos hneg]; omega
        · rw [if_neg hneg]; omega
      · simp only [Option.some.injEq] at h
        unfold toInt32 at h
        omega

theorem toInt32_of {z : Int} {n : Nat} (h : Stored z n) : toInt32 z = n := by
  obtain ⟨h1, h2⟩ := h
  unfold toInt32
  omega

theorem stored_of {z : Int} {n : Nat} (h : toInt32 z = n) : Stored z n := by
  unfold toInt32 at h
  unfold Stored
  omega

theorem scanHex_of {s : Bytes} {z : Int} {n : Nat} (h : HexAt s z) (hz : z.natAbs < 2 ^ 64) (hn : Stored z n) :
    scanHex s = some (n : Int) := by
  obtain ⟨w, sg, px, d, r, rfl, hw, hs, hg, g1, g2, g3, g4, rfl⟩ := h
  unfold scanHex
  rw [dropSpace_of hw hs, sign_of hg]
  dsimp only
  rw [scanDigits_of g1 g2 g3 g4]
  dsimp only
  unfold signed at hz hn
  generalize ofHex d = k at *
  by_cases h : sg = str "-"
  · rw [if_pos h] at hz hn
    rw [if_pos (by omega), if_pos (by simpa using h)]
    exact congrArg some (toInt32_of hn)
  · rw [if_neg h] at hz hn
    rw [if_pos (by omega), if_neg (by simpa using h)]
    exact congrArg some (toInt32_of hn)

end FreeCoAP.Http
