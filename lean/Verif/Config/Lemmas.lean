import Verif.Config.Spec

/-!
# Lemmas on the lexer of configurations
-/

namespace FreeCoAP.Config

theorem breaks_append (a b : Bytes) : breaks (a ++ b) = breaks a + breaks b := List.count_append
theorem breaks_cons_ne {c : Byte} (h : c ≠ 0x0A) (s : Bytes) : breaks (c :: s) = breaks s := List.count_cons_of_ne h
theorem breaks_cons_nl (s : Bytes) : breaks (0x0A :: s) = breaks s + 1 := List.count_cons_self

theorem bump_line_ne {p : Pos} {c : Byte} (h : c ≠ 0x0A) : (bump p c).line = p.line := by
  unfold bump; rw [if_neg h]; split <;> rfl
theorem bump_line_nl (p : Pos) : (bump p 0x0A).line = p.line + 1 := rfl

theorem bump_breaks (p : Pos) (c : Byte) (s : Bytes) : (bump p c).line + breaks s = p.line + breaks (c :: s) := by
  by_cases h : c = 0x0A
  · subst h; rw [bump_line_nl, breaks_cons_nl]; omega
  · rw [bump_line_ne h, breaks_cons_ne h]

theorem blank_breaks {w : Bytes} (h : Blank w) : breaks w = 0 := by
  unfold breaks
  exact List.count_eq_zero.2 (fun hm => (h _ hm).2 rfl)

/-- The position after a text. -/
def adv (p : Pos) (t : Bytes) : Pos := t.foldl bump p

/-- The reader came from one place to the other. -/
def Moves (p : Pos) (s : Bytes) (p' : Pos) (r : Bytes) : Prop := ∃ t, s = t ++ r ∧ p' = adv p t

theorem Moves.refl (p : Pos) (s : Bytes) : Moves p s p s := ⟨[], rfl, rfl⟩

theorem Moves.cons {p p' : Pos} {c : Byte} {s r : Bytes} (h : Moves (bump p c) s p' r) : Moves p (c :: s) p' r := by
  obtain ⟨t, rfl, rfl⟩ := h
  exact ⟨c :: t, rfl, rfl⟩

theorem Moves.trans {p p' p'' : Pos} {s r q : Bytes} (h : Moves p s p' r) (h' : Moves p' r p'' q) : Moves p s p'' q := by
  obtain ⟨t, rfl, rfl⟩ := h
  obtain ⟨u, rfl, rfl⟩ := h'
  exact ⟨t ++ u, by rw [List.append_assoc], by unfold adv; rw [List.foldl_append]⟩

theorem skipWs_spec : ∀ (s : Bytes) (p : Pos), ∃ w, s = w ++ (skipWs s p).1 ∧ Blank w ∧ (skipWs s p).2 = adv p w ∧
    ¬ Begins (fun c => c ≠ 0x0A ∧ isSpace c = true) (skipWs s p).1
  | [], p => ⟨[], rfl, (by simp [Blank]), rfl, by rintro ⟨c, t, h, -⟩; cases h⟩
  | c :: s, p => by
    unfold skipWs
    split
    · rename_i hc
      obtain ⟨w, h1, h2, h3, h4⟩ := skipWs_spec s (bump p c)
      refine ⟨c :: w, by rw [List.cons_append, ← h1], ?_, h3, h4⟩
      intro x hx
      rcases List.mem_cons.1 hx with rfl | hx
      · exact ⟨hc.2, hc.1⟩
      · exact h2 x hx
    · rename_i hc
      refine ⟨[], rfl, by simp [Blank], rfl, ?_⟩
      rintro ⟨d, t, h, hd⟩
      cases h
      exact hc (by simpa using hd)

theorem skipWs_blank {w : Bytes} (hw : Blank w) {s : Bytes} (hs : ¬ Begins (fun c => c ≠ 0x0A ∧ isSpace c = true) s) :
    ∀ p, ∃ p', skipWs (w ++ s) p = (s, p') := by
  induction w with
  | nil =>
    intro p
    refine ⟨p, ?_⟩
    cases s with
    | nil => rfl
    | cons c t =>
      rw [List.nil_append]
      unfold skipWs
      rw [if_neg (fun h => hs ⟨c, t, rfl, by simpa using h⟩)]
  | cons c w ih =>
    intro p
    rw [List.cons_append]
    unfold skipWs
    have := hw c (by simp)
    rw [if_pos ⟨this.2, this.1⟩]
    exact ih (fun x hx => hw x (List.mem_cons_of_mem _ hx)) _

theorem tokenPos_line (p : Pos) (c : Byte) : (tokenPos p c).line = p.line := by
  unfold tokenPos
  split
  · rfl
  · rename_i h; exact bump_line_ne h

/-! ## Strings -/

theorem strPut_ok {v : Bytes} {n : Nat} {c : Byte} {s : Str} (h : strPut v n c = .ok s) : s.val = v ++ [c] := by
  unfold strPut at h
  split at h <;> cases h
  rfl

theorem strPut_fits {v : Bytes} {n : Nat} (c : Byte) (h : v.length < n) : ∃ s, strPut v n c = .ok s ∧ s.val = v ++ [c] := by
  unfold strPut
  rw [dif_pos h]
  exact ⟨_, rfl, rfl⟩

/-- The string always has a block in which the next character fits, or asks for one. -/
theorem strAppend_cases (mem : Nat → Bool) (s : Str) (c : Byte) :
    (∃ s', strAppend mem s c = .ok s' ∧ s'.val = s.val ++ [c]) ∨ (strAppend mem s c = .err .ENOMEM ∧ mem (2 * s.len + 1) = false) := by
  have hf := s.fits
  unfold strAppend
  split
  · split
    · exact Or.inl (strPut_fits c (by omega))
    · rename_i hm
      exact Or.inr ⟨rfl, by simpa using hm⟩
  · exact Or.inl (strPut_fits c (by omega))

theorem strAppend_ok {mem : Nat → Bool} {s s' : Str} {c : Byte} (h : strAppend mem s c = .ok s') : s'.val = s.val ++ [c] := by
  rcases strAppend_cases mem s c with ⟨s1, e, hv⟩ | ⟨e, -⟩
  · rw [h] at e; cases e; exact hv
  · rw [h] at e; cases e

theorem strAppend_mem {mem : Nat → Bool} (hm : ∀ n, mem n = true) (s : Str) (c : Byte) :
    ∃ s', strAppend mem s c = .ok s' ∧ s'.val = s.val ++ [c] := by
  rcases strAppend_cases mem s c with h | ⟨-, e⟩
  · exact h
  · rw [hm] at e; cases e

theorem strAppend_ne_ub (mem : Nat → Bool) (s : Str) (c : Byte) : strAppend mem s c ≠ .ub := by
  rcases strAppend_cases mem s c with ⟨s1, e, -⟩ | ⟨e, -⟩ <;> rw [e] <;> simp

theorem foldlM_append_ok {mem : Nat → Bool} : ∀ {t : Bytes} {s s' : Str}, t.foldlM (strAppend mem) s = .ok s' → s'.val = s.val ++ t
  | [], s, s', h => by
    rw [List.foldlM_nil] at h
    cases h
    simp
  | c :: t, s, s', h => by
    rw [List.foldlM_cons] at h
    obtain ⟨s1, e1, e2⟩ := Out.bind_eq_ok.1 h
    rw [foldlM_append_ok e2, strAppend_ok e1, List.append_assoc]
    rfl

theorem foldlM_append_mem {mem : Nat → Bool} (hm : ∀ n, mem n = true) : ∀ (t : Bytes) (s : Str),
    ∃ s', t.foldlM (strAppend mem) s = .ok s' ∧ s'.val = s.val ++ t
  | [], s => ⟨s, rfl, by simp⟩
  | c :: t, s => by
    obtain ⟨s1, e1, v1⟩ := strAppend_mem hm s c
    obtain ⟨s2, e2, v2⟩ := foldlM_append_mem hm t s1
    refine ⟨s2, ?_, by rw [v2, v1, List.append_assoc]; rfl⟩
    rw [List.foldlM_cons, e1, Out.bind_ok, e2]

theorem foldlM_append_ne_ub {mem : Nat → Bool} : ∀ (t : Bytes) (s : Str), t.foldlM (strAppend mem) s ≠ .ub
  | [], s => by rw [List.foldlM_nil]; intro h; cases h
  | c :: t, s => by
    rw [List.foldlM_cons]
    intro h
    rcases Out.bind_eq_ub.1 h with h | ⟨s1, -, h⟩
    · exact strAppend_ne_ub _ _ _ h
    · exact foldlM_append_ne_ub t s1 h

/-! ## The loops -/

theorem scanWhile_ok {mem : Nat → Bool} {f : Byte → Bool} : ∀ {s : Bytes} {st : Str} {p : Pos} {st' : Str} {r : Bytes} {p' : Pos},
    scanWhile mem f st s p = .ok (st', r, p') →
    ∃ t, s = t ++ r ∧ (∀ c ∈ t, f c = true) ∧ ¬ Begins f r ∧ st'.val = st.val ++ t ∧ Moves p s p' r
  | [], st, p, st', r, p', h => by
    cases h
    exact ⟨[], rfl, by simp, (by rintro ⟨c, t, h, -⟩; cases h), by simp, Moves.refl _ _⟩
  | c :: s, st, p, st', r, p', h => by
    unfold scanWhile at h
    split at h
    · rename_i hc
      obtain ⟨st1, e1, e2⟩ := Out.bind_eq_ok.1 h
      obtain ⟨t, h1, h2, h3, h4, h5⟩ := scanWhile_ok e2
      refine ⟨c :: t, by rw [h1]; rfl, ?_, h3, ?_, ?_⟩
      · intro x hx
        rcases List.mem_cons.1 hx with rfl | hx
        · exact hc
        · exact h2 x hx
      · rw [h4, strAppend_ok e1, List.append_assoc]; rfl
      · exact h5.cons
    · rename_i hc
      cases h
      refine ⟨[], rfl, by simp, ?_, by simp, Moves.refl _ _⟩
      rintro ⟨d, t, h, hd⟩
      cases h
      exact hc hd

/-- An allocation failed. -/
def Short (mem : Nat → Bool) (e : Err) : Prop := e = .ENOMEM ∧ ∃ n, mem n = false

theorem strAppend_err {mem : Nat → Bool} {s : Str} {c : Byte} {e : Err} (h : strAppend mem s c = .err e) : Short mem e := by
  rcases strAppend_cases mem s c with ⟨s1, e1, -⟩ | ⟨e1, hm⟩
  · rw [h] at e1; cases e1
  · rw [h] at e1; cases e1; exact ⟨rfl, _, hm⟩

theorem strCreate_err {mem : Nat → Bool} {e : Err} (h : strCreate mem = .err e) : Short mem e := by
  unfold strCreate at h
  split at h
  · cases h
  · rename_i hm
    cases h
    exact ⟨rfl, _, by simpa using hm⟩

theorem scanWhile_err {mem : Nat → Bool} {f : Byte → Bool} : ∀ {s : Bytes} {st : Str} {p : Pos} {e : Err},
    scanWhile mem f st s p = .err e → Short mem e
  | [], st, p, e, h => by cases h
  | c :: s, st, p, e, h => by
    unfold scanWhile at h
    split at h
    · cases ha : strAppend mem st c with
      | ok st1 => rw [ha, Out.bind_ok] at h; exact scanWhile_err h
      | err e' => rw [ha, Out.bind_err] at h; cases h; exact strAppend_err ha
      | ub => exact absurd ha (strAppend_ne_ub _ _ _)
    · cases h

theorem scanWhile_ne_ub {mem : Nat → Bool} {f : Byte → Bool} : ∀ (s : Bytes) (st : Str) (p : Pos), scanWhile mem f st s p ≠ .ub
  | [], st, p => by simp [scanWhile]
  | c :: s, st, p => by
    unfold scanWhile
    split
    · intro h
      rcases Out.bind_eq_ub.1 h with h | ⟨s1, -, h⟩
      · exact strAppend_ne_ub _ _ _ h
      · exact scanWhile_ne_ub s s1 _ h
    · simp

theorem scanWhile_mem {mem : Nat → Bool} (hm : ∀ n, mem n = true) {f : Byte → Bool} {r : Bytes} (hr : ¬ Begins f r) :
    ∀ (t : Bytes) (st : Str) (p : Pos), (∀ c ∈ t, f c = true) →
      ∃ st' p', scanWhile mem f st (t ++ r) p = .ok (st', r, p') ∧ st'.val = st.val ++ t
  | [], st, p, _ => by
    refine ⟨st, p, ?_, by simp⟩
    cases r with
    | nil => rfl
    | cons c r =>
      rw [List.nil_append]
      unfold scanWhile
      rw [if_neg (fun h => hr ⟨c, r, rfl, h⟩)]
  | c :: t, st, p, h => by
    obtain ⟨st1, e1, v1⟩ := strAppend_mem hm st c
    obtain ⟨st2, p2, e2, v2⟩ := scanWhile_mem hm hr t st1 (bump p c) (fun x hx => h x (List.mem_cons_of_mem _ hx))
    refine ⟨st2, p2, ?_, by rw [v2, v1, List.append_assoc]; rfl⟩
    rw [List.cons_append]
    unfold scanWhile
    rw [if_pos (h c (by simp)), e1, Out.bind_ok, e2]

/-- `IsQuoted` for the rest of a quotation after the character `pc`. -/
structure QuotedAfter (pc : Byte) (q : Bytes) : Prop where
  mark : ∀ a b, q = a ++ 0x22 :: b → (pc :: a).getLast? = some 0x5C
  line : ∀ a b, q = a ++ 0x0A :: b → (pc :: a).getLast? = some 0x5C
  last : (pc :: q).getLast? ≠ some 0x5C

theorem quotedAfter_zero {q : Bytes} : QuotedAfter 0 q ↔ IsQuoted q := by
  have key : ∀ a : Bytes, ((0 : Byte) :: a).getLast? = some 0x5C ↔ a.getLast? = some 0x5C := by
    intro a
    cases a with
    | nil => simp
    | cons x a => rw [List.getLast?_cons_cons]
  constructor
  · intro h
    exact ⟨fun a b e => (key a).1 (h.mark a b e), fun a b e => (key a).1 (h.line a b e), fun e => h.last ((key q).2 e)⟩
  · intro h
    exact ⟨fun a b e => (key a).2 (h.mark a b e), fun a b e => (key a).2 (h.line a b e), fun e => h.last ((key q).1 e)⟩

theorem quotedAfter_nil {pc : Byte} : QuotedAfter pc [] ↔ pc ≠ 0x5C := by
  constructor
  · intro h e; exact h.last (by rw [e]; rfl)
  · intro h
    refine ⟨fun a b e => ?_, fun a b e => ?_, fun e => ?_⟩
    · cases a <;> cases e
    · cases a <;> cases e
    · simp only [List.getLast?_singleton, Option.some.injEq] at e; exact h e

theorem quotedAfter_cons {pc c : Byte} {q : Bytes} :
    QuotedAfter pc (c :: q) ↔ (c = 0x22 → pc = 0x5C) ∧ (c = 0x0A → pc = 0x5C) ∧ QuotedAfter c q := by
  constructor
  · intro h
    refine ⟨fun e => ?_, fun e => ?_, fun a b e => ?_, fun a b e => ?_, fun e => ?_⟩
    · have := h.mark [] q (by rw [e]; rfl)
      simpa using this
    · have := h.line [] q (by rw [e]; rfl)
      simpa using this
    · have := h.mark (c :: a) b (by rw [e]; rfl)
      rwa [List.getLast?_cons_cons] at this
    · have := h.line (c :: a) b (by rw [e]; rfl)
      rwa [List.getLast?_cons_cons] at this
    · exact h.last (by rw [List.getLast?_cons_cons]; exact e)
  · rintro ⟨h1, h2, h3⟩
    refine ⟨fun a b e => ?_, fun a b e => ?_, fun e => ?_⟩
    · cases a with
      | nil =>
        injection e with e1 _
        simp [h1 e1]
      | cons x a =>
        injection e with e1 e2
        subst e1
        rw [List.getLast?_cons_cons]
        exact h3.mark a b e2
    · cases a with
      | nil =>
        injection e with e1 _
        simp [h2 e1]
      | cons x a =>
        injection e with e1 e2
        subst e1
        rw [List.getLast?_cons_cons]
        exact h3.line a b e2
    · rw [List.getLast?_cons_cons] at e
      exact h3.last e

theorem scanQuote_ok {mem : Nat → Bool} : ∀ {s : Bytes} {pc : Byte} {st : Str} {p : Pos} {st' : Str} {r : Bytes} {p' : Pos},
    scanQuote mem pc st s p = .ok (st', r, p') →
    ∃ q, s = q ++ 0x22 :: r ∧ QuotedAfter pc q ∧ st'.val = st.val ++ q ∧ Moves p s p' r
  | [], pc, st, p, st', r, p', h => by cases h
  | c :: s, pc, st, p, st', r, p', h => by
    unfold scanQuote at h
    split at h
    · rename_i hc
      cases h
      refine ⟨[], by rw [hc.1]; rfl, quotedAfter_nil.2 hc.2, by simp, (Moves.refl _ _).cons⟩
    · rename_i hc
      split at h
      · cases h
      · rename_i hc2
        obtain ⟨st1, e1, e2⟩ := Out.bind_eq_ok.1 h
        obtain ⟨q, h1, h2, h3, h4⟩ := scanQuote_ok e2
        refine ⟨c :: q, by rw [h1]; rfl, quotedAfter_cons.2 ⟨?_, ?_, h2⟩, ?_, ?_⟩
        · intro e
          exact Classical.byContradiction (fun hp => hc ⟨e, hp⟩)
        · intro e
          exact Classical.byContradiction (fun hp => hc2 ⟨e, hp⟩)
        · rw [h3, strAppend_ok e1, List.append_assoc]; rfl
        · exact h4.cons

theorem scanQuote_ne_ub {mem : Nat → Bool} : ∀ (s : Bytes) (pc : Byte) (st : Str) (p : Pos), scanQuote mem pc st s p ≠ .ub
  | [], pc, st, p => by simp [scanQuote]
  | c :: s, pc, st, p => by
    unfold scanQuote
    split
    · simp
    split
    · simp
    · intro h
      rcases Out.bind_eq_ub.1 h with h | ⟨s1, -, h⟩
      · exact strAppend_ne_ub _ _ _ h
      · exact scanQuote_ne_ub s c s1 _ h

theorem scanQuote_mem {mem : Nat → Bool} (hm : ∀ n, mem n = true) (r : Bytes) : ∀ (q : Bytes) (pc : Byte) (st : Str) (p : Pos),
    QuotedAfter pc q → ∃ st' p', scanQuote mem pc st (q ++ 0x22 :: r) p = .ok (st', r, p') ∧ st'.val = st.val ++ q
  | [], pc, st, p, h => by
    refine ⟨st, bump p 0x22, ?_, by simp⟩
    rw [List.nil_append]
    unfold scanQuote
    rw [if_pos ⟨rfl, quotedAfter_nil.1 h⟩]
  | c :: q, pc, st, p, h => by
    obtain ⟨h1, h2, h3⟩ := quotedAfter_cons.1 h
    obtain ⟨st1, e1, v1⟩ := strAppend_mem hm st c
    obtain ⟨st2, p2, e2, v2⟩ := scanQuote_mem hm r q c st1 (bump p c) h3
    refine ⟨st2, p2, ?_, by rw [v2, v1, List.append_assoc]; rfl⟩
    rw [List.cons_append]
    unfold scanQuote
    rw [if_neg (fun h => h.2 (h1 h.1)), if_neg (fun h => h.2 (h2 h.1)), e1, Out.bind_ok, e2]

theorem comment_spec : ∀ (s : Bytes) (p : Pos),
    (0x0A ∉ s ∧ (comment s p).1 = .eof ∧ (comment s p).2.rest = none) ∨
    (∃ t r, s = t ++ 0x0A :: r ∧ 0x0A ∉ t ∧ (comment s p).1 = .eol ∧ (comment s p).2.rest = some r ∧
      Moves p s (comment s p).2.pos r)
  | [], p => Or.inl ⟨by simp, rfl, rfl⟩
  | c :: s, p => by
    unfold comment
    by_cases hc : c = 0x0A
    · rw [if_pos hc]
      refine Or.inr ⟨[], s, by rw [hc]; rfl, by simp, rfl, rfl, (Moves.refl _ _).cons⟩
    · rw [if_neg hc]
      rcases comment_spec s (bump p c) with ⟨h1, h2, h3⟩ | ⟨t, r, h1, h2, h3, h4, h5⟩
      · exact Or.inl ⟨by simp only [List.mem_cons, not_or]; exact ⟨fun e => hc e.symm, h1⟩, h2, h3⟩
      · refine Or.inr ⟨c :: t, r, by rw [h1]; rfl, by simp only [List.mem_cons, not_or]; exact ⟨fun e => hc e.symm, h2⟩, h3, h4, ?_⟩
        exact h5.cons

/-! ## Tokens -/

/-- What the lexer returns is the first token of the text. -/
theorem lex_ok {mem : Nat → Bool} {s : Bytes} {p tp : Pos} {t : Token} {c : Cur} (h : lex mem ⟨some s, p⟩ = (tp, .ok (t, c))) :
    Lexes s t c.rest ∧ (∀ r, c.rest = some r → Moves p s c.pos r) := by
  unfold lex at h
  dsimp only at h
  obtain ⟨w, hs, hw, hl, hb⟩ := skipWs_spec s p
  generalize skipWs s p = k at hs hl hb h
  obtain ⟨x, q⟩ := k
  dsimp only at hs hl hb h
  replace h := (Prod.mk.inj h).2
  subst hs
  have hmove : Moves p (w ++ x) q x := ⟨w, rfl, hl⟩
  have hgo : ∀ {c : Cur}, (∀ r, c.rest = some r → Moves q x c.pos r) → ∀ r, c.rest = some r → Moves p (w ++ x) c.pos r :=
    fun h r hr => hmove.trans (h r hr)
  suffices hh : Lexes (w ++ x) t c.rest ∧ (∀ r, c.rest = some r → Moves q x c.pos r) from ⟨hh.1, hgo hh.2⟩
  unfold lexAt at h
  split at h
  · cases h
    rw [List.append_nil]
    exact ⟨.eof hw, by intro r h; cases h⟩
  · rename_i a y
    have single : ∀ r, some y = some r → Moves q (a :: y) (bump q a) r := by
      intro r h; cases h; exact (Moves.refl _ _).cons
    split at h
    · rename_i ha; cases h; subst ha; exact ⟨.eol hw, single⟩
    split at h
    · rename_i ha
      injection h with h
      rcases comment_spec y (bump q a) with ⟨h1, h2, h3⟩ | ⟨t', r, h1, h2, h3, h4, h5⟩
      · rw [h] at h2 h3
        dsimp only at h2 h3
        subst h2
        rw [h3, ha]
        exact ⟨.eofComment hw h1, by intro r h; cases h⟩
      · rw [h] at h3 h4 h5
        dsimp only at h3 h4 h5
        subst h3
        rw [h4, ha, h1]
        refine ⟨.eolComment hw h2, ?_⟩
        intro r' hr
        cases hr
        rw [← h1, ← ha]
        exact h5.cons
    split at h
    · rename_i ha; cases h; subst ha; exact ⟨.assign hw, single⟩
    split at h
    · rename_i ha; cases h; subst ha; exact ⟨.left hw, single⟩
    split at h
    · rename_i ha; cases h; subst ha; exact ⟨.right hw, single⟩
    split at h
    · rename_i ha
      obtain ⟨st, e1, h⟩ := Out.bind_eq_ok.1 h
      obtain ⟨⟨st', r, p'⟩, e2, h⟩ := Out.bind_eq_ok.1 h
      cases h
      obtain ⟨n, h1, h2, h3, h4, h5⟩ := scanWhile_ok e2
      have hst : st.val = [] := by unfold strCreate at e1; split at e1 <;> cases e1; rfl
      rw [hst, List.nil_append] at h4
      dsimp only
      rw [h1, h4]
      refine ⟨.id hw ?_ h3, ?_⟩
      · cases n with
        | nil =>
          exfalso
          rw [List.nil_append] at h1
          exact h3 ⟨a, y, h1.symm, by unfold idChar; rw [ha]; rfl⟩
        | cons b n =>
          injection h1 with e1 e2
          subst e1
          refine ⟨a, n, rfl, ha, fun x hx => ?_⟩
          have := h2 x (List.mem_cons_of_mem _ hx)
          unfold idChar at this
          simp only [Bool.or_eq_true, decide_eq_true_eq] at this
          grind
      · intro r' hr
        cases hr
        rw [← h1]
        exact h5
    split at h
    · rename_i ha
      obtain ⟨st, e1, h⟩ := Out.bind_eq_ok.1 h
      obtain ⟨⟨st', r, p'⟩, e2, h⟩ := Out.bind_eq_ok.1 h
      cases h
      obtain ⟨n, h1, h2, h3, h4, h5⟩ := scanWhile_ok e2
      have hst : st.val = [] := by unfold strCreate at e1; split at e1 <;> cases e1; rfl
      rw [hst, List.nil_append] at h4
      dsimp only
      rw [h1, h4]
      refine ⟨.num hw ⟨?_, h2⟩ h3, ?_⟩
      · intro hn
        subst hn
        rw [List.nil_append] at h1
        exact h3 ⟨a, y, h1.symm, ha⟩
      · intro r' hr
        cases hr
        rw [← h1]
        exact h5
    split at h
    · rename_i ha
      obtain ⟨st, e1, h⟩ := Out.bind_eq_ok.1 h
      obtain ⟨⟨st', r, p'⟩, e2, h⟩ := Out.bind_eq_ok.1 h
      cases h
      obtain ⟨qq, h1, h2, h3, h4⟩ := scanQuote_ok e2
      have hst : st.val = [] := by unfold strCreate at e1; split at e1 <;> cases e1; rfl
      rw [hst, List.nil_append] at h3
      dsimp only
      rw [h3]
      rw [h1, ha]
      refine ⟨.quote hw (quotedAfter_zero.1 h2), ?_⟩
      intro r' hr
      cases hr
      rw [← h1, ← ha]
      exact h4.cons
    · cases h

theorem lex_pos (mem : Nat → Bool) (s : Bytes) (p : Pos) : ∃ w z, s = w ++ z ∧ Blank w ∧ ¬ Begins (fun c => c ≠ 0x0A ∧ isSpace c = true) z ∧
    (lex mem ⟨some s, p⟩).1 = tokenPos (adv p w) (peek z) := by
  unfold lex
  dsimp only
  obtain ⟨w, h1, h2, h3, h4⟩ := skipWs_spec s p
  exact ⟨w, _, h1, h2, h4, by rw [h3]⟩

theorem lex_ne_ub {mem : Nat → Bool} {s : Bytes} {p : Pos} : (lex mem ⟨some s, p⟩).2 ≠ .ub := by
  unfold lex
  dsimp only
  have hc : strCreate mem ≠ .ub := by unfold strCreate; split <;> simp
  unfold lexAt
  split
  · simp
  · iterate 5 (split; · simp)
    split
    · intro h
      rcases Out.bind_eq_ub.1 h with h | ⟨_, -, h⟩
      · exact hc h
      rcases Out.bind_eq_ub.1 h with h | ⟨_, -, h⟩
      · exact scanWhile_ne_ub _ _ _ h
      · cases h
    split
    · intro h
      rcases Out.bind_eq_ub.1 h with h | ⟨_, -, h⟩
      · exact hc h
      rcases Out.bind_eq_ub.1 h with h | ⟨_, -, h⟩
      · exact scanWhile_ne_ub _ _ _ h
      · cases h
    split
    · intro h
      rcases Out.bind_eq_ub.1 h with h | ⟨_, -, h⟩
      · exact hc h
      rcases Out.bind_eq_ub.1 h with h | ⟨_, -, h⟩
      · exact scanQuote_ne_ub _ _ _ _ h
      · cases h
    · simp

theorem alpha_facts {c : Byte} (h : isAlpha c = true) :
    c ≠ 0x0A ∧ isSpace c = false ∧ c ≠ 0x3B ∧ c ≠ 0x3D ∧ c ≠ 0x5B ∧ c ≠ 0x5D := by
  have := forall_byte (P := fun c => (!isAlpha c || (c != 0x0A && !isSpace c && c != 0x3B && c != 0x3D && c != 0x5B && c != 0x5D)) = true)
    (by decide +kernel) c
  simpa [h, and_assoc] using this

theorem digit_facts {c : Byte} (h : isDigit c = true) :
    c ≠ 0x0A ∧ isSpace c = false ∧ c ≠ 0x3B ∧ c ≠ 0x3D ∧ c ≠ 0x5B ∧ c ≠ 0x5D ∧ isAlpha c = false := by
  have := forall_byte (P := fun c =>
    (!isDigit c || (c != 0x0A && !isSpace c && c != 0x3B && c != 0x3D && c != 0x5B && c != 0x5D && !isAlpha c)) = true)
    (by decide +kernel) c
  simpa [h, and_assoc] using this

/-- The first token of a text is what the lexer returns, if there is memory. -/
theorem lex_mem {mem : Nat → Bool} (hm : ∀ n, mem n = true) {s : Bytes} {t : Token} {r : Option Bytes} (h : Lexes s t r) (p : Pos) :
    ∃ tp c, lex mem ⟨some s, p⟩ = (tp, .ok (t, c)) ∧ c.rest = r := by
  have hcr : strCreate mem = .ok ⟨[], 64, by decide⟩ := by unfold strCreate; rw [if_pos (hm _)]
  have go : ∀ {w x : Bytes}, Blank w → ¬ Begins (fun c => c ≠ 0x0A ∧ isSpace c = true) x →
      (∀ q, ∃ c, lexAt mem x q = .ok (t, c) ∧ c.rest = r) → ∃ tp c, lex mem ⟨some (w ++ x), p⟩ = (tp, .ok (t, c)) ∧ c.rest = r := by
    intro w x hw hx hq
    obtain ⟨p', e⟩ := skipWs_blank hw hx p
    obtain ⟨c, e1, e2⟩ := hq p'
    refine ⟨tokenPos p' (peek x), c, ?_, e2⟩
    unfold lex
    dsimp only
    rw [e]
    dsimp only
    rw [e1]
  have nb : ∀ {c : Byte} {y : Bytes}, (c = 0x0A ∨ isSpace c = false) → ¬ Begins (fun c => c ≠ 0x0A ∧ isSpace c = true) (c :: y) := by
    rintro c y h ⟨d, z, e, hd⟩
    cases e
    simp only [decide_eq_true_eq] at hd
    rcases h with h | h
    · exact hd.1 h
    · rw [h] at hd; exact absurd hd.2 (by decide)
  cases h with
  | eof hw =>
    have := go (x := []) hw (by rintro ⟨c, t, h, -⟩; cases h) (fun q => ⟨_, rfl, rfl⟩)
    rwa [List.append_nil] at this
  | @eofComment w t hw ht =>
    refine go hw (nb (Or.inr (by decide))) (fun q => ?_)
    unfold lexAt
    dsimp only
    rw [if_neg (by decide), if_pos rfl]
    rcases comment_spec t (bump q 0x3B) with ⟨h1, h2, h3⟩ | ⟨t', r, h1, -⟩
    · exact ⟨(comment t (bump q 0x3B)).2, by rw [← h2], h3⟩
    · exact absurd (by rw [h1]; simp) ht
  | @eol w r hw =>
    refine go hw (nb (Or.inl rfl)) (fun q => ⟨⟨some r, bump q 0x0A⟩, ?_, rfl⟩)
    unfold lexAt
    dsimp only
    rw [if_pos rfl]
  | @eolComment w t r hw ht =>
    refine go hw (nb (Or.inr (by decide))) (fun q => ?_)
    unfold lexAt
    dsimp only
    rw [if_neg (by decide), if_pos rfl]
    rcases comment_spec (t ++ 0x0A :: r) (bump q 0x3B) with ⟨h1, -⟩ | ⟨t', r', h1, h2, h3, h4, -⟩
    · exact absurd (by simp) h1
    · have e := cut_append r ht
      rw [h1, cut_append r' h2] at e
      injection e with e
      injection e with e1 e2
      exact ⟨(comment (t ++ 0x0A :: r) (bump q 0x3B)).2, by rw [← h3], by rw [h4, e2]⟩
  | @assign w r hw =>
    exact go hw (nb (Or.inr (by decide))) (fun q => ⟨_, rfl, rfl⟩)
  | @left w r hw =>
    exact go hw (nb (Or.inr (by decide))) (fun q => ⟨_, rfl, rfl⟩)
  | @right w r hw =>
    exact go hw (nb (Or.inr (by decide))) (fun q => ⟨_, rfl, rfl⟩)
  | @id w n r hw hn hr =>
    obtain ⟨c, u, rfl, hc, hu⟩ := hn
    have hf := alpha_facts hc
    refine go hw (nb (Or.inr hf.2.1)) (fun q => ?_)
    obtain ⟨st', p', e, hv⟩ := scanWhile_mem (f := idChar) hm (r := r) hr (c :: u) ⟨[], 64, by decide⟩ q (by
      intro x hx
      rcases List.mem_cons.1 hx with rfl | hx
      · unfold idChar; rw [hc]; rfl
      · unfold idChar
        simp only [Bool.or_eq_true, decide_eq_true_eq]
        have := hu x hx
        grind)
    refine ⟨⟨some r, p'⟩, ?_, rfl⟩
    unfold lexAt
    rw [List.cons_append] at e ⊢
    dsimp only
    rw [if_neg hf.1, if_neg hf.2.2.1, if_neg hf.2.2.2.1, if_neg hf.2.2.2.2.1, if_neg hf.2.2.2.2.2, if_pos hc, hcr, Out.bind_ok, e, Out.bind_ok, hv]
    rfl
  | @num w n r hw hn hr =>
    obtain ⟨hne, hd⟩ := hn
    obtain ⟨c, u, rfl⟩ := List.exists_cons_of_ne_nil hne
    have hc := hd c (by simp)
    have hf := digit_facts hc
    refine go hw (nb (Or.inr hf.2.1)) (fun q => ?_)
    obtain ⟨st', p', e, hv⟩ := scanWhile_mem (f := isDigit) hm (r := r) hr (c :: u) ⟨[], 64, by decide⟩ q hd
    refine ⟨⟨some r, p'⟩, ?_, rfl⟩
    unfold lexAt
    rw [List.cons_append] at e ⊢
    dsimp only
    rw [if_neg hf.1, if_neg hf.2.2.1, if_neg hf.2.2.2.1, if_neg hf.2.2.2.2.1, if_neg hf.2.2.2.2.2.1,
      if_neg (by rw [hf.2.2.2.2.2.2]; decide), if_pos hc, hcr, Out.bind_ok, e, Out.bind_ok, hv]
    rfl
  | @quote w q r hw hq =>
    refine go hw (nb (Or.inr (by decide))) (fun p0 => ?_)
    obtain ⟨st', p', e, hv⟩ := scanQuote_mem hm r q 0 ⟨[], 64, by decide⟩ (bump p0 0x22) (quotedAfter_zero.2 hq)
    refine ⟨⟨some r, p'⟩, ?_, rfl⟩
    unfold lexAt
    dsimp only
    rw [if_neg (by decide), if_neg (by decide), if_neg (by decide), if_neg (by decide), if_neg (by decide), if_neg (by decide), if_neg (by decide),
      if_pos rfl, hcr, Out.bind_ok, e, Out.bind_ok, hv]
    rfl

end FreeCoAP.Config
