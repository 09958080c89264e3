import Verif.Config.Lemmas
import Verif.Config.LemmasStore

/-!
# Lemmas on the parser of configurations
-/

namespace FreeCoAP.Config

theorem foldlM_append_err {mem : Nat → Bool} : ∀ {t : Bytes} {s : Str} {e : Err}, t.foldlM (strAppend mem) s = .err e → Short mem e
  | [], s, e, h => by rw [List.foldlM_nil] at h; cases h
  | c :: t, s, e, h => by
    rw [List.foldlM_cons] at h
    cases ha : strAppend mem s c with
    | ok s1 => rw [ha, Out.bind_ok] at h; exact foldlM_append_err h
    | err e' => rw [ha, Out.bind_err] at h; cases h; exact strAppend_err ha
    | ub => exact absurd ha (strAppend_ne_ub _ _ _)

theorem scanQuote_err {mem : Nat → Bool} : ∀ {s : Bytes} {pc : Byte} {st : Str} {p : Pos} {e : Err}, scanQuote mem pc st s p = .err e →
    Short mem e ∨ e = .ELEXICAL
  | [], pc, st, p, e, h => by cases h; exact Or.inr rfl
  | c :: s, pc, st, p, e, h => by
    unfold scanQuote at h
    split at h
    · cases h
    split at h
    · cases h; exact Or.inr rfl
    · cases ha : strAppend mem st c with
      | ok s1 => rw [ha, Out.bind_ok] at h; exact scanQuote_err h
      | err e' => rw [ha, Out.bind_err] at h; cases h; exact Or.inl (strAppend_err ha)
      | ub => exact absurd ha (strAppend_ne_ub _ _ _)

theorem scanQuote_all {mem : Nat → Bool} : ∀ {s : Bytes} {pc : Byte} {st : Str} {p : Pos}, scanQuote mem pc st s p = .err .ELEXICAL →
    ∀ st', scanQuote (fun _ => true) pc st' s p = .err .ELEXICAL
  | [], pc, st, p, h, st' => rfl
  | c :: s, pc, st, p, h, st' => by
    unfold scanQuote at h ⊢
    split at h
    · cases h
    rename_i h1
    rw [if_neg h1]
    split at h
    · rename_i h2
      rw [if_pos h2]
    · rename_i h2
      rw [if_neg h2]
      obtain ⟨s2, e2, -⟩ := strAppend_mem (mem := fun _ => true) (fun _ => rfl) st' c
      rw [e2, Out.bind_ok]
      cases ha : strAppend mem st c with
      | ok s1 => rw [ha, Out.bind_ok] at h; exact scanQuote_all h s2
      | err e' => rw [ha, Out.bind_err] at h; cases h; exact absurd (strAppend_err ha).1 (by decide)
      | ub => exact absurd ha (strAppend_ne_ub _ _ _)

theorem lexAt_err {mem : Nat → Bool} {s : Bytes} {p : Pos} {e : Err} (h : lexAt mem s p = .err e) :
    Short mem e ∨ (e = .ELEXICAL ∧ lexAt (fun _ => true) s p = .err .ELEXICAL) := by
  have hcr2 : strCreate mem ≠ .ub := by unfold strCreate; split <;> simp
  unfold lexAt at h ⊢
  split at h
  · cases h
  rename_i c t
  split at h
  · cases h
  rename_i h1; rw [if_neg h1]
  split at h
  · cases h
  rename_i h2; rw [if_neg h2]
  split at h
  · cases h
  rename_i h3; rw [if_neg h3]
  split at h
  · cases h
  rename_i h4; rw [if_neg h4]
  split at h
  · cases h
  rename_i h5; rw [if_neg h5]
  split at h
  · cases hc : strCreate mem with
    | ok st =>
      rw [hc, Out.bind_ok] at h
      cases hs : scanWhile mem idChar st (c :: t) p with
      | ok r => rw [hs, Out.bind_ok] at h; cases h
      | err e' => rw [hs, Out.bind_err] at h; cases h; exact Or.inl (scanWhile_err hs)
      | ub => exact absurd hs (scanWhile_ne_ub _ _ _)
    | err e' => rw [hc, Out.bind_err] at h; cases h; exact Or.inl (strCreate_err hc)
    | ub => exact absurd hc hcr2
  rename_i h6; rw [if_neg h6]
  split at h
  · cases hc : strCreate mem with
    | ok st =>
      rw [hc, Out.bind_ok] at h
      cases hs : scanWhile mem isDigit st (c :: t) p with
      | ok r => rw [hs, Out.bind_ok] at h; cases h
      | err e' => rw [hs, Out.bind_err] at h; cases h; exact Or.inl (scanWhile_err hs)
      | ub => exact absurd hs (scanWhile_ne_ub _ _ _)
    | err e' => rw [hc, Out.bind_err] at h; cases h; exact Or.inl (strCreate_err hc)
    | ub => exact absurd hc hcr2
  rename_i h7; rw [if_neg h7]
  split at h
  · rename_i h8; rw [if_pos h8]
    cases hc : strCreate mem with
    | ok st =>
      rw [hc, Out.bind_ok] at h
      cases hs : scanQuote mem 0 st t (bump p c) with
      | ok r => rw [hs, Out.bind_ok] at h; cases h
      | err e' =>
        rw [hs, Out.bind_err] at h
        cases h
        rcases scanQuote_err hs with he | he
        · exact Or.inl he
        · subst he
          refine Or.inr ⟨rfl, ?_⟩
          have : strCreate (fun _ => true) = .ok ⟨[], 64, by decide⟩ := rfl
          rw [this, Out.bind_ok, scanQuote_all hs, Out.bind_err]
      | ub => exact absurd hs (scanQuote_ne_ub _ _ _ _)
    | err e' => rw [hc, Out.bind_err] at h; cases h; exact Or.inl (strCreate_err hc)
    | ub => exact absurd hc hcr2
  rename_i h8; rw [if_neg h8]
  cases h
  exact Or.inr ⟨rfl, rfl⟩

/-- Errors of the lexer: there is no memory, or no token. -/
theorem lex_err {mem : Nat → Bool} {s : Bytes} {p tp : Pos} {e : Err} (h : lex mem ⟨some s, p⟩ = (tp, .err e)) :
    Short mem e ∨ (e = .ELEXICAL ∧ ∀ t r, ¬ Lexes s t r) := by
  unfold lex at h
  dsimp only at h
  replace h := (Prod.mk.inj h).2
  rcases lexAt_err h with he | ⟨he, h2⟩
  · exact Or.inl he
  · refine Or.inr ⟨he, fun t r hl => ?_⟩
    obtain ⟨tp, c, e1, -⟩ := lex_mem (mem := fun _ => true) (fun _ => rfl) hl p
    unfold lex at e1
    dsimp only at e1
    have := (Prod.mk.inj e1).2
    rw [h2] at this
    cases this

/-- The token and the rest are determined by the text. -/
theorem Lexes.det {s : Bytes} {t t' : Token} {r r' : Option Bytes} (h : Lexes s t r) (h' : Lexes s t' r') : t = t' ∧ r = r' := by
  obtain ⟨tp, c, e, hc⟩ := lex_mem (mem := fun _ => true) (fun _ => rfl) h ⟨1, 0⟩
  obtain ⟨tp', c', e', hc'⟩ := lex_mem (mem := fun _ => true) (fun _ => rfl) h' ⟨1, 0⟩
  rw [e] at e'
  injection e' with _ e'
  injection e' with e'
  injection e' with e1 e2
  subst e2
  exact ⟨e1, hc.symm.trans hc'⟩

theorem Lexes.suffix {s : Bytes} {t : Token} {r : Bytes} (h : Lexes s t (some r)) : ∃ a, s = a ++ r ∧ a ≠ [] := by
  cases h with
  | @eol w r hw => exact ⟨w ++ [0x0A], by simp, by simp⟩
  | @eolComment w t r hw ht => exact ⟨w ++ 0x3B :: (t ++ [0x0A]), by simp, by simp⟩
  | @assign w r hw => exact ⟨w ++ [0x3D], by simp, by simp⟩
  | @left w r hw => exact ⟨w ++ [0x5B], by simp, by simp⟩
  | @right w r hw => exact ⟨w ++ [0x5D], by simp, by simp⟩
  | @id w n r hw hn hr =>
    obtain ⟨c, u, rfl, -⟩ := hn
    exact ⟨w ++ c :: u, by simp, by simp⟩
  | @num w n r hw hn hr => exact ⟨w ++ n, by simp, by simp [hn.1]⟩
  | @quote w q r hw hq => exact ⟨w ++ 0x22 :: (q ++ [0x22]), by simp, by simp⟩

theorem Lexes.length {s : Bytes} {t : Token} {r : Bytes} (h : Lexes s t (some r)) : r.length < s.length := by
  obtain ⟨a, rfl, ha⟩ := h.suffix
  have := List.length_pos_iff.2 ha
  rw [List.length_append]
  omega

theorem Lexes.rest_some {s : Bytes} {t : Token} {r : Option Bytes} (h : Lexes s t r) (ht : t ≠ .eof) : ∃ x, r = some x := by
  cases h <;> first | exact ⟨_, rfl⟩ | exact absurd rfl ht

theorem Lexes.rest_none {s : Bytes} {r : Option Bytes} (h : Lexes s .eof r) : r = none := by
  cases h <;> rfl

theorem Lexes.ne_none {s : Bytes} {t : Token} {r : Option Bytes} (h : Lexes s t r) : t ≠ .none := by
  cases h <;> (intro h; cases h)

theorem Tokens.suffix {s : Bytes} {ts : List Token} {r : Bytes} (h : Tokens s ts r) : ∃ a, s = a ++ r := by
  induction h with
  | nil => exact ⟨[], rfl⟩
  | cons _ h1 _ ih =>
    obtain ⟨a, ha, -⟩ := h1.suffix
    obtain ⟨b, hb⟩ := ih
    exact ⟨a ++ b, by rw [ha, hb, List.append_assoc]⟩

theorem Tokens.snoc {s : Bytes} {ts : List Token} {r r' : Bytes} {t : Token} (h : Tokens s ts r) (ht : t ≠ .eol) (h' : Lexes r t (some r')) :
    Tokens s (ts ++ [t]) r' := by
  induction h with
  | nil => exact .cons ht h' .nil
  | cons h0 h1 _ ih => exact .cons h0 h1 (ih h')

theorem Lines.suffix {sec s : Bytes} {as : List Setting} {sec' r : Bytes} (h : Lines sec s as sec' r) : ∃ a, s = a ++ r := by
  induction h with
  | nil => exact ⟨[], rfl⟩
  | blank h1 _ ih =>
    obtain ⟨a, ha, -⟩ := h1.suffix
    obtain ⟨b, hb⟩ := ih
    exact ⟨a ++ b, by rw [ha, hb, List.append_assoc]⟩
  | assign h1 h2 _ ih =>
    obtain ⟨x, y, t, k1, k2, k3, -⟩ := h1
    obtain ⟨a1, ha1, -⟩ := k1.suffix
    obtain ⟨a2, ha2, -⟩ := k2.suffix
    obtain ⟨a3, ha3, -⟩ := k3.suffix
    obtain ⟨a4, ha4, -⟩ := h2.suffix
    obtain ⟨b, hb⟩ := ih
    exact ⟨a1 ++ (a2 ++ (a3 ++ (a4 ++ b))), by rw [ha1, ha2, ha3, ha4, hb]; simp⟩
  | heading h1 h2 _ ih =>
    obtain ⟨x, y, k1, k2, k3⟩ := h1
    obtain ⟨a1, ha1, -⟩ := k1.suffix
    obtain ⟨a2, ha2, -⟩ := k2.suffix
    obtain ⟨a3, ha3, -⟩ := k3.suffix
    obtain ⟨a4, ha4, -⟩ := h2.suffix
    obtain ⟨b, hb⟩ := ih
    exact ⟨a1 ++ (a2 ++ (a3 ++ (a4 ++ b))), by rw [ha1, ha2, ha3, ha4, hb]; simp⟩

/-! ## Steps of the parser -/

/-- What holds after a step that succeeds, or fails. -/
def Step.Post (r : Step) (Q : Parser → Prop) (E : Parser → Err → Prop) : Prop :=
  match r.2 with
  | .ok () => Q r.1
  | .err e => E r.1 e
  | .ub => False

theorem Step.Post.next {r : Step} {Q : Parser → Prop} {E : Parser → Err → Prop} {f : Parser → Step} {Q' : Parser → Prop}
    (h : r.Post Q E) (hf : ∀ p, Q p → (f p).Post Q' E) : (r.next f).Post Q' E := by
  obtain ⟨p, o⟩ := r
  cases o with
  | ok u => exact hf p h
  | err e => exact h
  | ub => exact h.elim

theorem Step.Post.mono {r : Step} {Q Q' : Parser → Prop} {E E' : Parser → Err → Prop} (h : r.Post Q E) (hq : ∀ p, Q p → Q' p)
    (he : ∀ p e, E p e → E' p e) : r.Post Q' E' := by
  obtain ⟨p, o⟩ := r
  cases o with
  | ok u => exact hq p h
  | err e => exact he p e h
  | ub => exact h.elim

/-- The position in the text `L` of the first token of its end `y`. -/
def Place (L : Bytes) (tp : Pos) (y : Bytes) : Prop :=
  ∃ q w z, Moves ⟨1, 0⟩ L q y ∧ y = w ++ z ∧ Blank w ∧ ¬ Begins (fun c => c ≠ 0x0A ∧ isSpace c = true) z ∧ tp = tokenPos (adv q w) (peek z)

/-- The first token of `x` was read. -/
structure At (L : Bytes) (x : Bytes) (p : Parser) : Prop where
  tok : Lexes x p.token p.cur.rest
  line : Place L p.tpos x
  rest : ∀ r, p.cur.rest = some r → Moves ⟨1, 0⟩ L p.cur.pos r

/-- `y` is to be read. -/
structure Ready (L : Bytes) (y : Bytes) (p : Parser) : Prop where
  rest : p.cur.rest = some y
  line : Moves ⟨1, 0⟩ L p.cur.pos y

theorem At.ready {L : Bytes} {x y : Bytes} {p : Parser} (h : At L x p) (hr : p.cur.rest = some y) : Ready L y p := ⟨hr, h.rest y hr⟩

/-- What the parser keeps of its state while it reads. -/
structure Keeps (p p' : Parser) : Prop where
  stack : p'.stack = p.stack
  sec : p'.sec = p.sec
  store : p'.store = p.store

theorem lexStep_post (mem : Nat → Bool) {L : Bytes} {y : Bytes} {p : Parser} (h : Ready L y p) :
    (lexStep mem p).Post (fun p' => At L y p' ∧ Keeps p p')
      (fun p' e => p'.store = p.store ∧ (Short mem e ∨ (e = .ELEXICAL ∧ (∀ t r, ¬ Lexes y t r) ∧ Place L p'.tpos y))) := by
  obtain ⟨⟨rest, pos⟩, tok, tpos, stack, sec, store⟩ := p
  obtain ⟨h1, h2⟩ := h
  dsimp only at h1 h2
  subst h1
  obtain ⟨w, z, w1, w2, w3, hl⟩ := lex_pos mem y pos
  have hpl : Place L (lex mem ⟨some y, pos⟩).1 y := ⟨pos, w, z, h2, w1, w2, w3, hl⟩
  have hu := lex_ne_ub (mem := mem) (s := y) (p := pos)
  unfold lexStep
  dsimp only
  generalize hr : lex mem ⟨some y, pos⟩ = r at hpl hu
  obtain ⟨tp, o⟩ := r
  cases o with
  | ok tc =>
    obtain ⟨t, c⟩ := tc
    obtain ⟨k1, k2⟩ := lex_ok hr
    exact ⟨⟨k1, hpl, fun r hr => h2.trans (k2 r hr)⟩, rfl, rfl, rfl⟩
  | err e =>
    refine ⟨rfl, ?_⟩
    rcases lex_err hr with he | ⟨he, hn⟩
    · exact Or.inl he
    · exact Or.inr ⟨he, hn, hpl⟩
  | ub => exact hu rfl

/-- Tokens were read, and the first token after them. -/
def Good (L : Bytes) (x : Bytes) (st : Store) (sec : Bytes) (ts : List Token) (stack : List Bytes) (p : Parser) : Prop :=
  ∃ y, Tokens x ts y ∧ At L y p ∧ p.store = st ∧ p.sec.val = sec ∧ p.stack = stack

/-- What the parser leaves when the statement at `x` is wrong. -/
def Bad (mem : Nat → Bool) (L : Bytes) (x : Bytes) (st : Store) (sec : Bytes) (p : Parser) (e : Err) : Prop :=
  (p.store = st ∨ ∃ n v r, Assigns x n v r ∧ p.store = (set mem st sec n v).1) ∧
  (Short mem e ∨ ((e = .ELEXICAL ∨ e = .ESYNTAX) ∧ ∃ ts y, Tokens x ts y ∧ Fits ts ∧
    (∀ t r, Lexes y t r → ¬ Fits (ts ++ [t])) ∧ (e = .ELEXICAL ↔ ∀ t r, ¬ Lexes y t r) ∧ Place L p.tpos y))

variable {mem : Nat → Bool} {L : Bytes} {x : Bytes} {st : Store} {sec : Bytes}

/-- Reading one more token. -/
theorem lexStep_good {ts : List Token} {stack : List Bytes} {p : Parser} (h : Good L x st sec ts stack p) (h1 : p.token ≠ .eol)
    (h2 : p.token ≠ .eof) (hf : Fits (ts ++ [p.token])) :
    (lexStep mem p).Post (Good L x st sec (ts ++ [p.token]) stack) (Bad mem L x st sec) := by
  obtain ⟨y, k1, k2, k3, k4, k5⟩ := h
  obtain ⟨z, hz⟩ := k2.tok.rest_some h2
  have hz' : Lexes y p.token (some z) := hz ▸ k2.tok
  have ht := k1.snoc h1 hz'
  refine (lexStep_post mem (k2.ready hz)).mono ?_ ?_
  · rintro p' ⟨a, b⟩
    exact ⟨z, ht, a, b.store.trans k3, (congrArg Str.val b.sec).trans k4, b.stack.trans k5⟩
  · rintro p' e ⟨a, b⟩
    refine ⟨Or.inl (a.trans k3), ?_⟩
    rcases b with b | ⟨b, c, d⟩
    · exact Or.inl b
    · refine Or.inr ⟨Or.inl b, _, z, ht, hf, fun t r hl => absurd hl (c t r), ?_, d⟩
      exact ⟨fun _ => c, fun _ => b⟩

theorem push_good {ts : List Token} {stack : List Bytes} {p : Parser} (s : Bytes) (h : Good L x st sec ts stack p) :
    (push mem s p).Post (fun p' => Good L x st sec ts (s :: stack) p' ∧ p'.token = p.token) (Bad mem L x st sec) := by
  obtain ⟨y, k1, k2, k3, k4, k5⟩ := h
  unfold push
  split
  · exact ⟨⟨y, k1, ⟨k2.tok, k2.line, k2.rest⟩, k3, k4, by rw [← k5]⟩, rfl⟩
  · rename_i hm
    refine ⟨Or.inl k3, Or.inl ⟨rfl, ?_⟩⟩
    simp only [Bool.and_eq_true, not_and, room] at hm
    by_cases h16 : mem 16 = true
    · exact ⟨_, by simpa using hm h16⟩
    · exact ⟨_, by simpa using h16⟩

theorem bad_syntax {ts : List Token} {stack : List Bytes} {p : Parser} (h : Good L x st sec ts stack p) (hf : Fits ts)
    (hn : ¬ Fits (ts ++ [p.token])) : Bad mem L x st sec p .ESYNTAX := by
  obtain ⟨y, k1, k2, k3, k4, k5⟩ := h
  refine ⟨Or.inl k3, Or.inr ⟨Or.inr rfl, ts, y, k1, hf, ?_, ?_, k2.line⟩⟩
  · intro t r hl
    rw [(hl.det k2.tok).1]
    exact hn
  · constructor
    · intro h; cases h
    · intro h; exact absurd k2.tok (h _ _)

theorem name_good {ts : List Token} {stack : List Bytes} {p : Parser} (h : Good L x st sec ts stack p) (hf : Fits ts)
    (hi : ∀ n, Fits (ts ++ [.id n])) (hn : ∀ t, (∀ n, t ≠ .id n) → ¬ Fits (ts ++ [t])) :
    (name mem p).Post (fun p' => ∃ n, Good L x st sec (ts ++ [.id n]) (n :: stack) p') (Bad mem L x st sec) := by
  unfold name
  split
  · rename_i s ht
    refine Step.Post.next (push_good s h) ?_
    rintro p' ⟨a, b⟩
    have hp : p'.token = .id s := b.trans ht
    have := lexStep_good (mem := mem) a (by rw [hp]; simp) (by rw [hp]; simp) (by rw [hp]; exact hi s)
    rw [hp] at this
    exact this.mono (fun p'' h => ⟨s, h⟩) (fun _ _ h => h)
  · rename_i ht
    exact bad_syntax h hf (hn _ (fun n hn => ht n hn))

theorem value_good {ts : List Token} {stack : List Bytes} {p : Parser} (h : Good L x st sec ts stack p) (hf : Fits ts)
    (hi : ∀ t v, IsValue t v → Fits (ts ++ [t])) (hn : ∀ t, (∀ v, ¬ IsValue t v) → ¬ Fits (ts ++ [t])) :
    (value mem p).Post (fun p' => ∃ t v, IsValue t v ∧ Good L x st sec (ts ++ [t]) (v :: stack) p') (Bad mem L x st sec) := by
  have go : ∀ t v, IsValue t v → t ≠ .eol → t ≠ .eof → p.token = t → ((push mem v p).next (lexStep mem)).Post
      (fun p' => ∃ t v, IsValue t v ∧ Good L x st sec (ts ++ [t]) (v :: stack) p') (Bad mem L x st sec) := by
    intro t v hv h1 h2 ht
    refine Step.Post.next (push_good v h) ?_
    rintro p' ⟨a, b⟩
    have hp : p'.token = t := b.trans ht
    have := lexStep_good (mem := mem) a (by rw [hp]; exact h1) (by rw [hp]; exact h2) (by rw [hp]; exact hi t v hv)
    rw [hp] at this
    exact this.mono (fun p'' h => ⟨t, v, hv, h⟩) (fun _ _ h => h)
  unfold value
  split
  · rename_i s ht; exact go _ s .id (by simp) (by simp) ht
  · rename_i s ht; exact go _ s .num (by simp) (by simp) ht
  · rename_i s ht; exact go _ s .quote (by simp) (by simp) ht
  · rename_i h1 h2 h3
    refine bad_syntax h hf (hn _ ?_)
    intro v hv
    generalize hq : p.token = t at hv
    cases hv
    · exact h1 _ hq
    · exact h2 _ hq
    · exact h3 _ hq

/-! ## Which tokens fit -/

theorem fits_nil : Fits [] := ⟨[.eol], .blank (Or.inl rfl)⟩
theorem fits_id (n : Bytes) : Fits [.id n] := ⟨[.assign, .num n, .eol], .assign .num (Or.inl rfl)⟩
theorem fits_id_assign (n : Bytes) : Fits [.id n, .assign] := ⟨[.num n, .eol], .assign .num (Or.inl rfl)⟩
theorem fits_id_assign_value (n : Bytes) {t : Token} {v : Bytes} (h : IsValue t v) : Fits [.id n, .assign, t] := ⟨[.eol], .assign h (Or.inl rfl)⟩
theorem fits_left : Fits [.left] := ⟨[.id [], .right, .eol], .heading (Or.inl rfl)⟩
theorem fits_left_id (n : Bytes) : Fits [.left, .id n] := ⟨[.right, .eol], .heading (Or.inl rfl)⟩
theorem fits_left_id_right (n : Bytes) : Fits [.left, .id n, .right] := ⟨[.eol], .heading (Or.inl rfl)⟩

theorem not_fits {t : Token} (h1 : ¬ Ends t) (h2 : ∀ n, t ≠ .id n) (h3 : t ≠ .left) : ¬ Fits [t] := by
  rintro ⟨us, h⟩
  rw [List.singleton_append] at h
  generalize hq : t :: us = l at h
  cases h with
  | blank he => injection hq with e _; exact h1 (e ▸ he)
  | assign _ _ => injection hq with e _; exact h2 _ e
  | heading _ => injection hq with e _; exact h3 e

theorem not_fits_id {n : Bytes} {t : Token} (h1 : t ≠ .assign) : ¬ Fits [.id n, t] := by
  rintro ⟨us, h⟩
  generalize hq : [Token.id n, t] ++ us = l at h
  cases h with
  | blank he => injection hq with _ e; cases e
  | assign _ _ => injection hq with _ e; injection e with e _; exact h1 e
  | heading _ => injection hq with e _; cases e

theorem not_fits_id_assign {n : Bytes} {t : Token} (h1 : ∀ v, ¬ IsValue t v) : ¬ Fits [.id n, .assign, t] := by
  rintro ⟨us, h⟩
  generalize hq : [Token.id n, .assign, t] ++ us = l at h
  cases h with
  | blank he => injection hq with _ e; cases e
  | assign hv _ => injection hq with _ e; injection e with _ e; injection e with e _; exact h1 _ (e ▸ hv)
  | heading _ => injection hq with e _; cases e

theorem not_fits_id_assign_value {n : Bytes} {u t : Token} (h1 : ¬ Ends t) : ¬ Fits [.id n, .assign, u, t] := by
  rintro ⟨us, h⟩
  generalize hq : [Token.id n, .assign, u, t] ++ us = l at h
  cases h with
  | blank he => injection hq with _ e; cases e
  | assign hv he => injection hq with _ e; injection e with _ e; injection e with _ e; injection e with e _; exact h1 (e ▸ he)
  | heading _ => injection hq with e _; cases e

theorem not_fits_left {t : Token} (h1 : ∀ n, t ≠ .id n) : ¬ Fits [.left, t] := by
  rintro ⟨us, h⟩
  generalize hq : [Token.left, t] ++ us = l at h
  cases h with
  | blank he => injection hq with _ e; cases e
  | assign _ _ => injection hq with e _; cases e
  | heading _ => injection hq with _ e; injection e with e _; exact h1 _ e

theorem not_fits_left_id {n : Bytes} {t : Token} (h1 : t ≠ .right) : ¬ Fits [.left, .id n, t] := by
  rintro ⟨us, h⟩
  generalize hq : [Token.left, .id n, t] ++ us = l at h
  cases h with
  | blank he => injection hq with _ e; cases e
  | assign _ _ => injection hq with e _; cases e
  | heading _ => injection hq with _ e; injection e with _ e; injection e with e _; exact h1 e

theorem not_fits_left_id_right {n : Bytes} {u t : Token} (h1 : ¬ Ends t) : ¬ Fits [.left, .id n, u, t] := by
  rintro ⟨us, h⟩
  generalize hq : [Token.left, .id n, u, t] ++ us = l at h
  cases h with
  | blank he => injection hq with _ e; cases e
  | assign _ _ => injection hq with e _; cases e
  | heading he => injection hq with _ e; injection e with _ e; injection e with _ e; injection e with e _; exact h1 (e ▸ he)

/-! ## Statements -/

theorem tokens_assign {n : Bytes} {t : Token} {v y : Bytes} (h : Tokens x [.id n, .assign, t] y) (hv : IsValue t v) : Assigns x n v y := by
  cases h with
  | cons _ h1 h =>
    cases h with
    | cons _ h2 h =>
      cases h with
      | cons _ h3 h =>
        cases h
        exact ⟨_, _, _, h1, h2, h3, hv⟩

theorem tokens_heads {n y : Bytes} (h : Tokens x [.left, .id n, .right] y) : Heads x n y := by
  cases h with
  | cons _ h1 h =>
    cases h with
    | cons _ h2 h =>
      cases h with
      | cons _ h3 h =>
        cases h
        exact ⟨_, _, h1, h2, h3⟩

/-- After an assignment. -/
def Assigned (mem : Nat → Bool) (L : Bytes) (x : Bytes) (st : Store) (sec : Bytes) (p : Parser) : Prop :=
  ∃ n v y, Assigns x n v y ∧ At L y p ∧ (set mem st sec n v).2 = true ∧ p.store = (set mem st sec n v).1 ∧ p.sec.val = sec ∧ p.stack = []

theorem assignment_good {p : Parser} (h : Good L x st sec [] [] p) (ht : ∃ n, p.token = .id n) :
    (assignment mem p).Post (fun p' => Assigned mem L x st sec p' ∧ (¬ Ends p'.token → ∀ q, q.tpos = p'.tpos → q.store = p'.store → Bad mem L x st sec q .ESYNTAX))
      (Bad mem L x st sec) := by
  unfold assignment
  have hname : (name mem p).Post (fun p' => ∃ n, Good L x st sec [.id n] [n] p') (Bad mem L x st sec) := by
    obtain ⟨n, hn⟩ := ht
    unfold name
    rw [hn]
    dsimp only
    refine Step.Post.next (push_good n h) ?_
    rintro p' ⟨a, b⟩
    have hp : p'.token = .id n := b.trans hn
    have := lexStep_good (mem := mem) a (by rw [hp]; simp) (by rw [hp]; simp) (by rw [hp]; exact fits_id n)
    rw [hp] at this
    exact this.mono (fun p'' h => ⟨n, h⟩) (fun _ _ h => h)
  refine hname.next ?_
  rintro p1 ⟨n, g1⟩
  split
  · rename_i h1
    have := lexStep_good (mem := mem) g1 (by rw [h1]; simp) (by rw [h1]; simp) (by rw [h1]; exact fits_id_assign n)
    rw [h1] at this
    refine this.next ?_
    intro p2 g2
    refine (value_good g2 (fits_id_assign n) (fun t v hv => fits_id_assign_value n hv) (fun t h => not_fits_id_assign h)).next ?_
    rintro p3 ⟨t, v, hv, y, k1, k2, k3, k4, k5⟩
    have ha : Assigns x n v y := tokens_assign k1 hv
    unfold assign
    rw [k5]
    dsimp only
    rw [k3, k4]
    cases hs : (set mem st sec n v).2 with
    | true =>
      rw [if_pos rfl]
      refine ⟨⟨n, v, y, ha, ⟨k2.tok, k2.line, k2.rest⟩, hs, rfl, k4, rfl⟩, ?_⟩
      intro hne q hq1 hq2
      refine ⟨Or.inr ⟨n, v, y, ha, hq2⟩, Or.inr ⟨Or.inr rfl, _, y, k1, fits_id_assign_value n hv, ?_, ?_, ?_⟩⟩
      · intro t' r hl
        rw [(hl.det k2.tok).1]
        exact not_fits_id_assign_value hne
      · constructor
        · intro h; cases h
        · intro h; exact absurd k2.tok (h _ _)
      · rw [hq1]; exact k2.line
    | false =>
      rw [if_neg (by decide)]
      refine ⟨Or.inr ⟨n, v, y, ha, rfl⟩, Or.inl ⟨rfl, ?_⟩⟩
      apply Classical.byContradiction
      intro hno
      rw [set_mem (fun k => by simpa using fun hk => hno ⟨k, hk⟩)] at hs
      cases hs
  · rename_i h1
    exact bad_syntax g1 (fits_id n) (not_fits_id h1)

/-- After a heading. -/
def Headed (L : Bytes) (x : Bytes) (st : Store) (p : Parser) : Prop :=
  ∃ n y, Heads x n y ∧ At L y p ∧ p.store = st ∧ p.sec.val = n ∧ p.stack = []

theorem enter_post {L : Bytes} {n : Bytes} {p : Parser} {y : Bytes} (h1 : At L y p) (h2 : p.stack = [n]) :
    (enter mem p).Post (fun p' => At L y p' ∧ p'.store = p.store ∧ p'.sec.val = n ∧ p'.stack = [] ∧ p'.token = p.token)
      (fun p' e => p'.store = p.store ∧ Short mem e) := by
  unfold enter
  rw [h2]
  dsimp only
  unfold strCopy
  cases hc : n.foldlM (strAppend mem) ⟨[], p.sec.len, Nat.zero_le _, p.sec.fits.2⟩ with
  | ok s => exact ⟨⟨h1.tok, h1.line, h1.rest⟩, rfl, by simpa using foldlM_append_ok hc, rfl, rfl⟩
  | err e => exact ⟨rfl, foldlM_append_err hc⟩
  | ub => exact absurd hc (foldlM_append_ne_ub _ _)

theorem heading_good {p : Parser} (h : Good L x st sec [] [] p) (ht : p.token = .left) :
    (heading mem p).Post (fun p' => Headed L x st p' ∧ (¬ Ends p'.token → ∀ q, q.tpos = p'.tpos → q.store = p'.store → Bad mem L x st sec q .ESYNTAX))
      (Bad mem L x st sec) := by
  unfold heading
  have := lexStep_good (mem := mem) h (by rw [ht]; simp) (by rw [ht]; simp) (by rw [ht]; exact fits_left)
  rw [ht] at this
  refine this.next ?_
  intro p1 g1
  refine (name_good g1 fits_left (fun n => fits_left_id n) (fun t h => not_fits_left h)).next ?_
  rintro p2 ⟨n, g2⟩
  split
  · rename_i h1
    obtain ⟨y, k1, k2, k3, k4, k5⟩ := g2
    have hpost := enter_post (mem := mem) k2 k5
    have hpost' := hpost.mono (Q' := fun p' => At L y p' ∧ p'.store = p2.store ∧ p'.sec.val = n ∧ p'.stack = [] ∧ p'.token = p2.token)
      (E' := Bad mem L x st sec) (fun _ h => h) (fun p' e h => ⟨Or.inl (h.1.trans k3), Or.inl h.2⟩)
    refine hpost'.next ?_
    rintro p3 ⟨a1, a2, a3, a4, a5⟩
    have ht3 : p3.token = .right := a5.trans h1
    obtain ⟨z, hz⟩ := a1.tok.rest_some (by rw [ht3]; simp)
    have hlex : Lexes y .right (some z) := by
      have := a1.tok
      rwa [ht3, hz] at this
    have htok : Tokens x [.left, .id n, .right] z := k1.snoc (by simp) hlex
    refine (lexStep_post mem (a1.ready hz)).mono ?_ ?_
    · rintro p4 ⟨b1, b2⟩
      refine ⟨⟨n, z, tokens_heads htok, b1, b2.store.trans (a2.trans k3), (congrArg Str.val b2.sec).trans a3, b2.stack.trans a4⟩, ?_⟩
      intro hne q hq1 hq2
      refine ⟨Or.inl (hq2.trans (b2.store.trans (a2.trans k3))), Or.inr ⟨Or.inr rfl, _, z, htok, fits_left_id_right n, ?_, ?_, ?_⟩⟩
      · intro t' r hl
        rw [(hl.det b1.tok).1]
        exact not_fits_left_id_right hne
      · constructor
        · intro h; cases h
        · intro h; exact absurd b1.tok (h _ _)
      · rw [hq1]; exact b1.line
    · rintro p4 e ⟨b1, b2⟩
      refine ⟨Or.inl (b1.trans (a2.trans k3)), ?_⟩
      rcases b2 with b | ⟨b, c, d⟩
      · exact Or.inl b
      · exact Or.inr ⟨Or.inl b, _, z, htok, fits_left_id_right n, fun t r hl => absurd hl (c t r), ⟨fun _ => c, fun _ => b⟩, d⟩
  · rename_i h1
    exact bad_syntax g2 (fits_left_id n) (not_fits_left_id h1)

theorem expression_good {p : Parser} (h : Good L x st sec [] [] p) (h1 : p.token ≠ .eol) (h2 : p.token ≠ .eof) :
    (expression mem p).Post (fun p' => Ends p'.token ∧ (Assigned mem L x st sec p' ∨ Headed L x st p')) (Bad mem L x st sec) := by
  unfold expression
  have key : (match p.token with
    | .id _ => assignment mem p
    | .left => heading mem p
    | _ => (p, .ok ())).Post (fun p' => (Ends p'.token → Assigned mem L x st sec p' ∨ Headed L x st p') ∧
      (¬ Ends p'.token → Bad mem L x st sec p' .ESYNTAX)) (Bad mem L x st sec) := by
    split
    · rename_i s ht
      exact (assignment_good h ⟨s, ht⟩).mono (fun p' k => ⟨fun _ => Or.inl k.1, fun hn => k.2 hn p' rfl rfl⟩) (fun _ _ k => k)
    · rename_i ht
      exact (heading_good h ht).mono (fun p' k => ⟨fun _ => Or.inr k.1, fun hn => k.2 hn p' rfl rfl⟩) (fun _ _ k => k)
    · rename_i k1 k2
      have hn : ¬ Ends p.token := by
        rintro (k | k)
        · exact h1 k
        · exact h2 k
      exact ⟨fun k => absurd k hn, fun _ => bad_syntax h fits_nil (not_fits hn (fun n => k1 n) k2)⟩
  refine key.next ?_
  rintro p' ⟨a, b⟩
  split
  · rename_i ht; exact ⟨Or.inr ht, a (Or.inr ht)⟩
  · rename_i ht; exact ⟨Or.inl ht, a (Or.inl ht)⟩
  · rename_i k1 k2
    exact b (fun k => k.elim k2 k1)

/-! ## The text -/

/-- The settings are made in order, and succeed. -/
inductive Applied (mem : Nat → Bool) : Store → List Setting → Store → Prop where
  | nil {st : Store} : Applied mem st [] st
  | cons {st st' : Store} {a : Setting} {as : List Setting} : (set mem st a.sec a.name a.value).2 = true →
    Applied mem (set mem st a.sec a.name a.value).1 as st' → Applied mem st (a :: as) st'

/-- What the loop leaves. -/
inductive Outcome (mem : Nat → Bool) (L : Bytes) (sec s : Bytes) (st : Store) : Step → Prop where
  | done {as : List Setting} {sec' r : Bytes} {p : Parser} : Lines sec s as sec' r → Lexes r .eof none → Applied mem st as p.store →
    Outcome mem L sec s st (p, .ok ())
  | wrong {as : List Setting} {sec' r : Bytes} {p : Parser} {e : Err} {st' : Store} : Lines sec s as sec' r → Applied mem st as st' →
    Bad mem L r st' sec' p e → Outcome mem L sec s st (p, .err e)
  | beyond {as : List Setting} {sec' r r' : Bytes} {p : Parser} : Lines sec s as sec' r →
    ((∃ n v, Assigns r n v r') ∨ (∃ n, Heads r n r')) → Lexes r' .eof none → Outcome mem L sec s st (p, .ub)

theorem Assigns.length {s n v r : Bytes} (h : Assigns s n v r) : r.length < s.length := by
  obtain ⟨x, y, t, k1, k2, k3, -⟩ := h
  have := k1.length
  have := k2.length
  have := k3.length
  omega

theorem Heads.length {s n r : Bytes} (h : Heads s n r) : r.length < s.length := by
  obtain ⟨x, y, k1, k2, k3⟩ := h
  have := k1.length
  have := k2.length
  have := k3.length
  omega

theorem exec_none (fuel : Nat) {p : Parser} (h : p.cur.rest = none) : exec mem fuel p = (p, .ub) := by
  cases fuel with
  | zero => rfl
  | succ fuel =>
    unfold exec
    have : lexStep mem p = (p, .ub) := by
      unfold lexStep lex
      rw [h]
    rw [this]
    rfl

theorem exec_outcome : ∀ (fuel : Nat) {p : Parser} {y : Bytes}, Ready L y p → p.stack = [] → y.length < fuel →
    Outcome mem L p.sec.val y p.store (exec mem fuel p)
  | 0, p, y, _, _, hl => absurd hl (by omega)
  | fuel + 1, p, y, h, hs, hl => by
    unfold exec
    have hp := lexStep_post mem h
    generalize lexStep mem p = k at hp
    obtain ⟨p1, o⟩ := k
    cases o with
    | ub => exact hp.elim
    | err e =>
      obtain ⟨a, b⟩ := hp
      dsimp only at a b
      refine .wrong .nil .nil ⟨Or.inl a, ?_⟩
      rcases b with b | ⟨b, c, d⟩
      · exact Or.inl b
      · exact Or.inr ⟨Or.inl b, [], y, .nil, fits_nil, fun t r hl => absurd hl (c t r), ⟨fun _ => c, fun _ => b⟩, d⟩
    | ok u =>
      cases u
      obtain ⟨a, b⟩ := hp
      dsimp only at a b
      change Outcome mem L p.sec.val y p.store (match p1.token with
        | .eol => exec mem fuel p1
        | .eof => (p1, .ok ())
        | _ => (expression mem p1).next (exec mem fuel))
      rw [← congrArg Str.val b.sec, ← b.store]
      have hs1 : p1.stack = [] := b.stack.trans hs
      split
      · rename_i ht
        have hlex := a.tok
        rw [ht] at hlex
        obtain ⟨z, hz⟩ := hlex.rest_some (by simp)
        rw [hz] at hlex
        have := exec_outcome fuel (a.ready hz) hs1 (by have := hlex.length; omega)
        generalize exec mem fuel p1 = res at this
        cases this with
        | done k1 k2 k3 => exact .done (.blank hlex k1) k2 k3
        | wrong k1 k2 k3 => exact .wrong (.blank hlex k1) k2 k3
        | beyond k1 k2 k3 => exact .beyond (.blank hlex k1) k2 k3
      · rename_i ht
        have hlex := a.tok
        rw [ht] at hlex
        rw [hlex.rest_none] at hlex
        exact .done .nil hlex .nil
      · rename_i h1 h2
        have hg : Good L y p1.store p1.sec.val [] [] p1 := ⟨y, .nil, a, rfl, rfl, hs1⟩
        have hx := expression_good (mem := mem) hg h1 h2
        generalize expression mem p1 = k at hx
        obtain ⟨p2, o⟩ := k
        cases o with
        | ub => exact hx.elim
        | err e => exact .wrong .nil .nil hx
        | ok u =>
          cases u
          obtain ⟨he, hx⟩ := hx
          dsimp only at he hx
          change Outcome mem L p1.sec.val y p1.store (exec mem fuel p2)
          rcases hx with ⟨n, v, z, k1, k2, k3, k4, k5, k6⟩ | ⟨n, z, k1, k2, k4, k5, k6⟩
          · rcases he with he | he
            · have hlex := k2.tok
              rw [he] at hlex
              obtain ⟨z', hz⟩ := hlex.rest_some (by simp)
              rw [hz] at hlex
              have := exec_outcome fuel (k2.ready hz) k6 (by have := hlex.length; have := k1.length; omega)
              generalize exec mem fuel p2 = res at this
              rw [k5, k4] at this
              cases this with
              | done l1 l2 l3 => exact .done (.assign k1 hlex l1) l2 (.cons (a := ⟨p1.sec.val, n, v⟩) k3 l3)
              | wrong l1 l2 l3 => exact .wrong (.assign k1 hlex l1) (.cons (a := ⟨p1.sec.val, n, v⟩) k3 l2) l3
              | beyond l1 l2 l3 => exact .beyond (.assign k1 hlex l1) l2 l3
            · have hlex := k2.tok
              rw [he] at hlex
              have hn := hlex.rest_none
              rw [hn] at hlex
              rw [exec_none fuel hn]
              exact .beyond .nil (Or.inl ⟨n, v, k1⟩) hlex
          · rcases he with he | he
            · have hlex := k2.tok
              rw [he] at hlex
              obtain ⟨z', hz⟩ := hlex.rest_some (by simp)
              rw [hz] at hlex
              have := exec_outcome fuel (k2.ready hz) k6 (by have := hlex.length; have := k1.length; omega)
              generalize exec mem fuel p2 = res at this
              rw [k5, k4] at this
              cases this with
              | done l1 l2 l3 => exact .done (.heading k1 hlex l1) l2 l3
              | wrong l1 l2 l3 => exact .wrong (.heading k1 hlex l1) l2 l3
              | beyond l1 l2 l3 => exact .beyond (.heading k1 hlex l1) l2 l3
            · have hlex := k2.tok
              rw [he] at hlex
              have hn := hlex.rest_none
              rw [hn] at hlex
              rw [exec_none fuel hn]
              exact .beyond .nil (Or.inr ⟨n, k1⟩) hlex

end FreeCoAP.Config
