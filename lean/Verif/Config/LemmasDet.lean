import Verif.Config.LemmasParse

/-!
# The grammar of configurations is deterministic
-/

namespace FreeCoAP.Config

/-- At the start of a text there is no complete line. -/
structure Halted (r : Bytes) : Prop where
  blank : ∀ x, ¬ Lexes r .eol (some x)
  assign : ∀ n v x y, Assigns r n v x → ¬ Lexes x .eol (some y)
  heading : ∀ n x y, Heads r n x → ¬ Lexes x .eol (some y)

theorem Assigns.det {s n v r n' v' r' : Bytes} (h : Assigns s n v r) (h' : Assigns s n' v' r') : n = n' ∧ v = v' ∧ r = r' := by
  obtain ⟨x, y, t, a1, a2, a3, a4⟩ := h
  obtain ⟨x', y', t', b1, b2, b3, b4⟩ := h'
  obtain ⟨e1, e2⟩ := a1.det b1
  injection e1 with e1
  injection e2 with e2
  subst e1 e2
  obtain ⟨-, e2⟩ := a2.det b2
  injection e2 with e2
  subst e2
  obtain ⟨e1, e2⟩ := a3.det b3
  injection e2 with e2
  subst e1 e2
  refine ⟨rfl, ?_, rfl⟩
  cases a4 <;> cases b4 <;> rfl

theorem Heads.det {s n r n' r' : Bytes} (h : Heads s n r) (h' : Heads s n' r') : n = n' ∧ r = r' := by
  obtain ⟨x, y, a1, a2, a3⟩ := h
  obtain ⟨x', y', b1, b2, b3⟩ := h'
  obtain ⟨-, e2⟩ := a1.det b1
  injection e2 with e2
  subst e2
  obtain ⟨e1, e2⟩ := a2.det b2
  injection e1 with e1
  injection e2 with e2
  subst e1 e2
  obtain ⟨-, e2⟩ := a3.det b3
  injection e2 with e2
  exact ⟨rfl, e2⟩

theorem Assigns.first {s n v r : Bytes} {t : Token} {x : Option Bytes} (h : Assigns s n v r) (h' : Lexes s t x) : t = .id n := by
  obtain ⟨_, _, _, a1, -⟩ := h
  exact (h'.det a1).1

theorem Heads.first {s n r : Bytes} {t : Token} {x : Option Bytes} (h : Heads s n r) (h' : Lexes s t x) : t = .left := by
  obtain ⟨_, _, a1, -⟩ := h
  exact (h'.det a1).1

theorem Heads.not_assigns {s n r n' v r' : Bytes} (h : Heads s n r) (h' : Assigns s n' v r') : False := by
  obtain ⟨_, _, _, a1, -⟩ := h'
  cases h.first a1

theorem halted_eof {r : Bytes} {x : Option Bytes} (h : Lexes r .eof x) : Halted r := by
  refine ⟨fun y hy => ?_, fun n v y z hy _ => ?_, fun n y z hy _ => ?_⟩
  · cases (h.det hy).1
  · cases hy.first h
  · cases hy.first h

theorem halted_assigns {r n v r' : Bytes} {x : Option Bytes} (h : Assigns r n v r') (he : Lexes r' .eof x) : Halted r := by
  refine ⟨fun y hy => ?_, fun n' v' y z hy hz => ?_, fun n' y z hy _ => ?_⟩
  · cases h.first hy
  · rw [(hy.det h).2.2] at hz
    cases (hz.det he).1
  · exact hy.not_assigns h

theorem halted_heads {r n r' : Bytes} {x : Option Bytes} (h : Heads r n r') (he : Lexes r' .eof x) : Halted r := by
  refine ⟨fun y hy => ?_, fun n' v' y z hy hz => ?_, fun n' y z hy hz => ?_⟩
  · cases h.first hy
  · exact h.not_assigns hy
  · rw [(hy.det h).2] at hz
    cases (hz.det he).1

theorem Lines.of_halted {sec s : Bytes} {as : List Setting} {sec' r : Bytes} (h : Lines sec s as sec' r) (hh : Halted s) :
    as = [] ∧ sec' = sec ∧ r = s := by
  cases h with
  | nil => exact ⟨rfl, rfl, rfl⟩
  | blank h1 _ => exact absurd h1 (hh.blank _)
  | assign h1 h2 _ => exact absurd h2 (hh.assign _ _ _ _ h1)
  | heading h1 h2 _ => exact absurd h2 (hh.heading _ _ _ h1)

/-- Lines from the start of a text are the first ones of all complete lines. -/
theorem Lines.det {sec s : Bytes} {as : List Setting} {sec' r : Bytes} {as2 : List Setting} {sec2 r2 : Bytes}
    (h2 : Lines sec s as2 sec2 r2) (h : Lines sec s as sec' r) (hh : Halted r) : ∃ as3, as = as2 ++ as3 ∧ Lines sec2 r2 as3 sec' r := by
  induction h2 generalizing as with
  | nil => exact ⟨as, rfl, h⟩
  | blank k1 k2 ih =>
    cases h with
    | nil => exact absurd k1 (hh.blank _)
    | blank h1 h2 =>
      obtain ⟨-, e⟩ := k1.det h1
      injection e with e
      subst e
      exact ih h2
    | assign h1 _ _ => cases h1.first k1
    | heading h1 _ _ => cases h1.first k1
  | assign k1 k2 k3 ih =>
    cases h with
    | nil => exact absurd k2 (hh.assign _ _ _ _ k1)
    | blank h1 _ => cases k1.first h1
    | assign h1 h2 h3 =>
      obtain ⟨e1, e2, e3⟩ := k1.det h1
      subst e1 e2 e3
      obtain ⟨-, e⟩ := k2.det h2
      injection e with e
      subst e
      obtain ⟨as3, e, l⟩ := ih h3
      exact ⟨as3, by rw [e]; rfl, l⟩
    | heading h1 _ _ => exact (h1.not_assigns k1).elim
  | heading k1 k2 k3 ih =>
    cases h with
    | nil => exact absurd k2 (hh.heading _ _ _ k1)
    | blank h1 _ => cases k1.first h1
    | assign h1 _ _ => exact (k1.not_assigns h1).elim
    | heading h1 h2 h3 =>
      obtain ⟨e1, e3⟩ := k1.det h1
      subst e1 e3
      obtain ⟨-, e⟩ := k2.det h2
      injection e with e
      subst e
      exact ih h3

/-- A statement at the start of a text. -/
def Path (x : Bytes) : Prop := ∃ ts e y r, Statement (ts ++ [e]) ∧ Tokens x ts y ∧ Lexes y e r ∧ Ends e

theorem tokens_on {x : Bytes} {ts' : List Token} {y' : Bytes} (h' : Tokens x ts' y') : ∀ {ts : List Token} {e : Token} {y : Bytes}
    {r : Option Bytes}, Tokens x ts y → Lexes y e r → Ends e → ∃ t r' w, Lexes y' t r' ∧ ts' ++ t :: w = ts ++ [e] := by
  induction h' with
  | nil =>
    intro ts e y r h hl he
    cases h with
    | nil => exact ⟨e, r, [], hl, rfl⟩
    | cons _ h1 _ => exact ⟨_, _, _, h1, rfl⟩
  | cons k0 k1 _ ih =>
    intro ts e y r h hl he
    cases h with
    | nil =>
      obtain ⟨e1, e2⟩ := hl.det k1
      subst e1
      rcases he with he | he
      · exact absurd he k0
      · subst he
        rw [hl.rest_none] at e2
        cases e2
    | cons _ h1 h2 =>
      obtain ⟨e1, e2⟩ := h1.det k1
      injection e2 with e2
      subst e1 e2
      obtain ⟨t, r', w, a, b⟩ := ih h2 hl he
      exact ⟨t, r', w, a, by rw [List.cons_append, b, List.cons_append]⟩

/-- Where there is a statement no token is out of place. -/
theorem Path.fits {x : Bytes} (h : Path x) {ts : List Token} {y : Bytes} (h' : Tokens x ts y) : ∃ t r, Lexes y t r ∧ Fits (ts ++ [t]) := by
  obtain ⟨us, e, z, r, h1, h2, h3, h4⟩ := h
  obtain ⟨t, r', w, a, b⟩ := tokens_on h' h2 h3 h4
  exact ⟨t, r', a, w, by rw [List.append_assoc, List.singleton_append, b]; exact h1⟩

theorem assigns_path {x n v y : Bytes} {e : Token} {r : Option Bytes} (h : Assigns x n v y) (hl : Lexes y e r) (he : Ends e) : Path x := by
  obtain ⟨s1, s2, t, a1, a2, a3, a4⟩ := h
  refine ⟨[.id n, .assign, t], e, y, r, .assign a4 he, .cons (by simp) a1 (.cons (by simp) a2 (.cons ?_ a3 .nil)), hl, he⟩
  cases a4 <;> simp

theorem heads_path {x n y : Bytes} {e : Token} {r : Option Bytes} (h : Heads x n y) (hl : Lexes y e r) (he : Ends e) : Path x := by
  obtain ⟨s1, s2, a1, a2, a3⟩ := h
  exact ⟨[.left, .id n, .right], e, y, r, .heading he, .cons (by simp) a1 (.cons (by simp) a2 (.cons (by simp) a3 .nil)), hl, he⟩

theorem end_path {x : Bytes} {e : Token} {r : Option Bytes} (hl : Lexes x e r) (he : Ends e) : Path x :=
  ⟨[], e, x, r, .blank he, .nil, hl, he⟩

/-- There is a statement before the last line, and the last line. -/
theorem Lines.path {sec s : Bytes} {as : List Setting} {sec' r : Bytes} (h : Lines sec s as sec' r) (hp : Path r) : Path s := by
  cases h with
  | nil => exact hp
  | blank h1 _ => exact end_path h1 (Or.inl rfl)
  | assign h1 h2 _ => exact assigns_path h1 h2 (Or.inl rfl)
  | heading h1 h2 _ => exact heads_path h1 h2 (Or.inl rfl)

theorem Applied.det {mem : Nat → Bool} {st st1 st2 : Store} {as : List Setting} (h1 : Applied mem st as st1) (h2 : Applied mem st as st2) :
    st1 = st2 := by
  induction h1 with
  | nil => cases h2; rfl
  | cons _ _ ih => cases h2 with | cons _ h => exact ih h

end FreeCoAP.Config
