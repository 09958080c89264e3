import Verif.Config.LemmasDet

/-!
# Properties of the configuration library: C47, C48, C62, C63
-/

namespace FreeCoAP.Config

/-! ## C47: a configuration is a map -/

/-- Calls of `config_set`, each with the memory there is at that time: the configuration, and the settings with whether they succeeded. -/
def sets : Store → List ((Nat → Bool) × Setting) → Store × List (Setting × Bool)
  | st, [] => (st, [])
  | st, (mem, a) :: cs =>
    let r := set mem st a.sec a.name a.value
    let r' := sets r.1 cs
    (r'.1, (a, r.2) :: r'.2)

/-- The settings that succeeded. -/
def accepted (log : List (Setting × Bool)) : List Setting := (log.filter (fun e => e.2)).map Prod.fst

/-- The last setting of a section and name, and whether it succeeded. -/
def latest (log : List (Setting × Bool)) (sec n : Bytes) : Option (Setting × Bool) :=
  (log.filter (fun e => e.1.sec = sec ∧ e.1.name = n)).getLast?

/-- The property in full: a lookup gives the value most recently set. -/
def C47_statement : Prop := ∀ (cs : List ((Nat → Bool) × Setting)) (sec n : Bytes),
  get (sets [] cs).1 sec n = lookup (accepted (sets [] cs).2) sec n

theorem sets_append (st : Store) (cs ds : List ((Nat → Bool) × Setting)) :
    sets st (cs ++ ds) = ((sets (sets st cs).1 ds).1, (sets st cs).2 ++ (sets (sets st cs).1 ds).2) := by
  induction cs generalizing st with
  | nil => rfl
  | cons c cs ih =>
    obtain ⟨mem, a⟩ := c
    simp only [List.cons_append, sets, ih]

/-- A lookup gives the value of the last setting of that section and name if it succeeded, and nothing otherwise. -/
theorem C47_latest (cs : List ((Nat → Bool) × Setting)) (sec n : Bytes) :
    get (sets [] cs).1 sec n = (latest (sets [] cs).2 sec n).bind (fun e => if e.2 then some e.1.value else none) := by
  generalize hk : cs.length = k
  induction k generalizing cs with
  | zero => rw [List.length_eq_zero_iff.1 hk]; rfl
  | succ k ih =>
    obtain ⟨ds, ⟨mem, a⟩, rfl⟩ : ∃ ds c, cs = ds ++ [c] :=
      ⟨cs.dropLast, cs.getLast (by intro h; rw [h] at hk; cases hk), (List.dropLast_concat_getLast _).symm⟩
    have ih := ih ds (by simpa using hk)
    rw [sets_append]
    simp only [sets]
    rw [get_set]
    unfold latest at ih ⊢
    rw [List.filter_append]
    by_cases h : sec = a.sec ∧ n = a.name
    · rw [if_pos h]
      obtain ⟨rfl, rfl⟩ := h
      simp
    · rw [if_neg h, ih]
      have : ¬ (a.sec = sec ∧ a.name = n) := fun k => h ⟨k.1.symm, k.2.symm⟩
      simp [this]

/-- If all settings succeed, then a lookup gives the value most recently set for that section and name, and nothing if none was set.
In general it does not: a setting that fails removes the value that was set before. -/
theorem C47_map_partial {cs : List ((Nat → Bool) × Setting)} (h : ∀ e ∈ (sets [] cs).2, e.2 = true) (sec n : Bytes) :
    get (sets [] cs).1 sec n = lookup (cs.map Prod.snd) sec n := by
  rw [C47_latest]
  have key : ∀ (st : Store) (cs : List ((Nat → Bool) × Setting)), (∀ e ∈ (sets st cs).2, e.2 = true) →
      (sets st cs).2 = cs.map (fun c => (c.2, true)) := by
    intro st cs
    induction cs generalizing st with
    | nil => intro _; rfl
    | cons c cs ih =>
      obtain ⟨mem, a⟩ := c
      intro h
      simp only [sets, List.map_cons, List.mem_cons, forall_eq_or_imp] at h ⊢
      rw [ih _ h.2, h.1]
  rw [key [] cs h]
  unfold latest lookup
  rw [List.filter_map, List.filter_map, List.getLast?_map, List.getLast?_map]
  simp only [Function.comp_def, Option.map_map]
  generalize (List.filter _ cs).getLast? = o
  cases o <;> simp

/-- With enough memory every setting succeeds. -/
theorem C47_success (mem : Nat → Bool) (h : ∀ n, mem n = true) (st : Store) (sec n v : Bytes) : (set mem st sec n v).2 = true :=
  set_mem h st sec n v

/-- A setting does not change the values of other sections and names, and if it fails then something was missing. -/
theorem C47_others (mem : Nat → Bool) (st : Store) (sec n v sec' n' : Bytes) (h : ¬ (sec' = sec ∧ n' = n)) :
    get (set mem st sec n v).1 sec' n' = get st sec' n' := by
  rw [get_set, if_neg h]

/-- There is memory for everything but strings of five bytes. -/
def tight (n : Nat) : Bool := n != 5

/-- The port is set to 80. Then it is to be set to 8080, for which there is no memory: the port is not 80 any more. -/
theorem C47_violated : ¬ C47_statement := by
  intro h
  have := h [(tight, ⟨str "a", str "port", str "80"⟩), (fun _ => true, ⟨str "a", str "port", str "80"⟩), (tight, ⟨str "a", str "port", str "8080"⟩)]
    (str "a") (str "port")
  revert this
  decide +kernel

example : ∀ e ∈ (sets [] [(fun _ => true, ⟨str "a", str "x", str "1"⟩), (fun _ => true, ⟨str "b", str "x", str "2"⟩),
    (fun _ => true, ⟨str "a", str "x", str "3"⟩)]).2, e.2 = true := by decide +kernel

example : get (sets [] [(fun _ => true, ⟨str "a", str "x", str "1"⟩), (fun _ => true, ⟨str "b", str "x", str "2"⟩),
    (fun _ => true, ⟨str "a", str "x", str "3"⟩)]).1 (str "a") (str "x") = some (str "3") := by decide +kernel

/-! ## C48: parsing -/

/-- The outcome of parsing. -/
theorem parse_outcome {mem : Nat → Bool} {st : Store} {s : Bytes} (h1 : mem 65 = true) (h2 : room mem s = true) :
    ∃ r : Step, Outcome mem s [] s st r ∧
      parse mem st s = ⟨r.1.store, r.2, some (match r.2 with | .ok () => ⟨0, 0⟩ | _ => r.1.tpos)⟩ := by
  refine ⟨exec mem (s.length + 2) (start st s), ?_, ?_⟩
  · exact exec_outcome (L := s) (s.length + 2) (p := start st s) ⟨rfl, Moves.refl _ _⟩ rfl (by omega)
  · unfold parse
    rw [if_neg (by simp [h1]), if_neg (by simp [h2])]
    generalize exec mem (s.length + 2) (start st s) = r
    obtain ⟨p, o⟩ := r
    cases o <;> rfl

theorem parse_no_memory {mem : Nat → Bool} {st : Store} {s : Bytes} (h : ¬ (mem 65 = true ∧ room mem s = true)) :
    (parse mem st s).store = st ∧ (parse mem st s).status = .err .ENOMEM ∧ ∃ n, mem n = false := by
  unfold parse
  split
  · rename_i h1; exact ⟨rfl, rfl, _, h1⟩
  split
  · rename_i h1; exact ⟨rfl, rfl, _, h1⟩
  · rename_i h1 h2
    exact absurd ⟨by simpa using h1, by simpa using h2⟩ h

/-- The property in full: no text makes the parser read outside of it, and parsing makes the settings in the text in their order,
each in the section whose heading is before it. -/
def C48_statement : Prop := ∀ (mem : Nat → Bool) (st : Store) (s : Bytes),
  (parse mem st s).status ≠ .ub ∧
  ((parse mem st s).status = .ok () → ∃ as, Reads s as ∧ Applied mem st as (parse mem st s).store)

/-- When parsing succeeds, the text consists of complete lines, and the settings in them were made in their order, each in the section
whose heading is before it. -/
theorem C48_applied_partial {mem : Nat → Bool} {st : Store} {s : Bytes} (h : (parse mem st s).status = .ok ()) :
    ∃ as, Reads s as ∧ Applied mem st as (parse mem st s).store := by
  by_cases hm : mem 65 = true ∧ room mem s = true
  · obtain ⟨r, ho, e⟩ := parse_outcome (st := st) hm.1 hm.2
    rw [e] at h ⊢
    dsimp only at h ⊢
    cases ho with
    | done k1 k2 k3 => exact ⟨_, ⟨_, _, k1, k2⟩, k3⟩
    | wrong _ _ _ => cases h
    | beyond _ _ _ => cases h
  · rw [(parse_no_memory hm).2.1] at h
    cases h

/-- With enough memory every text of complete lines is parsed. -/
theorem C48_complete {mem : Nat → Bool} (hm : ∀ n, mem n = true) (st : Store) {s : Bytes} {as : List Setting} (h : Reads s as) :
    (parse mem st s).status = .ok () ∧ Applied mem st as (parse mem st s).store := by
  obtain ⟨r, ho, e⟩ := parse_outcome (mem := mem) (st := st) (s := s) (hm _) (hm _)
  rw [e]
  dsimp only
  obtain ⟨sec, z, l1, l2⟩ := h
  cases ho with
  | done k1 k2 k3 =>
    obtain ⟨as3, rfl, l3⟩ := k1.det l1 (halted_eof l2)
    obtain ⟨rfl, -, -⟩ := l3.of_halted (halted_eof k2)
    rw [List.append_nil]
    exact ⟨rfl, k3⟩
  | wrong k1 k2 k3 =>
    exfalso
    obtain ⟨as3, rfl, l3⟩ := k1.det l1 (halted_eof l2)
    rcases k3.2 with ⟨-, n, hn⟩ | ⟨-, ts, y, t1, -, t2, -⟩
    · rw [hm] at hn; cases hn
    · obtain ⟨t, r, a, b⟩ := (l3.path (end_path l2 (Or.inr rfl))).fits t1
      exact t2 t r a b
  | beyond k1 k2 k3 =>
    exfalso
    obtain ⟨as3, rfl, l3⟩ := k1.det l1 (halted_eof l2)
    rcases k2 with ⟨n, v, k2⟩ | ⟨n, k2⟩
    · obtain ⟨-, -, rfl⟩ := l3.of_halted (halted_assigns k2 k3)
      cases k2.first l2
    · obtain ⟨-, -, rfl⟩ := l3.of_halted (halted_heads k2 k3)
      cases k2.first l2

/-- After parsing, a lookup gives the last value in the text for the section and name, and otherwise the value it gave before. -/
theorem C48_get {mem : Nat → Bool} {st : Store} {s : Bytes} (h : (parse mem st s).status = .ok ()) :
    ∃ as, Reads s as ∧ ∀ sec n, get (parse mem st s).store sec n = (lookup as sec n).or (get st sec n) := by
  obtain ⟨as, h1, h2⟩ := C48_applied_partial h
  refine ⟨as, h1, fun sec n => ?_⟩
  generalize (parse mem st s).store = st' at h2
  clear h h1
  induction h2 with
  | nil => rfl
  | @cons st st' a as k1 _ ih =>
    rw [ih, get_set, k1]
    unfold lookup
    rw [List.filter_cons]
    by_cases hk : a.sec = sec ∧ a.name = n
    · obtain ⟨rfl, rfl⟩ := hk
      simp only [and_self, decide_true, if_true]
      rw [List.getLast?_cons]
      generalize (List.filter _ as).getLast? = o
      cases o <;> simp
    · have : ¬ (sec = a.sec ∧ n = a.name) := fun k => hk ⟨k.1.symm, k.2.symm⟩
      simp [hk, this]

/-- The parser reads outside of the text exactly when the last line of the text is a setting or a heading, without a line break after
it, provided that there is enough memory; and only then if not. -/
theorem C48_outside {mem : Nat → Bool} {st : Store} {s : Bytes} :
    ((parse mem st s).status = .ub → Unfinished s) ∧ ((∀ n, mem n = true) → Unfinished s → (parse mem st s).status = .ub) := by
  constructor
  · intro h
    by_cases hm : mem 65 = true ∧ room mem s = true
    · obtain ⟨r, ho, e⟩ := parse_outcome (st := st) hm.1 hm.2
      rw [e] at h
      dsimp only at h
      cases ho with
      | done k1 k2 k3 => cases h
      | wrong _ _ _ => cases h
      | beyond k1 k2 k3 => exact ⟨_, _, _, _, k1, k2, k3⟩
    · rw [(parse_no_memory hm).2.1] at h
      cases h
  · rintro hm ⟨as, sec, r0, r1, l1, l2, l3⟩
    have hh : Halted r0 := by
      rcases l2 with ⟨n, v, k⟩ | ⟨n, k⟩
      · exact halted_assigns k l3
      · exact halted_heads k l3
    have hp : Path r0 := by
      rcases l2 with ⟨n, v, k⟩ | ⟨n, k⟩
      · exact assigns_path k l3 (Or.inr rfl)
      · exact heads_path k l3 (Or.inr rfl)
    obtain ⟨r, ho, e⟩ := parse_outcome (mem := mem) (st := st) (s := s) (hm _) (hm _)
    rw [e]
    dsimp only
    cases ho with
    | done k1 k2 k3 =>
      exfalso
      obtain ⟨as3, rfl, k4⟩ := k1.det l1 hh
      obtain ⟨-, -, rfl⟩ := k4.of_halted (halted_eof k2)
      rcases l2 with ⟨n, v, k⟩ | ⟨n, k⟩
      · cases k.first k2
      · cases k.first k2
    | wrong k1 k2 k3 =>
      exfalso
      obtain ⟨as3, rfl, k4⟩ := k1.det l1 hh
      rcases k3.2 with ⟨-, n, hn⟩ | ⟨-, ts, y, t1, -, t2, -⟩
      · rw [hm] at hn; cases hn
      · obtain ⟨t, r, a, b⟩ := (k4.path hp).fits t1
        exact t2 t r a b
    | beyond _ _ _ => rfl

theorem Lexes.eof_breaks {s : Bytes} {x : Option Bytes} (h : Lexes s .eof x) : 0x0A ∉ s := by
  cases h with
  | eof hw => exact fun hm => (hw _ hm).2 rfl
  | eofComment hw ht =>
    intro hm
    rcases List.mem_append.1 hm with hm | hm
    · exact (hw _ hm).2 rfl
    · rcases List.mem_cons.1 hm with hm | hm
      · cases hm
      · exact ht hm

/-- A text that is empty or ends with a line break is read to its end and not beyond. -/
theorem C48_inside_partial {mem : Nat → Bool} {st : Store} {s : Bytes} (h : s = [] ∨ s.getLast? = some 0x0A) : (parse mem st s).status ≠ .ub := by
  intro hu
  obtain ⟨as, sec, r, r', l1, l2, l3⟩ := C48_outside.1 hu
  obtain ⟨a, rfl⟩ := l1.suffix
  have hlt : r'.length < r.length := by
    rcases l2 with ⟨n, v, k⟩ | ⟨n, k⟩
    · exact k.length
    · exact k.length
  -- what comes before the rest ends with a character that is not a line break
  have hb : ∃ b c, r = b ++ c :: r' ∧ (r' = [] → c ≠ 0x0A) := by
    have fin : ∀ {s1 : Bytes} {t : Token}, (∃ v, IsValue t v) ∨ t = .right → Lexes s1 t (some r') →
        ∃ b c, s1 = b ++ c :: r' ∧ (r' = [] → c ≠ 0x0A) := by
      intro s1 t ht hl
      cases hl with
      | eol => exact ht.elim (fun ⟨v, hv⟩ => nomatch hv) (fun h => nomatch h)
      | eolComment => exact ht.elim (fun ⟨v, hv⟩ => nomatch hv) (fun h => nomatch h)
      | assign => exact ht.elim (fun ⟨v, hv⟩ => nomatch hv) (fun h => nomatch h)
      | left => exact ht.elim (fun ⟨v, hv⟩ => nomatch hv) (fun h => nomatch h)
      | @right w _ hw => exact ⟨w, 0x5D, rfl, fun _ => by decide⟩
      | @id w n _ hw hn hr =>
        obtain ⟨c, u, rfl, hc, hu⟩ := hn
        refine ⟨w ++ (c :: u).dropLast, (c :: u).getLast (by simp), ?_, fun _ => ?_⟩
        · have := List.dropLast_concat_getLast (l := c :: u) (by simp)
          rw [List.append_assoc, ← List.singleton_append (l := r'), ← List.append_assoc (List.dropLast _), this]
        · have hmem := List.getLast_mem (l := c :: u) (by simp)
          intro he
          rw [he] at hmem
          rcases List.mem_cons.1 hmem with e | e
          · exact (alpha_facts hc).1 e.symm
          · rcases hu _ e with k | k | k
            · exact (alpha_facts k).1 rfl
            · exact (digit_facts k).1 rfl
            · cases k
      | @num w n _ hw hn hr =>
        obtain ⟨hne, hd⟩ := hn
        refine ⟨w ++ n.dropLast, n.getLast hne, ?_, fun _ => ?_⟩
        · have := List.dropLast_concat_getLast hne
          rw [List.append_assoc, ← List.singleton_append (l := r'), ← List.append_assoc (List.dropLast _), this]
        · intro he
          exact (digit_facts (hd _ (List.getLast_mem hne))).1 he
      | @quote w q _ hw hq => exact ⟨w ++ 0x22 :: q, 0x22, by simp, fun _ => by decide⟩
    rcases l2 with ⟨n, v, s1, s2, t, k1, k2, k3, k4⟩ | ⟨n, s1, s2, k1, k2, k3⟩
    · obtain ⟨b1, rfl, -⟩ := k1.suffix
      obtain ⟨b2, rfl, -⟩ := k2.suffix
      obtain ⟨b, c, rfl, hc⟩ := fin (Or.inl ⟨v, k4⟩) k3
      exact ⟨b1 ++ (b2 ++ b), c, by simp, hc⟩
    · obtain ⟨b1, rfl, -⟩ := k1.suffix
      obtain ⟨b2, rfl, -⟩ := k2.suffix
      obtain ⟨b, c, rfl, hc⟩ := fin (Or.inr rfl) k3
      exact ⟨b1 ++ (b2 ++ b), c, by simp, hc⟩
  obtain ⟨b, c, rfl, hc⟩ := hb
  have hn := l3.eof_breaks
  rcases h with h | h
  · simp at h
  · rw [List.getLast?_append, List.getLast?_append, List.getLast?_cons] at h
    cases hr : r'.getLast? with
    | none =>
      rw [hr] at h
      simp only [Option.getD_none, Option.some_or, Option.some.injEq] at h
      exact hc (List.getLast?_eq_none_iff.1 hr) h
    | some d =>
      rw [hr] at h
      simp only [Option.getD_some, Option.some_or, Option.some.injEq] at h
      subst h
      exact hn (List.mem_of_getLast? hr)

/-- Parsing that fails has made the settings of the lines before the wrong one, and at most that of the wrong one. -/
theorem C48_failed {mem : Nat → Bool} {st : Store} {s : Bytes} {e : Err} (h : (parse mem st s).status = .err e) :
    ∃ as sec r st', Lines [] s as sec r ∧ Applied mem st as st' ∧
      ((parse mem st s).store = st' ∨ ∃ n v r', Assigns r n v r' ∧ (parse mem st s).store = (set mem st' sec n v).1) := by
  by_cases hm : mem 65 = true ∧ room mem s = true
  · obtain ⟨r, ho, e⟩ := parse_outcome (st := st) hm.1 hm.2
    rw [e] at h ⊢
    dsimp only at h ⊢
    cases ho with
    | done k1 k2 k3 => cases h
    | wrong k1 k2 k3 => exact ⟨_, _, _, _, k1, k2, k3.1⟩
    | beyond _ _ _ => cases h
  · exact ⟨[], [], s, st, .nil, .nil, Or.inl (parse_no_memory hm).1⟩

/-- The text `a=1` without a line break makes the parser read outside of it. -/
theorem C48_violated : ¬ C48_statement := by
  intro h
  exact (h (fun _ => true) [] (str "a=1")).1 (by decide +kernel)

/-- A text with a comment, a heading and settings. -/
def sample : Bytes := str "; proxy\n[main]\nport = 80\nname = \"x y\" ; here\n"

example : (parse (fun _ => true) [] sample).status = .ok () := by decide +kernel
example : get (parse (fun _ => true) [] sample).store (str "main") (str "port") = some (str "80") := by decide +kernel
example : get (parse (fun _ => true) [] sample).store (str "main") (str "name") = some (str "x y") := by decide +kernel
example : ∃ as, Reads sample as ∧ Applied (fun _ => true) [] as (parse (fun _ => true) [] sample).store :=
  C48_applied_partial (by decide +kernel)
example : sample.getLast? = some 0x0A := by decide +kernel
example : Unfinished (str "a=1") := (C48_outside (mem := fun _ => true) (st := [])).1 (by decide +kernel)

/-! ## C62: the place of an error -/

/-- The position after a text. -/
theorem adv_eq (s : Bytes) : adv ⟨1, 0⟩ s = ⟨1 + breaks s, width 0 (lastLine s)⟩ := by
  have hb : ∀ (w : Bytes) (p : Pos), 0x0A ∉ w → adv p w = ⟨p.line, width p.col w⟩ := by
    intro w
    induction w with
    | nil => intro p _; rfl
    | cons c w ih =>
      intro p h
      simp only [List.mem_cons, not_or] at h
      have hc : c ≠ 0x0A := fun e => h.1 e.symm
      show adv (bump p c) w = _
      rw [ih _ h.2, bump_line_ne hc]
      unfold bump
      rw [if_neg hc, width]
      split
      · rw [show (p.col + 4) / 4 * 4 = p.col + (4 - p.col % 4) by omega]
      · rfl
  have hl : ∀ (a w : Bytes), 0x0A ∉ w → lastLine (a ++ 0x0A :: w) = w := by
    intro a w h
    unfold lastLine
    rw [List.reverse_append, List.reverse_cons, List.append_assoc, List.takeWhile_append_of_pos (by
      intro x hx
      rw [List.mem_reverse] at hx
      exact decide_eq_true (fun e => h (e ▸ hx)))]
    rw [List.singleton_append, List.takeWhile_cons_of_neg (by decide), List.append_nil, List.reverse_reverse]
  have hd : 0x0A ∉ s ∨ ∃ a w, s = a ++ 0x0A :: w ∧ 0x0A ∉ w := by
    clear hb hl
    induction s with
    | nil => exact Or.inl (by simp)
    | cons c s ih =>
      rcases ih with h | ⟨a, w, rfl, h⟩
      · by_cases hc : c = 0x0A
        · exact Or.inr ⟨[], s, by rw [hc]; rfl, h⟩
        · exact Or.inl (by simp only [List.mem_cons, not_or]; exact ⟨fun e => hc e.symm, h⟩)
      · exact Or.inr ⟨c :: a, w, rfl, h⟩
  have hline : ∀ (a : Bytes) (p : Pos), (adv p a).line = p.line + breaks a := by
    intro a
    induction a with
    | nil => intro p; rfl
    | cons c a ih =>
      intro p
      have e1 : adv p (c :: a) = adv (bump p c) a := rfl
      have e2 := bump_breaks p c a
      rw [e1, ih]
      omega
  rcases hd with h | ⟨a, w, rfl, h⟩
  · rw [hb s _ h, show breaks s = 0 from List.count_eq_zero.2 h]
    have : lastLine s = s := by
      unfold lastLine
      rw [← List.append_nil s.reverse, List.takeWhile_append_of_pos (by
        intro x hx
        rw [List.mem_reverse] at hx
        exact decide_eq_true (fun e => h (e ▸ hx)))]
      simp
    rw [this]
  · have e1 : adv ⟨1, 0⟩ (a ++ 0x0A :: w) = adv (bump (adv ⟨1, 0⟩ a) 0x0A) w := by
      unfold adv
      rw [List.foldl_append]
      rfl
    rw [e1, hb _ _ h, hl a w h, bump_line_nl, hline, breaks_append, breaks_cons_nl, show breaks w = 0 from List.count_eq_zero.2 h]
    rfl

/-- The position of a token. -/
theorem place_eq {s y : Bytes} {tp : Pos} (h : Place s tp y) : ∃ before w z, s = before ++ y ∧ y = w ++ z ∧ Blank w ∧
    ¬ Begins (fun c => c ≠ 0x0A ∧ isSpace c = true) z ∧ tp = ⟨1 + breaks before, 1 + width 0 (lastLine (before ++ w))⟩ := by
  obtain ⟨q, w, z, ⟨a, h1, rfl⟩, h2, h3, h4, rfl⟩ := h
  refine ⟨a, w, z, h1, h2, h3, h4, ?_⟩
  have e1 : adv (adv ⟨1, 0⟩ a) w = adv ⟨1, 0⟩ (a ++ w) := by unfold adv; rw [List.foldl_append]
  rw [e1, adv_eq, breaks_append, blank_breaks h3, Nat.add_zero]
  have htab : peek z ≠ 0x09 := by
    cases z with
    | nil => decide
    | cons c z =>
      intro e
      have e : c = 0x09 := e
      exact h4 ⟨c, z, rfl, by rw [e]; decide⟩
  unfold tokenPos
  split
  · rw [Nat.add_comm 1 (width _ _)]
  · rename_i hn
    unfold bump
    rw [if_neg hn, if_neg htab, Nat.add_comm 1 (width _ _)]

/-- A lexical or a syntax error is reported with the place of the first token that is wrong: the lines before it are correct, the tokens before
it in its line are the beginning of a statement, and with what comes next they are not. The line number is one more than the number
of line breaks before it, the column is one more than the width of the text before it in its line, with a tab stop every four columns. The error is
lexical if there is no token there, and a syntax error if there is. -/
theorem C62_line {mem : Nat → Bool} {st : Store} {s : Bytes} {e : Err} (h : (parse mem st s).status = .err e)
    (he : e = .ELEXICAL ∨ e = .ESYNTAX) :
    ∃ as sec x ts before y w z, Lines [] s as sec x ∧ Tokens x ts y ∧ Fits ts ∧ (∀ t r, Lexes y t r → ¬ Fits (ts ++ [t])) ∧
      (e = .ELEXICAL ↔ ∀ t r, ¬ Lexes y t r) ∧
      s = before ++ y ∧ y = w ++ z ∧ Blank w ∧ ¬ Begins (fun c => c ≠ 0x0A ∧ isSpace c = true) z ∧
      (parse mem st s).pos = some ⟨1 + breaks before, 1 + width 0 (lastLine (before ++ w))⟩ := by
  by_cases hm : mem 65 = true ∧ room mem s = true
  · obtain ⟨r, ho, e0⟩ := parse_outcome (st := st) hm.1 hm.2
    rw [e0] at h ⊢
    dsimp only at h ⊢
    cases ho with
    | done k1 k2 k3 => cases h
    | wrong k1 k2 k3 =>
      cases h
      rcases k3.2 with ⟨hn, -⟩ | ⟨-, ts, y, t1, t2, t3, t4, t5⟩
      · subst hn
        rcases he with he | he <;> cases he
      · obtain ⟨before, w, z, p1, p2, p3, p4, p5⟩ := place_eq t5
        exact ⟨_, _, _, ts, before, y, w, z, k1, t1, t2, t3, t4, p1, p2, p3, p4, by rw [p5]⟩
    | beyond _ _ _ => cases h
  · rw [(parse_no_memory hm).2.1] at h
    cases h
    rcases he with he | he <;> cases he

/-- With enough memory, parsing fails exactly for the texts that are not complete lines with at most an unfinished one after them, and then
with a lexical or a syntax error. -/
theorem C62_wrong {mem : Nat → Bool} (hm : ∀ n, mem n = true) (st : Store) (s : Bytes) :
    (∃ e, (parse mem st s).status = .err e ∧ (e = .ELEXICAL ∨ e = .ESYNTAX)) ↔ ¬ (∃ as, Reads s as) ∧ ¬ Unfinished s := by
  constructor
  · rintro ⟨e, h, -⟩
    refine ⟨?_, fun hu => ?_⟩
    · rintro ⟨as, hr⟩
      rw [(C48_complete hm st hr).1] at h
      cases h
    · rw [C48_outside.2 hm hu] at h
      cases h
  · rintro ⟨h1, h2⟩
    cases hs : (parse mem st s).status with
    | ok u =>
      cases u
      obtain ⟨as, hr, -⟩ := C48_applied_partial hs
      exact absurd ⟨as, hr⟩ h1
    | ub => exact absurd (C48_outside.1 hs) h2
    | err e =>
      refine ⟨e, rfl, ?_⟩
      obtain ⟨r, ho, e0⟩ := parse_outcome (mem := mem) (st := st) (s := s) (hm _) (hm _)
      rw [e0] at hs
      dsimp only at hs
      cases ho with
      | done k1 k2 k3 => cases hs
      | wrong k1 k2 k3 =>
        cases hs
        rcases k3.2 with ⟨-, n, hn⟩ | ⟨k, -⟩
        · rw [hm] at hn; cases hn
        · exact k
      | beyond _ _ _ => cases hs

/-- In this text the value is missing in the second line. -/
def bad : Bytes := str "a = 1\nb =\nc = 2\n"

example : (parse (fun _ => true) [] bad).status = .err .ESYNTAX ∧ (parse (fun _ => true) [] bad).pos = some ⟨2, 4⟩ := by decide +kernel

/-- A tab before the token that is wrong. -/
example : (parse (fun _ => true) [] (str "x = 1\ny\t] 2\n")).status = .err .ESYNTAX ∧
    (parse (fun _ => true) [] (str "x = 1\ny\t] 2\n")).pos = some ⟨2, 5⟩ := by decide +kernel

/-! ## C63: the texts of errors -/

/-- The codes (config.h 44–53) and what they stand for. -/
def meaning : List (Int × Bytes) :=
  [(0, str "ok"), (-1, str "invalid argument"), (-2, str "out of memory"), (-3, str "lexical error"), (-4, str "syntax error")]

/-- The property in full: the text for each code is what it stands for, and every other code is unknown. -/
def C63_statement : Prop := ∀ e : Int, -2 ^ 31 ≤ e → e < 2 ^ 31 →
  (∀ t, (e, t) ∈ meaning → strerr e = .ok t) ∧ ((∀ t, (e, t) ∉ meaning) → strerr e = .ok (str "unknown"))

/-- A lexical error is called an input/output error and a syntax error a lexical error, and the least integer overflows. -/
theorem C63_violated : ¬ C63_statement ∧ strerr (-3) = .ok (str "input/output error") ∧ strerr (-4) = .ok (str "lexical error") ∧
    strerr (-2 ^ 31) = .ub := by
  refine ⟨?_, by decide +kernel, by decide +kernel, by decide +kernel⟩
  intro h
  have := (h (-3) (by decide) (by decide)).1 (str "lexical error") (by simp [meaning])
  revert this
  decide +kernel

/-- The other codes have the right texts, and all codes that are neither these nor the least integer are unknown. -/
theorem C63_text_partial (e : Int) (h1 : -2 ^ 31 < e) (h2 : e < 2 ^ 31) :
    ((e = 0 ∨ e = -1 ∨ e = -2) → ∀ t, (e, t) ∈ meaning → strerr e = .ok t) ∧
    ((e < -5 ∨ 0 < e) → strerr e = .ok (str "unknown")) := by
  constructor
  · rintro (rfl | rfl | rfl) t ht
    · simp [meaning] at ht; subst ht; decide +kernel
    · simp [meaning] at ht; subst ht; decide +kernel
    · simp [meaning] at ht; subst ht; decide +kernel
  · intro h
    unfold strerr
    rw [if_neg (by omega)]
    dsimp only
    by_cases h6 : e = -6
    · subst h6; decide +kernel
    · rw [if_pos (by omega)]

example : strerr (-2) = .ok (str "out of memory") := (C63_text_partial (-2) (by decide) (by decide)).1 (by decide) _ (by simp [meaning])

end FreeCoAP.Config
