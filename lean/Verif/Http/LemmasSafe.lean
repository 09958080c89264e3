import Verif.Http.LemmasGen

/-!
# Arbitrary texts
-/

namespace FreeCoAP.Http

/-- `b` is `a` with some semicolons replaced by spaces. -/
def Soft : Bytes → Bytes → Prop
  | [], [] => True
  | c :: a, d :: b => (c = d ∨ (c = 0x3B ∧ d = 0x20)) ∧ Soft a b
  | _, _ => False

theorem Soft.refl : (a : Bytes) → Soft a a
  | [] => trivial
  | _ :: a => ⟨.inl rfl, Soft.refl a⟩

theorem Soft.blank : {a b : Bytes} → Soft a b → Soft b (blank a)
  | [], [], _ => trivial
  | c :: a, d :: b, h => by
    refine ⟨?_, h.2.blank⟩
    rcases h.1 with rfl | ⟨rfl, rfl⟩
    · by_cases hc : c = 0x3B
      · exact .inr ⟨hc, by simp [hc]⟩
      · exact .inl (by simp [hc])
    · exact .inl (by simp)
  | [], _ :: _, h => h.elim
  | _ :: _, [], h => h.elim

theorem Soft.trans : {a b c : Bytes} → Soft a b → Soft b c → Soft a c
  | [], [], [], _, _ => trivial
  | x :: a, y :: b, z :: c, h, h' => by
    refine ⟨?_, h.2.trans h'.2⟩
    rcases h.1 with rfl | ⟨rfl, rfl⟩
    · exact h'.1
    · rcases h'.1 with rfl | ⟨h, -⟩
      · exact .inr ⟨rfl, rfl⟩
      · exact absurd h (by decide)
  | [], [], _ :: _, _, h => h.elim
  | [], _ :: _, _, h, _ => h.elim
  | _ :: _, [], _, h, _ => h.elim
  | _ :: _, _ :: _, [], _, h => h.elim

theorem Soft.length : {a b : Bytes} → Soft a b → b.length = a.length
  | [], [], _ => rfl
  | c :: a, d :: b, h => by simp [h.2.length]
  | [], _ :: _, h => h.elim
  | _ :: _, [], h => h.elim

theorem Soft.drop : (n : Nat) → {a b : Bytes} → Soft a b → Soft (a.drop n) (b.drop n)
  | 0, _, _, h => h
  | _ + 1, [], [], _ => trivial
  | n + 1, _ :: _, _ :: _, h => h.2.drop n
  | _, [], _ :: _, h => h.elim
  | _, _ :: _, [], h => h.elim

theorem Soft.getElem? : {a b : Bytes} → Soft a b → (i : Nat) → (c : Byte) → c ≠ 0x3B → c ≠ 0x20 →
    (b[i]? = some c ↔ a[i]? = some c)
  | [], [], _, i, c, _, _ => Iff.rfl
  | x :: a, y :: b, h, 0, c, h1, h2 => by
    simp only [List.getElem?_cons_zero, Option.some.injEq]
    rcases h.1 with rfl | ⟨rfl, rfl⟩
    · exact Iff.rfl
    · exact ⟨fun e => absurd e.symm h2, fun e => absurd e.symm h1⟩
  | x :: a, y :: b, h, i + 1, c, h1, h2 => by
    simp only [List.getElem?_cons_succ]
    exact h.2.getElem? i c h1 h2
  | [], _ :: _, h, _, _, _, _ => h.elim
  | _ :: _, [], h, _, _, _, _ => h.elim

/-- The same place of the first CRLF. -/
theorem Soft.crlf : {a b : Bytes} → Soft a b →
    (crlf b).map (fun p => p.1.length) = (crlf a).map (fun p => p.1.length)
  | [], [], _ => rfl
  | c :: a, d :: b, h => by
    have ih := h.2.crlf
    have hh : b.head? = some 0x0A ↔ a.head? = some 0x0A := by
      have := h.2.getElem? 0 0x0A (by decide) (by decide)
      rwa [← List.head?_eq_getElem?, ← List.head?_eq_getElem?] at this
    have hc : d = 0x0D ↔ c = 0x0D := by
      rcases h.1 with rfl | ⟨rfl, rfl⟩
      · exact Iff.rfl
      · decide
    unfold Http.crlf
    by_cases h1 : c = 0x0D ∧ a.head? = some 0x0A
    · rw [if_pos h1, if_pos ⟨hc.2 h1.1, hh.2 h1.2⟩]
      rfl
    · rw [if_neg h1, if_neg (fun e => h1 ⟨hc.1 e.1, hh.1 e.2⟩)]
      cases ha : Http.crlf a with
      | none =>
        rw [ha] at ih
        cases hb : Http.crlf b with
        | none => rfl
        | some p => rw [hb] at ih; cases ih
      | some p =>
        rw [ha] at ih
        cases hb : Http.crlf b with
        | none => rw [hb] at ih; cases ih
        | some q =>
          rw [hb] at ih
          simp only [Option.map_some, Option.some.injEq, List.length_cons] at ih ⊢
          omega
  | [], _ :: _, h => h.elim
  | _ :: _, [], h => h.elim

theorem Soft.crlfFrom {a b : Bytes} (h : Soft a b) (pos : Nat) : crlfFrom b pos = crlfFrom a pos := by
  have := (h.drop pos).crlf
  unfold Http.crlfFrom
  cases ha : Http.crlf (a.drop pos) with
  | none =>
    rw [ha] at this
    cases hb : Http.crlf (b.drop pos) with
    | none => rfl
    | some p => rw [hb] at this; cases this
  | some p =>
    rw [ha] at this
    cases hb : Http.crlf (b.drop pos) with
    | none => rw [hb] at this; cases this
    | some q =>
      rw [hb] at this
      simp only [Option.map_some, Option.some.injEq] at this ⊢
      omega

theorem Soft.hexadecimal : {a b : Bytes} → Soft a b → (acc : Nat) → hexadecimal acc b = hexadecimal acc a
  | [], [], _, _ => rfl
  | c :: a, d :: b, h, acc => by
    unfold Http.hexadecimal
    rcases h.1 with rfl | ⟨rfl, rfl⟩
    · rw [h.2.hexadecimal]
    · rfl
  | [], _ :: _, h, _ => h.elim
  | _ :: _, [], h, _ => h.elim

theorem Soft.scanDigits {a b : Bytes} {n : Nat} (h : Soft a b) (hs : scanDigits a = some n) :
    scanDigits b = some n := by
  match a, b, h with
  | [], [], _ => cases hs
  | [c], [d], h =>
    rcases h.1 with rfl | ⟨rfl, rfl⟩
    · exact hs
    · cases hs
  | c :: x :: a, d :: y :: b, h =>
    have e1 := h.hexadecimal 0
    have e2 := h.2.2.hexadecimal 0
    rcases h.1 with rfl | ⟨rfl, rfl⟩
    · by_cases h0 : c = 0x30
      · subst h0
        change (if x = 0x78 ∨ x = 0x58 then some (Http.hexadecimal 0 a) else some (Http.hexadecimal 0 (0x30 :: x :: a))) = _ at hs
        change (if y = 0x78 ∨ y = 0x58 then some (Http.hexadecimal 0 b) else some (Http.hexadecimal 0 (0x30 :: y :: b))) = _
        rw [e1, e2]
        rcases h.2.1 with rfl | ⟨rfl, rfl⟩
        · exact hs
        · rw [if_neg (by decide)] at hs ⊢
          exact hs
      · have key : ∀ z r, Http.scanDigits (c :: z :: r) =
            if isHex c then some (Http.hexadecimal 0 (c :: z :: r)) else none := by
          intro z r
          unfold Http.scanDigits
          split
          · rename_i heq; cases heq; exact absurd rfl h0
          · rename_i heq; cases heq; rfl
          · rename_i heq; cases heq
        rw [key] at hs ⊢
        rw [e1]
        exact hs
    · rw [Http.scanDigits] at hs
      · simp [isHex, isDigit] at hs
      · intro _ _ e; cases e
  | [], _ :: _, h => exact h.elim
  | _ :: _, [], h => exact h.elim
  | [_], _ :: _ :: _, h => exact h.2.elim
  | _ :: _ :: _, [_], h => exact h.2.elim

theorem Soft.scanHex {a b : Bytes} {n : Int} (h : Soft a b) (hs : scanHex a = some n) : scanHex b = some n := by
  match a, b, h with
  | [], [], _ => exact hs
  | c :: a, d :: b, h =>
    rcases h.1 with rfl | ⟨rfl, rfl⟩
    · by_cases hc : isSpace c = true
      · have e : ∀ r, Http.scanHex (c :: r) = Http.scanHex r := by
          intro r
          unfold Http.scanHex
          rw [List.dropWhile_cons_of_pos hc]
        rw [e] at hs ⊢
        exact h.2.scanHex hs
      · unfold Http.scanHex at hs ⊢
        rw [List.dropWhile_cons_of_neg hc] at hs ⊢
        have key : ∀ {u v : Bytes} {neg : Bool}, Soft u v →
            (match Http.scanDigits u with
              | none => none
              | some n => if n < 2 ^ 64 then some (toInt32 (if neg then -(n : Int) else n))
                else some (toInt32 (2 ^ 64 - 1))) = some n →
            (match Http.scanDigits v with
              | none => none
              | some n => if n < 2 ^ 64 then some (toInt32 (if neg then -(n : Int) else n))
                else some (toInt32 (2 ^ 64 - 1))) = some n := by
          intro u v neg huv hh
          cases hu : Http.scanDigits u with
          | none => rw [hu] at hh; cases hh
          | some k => rw [huv.scanDigits hu]; rw [hu] at hh; exact hh
        unfold sign at hs ⊢
        dsimp only at hs ⊢
        by_cases h1 : c = 0x2D
        · rw [if_pos h1] at hs ⊢
          exact key h.2 hs
        · rw [if_neg h1] at hs ⊢
          by_cases h2 : c = 0x2B
          · rw [if_pos h2] at hs ⊢
            exact key h.2 hs
          · rw [if_neg h2] at hs ⊢
            exact key h hs
    · exfalso
      unfold Http.scanHex at hs
      rw [List.dropWhile_cons_of_neg (by decide)] at hs
      unfold sign at hs
      dsimp only at hs
      rw [if_neg (by decide), if_neg (by decide)] at hs
      dsimp only at hs
      have : Http.scanDigits (0x3B :: a) = none := by
        rw [Http.scanDigits]
        · rfl
        · intro _ _ e; cases e
      rw [this] at hs
      cases hs
  | [], _ :: _, h => exact h.elim
  | _ :: _, [], h => exact h.elim
  termination_by a.length

theorem Soft.set : {a : Bytes} → (i : Nat) → a[i]? = some 0x3B → Soft a (a.set i 0x20)
  | [], _, h => by simp at h
  | c :: a, 0, h => by
    simp only [List.getElem?_cons_zero, Option.some.injEq] at h
    subst h
    exact ⟨.inr ⟨rfl, rfl⟩, Soft.refl a⟩
  | c :: a, i + 1, h => by
    simp only [List.getElem?_cons_succ] at h
    exact ⟨.inl rfl, Soft.set i h⟩

theorem cut_index {c : Byte} {s a b : Bytes} (h : cut c s = some (a, b)) : s[a.length]? = some c := by
  obtain ⟨rfl, -⟩ := cut_eq_some.1 h
  rw [List.getElem?_append_right (Nat.le_refl _), Nat.sub_self]
  rfl

theorem dropParam_soft (t : Bytes) (pos next : Nat) : Soft t (dropParam t pos next) := by
  unfold dropParam
  cases h : cut 0x3B (t.drop pos) with
  | none => exact Soft.refl t
  | some p =>
    obtain ⟨a, b⟩ := p
    dsimp only
    split
    · refine Soft.set _ ?_
      have := cut_index h
      rwa [List.getElem?_drop] at this
    · exact Soft.refl t

/-- Setting one more semicolon keeps texts related. -/
theorem Soft.set_left : {a b : Bytes} → (i : Nat) → Soft a b → b[i]? = some 0x20 → Soft (a.set i 0x20) b
  | [], [], _, _, _ => trivial
  | c :: a, d :: b, 0, h, hb => by
    simp only [List.getElem?_cons_zero, Option.some.injEq] at hb
    subst hb
    exact ⟨.inl rfl, h.2⟩
  | c :: a, d :: b, i + 1, h, hb => by
    simp only [List.getElem?_cons_succ] at hb
    exact ⟨h.1, h.2.set_left i hb⟩
  | [], _ :: _, _, h, _ => h.elim
  | _ :: _, [], _, h, _ => h.elim

theorem Soft.cases : {a b : Bytes} → Soft a b → (i : Nat) → a[i]? = some 0x3B → b[i]? = some 0x3B ∨ b[i]? = some 0x20
  | [], [], _, i, h => by simp at h
  | x :: a, y :: b, h, 0, e => by
    simp only [List.getElem?_cons_zero, Option.some.injEq] at e ⊢
    subst e
    rcases h.1 with rfl | ⟨-, rfl⟩
    · exact .inl rfl
    · exact .inr rfl
  | x :: a, y :: b, h, i + 1, e => by
    simp only [List.getElem?_cons_succ] at e ⊢
    exact h.2.cases i e
  | [], _ :: _, h, _, _ => h.elim
  | _ :: _, [], h, _, _ => h.elim

/-- A semicolon that is left was there before. -/
theorem Soft.mem : {a b : Bytes} → Soft a b → (i : Nat) → b[i]? = some 0x3B → a[i]? = some 0x3B
  | [], [], _, _, h => h
  | x :: a, y :: b, h, 0, e => by
    simp only [List.getElem?_cons_zero, Option.some.injEq] at e ⊢
    subst e
    rcases h.1 with rfl | ⟨-, h⟩
    · rfl
    · exact absurd h (by decide)
  | x :: a, y :: b, h, i + 1, e => by
    simp only [List.getElem?_cons_succ] at e ⊢
    exact h.2.mem i e
  | [], _ :: _, h, _, _ => h.elim
  | _ :: _, [], h, _, _ => h.elim

theorem cut_first {c : Byte} {s a b : Bytes} (h : cut c s = some (a, b)) {i : Nat} (hi : s[i]? = some c) :
    a.length ≤ i := by
  obtain ⟨rfl, hn⟩ := cut_eq_some.1 h
  apply Nat.le_of_not_lt
  intro hl
  rw [List.getElem?_append_left hl] at hi
  exact hn (List.mem_of_getElem? hi)

/-- The first semicolon of the same line in related texts. -/
theorem Soft.dropParam {a b : Bytes} (h : Soft a b) (pos next : Nat) :
    Soft (dropParam a pos next) (dropParam b pos next) := by
  have hb := dropParam_soft b pos next
  unfold Http.dropParam at hb ⊢
  cases ha : cut 0x3B (a.drop pos) with
  | none => exact h.trans hb
  | some p =>
    obtain ⟨x, y⟩ := p
    dsimp only
    split
    · rename_i hlt
      have hx := cut_index ha
      rw [List.getElem?_drop] at hx
      rcases h.cases _ hx with e | e
      · -- still there in `b`: it is the first there as well
        cases hc : cut 0x3B (b.drop pos) with
        | none =>
          exfalso
          refine cut_eq_none.1 hc ?_
          have e' : (b.drop pos)[x.length]? = some 0x3B := by rw [List.getElem?_drop]; exact e
          exact List.mem_of_getElem? e'
        | some q =>
          obtain ⟨u, v⟩ := q
          have h1 : u.length ≤ x.length := cut_first hc (by rw [List.getElem?_drop]; exact e)
          have h2 := cut_index hc
          rw [List.getElem?_drop] at h2
          have h3 : x.length ≤ u.length := cut_first ha (by rw [List.getElem?_drop]; exact h.mem _ h2)
          have h4 : u.length = x.length := by omega
          rw [hc] at hb
          dsimp only at hb ⊢
          rw [h4] at hb ⊢
          rw [if_pos hlt] at hb ⊢
          refine (h.trans hb).set_left _ ?_
          rw [List.getElem?_set_self]
          exact (List.getElem?_eq_some_iff.1 e).1
      · refine (h.trans hb).set_left _ ?_
        cases hc : cut 0x3B (b.drop pos) with
        | none => exact e
        | some q =>
          obtain ⟨u, v⟩ := q
          dsimp only
          split
          · rw [List.getElem?_set]
            split
            · rename_i hu
              rw [if_pos (by
                rw [hu]
                exact (List.getElem?_eq_some_iff.1 e).1)]
            · exact e
          · exact e
    · exact h.trans hb

/-- A pass over a related text finds the same chunks. -/
theorem Soft.chunks : (fuel : Nat) → {a b : Bytes} → Soft a b → (pos : Nat) → {t : Bytes} → {cs : List (Nat × Int)} →
    {n : Nat} → chunks fuel a pos = .ok (t, cs, n) →
    ∃ t', chunks fuel b pos = .ok (t', cs, n) ∧ Soft t t' ∧ Soft a t
  | 0, _, _, _, _, _, _, _, h => by cases h
  | fuel + 1, a, b, hs, pos, t, cs, n, h => by
    unfold Http.chunks at h ⊢
    rw [hs.crlfFrom]
    cases hc : Http.crlfFrom a pos with
    | none => rw [hc] at h; cases h
    | some next =>
      rw [hc] at h
      dsimp only at h ⊢
      have hd := hs.dropParam pos next
      have ha := dropParam_soft a pos next
      generalize Http.dropParam a pos next = a1 at h hd ha
      generalize Http.dropParam b pos next = b1 at hd ⊢
      cases hx : Http.scanHex (a1.drop pos) with
      | none => rw [hx] at h; cases h
      | some k =>
        rw [hx] at h
        rw [(hd.drop pos).scanHex hx]
        dsimp only at h ⊢
        by_cases h0 : k = 0
        · rw [if_pos h0] at h ⊢
          cases h
          exact ⟨_, rfl, hd, ha⟩
        · rw [if_neg h0] at h ⊢
          rw [hd.length]
          by_cases h1 : (next : Int) + k + 2 > a1.length
          · rw [if_pos h1] at h; cases h
          · rw [if_neg h1] at h ⊢
            by_cases h2 : (next : Int) + k < 0
            · rw [if_pos h2] at h; cases h
            · rw [if_neg h2] at h ⊢
              generalize ((next : Int) + k).toNat = stop at h ⊢
              by_cases h3 : a1[stop]? ≠ some 0x0D ∨ a1[stop + 1]? ≠ some 0x0A
              · rw [if_pos h3] at h; cases h
              · rw [if_neg h3] at h
                rw [if_neg (by
                  rw [Ne, Ne, hd.getElem? _ _ (by decide) (by decide), hd.getElem? _ _ (by decide) (by decide)]
                  exact h3)]
                obtain ⟨⟨t1, cs1, n1⟩, hr, e⟩ := Out.bind_eq_ok.1 h
                cases e
                obtain ⟨t', hr', hst, hat⟩ := Soft.chunks fuel hd _ hr
                rw [hr', Out.bind_ok]
                exact ⟨t', rfl, hst, ha.trans hat⟩

theorem crlf_some : {s a b : Bytes} → crlf s = some (a, b) → s = a ++ CRLF ++ b
  | [], _, _, h => by cases h
  | c :: s, a, b, h => by
    unfold Http.crlf at h
    split at h
    · rename_i hc
      cases h
      obtain ⟨rfl, h2⟩ := hc
      cases s with
      | nil => cases h2
      | cons d s =>
        simp only [List.head?_cons, Option.some.injEq] at h2
        subst h2
        rfl
    · cases hs : Http.crlf s with
      | none => rw [hs] at h; cases h
      | some p =>
        rw [hs] at h
        cases h
        rw [crlf_some (s := s) (a := p.1) (b := p.2) hs]
        rfl

theorem lineEnd_some : {s a b : Bytes} → lineEnd s = some (a, b) → s = a ++ CRLF ++ b
  | [], _, _, h => by cases h
  | [c], a, b, h => by
    have : lineEnd [c] = none := by
      unfold lineEnd
      split <;> first | rfl | simp_all
    rw [this] at h
    cases h
  | c :: d :: s, a, b, h => by
    by_cases hc : c = 0x0D ∧ d = 0x0A
    · obtain ⟨rfl, rfl⟩ := hc
      cases s with
      | nil =>
        cases h
        rfl
      | cons e s =>
        change (if e = 0x20 ∨ e = 0x09 then (lineEnd s).map (fun p => (0x0D :: 0x0A :: e :: p.1, p.2))
          else some ([], e :: s)) = _ at h
        split at h
        · cases hs : lineEnd s with
          | none => rw [hs] at h; cases h
          | some p =>
            rw [hs] at h
            cases h
            have := lineEnd_some (s := s) (a := p.1) (b := p.2) hs
            rw [List.cons_append, List.cons_append, List.cons_append, List.cons_append, List.cons_append,
              List.cons_append, ← this]
        · cases h
          rfl
    · have : lineEnd (c :: d :: s) = (lineEnd (d :: s)).map (fun p => (c :: p.1, p.2)) := by
        conv => lhs; unfold lineEnd
        split
        · rename_i heq; cases heq; exact absurd ⟨rfl, rfl⟩ hc
        · rename_i heq; cases heq; exact absurd ⟨rfl, rfl⟩ hc
        · rfl
      rw [this] at h
      cases hs : lineEnd (d :: s) with
      | none => rw [hs] at h; cases h
      | some p =>
        rw [hs] at h
        cases h
        have := lineEnd_some (s := d :: s) (a := p.1) (b := p.2) hs
        rw [List.cons_append, List.cons_append, ← this]

theorem crlfFrom_some {t : Bytes} {pos next : Nat} (h : crlfFrom t pos = some next) (hp : pos ≤ t.length) :
    pos + 2 ≤ next ∧ next ≤ t.length ∧ t[next - 2]? = some 0x0D ∧ t[next - 1]? = some 0x0A := by
  unfold crlfFrom at h
  cases hc : crlf (t.drop pos) with
  | none => rw [hc] at h; cases h
  | some p =>
    obtain ⟨a, b⟩ := p
    rw [hc] at h
    simp only [Option.map_some, Option.some.injEq] at h
    have e := crlf_some hc
    have hl := congrArg List.length e
    simp only [List.length_drop, List.length_append, CRLF, List.length_cons, List.length_nil] at hl
    have h0 : (t.drop pos)[a.length]? = some 0x0D := by
      rw [e, List.append_assoc, List.getElem?_append_right (Nat.le_refl _), Nat.sub_self]; rfl
    have h1 : (t.drop pos)[a.length + 1]? = some 0x0A := by
      rw [e, List.append_assoc, List.getElem?_append_right (Nat.le_add_right _ _), Nat.add_sub_cancel_left]; rfl
    rw [List.getElem?_drop] at h0 h1
    refine ⟨by omega, by omega, ?_, ?_⟩
    · rw [show next - 2 = pos + a.length by omega]; exact h0
    · rw [show next - 1 = pos + (a.length + 1) by omega]; exact h1

/-- The number of bytes in the chunks. -/
def sumLen (cs : List (Nat × Int)) : Nat := (cs.map (fun c => c.2.toNat)).sum

/-- The chunks that a pass found are inside the text, from `pos` on. -/
structure Inside (s : Bytes) (pos : Nat) (cs : List (Nat × Int)) (n : Nat) : Prop where
  pos_ : ∀ c ∈ cs, 0 < c.2
  inside : ∀ c ∈ cs, c.1 + c.2.toNat ≤ s.length
  sum : sumLen cs + pos + 2 ≤ n
  next : n ≤ s.length
  last : pos + 2 ≤ n

theorem chunks_safe {s : Bytes} (hs : SmallSizes s) : (fuel : Nat) → {t : Bytes} → Soft s t → (pos : Nat) →
    LineStart s pos → pos ≤ s.length → s.length - pos < fuel →
    chunks fuel t pos ≠ .ub ∧ ∀ t' cs n, chunks fuel t pos = .ok (t', cs, n) → Inside s pos cs n
  | 0, _, _, _, _, _, hf => by omega
  | fuel + 1, t, hst, pos, hl, hp, hf => by
    unfold Http.chunks
    rw [hst.crlfFrom]
    cases hc : Http.crlfFrom s pos with
    | none => exact ⟨by simp, by simp⟩
    | some next =>
      dsimp only
      obtain ⟨n1, n2, n3, n4⟩ := crlfFrom_some hc hp
      have h1 := hst.trans (dropParam_soft t pos next)
      generalize Http.dropParam t pos next = t1 at h1
      cases hx : Http.scanHex (t1.drop pos) with
      | none => exact ⟨by simp, by simp⟩
      | some k =>
        dsimp only
        have hk : 0 ≤ k := hs pos k hl ((h1.blank.drop pos).scanHex hx)
        rw [h1.length]
        by_cases h0 : k = 0
        · rw [if_pos h0]
          refine ⟨by simp, ?_⟩
          intro t' cs n e
          cases e
          exact ⟨by simp, by simp, by simp [sumLen]; omega, n2, n1⟩
        · rw [if_neg h0]
          by_cases h2 : (next : Int) + k + 2 > s.length
          · rw [if_pos h2]; exact ⟨by simp, by simp⟩
          · rw [if_neg h2, if_neg (by omega)]
            obtain ⟨stop, hstop⟩ : ∃ stop : Nat, ((next : Int) + k) = stop := ⟨((next : Int) + k).toNat, by omega⟩
            rw [hstop, Int.toNat_natCast]
            by_cases h3 : t1[stop]? ≠ some 0x0D ∨ t1[stop + 1]? ≠ some 0x0A
            · rw [if_pos h3]; exact ⟨by simp, by simp⟩
            · rw [if_neg h3]
              simp only [ne_eq, not_or, Classical.not_not] at h3
              have hl2 : LineStart s (stop + 2) := by
                refine .inr ⟨by omega, ?_, ?_⟩
                · exact (h1.getElem? _ _ (by decide) (by decide)).1 h3.1
                · exact (h1.getElem? _ _ (by decide) (by decide)).1 h3.2
              obtain ⟨r1, r2⟩ := chunks_safe hs fuel h1 (stop + 2) hl2 (by omega) (by omega)
              refine ⟨?_, ?_⟩
              · intro e
                rcases Out.bind_eq_ub.1 e with e | ⟨a, -, e⟩
                · exact r1 e
                · cases e
              · intro t' cs n e
                obtain ⟨⟨t2, cs2, n2'⟩, hr, e⟩ := Out.bind_eq_ok.1 e
                cases e
                have ih := r2 _ _ _ hr
                refine ⟨?_, ?_, ?_, ih.next, by have := ih.last; dsimp only; omega⟩
                · intro c hm
                  cases hm with
                  | head => dsimp only; omega
                  | tail _ hm => exact ih.pos_ c hm
                · intro c hm
                  cases hm with
                  | head => dsimp only; omega
                  | tail _ hm => exact ih.inside c hm
                · have := ih.sum
                  unfold sumLen at this ⊢
                  simp only [List.map_cons, List.sum_cons]
                  omega

theorem totalLen_ok {cs : List (Nat × Int)} (h : ∀ c ∈ cs, 0 < c.2) : (acc : Nat) → (acc + sumLen cs < 2 ^ 31) →
    totalLen acc cs = .ok ((acc + sumLen cs : Nat) : Int) := by
  induction cs with
  | nil => intro acc _; simp [totalLen, sumLen]
  | cons c cs ih =>
    intro acc ha
    obtain ⟨o, n⟩ := c
    have hn := h (o, n) (by simp)
    have e : sumLen ((o, n) :: cs) = n.toNat + sumLen cs := by simp [sumLen]
    rw [e] at ha ⊢
    unfold totalLen
    dsimp only at hn
    rw [if_pos (by omega)]
    have := ih (fun x hx => h x (List.mem_cons_of_mem _ hx)) (acc + n.toNat) (by omega)
    rw [show ((acc : Int) + n) = ((acc + n.toNat : Nat) : Int) by omega, this, Nat.add_assoc]

theorem gather_ok {t : Bytes} {size : Nat} {cs : List (Nat × Int)} (h : ∀ c ∈ cs, 0 < c.2)
    (hi : ∀ c ∈ cs, c.1 + c.2.toNat ≤ t.length) : (dest : Bytes) → (dest.length + sumLen cs ≤ size) →
    ∃ b, gather t size dest cs = .ok b := by
  induction cs with
  | nil => intro dest _; exact ⟨dest, rfl⟩
  | cons c cs ih =>
    intro dest hd
    obtain ⟨o, n⟩ := c
    have hn := h (o, n) (by simp)
    have ho := hi (o, n) (by simp)
    dsimp only at hn ho
    have e : sumLen ((o, n) :: cs) = n.toNat + sumLen cs := by simp [sumLen]
    rw [e] at hd
    unfold gather
    rw [if_neg (by omega), if_pos (by omega)]
    refine ih (fun x hx => h x (List.mem_cons_of_mem _ hx)) (fun x hx => hi x (List.mem_cons_of_mem _ hx)) _ ?_
    rw [List.length_append, List.length_take, List.length_drop]
    omega

variable {mem : Nat → Bool}

theorem addHeader_ne_ub (a b : Bytes) : addHeader mem a b ≠ .ub := by
  unfold addHeader
  split <;> simp

theorem parseHeaders_ne_ub : (fuel : Nat) → (s : Bytes) → (s.length < fuel) → parseHeaders mem fuel s ≠ .ub
  | 0, _, h => by omega
  | fuel + 1, s, h => by
    unfold parseHeaders
    intro e
    split at e
    · cases e
    · cases e
    · split at e
      · cases e
      · rename_i line rest hle
        split at e
        · cases e
        · rcases Out.bind_eq_ub.1 e with e | ⟨x, -, e⟩
          · exact addHeader_ne_ub _ _ e
          · rcases Out.bind_eq_ub.1 e with e | ⟨y, -, e⟩
            · have := congrArg List.length (lineEnd_some hle)
              simp only [List.length_append, CRLF, List.length_cons, List.length_nil] at this
              exact parseHeaders_ne_ub fuel rest (by omega) e
            · cases e

/-- What is left after the headers. -/
theorem parseHeaders_rest : (fuel : Nat) → (s : Bytes) → {hs : List Header} → {r : Bytes} →
    parseHeaders mem fuel s = .ok (hs, r) → ∃ p, s = p ++ CRLF ++ r
  | 0, _, _, _, h => by cases h
  | fuel + 1, s, hs, r, h => by
    unfold parseHeaders at h
    split at h
    · cases h
    · rename_i rest hc
      cases h
      exact ⟨[], crlf_some hc⟩
    · split at h
      · cases h
      · rename_i line rest hle
        split at h
        · cases h
        · obtain ⟨x, -, h⟩ := Out.bind_eq_ok.1 h
          obtain ⟨⟨y1, y2⟩, hy, h⟩ := Out.bind_eq_ok.1 h
          cases h
          obtain ⟨p, hp⟩ := parseHeaders_rest fuel rest hy
          refine ⟨line ++ CRLF ++ p, ?_⟩
          rw [lineEnd_some hle, hp]
          simp only [List.append_assoc]

theorem parseStart_rest {s : Bytes} {x : Bytes × Bytes × Bytes} {r : Bytes} (h : parseStart mem s = .ok (x, r)) :
    ∃ p, s = p ++ CRLF ++ r := by
  unfold parseStart at h
  split at h
  · cases h
  · rename_i line rest hc
    obtain ⟨_, -, h⟩ := Out.bind_eq_ok.1 h
    obtain ⟨_, -, h⟩ := Out.bind_eq_ok.1 h
    obtain ⟨_, -, h⟩ := Out.bind_eq_ok.1 h
    obtain ⟨_, -, h⟩ := Out.bind_eq_ok.1 h
    obtain ⟨_, -, h⟩ := Out.bind_eq_ok.1 h
    cases h
    exact ⟨line, crlf_some hc⟩

theorem startField_ne_ub (s : Bytes) : startField mem s ≠ .ub := by
  rw [startField_eq]
  split
  · simp
  · split <;> simp

theorem startSplit_ne_ub (s : Bytes) : startSplit s ≠ .ub := by
  unfold startSplit
  split <;> simp

theorem parseStart_ne_ub (s : Bytes) : parseStart mem s ≠ .ub := by
  unfold parseStart
  split
  · simp
  · intro e
    rcases Out.bind_eq_ub.1 e with e | ⟨_, -, e⟩
    · exact startSplit_ne_ub _ e
    rcases Out.bind_eq_ub.1 e with e | ⟨_, -, e⟩
    · exact startField_ne_ub _ e
    rcases Out.bind_eq_ub.1 e with e | ⟨_, -, e⟩
    · exact startSplit_ne_ub _ e
    rcases Out.bind_eq_ub.1 e with e | ⟨_, -, e⟩
    · exact startField_ne_ub _ e
    rcases Out.bind_eq_ub.1 e with e | ⟨_, -, e⟩
    · exact startField_ne_ub _ e
    · cases e

/-- Two passes over a text without negative sizes. -/
theorem parseChunked_ne_ub {s : Bytes} (hs : SmallSizes s) (hl : s.length < 2 ^ 31) : parseChunked mem s ≠ .ub := by
  unfold parseChunked
  obtain ⟨c1, c2⟩ := chunks_safe hs (s.length + 1) (Soft.refl s) 0 (.inl rfl) (by omega) (by omega)
  intro e
  rcases Out.bind_eq_ub.1 e with e | ⟨⟨t, cs, n⟩, hc, e⟩
  · exact c1 e
  have hi := c2 _ _ _ hc
  have h1 := hi.sum
  have h2 := hi.next
  have ht := totalLen_ok hi.pos_ 0 (by omega)
  rw [Nat.zero_add] at ht
  rw [show (0 : Int) = ((0 : Nat) : Int) from rfl] at e
  dsimp only at e
  rw [ht, Out.bind_ok, if_neg (by omega)] at e
  split at e
  · cases e
  rw [if_neg (by omega)] at e
  obtain ⟨t', hc', hst, hat⟩ := Soft.chunks (s.length + 1) (Soft.refl s) 0 hc
  obtain ⟨t'', hc'', hst'', -⟩ := Soft.chunks (s.length + 1) hat 0 hc
  rw [hc'', Out.bind_ok] at e
  dsimp only at e
  have hlen : t''.length = s.length := by rw [hst''.length, hat.length]
  obtain ⟨b, hb⟩ := gather_ok (t := t'') (size := (sumLen cs : Int).toNat + 1) hi.pos_
    (fun c hm => by rw [hlen]; exact hi.inside c hm) [] (by rw [List.length_nil]; omega)
  rw [hb, Out.bind_ok] at e
  rcases Out.bind_eq_ub.1 e with e | ⟨_, -, e⟩
  · exact parseHeaders_ne_ub _ _ (by rw [List.length_drop]; omega) e
  · cases e

theorem smallSizes_suffix {p s : Bytes} (h : SmallSizes (p ++ CRLF ++ s)) : SmallSizes s := by
  intro pos n hl hn
  have hc : (p ++ CRLF).length = p.length + 2 := by rw [List.length_append]; rfl
  refine h ((p ++ CRLF).length + pos) n ?_ ?_
  · rcases hl with rfl | ⟨h1, h2, h3⟩
    · refine .inr ⟨by omega, ?_, ?_⟩
      · rw [List.getElem?_append_left (by omega), List.getElem?_append_right (by omega),
          show (p ++ CRLF).length + 0 - 2 - p.length = 0 by omega]
        rfl
      · rw [List.getElem?_append_left (by omega), List.getElem?_append_right (by omega),
          show (p ++ CRLF).length + 0 - 1 - p.length = 1 by omega]
        rfl
    · refine .inr ⟨by omega, ?_, ?_⟩
      · rw [List.getElem?_append_right (by omega), show (p ++ CRLF).length + pos - 2 - (p ++ CRLF).length = pos - 2 by omega]
        exact h2
      · rw [List.getElem?_append_right (by omega), show (p ++ CRLF).length + pos - 1 - (p ++ CRLF).length = pos - 1 by omega]
        exact h3
  · have e : blank (p ++ CRLF ++ s) = blank (p ++ CRLF) ++ blank s := by
      unfold blank
      rw [List.map_append]
    have hbl : (p ++ CRLF).length = (blank (p ++ CRLF)).length := by unfold blank; rw [List.length_map]
    rw [e, hbl, ← List.drop_drop, List.drop_left]
    exact hn

theorem parseBody_ne_ub {m : HMsg} {s : Bytes} (hs : SmallSizes s) (hl : s.length < 2 ^ 31) : parseBody mem m s ≠ .ub := by
  rw [parseBody_eq]
  intro e
  split at e
  · rcases Out.bind_eq_ub.1 e with e | ⟨_, -, e⟩
    · exact parseChunked_ne_ub hs hl e
    · cases e
  · split at e
    · split at e
      · cases e
      · split at e <;> cases e
    · cases e

theorem parseText_ne_ub {s : Bytes} (hs : SmallSizes s) (hl : s.length < 2 ^ 31) : parseText mem s ≠ .ub := by
  unfold parseText
  intro e
  rcases Out.bind_eq_ub.1 e with e1 | ⟨⟨x, r⟩, h1, e1⟩
  · exact parseStart_ne_ub _ e1
  obtain ⟨p, rfl⟩ := parseStart_rest h1
  rcases Out.bind_eq_ub.1 e1 with e2 | ⟨⟨y, q⟩, h2, e2⟩
  · exact parseHeaders_ne_ub _ _ (Nat.lt_succ_self _) e2
  dsimp only at h2 e2
  obtain ⟨p', rfl⟩ := parseHeaders_rest _ _ h2
  refine parseBody_ne_ub (smallSizes_suffix (smallSizes_suffix hs)) ?_ e2
  simp only [List.length_append] at hl ⊢
  omega

theorem parse_ne_ub {buf : Bytes} (hs : SmallSizes (cstr buf)) (hl : (cstr buf).length < 2 ^ 31) : parse mem buf ≠ .ub := by
  rw [parse_eq]
  intro e
  split at e
  · rcases Out.bind_eq_ub.1 e with e | ⟨_, -, e⟩
    · exact parseText_ne_ub hs hl e
    · cases e
  · cases e

end FreeCoAP.Http
