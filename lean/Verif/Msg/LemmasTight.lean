import Verif.Msg.LemmasParse

/-! # The parser on a datagram that fills its object -/

namespace FreeCoAP.Msg

theorem parseOps_tight {sx : Bool} (x : Byte) (t : Bytes) : ∀ (fuel : Nat) (acc : List Op) (mem : Bytes),
    mem.length < fuel →
    (parseOps sx fuel acc mem mem.length = .ub ∧
      ∃ ops, parseOps sx fuel acc (mem ++ x :: t) mem.length = .ok (ops, mem.length)) ∨
    (parseOps sx fuel acc mem mem.length = parseOps sx fuel acc (mem ++ x :: t) mem.length ∧
      ∀ ops k, parseOps sx fuel acc mem mem.length = .ok (ops, k) → k < mem.length)
  | 0, _, _, hf => by omega
  | fuel + 1, acc, mem, hf => by
    cases mem with
    | nil => left; simp [parseOps, rd]
    | cons a r =>
      generalize hm : a :: r = mem at hf
      have hpos : 0 < mem.length := by rw [← hm]; simp
      clear hm a r
      unfold parseOps
      rw [rd_append hpos, rd_ok hpos, Out.bind_ok, Out.bind_ok]
      by_cases hc : (mem[0].toNat &&& 0xff = 0xff ∨ mem.length = 0)
      · rw [if_pos hc, if_pos hc]
        right
        refine ⟨rfl, ?_⟩
        intro ops k h
        cases h; exact hpos
      · rw [if_neg hc, if_neg hc, parseOp_append (Nat.le_refl _)]
        have b := parseOp_bounds (sx := sx) (acc := acc) (mem := mem) (len := mem.length) (Nat.le_refl _)
        cases e : parseOp sx acc mem mem.length with
        | err e => right; exact ⟨rfl, by intro ops k h; cases h⟩
        | ub => exact absurd e b.1
        | ok r =>
          obtain ⟨op, n⟩ := r
          have hn := b.2 _ _ e
          rw [Out.bind_ok, Out.bind_ok]
          simp only
          rw [drop_append_le (by omega)]
          have ih := parseOps_tight (sx := sx) x t fuel (opListAddLast op acc) (mem.drop n) (by simp; omega)
          rw [List.length_drop] at ih
          rcases ih with ⟨h1, ops, h2⟩ | ⟨h1, h2⟩
          · left
            rw [h1, h2]
            refine ⟨rfl, ops, ?_⟩
            rw [Out.bind_ok]
            simp only [Out.pure_eq, Out.ok.injEq, Prod.mk.injEq, true_and]
            omega
          · right
            rw [← h1]
            refine ⟨rfl, ?_⟩
            intro ops k h
            rw [Out.bind_eq_ok] at h
            obtain ⟨⟨o, j⟩, h3, h4⟩ := h
            have := h2 o j h3
            simp only [Out.pure_eq, Out.ok.injEq, Prod.mk.injEq] at h4
            omega

/-- On a datagram that fills its object the parser either behaves as with one more
byte, or reads one byte too many; the latter happens when, with the byte, no payload
is found. -/
theorem parse_tight {sx : Bool} (x : Byte) (t : Bytes) (mem : Bytes) :
    (parse sx mem mem.length = .ub ∧ ∀ m, parse sx (mem ++ x :: t) mem.length = .ok m → m.payload = []) ∨
    (parse sx mem mem.length = parse sx (mem ++ x :: t) mem.length ∧
      ∀ m, parse sx mem mem.length = .ok m → m.payload ≠ []) := by
  unfold parse
  rw [parseHdr_append (Nat.le_refl _)]
  cases e1 : parseHdr mem mem.length with
  | err e => right; exact ⟨rfl, by intro m h; cases h⟩
  | ub => exact absurd e1 (parseHdr_ne_ub (Nat.le_refl _))
  | ok h =>
    have h4 := (parseHdr_sound (Nat.le_refl _) e1).1
    rw [Out.bind_ok, Out.bind_ok]
    rw [drop_append_le (by omega), parseToken_append (by simp)]
    cases e2 : parseToken h.tokenLen (mem.drop 4) (mem.length - 4) with
    | err e => right; exact ⟨rfl, by intro m h; cases h⟩
    | ub => exact absurd e2 (parseToken_ne_ub (by simp))
    | ok tok =>
      obtain ⟨ht, -⟩ := parseToken_ok (by simp) e2
      rw [Out.bind_ok, Out.bind_ok]
      simp only
      rw [drop_append_le (by omega)]
      have hlen : (mem.drop (4 + h.tokenLen)).length = mem.length - 4 - h.tokenLen := by simp; omega
      have b := parseOps_tight (sx := sx) x t (mem.length - 4 - h.tokenLen + 1) [] (mem.drop (4 + h.tokenLen)) (by omega)
      rw [hlen] at b
      rcases b with ⟨h1, ops, h2⟩ | ⟨h1, h2⟩
      · left
        rw [h1, h2, Out.bind_ub, Out.bind_ok]
        refine ⟨rfl, ?_⟩
        intro m hm
        simp only at hm
        rw [Nat.sub_self] at hm
        simp only [parsePayload, if_true, Out.bind_ok] at hm
        rw [Out.bind_eq_ok] at hm
        obtain ⟨_, -, hm⟩ := hm
        cases hm; rfl
      · right
        rw [← h1]
        cases e3 : parseOps sx (mem.length - 4 - h.tokenLen + 1) [] (mem.drop (4 + h.tokenLen))
            (mem.length - 4 - h.tokenLen) with
        | err e => exact ⟨rfl, by intro m h; cases h⟩
        | ub => exact ⟨rfl, by intro m h; cases h⟩
        | ok r =>
          obtain ⟨ops, n⟩ := r
          have hn := h2 _ _ e3
          rw [Out.bind_ok, Out.bind_ok]
          simp only
          rw [drop_append_le (by omega), parsePayload_append (by simp; omega)]
          refine ⟨rfl, ?_⟩
          intro m hm
          rw [Out.bind_eq_ok] at hm
          obtain ⟨pl, e4, hm⟩ := hm
          have hp := parsePayload_sound (by simp; omega) e4
          rw [Out.bind_eq_ok] at hm
          obtain ⟨_, -, hm⟩ := hm
          cases hm
          simp only
          rintro rfl
          generalize hd : ((mem.drop (4 + h.tokenLen)).drop n).take (mem.length - 4 - h.tokenLen - n) = z at hp
          have : z.length = mem.length - 4 - h.tokenLen - n := by rw [← hd]; simp; omega
          cases hp with
          | none => simp at this; omega
          | some _ h => exact h rfl

end FreeCoAP.Msg
