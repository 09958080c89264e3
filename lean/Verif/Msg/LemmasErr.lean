import Verif.Msg.LemmasParse

/-! # The errors of the parser -/

namespace FreeCoAP.Msg

/-- The only errors are -EBADMSG and -EINVAL. -/
def BadOnly (o : Out α) : Prop := ∀ e, o = .err e → e = .EBADMSG ∨ e = .EINVAL

theorem BadOnly.bind {x : Out α} {f : α → Out β} (hx : BadOnly x) (hf : ∀ a, BadOnly (f a)) : BadOnly (x >>= f) := by
  intro e h
  cases x with
  | ok a => exact hf a e h
  | err e' => cases h; exact hx _ rfl
  | ub => cases h

theorem BadOnly.ok (a : α) : BadOnly (.ok a) := by intro e h; cases h
theorem BadOnly.ub : BadOnly (.ub : Out α) := by intro e h; cases h
theorem BadOnly.pure (a : α) : BadOnly (pure a : Out α) := by intro e h; cases h
theorem BadOnly.badmsg : BadOnly (.err .EBADMSG : Out α) := by intro e h; cases h; exact Or.inl rfl
theorem BadOnly.inval : BadOnly (.err .EINVAL : Out α) := by intro e h; cases h; exact Or.inr rfl
theorem BadOnly.rd (mem : Bytes) (i : Nat) : BadOnly (rd mem i) := by
  unfold FreeCoAP.Msg.rd; split
  · exact .ok _
  · exact .ub
theorem BadOnly.rds (mem : Bytes) (n : Nat) : BadOnly (rds mem n) := by
  unfold FreeCoAP.Msg.rds; split
  · exact .ok _
  · exact .ub

theorem BadOnly.ite {c : Prop} [Decidable c] {x y : Out α} (hx : BadOnly x) (hy : BadOnly y) : BadOnly (if c then x else y) := by
  split
  · exact hx
  · exact hy

theorem parseHdr_bad (mem : Bytes) (len : Nat) : BadOnly (parseHdr mem len) := by
  unfold parseHdr
  refine .ite .badmsg (.bind (.rd _ _) fun p0 => .ite .inval (.ite .badmsg (.bind (.rd _ _) fun p1 => .ite .badmsg
    (.bind (.rd _ _) fun p2 => .bind (.rd _ _) fun p3 => .pure _))))

theorem parseExt_bad (sx : Bool) (nib : Nat) (mem : Bytes) (len : Nat) : BadOnly (parseExt sx nib mem len) := by
  unfold parseExt
  exact .ite (.ite .badmsg (.bind (.rd _ _) fun _ => .pure _))
    (.ite (.ite .badmsg (.bind (.rd _ _) fun _ => .bind (.rd _ _) fun _ => .pure _)) (.pure _))

theorem parseOp_bad (sx : Bool) (acc : List Op) (mem : Bytes) (len : Nat) : BadOnly (parseOp sx acc mem len) := by
  unfold parseOp
  refine .ite .badmsg (.bind (.rd _ _) fun p0 => .ite .badmsg (.bind (parseExt_bad _ _ _ _) fun a => .bind (parseExt_bad _ _ _ _) fun b =>
    .ite .badmsg (.bind (.rds _ _) fun v => .pure _)))

theorem parseOps_bad (sx : Bool) (fuel : Nat) : ∀ acc mem len, BadOnly (parseOps sx fuel acc mem len) := by
  induction fuel with
  | zero => intro acc mem len; exact .ub
  | succ n ih =>
    intro acc mem len
    unfold parseOps
    exact .bind (.rd _ _) fun p0 => .ite (.pure _) (.bind (parseOp_bad _ _ _ _) fun a => .bind (ih _ _ _) fun b => .pure _)

/-- The parser reports nothing but -EBADMSG and -EINVAL when memory is available. -/
theorem parse_err {sx : Bool} {mem : Bytes} {len : Nat} {e : Err} (h : parse sx mem len = .err e) :
    e = .EBADMSG ∨ e = .EINVAL := by
  revert e
  change BadOnly (parse sx mem len)
  unfold parse
  refine .bind (parseHdr_bad _ _) fun h => .bind ?_ fun tok => .bind (parseOps_bad _ _ _ _ _) fun r => .bind ?_ fun p => .bind ?_ fun _ => .pure _
  · unfold parseToken; exact .ite .badmsg (.rds _ _)
  · unfold parsePayload
    exact .ite (.ok _) (.bind (.rd _ _) fun p0 => .ite .badmsg (.ite .badmsg (.rds _ _)))
  · intro e he
    rcases check_cases _ with hc | hc <;> rw [hc] at he <;> cases he
    exact Or.inl rfl

/-! ## Version 1 -/

/-- The only error is -EBADMSG. -/
def OnlyBad (o : Out α) : Prop := ∀ e, o = .err e → e = .EBADMSG

theorem OnlyBad.bind {x : Out α} {f : α → Out β} (hx : OnlyBad x) (hf : ∀ a, OnlyBad (f a)) : OnlyBad (x >>= f) := by
  intro e h
  cases x with
  | ok a => exact hf a e h
  | err e' => cases h; exact hx _ rfl
  | ub => cases h

theorem OnlyBad.ok (a : α) : OnlyBad (.ok a) := by intro e h; cases h
theorem OnlyBad.ub : OnlyBad (.ub : Out α) := by intro e h; cases h
theorem OnlyBad.pure (a : α) : OnlyBad (pure a : Out α) := by intro e h; cases h
theorem OnlyBad.badmsg : OnlyBad (.err .EBADMSG : Out α) := by intro e h; cases h; rfl
theorem OnlyBad.rd (mem : Bytes) (i : Nat) : OnlyBad (rd mem i) := by
  unfold FreeCoAP.Msg.rd; split
  · exact .ok _
  · exact .ub
theorem OnlyBad.rds (mem : Bytes) (n : Nat) : OnlyBad (rds mem n) := by
  unfold FreeCoAP.Msg.rds; split
  · exact .ok _
  · exact .ub

theorem OnlyBad.ite {c : Prop} [Decidable c] {x y : Out α} (hx : OnlyBad x) (hy : OnlyBad y) : OnlyBad (if c then x else y) := by
  split
  · exact hx
  · exact hy

theorem parseHdr_only {b0 : Byte} {mem : Bytes} {len : Nat} (hv : (b0.toNat >>> 6) &&& 0x03 = 1) :
    OnlyBad (parseHdr (b0 :: mem) len) := by
  unfold parseHdr
  refine .ite .badmsg ?_
  rw [show FreeCoAP.Msg.rd (b0 :: mem) 0 = .ok b0 from rfl, Out.bind_ok]
  simp only
  rw [if_neg (by simp [hv])]
  exact .ite .badmsg (.bind (.rd _ _) fun p1 => .ite .badmsg (.bind (.rd _ _) fun p2 => .bind (.rd _ _) fun p3 => .pure _))

theorem parseExt_only (sx : Bool) (nib : Nat) (mem : Bytes) (len : Nat) : OnlyBad (parseExt sx nib mem len) := by
  unfold parseExt
  exact .ite (.ite .badmsg (.bind (.rd _ _) fun _ => .pure _))
    (.ite (.ite .badmsg (.bind (.rd _ _) fun _ => .bind (.rd _ _) fun _ => .pure _)) (.pure _))

theorem parseOp_only (sx : Bool) (acc : List Op) (mem : Bytes) (len : Nat) : OnlyBad (parseOp sx acc mem len) := by
  unfold parseOp
  refine .ite .badmsg (.bind (.rd _ _) fun p0 => .ite .badmsg (.bind (parseExt_only _ _ _ _) fun a => .bind (parseExt_only _ _ _ _) fun b =>
    .ite .badmsg (.bind (.rds _ _) fun v => .pure _)))

theorem parseOps_only (sx : Bool) (fuel : Nat) : ∀ acc mem len, OnlyBad (parseOps sx fuel acc mem len) := by
  induction fuel with
  | zero => intro acc mem len; exact .ub
  | succ n ih =>
    intro acc mem len
    unfold parseOps
    exact .bind (.rd _ _) fun p0 => .ite (.pure _) (.bind (parseOp_only _ _ _ _) fun a => .bind (ih _ _ _) fun b => .pure _)

/-- What is wrong with a message of version 1 is reported as -EBADMSG. -/
theorem parse_only {sx : Bool} {b0 : Byte} {mem : Bytes} {len : Nat} {e : Err} (hv : (b0.toNat >>> 6) &&& 0x03 = 1)
    (h : parse sx (b0 :: mem) len = .err e) : e = .EBADMSG := by
  revert e
  change OnlyBad (parse sx (b0 :: mem) len)
  unfold parse
  refine .bind (parseHdr_only hv) fun h => .bind ?_ fun tok => .bind (parseOps_only _ _ _ _ _) fun r => .bind ?_ fun p => .bind ?_ fun _ => .pure _
  · unfold parseToken; exact .ite .badmsg (.rds _ _)
  · unfold parsePayload
    exact .ite (.ok _) (.bind (.rd _ _) fun p0 => .ite .badmsg (.ite .badmsg (.rds _ _)))
  · intro e he
    rcases check_cases _ with hc | hc <;> rw [hc] at he <;> cases he
    rfl

/-- Other versions are reported as -EINVAL. -/
theorem parse_version {sx : Bool} {b0 : Byte} {mem : Bytes} {len : Nat} (hv : (b0.toNat >>> 6) &&& 0x03 ≠ 1) (hl : 4 ≤ len) :
    parse sx (b0 :: mem) len = .err .EINVAL := by
  unfold parse parseHdr
  rw [if_neg (by omega), show FreeCoAP.Msg.rd (b0 :: mem) 0 = .ok b0 from rfl, Out.bind_ok]
  simp only
  rw [if_pos hv]
  rfl

end FreeCoAP.Msg
