import Verif.Msg.LemmasHeap

/-! # The invariant of the pools with the history of refused requests -/

namespace FreeCoAP.Msg.Heap

variable {g : Geo} {os om : List Nat}

/-- The invariant of the pools, together with how the pools have changed since `h0`. -/
structure J (g : Geo) (h0 h : Heap) (os om : List Nat) : Prop where
  inv : Inv g h os om
  le : Le h0 h

variable {h0 h : Heap}

theorem J.perm (i : J g h0 h os om) {os' om' : List Nat} (hs : os.Perm os') (hm : om.Perm om') : J g h0 h os' om' := ⟨i.inv.perm hs hm, i.le⟩

theorem J.destroy {m : HMsg} (i : J g h0 h (m.ownSmall ++ os) (m.ownMedium ++ om)) : J g h0 (Heap.destroy h m).2 os om ∧ True :=
  ⟨⟨i.inv.destroy.1, i.le.trans (le_destroy _ _)⟩, trivial⟩

theorem J.clearPayload {m : HMsg} (i : J g h0 h os (m.ownMedium ++ om)) :
    J g h0 (Heap.clearPayload h m).2 os ((Heap.clearPayload h m).1.ownMedium ++ om) ∧ (Heap.clearPayload h m).1.ops = m.ops :=
  ⟨⟨i.inv.clearPayload.1, i.le.trans (le_clearPayload _ _)⟩, i.inv.clearPayload.2.1⟩

theorem J.addOp (hg : g.Apart) {m : HMsg} (i : J g h0 h (m.ownSmall ++ os) (m.ownMedium ++ om)) (S num : Nat) (val : Bytes) :
    match Heap.addOp S h m num val with
    | (_, m', h') => J g h0 h' (m'.ownSmall ++ os) (m'.ownMedium ++ om) ∧ True :=
  ⟨⟨(i.inv.addOp hg S num val).1, i.le.trans (le_addOp _ _ _ _ _)⟩, trivial⟩

theorem J.setPayload {m : HMsg} (i : J g h0 h (m.ownSmall ++ os) (m.ownMedium ++ om)) (buf : Bytes) :
    match Heap.setPayload h m buf with
    | (_, m', h') => J g h0 h' (m'.ownSmall ++ os) (m'.ownMedium ++ om) ∧ True :=
  ⟨⟨(i.inv.setPayload buf).1, i.le.trans (le_setPayload _ _ _)⟩, trivial⟩

theorem J.parse (hg : g.Apart) {m : HMsg} (i : J g h0 h (m.ownSmall ++ os) (m.ownMedium ++ om)) (S : Nat) (sx : Bool) (mem : Bytes) (len : Nat) :
    match Heap.parse S sx h m mem len with
    | (_, m', h') => J g h0 h' (m'.ownSmall ++ os) (m'.ownMedium ++ om) ∧ True :=
  ⟨⟨(i.inv.parse hg S sx mem len).1, i.le.trans (le_parse _ _ _ _ _ _)⟩, trivial⟩

theorem J.copy (hg : g.Apart) {m : HMsg} (i : J g h0 h (m.ownSmall ++ os) (m.ownMedium ++ om)) (S : Nat) (src : HMsg) :
    match Heap.copy S h m src with
    | (_, m', h') => J g h0 h' (m'.ownSmall ++ os) (m'.ownMedium ++ om) ∧ True :=
  ⟨⟨(i.inv.copy hg S src).1, i.le.trans (le_copy _ _ _ _)⟩, trivial⟩

/-- Copying fails for lack of a buffer or before a buffer was taken. -/
theorem copy_err {S : Nat} {h h' : Heap} {dst src d : HMsg} {e : Err} (hc : Heap.copy S h dst src = (.err e, d, h')) (he : e ≠ .ENOMEM) :
    d.ownSmall = dst.ownSmall ∧ d.ownMedium = dst.ownMedium := by
  have key : ∀ (l : List HOp) (h : Heap) (x : HMsg), match copyOps S h x l with | (.err e, _, _) => e = .ENOMEM | _ => True := by
    intro l
    induction l with
    | nil => intro h x; trivial
    | cons op l ih =>
      intro h x
      unfold copyOps Heap.addOp
      rcases opNew S h op.num op.val with ⟨r, h1⟩
      cases r with
      | none => rfl
      | some o => exact ih h1 _
  unfold Heap.copy at hc
  split at hc
  · cases hc; exact ⟨rfl, rfl⟩
  split at hc
  · cases hc; exact ⟨rfl, rfl⟩
  split at hc
  · cases hc; exact ⟨rfl, rfl⟩
  dsimp only at hc
  split at hc
  · cases hc; exact ⟨rfl, rfl⟩
  have k := key src.ops h (⟨src.ver, src.type, src.codeClass, src.codeDetail, src.msgId, src.token, dst.ops, dst.payload⟩ : HMsg)
  revert k hc
  rcases copyOps S h _ src.ops with ⟨st, d2, h1⟩
  intro hc k
  cases st with
  | ok u =>
    dsimp only at hc
    unfold Heap.setPayload at hc
    split at hc
    split at hc
    · split at hc
      · cases hc; exact absurd rfl he
      · cases hc
    · cases hc
  | err e1 => cases hc; exact absurd k he
  | ub => cases hc

end FreeCoAP.Msg.Heap
