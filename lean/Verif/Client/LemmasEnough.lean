import Verif.Client.SpecEnough
import Verif.Client.PropsBuf
import Verif.Msg.LemmasHeapPlenty
import Verif.Msg.LemmasParse

/-! # Lemmas about a client with enough buffers -/

namespace FreeCoAP.Client.Buf

open FreeCoAP.Msg.Heap

variable {g : Geo} {os om : List Nat} {h : Heap} {S k l : Nat} {sx : Bool}

/-- There is room for two messages. -/
structure Roomy (g : Geo) (S k l : Nat) (os om : List Nat) : Prop where
  s : S ≤ g.ls
  l : l ≤ g.lm
  ks : os.length + 2 * k ≤ g.ns
  km : om.length + 2 * (k + 1) ≤ g.nm

theorem Roomy.one (r : Roomy g S k l os om) {a : HMsg} (fa : Fits k l a) : Space g S k l (a.ownSmall ++ os) (a.ownMedium ++ om) := by
  have a1 := fa.small
  have a2 := fa.medium
  have := r.ks
  have := r.km
  refine ⟨r.s, r.l, ?_, ?_⟩ <;> simp only [List.length_append] <;> omega

/-- The function has returned: only the response is left. -/
structure Gone (g : Geo) (k l : Nat) (r : Ret) (os om : List Nat) : Prop where
  inv : N g r.heap (r.resp.ownSmall ++ os) (r.resp.ownMedium ++ om)
  fits : Fits k l r.resp
  left : r.left.flatMap HMsg.ownSmall = [] ∧ r.left.flatMap HMsg.ownMedium = []

/-- After one pass of the loop. -/
def Passed (g : Geo) (k l : Nat) (os om : List Nat) (o : Out (Ret ⊕ HMsg × Heap)) : Prop :=
  (∃ r, o = .ok (.inl r) ∧ Gone g k l r os om) ∨
  ∃ resp h, o = .ok (.inr (resp, h)) ∧ N g h (resp.ownSmall ++ os) (resp.ownMedium ++ om) ∧ Fits k l resp

theorem gone_destroyed {msg resp : HMsg} {st : Option Err} (i : N g h (msg.ownSmall ++ (resp.ownSmall ++ os)) (msg.ownMedium ++ (resp.ownMedium ++ om)))
    (f : Fits k l resp) : Gone g k l ⟨st, [(destroy h msg).1], resp, (destroy h msg).2⟩ os om :=
  ⟨i.destroy, f, rfl, rfl⟩

theorem exchange_enough (hg : g.Apart) {os om : List Nat} (sp : Space g S k l os om) : ∀ (ds : List (Bytes × Nat)) {h : Heap} {resp : HMsg},
    N g h (resp.ownSmall ++ os) (resp.ownMedium ++ om) → Fits k l resp → (∀ mem len, (mem, len) ∈ ds → len < mem.length ∧ Few sx k l mem len) →
    ∃ resp' h', exchange S sx h resp ds = .ok (resp', h') ∧ N g h' (resp'.ownSmall ++ os) (resp'.ownMedium ++ om) ∧ Fits k l resp'
  | [], h, resp, i, f, _ => ⟨resp, h, rfl, i, f⟩
  | (mem, len) :: ds, h, resp, i, f, hd => by
    obtain ⟨h1, h2⟩ := hd mem len List.mem_cons_self
    have j := i.parse hg h2 sp
    have k1 := parse_refines S sx h resp mem len
    unfold exchange
    revert j k1
    rcases Msg.Heap.parse S sx h resp mem len with ⟨st, m, h'⟩
    intro j k1
    have ih := exchange_enough hg sp ds j.1 j.2 (fun a b hab => hd a b (List.mem_cons_of_mem _ hab))
    cases st with
    | ub => exact absurd k1 (Msg.parse_ne_ub h1)
    | err e => exact ih
    | ok u => exact ih

theorem finish_enough {msg resp : HMsg} {r : Round} (i : N g h (msg.ownSmall ++ (resp.ownSmall ++ os)) (msg.ownMedium ++ (resp.ownMedium ++ om)))
    (f : Fits k l resp) : Passed g k l os om (finish S sx h msg resp r) := by
  unfold finish
  split
  · exact Or.inl ⟨_, rfl, gone_destroyed i f⟩
  · exact Or.inr ⟨_, _, rfl, i.destroy.destroy, fits_create k l⟩

theorem trade_enough (hg : g.Apart) {msg resp : HMsg} {r : Round}
    (i : N g h (msg.ownSmall ++ (resp.ownSmall ++ os)) (msg.ownMedium ++ (resp.ownMedium ++ om))) (ro : Roomy g S k l os om) (fm : Fits k l msg)
    (f : Fits k l resp) (hr : Small sx k l r) : Passed g k l os om (trade S sx h msg resp r) := by
  obtain ⟨resp', h', e1, i1, f1⟩ := exchange_enough hg (ro.one fm) r.datagrams (i.perm (swap3 _ _ _) (swap3 _ _ _)) f hr.datagrams
  have i2 := i1.perm (swap3 _ _ _) (swap3 _ _ _)
  unfold trade
  rw [e1]
  dsimp only
  split
  · exact Or.inl ⟨_, rfl, gone_destroyed i2 f1⟩
  · exact finish_enough i2 f1

theorem leave_enough {msg resp : HMsg} {e : Err} (i : N g h (msg.ownSmall ++ (resp.ownSmall ++ os)) (msg.ownMedium ++ (resp.ownMedium ++ om)))
    (f : Fits k l resp) : Passed g k l os om (leave e h msg resp) := Or.inl ⟨_, rfl, gone_destroyed i f⟩

theorem withPayload_enough (hg : g.Apart) {msg resp : HMsg} {r : Round}
    (i : N g h (msg.ownSmall ++ (resp.ownSmall ++ os)) (msg.ownMedium ++ (resp.ownMedium ++ om))) (ro : Roomy g S k l os om) (fm : Fits k l msg)
    (f : Fits k l resp) (hr : Small sx k l r) : Passed g k l os om (withPayload S sx h msg resp r) := by
  obtain ⟨m', h', e1, i1, f1⟩ := i.setPayload (S := S) fm (ro.one f) hr.payload
  unfold withPayload
  rw [e1]
  exact trade_enough hg i1 ro f1 f hr

/-- The request is copied, or it cannot be copied and no buffer was taken. -/
theorem copy_enough (hg : g.Apart) {req resp : HMsg} (i : N g h (resp.ownSmall ++ os) (resp.ownMedium ++ om)) (ro : Roomy g S (k + 2) l os om)
    (fq : Fits k l req) (f : Fits (k + 2) l resp) :
    (∃ msg h', copy S h create req = (.ok (), msg, h') ∧ N g h' (msg.ownSmall ++ (resp.ownSmall ++ os)) (msg.ownMedium ++ (resp.ownMedium ++ om)) ∧
      Fits k l msg) ∨
    ∃ msg h', copy S h create req = (.err .EINVAL, msg, h') ∧ Gone g (k + 2) l ⟨some .EINVAL, [msg], resp, h'⟩ os om := by
  have sp := ro.one f
  have sp' : Space g S k l (resp.ownSmall ++ os) (resp.ownMedium ++ om) := ⟨sp.s, sp.l, by have := sp.ks; omega, by have := sp.km; omega⟩
  obtain ⟨st, msg, h', e, hst, i1, f1⟩ := N.copy (j := 0) (k := k) (m := create) (src := req) (S := S) (k' := k) hg i (fits_create 0 l) fq
    (by rw [Nat.zero_add]; exact fq.count) sp'
  rcases hst with rfl | rfl
  · exact Or.inl ⟨_, _, e, i1, f1⟩
  · refine Or.inr ⟨_, _, e, ?_⟩
    obtain ⟨c1, c2⟩ := copy_err e (by decide)
    have c1 : msg.ownSmall = [] := c1
    have c2 : msg.ownMedium = [] := c2
    rw [c1, c2] at i1
    exact ⟨i1, f, by simp [c1], by simp [c2]⟩

theorem round1_enough (hg : g.Apart) {req resp : HMsg} {r : Round} (i : N g h (resp.ownSmall ++ os) (resp.ownMedium ++ om))
    (ro : Roomy g S (k + 2) l os om) (fq : Fits k l req) (f : Fits (k + 2) l resp) (hr : Small sx (k + 2) l r) :
    Passed g (k + 2) l os om (round1 S sx h req resp r) := by
  unfold round1
  rcases copy_enough hg i ro fq f with ⟨msg, h1, e, i1, f1⟩ | ⟨msg, h1, e, j⟩
  · rw [e]
    dsimp only
    split
    · exact leave_enough i1 f
    have sp := ro.one f
    obtain ⟨m2, h2, e2, i2, f2⟩ := i1.addOp hg (S := S) (num := 27) (val := r.val) f1
      ⟨sp.s, sp.l, by have := sp.ks; omega, by have := sp.km; omega⟩ hr.val
    rw [e2]
    dsimp only
    split
    · split
      · exact leave_enough i2 f
      obtain ⟨m3, h3, e3, i3, f3⟩ := i2.addOp hg (S := S) (num := 23) (val := r.val2) f2 sp hr.val2
      rw [e3]
      exact withPayload_enough hg i3 ro f3 f hr
    · exact withPayload_enough hg i2 ro (f2.mono (by omega)) f hr
  · rw [e]
    exact Or.inl ⟨_, rfl, j⟩

theorem round2_enough (hg : g.Apart) {req resp : HMsg} {hv : Bool} {r : Round} (i : N g h (resp.ownSmall ++ os) (resp.ownMedium ++ om))
    (ro : Roomy g S (k + 2) l os om) (fq : Fits k l req) (f : Fits (k + 2) l resp) (hr : Small sx (k + 2) l r) :
    Passed g (k + 2) l os om (round2 S sx h req resp hv r) := by
  unfold round2
  split
  · exact finish_enough (msg := create) i f
  rcases copy_enough hg i ro fq f with ⟨msg, h1, e, i1, f1⟩ | ⟨msg, h1, e, j⟩
  · rw [e]
    dsimp only
    split
    · exact leave_enough i1 f
    have sp := ro.one f
    obtain ⟨m2, h2, e2, i2, f2⟩ := i1.addOp hg (S := S) (num := 23) (val := r.val) f1
      ⟨sp.s, sp.l, by have := sp.ks; omega, by have := sp.km; omega⟩ hr.val
    rw [e2]
    exact trade_enough hg i2 ro (f2.mono (by omega)) f hr
  · rw [e]
    exact Or.inl ⟨_, rfl, j⟩

/-- The result of an exchange, if it returns. -/
def Returned (g : Geo) (k l : Nat) (os om : List Nat) (o : Out (Option Ret)) : Prop := ∃ x, o = .ok x ∧ ∀ r, x = some r → Gone g k l r os om

theorem blockwise1_enough (hg : g.Apart) {req : HMsg} (ro : Roomy g S (k + 2) l os om) (fq : Fits k l req) : ∀ (rs : List Round) {h : Heap} {resp : HMsg},
    N g h (resp.ownSmall ++ os) (resp.ownMedium ++ om) → Fits (k + 2) l resp → (∀ r ∈ rs, Small sx (k + 2) l r) →
    Returned g (k + 2) l os om (blockwise1 S sx h req resp rs)
  | [], _, _, _, _, _ => ⟨none, rfl, fun r hr => by cases hr⟩
  | r :: rs, h, resp, i, f, hs => by
    unfold blockwise1
    rcases round1_enough hg i ro fq f (hs r List.mem_cons_self) with ⟨x, e, j⟩ | ⟨resp', h', e, i', f'⟩
    · rw [e]
      exact ⟨some x, rfl, fun r hr => by cases hr; exact j⟩
    · rw [e]
      exact blockwise1_enough hg ro fq rs i' f' (fun x hx => hs x (List.mem_cons_of_mem _ hx))

theorem blockwise2_enough (hg : g.Apart) {req : HMsg} (ro : Roomy g S (k + 2) l os om) (fq : Fits k l req) : ∀ (rs : List Round) (hv : Bool) {h : Heap}
    {resp : HMsg}, N g h (resp.ownSmall ++ os) (resp.ownMedium ++ om) → Fits (k + 2) l resp → (∀ r ∈ rs, Small sx (k + 2) l r) →
    Returned g (k + 2) l os om (blockwise2 S sx h req resp hv rs)
  | [], _, _, _, _, _, _ => ⟨none, rfl, fun r hr => by cases hr⟩
  | r :: rs, hv, h, resp, i, f, hs => by
    unfold blockwise2
    rcases round2_enough (hv := hv) hg i ro fq f (hs r List.mem_cons_self) with ⟨x, e, j⟩ | ⟨resp', h', e, i', f'⟩
    · rw [e]
      exact ⟨some x, rfl, fun r hr => by cases hr; exact j⟩
    · rw [e]
      exact blockwise2_enough hg ro fq rs false i' f' (fun x hx => hs x (List.mem_cons_of_mem _ hx))

theorem blockwise_enough (hg : g.Apart) {req resp : HMsg} {get hv more : Bool} {rs1 rs2 : List Round} (ro : Roomy g S (k + 2) l os om) (fq : Fits k l req)
    (i : N g h (resp.ownSmall ++ os) (resp.ownMedium ++ om)) (f : Fits (k + 2) l resp) (h1 : ∀ r ∈ rs1, Small sx (k + 2) l r)
    (h2 : ∀ r ∈ rs2, Small sx (k + 2) l r) : Returned g (k + 2) l os om (blockwise S sx h req resp get hv more rs1 rs2) := by
  unfold blockwise
  split
  · exact blockwise2_enough hg ro fq rs2 hv i f h2
  · obtain ⟨x, e, hx⟩ := blockwise1_enough (sx := sx) hg ro fq rs1 i f h1
    rw [e]
    cases x with
    | none => exact ⟨none, rfl, fun r hr => by cases hr⟩
    | some y =>
      have j := hx y rfl
      dsimp only
      split
      · obtain ⟨z, e2, hz⟩ := blockwise2_enough (sx := sx) hg ro fq rs2 true j.inv j.fits h2
        rw [e2]
        cases z with
        | none => exact ⟨none, rfl, fun r hr => by cases hr⟩
        | some w =>
          have jw := hz w rfl
          refine ⟨_, rfl, fun r hr => ?_⟩
          cases hr
          refine ⟨jw.inv, jw.fits, ?_, ?_⟩
          · rw [List.flatMap_append, j.left.1, jw.left.1]; rfl
          · rw [List.flatMap_append, j.left.2, jw.left.2]; rfl
      · exact ⟨_, rfl, fun r hr => by cases hr; exact j⟩

end FreeCoAP.Client.Buf
