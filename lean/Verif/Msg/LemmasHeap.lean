import Verif.Msg.HeapSpec
import Verif.Mem.Lemmas
import Verif.Msg.LemmasMisc

/-! # Lemmas on the buffers of messages -/

namespace FreeCoAP.Msg.Heap

open FreeCoAP.Mem (Pool Call Rel held specAlloc)

@[simp] theorem plAddr_none : plAddr none = [] := rfl
@[simp] theorem plAddr_some (p : Nat × Bytes) : plAddr (some p) = [p.1] := rfl
@[simp] theorem plBytes_none : plBytes none = [] := rfl
@[simp] theorem plBytes_some (p : Nat × Bytes) : plBytes (some p) = p.2 := rfl

theorem held_append : ∀ (l : List (Call × Option Nat)) (h : List Nat) (t : List (Call × Option Nat)),
    held h (l ++ t) = held (held h l) t
  | [], h, t => rfl
  | (.alloc _, some p) :: l, h, t => held_append l (p :: h) t
  | (.alloc _, none) :: l, h, t => held_append l h t
  | (.free p, _) :: l, h, t => held_append l (h.filter (· ≠ p)) t

theorem Clean_append : ∀ (l : List (Call × Option Nat)) (h : List Nat) (t : List (Call × Option Nat)),
    Clean h (l ++ t) ↔ Clean h l ∧ Clean (held h l) t
  | [], h, t => by simp [Clean, held]
  | (.alloc _, some p) :: l, h, t => by
    simpa only [List.cons_append, Clean, held] using Clean_append l (p :: h) t
  | (.alloc _, none) :: l, h, t => by
    simpa only [List.cons_append, Clean, held] using Clean_append l h t
  | (.free p, _) :: l, h, t => by
    simp only [List.cons_append, Clean, held, and_assoc]
    exact and_congr_right fun _ => Clean_append l (h.filter (· ≠ p)) t

/-- Geometry of the two pools. -/
structure Geo where
  bs : Nat
  ns : Nat
  ls : Nat
  bm : Nat
  nm : Nat
  lm : Nat

/-- No buffer address of the small pool is one of the medium pool. -/
def Geo.Apart (g : Geo) : Prop := ∀ i j, i < g.ns → j < g.nm → g.bs + i * g.ls ≠ g.bm + j * g.lm

/-- The invariant: `os` and `om` are the buffers owned in the small and medium pools. -/
structure Inv (g : Geo) (h : Heap) (os om : List Nat) : Prop where
  relS : Rel h.small g.bs g.ns g.ls (held [] h.smallLog)
  relM : Rel h.medium g.bm g.nm g.lm (held [] h.mediumLog)
  permS : (held [] h.smallLog).Perm (os ++ h.lost)
  permM : (held [] h.mediumLog).Perm om
  cleanS : Clean [] h.smallLog
  cleanM : h.lost = [] → Clean [] h.mediumLog

variable {g : Geo} {h : Heap} {os om : List Nat}

theorem Inv.perm (i : Inv g h os om) {os' om' : List Nat} (hs : os.Perm os') (hm : om.Perm om') : Inv g h os' om' :=
  ⟨i.relS, i.relM, i.permS.trans (hs.append_right _), i.permM.trans hm, i.cleanS, i.cleanM⟩

theorem Inv.smallAlloc (i : Inv g h os om) (l : Nat) :
    (h.smallAlloc l).1 = specAlloc g.bs g.ns g.ls (held [] h.smallLog) l ∧
    (h.smallAlloc l).2.lost = h.lost ∧
    (h.smallAlloc l).2.mediumLog = h.mediumLog ∧
    match (h.smallAlloc l).1 with
    | none => Inv g (h.smallAlloc l).2 os om
    | some p => Inv g (h.smallAlloc l).2 (p :: os) om := by
  obtain ⟨h1, h2⟩ := i.relS.alloc l
  refine ⟨h1, rfl, rfl, ?_⟩
  simp only [Heap.smallAlloc]
  rw [← h1] at h2
  cases hr : (h.small.alloc l).1 with
  | none =>
    rw [hr] at h2
    refine ⟨?_, i.relM, ?_, i.permM, ?_, i.cleanM⟩
    · simpa only [held_append, held] using h2
    · simpa only [held_append, held] using i.permS
    · simp only [Clean_append, Clean, and_true]; exact i.cleanS
  | some p =>
    rw [hr] at h2
    refine ⟨?_, i.relM, ?_, i.permM, ?_, i.cleanM⟩
    · simpa only [held_append, held] using h2
    · simp only [held_append, held]; exact i.permS.cons p
    · simp only [Clean_append, Clean, and_true]; exact i.cleanS

theorem Inv.mediumAlloc (i : Inv g h os om) (l : Nat) :
    (h.mediumAlloc l).1 = specAlloc g.bm g.nm g.lm (held [] h.mediumLog) l ∧
    (h.mediumAlloc l).2.lost = h.lost ∧
    (h.mediumAlloc l).2.smallLog = h.smallLog ∧
    match (h.mediumAlloc l).1 with
    | none => Inv g (h.mediumAlloc l).2 os om
    | some p => Inv g (h.mediumAlloc l).2 os (p :: om) := by
  obtain ⟨h1, h2⟩ := i.relM.alloc l
  refine ⟨h1, rfl, rfl, ?_⟩
  simp only [Heap.mediumAlloc]
  rw [← h1] at h2
  cases hr : (h.medium.alloc l).1 with
  | none =>
    rw [hr] at h2
    refine ⟨i.relS, ?_, i.permS, ?_, i.cleanS, ?_⟩
    · simpa only [held_append, held] using h2
    · simpa only [held_append, held] using i.permM
    · intro hl; simp only [Clean_append, Clean, and_true]; exact i.cleanM hl
  | some p =>
    rw [hr] at h2
    refine ⟨i.relS, ?_, i.permS, ?_, i.cleanS, ?_⟩
    · simpa only [held_append, held] using h2
    · simp only [held_append, held]; exact i.permM.cons p
    · intro hl; simp only [Clean_append, Clean, and_true]; exact i.cleanM hl

theorem filter_perm_cons {l os : List Nat} {p : Nat} (hn : l.Nodup) (h : l.Perm (p :: os)) :
    (l.filter (· ≠ p)).Perm os := by
  have h2 := h.filter (fun q => decide (q ≠ p))
  have hnd := h.nodup_iff.1 hn
  rw [List.nodup_cons] at hnd
  have : (p :: os).filter (fun q => decide (q ≠ p)) = os := by
    rw [List.filter_cons_of_neg (by simp)]
    apply List.filter_eq_self.2
    intro a ha
    simp only [decide_eq_true_eq]
    rintro rfl
    exact hnd.1 ha
  rwa [this] at h2

theorem Inv.smallFree {p : Nat} (i : Inv g h (p :: os) om) : Inv g (h.smallFree p) os om := by
  refine ⟨?_, i.relM, ?_, i.permM, ?_, i.cleanM⟩
  · simpa only [Heap.smallFree, held_append, held] using i.relS.free p
  · simp only [Heap.smallFree, held_append, held]
    exact filter_perm_cons i.relS.nodup i.permS
  · simp only [Heap.smallFree, Clean_append, Clean, and_true]
    exact ⟨i.cleanS, i.permS.mem_iff.2 (by simp)⟩

theorem Inv.mediumFree {p : Nat} (i : Inv g h os (p :: om)) : Inv g (h.mediumFree p) os om := by
  refine ⟨i.relS, ?_, i.permS, ?_, i.cleanS, ?_⟩
  · simpa only [Heap.mediumFree, held_append, held] using i.relM.free p
  · simp only [Heap.mediumFree, held_append, held]
    exact filter_perm_cons i.relM.nodup i.permM
  · intro hl
    simp only [Heap.mediumFree, Clean_append, Clean, and_true]
    exact ⟨i.cleanM hl, i.permM.mem_iff.2 (by simp)⟩

/-- The mistaken free of line 209 has no effect on the medium pool. -/
theorem Inv.lose {p : Nat} (hg : g.Apart) (i : Inv g h (p :: os) om) :
    Inv g { h.mediumFree p with lost := p :: h.lost } os om := by
  have hp : p ∈ held [] h.smallLog := i.permS.mem_iff.2 (by simp)
  have hnot : p ∉ held [] h.mediumLog := by
    intro hm
    obtain ⟨a, ha, e1⟩ := i.relS.mem p hp
    obtain ⟨b, hb, e2⟩ := i.relM.mem p hm
    exact hg a b ha hb (e1.symm.trans e2)
  have hf : (held [] h.mediumLog).filter (· ≠ p) = held [] h.mediumLog := by
    apply List.filter_eq_self.2
    intro a ha
    simp only [decide_eq_true_eq]
    rintro rfl
    exact hnot ha
  refine ⟨i.relS, ?_, ?_, ?_, i.cleanS, ?_⟩
  · simp only [Heap.mediumFree, held_append, held]; exact i.relM.free p
  · exact i.permS.trans (by simpa using List.perm_middle.symm)
  · simp only [Heap.mediumFree, held_append, held]
    rw [hf]; exact i.permM
  · intro hl; simp at hl

theorem Inv.opNew (hg : g.Apart) (i : Inv g h os om) (S num : Nat) (val : Bytes) :
    match opNew S h num val with
    | (none, h') => Inv g h' os om ∧ (h'.lost = [] → h.lost = [])
    | (some o, h') => Inv g h' (o.addr :: os) (o.valAddr :: om) ∧ o.num = num ∧ o.val = val ∧ h'.lost = h.lost := by
  unfold Heap.opNew
  obtain ⟨-, h2, -, h4⟩ := i.smallAlloc S
  revert h4 h2
  rcases h.smallAlloc S with ⟨r, h1⟩
  cases r with
  | none =>
    intro hl hi
    simp only at hl hi ⊢
    exact ⟨hi, fun e => by rw [← hl]; exact e⟩
  | some p =>
    intro hl hi
    simp only at hl hi ⊢
    obtain ⟨-, g2, -, g4⟩ := hi.mediumAlloc val.length
    revert g4 g2
    rcases h1.mediumAlloc val.length with ⟨r2, h2⟩
    cases r2 with
    | none =>
      intro gl gi
      simp only at gl gi ⊢
      exact ⟨gi.lose hg, fun e => by simp at e⟩
    | some v =>
      intro gl gi
      simp only at gl gi ⊢
      exact ⟨gi, trivial, trivial, by rw [gl, hl]⟩

theorem Inv.listDestroy : ∀ (ops : List HOp) {h : Heap}, Inv g h (ops.map (·.addr) ++ os) (ops.map (·.valAddr) ++ om) →
    Inv g (listDestroy h ops) os om
  | [], _, i => i
  | op :: rest, h, i => by
    unfold Heap.listDestroy opDelete
    simp only [List.map_cons, List.cons_append] at i
    exact Inv.listDestroy rest i.mediumFree.smallFree

theorem listDestroy_lost : ∀ (ops : List HOp) (h : Heap), (listDestroy h ops).lost = h.lost
  | [], _ => rfl
  | _ :: rest, h => listDestroy_lost rest _

theorem Inv.clearPayload {m : HMsg} (i : Inv g h os (m.ownMedium ++ om)) :
    Inv g (clearPayload h m).2 os ((clearPayload h m).1.ownMedium ++ om) ∧
    (clearPayload h m).1.ops = m.ops ∧ (clearPayload h m).2.lost = h.lost ∧
    (clearPayload h m).1 = { m with payload := none } := by
  unfold Heap.clearPayload
  rcases m with ⟨v, t, cc, cd, mi, tk, ops, pl⟩
  cases pl with
  | none => exact ⟨i, rfl, rfl, rfl⟩
  | some p =>
    refine ⟨?_, rfl, rfl, rfl⟩
    simp only [HMsg.ownMedium] at i ⊢
    have : (ops.map (·.valAddr) ++ [p.1] ++ om).Perm (p.1 :: (ops.map (·.valAddr) ++ om)) := by
      simpa using List.perm_middle
    simpa using (i.perm (List.Perm.refl _) this).mediumFree

theorem Inv.destroy {m : HMsg} (i : Inv g h (m.ownSmall ++ os) (m.ownMedium ++ om)) :
    Inv g (destroy h m).2 os om ∧ (destroy h m).1 = zero ∧ (destroy h m).2.lost = h.lost := by
  have hz : (Heap.destroy h m).1 = zero := rfl
  refine ⟨?_, hz, ?_⟩
  · unfold Heap.destroy
    rcases m with ⟨v, t, cc, cd, mi, tk, ops, pl⟩
    simp only [HMsg.ownSmall, HMsg.ownMedium, List.append_assoc] at i
    have j := Inv.listDestroy ops i
    unfold Heap.clearPayload
    cases pl with
    | none => simpa using j
    | some p =>
      simp only at j ⊢
      exact j.mediumFree
  · unfold Heap.destroy Heap.clearPayload
    rcases m with ⟨v, t, cc, cd, mi, tk, ops, pl⟩
    cases pl with
    | none => exact listDestroy_lost _ _
    | some p => exact listDestroy_lost _ _

theorem opInsertAfter_perm (op : HOp) : ∀ (l : List HOp) (prev : HOp),
    (opInsertAfter op prev l).Perm (op :: prev :: l)
  | [], prev => List.Perm.swap _ _ _
  | x :: xs, prev => by
    unfold Heap.opInsertAfter
    split
    · exact List.Perm.swap _ _ _
    · exact ((opInsertAfter_perm op xs x).cons prev).trans (List.Perm.swap _ _ _)

theorem opInsert_perm (op : HOp) (l : List HOp) : (opInsert op l).Perm (op :: l) := by
  cases l with
  | nil => exact List.Perm.refl _
  | cons x xs =>
    simp only [opInsert]
    split
    · exact List.Perm.refl _
    · exact opInsertAfter_perm op xs x

theorem opInsertAfter_abs (op : HOp) : ∀ (l : List HOp) (prev : HOp),
    (opInsertAfter op prev l).map HOp.abs = Msg.opInsertAfter op.abs prev.abs (l.map HOp.abs)
  | [], prev => rfl
  | x :: xs, prev => by
    unfold Heap.opInsertAfter
    simp only [List.map_cons, Msg.opInsertAfter]
    have e : (prev.abs.num ≤ op.abs.num ∧ op.abs.num < x.abs.num) ↔ (prev.num ≤ op.num ∧ op.num < x.num) := Iff.rfl
    by_cases hc : prev.num ≤ op.num ∧ op.num < x.num
    · rw [if_pos hc, if_pos (e.2 hc)]; rfl
    · rw [if_neg hc, if_neg (fun h => hc (e.1 h)), List.map_cons, opInsertAfter_abs]

theorem opInsert_abs (op : HOp) (l : List HOp) : (opInsert op l).map HOp.abs = opListAdd op.abs (l.map HOp.abs) := by
  cases l with
  | nil => rfl
  | cons x xs =>
    simp only [opInsert, List.map_cons, opListAdd]
    by_cases hc : op.num < x.num
    · rw [if_pos hc, if_pos (show op.abs.num < x.abs.num from hc)]; rfl
    · rw [if_neg hc, if_neg (show ¬ op.abs.num < x.abs.num from hc)]; exact opInsertAfter_abs op xs x

theorem Inv.addOp (hg : g.Apart) {m : HMsg} (i : Inv g h (m.ownSmall ++ os) (m.ownMedium ++ om)) (S num : Nat) (val : Bytes) :
    match addOp S h m num val with
    | (_, m', h') => Inv g h' (m'.ownSmall ++ os) (m'.ownMedium ++ om) ∧ (h'.lost = [] → h.lost = []) := by
  unfold Heap.addOp
  have j := i.opNew hg S num val
  revert j
  rcases Heap.opNew S h num val with ⟨r, h1⟩
  cases r with
  | none => intro j; exact j
  | some o =>
    intro j
    simp only at j ⊢
    refine ⟨j.1.perm ?_ ?_, fun e => by rw [← j.2.2.2]; exact e⟩
    · have := ((opInsert_perm o m.ops).map (·.addr)).append_right os
      simpa [HMsg.ownSmall] using this.symm
    · have := ((opInsert_perm o m.ops).map (·.valAddr)).symm
      simp only [HMsg.ownMedium, List.append_assoc]
      have := this.append_right (plAddr m.payload ++ om)
      simpa using this

theorem Inv.setPayload {m : HMsg} (i : Inv g h (m.ownSmall ++ os) (m.ownMedium ++ om)) (buf : Bytes) :
    match setPayload h m buf with
    | (_, m', h') => Inv g h' (m'.ownSmall ++ os) (m'.ownMedium ++ om) ∧ (h'.lost = [] → h.lost = []) := by
  unfold Heap.setPayload
  obtain ⟨c1, c2, c3, c4⟩ := i.clearPayload
  revert c1 c2 c3 c4
  rcases Heap.clearPayload h m with ⟨m1, h1⟩
  intro c1 c2 c3 c4
  simp only at c1 c2 c3 c4 ⊢
  have hs : m1.ownSmall = m.ownSmall := by simp only [HMsg.ownSmall, c2]
  rw [← hs] at c1
  by_cases hb : buf.length > 0
  · rw [if_pos hb]
    obtain ⟨-, a2, -, a4⟩ := c1.mediumAlloc buf.length
    revert a2 a4
    rcases h1.mediumAlloc buf.length with ⟨r, h2⟩
    cases r with
    | none => intro a2 a4; exact ⟨a4, fun e => by rw [← c3, ← a2]; exact e⟩
    | some p =>
      intro a2 a4
      simp only at a2 a4 ⊢
      refine ⟨a4.perm (List.Perm.refl _) ?_, fun e => by rw [← c3, ← a2]; exact e⟩
      rw [c4]
      simp only [HMsg.ownMedium]
      simpa using List.perm_middle.symm
  · rw [if_neg hb]
    exact ⟨c1, fun e => by rw [← c3]; exact e⟩

theorem Inv.parseOps (hg : g.Apart) (S : Nat) (sx : Bool) : ∀ (fuel : Nat) (acc : List HOp) (mem : Bytes) (len : Nat)
    (h : Heap), Inv g h (acc.map (·.addr) ++ os) (acc.map (·.valAddr) ++ om) →
    match parseOps S sx fuel acc mem len h with
    | (_, ops, h') => Inv g h' (ops.map (·.addr) ++ os) (ops.map (·.valAddr) ++ om) ∧ (h'.lost = [] → h.lost = [])
  | 0, acc, mem, len, h, i => ⟨i, id⟩
  | fuel + 1, acc, mem, len, h, i => by
    unfold Heap.parseOps
    cases rd mem 0 with
    | ub => exact ⟨i, id⟩
    | err e => exact ⟨i, id⟩
    | ok p0 =>
      simp only
      by_cases hc : p0.toNat &&& 0xff = 0xff ∨ len = 0
      · rw [if_pos hc]; exact ⟨i, id⟩
      · rw [if_neg hc]
        cases parseOp sx (acc.map HOp.abs) mem len with
        | ub => exact ⟨i, id⟩
        | err e => exact ⟨i, id⟩
        | ok r =>
          obtain ⟨op, n⟩ := r
          simp only
          have j := i.opNew hg S op.num op.val
          revert j
          rcases Heap.opNew S h op.num op.val with ⟨r, h1⟩
          cases r with
          | none => intro j; exact j
          | some o =>
            intro j
            simp only at j ⊢
            have k := Inv.parseOps hg S sx fuel (acc ++ [o]) (mem.drop n) (len - n) h1
              (j.1.perm (by simpa using List.perm_middle.symm) (by simpa using List.perm_middle.symm))
            revert k
            rcases Heap.parseOps S sx fuel (acc ++ [o]) (mem.drop n) (len - n) h1 with ⟨st, ops, h2⟩
            intro k
            simp only at k
            have k' : Inv g h2 (ops.map (·.addr) ++ os) (ops.map (·.valAddr) ++ om) ∧ (h2.lost = [] → h.lost = []) :=
              ⟨k.1, fun e => by rw [← j.2.2.2]; exact k.2 e⟩
            cases st <;> exact k'

theorem Inv.parsePayload (i : Inv g h os om) (mem : Bytes) (len : Nat) :
    match parsePayload mem len h with
    | (.ok pl, h') => Inv g h' os (plAddr pl ++ om) ∧ (h'.lost = [] → h.lost = [])
    | (_, h') => Inv g h' os om ∧ (h'.lost = [] → h.lost = []) := by
  unfold Heap.parsePayload
  cases Msg.parsePayload mem len with
  | ub => exact ⟨i, id⟩
  | err e => exact ⟨i, id⟩
  | ok pl =>
    simp only
    by_cases h0 : len = 0
    · rw [if_pos h0]; exact ⟨i, id⟩
    · rw [if_neg h0]
      obtain ⟨-, a2, -, a4⟩ := i.mediumAlloc (len - 1)
      revert a2 a4
      rcases h.mediumAlloc (len - 1) with ⟨r, h2⟩
      cases r with
      | none => intro a2 a4; exact ⟨a4, fun e => by rw [← a2]; exact e⟩
      | some p => intro a2 a4; exact ⟨a4, fun e => by rw [← a2]; exact e⟩

theorem Inv.parse (hg : g.Apart) {m : HMsg} (i : Inv g h (m.ownSmall ++ os) (m.ownMedium ++ om)) (S : Nat) (sx : Bool)
    (mem : Bytes) (len : Nat) :
    match parse S sx h m mem len with
    | (_, m', h') => Inv g h' (m'.ownSmall ++ os) (m'.ownMedium ++ om) ∧ (h'.lost = [] → h.lost = []) := by
  unfold Heap.parse Heap.reset
  obtain ⟨d1, d2, d3⟩ := i.destroy
  revert d1 d2 d3
  rcases Heap.destroy h m with ⟨m0, h0⟩
  intro d1 d2 d3
  simp only at d1 d2 d3 ⊢
  have l0 : h0.lost = [] → h.lost = [] := fun e => by rw [← d3]; exact e
  have dz : Inv g (Heap.destroy h0 Heap.create).2 ((Heap.destroy h0 Heap.create).1.ownSmall ++ os)
      ((Heap.destroy h0 Heap.create).1.ownMedium ++ om) ∧ ((Heap.destroy h0 Heap.create).2.lost = [] → h.lost = []) := by
    have dd := Inv.destroy (m := Heap.create) (h := h0) (os := os) (om := om) d1
    exact ⟨dd.1, fun e => l0 (by rw [← dd.2.2]; exact e)⟩
  cases parseHdr mem len with
  | ub => exact ⟨d1, l0⟩
  | err e => exact dz
  | ok hd =>
    simp only
    cases parseToken hd.tokenLen (mem.drop 4) (len - 4) with
    | ub => exact ⟨d1, l0⟩
    | err e => exact dz
    | ok token =>
      simp only
      have k := Inv.parseOps (os := os) (om := om) hg S sx (len - 4 - hd.tokenLen + 1) [] (mem.drop (4 + hd.tokenLen))
        (len - 4 - hd.tokenLen) h0 d1
      revert k
      rcases Heap.parseOps S sx (len - 4 - hd.tokenLen + 1) [] (mem.drop (4 + hd.tokenLen))
        (len - 4 - hd.tokenLen) h0 with ⟨st, ops, h1⟩
      intro k
      simp only at k
      have kd : ∀ (h1 : Heap) (m1 : HMsg), Inv g h1 (m1.ops.map (·.addr) ++ os) (m1.ops.map (·.valAddr) ++ om) →
          m1.payload = none → (h1.lost = [] → h0.lost = []) →
          Inv g (Heap.destroy h1 m1).2 ((Heap.destroy h1 m1).1.ownSmall ++ os) ((Heap.destroy h1 m1).1.ownMedium ++ om) ∧
          ((Heap.destroy h1 m1).2.lost = [] → h.lost = []) := by
        intro h1 m1 k1 hp k2
        have dd := Inv.destroy (m := m1) (h := h1) (os := os) (om := om)
          (by simpa [HMsg.ownSmall, HMsg.ownMedium, hp] using k1)
        exact ⟨dd.1, fun e => l0 (k2 (by rw [← dd.2.2]; exact e))⟩
      cases st with
      | ub =>
        simp only
        exact ⟨by simpa [HMsg.ownSmall, HMsg.ownMedium] using k.1, fun e => l0 (k.2 e)⟩
      | err e => exact kd h1 _ k.1 rfl k.2
      | ok n =>
        simp only
        have q := k.1.parsePayload ((mem.drop (4 + hd.tokenLen)).drop n) (len - 4 - hd.tokenLen - n)
        revert q
        rcases Heap.parsePayload ((mem.drop (4 + hd.tokenLen)).drop n) (len - 4 - hd.tokenLen - n) h1 with ⟨pr, h2⟩
        intro q
        cases pr with
        | ub =>
          simp only at q ⊢
          exact ⟨by simpa [HMsg.ownSmall, HMsg.ownMedium] using q.1, fun e => l0 (k.2 (q.2 e))⟩
        | err e =>
          simp only at q
          exact kd h2 _ q.1 rfl (fun e => k.2 (q.2 e))
        | ok pl =>
          simp only at q ⊢
          refine ⟨q.1.perm (List.Perm.refl _) ?_, fun e => l0 (k.2 (q.2 e))⟩
          simp only [HMsg.ownMedium]
          rw [← List.append_assoc]
          exact List.perm_append_comm.append_right om

theorem Inv.copyOps (hg : g.Apart) (S : Nat) : ∀ (l : List HOp) (h : Heap) (m : HMsg),
    Inv g h (m.ownSmall ++ os) (m.ownMedium ++ om) →
    match copyOps S h m l with
    | (_, m', h') => Inv g h' (m'.ownSmall ++ os) (m'.ownMedium ++ om) ∧ (h'.lost = [] → h.lost = [])
  | [], h, m, i => ⟨i, id⟩
  | op :: rest, h, m, i => by
    unfold Heap.copyOps
    have j := i.addOp hg S op.num op.val
    revert j
    rcases Heap.addOp S h m op.num op.val with ⟨st, d, h1⟩
    intro j
    simp only at j
    cases st with
    | ok u =>
      simp only
      have k := Inv.copyOps hg S rest h1 d j.1
      revert k
      rcases Heap.copyOps S h1 d rest with ⟨st, m', h'⟩
      intro k
      exact ⟨k.1, fun e => j.2 (k.2 e)⟩
    | err e => exact j
    | ub => exact j

theorem Inv.copy (hg : g.Apart) {m : HMsg} (i : Inv g h (m.ownSmall ++ os) (m.ownMedium ++ om)) (S : Nat) (src : HMsg) :
    match copy S h m src with
    | (_, m', h') => Inv g h' (m'.ownSmall ++ os) (m'.ownMedium ++ om) ∧ (h'.lost = [] → h.lost = []) := by
  unfold Heap.copy
  split
  rename_i r m' h' heq
  split at heq
  · cases heq; exact ⟨i, id⟩
  split at heq
  · cases heq; exact ⟨i, id⟩
  split at heq
  · cases heq; exact ⟨i, id⟩
  simp only at heq
  split at heq
  · cases heq; exact ⟨i, id⟩
  have k := Inv.copyOps (os := os) (om := om) hg S src.ops h
    (⟨src.ver, src.type, src.codeClass, src.codeDetail, src.msgId, src.token, m.ops, m.payload⟩ : HMsg) i
  revert k heq
  rcases Heap.copyOps S h _ src.ops with ⟨st, d2, h1⟩
  intro heq k
  simp only at k
  cases st with
  | ok u =>
    simp only at heq
    have q := k.1.setPayload (plBytes src.payload)
    rw [heq] at q
    exact ⟨q.1, fun e => k.2 (q.2 e)⟩
  | err e => cases heq; exact k
  | ub => cases heq; exact k

/-! ## Histories -/

/-- The messages other than `i`. -/
def others {α : Type} (f : HMsg → List α) (msgs : List HMsg) (i : Nat) : List α := (msgs.eraseIdx i).flatMap f

theorem flatMap_set_perm {α : Type} (f : HMsg → List α) : ∀ (msgs : List HMsg) (i : Nat) (m m' : HMsg),
    msgs[i]? = some m → (msgs.flatMap f).Perm (f m ++ others f msgs i) ∧
      ((msgs.set i m').flatMap f).Perm (f m' ++ others f msgs i)
  | [], i, m, m', h => by simp at h
  | x :: xs, 0, m, m', h => by
    simp only [List.getElem?_cons_zero, Option.some.injEq] at h
    subst h
    exact ⟨List.Perm.refl _, List.Perm.refl _⟩
  | x :: xs, i + 1, m, m', h => by
    simp only [List.getElem?_cons_succ] at h
    obtain ⟨h1, h2⟩ := flatMap_set_perm f xs i m m' h
    simp only [others, List.eraseIdx_cons_succ, List.flatMap_cons, List.set_cons_succ] at h1 h2 ⊢
    have sw : ∀ a b c : List α, (a ++ (b ++ c)).Perm (b ++ (a ++ c)) := fun a b c => by
      rw [← List.append_assoc, ← List.append_assoc]
      exact List.perm_append_comm.append_right c
    exact ⟨(h1.append_left (f x)).trans (sw _ _ _), (h2.append_left (f x)).trans (sw _ _ _)⟩

theorem step_inv (hg : g.Apart) (S : Nat) (sx : Bool) (p : Prog) (c : Cmd)
    (i : Inv g p.heap p.ownedSmall p.ownedMedium) :
    Inv g (step S sx p c).heap (step S sx p c).ownedSmall (step S sx p c).ownedMedium := by
  have key : ∀ (k : Nat) (m : HMsg), p.msgs[k]? = some m → ∀ r : HMsg × Heap,
      (∀ os om, Inv g p.heap (m.ownSmall ++ os) (m.ownMedium ++ om) →
        Inv g r.2 (r.1.ownSmall ++ os) (r.1.ownMedium ++ om)) →
      Inv g (put p.msgs k r).heap (put p.msgs k r).ownedSmall (put p.msgs k r).ownedMedium := by
    intro k m hm r hr
    obtain ⟨a1, a2⟩ := flatMap_set_perm HMsg.ownSmall p.msgs k m r.1 hm
    obtain ⟨b1, b2⟩ := flatMap_set_perm HMsg.ownMedium p.msgs k m r.1 hm
    exact (hr _ _ (i.perm a1 b1)).perm a2.symm b2.symm
  have id1 : ∀ k : Nat, p.msgs[k]? = none → Inv g p.heap p.ownedSmall p.ownedMedium := fun _ _ => i
  cases c with
  | create =>
    simp only [step, Prog.ownedSmall, Prog.ownedMedium, List.flatMap_append, List.flatMap_cons, List.flatMap_nil]
    exact i.perm (by simp [Prog.ownedSmall, HMsg.ownSmall, Heap.create, zero])
      (by simp [Prog.ownedMedium, HMsg.ownMedium, Heap.create, zero])
  | destroy k =>
    simp only [step]
    cases hm : p.msgs[k]? with
    | none => exact i
    | some m => exact key k m hm _ fun os om j => j.destroy.1
  | reset k =>
    simp only [step]
    cases hm : p.msgs[k]? with
    | none => exact i
    | some m => exact key k m hm _ fun os om j => j.destroy.1
  | parse k mem len =>
    simp only [step]
    cases hm : p.msgs[k]? with
    | none => exact i
    | some m => exact key k m hm _ fun os om j => (j.parse hg S sx mem len).1
  | addOp k num val =>
    simp only [step]
    cases hm : p.msgs[k]? with
    | none => exact i
    | some m => exact key k m hm _ fun os om j => (j.addOp hg S num val).1
  | setPayload k buf =>
    simp only [step]
    cases hm : p.msgs[k]? with
    | none => exact i
    | some m => exact key k m hm _ fun os om j => (j.setPayload buf).1
  | clearPayload k =>
    simp only [step]
    cases hm : p.msgs[k]? with
    | none => exact i
    | some m =>
      refine key k m hm _ fun os om j => ?_
      have q := j.clearPayload
      have e : (Heap.clearPayload p.heap m).1.ownSmall = m.ownSmall := by simp only [HMsg.ownSmall, q.2.1]
      rw [e]
      exact q.1
  | setFields k t cc cd mi tk =>
    simp only [step]
    cases hm : p.msgs[k]? with
    | none => exact i
    | some m => exact key k m hm _ fun os om j => j
  | copy d s =>
    simp only [step]
    cases hd : p.msgs[d]? with
    | none => exact i
    | some dst =>
      cases hs : p.msgs[s]? with
      | none => exact i
      | some src =>
        simp only
        split
        · exact i
        · exact key d dst hd _ fun os om j => (j.copy hg S src).1

theorem run_inv (hg : g.Apart) (S : Nat) (sx : Bool) : ∀ (cs : List Cmd) (p : Prog),
    Inv g p.heap p.ownedSmall p.ownedMedium →
    Inv g (run S sx p cs).heap (run S sx p cs).ownedSmall (run S sx p cs).ownedMedium
  | [], _, i => i
  | c :: cs, p, i => run_inv hg S sx cs (step S sx p c) (step_inv hg S sx p c i)

theorem Created.init {ns ls nm lm : Nat} {small medium : Pool} (c : Created ns ls nm lm small medium) :
    Geo.Apart ⟨small.buf, ns, ls, medium.buf, nm, lm⟩ ∧
    Inv ⟨small.buf, ns, ls, medium.buf, nm, lm⟩ (Heap.init small medium) [] [] := by
  obtain ⟨W1, s1, s1', r1, r2, h1⟩ := c.smallOk
  obtain ⟨W2, s2, s2', r3, r4, h2⟩ := c.mediumOk
  have a := Mem.create_rel h1
  have b := Mem.create_rel h2
  refine ⟨?_, a, b, List.Perm.refl _, List.Perm.refl _, trivial, fun _ => trivial⟩
  intro i j hi hj e
  simp only at hi hj e
  have e1 : (i + 1) * ls ≤ ns * ls := Nat.mul_le_mul_right _ hi
  have e2 : (j + 1) * lm ≤ nm * lm := Nat.mul_le_mul_right _ hj
  rw [Nat.add_mul] at e1 e2
  have p1 := a.len_pos
  have p2 := b.len_pos
  rcases c.apart with h | h <;> omega

/-! ## Losses only happen when the medium pool refuses a request -/

/-- The medium pool refused a request. -/
def Refused (h : Heap) : Prop := ∃ l, (Call.alloc l, (none : Option Nat)) ∈ h.mediumLog

/-- Lost buffers only after a refusal; refusals stay in the log. -/
def Le (h h' : Heap) : Prop := (Refused h → Refused h') ∧ (h'.lost ≠ [] → h.lost ≠ [] ∨ Refused h')

theorem Le.refl (h : Heap) : Le h h := ⟨id, Or.inl⟩
theorem Le.trans {a b c : Heap} (h1 : Le a b) (h2 : Le b c) : Le a c :=
  ⟨fun h => h2.1 (h1.1 h), fun h => by
    rcases h2.2 h with h | h
    · rcases h1.2 h with h | h
      · exact Or.inl h
      · exact Or.inr (h2.1 h)
    · exact Or.inr h⟩

theorem le_smallAlloc (h : Heap) (l : Nat) : Le h (h.smallAlloc l).2 := ⟨id, Or.inl⟩
theorem le_smallFree (h : Heap) (p : Nat) : Le h (h.smallFree p) := ⟨id, Or.inl⟩
theorem le_mediumAlloc (h : Heap) (l : Nat) : Le h (h.mediumAlloc l).2 :=
  ⟨fun ⟨k, hk⟩ => ⟨k, by simp [Heap.mediumAlloc, hk]⟩, Or.inl⟩
theorem le_mediumFree (h : Heap) (p : Nat) : Le h (h.mediumFree p) :=
  ⟨fun ⟨k, hk⟩ => ⟨k, by simp [Heap.mediumFree, hk]⟩, Or.inl⟩

theorem le_opNew (S : Nat) (h : Heap) (num : Nat) (val : Bytes) : Le h (opNew S h num val).2 := by
  unfold Heap.opNew
  have a := le_smallAlloc h S
  revert a
  rcases h.smallAlloc S with ⟨r, h1⟩
  intro a
  cases r with
  | none => exact a
  | some p =>
    simp only at a ⊢
    have b := le_mediumAlloc h1 val.length
    have hr : (h1.mediumAlloc val.length).1 = none → Refused (h1.mediumAlloc val.length).2 := by
      intro e
      exact ⟨val.length, by simp only [Heap.mediumAlloc] at e ⊢; simp [e]⟩
    revert b hr
    rcases h1.mediumAlloc val.length with ⟨r2, h2⟩
    intro b hr
    cases r2 with
    | none =>
      have b2 := (le_mediumFree h2 p).1 (hr rfl)
      exact ⟨fun _ => b2, fun _ => Or.inr b2⟩
    | some v => exact a.trans b

theorem le_listDestroy : ∀ (ops : List HOp) (h : Heap), Le h (listDestroy h ops)
  | [], h => Le.refl h
  | op :: rest, h => ((le_mediumFree h _).trans (le_smallFree _ _)).trans (le_listDestroy rest _)

theorem le_clearPayload (h : Heap) (m : HMsg) : Le h (clearPayload h m).2 := by
  unfold Heap.clearPayload
  cases m.payload with
  | none => exact Le.refl h
  | some p => exact le_mediumFree h _

theorem le_destroy (h : Heap) (m : HMsg) : Le h (destroy h m).2 :=
  (le_listDestroy m.ops h).trans (le_clearPayload _ m)

theorem le_addOp (S : Nat) (h : Heap) (m : HMsg) (num : Nat) (val : Bytes) : Le h (addOp S h m num val).2.2 := by
  unfold Heap.addOp
  have a := le_opNew S h num val
  revert a
  rcases Heap.opNew S h num val with ⟨r, h1⟩
  cases r <;> exact id

theorem le_setPayload (h : Heap) (m : HMsg) (buf : Bytes) : Le h (setPayload h m buf).2.2 := by
  unfold Heap.setPayload
  have a := le_clearPayload h m
  revert a
  rcases Heap.clearPayload h m with ⟨m1, h1⟩
  intro a
  simp only at a ⊢
  split
  · have b := le_mediumAlloc h1 buf.length
    revert b
    rcases h1.mediumAlloc buf.length with ⟨r, h2⟩
    cases r <;> exact a.trans
  · exact a

theorem le_parseOps (S : Nat) (sx : Bool) : ∀ (fuel : Nat) (acc : List HOp) (mem : Bytes) (len : Nat) (h : Heap),
    Le h (parseOps S sx fuel acc mem len h).2.2
  | 0, acc, mem, len, h => Le.refl h
  | fuel + 1, acc, mem, len, h => by
    unfold Heap.parseOps
    cases rd mem 0 with
    | ub => exact Le.refl h
    | err e => exact Le.refl h
    | ok p0 =>
      simp only
      by_cases hc : p0.toNat &&& 0xff = 0xff ∨ len = 0
      · rw [if_pos hc]; exact Le.refl h
      · rw [if_neg hc]
        cases parseOp sx (acc.map HOp.abs) mem len with
        | ub => exact Le.refl h
        | err e => exact Le.refl h
        | ok r =>
          obtain ⟨op, n⟩ := r
          simp only
          have a := le_opNew S h op.num op.val
          revert a
          rcases Heap.opNew S h op.num op.val with ⟨r, h1⟩
          intro a
          cases r with
          | none => exact a
          | some o =>
            simp only at a ⊢
            have b := le_parseOps S sx fuel (acc ++ [o]) (mem.drop n) (len - n) h1
            revert b
            rcases Heap.parseOps S sx fuel (acc ++ [o]) (mem.drop n) (len - n) h1 with ⟨st, ops, h2⟩
            cases st <;> exact a.trans

theorem le_parsePayload (mem : Bytes) (len : Nat) (h : Heap) : Le h (parsePayload mem len h).2 := by
  unfold Heap.parsePayload
  cases Msg.parsePayload mem len with
  | ub => exact Le.refl h
  | err e => exact Le.refl h
  | ok pl =>
    simp only
    by_cases h0 : len = 0
    · rw [if_pos h0]; exact Le.refl h
    · rw [if_neg h0]
      have b := le_mediumAlloc h (len - 1)
      revert b
      rcases h.mediumAlloc (len - 1) with ⟨r, h2⟩
      cases r <;> exact id

theorem le_parse (S : Nat) (sx : Bool) (h : Heap) (m : HMsg) (mem : Bytes) (len : Nat) :
    Le h (parse S sx h m mem len).2.2 := by
  unfold Heap.parse Heap.reset
  have a := le_destroy h m
  revert a
  rcases Heap.destroy h m with ⟨m0, h0⟩
  intro a
  simp only at a ⊢
  cases parseHdr mem len with
  | ub => exact a
  | err e => exact a.trans (le_destroy _ _)
  | ok hd =>
    simp only
    cases parseToken hd.tokenLen (mem.drop 4) (len - 4) with
    | ub => exact a
    | err e => exact a.trans (le_destroy _ _)
    | ok token =>
      simp only
      have k := le_parseOps S sx (len - 4 - hd.tokenLen + 1) [] (mem.drop (4 + hd.tokenLen)) (len - 4 - hd.tokenLen) h0
      revert k
      rcases Heap.parseOps S sx (len - 4 - hd.tokenLen + 1) [] (mem.drop (4 + hd.tokenLen))
        (len - 4 - hd.tokenLen) h0 with ⟨st, ops, h1⟩
      intro k
      simp only at k
      cases st with
      | ub => exact a.trans k
      | err e => exact (a.trans k).trans (le_destroy _ _)
      | ok n =>
        simp only
        have q := le_parsePayload ((mem.drop (4 + hd.tokenLen)).drop n) (len - 4 - hd.tokenLen - n) h1
        revert q
        rcases Heap.parsePayload ((mem.drop (4 + hd.tokenLen)).drop n) (len - 4 - hd.tokenLen - n) h1 with ⟨pr, h2⟩
        intro q
        cases pr with
        | ub => exact (a.trans k).trans q
        | err e => exact ((a.trans k).trans q).trans (le_destroy _ _)
        | ok pl => exact (a.trans k).trans q

theorem le_copyOps (S : Nat) : ∀ (l : List HOp) (h : Heap) (m : HMsg), Le h (copyOps S h m l).2.2
  | [], h, m => Le.refl h
  | op :: rest, h, m => by
    unfold Heap.copyOps
    have j := le_addOp S h m op.num op.val
    revert j
    rcases Heap.addOp S h m op.num op.val with ⟨st, d, h1⟩
    intro j
    cases st with
    | ok u => exact j.trans (le_copyOps S rest h1 d)
    | err e => exact j
    | ub => exact j

theorem le_copy (S : Nat) (h : Heap) (dst src : HMsg) : Le h (copy S h dst src).2.2 := by
  unfold Heap.copy
  split
  · exact Le.refl h
  split
  · exact Le.refl h
  split
  · exact Le.refl h
  simp only
  split
  · exact Le.refl h
  have k := le_copyOps S src.ops h
    (⟨src.ver, src.type, src.codeClass, src.codeDetail, src.msgId, src.token, dst.ops, dst.payload⟩ : HMsg)
  revert k
  rcases Heap.copyOps S h _ src.ops with ⟨st, d2, h1⟩
  intro k
  cases st with
  | ok u => exact k.trans (le_setPayload _ _ _)
  | err e => exact k
  | ub => exact k

theorem le_step (S : Nat) (sx : Bool) (p : Prog) (c : Cmd) : Le p.heap (step S sx p c).heap := by
  cases c with
  | create => exact Le.refl _
  | destroy k =>
    simp only [step]
    cases p.msgs[k]? with
    | none => exact Le.refl _
    | some m => exact le_destroy _ _
  | reset k =>
    simp only [step]
    cases p.msgs[k]? with
    | none => exact Le.refl _
    | some m => exact le_destroy _ _
  | parse k mem len =>
    simp only [step]
    cases p.msgs[k]? with
    | none => exact Le.refl _
    | some m => exact le_parse _ _ _ _ _ _
  | addOp k num val =>
    simp only [step]
    cases p.msgs[k]? with
    | none => exact Le.refl _
    | some m => exact le_addOp _ _ _ _ _
  | setPayload k buf =>
    simp only [step]
    cases p.msgs[k]? with
    | none => exact Le.refl _
    | some m => exact le_setPayload _ _ _
  | clearPayload k =>
    simp only [step]
    cases p.msgs[k]? with
    | none => exact Le.refl _
    | some m => exact le_clearPayload _ _
  | setFields k t cc cd mi tk =>
    simp only [step]
    cases p.msgs[k]? with
    | none => exact Le.refl _
    | some m => exact Le.refl _
  | copy d s =>
    simp only [step]
    cases p.msgs[d]? with
    | none => exact Le.refl _
    | some dst =>
      cases p.msgs[s]? with
      | none => exact Le.refl _
      | some src =>
        simp only
        split
        · exact Le.refl _
        · exact le_copy _ _ _ _

theorem le_run (S : Nat) (sx : Bool) : ∀ (cs : List Cmd) (p : Prog), Le p.heap (run S sx p cs).heap
  | [], p => Le.refl _
  | c :: cs, p => (le_step S sx p c).trans (le_run S sx cs _)

/-! ## Refinement to the model without buffers -/

theorem abs_eq {v t cc cd mi : Nat} {tk : Bytes} {ops : List HOp} {pl : Option (Nat × Bytes)} :
    (HMsg.mk v t cc cd mi tk ops pl).abs = ⟨v, t, cc, cd, mi, tk, ops.map HOp.abs, plBytes pl⟩ := rfl

theorem opNew_abs {S num : Nat} {h h' : Heap} {val : Bytes} {o : HOp} (e : opNew S h num val = (some o, h')) :
    o.abs = ⟨num, val⟩ := by
  unfold Heap.opNew at e
  split at e
  · cases e
  · split at e
    · cases e
    · cases e; rfl

/-- How a result with buffers relates to a result without. -/
def Refines (r : Out Msg) : Out Unit → HMsg → Prop
  | .ok _, m => r = .ok m.abs
  | .err e, _ => e = .ENOMEM ∨ r = .err e
  | .ub, _ => r = .ub

theorem parseOps_refines (S : Nat) (sx : Bool) : ∀ (fuel : Nat) (acc : List HOp) (mem : Bytes) (len : Nat) (h : Heap),
    match parseOps S sx fuel acc mem len h with
    | (.ok n, ops, _) => Msg.parseOps sx fuel (acc.map HOp.abs) mem len = .ok (ops.map HOp.abs, n)
    | (.err e, _, _) => e = .ENOMEM ∨ Msg.parseOps sx fuel (acc.map HOp.abs) mem len = .err e
    | (.ub, _, _) => Msg.parseOps sx fuel (acc.map HOp.abs) mem len = .ub
  | 0, acc, mem, len, h => by unfold Heap.parseOps Msg.parseOps; rfl
  | fuel + 1, acc, mem, len, h => by
    unfold Heap.parseOps
    rw [Msg.parseOps]
    cases rd mem 0 with
    | ub => rfl
    | err e => exact Or.inr rfl
    | ok p0 =>
      simp only
      rw [Out.bind_ok]
      by_cases hc : p0.toNat &&& 0xff = 0xff ∨ len = 0
      · rw [if_pos hc, if_pos hc]; rfl
      · rw [if_neg hc, if_neg hc]
        cases parseOp sx (acc.map HOp.abs) mem len with
        | ub => rfl
        | err e => exact Or.inr rfl
        | ok r =>
          obtain ⟨op, n⟩ := r
          simp only
          rw [Out.bind_ok]
          have hn := fun o h' => opNew_abs (S := S) (h := h) (h' := h') (num := op.num) (val := op.val) (o := o)
          revert hn
          rcases Heap.opNew S h op.num op.val with ⟨r, h1⟩
          intro hn
          cases r with
          | none => exact Or.inl rfl
          | some o =>
            have ho := hn o h1 rfl
            simp only
            have ih := parseOps_refines S sx fuel (acc ++ [o]) (mem.drop n) (len - n) h1
            rw [List.map_append, List.map_cons, List.map_nil, ho] at ih
            revert ih
            rcases Heap.parseOps S sx fuel (acc ++ [o]) (mem.drop n) (len - n) h1 with ⟨st, ops, h2⟩
            have e1 : opListAddLast op (acc.map HOp.abs) = acc.map HOp.abs ++ [⟨op.num, op.val⟩] := rfl
            rw [e1]
            intro ih
            cases st with
            | ok k => simp only at ih ⊢; rw [ih]; rfl
            | err e =>
              simp only at ih ⊢
              rcases ih with ih | ih
              · exact Or.inl ih
              · rw [ih]; exact Or.inr rfl
            | ub => simp only at ih ⊢; rw [ih]; rfl

theorem parsePayload_refines (mem : Bytes) (len : Nat) (h : Heap) :
    match parsePayload mem len h with
    | (.ok pl, _) => Msg.parsePayload mem len = .ok (plBytes pl)
    | (.err e, _) => e = .ENOMEM ∨ Msg.parsePayload mem len = .err e
    | (.ub, _) => Msg.parsePayload mem len = .ub := by
  unfold Heap.parsePayload
  have h0 : len = 0 → Msg.parsePayload mem len = .ok [] := fun e => by unfold Msg.parsePayload; rw [if_pos e]
  revert h0
  cases Msg.parsePayload mem len with
  | ub => exact fun _ => rfl
  | err e => exact fun _ => Or.inr rfl
  | ok pl =>
    intro h0
    simp only
    by_cases hl : len = 0
    · rw [if_pos hl]; exact h0 hl
    · rw [if_neg hl]
      rcases h.mediumAlloc (len - 1) with ⟨r, h2⟩
      cases r with
      | none => exact Or.inl rfl
      | some p => rfl

theorem parse_refines (S : Nat) (sx : Bool) (h : Heap) (m : HMsg) (mem : Bytes) (len : Nat) :
    Refines (Msg.parse sx mem len) (parse S sx h m mem len).1 (parse S sx h m mem len).2.1 := by
  unfold Heap.parse Heap.reset Msg.parse
  rcases Heap.destroy h m with ⟨m0, h0⟩
  simp only
  cases parseHdr mem len with
  | ub => rfl
  | err e => exact Or.inr rfl
  | ok hd =>
    simp only
    rw [Out.bind_ok]
    cases parseToken hd.tokenLen (mem.drop 4) (len - 4) with
    | ub => rfl
    | err e => exact Or.inr rfl
    | ok token =>
      simp only
      rw [Out.bind_ok]
      have k := parseOps_refines S sx (len - 4 - hd.tokenLen + 1) [] (mem.drop (4 + hd.tokenLen))
        (len - 4 - hd.tokenLen) h0
      revert k
      rcases Heap.parseOps S sx (len - 4 - hd.tokenLen + 1) [] (mem.drop (4 + hd.tokenLen))
        (len - 4 - hd.tokenLen) h0 with ⟨st, ops, h1⟩
      intro k
      cases st with
      | ub => simp only [List.map_nil] at k ⊢; rw [k]; rfl
      | err e =>
        simp only [List.map_nil] at k ⊢
        rcases k with k | k
        · exact Or.inl k
        · rw [k]; exact Or.inr rfl
      | ok n =>
        simp only [List.map_nil] at k ⊢
        rw [k, Out.bind_ok]
        have q := parsePayload_refines ((mem.drop (4 + hd.tokenLen)).drop n) (len - 4 - hd.tokenLen - n) h1
        revert q
        rcases Heap.parsePayload ((mem.drop (4 + hd.tokenLen)).drop n) (len - 4 - hd.tokenLen - n) h1 with ⟨pr, h2⟩
        intro q
        cases pr with
        | ub => simp only at q ⊢; rw [q]; rfl
        | err e =>
          simp only at q ⊢
          rcases q with q | q
          · exact Or.inl q
          · rw [q]; exact Or.inr rfl
        | ok pl =>
          simp only at q ⊢
          rw [q, Out.bind_ok, abs_eq]
          cases check ⟨hd.ver, hd.type, hd.codeClass, hd.codeDetail, hd.msgId, token, ops.map HOp.abs, plBytes pl⟩ with
          | ok u => rfl
          | err e => exact Or.inr rfl
          | ub => rfl

theorem addOp_refines (S : Nat) (h : Heap) (m : HMsg) (num : Nat) (val : Bytes) :
    Refines (.ok (Msg.addOp m.abs num val)) (addOp S h m num val).1 (addOp S h m num val).2.1 := by
  unfold Heap.addOp
  have hn := fun o h' => opNew_abs (S := S) (h := h) (h' := h') (num := num) (val := val) (o := o)
  revert hn
  rcases Heap.opNew S h num val with ⟨r, h1⟩
  intro hn
  cases r with
  | none => exact Or.inl rfl
  | some o =>
    have ho := hn o h1 rfl
    simp only [Refines, Msg.addOp, HMsg.abs]
    rw [opInsert_abs, ho]

theorem setPayload_refines (h : Heap) (m : HMsg) (buf : Bytes) :
    Refines (.ok (Msg.setPayload m.abs buf)) (setPayload h m buf).1 (setPayload h m buf).2.1 := by
  unfold Heap.setPayload
  have hc : (Heap.clearPayload h m).1.abs = { m.abs with payload := [] } := by
    unfold Heap.clearPayload
    rcases m with ⟨v, t, cc, cd, mi, tk, ops, pl⟩
    cases pl <;> rfl
  revert hc
  rcases Heap.clearPayload h m with ⟨m1, h1⟩
  intro hc
  simp only at hc ⊢
  by_cases hb : buf.length > 0
  · rw [if_pos hb]
    rcases h1.mediumAlloc buf.length with ⟨r, h2⟩
    cases r with
    | none => exact Or.inl rfl
    | some p =>
      simp only [Refines, Msg.setPayload, HMsg.abs, Msg.mk.injEq] at hc ⊢
      simp only [Out.ok.injEq, Msg.mk.injEq, plBytes_some, and_true]
      obtain ⟨a1, a2, a3, a4, a5, a6, a7, -⟩ := hc
      exact ⟨a1.symm, a2.symm, a3.symm, a4.symm, a5.symm, a6.symm, a7.symm⟩
  · rw [if_neg hb]
    have : buf = [] := List.length_eq_zero_iff.1 (by omega)
    subst this
    simp only [Refines, hc]; rfl

theorem copyOps_refines (S : Nat) : ∀ (l : List HOp) (h : Heap) (m : HMsg),
    Refines (.ok (Msg.copyOps m.abs (l.map HOp.abs))) (copyOps S h m l).1 (copyOps S h m l).2.1
  | [], h, m => rfl
  | op :: rest, h, m => by
    unfold Heap.copyOps
    have j := addOp_refines S h m op.num op.val
    revert j
    rcases Heap.addOp S h m op.num op.val with ⟨st, d, h1⟩
    intro j
    cases st with
    | ok u =>
      simp only [Refines, Out.ok.injEq] at j
      have e : Msg.copyOps m.abs ((op :: rest).map HOp.abs) = Msg.copyOps d.abs (rest.map HOp.abs) := by
        rw [← j]; rfl
      rw [e]
      exact copyOps_refines S rest h1 d
    | err e =>
      simp only [Refines] at j ⊢
      rcases j with j | j
      · exact Or.inl j
      · cases j
    | ub => simp only [Refines] at j; cases j

theorem setCode_err (m : Msg) {x y : Nat} (h : x > 7 ∨ y > 31) : setCode m x y = .err .EINVAL := by
  unfold setCode
  by_cases a : x > 7
  · rw [if_pos a]
  · rw [if_neg a, if_pos (by omega)]

theorem setCode_ok (m : Msg) {x y : Nat} (h : ¬ (x > 7 ∨ y > 31)) :
    setCode m x y = .ok { m with codeClass := x, codeDetail := y } := by
  unfold setCode
  rw [if_neg (by omega), if_neg (by omega)]

theorem setMsgId_err (m : Msg) {x : Nat} (h : x > 65535) : setMsgId m x = .err .EINVAL := by
  unfold setMsgId; rw [if_pos (by simpa using h)]

theorem setMsgId_ok (m : Msg) {x : Nat} (h : ¬ x > 65535) : setMsgId m x = .ok { m with msgId := x } := by
  unfold setMsgId; rw [if_neg (by simpa using h)]

theorem setToken_err (m : Msg) {x : Bytes} (h : x.length > 8) : setToken m x = .err .EINVAL := by
  unfold setToken; rw [if_pos h]

theorem setToken_ok (m : Msg) {x : Bytes} (h : ¬ x.length > 8) : setToken m x = .ok { m with token := x } := by
  unfold setToken; rw [if_neg h]

theorem copy_refines (S : Nat) (h : Heap) (dst src : HMsg) :
    Refines (Msg.copy dst.abs src.abs) (copy S h dst src).1 (copy S h dst src).2.1 := by
  unfold Heap.copy Msg.copy
  by_cases h1 : src.type > 3
  · rw [if_pos h1]
    refine Or.inr ?_
    have : setType { dst.abs with ver := src.abs.ver } src.abs.type = .err .EINVAL := by
      unfold setType; rw [if_pos (by simp only [CON, NON, ACK, RST, HMsg.abs]; omega)]
    simp only
    rw [this]; rfl
  rw [if_neg h1]
  have e1 : ∀ m : Msg, setType m src.abs.type = .ok { m with type := src.type } := fun m => by
    unfold setType; rw [if_neg (by simp only [CON, NON, ACK, RST, HMsg.abs]; omega)]; rfl
  simp only
  rw [e1, Out.bind_ok]
  by_cases h2 : src.codeClass > 7 ∨ src.codeDetail > 31
  · rw [if_pos h2]
    refine Or.inr ?_
    have : ∀ m : Msg, setCode m src.abs.codeClass src.abs.codeDetail = .err .EINVAL := fun m => setCode_err m h2
    rw [this]; rfl
  rw [if_neg h2]
  have e2 : ∀ m : Msg, setCode m src.abs.codeClass src.abs.codeDetail =
      .ok { m with codeClass := src.codeClass, codeDetail := src.codeDetail } := fun m => setCode_ok m h2
  rw [e2, Out.bind_ok]
  by_cases h3 : src.msgId > 65535
  · rw [if_pos h3]
    refine Or.inr ?_
    have : ∀ m : Msg, setMsgId m src.abs.msgId = .err .EINVAL := fun m => setMsgId_err m h3
    rw [this]; rfl
  rw [if_neg h3]
  have e3 : ∀ m : Msg, setMsgId m src.abs.msgId = .ok { m with msgId := src.msgId } := fun m => setMsgId_ok m h3
  rw [e3, Out.bind_ok]
  by_cases h4 : src.token.length > 8
  · rw [if_pos h4]
    refine Or.inr ?_
    have : ∀ m : Msg, setToken m src.abs.token = .err .EINVAL := fun m => setToken_err m h4
    rw [this]; rfl
  rw [if_neg h4]
  have e4 : ∀ m : Msg, setToken m src.abs.token = .ok { m with token := src.token } := fun m => setToken_ok m h4
  rw [e4, Out.bind_ok]
  have k := copyOps_refines S src.ops h
    (⟨src.ver, src.type, src.codeClass, src.codeDetail, src.msgId, src.token, dst.ops, dst.payload⟩ : HMsg)
  revert k
  rcases Heap.copyOps S h _ src.ops with ⟨st, d2, h1⟩
  intro k
  cases st with
  | ok u =>
    simp only [Refines, Out.ok.injEq] at k ⊢
    have q := setPayload_refines h1 d2 (plBytes src.payload)
    rw [← k] at q
    exact q
  | err e =>
    simp only [Refines] at k ⊢
    rcases k with k | k
    · exact Or.inl k
    · cases k
  | ub => simp only [Refines] at k; cases k

end FreeCoAP.Msg.Heap
