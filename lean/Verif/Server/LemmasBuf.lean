import Verif.Server.SpecBuf
import Verif.Msg.LemmasHeapUse

/-! # Lemmas about the buffers that the messages of the server use -/

namespace FreeCoAP.Server.Buf

open FreeCoAP.Msg.Heap
open FreeCoAP.Mem (Pool Call held)

variable {g : Geo} {os om : List Nat}

theorem own_create : create.ownSmall = [] ∧ create.ownMedium = [] := ⟨rfl, rfl⟩
theorem own_zero : zero.ownSmall = [] ∧ zero.ownMedium = [] := ⟨rfl, rfl⟩

variable {h0 h : Heap}

/-- What one transaction owns in addition to the rest. -/
def IS (g : Geo) (h0 : Heap) (h : Heap) (s : Slot) (os om : List Nat) : Prop :=
  J g h0 h (s.req.ownSmall ++ (s.resp.ownSmall ++ os)) (s.req.ownMedium ++ (s.resp.ownMedium ++ om))

theorem swap3 {α : Type} (a b c : List α) : (a ++ (b ++ c)).Perm (b ++ (a ++ c)) := by
  rw [← List.append_assoc, ← List.append_assoc]
  exact List.perm_append_comm.append_right _

theorem IS.destroy {h : Heap} {s : Slot} (i : IS g h0 h s os om) : J g h0 (destroyTrans h s) os om ∧ True := by
  have i' := J.perm i (swap3 _ _ _) (swap3 _ _ _)
  exact ⟨i'.destroy.1.destroy.1, trivial⟩

theorem IS.of_empty {h : Heap} (i : J g h0 h os om) : IS g h0 h .empty os om := i

theorem edit_inv (hg : g.Apart) (S : Nat) (m : HMsg) (p : HMsg × Heap) (e : Edit) (i : J g h0 p.2 (p.1.ownSmall ++ os) (p.1.ownMedium ++ om)) :
    J g h0 (edit S m p e).2 ((edit S m p e).1.ownSmall ++ os) ((edit S m p e).1.ownMedium ++ om) := by
  cases e with
  | addOp num val => exact (i.addOp hg S num val).1
  | setPayload buf => exact (i.setPayload buf).1
  | clearPayload =>
    obtain ⟨j, k⟩ := i.clearPayload
    unfold edit
    dsimp only
    unfold HMsg.ownSmall
    rw [k]
    exact j
  | reset => exact i.destroy.1
  | copy => exact (i.copy hg S m).1
  | fields t cc cd mi tk => exact i

theorem edits_inv (hg : g.Apart) (S : Nat) (m : HMsg) : ∀ (es : List Edit) (p : HMsg × Heap),
    J g h0 p.2 (p.1.ownSmall ++ os) (p.1.ownMedium ++ om) →
    J g h0 (es.foldl (edit S m) p).2 ((es.foldl (edit S m) p).1.ownSmall ++ os) ((es.foldl (edit S m) p).1.ownMedium ++ om)
  | [], _, i => i
  | e :: es, p, i => edits_inv hg S m es (edit S m p e) (edit_inv hg S m p e i)

/-- The invariant with a transaction, the request and the response that is generated. -/
def IX (g : Geo) (h0 : Heap) (h : Heap) (s : Slot) (m x : HMsg) (os om : List Nat) : Prop :=
  J g h0 h (x.ownSmall ++ (s.req.ownSmall ++ (s.resp.ownSmall ++ (m.ownSmall ++ os))))
    (x.ownMedium ++ (s.req.ownMedium ++ (s.resp.ownMedium ++ (m.ownMedium ++ om))))

theorem giveUp_inv {h : Heap} {s : Slot} {m x : HMsg} (i : IX g h0 h s m x os om) : IS g h0 (giveUp h s m x).2 (giveUp h s m x).1 os om := by
  have j := (IS.destroy (s := s) (J.destroy i).1).1
  exact (J.destroy j).1

theorem record_inv (hg : g.Apart) {S : Nat} {h h' : Heap} {s s' : Slot} {m x : HMsg} {t : Turn} (i : IX g h0 h s m x os om)
    (e : record S h s m x t = .ok (s', h')) : IS g h0 h' s' os om := by
  unfold record reset at e
  dsimp only at e
  have i1 : J g h0 h (s.req.ownSmall ++ (x.ownSmall ++ (s.resp.ownSmall ++ (m.ownSmall ++ os))))
      (s.req.ownMedium ++ (x.ownMedium ++ (s.resp.ownMedium ++ (m.ownMedium ++ om)))) := J.perm i (swap3 _ _ _) (swap3 _ _ _)
  have i2 := i1.destroy.1
  have i3 := J.copy (m := create) hg i2 S m
  split at e
  · cases e
  · rename_i e1 q h1 hc
    rw [hc] at i3
    cases e
    exact giveUp_inv (s := { s with req := q }) (J.perm i3.1 (swap3 _ _ _) (swap3 _ _ _))
  · rename_i u q h1 hc
    rw [hc] at i3
    have p1 : ∀ (a b c d : List Nat), (a ++ (b ++ (c ++ d))).Perm (c ++ (b ++ (a ++ d))) := by
      intro a b c d
      refine (swap3 a b _).trans (((swap3 a c d).append_left b).trans (swap3 b c _))
    have i4 := J.perm i3.1 (p1 _ _ _ _) (p1 _ _ _ _)
    have i5 := i4.destroy.1
    have i6 := J.copy (m := create) hg i5 S x
    have p2 : ∀ (a b c d : List Nat), (a ++ (b ++ (c ++ d))).Perm (b ++ (c ++ (a ++ d))) := by
      intro a b c d
      exact (swap3 a b _).trans ((swap3 a c d).append_left b)
    split at e
    · cases e
    · rename_i e1 r h2 hc2
      rw [hc2] at i6
      cases e
      exact giveUp_inv (s := { s with req := q, resp := r }) (J.perm i6.1 (p2 _ _ _ _) (p2 _ _ _ _))
    · rename_i v r h2 hc2
      rw [hc2] at i6
      have i7 : IX g h0 h2 { s with req := q, resp := r } m x os om := J.perm i6.1 (p2 _ _ _ _) (p2 _ _ _ _)
      split at e
      · cases e
        exact giveUp_inv i7
      · cases e
        have i8 := (J.destroy i7).1
        have p3 : ∀ (a b c d : List Nat), (a ++ (b ++ (c ++ d))).Perm (c ++ (a ++ (b ++ d))) := by
          intro a b c d
          exact ((swap3 b c d).append_left a).trans (swap3 a c _)
        exact (J.destroy (J.perm i8 (p3 _ _ _ _) (p3 _ _ _ _))).1

theorem respond_inv (hg : g.Apart) {S : Nat} {h h' : Heap} {s s' : Slot} {m : HMsg} {t : Turn}
    (i : J g h0 h (m.ownSmall ++ (s.req.ownSmall ++ (s.resp.ownSmall ++ os))) (m.ownMedium ++ (s.req.ownMedium ++ (s.resp.ownMedium ++ om))))
    (e : respond S h s m t = .ok (s', h')) : IS g h0 h' s' os om := by
  unfold respond at e
  dsimp only at e
  have i1 := (J.perm i (swap3 _ _ _) (swap3 _ _ _)).destroy.1
  have i2 := (J.perm i1 (swap3 _ _ _) (swap3 _ _ _)).destroy.1
  have z1 : (Msg.Heap.destroy h s.req).1 = zero := rfl
  have z2 : (Msg.Heap.destroy (Msg.Heap.destroy h s.req).2 s.resp).1 = zero := rfl
  rw [z1, z2] at e
  split at e
  · cases e
    exact (J.destroy (IS.destroy (s := { s with req := zero, resp := zero }) i2).1).1
  · have i3 := edits_inv (os := m.ownSmall ++ os) (om := m.ownMedium ++ om) hg S m t.edits (create, (Msg.Heap.destroy (Msg.Heap.destroy h s.req).2 s.resp).2) i2
    generalize List.foldl (edit S m) (create, (Msg.Heap.destroy (Msg.Heap.destroy h s.req).2 s.resp).2) t.edits = w at e i3
    split at e
    · cases e; exact giveUp_inv (s := { s with req := zero, resp := zero }) i3
    split at e
    · cases e; exact giveUp_inv (s := { s with req := zero, resp := zero }) i3
    split at e
    · cases e; exact giveUp_inv (s := { s with req := zero, resp := zero }) i3
    · refine record_inv (s := { s with req := zero, resp := zero }) hg ?_ e
      exact i3

theorem handle_inv (hg : g.Apart) {S : Nat} {h h' : Heap} {s s' : Slot} {m : HMsg} {t : Turn}
    (i : J g h0 h (m.ownSmall ++ (s.req.ownSmall ++ (s.resp.ownSmall ++ os))) (m.ownMedium ++ (s.req.ownMedium ++ (s.resp.ownMedium ++ om))))
    (e : handle S h s m t = .ok (s', h')) : IS g h0 h' s' os om := by
  have i1 : IS g h0 (Msg.Heap.destroy h m).2 s os om := i.destroy.1
  have i2 : IS g h0 (destroyTrans (Msg.Heap.destroy h m).2 s) .empty os om := i1.destroy.1
  unfold handle at e
  dsimp only at e
  generalize (if t.sep = true then t.ackOk else t.sendOk) = b at e
  split at e
  · split at e
    · cases e; exact i2
    · cases e; exact i1
  split at e
  · cases e; exact i1
  split at e
  · split at e
    · cases e; exact i2
    · cases e; exact i1
  split at e
  · cases e; exact i2
  · exact respond_inv hg i e

theorem receive_inv (hg : g.Apart) {S : Nat} {sx : Bool} {h h' : Heap} {s s' : Slot} {t : Turn} (i : IS g h0 h s os om)
    (e : receive S sx h s t = .ok (s', h')) : IS g h0 h' s' os om := by
  unfold receive at e
  have i0 : IS g h0 (Msg.Heap.destroy h create).2 s os om := (J.destroy (m := create) i).1
  split at e
  · split at e
    · cases e; exact i0
    · cases e; exact i0.destroy.1
  · rename_i mem len _
    have j := J.parse (m := create) hg i S sx mem len
    split at e
    · cases e
    · rename_i e1 m h1 hp
      rw [hp] at j
      cases e
      exact (IS.destroy (s := s) (J.destroy j.1).1).1
    · rename_i u m h1 hp
      rw [hp] at j
      exact handle_inv hg j.1 e

/-- A transaction that is not in use has no messages. -/
def Slot.Tidy (s : Slot) : Prop := s.active = false → s = .empty

theorem tidy_empty : Slot.Tidy .empty := fun _ => rfl
theorem tidy_active {s : Slot} (h : s.active = true) : s.Tidy := fun h' => by rw [h] at h'; cases h'

theorem record_tidy {S : Nat} {h h' : Heap} {s s' : Slot} {m x : HMsg} {t : Turn} (ha : s.active = true)
    (e : record S h s m x t = .ok (s', h')) : s'.Tidy := by
  unfold record at e
  dsimp only at e
  split at e
  · cases e
  · cases e; exact tidy_empty
  · split at e
    · cases e
    · cases e; exact tidy_empty
    · split at e
      · cases e; exact tidy_empty
      · cases e; exact tidy_active ha

theorem receive_tidy {S : Nat} {sx : Bool} {h h' : Heap} {s s' : Slot} {t : Turn} (ha : s.active = true)
    (e : receive S sx h s t = .ok (s', h')) : s'.Tidy := by
  unfold receive at e
  split at e
  · split at e
    · cases e; exact tidy_active ha
    · cases e; exact tidy_empty
  · split at e
    · cases e
    · cases e; exact tidy_empty
    · unfold handle at e
      dsimp only at e
      generalize (if t.sep = true then t.ackOk else t.sendOk) = b at e
      split at e
      · split at e
        · cases e; exact tidy_empty
        · cases e; exact tidy_active ha
      split at e
      · cases e; exact tidy_active ha
      split at e
      · split at e
        · cases e; exact tidy_empty
        · cases e; exact tidy_active ha
      split at e
      · cases e; exact tidy_empty
      · unfold respond at e
        dsimp only at e
        split at e
        · cases e; exact tidy_empty
        split at e
        · cases e; exact tidy_empty
        split at e
        · cases e; exact tidy_empty
        split at e
        · cases e; exact tidy_empty
        · exact record_tidy (s := { s with req := zero, resp := zero }) ha e

theorem turnSlot_inv (hg : g.Apart) {S : Nat} {sx : Bool} {h h' : Heap} {s s' : Slot} {t : Turn} (ht : s.Tidy) (i : IS g h0 h s os om)
    (e : turnSlot S sx h s t = .ok (s', h')) : IS g h0 h' s' os om ∧ s'.Tidy := by
  unfold turnSlot at e
  dsimp only at e
  split at e
  · split at e
    · rename_i ha
      exact ⟨receive_inv hg i e, receive_tidy ha e⟩
    · cases e; exact ⟨i, ht⟩
  · have i1 : J g h0 (if s.active = true then destroyTrans h s else h) os om := by
      split
      · exact i.destroy.1
      · rename_i ha
        rw [ht (by simpa using ha)] at i
        exact i
    split at e
    · cases e; exact ⟨i1, tidy_empty⟩
    split at e
    · cases e; exact ⟨i1, tidy_active rfl⟩
    · exact ⟨receive_inv hg (s := ⟨true, create, create⟩) i1 e, receive_tidy rfl e⟩

theorem flatMap_set {α : Type} (f : Slot → List α) : ∀ (l : List Slot) (i : Nat) (x : Slot), l[i]? = some x → ∃ rest : List α,
    (l.flatMap f).Perm (f x ++ rest) ∧ ∀ y, ((l.set i y).flatMap f).Perm (f y ++ rest)
  | [], i, x, h => by simp at h
  | a :: l, 0, x, h => by
    simp only [List.getElem?_cons_zero, Option.some.injEq] at h
    subst h
    exact ⟨l.flatMap f, .refl _, fun y => .refl _⟩
  | a :: l, i + 1, x, h => by
    simp only [List.getElem?_cons_succ] at h
    obtain ⟨rest, h1, h2⟩ := flatMap_set f l i x h
    refine ⟨f a ++ rest, ?_, fun y => ?_⟩
    · rw [List.flatMap_cons]
      exact (h1.append_left _).trans (swap3 _ _ _)
    · rw [List.set_cons_succ, List.flatMap_cons]
      exact ((h2 y).append_left _).trans (swap3 _ _ _)

/-- The invariant of the server. -/
structure SInv (g : Geo) (h0 : Heap) (s : State) (os om : List Nat) : Prop where
  heap : J g h0 s.heap (s.small ++ os) (s.medium ++ om)
  tidy : ∀ x ∈ s.slots, x.Tidy

theorem focus {s : State} {i : Nat} {x : Slot} (hi : SInv g h0 s os om) (hx : s.slots[i]? = some x) : ∃ rs rm : List Nat,
    IS g h0 s.heap x (rs ++ os) (rm ++ om) ∧
    ∀ y h, y.Tidy → IS g h0 h y (rs ++ os) (rm ++ om) → SInv g h0 ⟨h, s.slots.set i y⟩ os om := by
  obtain ⟨rs, a1, a2⟩ := flatMap_set (fun x => x.req.ownSmall ++ x.resp.ownSmall) s.slots i x hx
  obtain ⟨rm, b1, b2⟩ := flatMap_set (fun x => x.req.ownMedium ++ x.resp.ownMedium) s.slots i x hx
  refine ⟨rs, rm, ?_, fun y h hy j => ⟨?_, ?_⟩⟩
  · have := hi.heap.perm (a1.append_right os) (b1.append_right om)
    simpa only [IS, List.append_assoc] using this
  · refine J.perm j ?_ ?_
    · have := ((a2 y).append_right os).symm
      simpa only [List.append_assoc, State.small] using this
    · have := ((b2 y).append_right om).symm
      simpa only [List.append_assoc, State.medium] using this
  · intro z hz
    rcases List.mem_or_eq_of_mem_set hz with hz | rfl
    · exact hi.tidy z hz
    · exact hy

theorem destroy_all : ∀ {l : List Slot} {h : Heap} {os om : List Nat}, (∀ x ∈ l, x.Tidy) →
    J g h0 h (l.flatMap (fun x => x.req.ownSmall ++ x.resp.ownSmall) ++ os) (l.flatMap (fun x => x.req.ownMedium ++ x.resp.ownMedium) ++ om) →
    J g h0 (l.foldl (fun h x => if x.active then destroyTrans h x else h) h) os om
  | [], _, _, _, _, i => i
  | x :: l, h, os, om, ht, i => by
    rw [List.foldl_cons]
    refine destroy_all (fun y hy => ht y (List.mem_cons_of_mem _ hy)) ?_
    simp only [List.flatMap_cons, List.append_assoc] at i
    split
    · exact (IS.destroy (s := x) i).1
    · rename_i ha
      have := ht x List.mem_cons_self (by simpa using ha)
      rw [this] at i
      exact i

theorem step_inv (hg : g.Apart) {S : Nat} {sx : Bool} {s s' : State} {e : Event} (i : SInv g h0 s os om) (h : step S sx s e = .ok s') :
    SInv g h0 s' os om := by
  cases e with
  | turn t =>
    unfold step at h
    dsimp only at h
    split at h
    · cases h; exact i
    · rename_i x hx
      obtain ⟨rs, rm, f1, f2⟩ := focus i hx
      split at h
      · cases h
      · cases h
      · rename_i y h1 ht
        cases h
        obtain ⟨j, k⟩ := turnSlot_inv hg (i.tidy x (List.mem_of_getElem? hx)) f1 ht
        exact f2 _ _ k j
  | expire n =>
    unfold step at h
    dsimp only at h
    split at h
    · cases h; exact i
    · rename_i x hx
      obtain ⟨rs, rm, f1, f2⟩ := focus i hx
      split at h
      · cases h
        exact f2 _ _ tidy_empty f1.destroy.1
      · cases h; exact i
  | destroy =>
    cases h
    refine ⟨?_, fun x hx => ?_⟩
    · have j := destroy_all i.tidy i.heap
      have e1 : ∀ l : List Slot, (l.map (fun _ => Slot.empty)).flatMap (fun x => x.req.ownSmall ++ x.resp.ownSmall) = [] := by
        intro l; induction l with
        | nil => rfl
        | cons a l ih => rw [List.map_cons, List.flatMap_cons, ih]; rfl
      have e2 : ∀ l : List Slot, (l.map (fun _ => Slot.empty)).flatMap (fun x => x.req.ownMedium ++ x.resp.ownMedium) = [] := by
        intro l; induction l with
        | nil => rfl
        | cons a l ih => rw [List.map_cons, List.flatMap_cons, ih]; rfl
      unfold State.small State.medium
      dsimp only
      rw [e1, e2]
      exact j
    · obtain ⟨y, -, rfl⟩ := List.mem_map.1 hx
      exact tidy_empty

theorem run_inv (hg : g.Apart) {S : Nat} {sx : Bool} : ∀ {es : List Event} {s s' : State}, SInv g h0 s os om → run S sx s es = .ok s' → SInv g h0 s' os om
  | [], _, _, i, h => by cases h; exact i
  | e :: es, s, s', i, h => by
    unfold run at h
    split at h
    · cases h
    · cases h
    · rename_i s1 h1
      exact run_inv hg (step_inv hg i h1) h

theorem init_inv {h : Heap} (n : Nat) (i : J g h0 h os om) : SInv g h0 (init n h) os om := by
  refine ⟨?_, fun x hx => by rw [(List.mem_replicate.1 hx).2]; exact tidy_empty⟩
  have e1 : (init n h).small = [] := by
    unfold State.small init
    rw [List.flatMap_eq_nil_iff]
    intro x hx
    rw [(List.mem_replicate.1 hx).2]; rfl
  have e2 : (init n h).medium = [] := by
    unfold State.medium init
    rw [List.flatMap_eq_nil_iff]
    intro x hx
    rw [(List.mem_replicate.1 hx).2]; rfl
  rw [e1, e2]
  exact i

end FreeCoAP.Server.Buf
