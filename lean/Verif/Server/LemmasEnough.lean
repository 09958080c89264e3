import Verif.Server.LemmasBuf
import Verif.Msg.LemmasHeapPlenty
import Verif.Msg.LemmasParse

/-! # Lemmas about a server with enough buffers -/

namespace FreeCoAP.Server.Buf

open FreeCoAP.Msg.Heap
open FreeCoAP.Mem (Pool Call held)

variable {g : Geo} {os om : List Nat} {h : Heap} {S k l : Nat}

/-- There is room for four messages. -/
structure Roomy (g : Geo) (S k l : Nat) (os om : List Nat) : Prop where
  s : S ≤ g.ls
  l : l ≤ g.lm
  ks : os.length + 4 * k ≤ g.ns
  km : om.length + 4 * (k + 1) ≤ g.nm

theorem Roomy.three (r : Roomy g S k l os om) {a b c : HMsg} (fa : Fits k l a) (fb : Fits k l b) (fc : Fits k l c) :
    Space g S k l (a.ownSmall ++ (b.ownSmall ++ (c.ownSmall ++ os))) (a.ownMedium ++ (b.ownMedium ++ (c.ownMedium ++ om))) := by
  have a1 := fa.small
  have a2 := fa.medium
  have b1 := fb.small
  have b2 := fb.medium
  have c1 := fc.small
  have c2 := fc.medium
  have := r.ks
  have := r.km
  refine ⟨r.s, r.l, ?_, ?_⟩ <;> simp only [List.length_append] <;> omega

theorem Roomy.two (r : Roomy g S k l os om) {a b : HMsg} (fa : Fits k l a) (fb : Fits k l b) :
    Space g S k l (a.ownSmall ++ (b.ownSmall ++ os)) (a.ownMedium ++ (b.ownMedium ++ om)) := r.three (c := zero) fa fb (fits_zero k l)

theorem Roomy.one (r : Roomy g S k l os om) {a : HMsg} (fa : Fits k l a) :
    Space g S k l (a.ownSmall ++ os) (a.ownMedium ++ om) := r.two (b := zero) fa (fits_zero k l)

/-- The messages of a transaction are small. -/
def SlotFits (k l : Nat) (s : Slot) : Prop := Fits k l s.req ∧ Fits k l s.resp

theorem slotFits_empty : SlotFits k l .empty := ⟨fits_zero k l, fits_zero k l⟩

/-- What one transaction owns in addition to the rest. -/
def NS (g : Geo) (h : Heap) (s : Slot) (os om : List Nat) : Prop :=
  N g h (s.req.ownSmall ++ (s.resp.ownSmall ++ os)) (s.req.ownMedium ++ (s.resp.ownMedium ++ om))

theorem NS.destroy {s : Slot} (i : NS g h s os om) : N g (destroyTrans h s) os om :=
  (N.perm i (swap3 _ _ _) (swap3 _ _ _)).destroy.destroy

/-- What is true after a turn that refused nothing. -/
def After (g : Geo) (k l : Nat) (r : Out (Slot × Heap)) (os om : List Nat) : Prop :=
  ∃ s' h', r = .ok (s', h') ∧ NS g h' s' os om ∧ SlotFits k l s'

theorem after_empty {os om : List Nat} (i : N g h os om) : After g k l (.ok (.empty, h)) os om := ⟨_, _, rfl, i, slotFits_empty⟩

/-- The invariant with a transaction, the request and the response that is generated. -/
def NX (g : Geo) (h : Heap) (s : Slot) (m x : HMsg) (os om : List Nat) : Prop :=
  N g h (x.ownSmall ++ (s.req.ownSmall ++ (s.resp.ownSmall ++ (m.ownSmall ++ os))))
    (x.ownMedium ++ (s.req.ownMedium ++ (s.resp.ownMedium ++ (m.ownMedium ++ om))))

theorem giveUp_after {s : Slot} {m x : HMsg} (i : NX g h s m x os om) : After g k l (.ok (giveUp h s m x)) os om :=
  after_empty (N.destroy (NS.destroy (s := s) (N.destroy i)))

theorem record_after (hg : g.Apart) {s : Slot} {m x : HMsg} {t : Turn} (i : NX g h s m x os om) (r : Roomy g S k l os om) (fs : SlotFits k l s)
    (fm : Fits k l m) (fx : Fits k l x) : After g k l (record S h s m x t) os om := by
  unfold record reset
  dsimp only
  have i1 : N g h (s.req.ownSmall ++ (x.ownSmall ++ (s.resp.ownSmall ++ (m.ownSmall ++ os))))
      (s.req.ownMedium ++ (x.ownMedium ++ (s.resp.ownMedium ++ (m.ownMedium ++ om)))) := N.perm i (swap3 _ _ _) (swap3 _ _ _)
  have i2 := i1.destroy
  obtain ⟨st, q, h1, e1, ne1, i3, fq⟩ := N.copy (j := 0) (k := k) (m := create) (src := m) (S := S) (k' := k) hg i2 (fits_create 0 l) fm
    (by rw [Nat.zero_add]; exact fm.count) (r.three fx fs.2 fm)
  rw [e1]
  cases st with
  | ub => rcases ne1 with h | h <;> cases h
  | err e => exact giveUp_after (s := { s with req := q }) (N.perm i3 (swap3 _ _ _) (swap3 _ _ _))
  | ok u =>
    dsimp only
    have p1 : ∀ (a b c d : List Nat), (a ++ (b ++ (c ++ d))).Perm (c ++ (b ++ (a ++ d))) := by
      intro a b c d
      refine (swap3 a b _).trans (((swap3 a c d).append_left b).trans (swap3 b c _))
    have i5 := (N.perm i3 (p1 _ _ _ _) (p1 _ _ _ _)).destroy
    obtain ⟨st2, y, h2, e2, ne2, i6, fy⟩ := N.copy (j := 0) (k := k) (m := create) (src := x) (S := S) (k' := k) hg i5 (fits_create 0 l) fx
      (by rw [Nat.zero_add]; exact fx.count) (r.three fx fq fm)
    have p2 : ∀ (a b c d : List Nat), (a ++ (b ++ (c ++ d))).Perm (b ++ (c ++ (a ++ d))) := by
      intro a b c d
      exact (swap3 a b _).trans ((swap3 a c d).append_left b)
    have i7 : NX g h2 { s with req := q, resp := y } m x os om := N.perm i6 (p2 _ _ _ _) (p2 _ _ _ _)
    rw [e2]
    cases st2 with
    | ub => rcases ne2 with h | h <;> cases h
    | err e => exact giveUp_after i7
    | ok v =>
      dsimp only
      split
      · exact giveUp_after i7
      · have i8 := N.destroy i7
        have p3 : ∀ (a b c d : List Nat), (a ++ (b ++ (c ++ d))).Perm (c ++ (a ++ (b ++ d))) := by
          intro a b c d
          exact ((swap3 b c d).append_left a).trans (swap3 a c _)
        exact ⟨_, _, rfl, N.destroy (N.perm i8 (p3 _ _ _ _) (p3 _ _ _ _)), fq, fy⟩

theorem modest_le {j : Nat} : ∀ {es : List Edit}, Modest k l j es → j ≤ k
  | [], h => h
  | _ :: _, h => h.1

theorem edits_after (hg : g.Apart) {m : HMsg} (fm : Fits k l m) (sp : Space g S k l os om) : ∀ (es : List Edit) (j : Nat) (p : HMsg × Heap),
    Modest k l j es → N g p.2 (p.1.ownSmall ++ os) (p.1.ownMedium ++ om) → Fits j l p.1 →
    N g (es.foldl (edit S m) p).2 ((es.foldl (edit S m) p).1.ownSmall ++ os) ((es.foldl (edit S m) p).1.ownMedium ++ om) ∧
      Fits k l (es.foldl (edit S m) p).1
  | [], _, p, hm, i, f => ⟨i, f.mono hm⟩
  | e :: es, j, p, ⟨h1, h2, h3⟩, i, f => by
    rw [List.foldl_cons]
    have hk := modest_le h3
    have sp' : ∀ j', j' ≤ k → Space g S j' l os om := fun j' hj => ⟨sp.s, sp.l, by have := sp.ks; omega, by have := sp.km; omega⟩
    have key : N g (edit S m p e).2 ((edit S m p e).1.ownSmall ++ os) ((edit S m p e).1.ownMedium ++ om) ∧ Fits (grow k j e) l (edit S m p e).1 := by
      cases e with
      | addOp num val =>
        obtain ⟨m', h', e1, i1, f1⟩ := i.addOp hg (S := S) (num := num) (val := val) f (sp' _ hk) h2
        unfold edit
        dsimp only
        rw [e1]
        exact ⟨i1, f1⟩
      | setPayload buf =>
        obtain ⟨m', h', e1, i1, f1⟩ := i.setPayload (S := S) (buf := buf) f (sp' _ h1) h2
        unfold edit
        dsimp only
        rw [e1]
        exact ⟨i1, f1⟩
      | clearPayload =>
        obtain ⟨c1, c2, -, -⟩ := i.clearPayload f
        exact ⟨c1, c2⟩
      | reset => exact ⟨i.destroy, fits_create _ _⟩
      | copy =>
        obtain ⟨r, m', h', e1, -, i1, f1⟩ := i.copy hg (S := S) (k' := j + k) f fm (by have := fm.count; omega) (sp' _ hk)
        unfold edit
        dsimp only
        rw [e1]
        exact ⟨i1, f1⟩
      | fields t cc cd mi tk => exact ⟨i, f.count, f.value, f.payload⟩
    exact edits_after hg fm sp es _ _ h3 key.1 key.2

theorem respond_after (hg : g.Apart) {s : Slot} {m : HMsg} {t : Turn}
    (i : N g h (m.ownSmall ++ (s.req.ownSmall ++ (s.resp.ownSmall ++ os))) (m.ownMedium ++ (s.req.ownMedium ++ (s.resp.ownMedium ++ om))))
    (r : Roomy g S k l os om) (fm : Fits k l m) (ht : Modest k l 0 t.edits) : After g k l (respond S h s m t) os om := by
  unfold respond
  dsimp only
  have i1 := (N.perm i (swap3 _ _ _) (swap3 _ _ _)).destroy
  have i2 := (N.perm i1 (swap3 _ _ _) (swap3 _ _ _)).destroy
  have z1 : (Msg.Heap.destroy h s.req).1 = zero := rfl
  have z2 : (Msg.Heap.destroy (Msg.Heap.destroy h s.req).2 s.resp).1 = zero := rfl
  rw [z1, z2]
  split
  · exact after_empty (N.destroy (NS.destroy (s := { s with req := zero, resp := zero }) i2))
  · obtain ⟨i3, f3⟩ := edits_after (os := m.ownSmall ++ os) (om := m.ownMedium ++ om) hg fm (r.one fm) t.edits 0
      (create, (Msg.Heap.destroy (Msg.Heap.destroy h s.req).2 s.resp).2) ht i2 (fits_create 0 l)
    generalize List.foldl (edit S m) (create, (Msg.Heap.destroy (Msg.Heap.destroy h s.req).2 s.resp).2) t.edits = w at i3 f3
    split
    · exact giveUp_after (s := { s with req := zero, resp := zero }) i3
    split
    · exact giveUp_after (s := { s with req := zero, resp := zero }) i3
    split
    · exact giveUp_after (s := { s with req := zero, resp := zero }) i3
    · refine record_after (s := { s with req := zero, resp := zero }) hg ?_ r ⟨fits_zero k l, fits_zero k l⟩ fm ⟨f3.count, f3.value, f3.payload⟩
      exact i3

theorem handle_after (hg : g.Apart) {s : Slot} {m : HMsg} {t : Turn}
    (i : N g h (m.ownSmall ++ (s.req.ownSmall ++ (s.resp.ownSmall ++ os))) (m.ownMedium ++ (s.req.ownMedium ++ (s.resp.ownMedium ++ om))))
    (r : Roomy g S k l os om) (fs : SlotFits k l s) (fm : Fits k l m) (ht : Modest k l 0 t.edits) : After g k l (handle S h s m t) os om := by
  have i1 : NS g (Msg.Heap.destroy h m).2 s os om := i.destroy
  have a1 : After g k l (.ok (s, (Msg.Heap.destroy h m).2)) os om := ⟨_, _, rfl, i1, fs⟩
  have a2 : After g k l (.ok (.empty, destroyTrans (Msg.Heap.destroy h m).2 s)) os om := after_empty i1.destroy
  unfold handle
  dsimp only
  generalize (if t.sep = true then t.ackOk else t.sendOk) = b
  split
  · split
    · exact a2
    · exact a1
  split
  · exact a1
  split
  · split
    · exact a2
    · exact a1
  split
  · exact a2
  · exact respond_after hg i r fm ht

theorem receive_after (hg : g.Apart) {sx : Bool} {s : Slot} {t : Turn} (i : NS g h s os om) (r : Roomy g S k l os om) (fs : SlotFits k l s)
    (ht : Small sx k l t) : After g k l (receive S sx h s t) os om := by
  unfold receive
  have i0 : NS g (Msg.Heap.destroy h create).2 s os om := N.destroy (m := create) i
  cases ha : t.arrives with
  | none =>
    dsimp only
    split
    · exact ⟨_, _, rfl, i0, fs⟩
    · exact after_empty i0.destroy
  | some d =>
    obtain ⟨mem, len⟩ := d
    obtain ⟨h1, h2⟩ := ht.datagram mem len ha
    have j := N.parse (m := create) hg i h2 (r.two fs.1 fs.2)
    have k1 := parse_refines S sx h create mem len
    dsimp only
    revert j k1
    rcases Msg.Heap.parse S sx h create mem len with ⟨st, m, h'⟩
    intro j k1
    cases st with
    | ub => exact absurd k1 (Msg.parse_ne_ub h1)
    | err e => exact after_empty (NS.destroy (s := s) (N.destroy j.1))
    | ok u => exact handle_after hg j.1 r fs j.2 ht.response

theorem turnSlot_after (hg : g.Apart) {sx : Bool} {s : Slot} {t : Turn} (hs : s.Tidy) (i : NS g h s os om) (r : Roomy g S k l os om)
    (fs : SlotFits k l s) (ht : Small sx k l t) : After g k l (turnSlot S sx h s t) os om := by
  unfold turnSlot
  dsimp only
  split
  · split
    · exact receive_after hg i r fs ht
    · exact ⟨_, _, rfl, i, fs⟩
  · have i1 : N g (if s.active = true then destroyTrans h s else h) os om := by
      split
      · exact i.destroy
      · rename_i ha
        rw [hs (by simpa using ha)] at i
        exact i
    split
    · exact after_empty i1
    split
    · exact ⟨_, _, rfl, i1, fits_create k l, fits_create k l⟩
    · exact receive_after hg (s := ⟨true, create, create⟩) i1 r ⟨fits_create k l, fits_create k l⟩ ht

theorem length_flatMap_le (f : Slot → List Nat) (c : Nat) : ∀ (xs : List Slot), (∀ x ∈ xs, (f x).length ≤ c) → (xs.flatMap f).length ≤ xs.length * c
  | [], _ => Nat.le_of_eq (by simp)
  | x :: xs, h => by
    have := length_flatMap_le f c xs (fun y hy => h y (List.mem_cons_of_mem _ hy))
    have := h x List.mem_cons_self
    rw [List.flatMap_cons, List.length_append, List.length_cons, Nat.succ_mul]
    omega

theorem length_set_le (f : Slot → List Nat) (c : Nat) (he : f .empty = []) : ∀ (xs : List Slot) (i : Nat) (x : Slot), xs[i]? = some x →
    (∀ x ∈ xs, (f x).length ≤ c) → ((xs.set i .empty).flatMap f).length + c ≤ xs.length * c
  | [], _, _, h, _ => by simp at h
  | a :: xs, 0, x, _, hc => by
    have := length_flatMap_le f c xs (fun y hy => hc y (List.mem_cons_of_mem _ hy))
    rw [List.set_cons_zero, List.flatMap_cons, he, List.nil_append, List.length_cons, Nat.succ_mul]
    omega
  | a :: xs, i + 1, x, h, hc => by
    simp only [List.getElem?_cons_succ] at h
    have := length_set_le f c he xs i x h (fun y hy => hc y (List.mem_cons_of_mem _ hy))
    have := hc a List.mem_cons_self
    rw [List.set_cons_succ, List.flatMap_cons, List.length_append, List.length_cons, Nat.succ_mul]
    omega

/-- The invariant of the server. -/
structure EInv (g : Geo) (k l : Nat) (s : State) (os om : List Nat) : Prop where
  heap : N g s.heap (s.small ++ os) (s.medium ++ om)
  tidy : ∀ x ∈ s.slots, x.Tidy
  fits : ∀ x ∈ s.slots, SlotFits k l x

theorem slot_small {x : Slot} (f : SlotFits k l x) : (x.req.ownSmall ++ x.resp.ownSmall).length ≤ 2 * k := by
  have := f.1.small; have := f.2.small; rw [List.length_append]; omega
theorem slot_medium {x : Slot} (f : SlotFits k l x) : (x.req.ownMedium ++ x.resp.ownMedium).length ≤ 2 * (k + 1) := by
  have := f.1.medium; have := f.2.medium; rw [List.length_append]; omega

theorem focus_enough {s : State} {i : Nat} {x : Slot} (hi : EInv g k l s os om) (hx : s.slots[i]? = some x) : ∃ rs rm : List Nat,
    rs.length + 2 * k ≤ s.slots.length * (2 * k) ∧ rm.length + 2 * (k + 1) ≤ s.slots.length * (2 * (k + 1)) ∧
    NS g s.heap x (rs ++ os) (rm ++ om) ∧
    ∀ y h, y.Tidy → SlotFits k l y → NS g h y (rs ++ os) (rm ++ om) → EInv g k l ⟨h, s.slots.set i y⟩ os om := by
  obtain ⟨rs, a1, a2⟩ := flatMap_set (fun x => x.req.ownSmall ++ x.resp.ownSmall) s.slots i x hx
  obtain ⟨rm, b1, b2⟩ := flatMap_set (fun x => x.req.ownMedium ++ x.resp.ownMedium) s.slots i x hx
  refine ⟨rs, rm, ?_, ?_, ?_, fun y h hy fy j => ⟨?_, ?_, ?_⟩⟩
  · have e := (a2 .empty).length_eq
    have := length_set_le (fun x => x.req.ownSmall ++ x.resp.ownSmall) (2 * k) rfl s.slots i x hx (fun y hy => slot_small (hi.fits y hy))
    rw [e] at this
    exact this
  · have e := (b2 .empty).length_eq
    have := length_set_le (fun x => x.req.ownMedium ++ x.resp.ownMedium) (2 * (k + 1)) rfl s.slots i x hx (fun y hy => slot_medium (hi.fits y hy))
    rw [e] at this
    exact this
  · have := hi.heap.perm (a1.append_right os) (b1.append_right om)
    simpa only [NS, List.append_assoc] using this
  · refine N.perm j ?_ ?_
    · have := ((a2 y).append_right os).symm
      simpa only [List.append_assoc, State.small] using this
    · have := ((b2 y).append_right om).symm
      simpa only [List.append_assoc, State.medium] using this
  · intro z hz
    rcases List.mem_or_eq_of_mem_set hz with hz | rfl
    · exact hi.tidy z hz
    · exact hy
  · intro z hz
    rcases List.mem_or_eq_of_mem_set hz with hz | rfl
    · exact hi.fits z hz
    · exact fy

theorem destroy_all_enough : ∀ {xs : List Slot} {h : Heap} {os om : List Nat}, (∀ x ∈ xs, x.Tidy) →
    N g h (xs.flatMap (fun x => x.req.ownSmall ++ x.resp.ownSmall) ++ os) (xs.flatMap (fun x => x.req.ownMedium ++ x.resp.ownMedium) ++ om) →
    N g (xs.foldl (fun h x => if x.active then destroyTrans h x else h) h) os om
  | [], _, _, _, _, i => i
  | x :: xs, h, os, om, ht, i => by
    rw [List.foldl_cons]
    refine destroy_all_enough (fun y hy => ht y (List.mem_cons_of_mem _ hy)) ?_
    simp only [List.flatMap_cons, List.append_assoc] at i
    split
    · exact NS.destroy (s := x) i
    · rename_i ha
      have := ht x List.mem_cons_self (by simpa using ha)
      rw [this] at i
      exact i

theorem flatMap_empties (f : Slot → List Nat) (he : f .empty = []) (xs : List Slot) (h : ∀ x ∈ xs, x = .empty) : xs.flatMap f = [] :=
  List.flatMap_eq_nil_iff.2 fun x hx => by rw [h x hx]; exact he

theorem turnSlot_tidy {sx : Bool} {h h' : Heap} {s s' : Slot} {t : Turn} (ht : s.Tidy) (e : turnSlot S sx h s t = .ok (s', h')) : s'.Tidy := by
  unfold turnSlot at e
  dsimp only at e
  split at e
  · split at e
    · rename_i ha
      exact receive_tidy ha e
    · cases e; exact ht
  · split at e
    · cases e; exact tidy_empty
    split at e
    · cases e; exact tidy_active rfl
    · exact receive_tidy rfl e

theorem step_enough (hg : g.Apart) {sx : Bool} {s : State} {e : Event} (i : EInv g k l s os om) (h1 : S ≤ g.ls) (h2 : l ≤ g.lm)
    (h3 : os.length + (2 * s.slots.length + 2) * k ≤ g.ns) (h4 : om.length + (2 * s.slots.length + 2) * (k + 1) ≤ g.nm)
    (he : ∀ t, e = .turn t → Small sx k l t) :
    ∃ s', step S sx s e = .ok s' ∧ EInv g k l s' os om ∧ s'.slots.length = s.slots.length := by
  have m1 : ∀ c, (2 * s.slots.length + 2) * c = s.slots.length * (2 * c) + 2 * c := by
    intro c; rw [Nat.add_mul, Nat.mul_comm 2 s.slots.length, Nat.mul_assoc]
  cases e with
  | turn t =>
    unfold step
    dsimp only
    cases hx : s.slots[t.slot]? with
    | none => exact ⟨_, rfl, i, rfl⟩
    | some x =>
      obtain ⟨rs, rm, l1, l2, f1, f2⟩ := focus_enough i hx
      have tx := i.tidy x (List.mem_of_getElem? hx)
      obtain ⟨y, h', e1, n1, fy⟩ := turnSlot_after hg (S := S) tx f1 (by
        rw [m1] at h3 h4
        exact ⟨h1, h2, by rw [List.length_append]; omega, by rw [List.length_append]; omega⟩) (i.fits x (List.mem_of_getElem? hx)) (he t rfl)
      dsimp only
      rw [e1]
      exact ⟨_, rfl, f2 _ _ (turnSlot_tidy tx e1) fy n1, List.length_set⟩
  | expire n =>
    unfold step
    dsimp only
    cases hx : s.slots[n]? with
    | none => exact ⟨_, rfl, i, rfl⟩
    | some x =>
      obtain ⟨rs, rm, l1, l2, f1, f2⟩ := focus_enough i hx
      dsimp only
      split
      · exact ⟨_, rfl, f2 _ _ tidy_empty slotFits_empty f1.destroy, List.length_set⟩
      · exact ⟨_, rfl, i, rfl⟩
  | destroy =>
    refine ⟨_, rfl, ⟨?_, ?_, ?_⟩, List.length_map ..⟩
    · have j := destroy_all_enough i.tidy i.heap
      have hm : ∀ x ∈ s.slots.map (fun _ => Slot.empty), x = .empty := by
        intro x hx
        obtain ⟨y, -, rfl⟩ := List.mem_map.1 hx
        rfl
      unfold State.small State.medium
      dsimp only
      rw [flatMap_empties (fun x => x.req.ownSmall ++ x.resp.ownSmall) rfl _ hm, flatMap_empties (fun x => x.req.ownMedium ++ x.resp.ownMedium) rfl _ hm]
      exact j
    · intro x hx
      obtain ⟨y, -, rfl⟩ := List.mem_map.1 hx
      exact tidy_empty
    · intro x hx
      obtain ⟨y, -, rfl⟩ := List.mem_map.1 hx
      exact slotFits_empty

theorem run_enough (hg : g.Apart) {sx : Bool} : ∀ (es : List Event) {s : State}, EInv g k l s os om → S ≤ g.ls → l ≤ g.lm →
    os.length + (2 * s.slots.length + 2) * k ≤ g.ns → om.length + (2 * s.slots.length + 2) * (k + 1) ≤ g.nm → AllSmall sx k l es →
    ∃ s', run S sx s es = .ok s' ∧ EInv g k l s' os om ∧ s'.slots.length = s.slots.length
  | [], s, i, _, _, _, _, _ => ⟨s, rfl, i, rfl⟩
  | e :: es, s, i, h1, h2, h3, h4, he => by
    obtain ⟨s1, e1, i1, l1⟩ := step_enough (S := S) (sx := sx) (e := e) hg i h1 h2 h3 h4 (fun t ht => he t (by rw [ht]; exact List.mem_cons_self))
    obtain ⟨s2, e2, i2, l2⟩ := run_enough hg es i1 h1 h2 (by rw [l1]; exact h3) (by rw [l1]; exact h4)
      (fun t ht => he t (List.mem_cons_of_mem _ ht))
    refine ⟨s2, ?_, i2, l2.trans l1⟩
    unfold run
    rw [e1]
    exact e2

theorem init_enough {h : Heap} (n : Nat) (i : N g h os om) : EInv g k l (init n h) os om := by
  have hm : ∀ x ∈ (init n h).slots, x = .empty := fun x hx => (List.mem_replicate.1 hx).2
  refine ⟨?_, fun x hx => by rw [hm x hx]; exact tidy_empty, fun x hx => by rw [hm x hx]; exact slotFits_empty⟩
  unfold State.small State.medium
  rw [flatMap_empties (fun x => x.req.ownSmall ++ x.resp.ownSmall) rfl _ hm, flatMap_empties (fun x => x.req.ownMedium ++ x.resp.ownMedium) rfl _ hm]
  exact i

end FreeCoAP.Server.Buf
