import Verif.Msg.LemmasHeapRoom
import Verif.Msg.LemmasHeapUse
import Verif.Server.SpecEnough

/-! # The pools when they refuse nothing -/

namespace FreeCoAP.Msg.Heap

open FreeCoAP.Mem (Pool Call Rel held)

variable {g : Geo} {h : Heap} {os om : List Nat}

/-- The invariant of pools that have refused nothing. -/
structure N (g : Geo) (h : Heap) (os om : List Nat) : Prop where
  inv : Inv g h os om
  lost : h.lost = []
  free : Unrefused h

/-- There is room for one message more. -/
structure Space (g : Geo) (S k l : Nat) (os om : List Nat) : Prop where
  s : S ≤ g.ls
  l : l ≤ g.lm
  ks : os.length + k ≤ g.ns
  km : om.length + (k + 1) ≤ g.nm

theorem Fits.mono {j k l : Nat} {m : HMsg} (f : Fits j l m) (h : j ≤ k) : Fits k l m := ⟨Nat.le_trans f.count h, f.value, f.payload⟩
theorem fits_create (k l : Nat) : Fits k l create := ⟨Nat.zero_le _, (by intro o h; cases h), Nat.zero_le _⟩
theorem fits_zero (k l : Nat) : Fits k l zero := ⟨Nat.zero_le _, (by intro o h; cases h), Nat.zero_le _⟩

theorem Fits.small {k l : Nat} {m : HMsg} (f : Fits k l m) : m.ownSmall.length ≤ k := by
  unfold HMsg.ownSmall; rw [List.length_map]; exact f.count
theorem Fits.medium {k l : Nat} {m : HMsg} (f : Fits k l m) : m.ownMedium.length ≤ k + 1 := by
  unfold HMsg.ownMedium; rw [List.length_append, List.length_map]
  have := f.count
  cases m.payload with
  | none => simp only [plAddr_none, List.length_nil]; omega
  | some p => simp only [plAddr_some, List.length_cons, List.length_nil]; omega

theorem N.perm (i : N g h os om) {os' om' : List Nat} (hs : os.Perm os') (hm : om.Perm om') : N g h os' om' := ⟨i.inv.perm hs hm, i.lost, i.free⟩

theorem unrefused_mediumFree (u : Unrefused h) (p : Nat) : Unrefused (h.mediumFree p) := by
  refine ⟨u.1, fun l hl => ?_⟩
  rcases List.mem_append.1 hl with hl | hl
  · exact u.2 l hl
  · simp at hl

theorem unrefused_smallFree (u : Unrefused h) (p : Nat) : Unrefused (h.smallFree p) := by
  refine ⟨fun l hl => ?_, u.2⟩
  rcases List.mem_append.1 hl with hl | hl
  · exact u.1 l hl
  · simp at hl

theorem unrefused_mediumAlloc (u : Unrefused h) {l p : Nat} (e : (h.mediumAlloc l).1 = some p) : Unrefused (h.mediumAlloc l).2 := by
  refine ⟨u.1, fun l' hl => ?_⟩
  unfold Heap.mediumAlloc at e hl
  dsimp only at e hl
  rcases List.mem_append.1 hl with hl | hl
  · exact u.2 l' hl
  · rw [e] at hl; simp at hl

theorem unrefused_smallAlloc (u : Unrefused h) {l p : Nat} (e : (h.smallAlloc l).1 = some p) : Unrefused (h.smallAlloc l).2 := by
  refine ⟨fun l' hl => ?_, u.2⟩
  unfold Heap.smallAlloc at e hl
  dsimp only at e hl
  rcases List.mem_append.1 hl with hl | hl
  · exact u.1 l' hl
  · rw [e] at hl; simp at hl

theorem unrefused_opNew (u : Unrefused h) {S num : Nat} {val : Bytes} {o : HOp} {h' : Heap} (e : Heap.opNew S h num val = (some o, h')) : Unrefused h' := by
  unfold Heap.opNew at e
  split at e
  · cases e
  · rename_i p h1 e1
    have u1 : Unrefused h1 := by
      have := unrefused_smallAlloc u (l := S) (p := p) (by rw [e1])
      rwa [e1] at this
    split at e
    · cases e
    · rename_i v h2 e2
      cases e
      have := unrefused_mediumAlloc u1 (l := val.length) (p := v) (by rw [e2])
      rwa [e2] at this

theorem unrefused_listDestroy : ∀ (ops : List HOp) {h : Heap}, Unrefused h → Unrefused (listDestroy h ops)
  | [], _, u => u
  | _ :: rest, _, u => unrefused_listDestroy rest (unrefused_smallFree (unrefused_mediumFree u _) _)

theorem unrefused_clearPayload (u : Unrefused h) (m : HMsg) : Unrefused (Heap.clearPayload h m).2 := by
  unfold Heap.clearPayload
  split
  · exact u
  · exact unrefused_mediumFree u _

theorem N.destroy {m : HMsg} (i : N g h (m.ownSmall ++ os) (m.ownMedium ++ om)) : N g (Heap.destroy h m).2 os om :=
  ⟨i.inv.destroy.1, i.inv.destroy.2.2.trans i.lost, unrefused_clearPayload (unrefused_listDestroy _ i.free) _⟩

theorem N.clearPayload {k l : Nat} {m : HMsg} (i : N g h (m.ownSmall ++ os) (m.ownMedium ++ om)) (f : Fits k l m) :
    N g (Heap.clearPayload h m).2 ((Heap.clearPayload h m).1.ownSmall ++ os) ((Heap.clearPayload h m).1.ownMedium ++ om) ∧
    Fits k l (Heap.clearPayload h m).1 ∧ (Heap.clearPayload h m).1.ops = m.ops ∧ (Heap.clearPayload h m).1.payload = none := by
  obtain ⟨c1, c2, c3, c4⟩ := i.inv.clearPayload
  have hs : (Heap.clearPayload h m).1.ownSmall = m.ownSmall := by unfold HMsg.ownSmall; rw [c2]
  refine ⟨⟨by rw [hs]; exact c1, c3.trans i.lost, unrefused_clearPayload i.free _⟩, ?_, c2, by rw [c4]⟩
  rw [c4]
  exact ⟨f.count, f.value, Nat.zero_le _⟩

theorem N.opNew (hg : g.Apart) (i : N g h os om) {S num : Nat} {val : Bytes} (h1 : S ≤ g.ls) (h2 : val.length ≤ g.lm) (h3 : os.length < g.ns)
    (h4 : om.length < g.nm) : ∃ o h', Heap.opNew S h num val = (some o, h') ∧ o.num = num ∧ o.val = val ∧ N g h' (o.addr :: os) (o.valAddr :: om) := by
  obtain ⟨o, h', e, i', -⟩ := i.inv.opNew_room (k := 0) (L := g.lm) (num := num) (val := val) hg
    ⟨h1, Nat.le_refl _, (by rw [i.lost]; simp only [List.length_nil]; omega), (by omega)⟩ h2
  have j := i.inv.opNew hg S num val
  rw [e] at j
  exact ⟨o, h', e, j.2.1, j.2.2.1, i', j.2.2.2.trans i.lost, unrefused_opNew i.free e⟩

theorem N.addOp (hg : g.Apart) {S k l num : Nat} {val : Bytes} {m : HMsg} (i : N g h (m.ownSmall ++ os) (m.ownMedium ++ om)) (f : Fits k l m)
    (sp : Space g S (k + 1) l os om) (hv : val.length ≤ l) : ∃ m' h', Heap.addOp S h m num val = (.ok (), m', h') ∧
      N g h' (m'.ownSmall ++ os) (m'.ownMedium ++ om) ∧ Fits (k + 1) l m' := by
  have b1 := f.small
  have b2 := f.medium
  have s1 := sp.ks
  have s2 := sp.km
  obtain ⟨o, h', e, e1, e2, i'⟩ := i.opNew hg (S := S) (num := num) (val := val) sp.s (Nat.le_trans hv sp.l)
    (by rw [List.length_append]; omega) (by rw [List.length_append]; omega)
  have j := i.inv.addOp hg S num val
  unfold Heap.addOp at j ⊢
  rw [e] at j ⊢
  refine ⟨_, _, rfl, ⟨j.1, i'.lost, i'.free⟩, ?_, ?_, f.payload⟩
  · have := (opInsert_perm o m.ops).length_eq
    simp only [List.length_cons] at this
    have := f.count
    dsimp only
    omega
  · intro x hx
    rcases List.mem_cons.1 ((opInsert_perm o m.ops).mem_iff.1 hx) with rfl | hx
    · rw [e2]; exact hv
    · exact f.value x hx

theorem N.setPayload {S k l : Nat} {buf : Bytes} {m : HMsg} (i : N g h (m.ownSmall ++ os) (m.ownMedium ++ om)) (f : Fits k l m)
    (sp : Space g S k l os om) (hv : buf.length ≤ l) : ∃ m' h', Heap.setPayload h m buf = (.ok (), m', h') ∧
      N g h' (m'.ownSmall ++ os) (m'.ownMedium ++ om) ∧ Fits k l m' := by
  obtain ⟨c1, c2, c3, c4⟩ := i.clearPayload f
  have j := i.inv.setPayload buf
  unfold Heap.setPayload at j ⊢
  revert c1 c2 c3 c4 j
  rcases Heap.clearPayload h m with ⟨m1, h1⟩
  intro c1 c2 c3 c4 j
  dsimp only at c1 c2 c3 c4 j ⊢
  split at j
  · rename_i hb
    rw [if_pos hb]
    have hm : m1.ownMedium.length ≤ k := by
      unfold HMsg.ownMedium
      rw [c4, List.length_append, List.length_map]
      exact c2.count
    obtain ⟨p, hp⟩ := c1.inv.mediumAlloc_room (l := buf.length) (Nat.le_trans hv sp.l)
      (by rw [List.length_append]; have := sp.km; omega)
    have u := unrefused_mediumAlloc c1.free hp
    have a2 := (c1.inv.mediumAlloc buf.length).2.1
    revert u hp j a2
    rcases h1.mediumAlloc buf.length with ⟨r, h2⟩
    intro j hp u a2
    dsimp only at hp
    subst hp
    exact ⟨_, _, rfl, ⟨j.1, a2.trans c1.lost, u⟩, c2.count, c2.value, hv⟩
  · rename_i hb
    rw [if_neg hb]
    exact ⟨_, _, rfl, c1, c2⟩

theorem N.copyOps (hg : g.Apart) {S k l : Nat} : ∀ (ops : List HOp) (j : Nat) {h : Heap} {m : HMsg}, N g h (m.ownSmall ++ os) (m.ownMedium ++ om) →
    Fits j l m → j + ops.length ≤ k → (∀ o ∈ ops, o.val.length ≤ l) → Space g S k l os om → ∃ m' h', Heap.copyOps S h m ops = (.ok (), m', h') ∧
      N g h' (m'.ownSmall ++ os) (m'.ownMedium ++ om) ∧ Fits (j + ops.length) l m'
  | [], _, h, m, i, f, _, _, _ => ⟨m, h, rfl, i, f⟩
  | op :: ops, j, h, m, i, f, hk, hv, sp => by
    rw [List.length_cons] at hk
    obtain ⟨m1, h1, e1, i1, f1⟩ := i.addOp hg (S := S) (num := op.num) (val := op.val) f
      ⟨sp.s, sp.l, by have := sp.ks; omega, by have := sp.km; omega⟩ (hv _ List.mem_cons_self)
    obtain ⟨m2, h2, e2, i2, f2⟩ := N.copyOps hg ops (j + 1) i1 f1 (by omega) (fun o ho => hv o (List.mem_cons_of_mem _ ho)) sp
    refine ⟨m2, h2, ?_, i2, f2.mono (by rw [List.length_cons]; omega)⟩
    unfold Heap.copyOps
    rw [e1]
    exact e2

/-- Copying fails only before a buffer is taken. -/
theorem N.copy (hg : g.Apart) {S j k l : Nat} {m src : HMsg} (i : N g h (m.ownSmall ++ os) (m.ownMedium ++ om)) (f : Fits j l m) (fs : Fits k l src)
    {k' : Nat} (hk : j + src.ops.length ≤ k') (sp : Space g S k' l os om) : ∃ r m' h', Heap.copy S h m src = (r, m', h') ∧ (r = .ok () ∨ r = .err .EINVAL) ∧
      N g h' (m'.ownSmall ++ os) (m'.ownMedium ++ om) ∧ Fits k' l m' := by
  unfold Heap.copy
  split
  · exact ⟨_, _, _, rfl, Or.inr rfl, i, (by have := f.count; dsimp only; omega), f.value, f.payload⟩
  split
  · exact ⟨_, _, _, rfl, Or.inr rfl, i, (by have := f.count; dsimp only; omega), f.value, f.payload⟩
  split
  · exact ⟨_, _, _, rfl, Or.inr rfl, i, (by have := f.count; dsimp only; omega), f.value, f.payload⟩
  dsimp only
  split
  · exact ⟨_, _, _, rfl, Or.inr rfl, i, (by have := f.count; dsimp only; omega), f.value, f.payload⟩
  obtain ⟨m1, h1, e1, i1, f1⟩ := N.copyOps (S := S) (k := k') (l := l) hg src.ops j
    (m := ⟨src.ver, src.type, src.codeClass, src.codeDetail, src.msgId, src.token, m.ops, m.payload⟩) i ⟨f.count, f.value, f.payload⟩ hk fs.value sp
  rw [e1]
  dsimp only
  obtain ⟨m2, h2, e2, i2, f2⟩ := i1.setPayload (f1.mono hk) sp fs.payload
  rw [e2]
  exact ⟨_, _, _, rfl, Or.inl rfl, i2, f2⟩

theorem rd_zero_head {mem : Bytes} {b : Byte} (h : rd mem 0 = .ok b) : mem.head? = some b := by
  cases mem with
  | nil => simp [rd] at h
  | cons a t =>
    unfold rd at h
    simp at h
    rw [h]; rfl

theorem and_ff (b : Byte) : b.toNat &&& 0xff = 0xff ↔ b = 0xff := by
  have h1 : b.toNat &&& 255 = b.toNat % 2 ^ 8 := Nat.and_two_pow_sub_one_eq_mod _ 8
  rw [h1, Nat.mod_eq_of_lt b.toNat_lt]
  constructor
  · intro h; exact UInt8.toNat_inj.1 h
  · rintro rfl; rfl

theorem N.parseOps (hg : g.Apart) {S k l : Nat} (sx : Bool) : ∀ (fuel : Nat) (acc : List HOp) (mem : Bytes) (len : Nat) (h : Heap),
    N g h (acc.map (·.addr) ++ os) (acc.map (·.valAddr) ++ om) → (∀ o ∈ acc, o.val.length ≤ l) →
    acc.length + (optionsOf sx fuel (acc.map HOp.abs) mem len).1.length ≤ k →
    (∀ o ∈ (optionsOf sx fuel (acc.map HOp.abs) mem len).1, o.val.length ≤ l) → Space g S k l os om →
    match Heap.parseOps S sx fuel acc mem len h with
    | (st, ops, h') => N g h' (ops.map (·.addr) ++ os) (ops.map (·.valAddr) ++ om) ∧ ops.length ≤ k ∧ (∀ o ∈ ops, o.val.length ≤ l) ∧
        ∀ n, st = .ok n → (optionsOf sx fuel (acc.map HOp.abs) mem len).2 = (mem.drop n, len - n)
  | 0, acc, mem, len, h, i, hv, hc, _, _ => ⟨i, Nat.le_trans (Nat.le_add_right _ _) hc, hv, fun n hn => by cases hn⟩
  | fuel + 1, acc, mem, len, h, i, hv, hc, hd, sp => by
    unfold Heap.parseOps
    cases hr : rd mem 0 with
    | ub => exact ⟨i, Nat.le_trans (Nat.le_add_right _ _) hc, hv, fun n hn => by cases hn⟩
    | err e => exact ⟨i, Nat.le_trans (Nat.le_add_right _ _) hc, hv, fun n hn => by cases hn⟩
    | ok p0 =>
      have hh := rd_zero_head hr
      have hiff : (p0.toNat &&& 0xff = 0xff ∨ len = 0) ↔ (mem.head? = some 0xff ∨ len = 0) := by
        rw [hh, and_ff, Option.some.injEq]
      dsimp only
      by_cases hz : p0.toNat &&& 0xff = 0xff ∨ len = 0
      · rw [if_pos hz]
        refine ⟨i, Nat.le_trans (Nat.le_add_right _ _) hc, hv, fun n hn => ?_⟩
        cases hn
        unfold optionsOf
        rw [if_pos (hiff.1 hz)]
        rfl
      · rw [if_neg hz]
        unfold optionsOf at hc hd ⊢
        rw [if_neg (fun h => hz (hiff.2 h))] at hc hd ⊢
        cases hp : parseOp sx (acc.map HOp.abs) mem len with
        | ub => exact ⟨i, Nat.le_trans (Nat.le_add_right _ _) hc, hv, fun n hn => by cases hn⟩
        | err e => exact ⟨i, Nat.le_trans (Nat.le_add_right _ _) hc, hv, fun n hn => by cases hn⟩
        | ok res =>
          obtain ⟨op, n⟩ := res
          rw [hp] at hc hd
          dsimp only at hc hd ⊢
          rw [List.length_cons] at hc
          have hov := hd op List.mem_cons_self
          obtain ⟨o, h1, e1, o1, o2, i1⟩ := i.opNew hg (S := S) (num := op.num) (val := op.val) sp.s (Nat.le_trans hov sp.l)
            (by rw [List.length_append, List.length_map]; have := sp.ks; omega) (by rw [List.length_append, List.length_map]; have := sp.km; omega)
          rw [e1]
          dsimp only
          have pa : (o.addr :: (acc.map (·.addr) ++ os)).Perm ((acc ++ [o]).map (·.addr) ++ os) := by
            simpa using List.perm_middle.symm
          have pb : (o.valAddr :: (acc.map (·.valAddr) ++ om)).Perm ((acc ++ [o]).map (·.valAddr) ++ om) := by
            simpa using List.perm_middle.symm
          have hab : (acc ++ [o]).map HOp.abs = acc.map HOp.abs ++ [op] := by
            rw [List.map_append, List.map_cons, List.map_nil]
            unfold HOp.abs
            rw [o1, o2]
          rw [← hab] at hc hd ⊢
          have ih := N.parseOps hg sx fuel (acc ++ [o]) (mem.drop n) (len - n) h1 (i1.perm pa pb)
            (by
              intro x hx
              rcases List.mem_append.1 hx with hx | hx
              · exact hv x hx
              · rw [List.mem_singleton.1 hx, o2]; exact hov)
            (by rw [List.length_append, List.length_cons, List.length_nil]; omega) (fun x hx => hd x (List.mem_cons_of_mem _ hx)) sp
          revert ih
          rcases Heap.parseOps S sx fuel (acc ++ [o]) (mem.drop n) (len - n) h1 with ⟨st, ops, h2⟩
          intro ih
          cases st with
          | ub => exact ⟨ih.1, ih.2.1, ih.2.2.1, fun n hn => by cases hn⟩
          | err e => exact ⟨ih.1, ih.2.1, ih.2.2.1, fun n hn => by cases hn⟩
          | ok j =>
            refine ⟨ih.1, ih.2.1, ih.2.2.1, fun x hx => ?_⟩
            cases hx
            have := ih.2.2.2 j rfl
            rw [this, List.drop_drop, Nat.sub_sub]

theorem parseHdr_tokenLen {mem : Bytes} {len : Nat} {hd : Hdr} (h : parseHdr mem len = .ok hd) :
    ∃ b, mem.head? = some b ∧ hd.tokenLen = b.toNat % 16 := by
  unfold parseHdr at h
  split at h
  · cases h
  rw [Out.bind_eq_ok] at h
  obtain ⟨b, hb, h⟩ := h
  refine ⟨b, rd_zero_head hb, ?_⟩
  dsimp only at h
  split at h
  · cases h
  split at h
  · cases h
  rw [Out.bind_eq_ok] at h
  obtain ⟨b1, -, h⟩ := h
  split at h
  · cases h
  rw [Out.bind_eq_ok] at h
  obtain ⟨b2, -, h⟩ := h
  rw [Out.bind_eq_ok] at h
  obtain ⟨b3, -, h⟩ := h
  cases h
  exact Nat.and_two_pow_sub_one_eq_mod _ 4

theorem N.parse (hg : g.Apart) {S k l : Nat} {sx : Bool} {m : HMsg} {mem : Bytes} {len : Nat} (i : N g h (m.ownSmall ++ os) (m.ownMedium ++ om))
    (few : Few sx k l mem len) (sp : Space g S k l os om) :
    match Heap.parse S sx h m mem len with
    | (_, m', h') => N g h' (m'.ownSmall ++ os) (m'.ownMedium ++ om) ∧ Fits k l m' := by
  unfold Heap.parse Heap.reset
  have d := i.destroy
  revert d
  rcases Heap.destroy h m with ⟨m0, h0⟩
  intro d
  dsimp only at d ⊢
  have dc : N g h0 (create.ownSmall ++ os) (create.ownMedium ++ om) := d
  cases hh : parseHdr mem len with
  | ub => exact ⟨dc, fits_create k l⟩
  | err e => exact ⟨dc.destroy, fits_zero k l⟩
  | ok hd =>
    dsimp only
    cases ht : parseToken hd.tokenLen (mem.drop 4) (len - 4) with
    | ub => exact ⟨dc, fits_create k l⟩
    | err e => exact ⟨dc.destroy, fits_zero k l⟩
    | ok token =>
      dsimp only
      obtain ⟨b, hb1, hb2⟩ := parseHdr_tokenLen hh
      have hin : optionsIn sx mem len = optionsOf sx (len - 4 - hd.tokenLen + 1) [] (mem.drop (4 + hd.tokenLen)) (len - 4 - hd.tokenLen) := by
        unfold optionsIn
        rw [hb1, hb2, Nat.sub_sub]
      obtain ⟨f1, f2, f3⟩ := few
      rw [hin] at f1 f2 f3
      have key := N.parseOps hg sx (len - 4 - hd.tokenLen + 1) [] (mem.drop (4 + hd.tokenLen)) (len - 4 - hd.tokenLen) h0 d
        (by intro o ho; cases ho) (by rw [List.length_nil, Nat.zero_add]; exact f1) f2 sp
      revert key
      rcases Heap.parseOps S sx (len - 4 - hd.tokenLen + 1) [] (mem.drop (4 + hd.tokenLen)) (len - 4 - hd.tokenLen) h0 with ⟨st, ops, h1⟩
      intro key
      obtain ⟨n1, c1, v1, r1⟩ := key
      have own : ∀ m' : HMsg, m'.ops = ops → m'.payload = none → N g h1 (m'.ownSmall ++ os) (m'.ownMedium ++ om) := by
        intro m' e1 e2
        unfold HMsg.ownSmall HMsg.ownMedium
        rw [e1, e2, plAddr_none, List.append_nil]
        exact n1
      cases st with
      | ub => exact ⟨own _ rfl rfl, c1, v1, Nat.zero_le _⟩
      | err e => exact ⟨(own ⟨hd.ver, hd.type, hd.codeClass, hd.codeDetail, hd.msgId, token, ops, none⟩ rfl rfl).destroy, fits_zero k l⟩
      | ok n =>
        dsimp only
        have r2 := r1 n rfl
        rw [List.map_nil] at r2
        rw [r2] at f3
        dsimp only at f3
        unfold Heap.parsePayload
        cases hp : Msg.parsePayload ((mem.drop (4 + hd.tokenLen)).drop n) (len - 4 - hd.tokenLen - n) with
        | ub => exact ⟨own _ rfl rfl, c1, v1, Nat.zero_le _⟩
        | err e => exact ⟨(own ⟨hd.ver, hd.type, hd.codeClass, hd.codeDetail, hd.msgId, token, ops, none⟩ rfl rfl).destroy, fits_zero k l⟩
        | ok pl =>
          dsimp only
          by_cases hz : len - 4 - hd.tokenLen - n = 0
          · rw [if_pos hz]
            exact ⟨own _ rfl rfl, c1, v1, Nat.zero_le _⟩
          · rw [if_neg hz]
            have hpl : ((mem.drop (4 + hd.tokenLen)).drop n).head? = some 0xff ∧ pl.length ≤ len - 4 - hd.tokenLen - n - 1 := by
              unfold Msg.parsePayload at hp
              rw [if_neg hz, Out.bind_eq_ok] at hp
              obtain ⟨x, hx, hp⟩ := hp
              split at hp
              · cases hp
              · rename_i hx2
                split at hp
                · cases hp
                · refine ⟨?_, ?_⟩
                  · rw [rd_zero_head hx, (and_ff x).1 (by simpa using hx2)]
                  · unfold rds at hp
                    split at hp
                    · cases hp; rw [List.length_take]; omega
                    · cases hp
            have hl := f3 hpl.1
            obtain ⟨p, hpa⟩ := n1.inv.mediumAlloc_room (l := len - 4 - hd.tokenLen - n - 1) (by have := sp.l; omega)
              (by rw [List.length_append, List.length_map]; have := sp.km; omega)
            have u := unrefused_mediumAlloc n1.free hpa
            obtain ⟨-, a2, -, a4⟩ := n1.inv.mediumAlloc (len - 4 - hd.tokenLen - n - 1)
            revert hpa u a2 a4
            rcases h1.mediumAlloc (len - 4 - hd.tokenLen - n - 1) with ⟨r, h2⟩
            intro hpa u a2 a4
            dsimp only at hpa
            subst hpa
            dsimp only at a2 a4 ⊢
            refine ⟨⟨a4.perm (List.Perm.refl _) ?_, a2.trans n1.lost, u⟩, c1, v1, ?_⟩
            · unfold HMsg.ownMedium
              simpa using List.perm_middle.symm
            · show pl.length ≤ l
              omega

end FreeCoAP.Msg.Heap
