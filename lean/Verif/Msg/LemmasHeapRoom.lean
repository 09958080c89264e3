import Verif.Msg.LemmasHeap

/-! # When there are enough buffers -/

namespace FreeCoAP.Msg.Heap

open FreeCoAP.Mem (Pool Call Rel held specAlloc slots)

theorem specAlloc_some {base num len l : Nat} {h : List Nat} (hp : 0 < len) (hn : h.length < num) (hl : l ≤ len) :
    ∃ p, specAlloc base num len h l = some p := by
  unfold specAlloc
  rw [if_neg (by omega)]
  cases e : (slots base num len).find? (fun p => !h.contains p) with
  | some p => exact ⟨p, rfl⟩
  | none =>
    exfalso
    rw [List.find?_eq_none] at e
    have hs : ∀ p ∈ slots base num len, p ∈ h := fun p hp => by simpa using e p hp
    have hsn : (slots base num len).Nodup := by
      unfold slots
      rw [List.nodup_iff_pairwise_ne, List.pairwise_map]
      refine List.Pairwise.imp ?_ List.nodup_range
      intro a b hab e
      exact hab (Mem.addr_inj hp e)
    have := List.Nodup.length_le_of_subset hsn hs
    have hlen : (slots base num len).length = num := by simp [slots]
    omega

variable {g : Geo} {h : Heap} {os om : List Nat}

/-- `k` more buffers can be taken from each pool. -/
structure Room (g : Geo) (h : Heap) (os om : List Nat) (S L k : Nat) : Prop where
  s : S ≤ g.ls
  l : L ≤ g.lm
  ks : os.length + h.lost.length + k ≤ g.ns
  km : om.length + k ≤ g.nm

theorem Inv.mediumAlloc_room (i : Inv g h os om) {l : Nat} (hl : l ≤ g.lm) (hk : om.length < g.nm) :
    ∃ p, (h.mediumAlloc l).1 = some p := by
  rw [(i.mediumAlloc l).1]
  exact specAlloc_some i.relM.len_pos (by rw [i.permM.length_eq]; exact hk) hl

theorem Inv.opNew_room (hg : g.Apart) (i : Inv g h os om) {S L k num : Nat} {val : Bytes} (r : Room g h os om S L (k + 1))
    (hv : val.length ≤ L) :
    ∃ o h', Heap.opNew S h num val = (some o, h') ∧ Inv g h' (o.addr :: os) (o.valAddr :: om) ∧
      Room g h' (o.addr :: os) (o.valAddr :: om) S L k := by
  have j := i.opNew hg S num val
  cases e : Heap.opNew S h num val with
  | mk ro h' =>
    rw [e] at j
    cases ro with
    | some o =>
      simp only at j
      refine ⟨o, h', rfl, j.1, r.s, r.l, ?_, ?_⟩
      · rw [j.2.2.2]; simp only [List.length_cons]; have := r.ks; omega
      · simp only [List.length_cons]; have := r.km; omega
    | none =>
      exfalso
      unfold Heap.opNew at e
      obtain ⟨a1, a2, a3, a4⟩ := i.smallAlloc S
      obtain ⟨p, hp⟩ := specAlloc_some (base := g.bs) (num := g.ns) (l := S) i.relS.len_pos
        (by rw [i.permS.length_eq, List.length_append]; have := r.ks; omega) r.s
      rw [hp] at a1
      revert a1 a2 a4 e
      rcases h.smallAlloc S with ⟨r1, h1⟩
      intro e a2 a4 a1
      simp only at a1 a2
      subst a1
      simp only at a4 e
      obtain ⟨q, hq⟩ := a4.mediumAlloc_room (l := val.length) (by have := r.l; omega) (by have := r.km; omega)
      revert hq e
      rcases h1.mediumAlloc val.length with ⟨r2, h2⟩
      intro e hq
      simp only at hq
      subst hq
      simp at e

theorem parseExt_err {sx : Bool} {nib : Nat} {mem : Bytes} {len : Nat} {e : Err}
    (h : parseExt sx nib mem len = .err e) : e = .EBADMSG := by
  unfold parseExt at h
  repeat' split at h
  all_goals first
    | (cases h; rfl)
    | (unfold rd at h
       repeat' split at h
       all_goals simp at h)
    | simp at h

theorem parseOp_res {sx : Bool} {acc : List Op} {mem : Bytes} {len : Nat} (hl : len ≤ mem.length) :
    (∀ e, parseOp sx acc mem len = .err e → e = .EBADMSG) ∧
    ∀ o n, parseOp sx acc mem len = .ok (o, n) → 1 ≤ n ∧ n ≤ len ∧ o.val.length < n := by
  have hb := parseOp_bounds (sx := sx) (acc := acc) hl
  refine ⟨?_, fun o n h => ⟨(hb.2 o n h).1, (hb.2 o n h).2, ?_⟩⟩
  · intro e h
    unfold parseOp at h
    split at h
    · cases h; rfl
    rw [rd_ok (by omega), Out.bind_ok] at h
    simp only at h
    split at h
    · cases h; rfl
    have b1 := parseExt_bounds (sx := sx) (nib := ((mem[0]'(by omega)).toNat >>> 4) &&& 0x0f)
        (mem := mem.drop 1) (len := len - 1) (by simp; omega)
    cases e1 : parseExt sx (((mem[0]'(by omega)).toNat >>> 4) &&& 0x0f) (mem.drop 1) (len - 1) with
    | ub => exact absurd e1 b1.1
    | err e' => rw [e1] at h; simp at h; exact h ▸ parseExt_err e1
    | ok r1 =>
      obtain ⟨d, n1⟩ := r1
      have hn1 := b1.2 _ _ e1
      rw [e1, Out.bind_ok] at h
      simp only at h
      have b2 := parseExt_bounds (sx := sx) (nib := (mem[0]'(by omega)).toNat &&& 0x0f)
        (mem := mem.drop (1 + n1)) (len := len - 1 - n1) (by simp; omega)
      cases e2 : parseExt sx ((mem[0]'(by omega)).toNat &&& 0x0f) (mem.drop (1 + n1)) (len - 1 - n1) with
      | ub => exact absurd e2 b2.1
      | err e' => rw [e2] at h; simp at h; exact h ▸ parseExt_err e2
      | ok r2 =>
        obtain ⟨ol, n2⟩ := r2
        have hn2 := b2.2 _ _ e2
        rw [e2, Out.bind_ok] at h
        simp only at h
        split at h
        · cases h; rfl
        rw [rds_ok (by simp; omega), Out.bind_ok] at h
        simp at h
  · unfold parseOp at h
    split at h
    · cases h
    rw [rd_ok (by omega), Out.bind_ok] at h
    simp only at h
    split at h
    · cases h
    rw [Out.bind_eq_ok] at h
    obtain ⟨⟨d, n1⟩, -, h⟩ := h
    rw [Out.bind_eq_ok] at h
    obtain ⟨⟨ol, n2⟩, -, h⟩ := h
    simp only at h
    split at h
    · cases h
    rw [Out.bind_eq_ok] at h
    obtain ⟨v, hv, h⟩ := h
    have hvl : v.length = ol := by
      unfold rds at hv
      split at hv
      · cases hv; rw [List.length_take]; omega
      · cases hv
    simp only [Out.pure_eq, Out.ok.injEq, Prod.mk.injEq] at h
    obtain ⟨rfl, rfl⟩ := h
    simp only [hvl]; omega

theorem Inv.parseOps_room (hg : g.Apart) (S L : Nat) (sx : Bool) : ∀ (fuel : Nat) (acc : List HOp) (mem : Bytes) (len : Nat)
    (h : Heap), len ≤ mem.length → len ≤ L →
    Inv g h (acc.map (·.addr) ++ os) (acc.map (·.valAddr) ++ om) →
    Room g h (acc.map (·.addr) ++ os) (acc.map (·.valAddr) ++ om) S L len →
    match Heap.parseOps S sx fuel acc mem len h with
    | (.ok n, ops, h') => n ≤ len ∧ Inv g h' (ops.map (·.addr) ++ os) (ops.map (·.valAddr) ++ om) ∧
        Room g h' (ops.map (·.addr) ++ os) (ops.map (·.valAddr) ++ om) S L (len - n)
    | (.err e, _, _) => e ≠ .ENOMEM
    | (.ub, _, _) => True
  | 0, acc, mem, len, h, hl, hL, i, r => trivial
  | fuel + 1, acc, mem, len, h, hl, hL, i, r => by
    unfold Heap.parseOps
    cases hr : rd mem 0 with
    | ub => trivial
    | err e => unfold rd at hr; split at hr <;> cases hr
    | ok p0 =>
      simp only
      by_cases hc : p0.toNat &&& 0xff = 0xff ∨ len = 0
      · rw [if_pos hc]; exact ⟨by omega, i, r⟩
      · rw [if_neg hc]
        obtain ⟨q1, q2⟩ := parseOp_res (sx := sx) (acc := acc.map HOp.abs) hl
        cases hp : parseOp sx (acc.map HOp.abs) mem len with
        | ub => trivial
        | err e => simp only; rw [q1 e hp]; decide
        | ok res =>
          obtain ⟨op, n⟩ := res
          obtain ⟨n1, n2, n3⟩ := q2 op n hp
          simp only
          have r1 : Room g h (acc.map (·.addr) ++ os) (acc.map (·.valAddr) ++ om) S L (len - n + 1) :=
            ⟨r.s, r.l, by have := r.ks; omega, by have := r.km; omega⟩
          obtain ⟨o, h1, e1, i1, r2⟩ := i.opNew_room (num := op.num) hg r1 (val := op.val) (by omega)
          rw [e1]
          simp only
          have pa : (o.addr :: (acc.map (·.addr) ++ os)).Perm ((acc ++ [o]).map (·.addr) ++ os) := by
            simpa using List.perm_middle.symm
          have pb : (o.valAddr :: (acc.map (·.valAddr) ++ om)).Perm ((acc ++ [o]).map (·.valAddr) ++ om) := by
            simpa using List.perm_middle.symm
          have ih := Inv.parseOps_room hg S L sx fuel (acc ++ [o]) (mem.drop n) (len - n) h1
            (by simp; omega) (by omega) (i1.perm pa pb)
            ⟨r2.s, r2.l, by rw [← pa.length_eq]; exact r2.ks, by rw [← pb.length_eq]; exact r2.km⟩
          revert ih
          rcases Heap.parseOps S sx fuel (acc ++ [o]) (mem.drop n) (len - n) h1 with ⟨st, ops, h2⟩
          intro ih
          cases st with
          | ub => trivial
          | err e => exact ih
          | ok k =>
            simp only at ih ⊢
            refine ⟨by omega, ih.2.1, ?_⟩
            have e : len - (n + k) = len - n - k := by omega
            rw [e]; exact ih.2.2

theorem Inv.parse_room (hg : g.Apart) {m : HMsg} (i : Inv g h (m.ownSmall ++ os) (m.ownMedium ++ om)) (S : Nat)
    (sx : Bool) (mem : Bytes) (len : Nat) (hl : len ≤ mem.length) (r : Room g h os om S len len) :
    (Heap.parse S sx h m mem len).1 ≠ .err .ENOMEM := by
  unfold Heap.parse Heap.reset
  obtain ⟨d1, d2, d3⟩ := i.destroy
  revert d1 d2 d3
  rcases Heap.destroy h m with ⟨m0, h0⟩
  intro d1 d2 d3
  simp only at d1 d2 d3 ⊢
  cases hh : parseHdr mem len with
  | ub => simp
  | err e =>
    simp only [ne_eq, Out.err.injEq]
    rintro rfl
    unfold parseHdr at hh
    split at hh
    · cases hh
    · rw [rd_ok (i := 0) (by omega), Out.bind_ok] at hh
      simp only at hh
      rw [rd_ok (i := 1) (by omega), rd_ok (i := 2) (by omega), rd_ok (i := 3) (by omega)] at hh
      simp only [Out.bind_ok, Out.pure_eq] at hh
      repeat' split at hh
      all_goals cases hh
  | ok hd =>
    simp only
    cases ht : parseToken hd.tokenLen (mem.drop 4) (len - 4) with
    | ub => simp
    | err e =>
      simp only [ne_eq, Out.err.injEq]
      rintro rfl
      unfold parseToken at ht
      split at ht
      · cases ht
      · unfold rds at ht
        split at ht <;> cases ht
    | ok token =>
      simp only
      have h4 : 4 ≤ len ∧ hd.tokenLen ≤ len - 4 := by
        constructor
        · unfold parseHdr at hh
          split at hh
          · cases hh
          · omega
        · unfold parseToken at ht
          split at ht
          · cases ht
          · omega
      have rr : Room g h0 (([] : List HOp).map (·.addr) ++ os) (([] : List HOp).map (·.valAddr) ++ om) S len (len - 4 - hd.tokenLen) :=
        ⟨r.s, r.l, by have := r.ks; rw [d3]; simp; omega, by have := r.km; simp; omega⟩
      have k := Inv.parseOps_room (os := os) (om := om) hg S len sx (len - 4 - hd.tokenLen + 1) []
        (mem.drop (4 + hd.tokenLen)) (len - 4 - hd.tokenLen) h0 (by simp; omega) (by omega) d1 rr
      revert k
      rcases Heap.parseOps S sx (len - 4 - hd.tokenLen + 1) [] (mem.drop (4 + hd.tokenLen))
        (len - 4 - hd.tokenLen) h0 with ⟨st, ops, h1⟩
      intro k
      cases st with
      | ub => simp
      | err e => simpa using k
      | ok n =>
        simp only at k ⊢
        obtain ⟨k1, k2, k3⟩ := k
        have q : ∀ h2, Heap.parsePayload ((mem.drop (4 + hd.tokenLen)).drop n) (len - 4 - hd.tokenLen - n) h1 ≠ (.err .ENOMEM, h2) := by
          intro h2 e
          unfold Heap.parsePayload at e
          split at e
          · cases e
          · rename_i hq
            cases e
            unfold Msg.parsePayload at hq
            split at hq
            · cases hq
            rw [rd_ok (by simp; omega), Out.bind_ok] at hq
            split at hq
            · cases hq
            split at hq
            · cases hq
            unfold rds at hq
            split at hq <;> cases hq
          · split at e
            · cases e
            · obtain ⟨p, hp⟩ := k2.mediumAlloc_room (l := len - 4 - hd.tokenLen - n - 1)
                (by have := k3.l; omega) (by have := k3.km; omega)
              split at e
              · rename_i e2
                rw [e2] at hp
                cases hp
              · cases e
        revert q
        rcases Heap.parsePayload ((mem.drop (4 + hd.tokenLen)).drop n) (len - 4 - hd.tokenLen - n) h1 with ⟨pr, h2⟩
        intro q
        cases pr with
        | ub => simp
        | err e =>
          simp only [ne_eq, Out.err.injEq]
          rintro rfl
          exact q h2 rfl
        | ok pl =>
          simp only
          rcases check_cases (HMsg.abs ⟨hd.ver, hd.type, hd.codeClass, hd.codeDetail, hd.msgId, token, ops, pl⟩) with e | e <;>
            rw [e] <;> simp

end FreeCoAP.Msg.Heap
