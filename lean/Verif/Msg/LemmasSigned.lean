import Verif.Msg.Spec2
import Verif.Msg.LemmasParse

/-!
# The parser where plain `char` is signed
-/

namespace FreeCoAP.Msg

theorem SExt.nib {q : Bool} {v nib : Nat} {bs : Bytes} (h : SExt q v nib bs) : nib < 15 := by
  cases h <;> omega

theorem parseExt_signed {nib : Nat} {mem : Bytes} {len v n : Nat} (hl : len ≤ mem.length) (hn : nib < 15)
    (h : parseExt true nib mem len = .ok (v, n)) : (∃ q, SExt q v nib (mem.take n)) ∧ n ≤ len := by
  unfold parseExt at h
  split at h
  · rename_i h13
    subst h13
    split at h
    · simp at h
    · rw [rd_ok (by omega), Out.bind_ok] at h
      simp only [Out.pure_eq, Out.ok.injEq, Prod.mk.injEq] at h
      obtain ⟨h1, rfl⟩ := h
      have hb := (mem[0]'(by omega)).toNat_lt
      have ht : mem.take 1 = [mem[0]'(by omega)] := by
        cases mem with
        | nil => simp at hl; omega
        | cons a t => simp
      rw [ht, ← h1]
      refine ⟨?_, by omega⟩
      generalize mem[0]'(by omega) = b at hb
      unfold charVal
      by_cases hc : 128 ≤ b.toNat
      · rw [if_pos ⟨rfl, hc⟩, show 13 + (2 ^ 32 - 256 + b.toNat) = 2 ^ 32 + b.toNat - 243 by omega]
        exact ⟨true, SExt.high b hc⟩
      · rw [if_neg (fun h => hc h.2), Nat.mod_eq_of_lt (by omega)]
        exact ⟨false, SExt.low b (by omega)⟩
  · split at h
    · rename_i h14
      subst h14
      split at h
      · simp at h
      · rw [rd_ok (by omega), Out.bind_ok, rd_ok (by omega), Out.bind_ok, shl8_or] at h
        simp only [Out.pure_eq, Out.ok.injEq, Prod.mk.injEq] at h
        obtain ⟨rfl, rfl⟩ := h
        have ht : mem.take 2 = [mem[0]'(by omega), mem[1]'(by omega)] := by
          match mem, hl with
          | [], hl => simp at hl; omega
          | [a], hl => simp at hl; omega
          | a :: b :: t, hl => simp
        rw [ht, ← Nat.add_assoc]
        exact ⟨⟨false, SExt.word _ _⟩, by omega⟩
    · simp only [Out.pure_eq, Out.ok.injEq, Prod.mk.injEq] at h
      obtain ⟨rfl, rfl⟩ := h
      exact ⟨⟨false, by simpa using SExt.small _ (by omega)⟩, by omega⟩

theorem parseExt_signed_complete {q : Bool} {nib v : Nat} {bs rest : Bytes} {len : Nat} (h : SExt q v nib bs)
    (hl : bs.length ≤ len) : parseExt true nib (bs ++ rest) len = .ok (v, bs.length) := by
  cases h with
  | small n hn => unfold parseExt; rw [if_neg (by omega), if_neg (by omega)]; rfl
  | low b hc =>
    simp only [List.length_cons, List.length_nil] at hl
    unfold parseExt
    rw [if_pos rfl, if_neg (by omega)]
    have : charVal true b = b.toNat := by
      unfold charVal
      rw [if_neg (by omega)]
    simp only [List.cons_append, rd, List.getElem?_cons_zero, Out.bind_ok, this, Out.pure_eq,
      List.length_cons, List.length_nil]
    rw [Nat.mod_eq_of_lt (by omega)]
  | high b hc =>
    simp only [List.length_cons, List.length_nil] at hl
    unfold parseExt
    rw [if_pos rfl, if_neg (by omega)]
    have : 13 + charVal true b = 2 ^ 32 + b.toNat - 243 := by
      unfold charVal
      rw [if_pos ⟨rfl, hc⟩]
      omega
    simp only [List.cons_append, rd, List.getElem?_cons_zero, Out.bind_ok, this, Out.pure_eq,
      List.length_cons, List.length_nil]
  | word a b =>
    simp only [List.length_cons, List.length_nil] at hl
    unfold parseExt
    rw [if_neg (by omega), if_pos rfl, if_neg (by omega)]
    simp only [List.cons_append, List.nil_append, rd, List.getElem?_cons_zero, List.getElem?_cons_succ, Out.bind_ok, Out.pure_eq,
      List.length_cons, List.length_nil, shl8_or]
    rw [← Nat.add_assoc]

theorem SExt.lt {q : Bool} {v nib : Nat} {bs : Bytes} (h : SExt q v nib bs) : v < 2 ^ 32 := by
  cases h with
  | small => omega
  | low => omega
  | high => exact Nat.mod_lt _ (by decide)
  | word a b =>
    have := a.toNat_lt
    have := b.toNat_lt
    omega

theorem parseOp_signed {acc : List Op} {mem : Bytes} {len : Nat} {o : Op} {n : Nat} (hl : len ≤ mem.length)
    (h : parseOp true acc mem len = .ok (o, n)) :
    ∃ q r delta dn ln db lb, SExt q delta dn db ∧ SExt r o.val.length ln lb ∧
      o.num = (lastNum acc + delta) % 2 ^ 32 ∧
      mem.take n = UInt8.ofNat (16 * dn + ln) :: (db ++ lb ++ o.val) := by
  unfold parseOp at h
  split at h
  · simp at h
  rename_i h1
  rw [rd_ok (by omega), Out.bind_ok, hi4, lo4] at h
  simp only at h
  split at h
  · simp at h
  rename_i h15
  have hb := (mem[0]'(by omega)).toNat_lt
  cases e1 : parseExt true ((mem[0]'(by omega)).toNat / 16) (mem.drop 1) (len - 1) with
  | err e => rw [e1] at h; simp at h
  | ub => rw [e1] at h; simp at h
  | ok r =>
    obtain ⟨delta, n1⟩ := r
    rw [e1, Out.bind_ok] at h
    simp only at h
    obtain ⟨⟨q, x1⟩, k1⟩ := parseExt_signed (by simp; omega) (by omega) e1
    cases e2 : parseExt true ((mem[0]'(by omega)).toNat % 16) (mem.drop (1 + n1)) (len - 1 - n1) with
    | err e => rw [e2] at h; simp at h
    | ub => rw [e2] at h; simp at h
    | ok r =>
      obtain ⟨oplen, n2⟩ := r
      rw [e2, Out.bind_ok] at h
      simp only at h
      obtain ⟨⟨q2, x2⟩, k2⟩ := parseExt_signed (by simp; omega) (by omega) e2
      split at h
      · simp at h
      rename_i h3
      rw [rds_ok (by simp; omega)] at h
      simp only [Out.bind_ok, Out.pure_eq, Out.ok.injEq, Prod.mk.injEq] at h
      obtain ⟨rfl, rfl⟩ := h
      have hlen : ((mem.drop (1 + n1 + n2)).take oplen).length = oplen := by simp; omega
      refine ⟨q, q2, delta, (mem[0]'(by omega)).toNat / 16, (mem[0]'(by omega)).toNat % 16,
        (mem.drop 1).take n1, (mem.drop (1 + n1)).take n2, x1, ?_, ?_, ?_⟩
      · rw [hlen]; exact x2
      · simp only
        have := x1.lt
        unfold lastNum
        cases acc.getLast? with
        | none => simp only [Nat.zero_add]; rw [Nat.mod_eq_of_lt this]
        | some p => rfl
      · rw [byte_split]
        have e3 : 1 + n1 + n2 + oplen = 1 + (n1 + (n2 + oplen)) := by omega
        rw [e3]
        conv => lhs; rw [List.take_add, List.take_add, List.take_add]
        simp only [List.drop_drop, List.append_assoc]
        have : mem.take 1 = [mem[0]'(by omega)] := by
          cases mem with
          | nil => simp at hl; omega
          | cons a t => simp
        rw [this]
        simp [Nat.add_comm, Nat.add_left_comm]

theorem parseOp_signed_complete {q r : Bool} {acc : List Op} {delta dn ln : Nat} {db lb val rest : Bytes} {len : Nat}
    (hd : SExt q delta dn db) (hl : SExt r val.length ln lb) (hlen : 1 + db.length + lb.length + val.length ≤ len) :
    parseOp true acc (UInt8.ofNat (16 * dn + ln) :: (db ++ lb ++ val ++ rest)) len =
      .ok (⟨(lastNum acc + delta) % 2 ^ 32, val⟩, 1 + db.length + lb.length + val.length) := by
  have h1 := hd.nib
  have h2 := hl.nib
  have hb : (UInt8.ofNat (16 * dn + ln)).toNat = 16 * dn + ln := toNat_toByte _ (by omega)
  unfold parseOp
  rw [if_neg (by omega)]
  simp only [rd, List.getElem?_cons_zero, Out.bind_ok, hi4, lo4, hb]
  have e1 : (16 * dn + ln) / 16 = dn := by omega
  have e2 : (16 * dn + ln) % 16 = ln := by omega
  rw [e1, e2, if_neg (by omega)]
  have p1 : parseExt true dn (List.drop 1 (UInt8.ofNat (16 * dn + ln) :: (db ++ lb ++ val ++ rest))) (len - 1)
      = .ok (delta, db.length) := by
    simp only [List.drop_succ_cons, List.drop_zero, List.append_assoc]
    exact parseExt_signed_complete hd (by omega)
  rw [p1, Out.bind_ok]
  have p2 : parseExt true ln (List.drop (1 + db.length) (UInt8.ofNat (16 * dn + ln) :: (db ++ lb ++ val ++ rest)))
      (len - 1 - db.length) = .ok (val.length, lb.length) := by
    rw [Nat.add_comm 1, List.drop_succ_cons, List.append_assoc, List.append_assoc, List.drop_left]
    exact parseExt_signed_complete hl (by omega)
  simp only [p2, Out.bind_ok]
  rw [if_neg (by omega)]
  have p3 : List.drop (1 + db.length + lb.length) (UInt8.ofNat (16 * dn + ln) :: (db ++ lb ++ val ++ rest)) = val ++ rest := by
    have : 1 + db.length + lb.length = (db ++ lb).length + 1 := by simp; omega
    rw [this, List.drop_succ_cons, List.append_assoc (db ++ lb), List.drop_left]
  rw [p3, rds_ok (by simp)]
  simp only [Out.bind_ok, Out.pure_eq, List.take_left', Out.ok.injEq, Prod.mk.injEq, and_true]
  have := hd.lt
  unfold lastNum
  cases acc.getLast? with
  | none => simp only [Nat.zero_add]; rw [Nat.mod_eq_of_lt this]
  | some p => rfl

theorem parseOps_signed : ∀ (fuel : Nat) (acc : List Op) (mem : Bytes) (len : Nat) (ops : List Op) (k : Nat),
    len ≤ mem.length → parseOps true fuel acc mem len = .ok (ops, k) →
    ∃ q new, ops = acc ++ new ∧ SOptions q (lastNum acc) new (mem.take k) ∧ k ≤ len
  | 0, _, _, _, _, _, _, h => by simp [parseOps] at h
  | fuel + 1, acc, mem, len, ops, k, hl, h => by
    unfold parseOps at h
    cases e0 : rd mem 0 with
    | err e => exact absurd e0 rd_ne_err
    | ub => rw [e0] at h; simp at h
    | ok p0 =>
      rw [e0, Out.bind_ok] at h
      split at h
      · simp only [Out.pure_eq, Out.ok.injEq, Prod.mk.injEq] at h
        obtain ⟨rfl, rfl⟩ := h
        exact ⟨false, [], by simp, by simpa using SOptions.nil _, by omega⟩
      · have b := parseOp_bounds (sx := true) (acc := acc) (mem := mem) (len := len) hl
        cases e : parseOp true acc mem len with
        | err e' => rw [e] at h; simp at h
        | ub => exact absurd e b.1
        | ok r =>
          obtain ⟨op, n⟩ := r
          have hn := b.2 _ _ e
          rw [e, Out.bind_ok] at h
          simp only at h
          rw [Out.bind_eq_ok] at h
          obtain ⟨⟨ops', k'⟩, e2, h⟩ := h
          simp only [Out.pure_eq, Out.ok.injEq, Prod.mk.injEq] at h
          obtain ⟨rfl, rfl⟩ := h
          obtain ⟨q, r, delta, dn, ln, db, lb, x1, x2, hnum, htake⟩ := parseOp_signed hl e
          have hlast : lastNum (opListAddLast op acc) = (lastNum acc + delta) % 2 ^ 32 := by
            rw [opListAddLast, lastNum_append, hnum]
          obtain ⟨s, new, hnew, hopt, hk⟩ := parseOps_signed fuel _ _ _ ops' k' (by simp; omega) e2
          refine ⟨q || r || s, op :: new, by rw [hnew]; simp [opListAddLast], ?_, by omega⟩
          rw [List.take_add, htake]
          rw [hlast] at hopt
          have hop : op = ⟨(lastNum acc + delta) % 2 ^ 32, op.val⟩ := by rw [← hnum]
          rw [hop]
          exact SOptions.cons x1 x2 hopt

theorem parseOps_signed_complete {q : Bool} {prev : Nat} {ops : List Op} {bs : Bytes} (h : SOptions q prev ops bs) :
    ∀ (fuel : Nat) (acc : List Op) (rest t : Bytes), lastNum acc = prev → bs.length < fuel → OptsEnd rest →
    rest ++ t ≠ [] →
    parseOps true fuel acc (bs ++ rest ++ t) (bs.length + rest.length) = .ok (acc ++ ops, bs.length) := by
  induction h with
  | nil prev =>
    intro fuel acc rest t hp hf he hne
    obtain ⟨fuel, rfl⟩ : ∃ f, fuel = f + 1 := ⟨fuel - 1, by simp at hf; omega⟩
    unfold parseOps
    cases rest with
    | nil =>
      cases t with
      | nil => simp at hne
      | cons x t => simp [rd]
    | cons x rest =>
      simp only [OptsEnd] at he
      subst he
      simp [rd]
  | cons hd hl ht ih =>
    rename_i q r s prev delta dn ln db lb val bs ops
    intro fuel acc rest t hp hf he hne
    obtain ⟨fuel, rfl⟩ : ∃ f, fuel = f + 1 := ⟨fuel - 1, by simp at hf; omega⟩
    unfold parseOps
    have h1 := hd.nib
    have h2 := hl.nib
    have hb : (UInt8.ofNat (16 * dn + ln)).toNat = 16 * dn + ln := toNat_toByte _ (by omega)
    have hmem : UInt8.ofNat (16 * dn + ln) :: (db ++ lb ++ val ++ bs) ++ rest ++ t =
        UInt8.ofNat (16 * dn + ln) :: (db ++ lb ++ val ++ (bs ++ rest ++ t)) := by simp
    rw [hmem]
    simp only [rd, List.getElem?_cons_zero, Out.bind_ok, ff, hb]
    rw [if_neg (by simp; omega)]
    rw [parseOp_signed_complete hd hl (by simp; omega), Out.bind_ok]
    simp only
    have hdrop : List.drop (1 + db.length + lb.length + val.length)
        (UInt8.ofNat (16 * dn + ln) :: (db ++ lb ++ val ++ (bs ++ rest ++ t))) = bs ++ rest ++ t := by
      have : 1 + db.length + lb.length + val.length = (db ++ lb ++ val).length + 1 := by simp; omega
      rw [this, List.drop_succ_cons, List.drop_left]
    rw [hdrop]
    have hlen : (UInt8.ofNat (16 * dn + ln) :: (db ++ lb ++ val ++ bs)).length + rest.length
        - (1 + db.length + lb.length + val.length) = bs.length + rest.length := by simp; omega
    rw [hlen]
    have := ih fuel (opListAddLast ⟨(lastNum acc + delta) % 2 ^ 32, val⟩ acc) rest t
      (by rw [opListAddLast, lastNum_append, hp]) (by simp at hf; omega) he hne
    rw [this]
    simp [opListAddLast, hp]
    omega

theorem parse_signed {mem : Bytes} {len : Nat} {m : Msg} (hl : len ≤ mem.length)
    (h : parse true mem len = .ok m) : ∃ q, Reads q m (mem.take len) := by
  unfold parse at h
  rw [Out.bind_eq_ok] at h
  obtain ⟨hd, e1, h⟩ := h
  obtain ⟨h4, f1, f2, f3, f4, f5, f6, f7⟩ := parseHdr_sound hl e1
  rw [Out.bind_eq_ok] at h
  obtain ⟨tok, e2, h⟩ := h
  obtain ⟨g1, g2⟩ := parseToken_ok (by simp; omega) e2
  rw [Out.bind_eq_ok] at h
  obtain ⟨⟨ops, n⟩, e3, h⟩ := h
  obtain ⟨q, new, k1, k2, k3⟩ := parseOps_signed _ _ _ _ _ _ (by simp; omega) e3
  rw [Out.bind_eq_ok] at h
  obtain ⟨pl, e4, h⟩ := h
  have p1 := parsePayload_sound (by simp; omega) e4
  rw [Out.bind_eq_ok] at h
  obtain ⟨u, e5, h⟩ := h
  simp only [Out.pure_eq, Out.ok.injEq] at h
  subst h
  simp only [List.nil_append] at k1
  subst k1
  have ht : tok.length = hd.tokenLen := by rw [g2]; simp; omega
  refine ⟨q, ⟨f1, f2, f4, f5, f6, by simp only; omega⟩, (check_ok_iff _).1 e5, _, _, k2, p1, ?_⟩
  simp only [ht]
  rw [← f7, g2]
  have e : len = 4 + (hd.tokenLen + (n + (len - 4 - hd.tokenLen - n))) := by omega
  conv => lhs; rw [e, List.take_add, List.take_add, List.take_add]
  simp only [List.drop_drop, List.append_assoc]

theorem parse_signed_complete {q : Bool} {m : Msg} {b : Bytes} (h : Reads q m b)
    (t : Bytes) (ht : t ≠ [] ∨ m.payload ≠ []) : parse true (b ++ t) b.length = .ok m := by
  obtain ⟨hf, hsh, ob, pb, ho, hp, rfl⟩ := h
  unfold parse
  rw [List.append_assoc, List.append_assoc, List.append_assoc, parseHdr_complete hf _ _ (by simp)]
  simp only [Out.bind_ok]
  have hd1 : List.drop 4 ([UInt8.ofNat (64 * 1 + 16 * m.type + m.token.length), UInt8.ofNat (32 * m.codeClass + m.codeDetail),
         UInt8.ofNat (m.msgId / 256), UInt8.ofNat (m.msgId % 256)] ++ (m.token ++ (ob ++ (pb ++ t)))) =
      m.token ++ (ob ++ (pb ++ t)) := by simp
  have hd2 : List.drop (4 + m.token.length) ([UInt8.ofNat (64 * 1 + 16 * m.type + m.token.length), UInt8.ofNat (32 * m.codeClass + m.codeDetail),
         UInt8.ofNat (m.msgId / 256), UInt8.ofNat (m.msgId % 256)] ++ (m.token ++ (ob ++ (pb ++ t)))) =
      ob ++ (pb ++ t) := by rw [← List.drop_drop, hd1, List.drop_left]
  rw [hd1, hd2]
  have hlen : (([UInt8.ofNat (64 * 1 + 16 * m.type + m.token.length), UInt8.ofNat (32 * m.codeClass + m.codeDetail),
         UInt8.ofNat (m.msgId / 256), UInt8.ofNat (m.msgId % 256)] ++ (m.token ++ (ob ++ pb))).length) =
      4 + m.token.length + ob.length + pb.length := by simp; omega
  simp only [List.append_assoc] at hlen ⊢
  rw [hlen]
  have e2 : parseToken m.token.length (m.token ++ (ob ++ (pb ++ t))) (4 + m.token.length + ob.length + pb.length - 4)
      = .ok m.token := by
    unfold parseToken
    rw [if_neg (by omega), rds_ok (by simp)]
    simp
  rw [e2, Out.bind_ok]
  have e : 4 + m.token.length + ob.length + pb.length - 4 - m.token.length = ob.length + pb.length := by omega
  rw [e]
  have hne : pb ++ t ≠ [] := by
    revert hp ht
    generalize m.payload = pl
    intro ht hp
    cases hp with
    | none => simpa using ht
    | some => simp
  have hend : OptsEnd pb := by
    revert hp
    generalize m.payload = pl
    intro hp
    cases hp with
    | none => trivial
    | some => rfl
  have e3 := parseOps_signed_complete ho (ob.length + pb.length + 1) [] pb t rfl (by omega) hend hne
  rw [List.append_assoc] at e3
  rw [e3, Out.bind_ok]
  simp only
  rw [List.drop_left, Nat.add_sub_cancel_left, parsePayload_complete hp, Out.bind_ok]
  simp only [List.nil_append]
  have : check ⟨m.ver, m.type, m.codeClass, m.codeDetail, m.msgId, m.token, m.ops, m.payload⟩ = .ok () :=
    (check_ok_iff _).2 hsh
  rw [this]
  rfl

/-! ## Comparison with the grammar -/

theorem SExt.ext {v nib : Nat} {bs : Bytes} (h : SExt false v nib bs) : Ext v nib bs ∧ ¬ (141 ≤ v ∧ v < 269) := by
  cases h with
  | small _ h => exact ⟨.small _ h, by omega⟩
  | low b h => exact ⟨.byte b, by omega⟩
  | word a b => exact ⟨.word a b, by omega⟩

theorem Ext.sext {v nib : Nat} {bs : Bytes} (h : Ext v nib bs) (hn : ¬ (141 ≤ v ∧ v < 269)) : SExt false v nib bs := by
  cases h with
  | small _ h => exact .small _ h
  | byte b => exact .low b (by have := b.toNat_lt; omega)
  | word a b => exact .word a b

theorem SOptions.options {q : Bool} {prev : Nat} {ops : List Op} {bs : Bytes} (h : SOptions q prev ops bs) :
    q = false → prev + 21935 * bs.length < 2 ^ 32 → Options prev ops bs ∧ NoHighExt prev ops := by
  induction h with
  | nil prev => exact fun _ _ => ⟨.nil prev, trivial⟩
  | cons hd hl ht ih =>
    rename_i q r s prev delta dn ln db lb val bs ops
    intro hq hw
    cases q <;> cases r <;> cases s <;> simp at hq
    obtain ⟨hd1, hd2⟩ := hd.ext
    obtain ⟨hl1, hl2⟩ := hl.ext
    have h1 := hd1.le.1
    have hw' : prev + 21935 * (1 + db.length) + 21935 * bs.length < 2 ^ 32 := by
      have : (UInt8.ofNat (16 * dn + ln) :: (db ++ lb ++ val ++ bs)).length =
        1 + db.length + bs.length + (lb.length + val.length) := by simp; omega
      rw [this] at hw
      omega
    have hm : (prev + delta) % 2 ^ 32 = prev + delta := Nat.mod_eq_of_lt (by omega)
    rw [hm] at ih ⊢
    obtain ⟨i1, i2⟩ := ih rfl (by omega)
    refine ⟨Options.cons hd1 hl1 i1, ?_, hl2, i2⟩
    rw [show prev + delta - prev = delta by omega]
    exact hd2

theorem Options.soptions {prev : Nat} {ops : List Op} {bs : Bytes} (h : Options prev ops bs) :
    NoHighExt prev ops → prev + 21935 * bs.length < 2 ^ 32 → SOptions false prev ops bs := by
  induction h with
  | nil prev => exact fun _ _ => .nil prev
  | cons hd hl ht ih =>
    rename_i prev delta dn ln db lb val bs ops
    intro hn hw
    have h1 := hd.le.1
    have hw' : prev + 21935 * (1 + db.length) + 21935 * bs.length < 2 ^ 32 := by
      have : (UInt8.ofNat (16 * dn + ln) :: (db ++ lb ++ val ++ bs)).length =
        1 + db.length + bs.length + (lb.length + val.length) := by simp; omega
      rw [this] at hw
      omega
    have hm : (prev + delta) % 2 ^ 32 = prev + delta := Nat.mod_eq_of_lt (by omega)
    obtain ⟨n1, n2, n3⟩ := hn
    have i := ih n3 (by omega)
    have := SOptions.cons (prev := prev) (hd.sext (by simpa [show prev + delta - prev = delta by omega] using n1)) (hl.sext n2) (by rw [hm]; exact i)
    rw [hm] at this
    exact this

theorem first_byte {dn ln dn' ln' : Nat} (h1 : dn < 15) (h2 : ln < 15) (h3 : dn' < 15) (h4 : ln' < 15)
    (e : UInt8.ofNat (16 * dn + ln) = UInt8.ofNat (16 * dn' + ln')) : dn = dn' ∧ ln = ln' := by
  have := congrArg UInt8.toNat e
  rw [toNat_toByte _ (by omega), toNat_toByte _ (by omega)] at this
  omega

/-- The two readings of an extension have the same bytes; the values differ if and only if it is misread. -/
theorem SExt.compare {q : Bool} {v v' nib : Nat} {bs bs' u u' : Bytes} (h : SExt q v nib bs) (h' : Ext v' nib bs')
    (e : bs ++ u = bs' ++ u') : bs = bs' ∧ u = u' ∧ (q = false → v = v') ∧
      (q = true → v' < 269 ∧ (v < 13 ∨ 2 ^ 31 ≤ v) ∧ v < 2 ^ 32 ∧ v' % 2 ^ 32 ≠ v ∧ v' = (v + 256) % 2 ^ 32) := by
  have key : bs.length = bs'.length := by
    cases h <;> cases h' <;> simp_all <;> omega
  obtain ⟨rfl, rfl⟩ := List.append_inj e key
  refine ⟨rfl, rfl, ?_, ?_⟩
  · rintro rfl
    cases h with
    | small n h =>
      cases h' with
      | small => rfl
    | low b h =>
      cases h' with
      | byte => rfl
    | word a b =>
      cases h' with
      | word => rfl
  · rintro rfl
    cases h with
    | high b h =>
      cases h' with
      | byte =>
        have := b.toNat_lt
        refine ⟨by omega, ?_, by omega, by omega, by omega⟩
        omega

theorem SOptions.differ {q : Bool} {prev : Nat} {ops : List Op} {bs : Bytes} (h : SOptions q prev ops bs) :
    q = true → ∀ {bs' u u' : Bytes}, Options prev ops bs' → prev + 21935 * bs'.length < 2 ^ 32 →
      bs ++ u = bs' ++ u' → False := by
  induction h with
  | nil => intro hq; cases hq
  | cons hd hl ht ih =>
    rename_i q r s prev delta dn ln db lb val bs ops
    intro hq bs' u u' ho hw e
    generalize hops : (⟨(prev + delta) % 2 ^ 32, val⟩ : Op) :: ops = ops' at ho
    cases ho with
    | nil => cases hops
    | cons hd' hl' ht' =>
      rename_i delta' dn' ln' db' lb' val' bs' ops'
      simp only [List.cons.injEq, Op.mk.injEq] at hops
      obtain ⟨⟨hnum, rfl⟩, rfl⟩ := hops
      simp only [List.cons_append, List.cons.injEq, List.append_assoc] at e
      obtain ⟨eb, e⟩ := e
      obtain ⟨rfl, rfl⟩ := first_byte hd.nib hl.nib hd'.le.2.1 hl'.le.2.1 eb
      obtain ⟨rfl, e, c1, c2⟩ := hd.compare hd' e
      obtain ⟨rfl, e, d1, d2⟩ := hl.compare hl' e
      have e := List.append_cancel_left e
      have h1 := hd'.le.1
      have hw' : prev + 21935 * (1 + db.length) + 21935 * bs'.length < 2 ^ 32 := by
        have : (UInt8.ofNat (16 * dn + ln) :: (db ++ lb ++ val ++ bs')).length =
          1 + db.length + bs'.length + (lb.length + val.length) := by simp; omega
        rw [this] at hw
        omega
      cases q with
      | true =>
        obtain ⟨c1, c2, c3, c4, c5⟩ := c2 rfl
        omega
      | false =>
        cases r with
        | true =>
          obtain ⟨d1, d2, d3, d4, d5⟩ := d2 rfl
          omega
        | false =>
          cases s with
          | false => cases hq
          | true =>
            have := c1 rfl
            subst this
            have hm : (prev + delta) % 2 ^ 32 = prev + delta := Nat.mod_eq_of_lt (by omega)
            rw [hm] at ih
            exact ih rfl ht' (by omega) e

end FreeCoAP.Msg
