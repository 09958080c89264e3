import Verif.Msg.Spec

/-! # Lemmas on the message codec -/

namespace FreeCoAP.Msg

/-! ## Bit arithmetic on one or two bytes -/

theorem nat_hi4 : ∀ n < 256, (n >>> 4) &&& 0x0f = n / 16 := by decide +kernel
theorem nat_lo4 : ∀ n < 256, n &&& 0x0f = n % 16 := by decide +kernel
theorem nat_ff : ∀ n < 256, n &&& 0xff = n := by decide +kernel
theorem nat_ver : ∀ n < 256, (n >>> 6) &&& 0x03 = n / 64 := by decide +kernel
theorem nat_type : ∀ n < 256, (n >>> 4) &&& 0x03 = n / 16 % 4 := by decide +kernel
theorem nat_detail : ∀ n < 256, n &&& 0x1f = n % 32 := by decide +kernel
theorem nat_class : ∀ n < 256, (n >>> 5) &&& 0x07 = n / 32 := by decide +kernel

theorem hi4 (b : UInt8) : (b.toNat >>> 4) &&& 0x0f = b.toNat / 16 := nat_hi4 _ b.toNat_lt
theorem lo4 (b : UInt8) : b.toNat &&& 0x0f = b.toNat % 16 := nat_lo4 _ b.toNat_lt
theorem ff (b : UInt8) : b.toNat &&& 0xff = b.toNat := nat_ff _ b.toNat_lt
theorem hVer (b : UInt8) : (b.toNat >>> 6) &&& 0x03 = b.toNat / 64 := nat_ver _ b.toNat_lt
theorem hType (b : UInt8) : (b.toNat >>> 4) &&& 0x03 = b.toNat / 16 % 4 := nat_type _ b.toNat_lt
theorem hDetail (b : UInt8) : b.toNat &&& 0x1f = b.toNat % 32 := nat_detail _ b.toNat_lt
theorem hClass (b : UInt8) : (b.toNat >>> 5) &&& 0x07 = b.toNat / 32 := nat_class _ b.toNat_lt

theorem shl8_or (a b : UInt8) : (a.toNat <<< 8) ||| b.toNat = 256 * a.toNat + b.toNat := by
  have h := Nat.shiftLeft_add_eq_or_of_lt (i := 8) (b := b.toNat) b.toNat_lt a.toNat
  rw [← h, Nat.shiftLeft_eq]; omega

theorem toNat_toByte (n : Nat) (h : n < 256) : (toByte n).toNat = n := by
  simp [toByte, Nat.mod_eq_of_lt h]

theorem toByte_toNat (b : UInt8) : toByte b.toNat = b := by simp [toByte]

theorem toByte_eq (n m : Nat) (h : n % 256 = m % 256) : toByte n = toByte m := by
  apply UInt8.toNat_inj.1
  simp [toByte]; omega

theorem eq_ff_iff (b : UInt8) : b.toNat = 0xff ↔ b = 0xff := by
  constructor
  · intro h; apply UInt8.toNat_inj.1; simpa using h
  · rintro rfl; rfl

theorem nib_or : ∀ d < 16, ∀ l < 16, toByte (d <<< 4) ||| toByte l = UInt8.ofNat (16 * d + l) := by
  decide +kernel

theorem hdr0_or : ∀ t < 4, ∀ k < 16,
    toByte ((1 <<< 6) ||| ((t &&& 0x03) <<< 4) ||| (k &&& 0x0f)) = UInt8.ofNat (64 * 1 + 16 * t + k) := by
  decide +kernel

theorem hdr1_or : ∀ c < 8, ∀ d < 32,
    toByte (((c &&& 0x07) <<< 5) ||| (d &&& 0x1f)) = UInt8.ofNat (32 * c + d) := by
  decide +kernel

theorem be16_eq (x : Nat) (_ : x < 65536) : be16 x = [UInt8.ofNat (x / 256), UInt8.ofNat (x % 256)] := by
  unfold be16
  rw [Nat.shiftRight_eq_div_pow]
  congr 1
  congr 1
  apply toByte_eq
  omega

/-! ## Reads -/

theorem rd_ok {mem : Bytes} {i : Nat} (h : i < mem.length) : rd mem i = .ok mem[i] := by
  simp [rd, h]

theorem rd_eq_ok {mem : Bytes} {i : Nat} {b : Byte} : rd mem i = .ok b ↔ mem[i]? = some b := by
  unfold rd
  cases h : mem[i]? <;> simp

theorem rd_ne_err {mem : Bytes} {i : Nat} {e : Err} : rd mem i ≠ .err e := by
  unfold rd
  cases h : mem[i]? <;> simp

theorem rds_ok {mem : Bytes} {n : Nat} (h : n ≤ mem.length) : rds mem n = .ok (mem.take n) := by
  simp [rds, h]

/-! ## Extended values -/

theorem Ext.le {v nib : Nat} {bs : Bytes} (h : Ext v nib bs) : v ≤ 21935 * (1 + bs.length) ∧ nib < 15 ∧ v < 65805 := by
  cases h with
  | small n h => simp; omega
  | byte b => have := b.toNat_lt; simp; omega
  | word a b => have := a.toNat_lt; have := b.toNat_lt; simp; omega

theorem parseExt_sound {nib : Nat} {mem : Bytes} {len v n : Nat} (hl : len ≤ mem.length) (hn : nib < 15)
    (h : parseExt false nib mem len = .ok (v, n)) : Ext v nib (mem.take n) ∧ n ≤ len := by
  unfold parseExt at h
  split at h
  · rename_i h13
    subst h13
    split at h
    · simp at h
    · rw [rd_ok (by omega)] at h
      simp [charVal] at h
      obtain ⟨h1, rfl⟩ := h
      have hb := (mem[0]'(by omega)).toNat_lt
      have hv : v = 13 + (mem[0]'(by omega)).toNat := by omega
      have ht : mem.take 1 = [mem[0]'(by omega)] := by
        cases mem with
        | nil => simp at hl; omega
        | cons a t => simp
      rw [ht, hv]
      exact ⟨Ext.byte _, by omega⟩
  · split at h
    · rename_i h14
      subst h14
      split at h
      · simp at h
      · rw [rd_ok (by omega), Out.bind_ok, rd_ok (by omega), Out.bind_ok, shl8_or] at h
        simp only [Out.pure_eq, Out.ok.injEq, Prod.mk.injEq] at h
        obtain ⟨rfl, rfl⟩ := h
        have ht : mem.take 2 = [mem[0]'(by omega), mem[1]'(by omega)] := by
          match mem, hl with
          | [], hl => simp at hl; omega
          | [a], hl => simp at hl; omega
          | a :: b :: t, hl => simp
        rw [ht, ← Nat.add_assoc]
        exact ⟨Ext.word _ _, by omega⟩
    · simp only [Out.pure_eq, Out.ok.injEq, Prod.mk.injEq] at h
      obtain ⟨rfl, rfl⟩ := h
      simp
      exact Ext.small _ (by omega)

/-- The value does not need a signed extension byte. -/
def ExtSafe (sx : Bool) (v : Nat) : Prop := sx = true → ¬ (141 ≤ v ∧ v < 269)

theorem parseExt_complete {sx : Bool} {nib v : Nat} {bs rest : Bytes} {len : Nat} (h : Ext v nib bs)
    (hs : ExtSafe sx v) (hl : bs.length ≤ len) : parseExt sx nib (bs ++ rest) len = .ok (v, bs.length) := by
  cases h with
  | small n hn => unfold parseExt; rw [if_neg (by omega), if_neg (by omega)]; rfl
  | byte b =>
    have hb := b.toNat_lt
    simp only [List.length_cons, List.length_nil] at hl
    unfold parseExt
    rw [if_pos rfl, if_neg (by omega)]
    have : charVal sx b = b.toNat := by
      unfold charVal
      rw [if_neg]
      rintro ⟨h1, h2⟩
      exact hs h1 (by omega)
    simp only [List.cons_append, rd, List.getElem?_cons_zero, Out.bind_ok, this, Out.pure_eq,
      List.length_cons, List.length_nil]
    rw [Nat.mod_eq_of_lt (by omega)]
  | word a b =>
    simp only [List.length_cons, List.length_nil] at hl
    unfold parseExt
    rw [if_neg (by omega), if_pos rfl, if_neg (by omega)]
    simp only [List.cons_append, List.nil_append, rd, List.getElem?_cons_zero, List.getElem?_cons_succ, Out.bind_ok, Out.pure_eq,
      List.length_cons, List.length_nil, shl8_or]
    rw [← Nat.add_assoc]

theorem parseExt_bounds {sx : Bool} {nib : Nat} {mem : Bytes} {len : Nat} (hl : len ≤ mem.length) :
    parseExt sx nib mem len ≠ .ub ∧ ∀ v n, parseExt sx nib mem len = .ok (v, n) → n ≤ len := by
  unfold parseExt
  split
  · split
    · simp
    · rw [rd_ok (by omega)]
      simp only [Out.bind_ok, Out.pure_eq, ne_eq, reduceCtorEq, not_false_eq_true, Out.ok.injEq,
        Prod.mk.injEq, true_and]
      omega
  · split
    · split
      · simp
      · rw [rd_ok (by omega), Out.bind_ok, rd_ok (by omega)]
        simp only [Out.bind_ok, Out.pure_eq, ne_eq, reduceCtorEq, not_false_eq_true, Out.ok.injEq,
          Prod.mk.injEq, true_and]
        omega
    · simp

/-! ## One option -/

/-- The number of the last option of a list, 0 for the empty list. -/
def lastNum (acc : List Op) : Nat :=
  match acc.getLast? with
  | none => 0
  | some o => o.num

theorem lastNum_append (acc : List Op) (o : Op) : lastNum (acc ++ [o]) = o.num := by
  simp [lastNum]

theorem byte_split (b : UInt8) : UInt8.ofNat (16 * (b.toNat / 16) + b.toNat % 16) = b := by
  have : 16 * (b.toNat / 16) + b.toNat % 16 = b.toNat := by omega
  rw [this]; simp

theorem parseOp_bounds {sx : Bool} {acc : List Op} {mem : Bytes} {len : Nat} (hl : len ≤ mem.length) :
    parseOp sx acc mem len ≠ .ub ∧ ∀ o n, parseOp sx acc mem len = .ok (o, n) → 1 ≤ n ∧ n ≤ len := by
  unfold parseOp
  split
  · simp
  · rename_i h1
    rw [rd_ok (by omega), Out.bind_ok]
    simp only
    split
    · simp
    · have b1 := parseExt_bounds (sx := sx) (nib := ((mem[0]'(by omega)).toNat >>> 4) &&& 0x0f)
        (mem := mem.drop 1) (len := len - 1) (by simp; omega)
      cases e1 : parseExt sx (((mem[0]'(by omega)).toNat >>> 4) &&& 0x0f) (mem.drop 1) (len - 1) with
      | err e => simp
      | ub => exact absurd e1 b1.1
      | ok r =>
        obtain ⟨delta, n1⟩ := r
        have hn1 := b1.2 _ _ e1
        simp only [Out.bind_ok]
        have b2 := parseExt_bounds (sx := sx) (nib := (mem[0]'(by omega)).toNat &&& 0x0f)
          (mem := mem.drop (1 + n1)) (len := len - 1 - n1) (by simp; omega)
        cases e2 : parseExt sx ((mem[0]'(by omega)).toNat &&& 0x0f) (mem.drop (1 + n1)) (len - 1 - n1) with
        | err e => simp
        | ub => exact absurd e2 b2.1
        | ok r =>
          obtain ⟨oplen, n2⟩ := r
          have hn2 := b2.2 _ _ e2
          simp only [Out.bind_ok]
          split
          · simp
          · rw [rds_ok (by simp; omega)]
            simp only [Out.bind_ok, Out.pure_eq, ne_eq, reduceCtorEq, not_false_eq_true, Out.ok.injEq,
              Prod.mk.injEq, true_and]
            rintro o n ⟨-, rfl⟩
            omega

theorem parseOp_sound {acc : List Op} {mem : Bytes} {len : Nat} {o : Op} {n : Nat} (hl : len ≤ mem.length)
    (hw : lastNum acc + 21935 * len < 2 ^ 32)
    (h : parseOp false acc mem len = .ok (o, n)) :
    ∃ delta dn ln db lb, Ext delta dn db ∧ Ext o.val.length ln lb ∧ o.num = lastNum acc + delta ∧
      mem.take n = UInt8.ofNat (16 * dn + ln) :: (db ++ lb ++ o.val) ∧ delta ≤ 21935 * n ∧ 16 * dn + ln < 255 := by
  unfold parseOp at h
  split at h
  · simp at h
  rename_i h1
  rw [rd_ok (by omega), Out.bind_ok, hi4, lo4] at h
  simp only at h
  split at h
  · simp at h
  rename_i h15
  have hb := (mem[0]'(by omega)).toNat_lt
  cases e1 : parseExt false ((mem[0]'(by omega)).toNat / 16) (mem.drop 1) (len - 1) with
  | err e => rw [e1] at h; simp at h
  | ub => rw [e1] at h; simp at h
  | ok r =>
    obtain ⟨delta, n1⟩ := r
    rw [e1, Out.bind_ok] at h
    simp only at h
    obtain ⟨x1, k1⟩ := parseExt_sound (by simp; omega) (by omega) e1
    cases e2 : parseExt false ((mem[0]'(by omega)).toNat % 16) (mem.drop (1 + n1)) (len - 1 - n1) with
    | err e => rw [e2] at h; simp at h
    | ub => rw [e2] at h; simp at h
    | ok r =>
      obtain ⟨oplen, n2⟩ := r
      rw [e2, Out.bind_ok] at h
      simp only at h
      obtain ⟨x2, k2⟩ := parseExt_sound (by simp; omega) (by omega) e2
      split at h
      · simp at h
      rename_i h3
      rw [rds_ok (by simp; omega)] at h
      simp only [Out.bind_ok, Out.pure_eq, Out.ok.injEq, Prod.mk.injEq] at h
      obtain ⟨rfl, rfl⟩ := h
      have hlen : ((mem.drop (1 + n1 + n2)).take oplen).length = oplen := by simp; omega
      have l1 : ((mem.drop 1).take n1).length = n1 := by simp; omega
      have hdel := x1.le.1
      rw [l1] at hdel
      refine ⟨delta, (mem[0]'(by omega)).toNat / 16, (mem[0]'(by omega)).toNat % 16,
        (mem.drop 1).take n1, (mem.drop (1 + n1)).take n2, x1, ?_, ?_, ?_, ?_, ?_⟩
      · rw [hlen]; exact x2
      · simp only
        unfold lastNum at hw ⊢
        cases hg : acc.getLast? with
        | none => simp
        | some p =>
          rw [hg] at hw
          simp only at hw ⊢
          rw [Nat.mod_eq_of_lt]
          omega
      · rw [byte_split]
        have e3 : 1 + n1 + n2 + oplen = 1 + (n1 + (n2 + oplen)) := by omega
        rw [e3]
        conv => lhs; rw [List.take_add, List.take_add, List.take_add]
        simp only [List.drop_drop, List.append_assoc]
        have : mem.take 1 = [mem[0]'(by omega)] := by
          cases mem with
          | nil => simp at hl; omega
          | cons a t => simp
        rw [this]
        simp [Nat.add_comm, Nat.add_left_comm]
      · calc delta ≤ 21935 * (1 + n1) := hdel
          _ ≤ _ := Nat.mul_le_mul_left _ (by omega)
      · omega

theorem parseOp_complete {sx : Bool} {acc : List Op} {delta dn ln : Nat} {db lb val rest : Bytes} {len : Nat}
    (hd : Ext delta dn db) (hl : Ext val.length ln lb) (hsd : ExtSafe sx delta) (hsl : ExtSafe sx val.length)
    (hw : lastNum acc + delta < 2 ^ 32) (hlen : 1 + db.length + lb.length + val.length ≤ len) :
    parseOp sx acc (UInt8.ofNat (16 * dn + ln) :: (db ++ lb ++ val ++ rest)) len =
      .ok (⟨lastNum acc + delta, val⟩, 1 + db.length + lb.length + val.length) := by
  have h1 := hd.le.2.1
  have h2 := hl.le.2.1
  have hb : (UInt8.ofNat (16 * dn + ln)).toNat = 16 * dn + ln := toNat_toByte _ (by omega)
  unfold parseOp
  rw [if_neg (by omega)]
  simp only [rd, List.getElem?_cons_zero, Out.bind_ok, hi4, lo4, hb]
  have e1 : (16 * dn + ln) / 16 = dn := by omega
  have e2 : (16 * dn + ln) % 16 = ln := by omega
  rw [e1, e2, if_neg (by omega)]
  have p1 : parseExt sx dn (List.drop 1 (UInt8.ofNat (16 * dn + ln) :: (db ++ lb ++ val ++ rest))) (len - 1)
      = .ok (delta, db.length) := by
    simp only [List.drop_succ_cons, List.drop_zero, List.append_assoc]
    exact parseExt_complete hd hsd (by omega)
  rw [p1, Out.bind_ok]
  have p2 : parseExt sx ln (List.drop (1 + db.length) (UInt8.ofNat (16 * dn + ln) :: (db ++ lb ++ val ++ rest)))
      (len - 1 - db.length) = .ok (val.length, lb.length) := by
    rw [Nat.add_comm 1, List.drop_succ_cons, List.append_assoc, List.append_assoc, List.drop_left]
    exact parseExt_complete hl hsl (by omega)
  simp only [p2, Out.bind_ok]
  rw [if_neg (by omega)]
  have p3 : List.drop (1 + db.length + lb.length) (UInt8.ofNat (16 * dn + ln) :: (db ++ lb ++ val ++ rest)) = val ++ rest := by
    have : 1 + db.length + lb.length = (db ++ lb).length + 1 := by simp; omega
    rw [this, List.drop_succ_cons, List.append_assoc (db ++ lb), List.drop_left]
  rw [p3, rds_ok (by simp)]
  simp only [Out.bind_ok, Out.pure_eq, List.take_left', Out.ok.injEq, Prod.mk.injEq, and_true]
  unfold lastNum at hw ⊢
  cases hg : acc.getLast? with
  | none => simp
  | some p =>
    rw [hg] at hw
    simp only at hw ⊢
    rw [Nat.mod_eq_of_lt hw]

end FreeCoAP.Msg
