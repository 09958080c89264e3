import Verif.Msg.Lemmas

/-! # Lemmas on `parse` -/

namespace FreeCoAP.Msg

/-! ## The result depends on the first `len` bytes only -/

theorem rd_append {mem t : Bytes} {i : Nat} (h : i < mem.length) : rd (mem ++ t) i = rd mem i := by
  unfold rd; rw [List.getElem?_append_left h]

theorem rds_append {mem t : Bytes} {n : Nat} (h : n ≤ mem.length) : rds (mem ++ t) n = rds mem n := by
  unfold rds
  rw [if_pos (by simp; omega), if_pos h, List.take_append_of_le_length h]

theorem drop_append_le {mem t : Bytes} {n : Nat} (h : n ≤ mem.length) : (mem ++ t).drop n = mem.drop n ++ t :=
  List.drop_append_of_le_length h

theorem parseExt_append {sx : Bool} {nib : Nat} {mem t : Bytes} {len : Nat} (h : len ≤ mem.length) :
    parseExt sx nib (mem ++ t) len = parseExt sx nib mem len := by
  unfold parseExt
  split
  · split
    · rfl
    · rw [rd_append (by omega)]
  · split
    · split
      · rfl
      · rw [rd_append (by omega), rd_append (by omega)]
    · rfl

theorem parseOp_append {sx : Bool} {acc : List Op} {mem t : Bytes} {len : Nat} (h : len ≤ mem.length) :
    parseOp sx acc (mem ++ t) len = parseOp sx acc mem len := by
  unfold parseOp
  split
  · rfl
  rename_i h1
  rw [rd_append (by omega), rd_ok (by omega), Out.bind_ok, Out.bind_ok]
  simp only
  split
  · rfl
  · rw [drop_append_le (by omega), parseExt_append (by simp; omega)]
    have b1 := parseExt_bounds (sx := sx) (nib := ((mem[0]'(by omega)).toNat >>> 4) &&& 0x0f)
      (mem := mem.drop 1) (len := len - 1) (by simp; omega)
    cases e1 : parseExt sx (((mem[0]'(by omega)).toNat >>> 4) &&& 0x0f) (mem.drop 1) (len - 1) with
    | err e => rfl
    | ub => rfl
    | ok r =>
      obtain ⟨delta, n1⟩ := r
      have hn1 := b1.2 _ _ e1
      simp only [Out.bind_ok]
      rw [drop_append_le (by omega), parseExt_append (by simp; omega)]
      have b2 := parseExt_bounds (sx := sx) (nib := (mem[0]'(by omega)).toNat &&& 0x0f)
        (mem := mem.drop (1 + n1)) (len := len - 1 - n1) (by simp; omega)
      cases e2 : parseExt sx ((mem[0]'(by omega)).toNat &&& 0x0f) (mem.drop (1 + n1)) (len - 1 - n1) with
      | err e => rfl
      | ub => rfl
      | ok r =>
        obtain ⟨oplen, n2⟩ := r
        have hn2 := b2.2 _ _ e2
        simp only [Out.bind_ok]
        split
        · rfl
        · rw [drop_append_le (by omega), rds_append (by simp; omega)]

/-! ## Option sequences -/

theorem parseOps_bounds {sx : Bool} : ∀ (fuel : Nat) (acc : List Op) (mem : Bytes) (len : Nat),
    len < mem.length → len < fuel →
    parseOps sx fuel acc mem len ≠ .ub ∧ ∀ ops k, parseOps sx fuel acc mem len = .ok (ops, k) → k ≤ len
  | 0, _, _, _, _, hf => by omega
  | fuel + 1, acc, mem, len, hl, hf => by
    unfold parseOps
    rw [rd_ok (by omega), Out.bind_ok]
    split
    · simp
    · have b := parseOp_bounds (sx := sx) (acc := acc) (mem := mem) (len := len) (by omega)
      cases e : parseOp sx acc mem len with
      | err e => simp
      | ub => exact absurd e b.1
      | ok r =>
        obtain ⟨op, n⟩ := r
        have hn := b.2 _ _ e
        simp only [Out.bind_ok]
        have ih := parseOps_bounds (sx := sx) fuel (opListAddLast op acc) (mem.drop n) (len - n)
          (by simp; omega) (by omega)
        cases e2 : parseOps sx fuel (opListAddLast op acc) (mem.drop n) (len - n) with
        | err e => simp
        | ub => exact absurd e2 ih.1
        | ok r =>
          obtain ⟨ops, k⟩ := r
          have hk := ih.2 _ _ e2
          simp
          omega

/-- The only undefined behaviour of the option loop is the read of `p[0]` when the
options end at the end of the object. -/
theorem parseOps_ub {sx : Bool} : ∀ (fuel : Nat) (acc : List Op) (mem : Bytes) (len : Nat),
    len ≤ mem.length → len < fuel → parseOps sx fuel acc mem len = .ub →
    mem.length = len ∧ ∃ ops, ∀ x t, parseOps sx fuel acc (mem ++ x :: t) len = .ok (ops, len)
  | 0, _, _, _, _, hf => by omega
  | fuel + 1, acc, mem, len, hl, hf => by
    intro h
    by_cases h0 : len = 0
    · subst h0
      cases mem with
      | nil =>
        refine ⟨rfl, acc, fun x t => ?_⟩
        simp [parseOps, rd]
      | cons a t => simp [parseOps, rd] at h
    · unfold parseOps at h ⊢
      rw [rd_ok (by omega), Out.bind_ok] at h
      split at h
      · simp at h
      rename_i hc
      have b := parseOp_bounds (sx := sx) (acc := acc) (mem := mem) (len := len) (by omega)
      cases e : parseOp sx acc mem len with
      | err e' => rw [e] at h; simp at h
      | ub => exact absurd e b.1
      | ok r =>
        obtain ⟨op, n⟩ := r
        have hn := b.2 _ _ e
        rw [e, Out.bind_ok] at h
        simp only at h
        have hub : parseOps sx fuel (opListAddLast op acc) (mem.drop n) (len - n) = .ub := by
          rw [Out.bind_eq_ub] at h
          rcases h with h | ⟨a, -, h⟩
          · exact h
          · simp at h
        obtain ⟨h1, ops, h2⟩ := parseOps_ub fuel _ _ _ (by simp; omega) (by omega) hub
        simp only [List.length_drop] at h1
        refine ⟨by omega, ops, fun x t => ?_⟩
        rw [rd_append (by omega), rd_ok (by omega), Out.bind_ok, if_neg hc, parseOp_append hl, e, Out.bind_ok]
        simp only
        rw [drop_append_le (by omega), h2 x t]
        simp only [Out.bind_ok, Out.pure_eq, Out.ok.injEq, Prod.mk.injEq, true_and]
        omega

theorem parseOps_append {sx : Bool} : ∀ (fuel : Nat) (acc : List Op) (mem : Bytes) (len : Nat) (t : Bytes),
    len < mem.length → parseOps sx fuel acc (mem ++ t) len = parseOps sx fuel acc mem len
  | 0, _, _, _, _, _ => rfl
  | fuel + 1, acc, mem, len, t, hl => by
    unfold parseOps
    rw [rd_append (by omega), rd_ok (by omega), Out.bind_ok, Out.bind_ok]
    split
    · rfl
    · rw [parseOp_append (by omega)]
      have b := parseOp_bounds (sx := sx) (acc := acc) (mem := mem) (len := len) (by omega)
      cases e : parseOp sx acc mem len with
      | err e => rfl
      | ub => rfl
      | ok r =>
        obtain ⟨op, n⟩ := r
        have hn := b.2 _ _ e
        simp only [Out.bind_ok]
        rw [drop_append_le (by omega), parseOps_append fuel _ _ _ t (by simp; omega)]

theorem parseOps_sound : ∀ (fuel : Nat) (acc : List Op) (mem : Bytes) (len : Nat) (ops : List Op) (k : Nat),
    len ≤ mem.length → lastNum acc + 21935 * len < 2 ^ 32 →
    parseOps false fuel acc mem len = .ok (ops, k) →
    ∃ new, ops = acc ++ new ∧ Options (lastNum acc) new (mem.take k) ∧ k ≤ len ∧
      (k = len ∨ mem[k]? = some 0xff)
  | 0, _, _, _, _, _, _, _, h => by simp [parseOps] at h
  | fuel + 1, acc, mem, len, ops, k, hl, hw, h => by
    unfold parseOps at h
    cases e0 : rd mem 0 with
    | err e => exact absurd e0 rd_ne_err
    | ub => rw [e0] at h; simp at h
    | ok p0 =>
      rw [e0, Out.bind_ok] at h
      have e0' := rd_eq_ok.1 e0
      split at h
      · rename_i hc
        simp only [Out.pure_eq, Out.ok.injEq, Prod.mk.injEq] at h
        obtain ⟨rfl, rfl⟩ := h
        refine ⟨[], by simp, by simpa using Options.nil _, by omega, ?_⟩
        rcases hc with hc | hc
        · right
          rw [ff] at hc
          rw [e0', (eq_ff_iff p0).1 hc]
        · left; omega
      · have b := parseOp_bounds (sx := false) (acc := acc) (mem := mem) (len := len) hl
        cases e : parseOp false acc mem len with
        | err e' => rw [e] at h; simp at h
        | ub => exact absurd e b.1
        | ok r =>
          obtain ⟨op, n⟩ := r
          have hn := b.2 _ _ e
          rw [e, Out.bind_ok] at h
          simp only at h
          rw [Out.bind_eq_ok] at h
          obtain ⟨⟨ops', k'⟩, e2, h⟩ := h
          simp only [Out.pure_eq, Out.ok.injEq, Prod.mk.injEq] at h
          obtain ⟨rfl, rfl⟩ := h
          obtain ⟨delta, dn, ln, db, lb, x1, x2, hnum, htake, hdel, -⟩ := parseOp_sound hl hw e
          have hlast : lastNum (opListAddLast op acc) = lastNum acc + delta := by
            rw [opListAddLast, lastNum_append, hnum]
          obtain ⟨new, hnew, hopt, hk, hend⟩ := parseOps_sound fuel _ _ _ ops' k'
            (by simp; omega) (by rw [hlast]; omega) e2
          refine ⟨op :: new, by rw [hnew]; simp [opListAddLast], ?_, by omega, ?_⟩
          · rw [List.take_add, htake]
            rw [hlast] at hopt
            have hop : op = ⟨lastNum acc + delta, op.val⟩ := by rw [← hnum]
            rw [hop]
            exact Options.cons x1 x2 hopt
          · rcases hend with h' | h'
            · left; omega
            · right; simpa using h'

theorem Options.num_le {prev : Nat} {ops : List Op} {bs : Bytes} (h : Options prev ops bs) :
    ∀ o ∈ ops, o.num ≤ prev + 21935 * bs.length := by
  induction h with
  | nil => simp
  | cons hd hl ht ih =>
    rename_i prev delta dn ln db lb val rest ops
    have := hd.le.1
    intro o ho
    rcases List.mem_cons.1 ho with rfl | ho
    · simp only [List.length_cons, List.length_append]; omega
    · have := ih o ho
      simp only [List.length_cons, List.length_append]; omega

/-- What follows the options: the end of the datagram or the payload marker. -/
def OptsEnd : Bytes → Prop
  | [] => True
  | b :: _ => b = 0xff

theorem parseOps_complete {sx : Bool} {prev : Nat} {ops : List Op} {bs : Bytes} (h : Options prev ops bs) :
    ∀ (fuel : Nat) (acc : List Op) (rest t : Bytes), lastNum acc = prev → bs.length < fuel →
    SafeOps sx prev ops → (∀ o ∈ ops, o.num < 2 ^ 32) → OptsEnd rest → rest ++ t ≠ [] →
    parseOps sx fuel acc (bs ++ rest ++ t) (bs.length + rest.length) = .ok (acc ++ ops, bs.length) := by
  induction h with
  | nil prev =>
    intro fuel acc rest t hp hf hs hw he hne
    obtain ⟨fuel, rfl⟩ : ∃ f, fuel = f + 1 := ⟨fuel - 1, by simp at hf; omega⟩
    unfold parseOps
    cases rest with
    | nil =>
      cases t with
      | nil => simp at hne
      | cons x t => simp [rd]
    | cons x rest =>
      simp only [OptsEnd] at he
      subst he
      simp [rd]
  | cons hd hl ht ih =>
    rename_i prev delta dn ln db lb val bs ops
    intro fuel acc rest t hp hf hs hw he hne
    obtain ⟨fuel, rfl⟩ : ∃ f, fuel = f + 1 := ⟨fuel - 1, by simp at hf; omega⟩
    unfold parseOps
    have h1 := hd.le.2.1
    have h2 := hl.le.2.1
    have hb : (UInt8.ofNat (16 * dn + ln)).toNat = 16 * dn + ln := toNat_toByte _ (by omega)
    have hnum : prev + delta < 2 ^ 32 := hw ⟨prev + delta, val⟩ (by simp)
    have hmem : UInt8.ofNat (16 * dn + ln) :: (db ++ lb ++ val ++ bs) ++ rest ++ t =
        UInt8.ofNat (16 * dn + ln) :: (db ++ lb ++ val ++ (bs ++ rest ++ t)) := by simp
    rw [hmem]
    simp only [rd, List.getElem?_cons_zero, Out.bind_ok, ff, hb]
    rw [if_neg (by simp; omega)]
    have hsd : ExtSafe sx delta := by
      intro e
      have := (hs e).1
      simpa using this
    have hsl : ExtSafe sx val.length := fun e => (hs e).2.1
    rw [parseOp_complete hd hl hsd hsl (by omega) (by simp; omega), Out.bind_ok]
    simp only
    have hdrop : List.drop (1 + db.length + lb.length + val.length)
        (UInt8.ofNat (16 * dn + ln) :: (db ++ lb ++ val ++ (bs ++ rest ++ t))) = bs ++ rest ++ t := by
      have : 1 + db.length + lb.length + val.length = (db ++ lb ++ val).length + 1 := by simp; omega
      rw [this, List.drop_succ_cons, List.drop_left]
    rw [hdrop]
    have hlen : (UInt8.ofNat (16 * dn + ln) :: (db ++ lb ++ val ++ bs)).length + rest.length
        - (1 + db.length + lb.length + val.length) = bs.length + rest.length := by simp; omega
    rw [hlen]
    have := ih fuel (opListAddLast ⟨lastNum acc + delta, val⟩ acc) rest t
      (by rw [opListAddLast, lastNum_append, hp]) (by simp at hf; omega) (fun e => (hs e).2.2)
      (fun o ho => hw o (List.mem_cons_of_mem _ ho)) he hne
    rw [this]
    simp [opListAddLast, hp]
    omega

/-! ## Payload -/

theorem parsePayload_bounds {mem : Bytes} {len : Nat} (hl : len ≤ mem.length) :
    parsePayload mem len ≠ .ub := by
  unfold parsePayload
  split
  · simp
  · rw [rd_ok (by omega), Out.bind_ok]
    split
    · simp
    · split
      · simp
      · rw [rds_ok (by simp; omega)]; simp

theorem parsePayload_append {mem t : Bytes} {len : Nat} (hl : len ≤ mem.length) :
    parsePayload (mem ++ t) len = parsePayload mem len := by
  unfold parsePayload
  split
  · rfl
  · rw [rd_append (by omega), rd_ok (by omega), Out.bind_ok, Out.bind_ok]
    rw [drop_append_le (by omega), rds_append (by simp; omega)]

theorem parsePayload_sound {mem p : Bytes} {len : Nat} (hl : len ≤ mem.length)
    (h : parsePayload mem len = .ok p) : Payload p (mem.take len) := by
  unfold parsePayload at h
  split at h
  · rename_i h0
    simp only [Out.ok.injEq] at h
    subst h0 h
    simpa using Payload.none
  · rw [rd_ok (by omega), Out.bind_ok, ff] at h
    split at h
    · simp at h
    · rename_i hff
      split at h
      · simp at h
      · rw [rds_ok (by simp; omega)] at h
        simp only [Out.ok.injEq] at h
        have h0 : mem[0]'(by omega) = 0xff := (eq_ff_iff _).1 (by simpa using hff)
        have ht : mem.take len = 0xff :: p := by
          have : mem = mem[0]'(by omega) :: mem.drop 1 := by
            cases mem with
            | nil => simp at hl; omega
            | cons a t => simp
          rw [this, h0]
          obtain ⟨l, rfl⟩ : ∃ l, len = l + 1 := ⟨len - 1, by omega⟩
          rw [List.take_succ_cons, ← h]
          simp
        rw [ht]
        apply Payload.some
        rw [← h]
        intro hnil
        have := congrArg List.length hnil
        simp at this
        omega

theorem parsePayload_complete {p pb t : Bytes} (h : Payload p pb) :
    parsePayload (pb ++ t) pb.length = .ok p := by
  cases h with
  | none => simp [parsePayload]
  | some _ hne =>
    have : 0 < p.length := List.length_pos_iff.2 hne
    unfold parsePayload
    rw [if_neg (by simp)]
    simp only [List.cons_append, rd, List.getElem?_cons_zero, Out.bind_ok]
    rw [if_neg (by decide), if_neg (by simp; omega)]
    simp [rds]

/-! ## The whole message -/

theorem check_ok_iff (m : Msg) : check m = .ok () ↔ Shape m := by
  unfold check Shape
  constructor
  · intro h
    split at h
    · rename_i hc
      split at h
      · simp at h
      · rename_i hn
        simp only [not_or, ne_eq, Decidable.not_not, List.length_eq_zero_iff] at hn
        refine ⟨fun _ => ⟨hn.2.1, hn.2.2.1, hn.2.2.2, hn.1⟩, fun _ => hc⟩
    · rename_i hc
      split at h
      · simp at h
      · rename_i ht
        exact ⟨fun h => absurd h hc, fun h => absurd h ht⟩
  · rintro ⟨h1, h2⟩
    by_cases hc : m.codeClass = 0 ∧ m.codeDetail = 0
    · obtain ⟨a, b, c, d⟩ := h1 hc
      rw [if_pos hc, if_neg]
      simp [a, b, c, d]
    · rw [if_neg hc, if_neg (fun h => hc (h2 h))]

theorem check_cases (m : Msg) : check m = .ok () ∨ check m = .err .EBADMSG := by
  unfold check; split <;> split <;> simp

theorem parseHdr_ne_ub {mem : Bytes} {len : Nat} (hl : len ≤ mem.length) : parseHdr mem len ≠ .ub := by
  unfold parseHdr
  split
  · simp
  · rw [rd_ok (by omega), Out.bind_ok]
    simp only
    split
    · simp
    split
    · simp
    rw [rd_ok (by omega), Out.bind_ok]
    split
    · simp
    rw [rd_ok (by omega), Out.bind_ok, rd_ok (by omega), Out.bind_ok]
    simp

theorem parseHdr_append {mem t : Bytes} {len : Nat} (hl : len ≤ mem.length) :
    parseHdr (mem ++ t) len = parseHdr mem len := by
  unfold parseHdr
  split
  · rfl
  · rw [rd_append (by omega), rd_append (by omega), rd_append (by omega), rd_append (by omega)]

theorem parseHdr_sound {mem : Bytes} {len : Nat} {h : Hdr} (hl : len ≤ mem.length)
    (e : parseHdr mem len = .ok h) :
    4 ≤ len ∧ h.ver = 1 ∧ h.type < 4 ∧ h.tokenLen ≤ 8 ∧
    (h.codeClass = 0 ∨ h.codeClass = 2 ∨ h.codeClass = 4 ∨ h.codeClass = 5) ∧ h.codeDetail < 32 ∧
    h.msgId < 65536 ∧
    mem.take 4 = [UInt8.ofNat (64 * 1 + 16 * h.type + h.tokenLen), UInt8.ofNat (32 * h.codeClass + h.codeDetail),
         UInt8.ofNat (h.msgId / 256), UInt8.ofNat (h.msgId % 256)] := by
  unfold parseHdr at e
  split at e
  · simp at e
  rename_i h4
  rw [rd_ok (by omega), Out.bind_ok, hVer, hType, lo4] at e
  simp only at e
  split at e
  · simp at e
  rename_i hv
  split at e
  · simp at e
  rename_i ht
  rw [rd_ok (by omega), Out.bind_ok, hDetail, hClass] at e
  split at e
  · simp at e
  rename_i hc
  rw [rd_ok (by omega), Out.bind_ok, rd_ok (by omega), Out.bind_ok, shl8_or] at e
  simp only [Out.pure_eq, Out.ok.injEq] at e
  subst e
  match mem, hl with
  | [], hl => simp at hl; omega
  | [_], hl => simp at hl; omega
  | [_, _], hl => simp at hl; omega
  | [_, _, _], hl => simp at hl; omega
  | b0 :: b1 :: b2 :: b3 :: t, hl =>
    simp only [List.getElem_cons_zero, List.getElem_cons_succ] at hv ht hc ⊢
    have a0 := b0.toNat_lt
    have a1 := b1.toNat_lt
    have a2 := b2.toNat_lt
    have a3 := b3.toNat_lt
    refine ⟨by omega, by omega, by omega, by omega, by omega, by omega, by omega, ?_⟩
    simp only [List.take_succ_cons, List.take_zero]
    have f0 : 64 * 1 + 16 * (b0.toNat / 16 % 4) + b0.toNat % 16 = b0.toNat := by omega
    have f1 : 32 * (b1.toNat / 32) + b1.toNat % 32 = b1.toNat := by omega
    have f2 : (256 * b2.toNat + b3.toNat) / 256 = b2.toNat := by omega
    have f3 : (256 * b2.toNat + b3.toNat) % 256 = b3.toNat := by omega
    rw [f0, f1, f2, f3]
    simp

theorem parseHdr_complete {m : Msg} (hf : Fields m) (rest : Bytes) (len : Nat) (hl : 4 ≤ len) :
    parseHdr ([UInt8.ofNat (64 * 1 + 16 * m.type + m.token.length), UInt8.ofNat (32 * m.codeClass + m.codeDetail),
         UInt8.ofNat (m.msgId / 256), UInt8.ofNat (m.msgId % 256)] ++ rest) len =
      .ok ⟨m.ver, m.type, m.token.length, m.codeClass, m.codeDetail, m.msgId⟩ := by
  obtain ⟨h1, h2, h3, h4, h5, h6⟩ := hf
  have f0 : (UInt8.ofNat (64 * 1 + 16 * m.type + m.token.length)).toNat = 64 + 16 * m.type + m.token.length :=
    toNat_toByte _ (by omega)
  have f1 : (UInt8.ofNat (32 * m.codeClass + m.codeDetail)).toNat = 32 * m.codeClass + m.codeDetail :=
    toNat_toByte _ (by omega)
  have f2 : (UInt8.ofNat (m.msgId / 256)).toNat = m.msgId / 256 := toNat_toByte _ (by omega)
  have f3 : (UInt8.ofNat (m.msgId % 256)).toNat = m.msgId % 256 := toNat_toByte _ (by omega)
  unfold parseHdr
  rw [if_neg (by omega)]
  simp only [List.cons_append, List.nil_append, rd, List.getElem?_cons_zero, List.getElem?_cons_succ,
    Out.bind_ok, hVer, hType, lo4, hDetail, hClass, shl8_or, f0, f1, f2, f3]
  have g0 : (64 + 16 * m.type + m.token.length) / 64 = 1 := by omega
  have g1 : (64 + 16 * m.type + m.token.length) / 16 % 4 = m.type := by omega
  have g2 : (64 + 16 * m.type + m.token.length) % 16 = m.token.length := by omega
  have g3 : (32 * m.codeClass + m.codeDetail) % 32 = m.codeDetail := by omega
  have g4 : (32 * m.codeClass + m.codeDetail) / 32 = m.codeClass := by omega
  have g5 : 256 * (m.msgId / 256) + m.msgId % 256 = m.msgId := by omega
  rw [g0, g1, g2, g3, g4, g5, if_neg (by simp), if_neg (by omega), if_neg (by omega), h1]
  rfl

theorem parseToken_ne_ub {n : Nat} {mem : Bytes} {len : Nat} (hl : len ≤ mem.length) : parseToken n mem len ≠ .ub := by
  unfold parseToken
  split
  · simp
  · rw [rds_ok (by omega)]; simp

theorem parseToken_ok {n : Nat} {mem t : Bytes} {len : Nat} (hl : len ≤ mem.length)
    (h : parseToken n mem len = .ok t) : n ≤ len ∧ t = mem.take n := by
  unfold parseToken at h
  split at h
  · simp at h
  · rw [rds_ok (by omega)] at h
    simp only [Out.ok.injEq] at h
    exact ⟨by omega, h.symm⟩

theorem parseToken_append {n : Nat} {mem t : Bytes} {len : Nat} (hl : len ≤ mem.length) :
    parseToken n (mem ++ t) len = parseToken n mem len := by
  unfold parseToken
  split
  · rfl
  · rw [rds_append (by omega)]

theorem parse_ne_ub {sx : Bool} {mem : Bytes} {len : Nat} (hl : len < mem.length) : parse sx mem len ≠ .ub := by
  unfold parse
  cases e1 : parseHdr mem len with
  | err e => simp
  | ub => exact absurd e1 (parseHdr_ne_ub (by omega))
  | ok h =>
    have h4 := (parseHdr_sound (by omega) e1).1
    simp only [Out.bind_ok]
    cases e2 : parseToken h.tokenLen (mem.drop 4) (len - 4) with
    | err e => simp
    | ub => exact absurd e2 (parseToken_ne_ub (by simp; omega))
    | ok tok =>
      obtain ⟨ht, -⟩ := parseToken_ok (by simp; omega) e2
      simp only [Out.bind_ok]
      have b := parseOps_bounds (sx := sx) (len - 4 - h.tokenLen + 1) [] (mem.drop (4 + h.tokenLen))
        (len - 4 - h.tokenLen) (by simp; omega) (by omega)
      cases e3 : parseOps sx (len - 4 - h.tokenLen + 1) [] (mem.drop (4 + h.tokenLen)) (len - 4 - h.tokenLen) with
      | err e => simp
      | ub => exact absurd e3 b.1
      | ok r =>
        obtain ⟨ops, n⟩ := r
        have hn := b.2 _ _ e3
        simp only [Out.bind_ok]
        cases e4 : parsePayload (List.drop n (mem.drop (4 + h.tokenLen))) (len - 4 - h.tokenLen - n) with
        | err e => simp
        | ub => exact absurd e4 (parsePayload_bounds (by simp; omega))
        | ok pl =>
          simp only [Out.bind_ok]
          rcases check_cases ⟨h.ver, h.type, h.codeClass, h.codeDetail, h.msgId, tok, ops, pl⟩ with hc | hc <;>
            simp [hc]

theorem parse_append {sx : Bool} {mem t : Bytes} {len : Nat} (hl : len < mem.length) :
    parse sx (mem ++ t) len = parse sx mem len := by
  unfold parse
  rw [parseHdr_append (by omega)]
  cases e1 : parseHdr mem len with
  | err e => rfl
  | ub => rfl
  | ok h =>
    have h4 := (parseHdr_sound (by omega) e1).1
    simp only [Out.bind_ok]
    rw [drop_append_le (by omega), parseToken_append (by simp; omega)]
    cases e2 : parseToken h.tokenLen (mem.drop 4) (len - 4) with
    | err e => rfl
    | ub => rfl
    | ok tok =>
      obtain ⟨ht, -⟩ := parseToken_ok (by simp; omega) e2
      simp only [Out.bind_ok]
      rw [drop_append_le (by omega), parseOps_append _ _ _ _ _ (by simp; omega)]
      have b := parseOps_bounds (sx := sx) (len - 4 - h.tokenLen + 1) [] (mem.drop (4 + h.tokenLen))
        (len - 4 - h.tokenLen) (by simp; omega) (by omega)
      cases e3 : parseOps sx (len - 4 - h.tokenLen + 1) [] (mem.drop (4 + h.tokenLen)) (len - 4 - h.tokenLen) with
      | err e => rfl
      | ub => rfl
      | ok r =>
        obtain ⟨ops, n⟩ := r
        have hn := b.2 _ _ e3
        simp only [Out.bind_ok]
        rw [drop_append_le (by simp; omega), parsePayload_append (by simp; omega)]

theorem parse_sound {mem : Bytes} {len : Nat} {m : Msg} (hl : len ≤ mem.length)
    (hw : 21935 * len < 2 ^ 32) (h : parse false mem len = .ok m) : Encodes m (mem.take len) := by
  unfold parse at h
  rw [Out.bind_eq_ok] at h
  obtain ⟨hd, e1, h⟩ := h
  obtain ⟨h4, f1, f2, f3, f4, f5, f6, f7⟩ := parseHdr_sound hl e1
  rw [Out.bind_eq_ok] at h
  obtain ⟨tok, e2, h⟩ := h
  obtain ⟨g1, g2⟩ := parseToken_ok (by simp; omega) e2
  rw [Out.bind_eq_ok] at h
  obtain ⟨⟨ops, n⟩, e3, h⟩ := h
  obtain ⟨new, k1, k2, k3, -⟩ := parseOps_sound _ _ _ _ _ _ (by simp; omega) (by simp [lastNum]; omega) e3
  rw [Out.bind_eq_ok] at h
  obtain ⟨pl, e4, h⟩ := h
  have p1 := parsePayload_sound (by simp; omega) e4
  rw [Out.bind_eq_ok] at h
  obtain ⟨u, e5, h⟩ := h
  simp only [Out.pure_eq, Out.ok.injEq] at h
  subst h
  simp only [List.nil_append] at k1
  subst k1
  have ht : tok.length = hd.tokenLen := by rw [g2]; simp; omega
  refine ⟨⟨f1, f2, f4, f5, f6, by simp only; omega⟩, (check_ok_iff _).1 e5, _, _, k2, p1, ?_⟩
  simp only [ht]
  rw [← f7, g2]
  have e : len = 4 + (hd.tokenLen + (n + (len - 4 - hd.tokenLen - n))) := by omega
  conv => lhs; rw [e, List.take_add, List.take_add, List.take_add]
  simp only [List.drop_drop, List.append_assoc]

theorem parse_complete {sx : Bool} {m : Msg} {b : Bytes} (h : Encodes m b) (hs : SafeOps sx 0 m.ops)
    (hw : ∀ o ∈ m.ops, o.num < 2 ^ 32) (t : Bytes) (ht : t ≠ [] ∨ m.payload ≠ []) :
    parse sx (b ++ t) b.length = .ok m := by
  obtain ⟨hf, hsh, ob, pb, ho, hp, rfl⟩ := h
  unfold parse
  rw [List.append_assoc, List.append_assoc, List.append_assoc, parseHdr_complete hf _ _ (by simp)]
  simp only [Out.bind_ok]
  have hd1 : List.drop 4 ([UInt8.ofNat (64 * 1 + 16 * m.type + m.token.length), UInt8.ofNat (32 * m.codeClass + m.codeDetail),
         UInt8.ofNat (m.msgId / 256), UInt8.ofNat (m.msgId % 256)] ++ (m.token ++ (ob ++ (pb ++ t)))) =
      m.token ++ (ob ++ (pb ++ t)) := by simp
  have hd2 : List.drop (4 + m.token.length) ([UInt8.ofNat (64 * 1 + 16 * m.type + m.token.length), UInt8.ofNat (32 * m.codeClass + m.codeDetail),
         UInt8.ofNat (m.msgId / 256), UInt8.ofNat (m.msgId % 256)] ++ (m.token ++ (ob ++ (pb ++ t)))) =
      ob ++ (pb ++ t) := by rw [← List.drop_drop, hd1, List.drop_left]
  rw [hd1, hd2]
  have hlen : (([UInt8.ofNat (64 * 1 + 16 * m.type + m.token.length), UInt8.ofNat (32 * m.codeClass + m.codeDetail),
         UInt8.ofNat (m.msgId / 256), UInt8.ofNat (m.msgId % 256)] ++ (m.token ++ (ob ++ pb))).length) =
      4 + m.token.length + ob.length + pb.length := by simp; omega
  simp only [List.append_assoc] at hlen ⊢
  rw [hlen]
  have e2 : parseToken m.token.length (m.token ++ (ob ++ (pb ++ t))) (4 + m.token.length + ob.length + pb.length - 4)
      = .ok m.token := by
    unfold parseToken
    rw [if_neg (by omega), rds_ok (by simp)]
    simp
  rw [e2, Out.bind_ok]
  have e : 4 + m.token.length + ob.length + pb.length - 4 - m.token.length = ob.length + pb.length := by omega
  rw [e]
  have hne : pb ++ t ≠ [] := by
    revert hp ht
    generalize m.payload = pl
    intro ht hp
    cases hp with
    | none => simpa using ht
    | some => simp
  have hend : OptsEnd pb := by
    revert hp
    generalize m.payload = pl
    intro hp
    cases hp with
    | none => trivial
    | some => rfl
  have e3 := parseOps_complete (sx := sx) ho (ob.length + pb.length + 1) [] pb t rfl (by omega) hs hw hend hne
  rw [List.append_assoc] at e3
  rw [e3, Out.bind_ok]
  simp only
  rw [List.drop_left, Nat.add_sub_cancel_left, parsePayload_complete hp, Out.bind_ok]
  simp only [List.nil_append]
  have : check ⟨m.ver, m.type, m.codeClass, m.codeDetail, m.msgId, m.token, m.ops, m.payload⟩ = .ok () :=
    (check_ok_iff _).2 hsh
  rw [this]
  rfl

end FreeCoAP.Msg
