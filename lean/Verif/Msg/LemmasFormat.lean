import Verif.Msg.LemmasParse

/-! # Lemmas on `format` -/

namespace FreeCoAP.Msg

theorem wrs_ok {buf bs : Bytes} {p : Nat} (h : p + bs.length ≤ buf.length) :
    wrs buf p bs = .ok (buf.take p ++ bs ++ buf.drop (p + bs.length)) := by simp [wrs, h]

theorem wrs_eq_ok {buf bs b' : Bytes} {p : Nat} :
    wrs buf p bs = .ok b' ↔ p + bs.length ≤ buf.length ∧ b' = buf.take p ++ bs ++ buf.drop (p + bs.length) := by
  unfold wrs
  split
  · rename_i h; simp [h, eq_comm]
  · rename_i h; simp [h]

theorem wrs_nil {buf : Bytes} {p : Nat} (h : p ≤ buf.length) : wrs buf p [] = .ok buf := by
  simp [wrs, h]

theorem wrs_length {buf bs b' : Bytes} {p : Nat} (h : wrs buf p bs = .ok b') : b'.length = buf.length := by
  obtain ⟨h1, rfl⟩ := wrs_eq_ok.1 h
  simp; omega

theorem wrs_wrs (buf a b : Bytes) (p : Nat) :
    (wrs buf p a >>= fun buf' => wrs buf' (p + a.length) b) = wrs buf p (a ++ b) := by
  by_cases h : p + (a ++ b).length ≤ buf.length
  · have h' := h
    rw [List.length_append] at h'
    rw [wrs_ok h, wrs_ok (by omega), Out.bind_ok, wrs_ok (by simp; omega)]
    congr 1
    have hl : (buf.take p ++ a).length = p + a.length := by simp; omega
    rw [List.take_append_of_le_length (by omega), List.take_of_length_le (by omega)]
    rw [← hl, List.drop_append]
    simp only [List.length_append, List.length_take, List.drop_drop, List.append_assoc]
    congr 3
    rw [List.drop_of_length_le (by simp)]
    simp
    congr 1
    omega
  · simp only [List.length_append] at h
    have h2 : wrs buf p (a ++ b) = .ub := by unfold wrs; rw [if_neg (by simp; omega)]
    rw [h2]
    cases e : wrs buf p a with
    | ub => simp only [Out.bind_ub]
    | err e' => simp [wrs] at e; split at e <;> simp at e
    | ok b' =>
      have := wrs_length e
      simp only [Out.bind_ok]
      unfold wrs
      rw [if_neg (by omega)]

/-- The bytes of one option. -/
def encOp (delta : Nat) (op : Op) : Bytes :=
  (toByte (nibble delta <<< 4) ||| toByte (nibble op.len)) :: (extBytes delta ++ extBytes op.len ++ op.val)


theorem formatOp_eq (op : Op) (prev : Nat) (buf : Bytes) (p len : Nat) :
    formatOp op prev buf p len =
      if opCheck op (deltaOf op prev) > len then .err .ENOSPC
      else (wrs buf p (encOp (deltaOf op prev) op) >>= fun b => .ok (b, (encOp (deltaOf op prev) op).length)) := by
  unfold formatOp
  simp only
  generalize deltaOf op prev = d
  split
  · rfl
  · rename_i hc
    clear hc
    unfold encOp
    generalize toByte (nibble d <<< 4) ||| toByte (nibble op.len) = b0
    generalize extBytes d = xd
    generalize extBytes op.len = xl
    have e : b0 :: (xd ++ xl ++ op.val) = [b0] ++ (xd ++ (xl ++ op.val)) := by simp
    rw [e, ← wrs_wrs]
    cases wrs buf p [b0] with
    | ub => rw [Out.bind_ub, Out.bind_ub, Out.bind_ub]
    | err e => rw [Out.bind_err, Out.bind_err, Out.bind_err]
    | ok b1 =>
      rw [Out.bind_ok, Out.bind_ok, List.length_singleton, ← wrs_wrs b1 xd (xl ++ op.val) (p + 1)]
      cases wrs b1 (p + 1) xd with
      | ub => rw [Out.bind_ub, Out.bind_ub, Out.bind_ub]
      | err e => rw [Out.bind_err, Out.bind_err, Out.bind_err]
      | ok b2 =>
        rw [Out.bind_ok, Out.bind_ok, ← wrs_wrs b2 xl op.val (p + 1 + xd.length)]
        cases wrs b2 (p + 1 + xd.length) xl with
        | ub => rw [Out.bind_ub, Out.bind_ub, Out.bind_ub]
        | err e => rw [Out.bind_err, Out.bind_err, Out.bind_err]
        | ok b3 =>
          rw [Out.bind_ok, Out.bind_ok]
          cases wrs b3 (p + 1 + xd.length + xl.length) op.val with
          | ub => rw [Out.bind_ub, Out.bind_ub]
          | err e => rw [Out.bind_err, Out.bind_err]
          | ok b4 =>
            rw [Out.bind_ok, Out.bind_ok, Out.pure_eq]
            have : p + 1 + xd.length + xl.length + op.len - p = ([b0] ++ (xd ++ (xl ++ op.val))).length := by
              simp only [List.length_append, List.length_singleton, Op.len]
              omega
            rw [this]

/-- The bytes of the options. -/
def encOps : Nat → List Op → Bytes
  | _, [] => []
  | prev, o :: os => encOp (deltaOf o prev) o ++ encOps o.num os

theorem extBytes_length (x : Nat) : (extBytes x).length = extSize x := by
  unfold extBytes extSize be16
  split
  · rw [if_neg (by omega), if_neg (by omega)]; rfl
  · split
    · rw [if_neg (by omega), if_pos (by omega)]; rfl
    · rw [if_pos (by omega)]; rfl

theorem encOp_length (d : Nat) (op : Op) : (encOp d op).length = 1 + extSize d + extSize op.len + op.len := by
  simp only [encOp, List.length_cons, List.length_append, extBytes_length, Op.len]; omega

theorem formatOps_ok : ∀ (ops : List Op) (prev : Nat) (buf : Bytes) (p len : Nat) (b' : Bytes) (k : Nat),
    p ≤ buf.length → formatOps ops prev buf p len = .ok (b', k) →
    wrs buf p (encOps prev ops) = .ok b' ∧ k = (encOps prev ops).length
  | [], prev, buf, p, len, b', k, hp, h => by
    simp only [formatOps, Out.pure_eq, Out.ok.injEq, Prod.mk.injEq] at h
    obtain ⟨rfl, rfl⟩ := h
    exact ⟨by rw [encOps, wrs_nil hp], rfl⟩
  | op :: rest, prev, buf, p, len, b', k, hp, h => by
    unfold formatOps at h
    rw [formatOp_eq] at h
    split at h
    · simp at h
    · cases e : wrs buf p (encOp (deltaOf op prev) op) with
      | ub => rw [e] at h; simp at h
      | err e' => rw [e] at h; simp at h
      | ok b1 =>
        rw [e] at h
        simp only [Out.bind_ok] at h
        rw [Out.bind_eq_ok] at h
        obtain ⟨⟨b2, k2⟩, h1, h2⟩ := h
        simp only [Out.pure_eq, Out.ok.injEq, Prod.mk.injEq] at h2
        obtain ⟨rfl, rfl⟩ := h2
        have hp1 : p + (encOp (deltaOf op prev) op).length ≤ b1.length := by
          rw [wrs_length e]; exact (wrs_eq_ok.1 e).1
        obtain ⟨i1, i2⟩ := formatOps_ok rest op.num b1 _ _ b2 k2 hp1 h1
        refine ⟨?_, by rw [encOps, List.length_append, i2]⟩
        rw [encOps, ← wrs_wrs, e, Out.bind_ok, i1]

theorem opCheck_eq {op : Op} {d : Nat} (hl : op.val.length + 5 < 2 ^ 32) : opCheck op d =
    1 + extSize d + (if op.val.length ≥ 269 then 2 else if op.num ≥ 13 then 1 else 0) + op.val.length := by
  have e : (if d ≥ 269 then 2 else if d ≥ 13 then 1 else 0) = extSize d := by
    unfold extSize
    by_cases h1 : d ≥ 269
    · rw [if_pos h1, if_neg (by omega), if_neg (by omega)]
    · by_cases h2 : d ≥ 13
      · rw [if_neg h1, if_pos h2, if_neg (by omega), if_pos (by omega)]
      · rw [if_neg h1, if_neg h2, if_pos (by omega)]
  have h2 : extSize d ≤ 2 := by unfold extSize; split <;> (try split) <;> omega
  unfold opCheck Op.len
  rw [e]
  apply Nat.mod_eq_of_lt
  generalize extSize d = x at h2
  split
  · omega
  · split <;> omega

theorem opCheck_ge {op : Op} {d : Nat} (h : op.num < 13 → op.val.length < 13 ∨ 269 ≤ op.val.length)
    (hl : op.val.length + 5 < 2 ^ 32) : (encOp d op).length ≤ opCheck op d := by
  rw [encOp_length, opCheck_eq hl]
  generalize extSize d = x
  unfold extSize Op.len
  by_cases h1 : op.val.length ≥ 269
  · rw [if_pos h1, if_neg (by omega), if_neg (by omega)]; omega
  · rw [if_neg h1]
    by_cases h2 : op.num ≥ 13
    · rw [if_pos h2]; split
      · omega
      · split <;> omega
    · rw [if_neg h2, if_pos (by omega)]; omega

theorem opCheck_le {op : Op} {d : Nat} (h : 13 ≤ op.num → 13 ≤ op.val.length)
    (hl : op.val.length + 5 < 2 ^ 32) : opCheck op d ≤ (encOp d op).length := by
  rw [encOp_length, opCheck_eq hl]
  generalize extSize d = x
  unfold extSize Op.len
  by_cases h1 : op.val.length ≥ 269
  · rw [if_pos h1, if_neg (by omega), if_neg (by omega)]; omega
  · rw [if_neg h1]
    by_cases h2 : op.num ≥ 13
    · rw [if_pos h2, if_neg (by omega), if_pos (by omega)]; omega
    · rw [if_neg h2]; omega

theorem subW_le {a b : Nat} (h : b ≤ a) (ha : a < 2 ^ 64) : subW a b = a - b := by
  unfold subW
  omega

theorem formatOps_inside : ∀ (ops : List Op) (prev : Nat) (buf : Bytes) (p len : Nat),
    NoUnder ops → (∀ o ∈ ops, o.val.length + 5 < 2 ^ 32) → p + len ≤ buf.length → len < 2 ^ 64 →
    formatOps ops prev buf p len = .err .ENOSPC ∨
    ∃ b', formatOps ops prev buf p len = .ok (b', (encOps prev ops).length) ∧ (encOps prev ops).length ≤ len ∧
      wrs buf p (encOps prev ops) = .ok b'
  | [], prev, buf, p, len, _, _, hp, _ => by
    right
    exact ⟨buf, rfl, by simp [encOps], by rw [encOps, wrs_nil (by omega)]⟩
  | op :: rest, prev, buf, p, len, hn, hl, hp, hw => by
    unfold formatOps
    rw [formatOp_eq]
    by_cases hc : opCheck op (deltaOf op prev) > len
    · rw [if_pos hc]; left; rfl
    · rw [if_neg hc]
      have hge := opCheck_ge (d := deltaOf op prev) (hn op (by simp)) (hl op (by simp))
      have e := wrs_ok (buf := buf) (bs := encOp (deltaOf op prev) op) (p := p) (by omega)
      have hle := wrs_length e
      rw [e]
      simp only [Out.bind_ok]
      rw [subW_le (by omega) hw]
      rcases formatOps_inside rest op.num _ (p + (encOp (deltaOf op prev) op).length)
        (len - (encOp (deltaOf op prev) op).length) (fun o ho => hn o (by simp [ho]))
        (fun o ho => hl o (by simp [ho])) (by rw [hle]; omega) (by omega) with h | ⟨b', h1, h2, h3⟩
      · left; rw [h]; rfl
      · right
        refine ⟨b', ?_, ?_, ?_⟩
        · rw [h1]; simp [encOps]
        · rw [encOps, List.length_append]; omega
        · rw [encOps, ← wrs_wrs, e, Out.bind_ok, h3]

theorem formatOps_fits : ∀ (ops : List Op) (prev : Nat) (buf : Bytes) (p len : Nat),
    NoUnder ops → NoOver ops → (∀ o ∈ ops, o.val.length + 5 < 2 ^ 32) → p + len ≤ buf.length → len < 2 ^ 64 →
    (encOps prev ops).length ≤ len → formatOps ops prev buf p len ≠ .err .ENOSPC
  | [], prev, buf, p, len, _, _, _, _, _, _ => by simp [formatOps]
  | op :: rest, prev, buf, p, len, hn, ho, hl, hp, hw, hs => by
    unfold formatOps
    rw [formatOp_eq]
    have hle := opCheck_le (d := deltaOf op prev) (ho op (by simp)) (hl op (by simp))
    rw [encOps, List.length_append] at hs
    rw [if_neg (by omega)]
    have e := wrs_ok (buf := buf) (bs := encOp (deltaOf op prev) op) (p := p) (by omega)
    have hle := wrs_length e
    rw [e]
    simp only [Out.bind_ok]
    rw [subW_le (by omega) hw]
    have ih := formatOps_fits rest op.num _ (p + (encOp (deltaOf op prev) op).length)
        (len - (encOp (deltaOf op prev) op).length) (fun o h => hn o (by simp [h])) (fun o h => ho o (by simp [h]))
        (fun o h => hl o (by simp [h])) (by rw [hle]; omega) (by omega) (by omega)
    intro h
    apply ih
    revert h
    generalize formatOps rest op.num _ _ _ = x
    cases x <;> simp

theorem opCheck_le_succ {op : Op} {d : Nat} (hl : op.val.length + 5 < 2 ^ 32) :
    opCheck op d ≤ (encOp d op).length + 1 := by
  rw [encOp_length, opCheck_eq hl]
  generalize extSize d = x
  unfold extSize Op.len
  by_cases h1 : op.val.length ≥ 269
  · rw [if_pos h1, if_neg (by omega), if_neg (by omega)]; omega
  · rw [if_neg h1]
    by_cases h2 : op.num ≥ 13
    · rw [if_pos h2]; omega
    · rw [if_neg h2]; omega

/-- With one spare byte per option the size test never refuses and never lets a
write out of the buffer. -/
theorem formatOps_room : ∀ (ops : List Op) (prev : Nat) (buf : Bytes) (p len : Nat),
    (∀ o ∈ ops, o.val.length + 5 < 2 ^ 32) → p + len ≤ buf.length → len < 2 ^ 64 →
    (encOps prev ops).length + ops.length ≤ len →
    ∃ b', formatOps ops prev buf p len = .ok (b', (encOps prev ops).length)
  | [], prev, buf, p, len, _, _, _, _ => ⟨buf, rfl⟩
  | op :: rest, prev, buf, p, len, hl, hp, hw, hs => by
    unfold formatOps
    rw [formatOp_eq]
    have hle := opCheck_le_succ (d := deltaOf op prev) (hl op (by simp))
    rw [encOps, List.length_append, List.length_cons] at hs
    rw [if_neg (by omega)]
    have e := wrs_ok (buf := buf) (bs := encOp (deltaOf op prev) op) (p := p) (by omega)
    have hle := wrs_length e
    rw [e, Out.bind_ok, Out.bind_ok]
    simp only
    rw [subW_le (by omega) hw]
    obtain ⟨b', h⟩ := formatOps_room rest op.num _ (p + (encOp (deltaOf op prev) op).length)
        (len - (encOp (deltaOf op prev) op).length)
        (fun o h => hl o (by simp [h])) (by rw [hle]; omega) (by omega) (by omega)
    refine ⟨b', ?_⟩
    rw [h, Out.bind_ok, encOps, List.length_append]
    rfl

/-! ## Agreement of the written bytes with the grammar -/

theorem ext_word {x : Nat} (h1 : x ≥ 269) (h : x < 65805) : Ext x 14 (be16 (x - 269)) := by
  rw [be16_eq _ (by omega)]
  have h2 := Ext.word (UInt8.ofNat ((x - 269) / 256)) (UInt8.ofNat ((x - 269) % 256))
  have f1 : (UInt8.ofNat ((x - 269) / 256)).toNat = (x - 269) / 256 := toNat_toByte _ (by omega)
  have f2 : (UInt8.ofNat ((x - 269) % 256)).toNat = (x - 269) % 256 := toNat_toByte _ (by omega)
  rw [f1, f2] at h2
  have : 269 + 256 * ((x - 269) / 256) + (x - 269) % 256 = x := by omega
  rwa [this] at h2

theorem ext_byte {x : Nat} (h1 : x ≥ 13) (h : x < 269) : Ext x 13 [toByte (x - 13)] := by
  have h2 := Ext.byte (toByte (x - 13))
  rw [toNat_toByte _ (by omega)] at h2
  have : 13 + (x - 13) = x := by omega
  rwa [this] at h2

theorem ext_ext {x : Nat} (h : x < 65805) : Ext x (nibble x) (extBytes x) := by
  by_cases h1 : x ≥ 269
  · simp only [nibble, extBytes, h1, if_true]
    exact ext_word h1 h
  · by_cases h3 : x ≥ 13
    · simp only [nibble, extBytes, h1, h3, if_true, if_false]
      exact ext_byte h3 (by omega)
    · simp only [nibble, extBytes, h1, h3, if_false]
      exact Ext.small x (by omega)

theorem Ext.unique {x n : Nat} {bs : Bytes} (h : Ext x n bs) : n = nibble x ∧ bs = extBytes x := by
  cases h with
  | small n hn => unfold nibble extBytes; rw [if_neg (by omega), if_neg (by omega), if_neg (by omega), if_neg (by omega)]; simp
  | byte b =>
    have := b.toNat_lt
    unfold nibble extBytes
    rw [if_neg (by omega), if_pos (by omega), if_neg (by omega), if_pos (by omega)]
    simp
  | word a b =>
    have := a.toNat_lt
    have := b.toNat_lt
    unfold nibble extBytes
    rw [if_pos (by omega), if_pos (by omega), be16_eq _ (by omega)]
    have e1 : (269 + 256 * a.toNat + b.toNat - 269) / 256 = a.toNat := by omega
    have e2 : (269 + 256 * a.toNat + b.toNat - 269) % 256 = b.toNat := by omega
    rw [e1, e2]
    simp

theorem nibble_lt {x : Nat} : nibble x < 15 := by
  unfold nibble; split
  · omega
  · split <;> omega

theorem encOps_options : ∀ (ops : List Op) (prev : Nat), OptsOK prev ops → (∀ o ∈ ops, o.num < 2 ^ 32) →
    Options prev ops (encOps prev ops)
  | [], prev, _, _ => Options.nil prev
  | o :: os, prev, h, hw => by
    obtain ⟨h1, h2, h3, h4⟩ := h
    have hn := hw o (by simp)
    have hd : deltaOf o prev = o.num - prev := by unfold deltaOf; omega
    have ho : o = ⟨prev + (o.num - prev), o.val⟩ := by
      have : prev + (o.num - prev) = o.num := by omega
      rw [this]
    have ih := encOps_options os o.num h4 (fun x hx => hw x (by simp [hx]))
    have e : encOps prev (o :: os) = UInt8.ofNat (16 * nibble (o.num - prev) + nibble o.val.length) ::
        (extBytes (o.num - prev) ++ extBytes o.val.length ++ o.val ++ encOps o.num os) := by
      have hn1 := nibble_lt (x := o.num - prev)
      have hn2 := nibble_lt (x := o.val.length)
      rw [encOps, encOp, hd, Op.len, nib_or _ (by omega) _ (by omega)]
      simp
    rw [e]
    have heq : prev + (o.num - prev) = o.num := by omega
    rw [← heq] at ih
    have := Options.cons (ext_ext (x := o.num - prev) h2) (ext_ext (x := o.val.length) h3) ih
    rw [heq] at this
    exact this

theorem Options.eq_encOps {prev : Nat} {ops : List Op} {bs : Bytes} (h : Options prev ops bs)
    (hw : ∀ o ∈ ops, o.num < 2 ^ 32) : bs = encOps prev ops ∧ OptsOK prev ops := by
  induction h with
  | nil => exact ⟨rfl, trivial⟩
  | cons hd hl ht ih =>
    rename_i prev delta dn ln db lb val rest ops
    obtain ⟨i1, i2⟩ := ih (fun o ho => hw o (by simp [ho]))
    have hn := hw ⟨prev + delta, val⟩ (by simp)
    simp only at hn
    obtain ⟨rfl, rfl⟩ := hd.unique
    obtain ⟨rfl, rfl⟩ := hl.unique
    have hdel : deltaOf ⟨prev + delta, val⟩ prev = delta := by unfold deltaOf; simp only; omega
    have hn1 := nibble_lt (x := delta)
    have hn2 := nibble_lt (x := val.length)
    refine ⟨?_, by simp only; omega, by have := hd.le.2.2; simp only; omega, hl.le.2.2, i2⟩
    rw [encOps, encOp, hdel, Op.len]
    simp only
    rw [nib_or _ (by omega) _ (by omega), i1]
    simp

theorem encOps_length : ∀ (ops : List Op) (prev : Nat), OptsOK prev ops → (∀ o ∈ ops, o.num < 2 ^ 32) →
    (encOps prev ops).length = optsSize prev ops
  | [], _, _, _ => rfl
  | o :: os, prev, h, hw => by
    obtain ⟨h1, h2, h3, h4⟩ := h
    have hn := hw o (by simp)
    have hd : deltaOf o prev = o.num - prev := by unfold deltaOf; omega
    rw [encOps, List.length_append, encOp_length, hd, encOps_length os o.num h4 (fun x hx => hw x (by simp [hx]))]
    rfl

/-- The bytes of the header. -/
def encHdr (m : Msg) : Bytes :=
  [toByte ((1 <<< 6) ||| ((m.type &&& 0x03) <<< 4) ||| (m.token.length &&& 0x0f)),
   toByte (((m.codeClass &&& 0x07) <<< 5) ||| (m.codeDetail &&& 0x1f))] ++ be16 m.msgId

/-- The bytes of the payload. -/
def encPayload (m : Msg) : Bytes := if m.payload.length = 0 then [] else 0xff :: m.payload

/-- The bytes of the message. -/
def enc (m : Msg) : Bytes := encHdr m ++ m.token ++ encOps 0 m.ops ++ encPayload m

theorem encHdr_length (m : Msg) : (encHdr m).length = 4 := rfl

theorem formatHdr_eq (m : Msg) (buf : Bytes) (p len : Nat) : formatHdr m buf p len =
    if len < 4 then .err .ENOSPC else (wrs buf p (encHdr m) >>= fun b => .ok (b, 4)) := by
  unfold formatHdr encHdr
  generalize toByte ((1 <<< 6) ||| ((m.type &&& 0x03) <<< 4) ||| (m.token.length &&& 0x0f)) = x
  generalize toByte (((m.codeClass &&& 0x07) <<< 5) ||| (m.codeDetail &&& 0x1f)) = y
  generalize be16 m.msgId = z
  split
  · rfl
  · have e : [x, y] ++ z = [x] ++ ([y] ++ z) := by simp
    rw [e, ← wrs_wrs]
    cases wrs buf p [x] with
    | ub => rw [Out.bind_ub, Out.bind_ub, Out.bind_ub]
    | err e => rw [Out.bind_err, Out.bind_err, Out.bind_err]
    | ok b1 =>
      rw [Out.bind_ok, Out.bind_ok, List.length_singleton, ← wrs_wrs b1 [y] z (p + 1)]
      cases wrs b1 (p + 1) [y] with
      | ub => rw [Out.bind_ub, Out.bind_ub, Out.bind_ub]
      | err e => rw [Out.bind_err, Out.bind_err, Out.bind_err]
      | ok b2 =>
        rw [Out.bind_ok, Out.bind_ok, List.length_singleton]
        rfl

theorem formatPayload_eq (m : Msg) (buf : Bytes) (p len : Nat) (hp : p ≤ buf.length) : formatPayload m buf p len =
    if m.payload.length ≠ 0 ∧ m.payload.length + 1 > len then .err .ENOSPC
    else (wrs buf p (encPayload m) >>= fun b => .ok (b, (encPayload m).length)) := by
  unfold formatPayload encPayload
  generalize m.payload = pl
  split
  · rename_i h
    rw [if_neg (by omega), wrs_nil hp]; rfl
  · split
    · rename_i h; rw [if_pos (by omega)]
    · rename_i h
      rw [if_neg (by omega)]
      have e : (0xff :: pl : Bytes) = [0xff] ++ pl := rfl
      rw [e, ← wrs_wrs]
      cases wrs buf p [0xff] with
      | ub => rw [Out.bind_ub, Out.bind_ub, Out.bind_ub]
      | err e => rw [Out.bind_err, Out.bind_err, Out.bind_err]
      | ok b1 =>
        rw [Out.bind_ok, Out.bind_ok, List.length_singleton]
        have : ([0xff] ++ pl : Bytes).length = pl.length + 1 := by simp
        rw [this]
        rfl

theorem formatHdr_ok {m : Msg} {buf b' : Bytes} {p len n : Nat} (h : formatHdr m buf p len = .ok (b', n)) :
    n = 4 ∧ 4 ≤ len ∧ wrs buf p (encHdr m) = .ok b' := by
  rw [formatHdr_eq] at h
  split at h
  · cases h
  · rw [Out.bind_eq_ok] at h
    obtain ⟨b1, e1, h⟩ := h
    cases h
    exact ⟨rfl, by omega, e1⟩

theorem formatToken_ok {m : Msg} {buf b' : Bytes} {p len n : Nat} (h : formatToken m buf p len = .ok (b', n)) :
    n = m.token.length ∧ m.token.length ≤ len ∧ wrs buf p m.token = .ok b' := by
  unfold formatToken at h
  split at h
  · cases h
  · rw [Out.bind_eq_ok] at h
    obtain ⟨b1, e1, h⟩ := h
    cases h
    exact ⟨rfl, by omega, e1⟩

theorem formatPayload_ok {m : Msg} {buf b' : Bytes} {p len n : Nat} (hp : p ≤ buf.length)
    (h : formatPayload m buf p len = .ok (b', n)) :
    n = (encPayload m).length ∧ wrs buf p (encPayload m) = .ok b' := by
  rw [formatPayload_eq _ _ _ _ hp] at h
  split at h
  · cases h
  · rw [Out.bind_eq_ok] at h
    obtain ⟨b1, e1, h⟩ := h
    simp only [Out.ok.injEq, Prod.mk.injEq] at h
    obtain ⟨rfl, rfl⟩ := h
    exact ⟨rfl, e1⟩

theorem format_ok {m : Msg} {buf b' : Bytes} {len n : Nat} (h : format m buf len = .ok (b', n)) :
    Shape m ∧ n = (enc m).length ∧ wrs buf 0 (enc m) = .ok b' := by
  unfold format at h
  rw [Out.bind_eq_ok] at h
  obtain ⟨u, e0, h⟩ := h
  refine ⟨(check_ok_iff m).1 e0, ?_⟩
  rw [Out.bind_eq_ok] at h
  obtain ⟨⟨b1, n1⟩, e1, h⟩ := h
  obtain ⟨rfl, -, e1⟩ := formatHdr_ok e1
  simp only at h
  rw [Out.bind_eq_ok] at h
  obtain ⟨⟨b2, n2⟩, e2, h⟩ := h
  obtain ⟨rfl, -, e2⟩ := formatToken_ok e2
  simp only at h
  rw [Out.bind_eq_ok] at h
  obtain ⟨⟨b3, n3⟩, e3, h⟩ := h
  have l1 := wrs_length e1
  have l2 := wrs_length e2
  obtain ⟨w3, rfl⟩ := formatOps_ok _ _ _ _ _ _ _ (by have := (wrs_eq_ok.1 e2).1; omega) e3
  have l3 := wrs_length w3
  simp only at h
  rw [Out.bind_eq_ok] at h
  obtain ⟨⟨b4, n4⟩, e4, h⟩ := h
  obtain ⟨rfl, w4⟩ := formatPayload_ok (by have := (wrs_eq_ok.1 w3).1; omega) e4
  simp only [Out.pure_eq, Out.ok.injEq, Prod.mk.injEq] at h
  obtain ⟨rfl, rfl⟩ := h
  refine ⟨by simp only [enc, List.length_append, encHdr_length], ?_⟩
  have : enc m = encHdr m ++ (m.token ++ (encOps 0 m.ops ++ encPayload m)) := by simp only [enc, List.append_assoc]
  rw [this, ← wrs_wrs, e1, Out.bind_ok, encHdr_length, Nat.zero_add, ← wrs_wrs, e2, Out.bind_ok,
          ← wrs_wrs, w3, Out.bind_ok, w4]

theorem enc_encodes {m : Msg} (h : WF m) (hw : ∀ o ∈ m.ops, o.num < 2 ^ 32) : Encodes m (enc m) := by
  refine ⟨h.fields, h.shape, encOps 0 m.ops, encPayload m, encOps_options _ _ h.opts hw, ?_, ?_⟩
  · unfold encPayload
    split
    · rename_i h0
      rw [List.length_eq_zero_iff.1 h0]
      exact Payload.none
    · rename_i h0
      exact Payload.some _ (fun e => h0 (by rw [e]; rfl))
  · have hf := h.fields
    have := hf.token
    have hc : m.codeClass < 8 := by have := hf.cls; omega
    unfold enc encHdr
    rw [hdr0_or _ hf.type _ (by omega), hdr1_or _ hc _ hf.detail, be16_eq _ hf.msgId]
    rfl

theorem encodes_eq_enc {m : Msg} {b : Bytes} (h : Encodes m b) (hw : ∀ o ∈ m.ops, o.num < 2 ^ 32) :
    b = enc m ∧ WF m := by
  obtain ⟨hf, hs, ob, pb, ho, hp, rfl⟩ := h
  obtain ⟨rfl, h2⟩ := ho.eq_encOps hw
  have hwf : WF m := ⟨hf, hs, h2⟩
  refine ⟨?_, hwf⟩
  obtain ⟨-, -, ob', pb', ho', hp', e⟩ := enc_encodes hwf hw
  have e1 := (ho'.eq_encOps hw).1
  have e2 : pb = pb' := by
    revert hp hp'
    generalize m.payload = pl
    intro hp hp'
    cases hp with
    | none => cases hp' with
      | none => rfl
      | some _ h => exact absurd rfl h
    | some _ h => cases hp' with
      | none => exact absurd rfl h
      | some _ h => rfl
  rw [e, e1, e2]

theorem enc_length {m : Msg} (h : WF m) (hw : ∀ o ∈ m.ops, o.num < 2 ^ 32) : (enc m).length = size m := by
  unfold enc size encPayload
  simp only [List.length_append, encHdr_length, encOps_length _ _ h.opts hw]
  by_cases h0 : m.payload = []
  · simp [h0]
  · rw [if_neg (by rw [List.length_eq_zero_iff]; exact h0), if_neg h0]
    simp; omega

theorem encPayload_length_le {m : Msg} : (encPayload m).length ≤ m.payload.length + 1 := by
  unfold encPayload; split <;> simp

theorem format_split {m : Msg} {buf : Bytes} {len : Nat} (hl : len ≤ buf.length) (hw : len < 2 ^ 64)
    (hs : Shape m) : format m buf len =
      if len < 4 + m.token.length then .err .ENOSPC
      else (wrs buf 0 (encHdr m ++ m.token) >>= fun b =>
        formatOps m.ops 0 b (4 + m.token.length) (len - 4 - m.token.length) >>= fun r =>
        formatPayload m r.1 (4 + m.token.length + r.2) (subW (len - 4 - m.token.length) r.2) >>= fun s =>
        .ok (s.1, 4 + m.token.length + r.2 + s.2)) := by
  unfold format
  rw [(check_ok_iff m).2 hs, Out.bind_ok, formatHdr_eq]
  by_cases h4 : len < 4
  · rw [if_pos h4, if_pos (by omega)]; rfl
  · rw [if_neg h4]
    have e1 := wrs_ok (buf := buf) (bs := encHdr m) (p := 0) (by rw [encHdr_length]; omega)
    have l1 := wrs_length e1
    rw [← wrs_wrs, e1, Out.bind_ok, Out.bind_ok, Out.bind_ok, encHdr_length]
    generalize buf.take 0 ++ encHdr m ++ buf.drop (0 + 4) = b1
    change (formatToken m b1 4 (subW len 4) >>= _) = _
    rw [subW_le (by omega) hw, Nat.zero_add]
    unfold formatToken
    by_cases ht : len - 4 < m.token.length
    · rw [if_pos ht, if_pos (by omega)]; rfl
    · rw [if_neg ht, if_neg (by omega)]
      cases wrs b1 4 m.token with
      | ub => rfl
      | err e => rfl
      | ok b2 =>
        rw [Out.bind_ok, Out.bind_ok, Out.pure_eq, Out.bind_ok]
        change (formatOps m.ops 0 b2 (4 + m.token.length) (subW (len - 4) m.token.length) >>= _) = _
        rw [subW_le (by omega) (by omega)]
        rfl

theorem format_inside {m : Msg} {buf : Bytes} {len : Nat} (hl : len ≤ buf.length) (hw : len < 2 ^ 64)
    (hs : Shape m) (hn : NoUnder m.ops) (ho : ∀ o ∈ m.ops, o.val.length + 5 < 2 ^ 32) :
    format m buf len = .err .ENOSPC ∨
    ∃ b', format m buf len = .ok (b', (enc m).length) ∧ (enc m).length ≤ len := by
  rw [format_split hl hw hs]
  split
  · left; rfl
  rename_i h4
  have e1 := wrs_ok (buf := buf) (bs := encHdr m ++ m.token) (p := 0) (by rw [List.length_append, encHdr_length]; omega)
  have l1 := wrs_length e1
  rw [e1, Out.bind_ok]
  rcases formatOps_inside m.ops 0 (buf.take 0 ++ (encHdr m ++ m.token) ++ buf.drop (0 + (encHdr m ++ m.token).length))
    (4 + m.token.length) (len - 4 - m.token.length) hn ho (by rw [l1]; omega) (by omega) with h | ⟨b', h1, h2, h3⟩
  · left; rw [h]; rfl
  · rw [h1, Out.bind_ok]
    have l3 := wrs_length h3
    rw [l1] at l3
    simp only
    rw [subW_le h2 (by omega), formatPayload_eq _ _ _ _ (by omega)]
    split
    · left; rfl
    · rename_i hp
      have hlen : (enc m).length = 4 + m.token.length + (encOps 0 m.ops).length + (encPayload m).length := by
        simp only [enc, List.length_append, encHdr_length]
      have hpl : (encPayload m).length ≤ len - 4 - m.token.length - (encOps 0 m.ops).length := by
        unfold encPayload
        split
        · simp
        · simp; omega
      right
      have e4 := wrs_ok (buf := b') (bs := encPayload m) (p := 4 + m.token.length + (encOps 0 m.ops).length) (by omega)
      rw [e4, Out.bind_ok, Out.bind_ok]
      exact ⟨_, by rw [hlen], by omega⟩

theorem format_fits {m : Msg} {buf : Bytes} {len : Nat} (hl : len ≤ buf.length) (hw : len < 2 ^ 64)
    (hs : Shape m) (hn : NoUnder m.ops) (ho : ∀ o ∈ m.ops, o.val.length + 5 < 2 ^ 32)
    (hov : NoOver m.ops) (hfit : (enc m).length ≤ len) : format m buf len ≠ .err .ENOSPC := by
  have hlen : (enc m).length = 4 + m.token.length + (encOps 0 m.ops).length + (encPayload m).length := by
    simp only [enc, List.length_append, encHdr_length]
  rw [format_split hl hw hs, if_neg (by omega)]
  have e1 := wrs_ok (buf := buf) (bs := encHdr m ++ m.token) (p := 0) (by rw [List.length_append, encHdr_length]; omega)
  have l1 := wrs_length e1
  rw [e1, Out.bind_ok]
  have hf := formatOps_fits m.ops 0 (buf.take 0 ++ (encHdr m ++ m.token) ++ buf.drop (0 + (encHdr m ++ m.token).length))
    (4 + m.token.length) (len - 4 - m.token.length) hn hov ho (by rw [l1]; omega) (by omega) (by omega)
  rcases formatOps_inside m.ops 0 (buf.take 0 ++ (encHdr m ++ m.token) ++ buf.drop (0 + (encHdr m ++ m.token).length))
    (4 + m.token.length) (len - 4 - m.token.length) hn ho (by rw [l1]; omega) (by omega) with h | ⟨b', h1, h2, h3⟩
  · exact absurd h hf
  · rw [h1, Out.bind_ok]
    have l3 := wrs_length h3
    rw [l1] at l3
    simp only
    rw [subW_le h2 (by omega), formatPayload_eq _ _ _ _ (by omega)]
    have hpl : ¬ (m.payload.length ≠ 0 ∧ m.payload.length + 1 > len - 4 - m.token.length - (encOps 0 m.ops).length) := by
      rintro ⟨h5, h6⟩
      have : (encPayload m).length = m.payload.length + 1 := by unfold encPayload; rw [if_neg h5]; simp
      omega
    rw [if_neg hpl]
    have e4 := wrs_ok (buf := b') (bs := encPayload m) (p := 4 + m.token.length + (encOps 0 m.ops).length) (by omega)
    rw [e4, Out.bind_ok, Out.bind_ok]
    intro h; cases h

theorem format_room {m : Msg} {buf : Bytes} {len : Nat} (hl : len ≤ buf.length) (hw : len < 2 ^ 64)
    (hs : Shape m) (ho : ∀ o ∈ m.ops, o.val.length + 5 < 2 ^ 32)
    (hfit : (enc m).length + m.ops.length ≤ len) : ∃ b', format m buf len = .ok (b', (enc m).length) := by
  have hlen : (enc m).length = 4 + m.token.length + (encOps 0 m.ops).length + (encPayload m).length := by
    simp only [enc, List.length_append, encHdr_length]
  rw [format_split hl hw hs, if_neg (by omega)]
  have e1 := wrs_ok (buf := buf) (bs := encHdr m ++ m.token) (p := 0) (by rw [List.length_append, encHdr_length]; omega)
  have l1 := wrs_length e1
  rw [e1, Out.bind_ok]
  obtain ⟨b', h⟩ := formatOps_room m.ops 0 (buf.take 0 ++ (encHdr m ++ m.token) ++ buf.drop (0 + (encHdr m ++ m.token).length))
    (4 + m.token.length) (len - 4 - m.token.length) ho (by rw [l1]; omega) (by omega) (by omega)
  have h3 := (formatOps_ok _ _ _ _ _ _ _ (by rw [l1]; omega) h).1
  have l3 := wrs_length h3
  rw [l1] at l3
  rw [h, Out.bind_ok]
  simp only
  rw [subW_le (by omega) (by omega), formatPayload_eq _ _ _ _ (by omega)]
  have hpl : ¬ (m.payload.length ≠ 0 ∧ m.payload.length + 1 > len - 4 - m.token.length - (encOps 0 m.ops).length) := by
    rintro ⟨h5, h6⟩
    have : (encPayload m).length = m.payload.length + 1 := by unfold encPayload; rw [if_neg h5]; simp
    omega
  rw [if_neg hpl]
  have e4 := wrs_ok (buf := b') (bs := encPayload m) (p := 4 + m.token.length + (encOps 0 m.ops).length) (by omega)
  rw [e4, Out.bind_ok, Out.bind_ok]
  exact ⟨_, by rw [hlen]⟩

end FreeCoAP.Msg
