import Verif.Msg.LemmasFormat
import Verif.Msg.LemmasTight

/-! # Lemmas on option lists, copies, paths and block values -/

namespace FreeCoAP.Msg

/-! ## Option lists -/

/-- Insertion before the first option with a greater number. -/
def ins (op : Op) : List Op → List Op
  | [] => [op]
  | x :: xs => if op.num < x.num then op :: x :: xs else x :: ins op xs

theorem opInsertAfter_eq (op : Op) : ∀ (l : List Op) (prev : Op), ¬ op.num < prev.num →
    opInsertAfter op prev l = prev :: ins op l
  | [], prev, _ => rfl
  | x :: xs, prev, h => by
    unfold opInsertAfter ins
    by_cases h1 : op.num < x.num
    · rw [if_pos ⟨by omega, h1⟩, if_pos h1]
    · rw [if_neg (by intro h; exact h1 h.2), if_neg h1, opInsertAfter_eq op xs x h1]

theorem opListAdd_eq (op : Op) (l : List Op) : opListAdd op l = ins op l := by
  cases l with
  | nil => rfl
  | cons x xs =>
    simp only [opListAdd, ins]
    by_cases h : op.num < x.num
    · rw [if_pos h, if_pos h]
    · rw [if_neg h, if_neg h]; exact opInsertAfter_eq op xs x h

theorem ins_perm (op : Op) : ∀ l, (ins op l).Perm (op :: l)
  | [] => List.Perm.refl _
  | x :: xs => by
    unfold ins
    split
    · exact List.Perm.refl _
    · exact ((ins_perm op xs).cons x).trans (List.Perm.swap _ _ _)

theorem ins_sorted (op : Op) : ∀ l, Sorted l → Sorted (ins op l)
  | [], _ => by simp [ins, Sorted]
  | x :: xs, h => by
    unfold Sorted at h
    rw [List.pairwise_cons] at h
    unfold ins
    split
    · rename_i h1
      refine List.pairwise_cons.2 ⟨?_, List.pairwise_cons.2 h⟩
      intro y hy
      rcases List.mem_cons.1 hy with rfl | hy
      · omega
      · have := h.1 y hy; omega
    · rename_i h1
      refine List.pairwise_cons.2 ⟨?_, ins_sorted op xs h.2⟩
      intro y hy
      rcases List.mem_cons.1 ((ins_perm op xs).mem_iff.1 hy) with rfl | hy
      · omega
      · exact h.1 y hy

theorem ins_filter (op : Op) (k : Nat) : ∀ l, Sorted l →
    (ins op l).filter (fun o => o.num = k) = (l ++ [op]).filter (fun o => o.num = k)
  | [], _ => rfl
  | x :: xs, h => by
    unfold Sorted at h
    rw [List.pairwise_cons] at h
    unfold ins
    split
    · rename_i h1
      rw [List.filter_append]
      by_cases hk : op.num = k
      · have : (x :: xs).filter (fun o => o.num = k) = [] := by
          apply List.filter_eq_nil_iff.2
          intro y hy
          have : x.num ≤ y.num := by
            rcases List.mem_cons.1 hy with rfl | hy
            · omega
            · exact h.1 y hy
          simp; omega
        rw [this, List.filter_cons, this]
        simp [hk]
      · simp [List.filter_cons, hk]
    · have ih := ins_filter op k xs h.2
      rw [List.cons_append, List.filter_cons, List.filter_cons, ih]

/-- `ins` at the end. -/
theorem ins_last (op : Op) : ∀ l, (∀ o ∈ l, o.num ≤ op.num) → ins op l = l ++ [op]
  | [], _ => rfl
  | x :: xs, h => by
    unfold ins
    rw [if_neg (by have := h x (by simp); omega), ins_last op xs (fun o ho => h o (by simp [ho]))]
    rfl

theorem copyOps_eq : ∀ (ops : List Op) (dst : Msg), Sorted (dst.ops ++ ops) →
    copyOps dst ops = { dst with ops := dst.ops ++ ops }
  | [], dst, _ => by simp [copyOps]
  | o :: os, dst, h => by
    unfold copyOps
    have hl : ∀ x ∈ dst.ops, x.num ≤ o.num := by
      intro x hx
      exact (List.pairwise_append.1 h).2.2 x hx o (by simp)
    have e : addOp dst o.num o.val = { dst with ops := dst.ops ++ [o] } := by
      unfold addOp
      rw [opListAdd_eq, ins_last _ _ hl]
    rw [e, copyOps_eq os]
    · simp
    · simpa using h

/-! ## Paths -/

theorem uriPathLoop_ok : ∀ (ops : List Op) (pre : Bytes) (n c : Nat) (post : Bytes),
    uriPathLoop ops (pre ++ List.replicate n 0 ++ post) pre.length n c =
      .ok (pre ++ (segments ops).take n ++ List.replicate (n - (segments ops).length) 0 ++ post,
        pre.length + min (segments ops).length n, c + (segments ops).length)
  | [], pre, n, c, post => by simp [uriPathLoop, segments]
  | o :: os, pre, n, c, post => by
    unfold uriPathLoop
    by_cases h : o.num = URI_PATH
    · rw [if_pos h]
      have hs : segments (o :: os) = 0x2f :: o.val ++ segments os := by
        simp [segments, h]
      have hw : ∀ (pre bs post : Bytes) (n : Nat), bs.length ≤ n →
          wrs (pre ++ List.replicate n 0 ++ post) pre.length bs =
            .ok (pre ++ bs ++ List.replicate (n - bs.length) 0 ++ post) := by
        intro pre bs post n hn
        rw [wrs_ok (by simp; omega)]
        congr 1
        rw [List.append_assoc pre, List.take_left, ← List.drop_drop, List.drop_left,
          List.drop_append_of_le_length (by simp; omega), List.drop_replicate]
        simp
      have hm1 : (if 1 > n then n else 1) = min 1 n := by
        simp only [Nat.min_def]; split <;> split <;> omega
      have hm2 : ∀ k, (if o.len > k then k else o.len) = min o.val.length k := by
        intro k; simp only [Op.len, Nat.min_def]; split <;> split <;> omega
      simp only [hm1, hm2]
      have ht1 : (([0x2f] : Bytes).take (min 1 n)).length = min 1 n := by simp
      rw [hw pre (([0x2f] : Bytes).take (min 1 n)) post n (by rw [ht1]; omega), Out.bind_ok, ht1]
      have hp1 : pre.length + min 1 n = (pre ++ ([0x2f] : Bytes).take (min 1 n)).length := by
        rw [List.length_append, ht1]
      rw [hp1]
      have ht2 : (o.val.take (min o.val.length (n - min 1 n))).length = min o.val.length (n - min 1 n) := by
        simp
      rw [hw _ (o.val.take (min o.val.length (n - min 1 n))) post _ (by rw [ht2]; omega), Out.bind_ok, ht2]
      have hp2 : (pre ++ ([0x2f] : Bytes).take (min 1 n)).length + min o.val.length (n - min 1 n) =
          (pre ++ ([0x2f] : Bytes).take (min 1 n) ++ o.val.take (min o.val.length (n - min 1 n))).length := by
        simp only [List.length_append, ht1, ht2]
      rw [hp2, uriPathLoop_ok os]
      congr 1
      have htk : pre ++ ([0x2f] : Bytes).take (min 1 n) ++ o.val.take (min o.val.length (n - min 1 n)) ++
          (segments os).take (n - min 1 n - min o.val.length (n - min 1 n)) = pre ++ (segments (o :: os)).take n := by
        rw [hs]
        cases n with
        | zero => simp
        | succ k =>
          have : min 1 (k + 1) = 1 := by omega
          rw [this]
          simp only [List.take_succ_cons, List.take_zero, Nat.add_sub_cancel, List.append_assoc, List.cons_append,
            List.nil_append, List.take_append]
          congr 2
          congr 1
          · rw [Nat.min_comm, List.take_eq_take_iff]; omega
          · congr 1; omega
      rw [htk]
      refine Prod.ext ?_ (Prod.ext ?_ ?_)
      · simp only
        congr 2
        congr 1
        rw [hs]; simp only [List.length_append, List.length_cons]; omega
      · simp only [List.length_append, ht1, ht2]
        rw [hs]; simp only [List.length_append, List.length_cons]; omega
      · simp only
        rw [hs]; simp only [List.length_append, List.length_cons, Op.len]; omega
    · rw [if_neg h, uriPathLoop_ok os]
      have hs : segments (o :: os) = segments os := by
        simp [segments, h]
      rw [hs]

/-! ## Block values -/

theorem block_byte : ∀ q < 16, ∀ more : Bool, ∀ szx < 8,
    toByte (q <<< 4) ||| toByte ((if more then 1 else 0) <<< 3) ||| toByte szx =
      UInt8.ofNat (16 * q + 8 * (if more then 1 else 0) + szx) := by
  decide +kernel

theorem nat_f0 : ∀ n < 256, (n &&& 0xf0) >>> 4 = n / 16 := by decide +kernel
theorem nat_08 : ∀ n < 256, (decide (n &&& 0x08 ≠ 0)) = decide (n / 8 % 2 = 1) := by decide +kernel
theorem nat_07 : ∀ n < 256, n &&& 0x07 = n % 8 := by decide +kernel

theorem shl4_or (a q : Nat) (h : q < 16) : (a <<< 4) ||| q = 16 * a + q := by
  rw [← Nat.shiftLeft_add_eq_or_of_lt (i := 4) h a, Nat.shiftLeft_eq]; omega

theorem shl12_or (a b : Nat) (h : b < 4096) : (a <<< 12) ||| b = 4096 * a + b := by
  rw [← Nat.shiftLeft_add_eq_or_of_lt (i := 12) h a, Nat.shiftLeft_eq]; omega

/-- The decoder on values of one to three bytes. -/
theorem parseBlockVal_eq {val : Bytes} (h1 : 1 ≤ val.length) (h3 : val.length ≤ 3) :
    parseBlockVal val val.length =
      match blockSpec val with
      | none => .err .EINVAL
      | some b => .ok b := by
  have key : ∀ (N : Nat) (b : Byte), N % 16 = b.toNat % 16 →
      (if (⟨N / 16, decide (b.toNat &&& 0x08 ≠ 0), 1 <<< ((b.toNat &&& 0x07) + 4)⟩ : Block).size > 1024
        then (.err .EINVAL : Out Block)
        else .ok ⟨N / 16, decide (b.toNat &&& 0x08 ≠ 0), 1 <<< ((b.toNat &&& 0x07) + 4)⟩) =
      match (if N % 8 = 7 then none
        else some (⟨N / 16, decide (N / 8 % 2 = 1), 2 ^ (N % 8 + 4)⟩ : Block)) with
      | none => .err .EINVAL
      | some b => .ok b := by
    intro N b hN
    simp only
    rw [nat_08 _ b.toNat_lt, nat_07 _ b.toNat_lt, Nat.one_shiftLeft]
    have e1 : N % 8 = b.toNat % 8 := by omega
    have e2 : N / 8 % 2 = b.toNat / 8 % 2 := by omega
    rw [e1, e2]
    have hs : b.toNat % 8 < 8 := by omega
    generalize b.toNat % 8 = s at hs
    by_cases h : s = 7
    · subst h; simp
    · rw [if_neg h]
      have : ∀ s < 8, s ≠ 7 → ¬ 2 ^ (s + 4) > 1024 := by decide
      rw [if_neg (this s hs h)]
  match val, h1, h3 with
  | [v0], _, _ =>
    have k := key v0.toNat v0 rfl
    simp only [parseBlockVal, List.length_cons, List.length_nil, rd, List.getElem?_cons_zero, Out.bind_ok, Out.pure_eq]
    simp only [blockSpec, uintVal, List.foldl_cons, List.foldl_nil, Nat.mul_zero, Nat.zero_add]
    rw [nat_f0 _ v0.toNat_lt]
    exact k
  | [v0, v1], _, _ =>
    have l1 := v1.toNat_lt
    have k := key (256 * v0.toNat + v1.toNat) v1 (by omega)
    simp only [parseBlockVal, List.length_cons, List.length_nil, rd, List.getElem?_cons_zero, List.getElem?_cons_succ,
      Out.bind_ok, Out.pure_eq]
    simp only [blockSpec, uintVal, List.foldl_cons, List.foldl_nil, Nat.mul_zero, Nat.zero_add]
    rw [nat_f0 _ l1, shl4_or _ _ (by omega)]
    have : 16 * v0.toNat + v1.toNat / 16 = (256 * v0.toNat + v1.toNat) / 16 := by omega
    rw [this]
    exact k
  | [v0, v1, v2], _, _ =>
    have l1 := v1.toNat_lt
    have l2 := v2.toNat_lt
    have k := key (256 * (256 * v0.toNat + v1.toNat) + v2.toNat) v2 (by omega)
    simp only [parseBlockVal, List.length_cons, List.length_nil, rd, List.getElem?_cons_zero, List.getElem?_cons_succ,
      Out.bind_ok, Out.pure_eq]
    simp only [blockSpec, uintVal, List.foldl_cons, List.foldl_nil, Nat.mul_zero, Nat.zero_add]
    rw [nat_f0 _ l2, Nat.or_assoc, shl4_or _ _ (by omega), shl12_or _ _ (by omega)]
    have : 4096 * v0.toNat + (16 * v1.toNat + v2.toNat / 16) =
      (256 * (256 * v0.toNat + v1.toNat) + v2.toNat) / 16 := by omega
    rw [this]
    exact k

theorem calcBlockSzx_ok {size szx : Nat} : calcBlockSzx size = .ok szx ↔ szx < 7 ∧ size = 2 ^ (szx + 4) := by
  unfold calcBlockSzx
  constructor
  · intro h
    repeat' split at h
    all_goals first | (simp at h; subst h; refine ⟨by omega, ?_⟩; subst_vars; rfl) | (simp at h)
  · rintro ⟨h, rfl⟩
    have : szx = 0 ∨ szx = 1 ∨ szx = 2 ∨ szx = 3 ∨ szx = 4 ∨ szx = 5 ∨ szx = 6 := by omega
    rcases this with rfl | rfl | rfl | rfl | rfl | rfl | rfl <;> decide

theorem calcBlockSzx_cases (size : Nat) : (∃ szx, calcBlockSzx size = .ok szx) ∨ calcBlockSzx size = .err .EINVAL := by
  unfold calcBlockSzx
  repeat' split
  all_goals simp

/-- The value written by the encoder, as a number. -/
theorem formatBlockVal_ok {len num size szx : Nat} {more : Bool} (hs : calcBlockSzx size = .ok szx)
    (hl : 1 ≤ len ∧ len ≤ 3) (hn : num < 2 ^ (8 * len - 4)) :
    ∃ v, formatBlockVal len num more size = .ok v ∧ v.length = len ∧
      uintVal v = 16 * num + 8 * (if more then 1 else 0) + szx := by
  have hz := (calcBlockSzx_ok.1 hs).1
  unfold formatBlockVal
  rw [hs, Out.bind_ok]
  have hb := block_byte (num % 16) (by omega) more szx (by omega)
  have hm : (if more = true then 1 else 0) ≤ 1 := by split <;> omega
  have he : toByte (num <<< 4) = toByte ((num % 16) <<< 4) := by
    apply toByte_eq; rw [Nat.shiftLeft_eq, Nat.shiftLeft_eq]; omega
  rw [he]
  simp only
  rw [hb]
  generalize (if more = true then 1 else 0) = mm at hm
  have hlast : (UInt8.ofNat (16 * (num % 16) + 8 * mm + szx)).toNat = 16 * (num % 16) + 8 * mm + szx :=
    toNat_toByte _ (by omega)
  have : len = 1 ∨ len = 2 ∨ len = 3 := by omega
  rcases this with rfl | rfl | rfl
  · refine ⟨_, if_neg (c := num > 1 <<< 4) (by omega), rfl, ?_⟩
    simp only [uintVal, List.foldl_cons, List.foldl_nil, hlast]
    omega
  · refine ⟨_, if_neg (c := num > 1 <<< 12) (by omega), rfl, ?_⟩
    have : (toByte (num >>> 4)).toNat = num / 16 := by
      rw [Nat.shiftRight_eq_div_pow]; exact toNat_toByte _ (by omega)
    simp only [uintVal, List.foldl_cons, List.foldl_nil, hlast, this]
    omega
  · refine ⟨_, if_neg (c := num > 1 <<< 20) (by omega), rfl, ?_⟩
    have e1 : (toByte (num >>> 12)).toNat = num / 4096 := by
      rw [Nat.shiftRight_eq_div_pow]; exact toNat_toByte _ (by omega)
    have e2 : (toByte (num >>> 4)).toNat = num / 16 % 256 := by
      have : toByte (num >>> 4) = toByte (num / 16 % 256) := by
        apply toByte_eq; rw [Nat.shiftRight_eq_div_pow]; omega
      rw [this]; exact toNat_toByte _ (by omega)
    simp only [uintVal, List.foldl_cons, List.foldl_nil, hlast, e1, e2]
    omega

/-! ## Option checks -/

theorem isRecognized_iff (n : Nat) : isRecognized n = true ↔ n ∈ known := by
  unfold isRecognized known
  split <;> simp_all

theorem and_one (n : Nat) : n &&& 1 = n % 2 := Nat.and_one_is_mod n

theorem and_two (n : Nat) : (n &&& 2 ≠ 0) ↔ n / 2 % 2 = 1 := by
  have h1 : n &&& 2 ≤ 2 := Nat.and_le_right
  have h2 := Nat.and_mod_two_pow (a := n) (b := 2) (n := 2)
  rw [Nat.mod_eq_of_lt (by omega)] at h2
  rw [h2]
  have h3 : ∀ k < 4, (k &&& 2 % 2 ^ 2 ≠ 0) ↔ k / 2 % 2 = 1 := by decide
  rw [h3 _ (by omega)]
  omega

end FreeCoAP.Msg
