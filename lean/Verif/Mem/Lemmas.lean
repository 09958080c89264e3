import Verif.Mem.Spec

namespace FreeCoAP.Mem

/-- Bit `i` of a bitset stored as bytes. -/
def bitAt (as : List (BitVec 8)) (i : Nat) : Bool :=
  match as with
  | [] => false
  | a :: as => if i < 8 then a.getLsbD i else bitAt as (i - 8)

theorem and_shift_eq_zero (a : BitVec 8) (bit : Nat) (h : bit < 8) :
    a &&& (1#8 <<< bit) = 0#8 ↔ a.getLsbD bit = false := by
  constructor
  · intro e
    have := congrArg (fun v => v.getLsbD bit) e
    simpa [h] using this
  · intro e
    apply BitVec.eq_of_getLsbD_eq
    intro i hi
    by_cases hib : i = bit
    · subst hib; simp [e]
    · by_cases hlt : i < bit
      · simp [hlt]
      · have : ¬ (i - bit = 0) := by omega
        simp [hlt, this]

theorem or_shift_getLsbD (a : BitVec 8) (bit i : Nat) (h : bit < 8) :
    (a ||| (1#8 <<< bit)).getLsbD i = (a.getLsbD i || decide (i = bit)) := by
  by_cases hib : i = bit
  · subst hib; simp [h]
  · by_cases hlt : i < bit
    · simp [hlt, hib]
    · have : ¬ (i - bit = 0) := by omega
      simp [hlt, hib, this]

theorem andnot_shift_getLsbD (a : BitVec 8) (bit i : Nat) (h : bit < 8) :
    (a &&& ~~~(1#8 <<< bit)).getLsbD i = (a.getLsbD i && !decide (i = bit)) := by
  by_cases hi8 : i < 8
  · by_cases hib : i = bit
    · subst hib; simp [h]
    · by_cases hlt : i < bit
      · simp [hlt, hib, hi8]
      · have : ¬ (i - bit = 0) := by omega
        simp [hlt, hib, this, hi8]
  · have h1 : a.getLsbD i = false := BitVec.getLsbD_of_ge _ _ (by omega)
    simp [h1]

theorem findBit_spec (a : BitVec 8) : ∀ (fuel bit : Nat), bit + fuel = 8 →
    match findBit a bit fuel with
    | some b => bit ≤ b ∧ b < 8 ∧ a.getLsbD b = false ∧ ∀ j, bit ≤ j → j < b → a.getLsbD j = true
    | none => ∀ j, bit ≤ j → j < 8 → a.getLsbD j = true := by
  intro fuel
  induction fuel with
  | zero => intro bit h; simp only [findBit]; intro j; omega
  | succ n ih =>
    intro bit h
    have hb : bit < 8 := by omega
    by_cases hc : a &&& (1#8 <<< bit) = 0#8
    · simp only [findBit, hc, if_true]
      exact ⟨Nat.le_refl _, hb, (and_shift_eq_zero a bit hb).1 hc, by intro j; omega⟩
    · have hbit : a.getLsbD bit = true := by
        have := mt (and_shift_eq_zero a bit hb).2 hc
        simpa using this
      have := ih (bit + 1) (by omega)
      simp only [findBit, hc, if_false]
      split <;> rename_i heq <;> rw [heq] at this <;> simp only at this
      · obtain ⟨h1, h2, h3, h4⟩ := this
        refine ⟨by omega, h2, h3, ?_⟩
        intro j hj hjb
        by_cases hjj : j = bit
        · subst hjj; exact hbit
        · exact h4 j (by omega) hjb
      · intro j hj hjb
        by_cases hjj : j = bit
        · subst hjj; exact hbit
        · exact this j (by omega) hjb

theorem findByte_spec : ∀ (as : List (BitVec 8)) (k : Nat),
    match findByte as k with
    | some ((byte, bit), as') =>
        k ≤ byte ∧ bit < 8 ∧ 8 * (byte - k) + bit < 8 * as.length ∧
        bitAt as (8 * (byte - k) + bit) = false ∧
        (∀ j, j < 8 * (byte - k) + bit → bitAt as j = true) ∧
        as'.length = as.length ∧
        (∀ j, bitAt as' j = (bitAt as j || decide (j = 8 * (byte - k) + bit)))
    | none => ∀ j, j < 8 * as.length → bitAt as j = true := by
  intro as
  induction as with
  | nil => intro k; simp [findByte]
  | cons a as ih =>
    intro k
    have hb := findBit_spec a 8 0 (by omega)
    simp only [findByte]
    cases hfb : findBit a 0 8 with
    | some bit =>
      rw [hfb] at hb
      simp only at hb
      obtain ⟨-, h2, h3, h4⟩ := hb
      simp only [Nat.sub_self, Nat.mul_zero, Nat.zero_add, List.length_cons]
      refine ⟨Nat.le_refl _, h2, by omega, ?_, ?_, trivial, ?_⟩
      · simpa only [bitAt, h2, if_true] using h3
      · intro j hj
        have : j < 8 := by omega
        simp [bitAt, this, h4 j (by omega) hj]
      · intro j
        by_cases hj : j < 8
        · simp only [bitAt, hj, if_true]
          exact or_shift_getLsbD a bit j h2
        · simp only [bitAt, hj, if_false]
          have : ¬ j = bit := by omega
          simp [this]
    | none =>
      rw [hfb] at hb
      simp only at hb
      have hi := ih (k + 1)
      cases hfy : findByte as (k + 1) with
      | some r =>
        obtain ⟨⟨byte, bit⟩, as'⟩ := r
        rw [hfy] at hi
        simp only at hi ⊢
        obtain ⟨h1, h2, h3, h4, h5, h6, h7⟩ := hi
        have e : 8 * (byte - k) + bit = 8 * (byte - (k + 1)) + bit + 8 := by omega
        rw [e]
        refine ⟨by omega, h2, by simp only [List.length_cons]; omega, ?_, ?_, by simp [h6], ?_⟩
        · have : ¬ (8 * (byte - (k + 1)) + bit + 8 < 8) := by omega
          simp only [bitAt, this, if_false]
          rw [show 8 * (byte - (k + 1)) + bit + 8 - 8 = 8 * (byte - (k + 1)) + bit by omega]
          exact h4
        · intro j hj
          by_cases hj8 : j < 8
          · simp [bitAt, hj8, hb j (by omega) hj8]
          · simp only [bitAt, hj8, if_false]
            exact h5 (j - 8) (by omega)
        · intro j
          by_cases hj8 : j < 8
          · have : ¬ j = 8 * (byte - (k + 1)) + bit + 8 := by omega
            simp [bitAt, hj8, this]
          · simp only [bitAt, hj8, if_false]
            rw [h7]
            congr 1
            have : (j - 8 = 8 * (byte - (k + 1)) + bit) ↔ (j = 8 * (byte - (k + 1)) + bit + 8) := by omega
            simp [this]
      | none =>
        rw [hfy] at hi
        simp only at hi ⊢
        intro j hj
        by_cases hj8 : j < 8
        · simp [bitAt, hj8, hb j (by omega) hj8]
        · simp only [bitAt, hj8, if_false]
          simp only [List.length_cons] at hj
          exact hi (j - 8) (by omega)

theorem freeBits_getLsbD (m : Pool) (p byte : Nat) : ∀ (fuel bit : Nat) (a : BitVec 8), bit + fuel = 8 →
    ∀ j, (freeBits m p byte bit fuel a).getLsbD j =
      (a.getLsbD j && !(decide (bit ≤ j) && decide (p = m.slotAddr byte j))) := by
  intro fuel
  induction fuel with
  | zero =>
    intro bit a h j
    simp only [freeBits]
    by_cases hj : j < 8
    · have : ¬ bit ≤ j := by omega
      simp [this]
    · have h1 : a.getLsbD j = false := BitVec.getLsbD_of_ge _ _ (by omega)
      simp [h1]
  | succ n ih =>
    intro bit a h j
    simp only [freeBits]
    rw [ih (bit + 1) _ (by omega)]
    by_cases hp : p = m.slotAddr byte bit
    · simp only [hp, if_true]
      rw [andnot_shift_getLsbD a bit j (by omega)]
      by_cases hj : j = bit
      · subst hj; simp
      · by_cases h1 : bit + 1 ≤ j
        · have h2 : bit ≤ j := by omega
          simp [h1, h2, hj]
        · have h2 : ¬ bit ≤ j := by omega
          simp [h1, h2, hj]
    · simp only [hp, if_false]
      by_cases hj : j = bit
      · subst hj; simp [hp]
      · by_cases h1 : bit + 1 ≤ j
        · have h2 : bit ≤ j := by omega
          simp [h1, h2]
        · have h2 : ¬ bit ≤ j := by omega
          simp [h1, h2]

theorem freeBytes_length (m : Pool) (p : Nat) : ∀ (as : List (BitVec 8)) (k : Nat),
    (freeBytes m p as k).length = as.length := by
  intro as
  induction as with
  | nil => intro k; rfl
  | cons a as ih => intro k; simp [freeBytes, ih]

theorem bitAt_freeBytes (m : Pool) (p : Nat) : ∀ (as : List (BitVec 8)) (k j : Nat),
    bitAt (freeBytes m p as k) j = (bitAt as j && !decide (p = m.buf + (8 * k + j) * m.len)) := by
  intro as
  induction as with
  | nil => intro k j; simp [freeBytes, bitAt]
  | cons a as ih =>
    intro k j
    simp only [freeBytes, bitAt]
    by_cases hj : j < 8
    · simp only [hj, if_true]
      rw [freeBits_getLsbD m p k 8 0 a (by omega)]
      simp only [Nat.zero_le, decide_true, Bool.true_and]
      rfl
    · simp only [hj, if_false]
      rw [ih]
      rw [show 8 * (k + 1) + (j - 8) = 8 * k + j by omega]

theorem bitAt_replicate_zero (n j : Nat) : bitAt (List.replicate n 0#8) j = false := by
  induction n generalizing j with
  | zero => simp [bitAt]
  | succ n ih =>
    simp only [List.replicate_succ, bitAt]
    split
    · simp
    · exact ih _

theorem bitAt_ext : ∀ (as bs : List (BitVec 8)), as.length = bs.length →
    (∀ j, j < 8 * as.length → bitAt as j = bitAt bs j) → as = bs := by
  intro as
  induction as with
  | nil => intro bs h _; cases bs with
    | nil => rfl
    | cons b bs => simp at h
  | cons a as ih =>
    intro bs h hj
    cases bs with
    | nil => simp at h
    | cons b bs =>
      congr 1
      · apply BitVec.eq_of_getLsbD_eq
        intro i hi
        have := hj i (by simp only [List.length_cons]; omega)
        simpa [bitAt, hi] using this
      · apply ih bs (by simpa using h)
        intro j hjl
        have := hj (j + 8) (by simp only [List.length_cons]; omega)
        simpa [bitAt, show ¬ (j + 8 < 8) by omega] using this

/-- A pool in the state reached when the buffers in `h` are handed out. -/
structure Rel (m : Pool) (base num len : Nat) (h : List Nat) : Prop where
  buf : m.buf = base
  num_eq : m.num = num
  len_eq : m.len = len
  len_pos : 0 < len
  bits : 8 * m.active.length = num
  mem : ∀ p ∈ h, ∃ i, i < num ∧ p = base + i * len
  bit : ∀ i, i < num → (bitAt m.active i = true ↔ base + i * len ∈ h)
  nodup : h.Nodup

theorem addr_inj {base len i j : Nat} (hl : 0 < len) (h : base + i * len = base + j * len) : i = j := by
  have : i * len = j * len := by omega
  exact Nat.eq_of_mul_eq_mul_right hl this

theorem find?_range_map (f : Nat → Nat) (q : Nat → Bool) (n i : Nat) (hi : i < n)
    (hq : q (f i) = true) (hlt : ∀ j, j < i → q (f j) = false) :
    ((List.range n).map f).find? q = some (f i) := by
  rw [List.find?_eq_some_iff_append]
  refine ⟨hq, (List.range i).map f, (List.range' (i+1) (n - i - 1)).map f, ?_, ?_⟩
  · rw [← List.map_cons, ← List.map_append]
    congr 1
    have e1 : List.range n = List.range' 0 n := List.range_eq_range'
    have e2 : List.range i = List.range' 0 i := List.range_eq_range'
    rw [e1, e2]
    have e3 : i :: List.range' (i+1) (n-i-1) = List.range' i (n - i) := by
      rw [show n - i = (n - i - 1) + 1 by omega, List.range'_succ]; simp
    rw [e3]
    have := List.range'_append_1 (s := 0) (m := i) (n := n - i)
    simp only [Nat.zero_add] at this
    rw [this]
    congr 1
    omega
  · intro a ha
    simp only [List.mem_map, List.mem_range] at ha
    obtain ⟨j, hj, rfl⟩ := ha
    simp [hlt j hj]

theorem Rel.alloc {m : Pool} {base num len : Nat} {h : List Nat} (r : Rel m base num len h) (l : Nat) :
    (m.alloc l).1 = specAlloc base num len h l ∧
    Rel (m.alloc l).2 base num len
      (match specAlloc base num len h l with | some p => p :: h | none => h) := by
  unfold Pool.alloc specAlloc
  rw [r.len_eq]
  by_cases hl : l > len
  · simp only [hl, if_true]; exact ⟨trivial, r⟩
  · simp only [hl, if_false]
    have hs := findByte_spec m.active 0
    cases hf : findByte m.active 0 with
    | none =>
      rw [hf] at hs
      simp only at hs ⊢
      have hnone : (slots base num len).find? (fun p => !h.contains p) = none := by
        rw [List.find?_eq_none]
        intro p hp
        simp only [slots, List.mem_map, List.mem_range] at hp
        obtain ⟨i, hi, rfl⟩ := hp
        have := (r.bit i hi).1 (hs i (by have := r.bits; omega))
        simp [this]
      rw [hnone]
      exact ⟨rfl, r⟩
    | some res =>
      obtain ⟨⟨byte, bit⟩, as'⟩ := res
      rw [hf] at hs
      simp only [Nat.sub_zero] at hs ⊢
      obtain ⟨-, h2, h3, h4, h5, h6, h7⟩ := hs
      have hb := r.bits
      have hin : 8 * byte + bit < num := by omega
      have hnot : base + (8 * byte + bit) * len ∉ h := by
        intro hc
        have := (r.bit _ hin).2 hc
        rw [h4] at this
        exact absurd this (by simp)
      have hsome : (slots base num len).find? (fun p => !h.contains p)
          = some (base + (8 * byte + bit) * len) := by
        unfold slots
        apply find?_range_map (fun i => base + i * len) _ num (8 * byte + bit) hin
        · simp [hnot]
        · intro j hj
          have := (r.bit j (by omega)).1 (h5 j hj)
          simp [this]
      rw [hsome]
      constructor
      · simp [Pool.slotAddr, r.buf, r.len_eq]
      · simp only
        refine ⟨r.buf, r.num_eq, rfl, r.len_pos, by simp only [h6]; exact hb, ?_, ?_, ?_⟩
        · intro p hp
          rcases List.mem_cons.1 hp with rfl | hp
          · exact ⟨_, hin, rfl⟩
          · exact r.mem p hp
        · intro i hi
          rw [h7]
          simp only [Bool.or_eq_true, decide_eq_true_eq, List.mem_cons, r.bit i hi]
          constructor
          · rintro (h | h)
            · exact Or.inr h
            · subst h; exact Or.inl rfl
          · rintro (h | h)
            · exact Or.inr (addr_inj r.len_pos h)
            · exact Or.inl h
        · exact List.nodup_cons.2 ⟨hnot, r.nodup⟩

theorem Rel.free {m : Pool} {base num len : Nat} {h : List Nat} (r : Rel m base num len h) (p : Nat) :
    Rel (m.free p) base num len (h.filter (· ≠ p)) := by
  refine ⟨r.buf, r.num_eq, r.len_eq, r.len_pos, ?_, ?_, ?_, ?_⟩
  · simp only [Pool.free, freeBytes_length]; exact r.bits
  · intro q hq
    exact r.mem q (List.mem_filter.1 hq).1
  · intro i hi
    simp only [Pool.free]
    rw [bitAt_freeBytes]
    simp only [Nat.mul_zero, Nat.zero_add, r.buf, r.len_eq, Bool.and_eq_true, Bool.not_eq_true',
      decide_eq_false_iff_not, List.mem_filter, decide_eq_true_eq, r.bit i hi]
    constructor
    · rintro ⟨h1, h2⟩; exact ⟨h1, fun e => h2 e.symm⟩
    · rintro ⟨h1, h2⟩; exact ⟨h1, fun e => h2 e.symm⟩
  · exact List.Pairwise.filter _ r.nodup

theorem Rel.free_not_held {m : Pool} {base num len : Nat} {h : List Nat} (r : Rel m base num len h)
    (p : Nat) (hp : p ∉ h) : m.free p = m := by
  unfold Pool.free
  have : freeBytes m p m.active 0 = m.active := by
    apply bitAt_ext _ _ (freeBytes_length _ _ _ _)
    intro j hj
    rw [freeBytes_length] at hj
    rw [bitAt_freeBytes]
    simp only [Nat.mul_zero, Nat.zero_add, r.buf, r.len_eq]
    have hb := r.bits
    by_cases hbit : bitAt m.active j = true
    · have := (r.bit j (by omega)).1 hbit
      have hne : ¬ p = base + j * len := by
        intro e; subst e; exact hp this
      simp [hne]
    · simp [Bool.not_eq_true] at hbit
      simp [hbit]
  rw [this]

theorem Rel.run {m : Pool} {base num len : Nat} {h : List Nat} (r : Rel m base num len h)
    (cs : List Call) :
    (run m cs).1 = specRun base num len h cs ∧
    Rel (run m cs).2 base num len (held h (run m cs).1) := by
  induction cs generalizing m h with
  | nil => exact ⟨rfl, r⟩
  | cons c cs ih =>
    cases c with
    | alloc l =>
      obtain ⟨h1, h2⟩ := r.alloc l
      have ih' := ih h2
      simp only [Mem.run, step, specRun]
      rw [h1]
      cases hsp : specAlloc base num len h l with
      | none =>
        rw [hsp] at ih'
        simp only at ih' ⊢
        rw [ih'.1]
        refine ⟨rfl, ?_⟩
        simp only [held]
        rw [← ih'.1]
        exact ih'.2
      | some p =>
        rw [hsp] at ih'
        simp only at ih' ⊢
        rw [ih'.1]
        refine ⟨rfl, ?_⟩
        simp only [held]
        rw [← ih'.1]
        exact ih'.2
    | free p =>
      have ih' := ih (r.free p)
      simp only [Mem.run, step, specRun]
      refine ⟨by rw [ih'.1], ?_⟩
      simp only [held]
      exact ih'.2

theorem num_and_7 (num : Nat) (h : num &&& 7 = 0) : 8 * (num >>> 3) = num := by
  have h2 : num &&& 7 = num % 8 := Nat.and_two_pow_sub_one_eq_mod num 3
  rw [Nat.shiftRight_eq_div_pow]
  omega

theorem create_ok {W : Nat} {s s' : Sys} {r1 r2 : Option Nat} {num len : Nat} {m : Pool}
    (h : create W s r1 r2 num len = (.ok m, s')) :
    num &&& 7 = 0 ∧ 0 < len ∧ r1 = some m.buf ∧ r2 = some m.activePtr ∧ m.num = num ∧ m.len = len ∧
    m.active = List.replicate (num >>> 3) 0#8 ∧
    s' = (m.activePtr, num >>> 3) :: (m.buf, (num * len) % W) :: s := by
  unfold create at h
  split at h
  · simp at h
  · rename_i hc
    cases r1 with
    | none => simp at h
    | some b =>
      cases r2 with
      | none => simp at h
      | some a =>
        simp only [Prod.mk.injEq, Except.ok.injEq] at h
        obtain ⟨rfl, rfl⟩ := h
        have hc1 : num &&& 7 = 0 := Decidable.byContradiction fun hh => hc (Or.inl hh)
        have hc2 : 0 < len := by
          have : len ≠ 0 := fun hh => hc (Or.inr hh)
          omega
        exact ⟨hc1, hc2, rfl, rfl, rfl, rfl, rfl, rfl⟩

theorem create_rel {W : Nat} {s s' : Sys} {r1 r2 : Option Nat} {num len : Nat} {m : Pool}
    (h : create W s r1 r2 num len = (.ok m, s')) : Rel m m.buf num len [] := by
  obtain ⟨h1, h2, -, -, h5, h6, h7, -⟩ := create_ok h
  refine ⟨rfl, h5, h6, h2, ?_, by simp, ?_, by simp⟩
  · rw [h7]; simp only [List.length_replicate]; exact num_and_7 num h1
  · intro i _
    rw [h7]
    simp [bitAt_replicate_zero]

theorem disjoint_of_ne {base len i j : Nat} (h : i ≠ j) :
    Disjoint len (base + i * len) (base + j * len) := by
  intro a ⟨⟨h1, h2⟩, ⟨h3, h4⟩⟩
  rcases Nat.lt_or_gt_of_ne h with hij | hij
  · have : (i + 1) * len ≤ j * len := Nat.mul_le_mul_right _ hij
    rw [Nat.add_mul] at this
    omega
  · have : (j + 1) * len ≤ i * len := Nat.mul_le_mul_right _ hij
    rw [Nat.add_mul] at this
    omega

end FreeCoAP.Mem
