import Verif.Mem.SpecThreads
import Verif.Mem.Lemmas

/-!
# Lemmas about a pool that several threads use
-/

namespace FreeCoAP.Mem

theorem bitAt_eq (as : List (BitVec 8)) (j : Nat) : bitAt as j = match as[j / 8]? with | some a => a.getLsbD (j % 8) | none => false := by
  induction as generalizing j with
  | nil => rfl
  | cons a as ih =>
    rw [bitAt]
    by_cases h : j < 8
    · rw [if_pos h, Nat.div_eq_of_lt h, Nat.mod_eq_of_lt h]
      rfl
    · rw [if_neg h, ih, show j / 8 = (j - 8) / 8 + 1 by omega, List.getElem?_cons_succ, show j % 8 = (j - 8) % 8 by omega]

theorem bitAt_pos {as : List (BitVec 8)} {byte bit : Nat} {a : BitVec 8} (hb : bit < 8) (h : as[byte]? = some a) : bitAt as (8 * byte + bit) = a.getLsbD bit := by
  rw [bitAt_eq, show (8 * byte + bit) / 8 = byte by omega, show (8 * byte + bit) % 8 = bit by omega, h]

theorem bitAt_set (as : List (BitVec 8)) (byte : Nat) (w : BitVec 8) (h : byte < as.length) (j : Nat) :
    bitAt (as.set byte w) j = if j / 8 = byte then w.getLsbD (j % 8) else bitAt as j := by
  rw [bitAt_eq, bitAt_eq, List.getElem?_set]
  by_cases hj : j / 8 = byte
  · rw [if_pos hj.symm, if_pos h, if_pos hj]
  · rw [if_neg (Ne.symm hj), if_neg hj]

/-- The buffer that a thread is freeing, as long as its bit is set. -/
def pend (base len : Nat) : At → List Nat
  | .scan p byte bit => if base + (8 * byte + bit) * len ≤ p then [p] else []
  | .clrR p _ _ => [p]
  | .clrW p _ _ _ => [p]
  | _ => []

/-- The buffers of a thread, with the one that it is freeing. -/
def Thread.own (base len : Nat) (x : Thread) : List Nat := x.held ++ pend base len x.pc

/-- What is known of a thread where it is. -/
def Fine (base len : Nat) (active : List (BitVec 8)) : At → Prop
  | .idle => True
  | .look _ bit => bit < 8
  | .setR byte bit => bit < 8 ∧ byte < active.length ∧ bitAt active (8 * byte + bit) = false
  | .setW byte bit v => bit < 8 ∧ active[byte]? = some v ∧ bitAt active (8 * byte + bit) = false
  | .scan p _ bit => bit < 8 ∧ ∃ i, p = base + i * len
  | .clrR p byte bit => bit < 8 ∧ byte < active.length ∧ p = base + (8 * byte + bit) * len
  | .clrW p byte bit v => bit < 8 ∧ active[byte]? = some v ∧ p = base + (8 * byte + bit) * len

/-- The bits that are set are those of the buffers of the threads. -/
structure Inv (base num len : Nat) (s : Shared) : Prop where
  buf : s.pool.buf = base
  num_eq : s.pool.num = num
  len_eq : s.pool.len = len
  len_pos : 0 < len
  bits : 8 * s.pool.active.length = num
  slot : ∀ t, ∀ p ∈ (s.th t).own base len, ∃ i, i < num ∧ p = base + i * len
  bit : ∀ i, i < num → (bitAt s.pool.active i = true ↔ ∃ t, base + i * len ∈ (s.th t).own base len)
  nodup : ∀ t, ((s.th t).own base len).Nodup
  disj : ∀ t u, t ≠ u → ∀ p ∈ (s.th t).own base len, p ∉ (s.th u).own base len
  fine : ∀ t, Fine base len s.pool.active (s.th t).pc
  excl : ∀ t u, t ≠ u → ∀ b, (s.th t).pc.mid = some b → (s.th u).pc.mid ≠ some b

theorem put_same (s : Shared) (t : Nat) (x : Thread) : (s.put t x).th t = x := if_pos rfl
theorem put_other (s : Shared) {t u : Nat} (x : Thread) (h : u ≠ t) : (s.put t x).th u = s.th u := if_neg h

theorem Inv.activeLen {base num len : Nat} {s : Shared} (h : Inv base num len s) : s.pool.activeLen = s.pool.active.length := by
  have := h.bits
  unfold Pool.activeLen
  rw [h.num_eq, Nat.shiftRight_eq_div_pow]
  omega

theorem Inv.slotAddr {base num len : Nat} {s : Shared} (h : Inv base num len s) (byte bit : Nat) :
    s.pool.slotAddr byte bit = base + (8 * byte + bit) * len := by
  unfold Pool.slotAddr
  rw [h.buf, h.len_eq]

/-- A thread goes on with the same buffers. -/
theorem Inv.move {base num len : Nat} {s : Shared} (h : Inv base num len s) (t : Nat) (x : Thread)
    (ho : ∀ p, p ∈ x.own base len ↔ p ∈ (s.th t).own base len) (hn : (x.own base len).Nodup) (hf : Fine base len s.pool.active x.pc)
    (hx : ∀ u, u ≠ t → ∀ b, x.pc.mid = some b → (s.th u).pc.mid ≠ some b) : Inv base num len (s.put t x) := by
  have ho' : ∀ u p, p ∈ ((s.put t x).th u).own base len ↔ p ∈ (s.th u).own base len := by
    intro u p
    by_cases hu : u = t
    · rw [hu, put_same]; exact ho p
    · rw [put_other s x hu]
  refine ⟨h.buf, h.num_eq, h.len_eq, h.len_pos, h.bits, ?_, ?_, ?_, ?_, ?_, ?_⟩
  · intro u p hp
    exact h.slot u p ((ho' u p).1 hp)
  · intro i hi
    rw [show (s.put t x).pool = s.pool from rfl, h.bit i hi]
    constructor
    · rintro ⟨u, hu⟩; exact ⟨u, (ho' u _).2 hu⟩
    · rintro ⟨u, hu⟩; exact ⟨u, (ho' u _).1 hu⟩
  · intro u
    by_cases hu : u = t
    · rw [hu, put_same]; exact hn
    · rw [put_other s x hu]; exact h.nodup u
  · intro u v huv p hp hq
    exact h.disj u v huv p ((ho' u p).1 hp) ((ho' v p).1 hq)
  · intro u
    by_cases hu : u = t
    · rw [hu, put_same]; exact hf
    · rw [put_other s x hu]; exact h.fine u
  · intro u v huv b hb
    by_cases hu : u = t
    · rw [hu, put_same] at hb
      rw [put_other s x (fun hv => huv (hu.trans hv.symm))]
      exact hx v (fun hv => huv (hu.trans hv.symm)) b hb
    · rw [put_other s x hu] at hb
      by_cases hv : v = t
      · rw [hv, put_same]
        intro hc
        exact hx u hu b hc hb
      · rw [put_other s x hv]
        exact h.excl u v huv b hb

/-- What is known of the other threads stays known when a byte is written that none of them is going to write. -/
theorem Fine.set {base len : Nat} {active : List (BitVec 8)} {a : At} (h : Fine base len active a) (byte : Nat) (w : BitVec 8)
    (hb : byte < active.length) (ha : a.mid ≠ some byte) : Fine base len (active.set byte w) a := by
  have hbit : ∀ {b c : Nat}, c < 8 → b ≠ byte → bitAt (active.set byte w) (8 * b + c) = bitAt active (8 * b + c) := by
    intro b c hc hne
    rw [bitAt_set _ _ _ hb, if_neg (by omega)]
  have hget : ∀ {b : Nat} {v : BitVec 8}, b ≠ byte → active[b]? = some v → (active.set byte w)[b]? = some v := by
    intro b v hne h
    rw [List.getElem?_set, if_neg (Ne.symm hne)]
    exact h
  cases a with
  | idle => trivial
  | look b c => exact h
  | scan p b c => exact h
  | setR b c =>
    obtain ⟨h1, h2, h3⟩ := h
    have hne : b ≠ byte := fun e => ha (congrArg some e)
    exact ⟨h1, by rw [List.length_set]; exact h2, by rw [hbit h1 hne]; exact h3⟩
  | setW b c v =>
    obtain ⟨h1, h2, h3⟩ := h
    have hne : b ≠ byte := fun e => ha (congrArg some e)
    exact ⟨h1, hget hne h2, by rw [hbit h1 hne]; exact h3⟩
  | clrR p b c =>
    obtain ⟨h1, h2, h3⟩ := h
    exact ⟨h1, by rw [List.length_set]; exact h2, h3⟩
  | clrW p b c v =>
    obtain ⟨h1, h2, h3⟩ := h
    have hne : b ≠ byte := fun e => ha (congrArg some e)
    exact ⟨h1, hget hne h2, h3⟩

theorem scan_pend {base len byte bit p : Nat} (hl : 0 < len) (hb : bit < 8) (hp : ∃ i, p = base + i * len) (hne : p ≠ base + (8 * byte + bit) * len) :
    pend base len (scanNext p byte bit) = pend base len (.scan p byte bit) := by
  obtain ⟨i, rfl⟩ := hp
  have key : (base + (8 * byte + bit + 1) * len ≤ base + i * len) ↔ (base + (8 * byte + bit) * len ≤ base + i * len) := by
    have hne' : i ≠ 8 * byte + bit := fun e => hne (by rw [e])
    rw [Nat.add_le_add_iff_left, Nat.add_le_add_iff_left, Nat.mul_le_mul_right_iff hl, Nat.mul_le_mul_right_iff hl]
    omega
  unfold scanNext
  by_cases hb : bit + 1 < 8
  · rw [if_pos hb]
    show (if base + (8 * byte + (bit + 1)) * len ≤ base + i * len then _ else _) = (if _ then _ else _)
    rw [show 8 * byte + (bit + 1) = 8 * byte + bit + 1 by omega]
    simp only [key]
  · rw [if_neg hb]
    show (if base + (8 * (byte + 1) + 0) * len ≤ base + i * len then _ else _) = (if _ then _ else _)
    rw [show 8 * (byte + 1) + 0 = 8 * byte + bit + 1 by omega]
    simp only [key]

theorem scan_past {base len byte bit : Nat} (hl : 0 < len) (hb : bit < 8) :
    pend base len (scanNext (base + (8 * byte + bit) * len) byte bit) = [] := by
  have key : ¬ (base + (8 * byte + bit + 1) * len ≤ base + (8 * byte + bit) * len) := by
    rw [Nat.add_le_add_iff_left, Nat.mul_le_mul_right_iff hl]
    omega
  unfold scanNext
  by_cases hb : bit + 1 < 8
  · rw [if_pos hb]
    show (if base + (8 * byte + (bit + 1)) * len ≤ _ then _ else _) = _
    rw [show 8 * byte + (bit + 1) = 8 * byte + bit + 1 by omega, if_neg key]
  · rw [if_neg hb]
    show (if base + (8 * (byte + 1) + 0) * len ≤ _ then _ else _) = _
    rw [show 8 * (byte + 1) + 0 = 8 * byte + bit + 1 by omega, if_neg key]

theorem scanNext_fine {base len : Nat} {active : List (BitVec 8)} {p byte bit : Nat} (hb : bit < 8) (hp : ∃ i, p = base + i * len) :
    Fine base len active (scanNext p byte bit) := by
  unfold scanNext
  by_cases h : bit + 1 < 8
  · rw [if_pos h]; exact ⟨h, hp⟩
  · rw [if_neg h]; exact ⟨by omega, hp⟩

theorem scanNext_mid (p byte bit : Nat) : (scanNext p byte bit).mid = none := by
  unfold scanNext
  split <;> rfl

theorem lookNext_fine {base len : Nat} {active : List (BitVec 8)} (byte bit : Nat) : Fine base len active (lookNext byte bit) := by
  unfold lookNext
  by_cases h : bit + 1 < 8
  · rw [if_pos h]; exact h
  · rw [if_neg h]; exact (by omega : 0 < 8)

theorem lookNext_mid (byte bit : Nat) : (lookNext byte bit).mid = none := by
  unfold lookNext
  split <;> rfl

theorem lookNext_pend (base len byte bit : Nat) : pend base len (lookNext byte bit) = [] := by
  unfold lookNext
  split <;> rfl

/-- The write that gives a buffer to a thread. -/
theorem Inv.set {base num len : Nat} {s : Shared} (h : Inv base num len s) (t byte bit : Nat) (v : BitVec 8) (hpc : (s.th t).pc = .setW byte bit v)
    (hlt : byte < s.pool.active.length) : Inv base num len
      ({ s with pool := { s.pool with active := s.pool.active.set byte (v ||| (1#8 <<< bit)) } }.put t ⟨.idle, (base + (8 * byte + bit) * len) :: (s.th t).held⟩) := by
  have hf := h.fine t
  rw [hpc] at hf
  obtain ⟨h8, hv, hz⟩ := hf
  have hbits := h.bits
  have hi : 8 * byte + bit < num := by omega
  have hfree : ∀ u, base + (8 * byte + bit) * len ∉ (s.th u).own base len := by
    intro u hu
    have := (h.bit _ hi).2 ⟨u, hu⟩
    rw [hz] at this
    cases this
  have hnew : ∀ j, bitAt (s.pool.active.set byte (v ||| (1#8 <<< bit))) j = (bitAt s.pool.active j || decide (j = 8 * byte + bit)) := by
    intro j
    rw [bitAt_set _ _ _ hlt]
    by_cases hj : j / 8 = byte
    · rw [if_pos hj, or_shift_getLsbD _ _ _ h8]
      have hj' : j = 8 * byte + j % 8 := by omega
      have : bitAt s.pool.active j = v.getLsbD (j % 8) := by
        rw [hj', bitAt_pos (by omega) hv]
        congr 1
        omega
      rw [this]
      congr 1
      simp only [decide_eq_decide]
      omega
    · rw [if_neg hj]
      have : ¬ j = 8 * byte + bit := by omega
      simp [this]
  have hown : (s.th t).own base len = (s.th t).held := by
    unfold Thread.own
    rw [hpc]
    exact List.append_nil _
  have hown' : Thread.own base len ⟨.idle, (base + (8 * byte + bit) * len) :: (s.th t).held⟩ = (base + (8 * byte + bit) * len) :: (s.th t).own base len := by
    rw [hown]
    unfold Thread.own
    exact List.append_nil _
  have hmid : (s.th t).pc.mid = some byte := by rw [hpc]; rfl
  refine ⟨h.buf, h.num_eq, h.len_eq, h.len_pos, ?_, ?_, ?_, ?_, ?_, ?_, ?_⟩
  · show 8 * (s.pool.active.set byte _).length = num
    rw [List.length_set]
    exact hbits
  · intro u p hp
    by_cases hu : u = t
    · rw [hu, put_same, hown'] at hp
      rcases List.mem_cons.1 hp with rfl | hp
      · exact ⟨_, hi, rfl⟩
      · exact h.slot t p hp
    · rw [put_other _ _ hu] at hp
      exact h.slot u p hp
  · intro i hin
    show bitAt (s.pool.active.set byte _) i = true ↔ _
    rw [hnew, Bool.or_eq_true, h.bit i hin, decide_eq_true_eq]
    constructor
    · rintro (⟨u, hu⟩ | rfl)
      · by_cases hut : u = t
        · refine ⟨t, ?_⟩
          rw [put_same, hown']
          rw [hut] at hu
          exact List.mem_cons_of_mem _ hu
        · refine ⟨u, ?_⟩
          rw [put_other _ _ hut]
          exact hu
      · refine ⟨t, ?_⟩
        rw [put_same, hown']
        exact List.mem_cons_self
    · rintro ⟨u, hu⟩
      by_cases hut : u = t
      · rw [hut, put_same, hown'] at hu
        rcases List.mem_cons.1 hu with hu | hu
        · exact Or.inr (addr_inj h.len_pos hu)
        · exact Or.inl ⟨t, hu⟩
      · rw [put_other _ _ hut] at hu
        exact Or.inl ⟨u, hu⟩
  · intro u
    by_cases hu : u = t
    · rw [hu, put_same, hown']
      exact List.nodup_cons.2 ⟨hfree t, h.nodup t⟩
    · rw [put_other _ _ hu]
      exact h.nodup u
  · intro u w huw p hp hq
    by_cases hu : u = t
    · have hw : w ≠ t := fun e => huw (hu.trans e.symm)
      rw [hu, put_same, hown'] at hp
      rw [put_other _ _ hw] at hq
      rcases List.mem_cons.1 hp with rfl | hp
      · exact hfree w hq
      · exact h.disj t w (Ne.symm hw) p hp hq
    · rw [put_other _ _ hu] at hp
      by_cases hw : w = t
      · rw [hw, put_same, hown'] at hq
        rcases List.mem_cons.1 hq with rfl | hq
        · exact hfree u hp
        · exact h.disj u t hu p hp hq
      · rw [put_other _ _ hw] at hq
        exact h.disj u w huw p hp hq
  · intro u
    by_cases hu : u = t
    · rw [hu, put_same]
      trivial
    · rw [put_other _ _ hu]
      exact (h.fine u).set byte _ hlt (h.excl t u (Ne.symm hu) byte hmid)
  · intro u w huw b hb
    by_cases hu : u = t
    · rw [hu, put_same] at hb
      cases hb
    · rw [put_other _ _ hu] at hb
      by_cases hw : w = t
      · rw [hw, put_same]
        intro hc
        cases hc
      · rw [put_other _ _ hw]
        exact h.excl u w huw b hb

/-- The write that makes a buffer free. -/
theorem Inv.clr {base num len : Nat} {s : Shared} (h : Inv base num len s) (t p byte bit : Nat) (v : BitVec 8) (hpc : (s.th t).pc = .clrW p byte bit v)
    (hlt : byte < s.pool.active.length) : Inv base num len
      ({ s with pool := { s.pool with active := s.pool.active.set byte (v &&& ~~~(1#8 <<< bit)) } }.put t { s.th t with pc := scanNext p byte bit }) := by
  have hf := h.fine t
  rw [hpc] at hf
  obtain ⟨h8, hv, rfl⟩ := hf
  have hbits := h.bits
  have hi : 8 * byte + bit < num := by omega
  have hnew : ∀ j, bitAt (s.pool.active.set byte (v &&& ~~~(1#8 <<< bit))) j = (bitAt s.pool.active j && !decide (j = 8 * byte + bit)) := by
    intro j
    rw [bitAt_set _ _ _ hlt]
    by_cases hj : j / 8 = byte
    · rw [if_pos hj, andnot_shift_getLsbD _ _ _ h8]
      have hj' : j = 8 * byte + j % 8 := by omega
      have : bitAt s.pool.active j = v.getLsbD (j % 8) := by
        rw [hj', bitAt_pos (by omega) hv]
        congr 1
        omega
      rw [this]
      congr 2
      simp only [decide_eq_decide]
      omega
    · rw [if_neg hj]
      have : ¬ j = 8 * byte + bit := by omega
      simp [this]
  have hown : (s.th t).own base len = (s.th t).held ++ [base + (8 * byte + bit) * len] := by
    unfold Thread.own
    rw [hpc]
    rfl
  have hown' : Thread.own base len { s.th t with pc := scanNext (base + (8 * byte + bit) * len) byte bit } = (s.th t).held := by
    unfold Thread.own
    dsimp only
    rw [scan_past h.len_pos h8, List.append_nil]
  have hnd := h.nodup t
  rw [hown, List.nodup_append] at hnd
  obtain ⟨hnd, -, hne⟩ := hnd
  have hgone : base + (8 * byte + bit) * len ∉ (s.th t).held := fun hc => hne _ hc _ (by simp) rfl
  have hin : ∀ q ∈ (s.th t).held, q ∈ (s.th t).own base len := by
    intro q hq
    rw [hown]
    exact List.mem_append.2 (Or.inl hq)
  have hit : base + (8 * byte + bit) * len ∈ (s.th t).own base len := by
    rw [hown]
    simp
  have hmid : (s.th t).pc.mid = some byte := by rw [hpc]; rfl
  refine ⟨h.buf, h.num_eq, h.len_eq, h.len_pos, ?_, ?_, ?_, ?_, ?_, ?_, ?_⟩
  · show 8 * (s.pool.active.set byte _).length = num
    rw [List.length_set]
    exact hbits
  · intro u p hp
    by_cases hu : u = t
    · rw [hu, put_same, hown'] at hp
      exact h.slot t p (hin p hp)
    · rw [put_other _ _ hu] at hp
      exact h.slot u p hp
  · intro i hin'
    show bitAt (s.pool.active.set byte _) i = true ↔ _
    rw [hnew, Bool.and_eq_true, h.bit i hin', Bool.not_eq_true', decide_eq_false_iff_not]
    constructor
    · rintro ⟨⟨u, hu⟩, hne'⟩
      by_cases hut : u = t
      · refine ⟨t, ?_⟩
        rw [put_same, hown']
        rw [hut, hown] at hu
        rcases List.mem_append.1 hu with hu | hu
        · exact hu
        · exact absurd (addr_inj h.len_pos (List.mem_singleton.1 hu)) hne'
      · refine ⟨u, ?_⟩
        rw [put_other _ _ hut]
        exact hu
    · rintro ⟨u, hu⟩
      by_cases hut : u = t
      · rw [hut, put_same, hown'] at hu
        refine ⟨⟨t, hin _ hu⟩, ?_⟩
        rintro rfl
        exact hgone hu
      · rw [put_other _ _ hut] at hu
        refine ⟨⟨u, hu⟩, ?_⟩
        rintro rfl
        exact h.disj u t hut _ hu hit
  · intro u
    by_cases hu : u = t
    · rw [hu, put_same, hown']
      exact hnd
    · rw [put_other _ _ hu]
      exact h.nodup u
  · intro u w huw p hp hq
    by_cases hu : u = t
    · have hw : w ≠ t := fun e => huw (hu.trans e.symm)
      rw [hu, put_same, hown'] at hp
      rw [put_other _ _ hw] at hq
      exact h.disj t w (Ne.symm hw) p (hin p hp) hq
    · rw [put_other _ _ hu] at hp
      by_cases hw : w = t
      · rw [hw, put_same, hown'] at hq
        exact h.disj u t hu p hp (hin p hq)
      · rw [put_other _ _ hw] at hq
        exact h.disj u w huw p hp hq
  · intro u
    by_cases hu : u = t
    · rw [hu, put_same]
      exact scanNext_fine h8 ⟨_, rfl⟩
    · rw [put_other _ _ hu]
      exact (h.fine u).set byte _ hlt (h.excl t u (Ne.symm hu) byte hmid)
  · intro u w huw b hb
    by_cases hu : u = t
    · rw [hu, put_same] at hb
      dsimp only at hb
      rw [scanNext_mid] at hb
      cases hb
    · rw [put_other _ _ hu] at hb
      by_cases hw : w = t
      · rw [hw, put_same]
        dsimp only
        rw [scanNext_mid]
        intro hc
        cases hc
      · rw [put_other _ _ hw]
        exact h.excl u w huw b hb

/-- A step of a thread that works alone. -/
theorem Inv.step {base num len : Nat} {s : Shared} (h : Inv base num len s) (t : Nat) (c : Call) (ha : Alone s t) :
    ∃ s', tstep s t c = .ok s' ∧ Inv base num len s' := by
  have hf := h.fine t
  have hn := h.nodup t
  have hal := h.activeLen
  have hmv : ∀ (a : At), pend base len a = pend base len (s.th t).pc → Fine base len s.pool.active a → (∀ b, a.mid = some b → (s.th t).pc.byte = some b) →
      Inv base num len (s.put t { s.th t with pc := a }) := by
    intro a hp hf hm
    have ho : Thread.own base len { s.th t with pc := a } = (s.th t).own base len := by
      unfold Thread.own
      dsimp only
      rw [hp]
    refine h.move t _ (fun p => by rw [ho]) (by rw [ho]; exact hn) hf ?_
    intro u hu b hb hc
    exact ha u hu b hc (hm b hb)
  unfold tstep
  dsimp only
  cases hpc : (s.th t).pc with
  | idle =>
    rw [hpc] at hmv hf
    cases c with
    | alloc l =>
      dsimp only
      by_cases hl : l > s.pool.len
      · rw [if_pos hl]; exact ⟨s, rfl, h⟩
      · rw [if_neg hl]
        exact ⟨_, rfl, hmv _ rfl (show 0 < 8 by omega) (fun b hb => by cases hb)⟩
    | free p =>
      dsimp only
      by_cases hp : p ∈ (s.th t).held
      · rw [if_pos hp]
        have hown : (s.th t).own base len = (s.th t).held := by
          unfold Thread.own
          rw [hpc]
          exact List.append_nil _
        rw [hown] at hn
        obtain ⟨i, hi, rfl⟩ := h.slot t p (by rw [hown]; exact hp)
        have ho : Thread.own base len ⟨.scan (base + i * len) 0 0, (s.th t).held.erase (base + i * len)⟩ =
            (s.th t).held.erase (base + i * len) ++ [base + i * len] := by
          unfold Thread.own pend
          dsimp only
          rw [if_pos (by simp)]
        refine ⟨_, rfl, h.move t _ ?_ ?_ ⟨show 0 < 8 by omega, i, rfl⟩ (fun u _ b hb => by cases hb)⟩
        · intro q
          rw [ho, hown, List.mem_append, List.mem_singleton, hn.mem_erase_iff]
          constructor
          · rintro (⟨-, hq⟩ | rfl)
            · exact hq
            · exact hp
          · intro hq
            by_cases e : q = base + i * len
            · exact Or.inr e
            · exact Or.inl ⟨e, hq⟩
        · rw [ho, List.nodup_append]
          refine ⟨hn.erase _, by simp, ?_⟩
          intro a ha b hb hab
          rw [List.mem_singleton.1 hb] at hab
          rw [hab, hn.mem_erase_iff] at ha
          exact ha.1 rfl
      · rw [if_neg hp]; exact ⟨s, rfl, h⟩
  | look byte bit =>
    rw [hpc] at hmv hf
    dsimp only
    by_cases hb : byte < s.pool.activeLen
    · rw [if_pos hb]
      rw [hal] at hb
      rw [List.getElem?_eq_getElem hb]
      dsimp only
      by_cases hz : s.pool.active[byte] &&& (1#8 <<< bit) = 0#8
      · rw [if_pos hz]
        refine ⟨_, rfl, hmv _ rfl ⟨hf, hb, ?_⟩ (fun b h => h)⟩
        rw [bitAt_pos hf (List.getElem?_eq_getElem hb)]
        exact (and_shift_eq_zero _ _ hf).1 hz
      · rw [if_neg hz]
        refine ⟨_, rfl, hmv _ (lookNext_pend _ _ _ _) (lookNext_fine _ _) (fun b hb => ?_)⟩
        rw [lookNext_mid] at hb
        cases hb
    · rw [if_neg hb]
      exact ⟨_, rfl, hmv _ rfl trivial (fun b hb => by cases hb)⟩
  | setR byte bit =>
    rw [hpc] at hmv hf
    obtain ⟨h8, hb, hz⟩ := hf
    dsimp only
    rw [List.getElem?_eq_getElem hb]
    exact ⟨_, rfl, hmv _ rfl ⟨h8, List.getElem?_eq_getElem hb, hz⟩ (fun b h => h)⟩
  | setW byte bit v =>
    rw [hpc] at hf
    have hb : byte < s.pool.active.length := by
      rcases Nat.lt_or_ge byte s.pool.active.length with hb | hb
      · exact hb
      · have := hf.2.1
        rw [List.getElem?_eq_none hb] at this
        cases this
    dsimp only
    rw [if_pos hb, h.slotAddr]
    exact ⟨_, rfl, h.set t byte bit v hpc hb⟩
  | scan p byte bit =>
    rw [hpc] at hmv hf
    dsimp only
    by_cases hb : byte < s.pool.activeLen
    · rw [if_pos hb, h.slotAddr]
      rw [hal] at hb
      by_cases hp : p = base + (8 * byte + bit) * len
      · rw [if_pos hp]
        refine ⟨_, rfl, hmv _ ?_ ⟨hf.1, hb, hp⟩ (fun b h => h)⟩
        show [p] = if _ then [p] else []
        rw [if_pos (by omega)]
      · rw [if_neg hp]
        refine ⟨_, rfl, hmv _ (scan_pend h.len_pos hf.1 hf.2 hp) (scanNext_fine hf.1 hf.2) (fun b hb => ?_)⟩
        rw [scanNext_mid] at hb
        cases hb
    · rw [if_neg hb]
      refine ⟨_, rfl, hmv _ ?_ trivial (fun b hb => by cases hb)⟩
      show [] = if _ then [p] else []
      rw [if_neg]
      intro hc
      have : p ∈ (s.th t).own base len := by
        unfold Thread.own
        rw [hpc]
        refine List.mem_append.2 (Or.inr ?_)
        show p ∈ if _ then [p] else []
        rw [if_pos hc]
        simp
      obtain ⟨i, hi, rfl⟩ := h.slot t p this
      rw [Nat.add_le_add_iff_left, Nat.mul_le_mul_right_iff h.len_pos] at hc
      have := h.bits
      omega
  | clrR p byte bit =>
    rw [hpc] at hmv hf
    obtain ⟨h8, hb, hz⟩ := hf
    dsimp only
    rw [List.getElem?_eq_getElem hb]
    exact ⟨_, rfl, hmv _ rfl ⟨h8, List.getElem?_eq_getElem hb, hz⟩ (fun b h => h)⟩
  | clrW p byte bit v =>
    rw [hpc] at hf
    have hb : byte < s.pool.active.length := by
      rcases Nat.lt_or_ge byte s.pool.active.length with hb | hb
      · exact hb
      · have := hf.2.1
        rw [List.getElem?_eq_none hb] at this
        cases this
    dsimp only
    rw [if_pos hb]
    exact ⟨_, rfl, h.clr t p byte bit v hpc hb⟩

theorem Inv.run {base num len : Nat} {s : Shared} (h : Inv base num len s) (es : List (Nat × Call)) (ha : AloneAll s es) :
    ∃ s', trun s es = .ok s' ∧ Inv base num len s' := by
  induction es generalizing s with
  | nil => exact ⟨s, rfl, h⟩
  | cons e es ih =>
    obtain ⟨s1, h1, h2⟩ := h.step e.1 e.2 ha.1
    obtain ⟨s2, h3, h4⟩ := ih h2 (ha.2 s1 h1)
    refine ⟨s2, ?_, h4⟩
    show (tstep s e.1 e.2 >>= fun s => trun s es) = _
    rw [h1]
    exact h3

theorem Inv.init {m : Pool} {base num len : Nat} (r : Rel m base num len []) : Inv base num len (tinit m) := by
  refine ⟨r.buf, r.num_eq, r.len_eq, r.len_pos, r.bits, fun t p hp => (by cases hp), ?_, fun t => List.nodup_nil, fun t u _ p hp => (by cases hp),
    fun t => trivial, fun t u _ b hb => (by cases hb)⟩
  intro i hi
  show bitAt m.active i = true ↔ _
  rw [r.bit i hi]
  constructor
  · intro h; cases h
  · rintro ⟨t, h⟩; cases h

theorem Inv.exclusive {base num len : Nat} {s : Shared} (h : Inv base num len s) : Exclusive len s := by
  have hin : ∀ t, ∀ p ∈ (s.th t).held, p ∈ (s.th t).own base len := fun t p hp => List.mem_append.2 (Or.inl hp)
  have hd : ∀ t u p q, p ∈ (s.th t).held → q ∈ (s.th u).held → p ≠ q → Disjoint len p q := by
    intro t u p q hp hq hne
    obtain ⟨i, -, rfl⟩ := h.slot t p (hin t p hp)
    obtain ⟨j, -, rfl⟩ := h.slot u q (hin u q hq)
    exact disjoint_of_ne (fun e => hne (by rw [e]))
  constructor
  · intro t
    have hn : (s.th t).held.Nodup := (List.nodup_append.1 (h.nodup t)).1
    exact hn.imp_of_mem (fun hp hq hne => hd t t _ _ hp hq hne)
  · intro t u htu p hp q hq
    refine hd t u p q hp hq ?_
    rintro rfl
    exact h.disj t u htu p (hin t p hp) (hin u p hq)

theorem Inv.noneLost {base num len : Nat} {s : Shared} (h : Inv base num len s) (hq : Quiet s) : NoneLost base num len s := by
  have hown : ∀ t, (s.th t).own base len = (s.th t).held := by
    intro t
    unfold Thread.own
    rw [hq t]
    exact List.append_nil _
  intro l hn hl cs
  refine (Rel.run (h := l) ⟨h.buf, h.num_eq, h.len_eq, h.len_pos, h.bits, ?_, ?_, hn⟩ cs).1
  · intro p hp
    obtain ⟨t, ht⟩ := (hl p).1 hp
    exact h.slot t p (by rw [hown]; exact ht)
  · intro i hi
    rw [h.bit i hi, hl]
    simp only [hown]

theorem tstep_other {s s' : Shared} {t u : Nat} {c : Call} (h : tstep s t c = .ok s') (hu : u ≠ t) : (s'.th u) = s.th u := by
  have hp : ∀ (s : Shared) (x : Thread), (s.put t x).th u = s.th u := fun s x => put_other s x hu
  unfold tstep at h
  dsimp only at h
  cases hpc : (s.th t).pc with
  | idle =>
    rw [hpc] at h
    cases c with
    | alloc l =>
      have := Out.ok.inj h
      by_cases hl : l > s.pool.len
      · rw [if_pos hl] at this; rw [← this]
      · rw [if_neg hl] at this; rw [← this, hp]
    | free p =>
      have := Out.ok.inj h
      by_cases hl : p ∈ (s.th t).held
      · rw [if_pos hl] at this; rw [← this, hp]
      · rw [if_neg hl] at this; rw [← this]
  | look byte bit =>
    rw [hpc] at h
    dsimp only at h
    split at h
    · split at h
      · cases h
      · rw [← Out.ok.inj h, hp]
    · rw [← Out.ok.inj h, hp]
  | setR byte bit =>
    rw [hpc] at h
    dsimp only at h
    split at h
    · cases h
    · rw [← Out.ok.inj h, hp]
  | setW byte bit v =>
    rw [hpc] at h
    dsimp only at h
    split at h
    · rw [← Out.ok.inj h, hp]
    · cases h
  | scan p byte bit =>
    rw [hpc] at h
    dsimp only at h
    split at h
    · rw [← Out.ok.inj h, hp]
    · rw [← Out.ok.inj h, hp]
  | clrR p byte bit =>
    rw [hpc] at h
    dsimp only at h
    split at h
    · cases h
    · rw [← Out.ok.inj h, hp]
  | clrW p byte bit v =>
    rw [hpc] at h
    dsimp only at h
    split at h
    · rw [← Out.ok.inj h, hp]
    · cases h

end FreeCoAP.Mem
