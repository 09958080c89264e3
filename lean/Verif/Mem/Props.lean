import Verif.Mem.Lemmas

/-!
# Properties of the buffer pools (C01 - C04)

`create W s r1 r2 num len = (.ok m, s')` says that pool creation succeeded.
`run m cs` is an arbitrary history `cs` of calls on it and `(run m cs).1` the
observable trace; `held [] t` are the buffers handed out and not yet freed.
-/

namespace FreeCoAP.Mem

/-- C01. After any history of calls, every buffer handed out and not yet freed
starts on a buffer boundary, lies inside the block obtained from the system, and
shares no byte with any other such buffer. `num * len < W` excludes the overflow
of C04. -/
theorem C01_buffers_exclusive {W : Nat} {s s' : Sys} {r1 r2 : Option Nat} {num len : Nat} {m : Pool}
    (hc : create W s r1 r2 num len = (.ok m, s')) (hW : num * len < W) (cs : List Call) :
    (∀ p ∈ held [] (run m cs).1,
        (∃ i, i < num ∧ p = m.buf + i * len) ∧
        ∃ sz, (m.buf, sz) ∈ s' ∧ m.buf ≤ p ∧ p + len ≤ m.buf + sz) ∧
    (held [] (run m cs).1).Pairwise (Disjoint len) := by
  have r := ((create_rel hc).run cs).2
  obtain ⟨-, -, -, -, -, -, -, hs'⟩ := create_ok hc
  constructor
  · intro p hp
    obtain ⟨i, hi, rfl⟩ := r.mem p hp
    refine ⟨⟨i, hi, rfl⟩, num * len, ?_, by omega, ?_⟩
    · rw [hs', Nat.mod_eq_of_lt hW]; simp
    · have : (i + 1) * len ≤ num * len := Nat.mul_le_mul_right _ hi
      rw [Nat.add_mul] at this
      omega
  · refine List.Pairwise.imp_of_mem ?_ r.nodup
    intro p q hp hq hne
    obtain ⟨i, -, rfl⟩ := r.mem p hp
    obtain ⟨j, -, rfl⟩ := r.mem q hq
    apply disjoint_of_ne
    rintro rfl
    exact hne rfl

/-- The hypotheses of C01 - C03 hold for a pool of 16 buffers of 10 bytes. -/
example : ∃ m s', create (2 ^ 64) [] (some 1000) (some 2000) 16 10 = (.ok m, s') ∧ 16 * 10 < 2 ^ 64 ∧
    held [] (run m [.alloc 3, .alloc 10, .free 1000, .alloc 1, .alloc 11, .free 5]).1 = [1000, 1010] := by
  exact ⟨_, _, rfl, by decide, by decide⟩

/-- C02. After any history, an allocation fails exactly when the request is longer
than a buffer or all `num` buffers are handed out. -/
theorem C02_alloc_fails_iff {W : Nat} {s s' : Sys} {r1 r2 : Option Nat} {num len : Nat} {m : Pool}
    (hc : create W s r1 r2 num len = (.ok m, s')) (cs : List Call) (l : Nat) :
    ((run m cs).2.alloc l).1 = none ↔
      (len < l ∨ (held [] (run m cs).1).length = num) := by
  have r := ((create_rel hc).run cs).2
  rw [(r.alloc l).1]
  unfold specAlloc
  by_cases hl : l > len
  · simp [hl]
  · simp only [hl, if_false]
    have hl' : ¬ len < l := hl
    simp only [hl', false_or]
    have hsub : ∀ p ∈ held [] (run m cs).1, p ∈ slots m.buf num len := by
      intro p hp
      obtain ⟨i, hi, rfl⟩ := r.mem p hp
      exact List.mem_map.2 ⟨i, List.mem_range.2 hi, rfl⟩
    have hslen : (slots m.buf num len).length = num := by simp [slots]
    have hsn : (slots m.buf num len).Nodup := by
      unfold slots
      rw [List.nodup_iff_pairwise_ne, List.pairwise_map]
      refine List.Pairwise.imp ?_ List.nodup_range
      intro a b hab e
      exact hab (addr_inj r.len_pos e)
    constructor
    · intro h
      rw [List.find?_eq_none] at h
      have hsup : ∀ p ∈ slots m.buf num len, p ∈ held [] (run m cs).1 := by
        intro p hp
        have := h p hp
        simpa using this
      have h1 : (held [] (run m cs).1).length ≤ num := by
        rw [← hslen]; exact List.Nodup.length_le_of_subset r.nodup hsub
      have h2 : num ≤ (held [] (run m cs).1).length := by
        rw [← hslen]; exact List.Nodup.length_le_of_subset hsn hsup
      omega
    · intro h
      rw [List.find?_eq_none]
      intro p hp
      have hperm : ∀ p ∈ slots m.buf num len, p ∈ held [] (run m cs).1 := by
        intro q hq
        by_cases hh : q ∈ held [] (run m cs).1
        · exact hh
        · exfalso
          have hn : (q :: held [] (run m cs).1).Nodup := List.nodup_cons.2 ⟨hh, r.nodup⟩
          have : (q :: held [] (run m cs).1).length ≤ num := by
            rw [← hslen]
            apply List.Nodup.length_le_of_subset hn
            intro x hx
            rcases List.mem_cons.1 hx with rfl | hx
            · exact hq
            · exact hsub x hx
          simp only [List.length_cons] at this
          omega
      simp [hperm p hp]

/-- C02, C03 (refinement). The pool is observably an ideal first-fit allocator:
for every history the pointers returned are those of the specification, which
keeps only the list of buffers currently handed out. -/
theorem C02_first_fit_refinement {W : Nat} {s s' : Sys} {r1 r2 : Option Nat} {num len : Nat} {m : Pool}
    (hc : create W s r1 r2 num len = (.ok m, s')) (cs : List Call) :
    (run m cs).1 = specRun m.buf num len [] cs :=
  ((create_rel hc).run cs).1

/-- C03. After any history, freeing a pointer that is not a buffer currently handed
out (never handed out, already freed, or foreign) leaves the pool unchanged. -/
theorem C03_free_other_noop {W : Nat} {s s' : Sys} {r1 r2 : Option Nat} {num len : Nat} {m : Pool}
    (hc : create W s r1 r2 num len = (.ok m, s')) (cs : List Call) (p : Nat)
    (hp : p ∉ held [] (run m cs).1) : (run m cs).2.free p = (run m cs).2 :=
  ((create_rel hc).run cs).2.free_not_held p hp

/-- C03. After any history, freeing a buffer that is handed out makes that buffer
available and no other: the next allocation succeeds, it returns either the freed
buffer or the one it would have returned anyway, and if all buffers were handed
out it returns the freed one. -/
theorem C03_free_exact {W : Nat} {s s' : Sys} {r1 r2 : Option Nat} {num len : Nat} {m : Pool}
    (hc : create W s r1 r2 num len = (.ok m, s')) (cs : List Call) (p : Nat)
    (hp : p ∈ held [] (run m cs).1) :
    ((run m cs).2.free p).alloc len ≠ (none, (run m cs).2.free p) ∧
    (∀ q, (((run m cs).2.free p).alloc len).1 = some q →
        q = p ∨ (((run m cs).2.alloc len).1 = some q)) ∧
    ((held [] (run m cs).1).length = num → (((run m cs).2.free p).alloc len).1 = some p) := by
  have r := ((create_rel hc).run cs).2
  have rf := r.free p
  obtain ⟨i, hi, hpi⟩ := r.mem p hp
  have hpslot : p ∈ slots m.buf num len := List.mem_map.2 ⟨i, List.mem_range.2 hi, hpi.symm⟩
  have hpn : p ∉ (held [] (run m cs).1).filter (· ≠ p) := by simp
  have ha := (rf.alloc len).1
  have ha0 := (r.alloc len).1
  unfold specAlloc at ha ha0
  rw [if_neg (by omega)] at ha ha0
  refine ⟨?_, ?_, ?_⟩
  · intro e
    have e1 : (((run m cs).2.free p).alloc len).1 = none := by rw [e]
    rw [ha, List.find?_eq_none] at e1
    have := e1 p hpslot
    simp at this
  · intro q hq
    rw [ha] at hq
    rw [ha0]
    by_cases hqp : q = p
    · exact Or.inl hqp
    · right
      rw [List.find?_eq_some_iff_append] at hq ⊢
      obtain ⟨h1, as, bs, h2, h3⟩ := hq
      refine ⟨?_, as, bs, h2, ?_⟩
      · simp only [Bool.not_eq_true', List.contains_eq_mem, decide_eq_false_iff_not,
          List.mem_filter, decide_eq_true_eq, not_and, Decidable.not_not] at h1 ⊢
        intro hh; exact hqp (h1 hh)
      · intro a hmem
        have := h3 a hmem
        simp only [Bool.not_eq_true', Bool.not_eq_false', List.contains_eq_mem, decide_eq_true_eq,
          List.mem_filter, Bool.not_not] at this ⊢
        exact this.1
  · intro hfull
    rw [ha]
    have hnone := (C02_alloc_fails_iff hc cs len).2 (Or.inr hfull)
    rw [ha0, List.find?_eq_none] at hnone
    cases hf : (slots m.buf num len).find? (fun q => !((held [] (run m cs).1).filter (· ≠ p)).contains q) with
    | none =>
      rw [List.find?_eq_none] at hf
      have := hf p hpslot
      simp at this
    | some q =>
      have hq := List.find?_some hf
      have hm := List.mem_of_find?_eq_some hf
      have h0 := hnone q hm
      simp only [Bool.not_eq_true', List.contains_eq_mem, decide_eq_false_iff_not,
          List.mem_filter, decide_eq_true_eq, not_and, Decidable.not_not] at hq h0
      rw [hq h0]

/-- C04, full statement: creation succeeds only for a valid geometry, the block
obtained holds all the buffers, and on failure nothing stays allocated. -/
def C04_statement (W : Nat) : Prop :=
  ∀ (s s' : Sys) (r1 r2 : Option Nat) (num len : Nat) (res : Except Err Pool),
    num < W → len < W → (∀ a, r1 = some a → ∀ b ∈ s, b.1 ≠ a) →
    create W s r1 r2 num len = (res, s') →
    match res with
    | .ok m => num % 8 = 0 ∧ 0 < len ∧ ∃ sz, (m.buf, sz) ∈ s' ∧ num * len ≤ sz
    | .error _ => s' = s

/-- C04 is false of the code: with 64 bit `size_t`, 8 buffers of 2^61 bytes are
"created" in a block of 0 bytes, because the product wraps. -/
theorem C04_violated : ¬ C04_statement (2 ^ 64) := by
  intro h
  have := h [] [(2000, 1), (1000, 0)] (some 1000) (some 2000) 8 (2 ^ 61)
    (.ok ⟨1000, 8, 2 ^ 61, 2000, [0#8]⟩) (by decide) (by decide) (by simp) (by rfl)
  simp at this

/-- C04, partial: it holds whenever the product does not wrap. Missing: the case
`num * len ≥ W`, where it is false. -/
theorem C04_create_sound_partial (W : Nat) (s s' : Sys) (r1 r2 : Option Nat) (num len : Nat)
    (res : Except Err Pool) (hW : num * len < W) (hfresh : ∀ a, r1 = some a → ∀ b ∈ s, b.1 ≠ a)
    (hc : create W s r1 r2 num len = (res, s')) :
    match res with
    | .ok m => num % 8 = 0 ∧ 0 < len ∧ (m.buf, num * len) ∈ s' ∧ r1 = some m.buf ∧ m.num = num ∧ m.len = len
    | .error _ => s' = s := by
  cases res with
  | ok m =>
    obtain ⟨h1, h2, h3, -, h5, h6, -, h7⟩ := create_ok hc
    have h8 : num &&& 7 = num % 8 := Nat.and_two_pow_sub_one_eq_mod num 3
    refine ⟨by omega, h2, ?_, h3, h5, h6⟩
    rw [h7, Nat.mod_eq_of_lt hW]; simp
  | error e =>
    simp only
    unfold create at hc
    split at hc
    · simp only [Prod.mk.injEq] at hc; exact hc.2.symm
    · cases r1 with
      | none => simp only [Prod.mk.injEq] at hc; exact hc.2.symm
      | some b =>
        cases r2 with
        | none =>
          simp only [Prod.mk.injEq] at hc
          rw [← hc.2]
          simp only [sysFree, ne_eq, decide_not, List.filter_cons, decide_true, Bool.not_true,
            Bool.false_eq_true, if_false]
          rw [List.filter_eq_self]
          intro a ha
          have := hfresh b rfl a ha
          simpa using this
        | some a => simp at hc

theorem sysFree_cons_self (s : Sys) (a n : Nat) (h : ∀ b ∈ s, b.1 ≠ a) :
    sysFree ((a, n) :: s) a = s := by
  simp only [sysFree, ne_eq, decide_not, List.filter_cons, decide_true, Bool.not_true,
    Bool.false_eq_true, if_false]
  rw [List.filter_eq_self]
  intro b hb
  have := h b hb
  simpa using this

theorem destroy_create {W : Nat} {s s' : Sys} {r1 r2 : Option Nat} {num len : Nat} {m : Pool}
    (hc : create W s r1 r2 num len = (.ok m, s'))
    (h1 : ∀ a, r1 = some a → ∀ b ∈ s, b.1 ≠ a) (h2 : ∀ a, r2 = some a → ∀ b ∈ s, b.1 ≠ a)
    (h12 : ∀ a, r1 = some a → r2 ≠ some a) : (destroy s' m).2 = s := by
  obtain ⟨-, -, e1, e2, -, -, -, e3⟩ := create_ok hc
  have hne : m.buf ≠ m.activePtr := by
    intro e; exact h12 _ e1 (by rw [e2, e])
  unfold destroy
  rw [e3]
  simp only
  rw [sysFree_cons_self, sysFree_cons_self]
  · exact h1 _ e1
  · intro b hb
    rcases List.mem_cons.1 hb with rfl | hb
    · exact hne
    · exact h2 _ e2 b hb

/-- What the system allocator returns is fresh: different from every block in use
and from each other. -/
def Fresh (s : Sys) : List (Option Nat) → Prop
  | [] => True
  | r :: rs => (∀ a, r = some a → (∀ b ∈ s, b.1 ≠ a) ∧ some a ∉ rs) ∧ Fresh s rs

/-- C04. If one of the three pools cannot be created, the pools created before it
are given back: the system allocator is left as it was. -/
theorem C04_all_create_failure (W : Nat) (s s' : Sys) (rs rm rl : SysRes) (sn sl mn ml ln ll : Nat)
    (e : Err) (hf : Fresh s [rs.1, rs.2, rm.1, rm.2, rl.1, rl.2])
    (hw : sn * sl < W ∧ mn * ml < W ∧ ln * ll < W)
    (hc : allCreate W s rs rm rl sn sl mn ml ln ll = (.error e, s')) : s' = s := by
  obtain ⟨f1, f2, f3, f4, f5, f6, -⟩ := hf
  unfold allCreate at hc
  split at hc
  · rename_i e1 s1 h1
    simp only [Prod.mk.injEq] at hc
    rw [← hc.2]
    exact C04_create_sound_partial W s s1 rs.1 rs.2 sn sl _ hw.1 (fun a ha => (f1 a ha).1) h1
  · rename_i small s1 h1
    have d1 : (destroy s1 small).2 = s := destroy_create h1 (fun a ha => (f1 a ha).1)
      (fun a ha => (f2 a ha).1) (fun a ha hb => (f1 a ha).2 (by simp [hb]))
    obtain ⟨-, -, b1, a1, -, -, -, es1⟩ := create_ok h1
    have fresh1 : ∀ x, (∀ b ∈ s, b.1 ≠ x) → x ≠ small.buf → x ≠ small.activePtr → ∀ b ∈ s1, b.1 ≠ x := by
      intro x hx hxb hxa b hb
      rw [es1] at hb
      rcases List.mem_cons.1 hb with rfl | hb
      · exact fun e => hxa e.symm
      · rcases List.mem_cons.1 hb with rfl | hb
        · exact fun e => hxb e.symm
        · exact hx b hb
    have q3 : ∀ a, rm.1 = some a → ∀ b ∈ s1, b.1 ≠ a := by
      intro a ha
      refine fresh1 a (f3 a ha).1 ?_ ?_
      · rintro rfl; exact (f1 _ b1).2 (by simp [ha])
      · rintro rfl; exact (f2 _ a1).2 (by simp [ha])
    have q4 : ∀ a, rm.2 = some a → ∀ b ∈ s1, b.1 ≠ a := by
      intro a ha
      refine fresh1 a (f4 a ha).1 ?_ ?_
      · rintro rfl; exact (f1 _ b1).2 (by simp [ha])
      · rintro rfl; exact (f2 _ a1).2 (by simp [ha])
    split at hc
    · rename_i e2 s2 h2
      simp only [Prod.mk.injEq] at hc
      have : s2 = s1 := C04_create_sound_partial W s1 s2 rm.1 rm.2 mn ml _ hw.2.1 q3 h2
      rw [← hc.2, this, d1]
    · rename_i medium s2 h2
      have d2 : (destroy s2 medium).2 = s1 := destroy_create h2 q3 q4
        (fun a ha hb => (f3 a ha).2 (by simp [hb]))
      obtain ⟨-, -, b2, a2, -, -, -, es2⟩ := create_ok h2
      split at hc
      · rename_i e3 s3 h3
        simp only [Prod.mk.injEq] at hc
        have : s3 = s2 := by
          refine C04_create_sound_partial W s2 s3 rl.1 rl.2 ln ll _ hw.2.2 ?_ h3
          intro a ha b hb
          rw [es2] at hb
          rcases List.mem_cons.1 hb with rfl | hb
          · rintro rfl; exact (f4 _ a2).2 (by simp [ha])
          · rcases List.mem_cons.1 hb with rfl | hb
            · rintro rfl; exact (f3 _ b2).2 (by simp [ha])
            · refine fresh1 a (f5 a ha).1 ?_ ?_ b hb
              · rintro rfl; exact (f1 _ b1).2 (by simp [ha])
              · rintro rfl; exact (f2 _ a1).2 (by simp [ha])
        rw [← hc.2, this, d2, d1]
      · simp at hc

example : Fresh [(7, 1)] [some 1, some 2, some 3, some 4, some 5, none] ∧
    allCreate (2 ^ 64) [(7, 1)] (some 1, some 2) (some 3, some 4) (some 5, none) 8 1 8 1 8 1
      = (.error .ENOMEM, [(7, 1)]) := by
  refine ⟨?_, by rfl⟩
  simp [Fresh]

/-- C04. Which arguments are refused, stated outright. -/
theorem C04_create_einval (W : Nat) (s : Sys) (a1 a2 : Nat) (num len : Nat) :
    (create W s (some a1) (some a2) num len).1 = .error .EINVAL ↔ ¬ (num % 8 = 0 ∧ 0 < len) := by
  have h8 : num &&& 7 = num % 8 := Nat.and_two_pow_sub_one_eq_mod num 3
  unfold create
  rw [h8]
  by_cases h : num % 8 ≠ 0 ∨ len = 0
  · rw [if_pos h]
    simp only [true_iff]
    omega
  · rw [if_neg h]
    have : num % 8 = 0 ∧ 0 < len := by omega
    simp [this]

example : create (2 ^ 64) [(5, 3)] (some 1000) none 16 10 = (.error .ENOMEM, [(5, 3)]) := by rfl
example : 16 * 10 < 2 ^ 64 ∧ ∀ a, some 1000 = some a → ∀ b ∈ [((5 : Nat), (3 : Nat))], b.1 ≠ a := by
  decide

end FreeCoAP.Mem
