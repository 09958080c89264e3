import Verif.Sample.Lemmas

/-! # C91: the registrar is a map -/

namespace FreeCoAP.Sample

/-- C91: whatever the sequence of calls, the registrar behaves as a map from ids to addresses; it never uses memory that was freed; and when it is destroyed
no memory is left. -/
def C91_statement (L : Nat) : Prop :=
  ∀ ops : List Op, (∀ op ∈ ops, op.Fresh) → ∃ rs r m, run L create ops = .ok (rs, r) ∧ Behaves [] ops rs m ∧ destroy r = .ok []

theorem run_ok {L : Nat} : ∀ (ops : List Op) (prev : Option Nat) (clean : Bool) (l : Nodes) (r : Reg), Ok prev l r → Ids l →
    (clean = true → prev = none) → (∀ op ∈ ops, op.Fresh) → (∀ op ∈ ops, op.Fits L) → Deletes clean (toMap l) ops →
    ∃ rs r' m, run L r ops = .ok (rs, r') ∧ Behaves (toMap l) ops rs m ∧ destroy r' = .ok []
  | [], prev, clean, l, r, h, _, _, _, _, _ => ⟨[], r, _, rfl, .nil, destroy_ok h⟩
  | op :: ops, prev, clean, l, r, h, hi, hc, hf, hl, hd => by
    have hf' : ∀ op ∈ ops, op.Fresh := fun o ho => hf o (List.mem_cons_of_mem _ ho)
    have hl' : ∀ op ∈ ops, op.Fits L := fun o ho => hl o (List.mem_cons_of_mem _ ho)
    have hf0 := hf op (List.mem_cons_self ..)
    have hl0 := hl op (List.mem_cons_self ..)
    rw [run]
    suffices key : ∃ ok res r1 prev1 clean1 l1, step L r op = .ok (res, r1) ∧ Ok prev1 l1 r1 ∧ Ids l1 ∧ (clean1 = true → prev1 = none) ∧
        (toMap l).step ok op = (res, toMap l1) ∧ (op.Memory → ok = true) ∧ Deletes clean1 (toMap l1) ops by
      obtain ⟨ok, res, r1, prev1, clean1, l1, e1, e2, e3, e4, e5, e7, e6⟩ := key
      obtain ⟨rs, r', m, k1, k2, k3⟩ := run_ok ops prev1 clean1 l1 r1 e2 e3 e4 hf' hl' e6
      rw [e1, Out.bind_ok, k1, Out.bind_ok]
      refine ⟨_, _, m, rfl, ?_, k3⟩
      have := Behaves.cons (m := toMap l) (op := op) ok e7 (by rw [e5]; exact k2)
      rw [e5] at this
      exact this
    cases op with
    | add id addr alloc =>
      obtain ⟨ok, res, r1, prev1, l1, e1, e2, e3, e4, e5, e6⟩ := add_ok (L := L) h hi hf0 hl0.1 hl0.2
      refine ⟨ok, _, r1, prev1, clean, l1, by rw [step, e1, Out.bind_ok], e2, e3, ?_, e4, ?_, ?_⟩
      · intro hcl
        rcases e5 with e5 | ⟨-, e5⟩
        · rw [e5]; exact hc hcl
        · exact e5
      · intro hm
        refine eq_true_of_ne_false (fun h0 => ?_)
        obtain ⟨live, hn⟩ := e6 h0
        exact hm live hn
      · unfold Deletes at hd
        have : (Map.step (toMap l) ok (.add id addr alloc)).2 = toMap l1 := by rw [e4]
        rw [← this]
        cases ok
        · exact hd.2
        · exact hd.1
    | find id =>
      unfold Deletes at hd
      refine ⟨true, .found ((toMap l).get id), r, prev, clean, l, ?_, h, hi, hc, rfl, fun _ => rfl, hd.1⟩
      rw [step, find_ok h, Out.bind_ok, get_toMap]
      cases hx : l.find? (fun x => x.2.1 = id) with
      | none => rfl
      | some x =>
        obtain ⟨p, i, a⟩ := x
        obtain ⟨l1, l2, rfl, -, -⟩ := find_split hx
        obtain ⟨pr, d1, -⟩ := deref_ok (prev := prev) h.nodup
        simp only [Option.map_some]
        rw [h.heap, d1]
        rfl
    | del id =>
      cases l with
      | nil =>
        refine ⟨true, .ret (.error .EINVAL), r, prev, clean, [], ?_, h, hi, hc, rfl, fun _ => rfl, hd⟩
        rw [step, del, find_ok h]
        rfl
      | cons x l =>
        obtain ⟨p, i, a⟩ := x
        unfold Deletes at hd
        rw [show toMap ((p, i, a) :: l) = (i, a) :: toMap l from rfl] at hd ⊢
        dsimp only at hd
        split at hd
        · rename_i hn
          refine ⟨true, .ret (.error .EINVAL), r, prev, clean, (p, i, a) :: l, ?_, h, hi, hc, ?_, fun _ => rfl, hd⟩
          · rw [show ((i, a) :: toMap l) = toMap ((p, i, a) :: l) from rfl, get_toMap] at hn
            rw [step, del, find_ok h, Out.bind_ok]
            cases hx : ((p, i, a) :: l).find? (fun x => x.2.1 = id) with
            | none => rfl
            | some y => rw [hx] at hn; cases hn
          · rw [Option.isNone_iff_eq_none] at hn
            unfold Map.step
            dsimp only
            rw [hn]
            rfl
        · split at hd
          · rename_i hn hii
            subst hii
            have hids := List.nodup_cons.1 (show ((i :: l.map (fun x => x.2.1)) : List Bytes).Nodup from hi)
            have hst : Map.step ((i, a) :: toMap l) true (.del i) = (.ret (.ok 0), toMap l) := by
              unfold Map.step Map.get Map.remove
              dsimp only
              rw [List.find?_cons_of_pos (by simp), List.filter_cons_of_neg (by simp)]
              dsimp only
              congr 1
              apply List.filter_eq_self.2
              intro y hy
              obtain ⟨z, hz, rfl⟩ := List.mem_map.1 hy
              have : z.2.1 ≠ i := fun he => hids.1 (List.mem_map.2 ⟨z, hz, he⟩)
              simpa using this
            have hmap : toMap l = [] ↔ l = [] := by unfold toMap; rw [List.map_eq_nil_iff]
            split at hd
            · rename_i hnil
              have hl0 := hmap.1 hnil
              obtain ⟨r', e1, e2⟩ := del_ok h (fun _ => hc hd.1)
              rw [if_pos hl0] at e2
              refine ⟨true, _, r', none, true, l, by rw [step, e1, Out.bind_ok], e2, hids.2, fun _ => rfl, hst, fun _ => rfl, ?_⟩
              rw [hnil]
              exact hd.2
            · rename_i hnil
              obtain ⟨r', e1, e2⟩ := del_ok h (fun h0 => absurd (hmap.2 h0) hnil)
              exact ⟨true, _, r', _, false, l, by rw [step, e1, Out.bind_ok], e2, hids.2, (fun h => nomatch h), hst, fun _ => rfl, hd⟩
          · exact hd.elim

/-- C91 if the strings fit and no entry is deleted that has a predecessor (see `Deletes`); in particular for all sequences without deletions. -/
theorem C91_map_partial (L : Nat) (ops : List Op) (hf : ∀ op ∈ ops, op.Fresh) (hl : ∀ op ∈ ops, op.Fits L) (hd : Deletes true [] ops) :
    ∃ rs r m, run L create ops = .ok (rs, r) ∧ Behaves [] ops rs m ∧ destroy r = .ok [] :=
  run_ok ops none true [] create ⟨rfl, rfl, rfl, List.nodup_nil⟩ List.nodup_nil (fun _ => rfl) hf hl hd

theorem deletes_none : ∀ (ops : List Op) (m : Map) (c : Bool), (∀ op ∈ ops, ∀ id, op ≠ .del id) → Deletes c m ops
  | [], _, _, _ => by unfold Deletes; trivial
  | .del id :: ops, m, c, h => absurd rfl (h (.del id) (List.mem_cons_self ..) id)
  | .find id :: ops, m, c, h => by
    unfold Deletes
    exact ⟨deletes_none ops _ c (fun o ho => h o (List.mem_cons_of_mem _ ho)), deletes_none ops _ c (fun o ho => h o (List.mem_cons_of_mem _ ho))⟩
  | .add id addr al :: ops, m, c, h => by
    unfold Deletes
    exact ⟨deletes_none ops _ c (fun o ho => h o (List.mem_cons_of_mem _ ho)), deletes_none ops _ c (fun o ho => h o (List.mem_cons_of_mem _ ho))⟩

/-- The part that the sample server uses: it never deletes an entry. -/
theorem C91_server_partial (L : Nat) (ops : List Op) (hf : ∀ op ∈ ops, op.Fresh) (hl : ∀ op ∈ ops, op.Fits L) (hd : ∀ op ∈ ops, ∀ id, op ≠ .del id) :
    ∃ rs r m, run L create ops = .ok (rs, r) ∧ Behaves [] ops rs m ∧ destroy r = .ok [] :=
  C91_map_partial L ops hf hl (deletes_none ops [] true hd)

/-- An allocator. -/
def exAlloc (live : List Nat) : Option Nat := some (live.foldl max 0 + 1)

theorem foldl_max : ∀ (l : List Nat) (n : Nat), n ≤ l.foldl max n ∧ ∀ x ∈ l, x ≤ l.foldl max n
  | [], n => ⟨Nat.le_refl n, fun x h => by cases h⟩
  | y :: l, n => by
    obtain ⟨h1, h2⟩ := foldl_max l (max n y)
    rw [List.foldl_cons]
    refine ⟨by omega, fun x hx => ?_⟩
    rcases List.mem_cons.1 hx with rfl | hx
    · omega
    · exact h2 x hx

theorem exAlloc_fresh (live : List Nat) (p : Nat) (h : exAlloc live = some p) : p ∉ live := by
  cases h
  intro hm
  have := (foldl_max live 0).2 _ hm
  omega

/-- Three clients register, the first one is deleted. -/
def exOps : List Op := [.add [1] [10] exAlloc, .add [2] [20] exAlloc, .add [3] [30] exAlloc, .add [2] [21] exAlloc, .del [1], .find [1], .find [2]]

/-- The hypotheses are met. -/
example : ∃ rs r m, run 16 create exOps = .ok (rs, r) ∧ Behaves [] exOps rs m ∧ destroy r = .ok [] :=
  C91_map_partial 16 exOps
    (fun op h => by
      simp only [exOps, List.mem_cons, List.not_mem_nil, or_false] at h
      rcases h with rfl | rfl | rfl | rfl | rfl | rfl | rfl <;> first | exact exAlloc_fresh | trivial)
    (fun op h => by
      simp only [exOps, List.mem_cons, List.not_mem_nil, or_false] at h
      rcases h with rfl | rfl | rfl | rfl | rfl | rfl | rfl <;> first | exact ⟨by decide, by decide⟩ | trivial)
    (by simp [exOps, Deletes, Map.step, Map.get, Map.set])

/-- Two clients register and the second one is deleted. Then another one registers. -/
def badOps : List Op := [.add [1] [10] exAlloc, .add [2] [20] exAlloc, .del [2], .add [3] [30] exAlloc]

theorem isUb {α : Type} : ∀ {x : Out α}, (match x with | .ub => true | _ => false) = true → x = .ub
  | .ub, _ => rfl

/-- C91 fails: `registrar_del` does not change the pointers of the neighbours of the entry, and the next call that walks through the list follows a pointer to
memory that was freed. -/
theorem C91_violated (L : Nat) : ¬ C91_statement L := by
  intro h
  obtain ⟨rs, r, m, e, -⟩ := h badOps (fun op h => by
    simp only [badOps, List.mem_cons, List.not_mem_nil, or_false] at h
    rcases h with rfl | rfl | rfl | rfl <;> first | exact exAlloc_fresh | trivial)
  have hu : run L create badOps = .ub := by rfl
  rw [hu] at e
  cases e

/-- An id of 32 bytes. -/
def long : Bytes := List.replicate 32 0x61

/-- An id of more than 31 bytes is not found after it has been registered, and registering it again makes another entry. -/
theorem C91_violated_long : ∃ r, run 16 create [.add long [10] exAlloc, .find long, .add long [10] exAlloc] =
    .ok ([.ret (.ok 0), .found none, .ret (.ok 0)], r) ∧ r.heap.length = 2 := ⟨_, rfl, rfl⟩

end FreeCoAP.Sample
