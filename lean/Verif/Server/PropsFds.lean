import Verif.Server.SpecFds
import Verif.Proxy.LemmasFds

/-!
# C139: descriptors of the CoAP library
-/

namespace FreeCoAP.Server.Fds

open FreeCoAP.Proxy.Fds (opened fdSets lowest opened_some fdSets_ok lowest_some)

/-- C139: Whatever descriptors the application has open, every descriptor that the CoAP library puts into a descriptor set has a place in it, and
no two servers, clients or files share a descriptor. -/
def C139_statement : Prop :=
  ∀ lim s evs, Begins lim s → Handled lim s evs

/-- A step closes some descriptors or opens one for a new use. -/
inductive Change (lim : Nat) (s s' : State) : Prop
  | less (h : s'.Sublist s)
  | more (u : Use) (fd : Nat) (h : opened lim (used s) = some fd) (hu : u ∉ s.map Prod.fst) (hs : s' = (u, fd) :: s)

theorem has_mem {s : State} {u : Use} : has s u = true ↔ u ∈ s.map Prod.fst := by
  unfold has
  rw [List.any_eq_true, List.mem_map]
  constructor
  · rintro ⟨x, hx, hd⟩
    exact ⟨x, hx, of_decide_eq_true hd⟩
  · rintro ⟨x, hx, rfl⟩
    exact ⟨x, hx, decide_eq_true rfl⟩

theorem openFor_change {lim : Nat} {s : State} {u : Use} (hu : u ∉ s.map Prod.fst) : Change lim s (openFor lim s u) := by
  unfold openFor
  cases h : opened lim (used s) with
  | none => exact .less (List.Sublist.refl _)
  | some fd => exact .more u fd h hu rfl

theorem fdsOf_used {s : State} {u : Use} {fd : Nat} (h : fd ∈ fdsOf s u) : fd ∈ used s := by
  obtain ⟨x, hx, rfl⟩ := List.mem_map.1 h
  exact List.mem_map.2 ⟨x, (List.mem_filter.1 hx).1, rfl⟩

theorem step_change {lim : Nat} {s : State} (e : Event) (h : ∀ fd ∈ used s, fd < 1024) :
    ∃ s', step lim s e = .ok s' ∧ Change lim s s' := by
  have keep : Change lim s s := .less (List.Sublist.refl _)
  have shut : ∀ p, Change lim s (closeAll s p) := fun p => .less List.filter_sublist
  have sets : ∀ fds : List Nat, (∀ fd ∈ fds, fd ∈ used s) →
      ∃ s', (fdSets fds >>= fun _ => pure s : Out State) = .ok s' ∧ Change lim s s' := by
    intro fds hf
    rw [fdSets_ok (fun fd hm => h fd (hf fd hm)), Out.bind_ok]
    exact ⟨s, rfl, keep⟩
  have new : ∀ u, Change lim s (if has s u then s else openFor lim s u) := by
    intro u
    by_cases hu : has s u = true
    · rw [if_pos hu]; exact keep
    · rw [if_neg hu]; exact openFor_change (fun hm => hu (has_mem.2 hm))
  cases e with
  | serverSocket k => exact ⟨_, rfl, new _⟩
  | transTimer k i =>
    refine ⟨_, rfl, ?_⟩
    split
    · rename_i hc
      rw [Bool.and_eq_true, Bool.not_eq_true'] at hc
      refine openFor_change (fun hm => ?_)
      rw [has_mem.2 hm] at hc
      exact absurd hc.2 (by decide)
    · exact keep
  | serverShake k => exact sets _ (fun fd hm => fdsOf_used hm)
  | serverListen k =>
    refine sets _ (fun fd hm => ?_)
    rcases List.mem_append.1 hm with hm | hm
    · exact fdsOf_used hm
    · obtain ⟨i, _, hi⟩ := List.mem_flatMap.1 hm
      exact fdsOf_used hi
  | transClose k i => exact ⟨_, rfl, shut _⟩
  | serverClose k => exact ⟨_, rfl, shut _⟩
  | clientSocket k => exact ⟨_, rfl, new _⟩
  | clientTimer k =>
    unfold step
    dsimp only
    split
    · rename_i hc
      rw [Bool.and_eq_true, Bool.not_eq_true'] at hc
      cases ho : opened lim (used s) with
      | none => exact ⟨_, rfl, shut _⟩
      | some fd =>
        refine ⟨_, rfl, .more _ fd ho (fun hm => ?_) rfl⟩
        rw [has_mem.2 hm] at hc
        exact absurd hc.2 (by decide)
    · exact ⟨_, rfl, keep⟩
  | clientShake k => exact sets _ (fun fd hm => fdsOf_used hm)
  | clientWait k =>
    refine sets _ (fun fd hm => ?_)
    rcases List.mem_append.1 hm with hm | hm <;> exact fdsOf_used hm
  | clientClose k => exact ⟨_, rfl, shut _⟩
  | openOther k => exact ⟨_, rfl, new _⟩
  | closeOther k => exact ⟨_, rfl, shut _⟩

/-- What holds of the open descriptors at any time. -/
structure Fine (s : State) : Prop where
  uses : (s.map Prod.fst).Nodup
  distinct : (used s).Nodup

theorem Change.fine {lim : Nat} {s s' : State} (h : Change lim s s') (f : Fine s) : Fine s' := by
  cases h with
  | less h => exact ⟨f.uses.sublist (h.map _), f.distinct.sublist (h.map _)⟩
  | more u fd h hu hs =>
    subst hs
    exact ⟨List.nodup_cons.2 ⟨hu, f.uses⟩, List.nodup_cons.2 ⟨(opened_some h).2.1, f.distinct⟩⟩

theorem Change.lt {lim b : Nat} {s s' : State} (h : Change lim s s') (hb : ∀ fd ∈ used s, fd < b)
    (hn : ∀ fd, opened lim (used s) = some fd → s'.length = s.length + 1 → fd < b) : ∀ fd ∈ used s', fd < b := by
  intro x hx
  cases h with
  | less h => exact hb x ((h.map Prod.snd).subset hx)
  | more u fd h hu hs =>
    subst hs
    rcases List.mem_cons.1 hx with rfl | hm
    · exact hn _ h rfl
    · exact hb x hm

theorem run_cons {lim : Nat} {s s' : State} {e : Event} (h : step lim s e = .ok s') (es : List Event) :
    run lim s (e :: es) = run lim s' es := by
  show (step lim s e >>= fun s' => run lim s' es) = _
  rw [h, Out.bind_ok]

theorem run_limit {lim : Nat} (hl : lim ≤ 1024) : ∀ (evs : List Event) (s : State), (∀ fd ∈ used s, fd < lim) → Fine s → Handled lim s evs
  | [], s, _, f => ⟨s, rfl, f.distinct⟩
  | e :: es, s, h, f => by
    obtain ⟨s', h1, hc⟩ := step_change (lim := lim) e (fun fd hm => Nat.lt_of_lt_of_le (h fd hm) hl)
    obtain ⟨t, h2, h3⟩ := run_limit hl es s' (hc.lt h (fun fd ho _ => (opened_some ho).2.2)) (hc.fine f)
    exact ⟨t, (run_cons h1 es).trans h2, h3⟩

/-- C139, in a process that may have at most 1024 descriptors (the usual limit): every history is handled correctly. -/
theorem C139_limit_partial (lim : Nat) (hl : lim ≤ 1024) (s : State) (evs : List Event) (h : Begins lim s) : Handled lim s evs :=
  run_limit hl evs s h.limit ⟨h.uses, h.distinct⟩

theorem subset_length : ∀ {l k : List Use}, l.Nodup → l ⊆ k → l.length ≤ k.length
  | [], _, _, _ => Nat.zero_le _
  | a :: l, k, hn, hs => by
    rw [List.nodup_cons] at hn
    have ha : a ∈ k := hs List.mem_cons_self
    have hsub : l ⊆ k.erase a := by
      intro x hx
      refine (List.mem_erase_of_ne ?_).2 (hs (List.mem_cons_of_mem _ hx))
      rintro rfl
      exact hn.1 hx
    have ih := subset_length hn.2 hsub
    have := List.length_erase_of_mem ha
    have : 0 < k.length := List.length_pos_of_mem ha
    rw [List.length_cons]
    omega

/-- The uses that `ks` servers, `cs` clients and the other descriptors `os` have in all: nine for a server, two for a client. -/
def allUses (ks cs os : List Nat) : List Use :=
  ks.flatMap (fun k => .server k :: (List.range 8).map (.trans k)) ++ (cs.flatMap (fun k => [.client k, .timer k]) ++ os.map .other)

/-- A timer belongs to one of the eight transactions of a server that exists, or to a client that exists. -/
structure Owned (s : State) : Prop where
  trans : ∀ k i, Use.trans k i ∈ s.map Prod.fst → i < 8 ∧ Use.server k ∈ s.map Prod.fst
  timer : ∀ k, Use.timer k ∈ s.map Prod.fst → Use.client k ∈ s.map Prod.fst

theorem close_mem {s : State} {p : Use → Bool} {u : Use} : u ∈ (closeAll s p).map Prod.fst ↔ u ∈ s.map Prod.fst ∧ p u = false := by
  unfold closeAll
  rw [List.mem_map, List.mem_map]
  constructor
  · rintro ⟨x, hx, rfl⟩
    have := List.mem_filter.1 hx
    exact ⟨⟨x, this.1, rfl⟩, by simpa using this.2⟩
  · rintro ⟨⟨x, hx, rfl⟩, hp⟩
    exact ⟨x, List.mem_filter.2 ⟨hx, by simpa using hp⟩, rfl⟩

theorem Owned.close {s : State} (h : Owned s) {p : Use → Bool} (h1 : ∀ k i, p (.server k) = true → p (.trans k i) = true)
    (h2 : ∀ k, p (.client k) = true → p (.timer k) = true) : Owned (closeAll s p) := by
  constructor
  · intro k i hm
    obtain ⟨hm, hp⟩ := close_mem.1 hm
    refine ⟨(h.trans k i hm).1, close_mem.2 ⟨(h.trans k i hm).2, ?_⟩⟩
    cases hs : p (.server k) with
    | false => rfl
    | true => rw [h1 k i hs] at hp; cases hp
  · intro k hm
    obtain ⟨hm, hp⟩ := close_mem.1 hm
    refine close_mem.2 ⟨h.timer k hm, ?_⟩
    cases hs : p (.client k) with
    | false => rfl
    | true => rw [h2 k hs] at hp; cases hp

theorem Owned.cons {s : State} (h : Owned s) {u : Use} {fd : Nat}
    (h1 : ∀ k i, u = .trans k i → i < 8 ∧ Use.server k ∈ s.map Prod.fst) (h2 : ∀ k, u = .timer k → Use.client k ∈ s.map Prod.fst) :
    Owned ((u, fd) :: s) := by
  constructor
  · intro k i hm
    rw [List.map_cons] at hm ⊢
    rcases List.mem_cons.1 hm with hu | hm
    · exact ⟨(h1 k i hu.symm).1, List.mem_cons_of_mem _ (h1 k i hu.symm).2⟩
    · exact ⟨(h.trans k i hm).1, List.mem_cons_of_mem _ (h.trans k i hm).2⟩
  · intro k hm
    rw [List.map_cons] at hm ⊢
    rcases List.mem_cons.1 hm with hu | hm
    · exact List.mem_cons_of_mem _ (h2 k hu.symm)
    · exact List.mem_cons_of_mem _ (h.timer k hm)

theorem Owned.open {s : State} (h : Owned s) {lim : Nat} {u : Use}
    (h1 : ∀ k i, u = .trans k i → i < 8 ∧ Use.server k ∈ s.map Prod.fst) (h2 : ∀ k, u = .timer k → Use.client k ∈ s.map Prod.fst) :
    Owned (openFor lim s u) := by
  unfold openFor
  split
  · exact h.cons h1 h2
  · exact h

theorem Owned.step {lim : Nat} {s s' : State} (h : Owned s) {e : Event} (hs : step lim s e = .ok s') : Owned s' := by
  have sets : ∀ fds : List Nat, (fdSets fds >>= fun _ => pure s : Out State) = .ok s' → Owned s' := by
    intro fds hf
    cases hq : fdSets fds with
    | ok a => rw [hq, Out.bind_ok] at hf; cases hf; exact h
    | err a => rw [hq] at hf; cases hf
    | ub => rw [hq] at hf; cases hf
  cases e with
  | serverSocket k =>
    cases hs
    split
    · exact h
    · exact h.open (fun _ _ hu => by cases hu) (fun _ hu => by cases hu)
  | transTimer k i =>
    cases hs
    split
    · rename_i hc
      rw [Bool.and_eq_true, Bool.and_eq_true] at hc
      refine h.open (fun _ _ hu => ?_) (fun _ hu => by cases hu)
      cases hu
      exact ⟨of_decide_eq_true hc.1.2, has_mem.1 hc.1.1⟩
    · exact h
  | serverShake k => exact sets _ hs
  | serverListen k => exact sets _ hs
  | transClose k i =>
    cases hs
    exact h.close (fun _ _ hp => by cases of_decide_eq_true hp) (fun _ hp => by cases of_decide_eq_true hp)
  | serverClose k =>
    cases hs
    exact h.close (fun _ _ hp => hp) (fun _ hp => by cases hp)
  | clientSocket k =>
    cases hs
    split
    · exact h
    · exact h.open (fun _ _ hu => by cases hu) (fun _ hu => by cases hu)
  | clientTimer k =>
    unfold Fds.step at hs
    dsimp only at hs
    split at hs
    · rename_i hc
      rw [Bool.and_eq_true] at hc
      split at hs
      · cases hs
        refine h.cons (fun _ _ hu => by cases hu) (fun _ hu => ?_)
        cases hu
        exact has_mem.1 hc.1
      · cases hs
        exact h.close (fun _ _ hp => by cases hp) (fun _ hp => hp)
    · cases hs; exact h
  | clientShake k => exact sets _ hs
  | clientWait k => exact sets _ hs
  | clientClose k =>
    cases hs
    exact h.close (fun _ _ hp => by cases hp) (fun _ hp => hp)
  | openOther k =>
    cases hs
    split
    · exact h
    · exact h.open (fun _ _ hu => by cases hu) (fun _ hu => by cases hu)
  | closeOther k =>
    cases hs
    exact h.close (fun _ _ hp => by cases of_decide_eq_true hp) (fun _ hp => by cases of_decide_eq_true hp)

theorem Begins.owned {lim : Nat} {s : State} (h : Begins lim s) : Owned s := by
  constructor
  · intro k i hm
    obtain ⟨x, hx, he⟩ := List.mem_map.1 hm
    obtain ⟨j, hj⟩ := h.mine x hx
    cases he.symm.trans hj
  · intro k hm
    obtain ⟨x, hx, he⟩ := List.mem_map.1 hm
    obtain ⟨j, hj⟩ := h.mine x hx
    cases he.symm.trans hj

theorem Owned.all {s : State} (h : Owned s) {ks cs os : List Nat} (h1 : ∀ k, .server k ∈ s.map Prod.fst → k ∈ ks)
    (h2 : ∀ k, .client k ∈ s.map Prod.fst → k ∈ cs) (h3 : ∀ k, .other k ∈ s.map Prod.fst → k ∈ os) : s.map Prod.fst ⊆ allUses ks cs os := by
  intro u hu
  unfold allUses
  cases u with
  | server k => exact List.mem_append_left _ (List.mem_flatMap.2 ⟨k, h1 k hu, List.mem_cons_self⟩)
  | trans k i =>
    obtain ⟨hi, hk⟩ := h.trans k i hu
    exact List.mem_append_left _ (List.mem_flatMap.2 ⟨k, h1 k hk, List.mem_cons_of_mem _ (List.mem_map.2 ⟨i, List.mem_range.2 hi, rfl⟩)⟩)
  | client k => exact List.mem_append_right _ (List.mem_append_left _ (List.mem_flatMap.2 ⟨k, h2 k hu, List.mem_cons_self⟩))
  | timer k =>
    exact List.mem_append_right _ (List.mem_append_left _ (List.mem_flatMap.2 ⟨k, h2 k (h.timer k hu), List.mem_cons_of_mem _ List.mem_cons_self⟩))
  | other k => exact List.mem_append_right _ (List.mem_append_right _ (List.mem_map.2 ⟨k, h3 k hu, rfl⟩))

theorem allUses_length (ks cs os : List Nat) : (allUses ks cs os).length = 9 * ks.length + 2 * cs.length + os.length := by
  have h1 : (ks.flatMap (fun k => Use.server k :: (List.range 8).map (.trans k))).length = 9 * ks.length := by
    induction ks with
    | nil => rfl
    | cons k ks ih =>
      rw [List.flatMap_cons, List.length_append, ih, List.length_cons, List.length_cons, List.length_map, List.length_range]
      omega
  have h2 : (cs.flatMap (fun k => [Use.client k, Use.timer k])).length = 2 * cs.length := by
    induction cs with
    | nil => rfl
    | cons k cs ih =>
      rw [List.flatMap_cons, List.length_append, ih, List.length_cons]
      simp only [List.length_cons, List.length_nil]
      omega
  unfold allUses
  rw [List.length_append, List.length_append, h1, h2, List.length_map]
  omega

theorem run_counts {lim servers clients others : Nat} (hn : 9 * servers + 2 * clients + others ≤ 1024) : ∀ (evs : List Event) (s : State),
    (∀ fd ∈ used s, fd < 1024) → Fine s → Owned s → AtMost lim s evs servers clients others → Handled lim s evs
  | [], s, _, f, _, _ => ⟨s, rfl, f.distinct⟩
  | e :: es, s, h, f, hw, ha => by
    obtain ⟨s', h1, hc⟩ := step_change (lim := lim) e h
    have ha' : AtMost lim s' es servers clients others := by
      intro k t ht
      refine ha (k + 1) t ?_
      rw [List.take_succ_cons, run_cons h1]
      exact ht
    have f' := hc.fine f
    have hw' := hw.step h1
    obtain ⟨ks, cs, os, hk, hcs, ho, m1, m2, m3⟩ := ha' 0 s' (by rw [List.take_zero]; rfl)
    have hsub : s'.map Prod.fst ⊆ allUses ks cs os := hw'.all m1 m2 m3
    have hlen := subset_length f'.uses hsub
    rw [allUses_length, List.length_map] at hlen
    have hb : ∀ fd ∈ used s', fd < 1024 := hc.lt h (fun fd hf hl => by
      have := (opened_some hf).1
      unfold used at this
      rw [List.length_map] at this
      omega)
    obtain ⟨t, h2, h3⟩ := run_counts hn es s' hb f' hw' ha'
    exact ⟨t, (run_cons h1 es).trans h2, h3⟩

/-- C139, whatever the limit of the process: if nine descriptors for each server, two for each client and all other descriptors are never more
than 1024 then every history is handled correctly. -/
theorem C139_counts_partial (lim servers clients others : Nat) (s : State) (evs : List Event) (h : Begins lim s)
    (ha : AtMost lim s evs servers clients others) (hn : 9 * servers + 2 * clients + others ≤ 1024) : Handled lim s evs :=
  run_counts hn evs s h.low ⟨h.uses, h.distinct⟩ h.owned ha

/-- The open descriptors are the lowest ones. -/
def Full (s : State) : Prop := ∀ fd, fd ∈ used s ↔ fd < s.length

theorem Full.opened {lim : Nat} {s : State} (h : Full s) (hl : s.length < lim) : opened lim (used s) = some s.length := by
  have hn : s.length ∉ used s := fun hm => Nat.lt_irrefl _ ((h _).1 hm)
  have hlen : (used s).length = s.length := by unfold used; rw [List.length_map]
  have hlow : lowest (used s) = some s.length := by
    cases hk : lowest (used s) with
    | none =>
      unfold lowest at hk
      have := List.find?_eq_none.1 hk s.length (List.mem_range.2 (by omega))
      rw [Bool.not_eq_true, Bool.not_eq_false', List.contains_iff_mem] at this
      exact absurd this hn
    | some k =>
      obtain ⟨h1, h2⟩ := lowest_some hk
      have : ¬ k < s.length := fun hlt => h2 ((h k).2 hlt)
      rw [show k = s.length by omega]
  unfold Proxy.Fds.opened
  rw [hlow]
  exact if_pos hl

theorem Full.cons {s : State} (h : Full s) (u : Use) : Full ((u, s.length) :: s) := by
  intro fd
  show fd ∈ s.length :: used s ↔ fd < s.length + 1
  rw [List.mem_cons, h fd]
  omega

theorem Full.openFor {lim : Nat} {s : State} (h : Full s) (hl : s.length < lim) (u : Use) : openFor lim s u = (u, s.length) :: s := by
  unfold Fds.openFor
  rw [h.opened hl]

/-- `n` other descriptors. -/
def others (n : Nat) : State := (List.range n).map (fun k => (Use.other k, k))

theorem others_used (n : Nat) : used (others n) = List.range n := by
  unfold used others
  rw [List.map_map]
  exact List.map_id _

theorem others_length (n : Nat) : (others n).length = n := by
  unfold others
  rw [List.length_map, List.length_range]

theorem others_full (n : Nat) : Full (others n) := by
  intro fd
  rw [others_used, others_length, List.mem_range]

theorem others_begins (lim n : Nat) (hn : n ≤ lim) (hl : n ≤ 1024) : Begins lim (others n) := by
  refine ⟨?_, ?_, ?_, ?_, ?_⟩
  · intro x hx
    obtain ⟨k, _, rfl⟩ := List.mem_map.1 hx
    exact ⟨k, rfl⟩
  · unfold others
    rw [List.map_map]
    exact List.nodup_range.map (f := fun k => Use.other k) (fun a b hab he => hab (Use.other.inj he))
  · rw [others_used]; exact List.nodup_range
  · intro fd hf; rw [others_used, List.mem_range] at hf; omega
  · intro fd hf; rw [others_used, List.mem_range] at hf; omega

theorem others_has (n : Nat) (u : Use) (hu : ∀ k, u ≠ .other k) : has (others n) u = false := by
  cases h : has (others n) u with
  | false => rfl
  | true =>
    obtain ⟨x, hx, rfl⟩ := List.mem_map.1 (has_mem.1 h)
    obtain ⟨k, _, rfl⟩ := List.mem_map.1 hx
    exact absurd rfl (hu k)

theorem has_cons (u v : Use) (fd : Nat) (s : State) : has ((v, fd) :: s) u = (decide (v = u) || has s u) := rfl

theorem fdSets_ub {fds : List Nat} {fd : Nat} (h : fd ∈ fds) (hf : 1024 ≤ fd) : fdSets fds = .ub := by
  unfold fdSets
  exact if_pos (List.any_eq_true.2 ⟨fd, h, decide_eq_true hf⟩)

/-- The server with the first `j` transactions active, in a process with `n` other descriptors. -/
def busy (n : Nat) : Nat → State
  | 0 => (.server 0, n) :: others n
  | j + 1 => (.trans 0 j, n + 1 + j) :: busy n j

theorem busy_length (n : Nat) : ∀ j, (busy n j).length = n + 1 + j
  | 0 => by
    show (others n).length + 1 = _
    rw [others_length]
  | j + 1 => by
    show (busy n j).length + 1 = _
    rw [busy_length n j]
    omega

theorem busy_full (n : Nat) : ∀ j, Full (busy n j)
  | 0 => by
    have := (others_full n).cons (.server 0)
    rw [others_length] at this
    exact this
  | j + 1 => by
    have := (busy_full n j).cons (.trans 0 j)
    rw [busy_length] at this
    exact this

theorem busy_server (n : Nat) : ∀ j, has (busy n j) (.server 0) = true
  | 0 => rfl
  | j + 1 => by
    show (decide (Use.trans 0 j = .server 0) || has (busy n j) (.server 0)) = true
    rw [busy_server n j, Bool.or_true]

theorem busy_free (n : Nat) : ∀ j i, j ≤ i → has (busy n j) (.trans 0 i) = false
  | 0, i, _ => by
    show (decide (Use.server 0 = .trans 0 i) || has (others n) (.trans 0 i)) = false
    rw [others_has n _ (by intro k; exact fun h => by cases h)]
    rfl
  | j + 1, i, h => by
    show (decide (Use.trans 0 j = .trans 0 i) || has (busy n j) (.trans 0 i)) = false
    rw [busy_free n j i (by omega), Bool.or_false]
    refine decide_eq_false (fun he => ?_)
    have := (Use.trans.inj he).2
    omega

theorem busy_run (lim n : Nat) (hl : n + 9 ≤ lim) : ∀ j, j ≤ 8 → ∀ l,
    run lim (others n) (.serverSocket 0 :: ((List.range j).map (.transTimer 0) ++ l)) = run lim (busy n j) l
  | 0, _, l => by
    refine run_cons ?_ l
    unfold step
    dsimp only
    rw [others_has n _ (by intro k; exact fun h => by cases h), if_neg (by decide), (others_full n).openFor (by rw [others_length]; omega),
      others_length]
    rfl
  | j + 1, hj, l => by
    rw [List.range_succ, List.map_append, List.append_assoc, busy_run lim n hl j (by omega)]
    refine run_cons ?_ l
    unfold step
    dsimp only
    rw [busy_server, busy_free n j j (Nat.le_refl _), decide_eq_true (show j < NUM_TRANS by unfold NUM_TRANS; omega)]
    rw [if_pos (by decide), (busy_full n j).openFor (by rw [busy_length]; omega), busy_length]
    rfl

/-- The bound is exact: in a process that may have more than 1024 descriptors and in which the application has 1016 of them, eight clients of one
server are enough: the timer of the last of them has no place in the descriptor set that the server waits with, and memory outside of the set is
written. -/
theorem C139_exact (lim : Nat) (hl : 1024 < lim) :
    run lim (others 1016) (.serverSocket 0 :: ((List.range 8).map (.transTimer 0) ++ [.serverListen 0])) = .ub := by
  rw [busy_run lim 1016 (by omega) 8 (by omega)]
  show (step lim (busy 1016 8) (.serverListen 0) >>= fun s' => run lim s' []) = _
  unfold step
  dsimp only
  rw [fdSets_ub (fd := 1024)]
  · rfl
  · refine List.mem_append.2 (Or.inr (List.mem_flatMap.2 ⟨7, List.mem_range.2 (by decide), ?_⟩))
    refine List.mem_map.2 ⟨(.trans 0 7, 1024), List.mem_filter.2 ⟨List.mem_cons_self, rfl⟩, rfl⟩
  · exact Nat.le_refl _

/-- The socket of a client in a process with `n` other descriptors. -/
def halfClient (n : Nat) : State := (.client 0, n) :: others n

theorem halfClient_length (n : Nat) : (halfClient n).length = n + 1 := by
  show (others n).length + 1 = _
  rw [others_length]

theorem halfClient_full (n : Nat) : Full (halfClient n) := by
  have := (others_full n).cons (.client 0)
  rw [others_length] at this
  exact this

theorem halfClient_run (lim n : Nat) (hl : n + 1 < lim) (l : List Event) :
    run lim (others n) (.clientSocket 0 :: .clientTimer 0 :: l) = run lim ((.timer 0, n + 1) :: halfClient n) l := by
  have h1 : step lim (others n) (.clientSocket 0) = .ok (halfClient n) := by
    unfold step
    dsimp only
    rw [others_has n _ (by intro k; exact fun h => by cases h), if_neg (by decide), (others_full n).openFor (by rw [others_length]; omega),
      others_length]
    rfl
  have hc : (has (halfClient n) (.client 0) && !has (halfClient n) (.timer 0)) = true := by
    unfold halfClient
    rw [has_cons, has_cons, others_has n (.timer 0) (by intro k; exact fun h => by cases h)]
    rfl
  have h2 : step lim (halfClient n) (.clientTimer 0) = .ok ((.timer 0, n + 1) :: halfClient n) := by
    unfold step
    dsimp only
    rw [if_pos hc, (halfClient_full n).opened (by rw [halfClient_length]; omega), halfClient_length]
    rfl
  rw [run_cons h1, run_cons h2]

/-- A client in such a process fails in the same way with 1023 other descriptors. -/
theorem C139_client (lim : Nat) (hl : 1024 < lim) : run lim (others 1023) [.clientSocket 0, .clientTimer 0, .clientWait 0] = .ub := by
  rw [halfClient_run lim 1023 (by omega)]
  show (step lim _ (.clientWait 0) >>= fun s' => run lim s' []) = _
  unfold step
  dsimp only
  rw [fdSets_ub (fd := 1024)]
  · rfl
  · refine List.mem_append.2 (Or.inr (List.mem_map.2 ⟨(.timer 0, 1024), List.mem_filter.2 ⟨List.mem_cons_self, rfl⟩, rfl⟩))
  · exact Nat.le_refl _

/-- C139 does not hold. -/
theorem C139_violated : ¬ C139_statement := by
  intro h
  obtain ⟨t, h1, _⟩ := h 4096 (others 1016) _ (others_begins _ _ (by decide) (by decide))
  rw [C139_exact 4096 (by decide)] at h1
  cases h1

/-- A server with two clients and a client in the same process: the second transaction of the server takes the timer that the first has given
back. -/
def exFds : List Event :=
  [.serverSocket 0, .serverListen 0, .transTimer 0 0, .serverShake 0, .clientSocket 0, .clientTimer 0, .clientShake 0, .serverListen 0,
    .transClose 0 0, .openOther 7, .transTimer 0 1, .clientWait 0, .serverListen 0, .closeOther 7, .clientClose 0, .serverClose 0]

theorem exFds_run : run 64 (others 3) (exFds.take 13) =
    .ok ([(.trans 0 1, 7), (.other 7, 4), (.timer 0, 6), (.client 0, 5), (.server 0, 3)] ++ others 3) := by decide +kernel

theorem exFds_end : run 64 (others 3) exFds = .ok (others 3) := by decide +kernel

example : Handled 64 (others 3) exFds := C139_limit_partial 64 (by decide) _ _ (others_begins _ _ (by decide) (by decide))

/-- The server, the client and the other descriptors of the example. -/
def inside : Use → Bool
  | .server k => decide (k ∈ [0])
  | .client k => decide (k ∈ [0])
  | .other k => decide (k ∈ [0, 1, 2, 7])
  | _ => true

theorem exFds_atMost : AtMost 4096 (others 3) exFds 1 1 4 := by
  have hall : ∀ n ∈ List.range 17, (match run 4096 (others 3) (exFds.take n) with
      | .ok t => t.all (fun x => inside x.1)
      | _ => true) = true := by decide +kernel
  have hlow : ∀ n, n < 17 → ∀ t, run 4096 (others 3) (exFds.take n) = .ok t → ∀ x ∈ t, inside x.1 = true := by
    intro n hn t ht x hx
    have := hall n (List.mem_range.2 hn)
    rw [ht] at this
    exact List.all_eq_true.1 this x hx
  intro n t ht
  suffices h : ∀ x ∈ t, inside x.1 = true by
    have h' : ∀ u, u ∈ t.map Prod.fst → inside u = true := by
      intro u hu
      obtain ⟨x, hx, rfl⟩ := List.mem_map.1 hu
      exact h x hx
    exact ⟨[0], [0], [0, 1, 2, 7], by decide, by decide, by decide, fun k hk => of_decide_eq_true (h' _ hk),
      fun k hk => of_decide_eq_true (h' _ hk), fun k hk => of_decide_eq_true (h' _ hk)⟩
  by_cases hn : n < 17
  · exact hlow n hn t ht
  · refine hlow 16 (by decide) t ?_
    rw [List.take_of_length_le (show exFds.length ≤ n by show 16 ≤ n; omega)] at ht
    exact ht

example : Handled 4096 (others 3) exFds :=
  C139_counts_partial 4096 1 1 4 _ _ (others_begins _ _ (by decide) (by decide)) exFds_atMost (by decide)

end FreeCoAP.Server.Fds
