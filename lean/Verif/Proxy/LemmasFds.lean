import Verif.Proxy.SpecFds

/-!
# Lemmas on the descriptors of the proxy
-/

namespace FreeCoAP.Proxy.Fds

theorem lowest_some {used : List Nat} {n : Nat} (h : lowest used = some n) : n ≤ used.length ∧ n ∉ used := by
  unfold lowest at h
  have h1 := List.mem_of_find?_eq_some h
  have h2 := List.find?_some h
  rw [List.mem_range] at h1
  refine ⟨by omega, ?_⟩
  intro hm
  rw [List.contains_iff_mem.2 hm] at h2
  exact absurd h2 (by decide)

theorem opened_some {lim : Nat} {used : List Nat} {n : Nat} (h : opened lim used = some n) :
    n ≤ used.length ∧ n ∉ used ∧ n < lim := by
  unfold opened at h
  cases hl : lowest used with
  | none => rw [hl] at h; cases h
  | some k =>
    rw [hl] at h
    dsimp only at h
    by_cases hk : k < lim
    · rw [if_pos hk] at h
      cases h
      exact ⟨(lowest_some hl).1, (lowest_some hl).2, hk⟩
    · rw [if_neg hk] at h
      cases h

theorem fdSets_ok {fds : List Nat} (h : ∀ fd ∈ fds, fd < Tls.Io.FD_SETSIZE) : fdSets fds = .ok () := by
  unfold fdSets
  rw [if_neg]
  intro ha
  obtain ⟨x, hx, hd⟩ := List.any_eq_true.1 ha
  have := h x hx
  have := of_decide_eq_true hd
  omega

theorem conn_used {s : State} {i : Nat} {c : Conn} (h : s.conns[i]? = some c) {fd : Nat} (hf : fd ∈ c.fds) : fd ∈ s.used := by
  unfold State.used
  refine List.mem_append.2 (Or.inr (List.mem_append.2 (Or.inl ?_)))
  exact List.mem_flatMap.2 ⟨c, List.mem_of_getElem? h, hf⟩

theorem perm_mid (a b c d e : List Nat) : (a ++ ((b ++ (c ++ d)) ++ e)).Perm (c ++ (a ++ ((b ++ d) ++ e))) := by
  rw [List.perm_iff_count]
  intro z
  simp only [List.count_append]
  omega

/-- The descriptors after a change of the CoAP client of a connection are those before without the old ones and with the new ones. -/
theorem split_at {s : State} {i : Nat} {c : Conn} (h : s.conns[i]? = some c) :
    ∃ r, s.used.Perm (c.coap.fds ++ r) ∧ (∀ x, (s.setCoap i c x).used.Perm (x.fds ++ r)) ∧
      ∃ r', ({ s with conns := s.conns.eraseIdx i } : State).used = r' ∧ s.used.Perm (c.fds ++ r') := by
  obtain ⟨hi, he⟩ := List.getElem?_eq_some_iff.1 h
  obtain ⟨a, b, hab, ha⟩ : ∃ a b, s.conns = a ++ c :: b ∧ a.length = i := by
    refine ⟨s.conns.take i, s.conns.drop (i + 1), ?_, ?_⟩
    · rw [← he, ← List.drop_eq_getElem_cons hi, List.take_append_drop]
    · rw [List.length_take]; omega
  have hflat : ∀ x : Conn, (a ++ x :: b).flatMap Conn.fds = a.flatMap Conn.fds ++ (x.fds ++ b.flatMap Conn.fds) := by
    intro x
    rw [List.flatMap_append, List.flatMap_cons]
  have hset : ∀ x : Conn, s.conns.set i x = a ++ x :: b := by
    intro x
    rw [hab, ← ha, List.set_append_right _ _ (Nat.le_refl _), Nat.sub_self]
    rfl
  have her : s.conns.eraseIdx i = a ++ b := by
    rw [hab, ← ha, List.eraseIdx_append_of_length_le (Nat.le_refl _), Nat.sub_self]
    rfl
  have hcons : ∀ x : Conn, x.fds ++ b.flatMap Conn.fds = [x.sd] ++ (x.coap.fds ++ b.flatMap Conn.fds) := fun _ => rfl
  refine ⟨s.listeners ++ (((a.flatMap Conn.fds ++ [c.sd]) ++ b.flatMap Conn.fds) ++ s.others), ?_, ?_, _, rfl, ?_⟩
  · unfold State.used
    rw [hab, hflat, hcons, ← List.append_assoc (a.flatMap Conn.fds)]
    exact perm_mid _ _ _ _ _
  · intro x
    unfold State.used State.setCoap
    dsimp only
    rw [hset, hflat, hcons, ← List.append_assoc (a.flatMap Conn.fds)]
    exact perm_mid _ _ _ _ _
  · unfold State.used
    dsimp only
    rw [her, hab, hflat, List.flatMap_append]
    exact perm_mid _ _ _ _ _

/-- A step closes some descriptors or opens one. -/
inductive Change (lim : Nat) (s s' : State) : Prop
  | less (r : List Nat) (h : s.used.Perm (r ++ s'.used))
  | more (fd : Nat) (h : opened lim s.used = some fd) (hp : s'.used.Perm (fd :: s.used))

theorem Change.same {lim : Nat} {s : State} : Change lim s s := .less [] (List.Perm.refl _)

theorem perm_end (a b c : List Nat) (z : Nat) : (a ++ ((b ++ [z]) ++ c)).Perm (z :: (a ++ (b ++ c))) := by
  rw [List.perm_iff_count]
  intro y
  simp only [List.count_append, List.count_cons, List.count_nil]
  omega

theorem perm_last (a b c : List Nat) (z : Nat) : (a ++ (b ++ (c ++ [z]))).Perm (z :: (a ++ (b ++ c))) := by
  rw [List.perm_iff_count]
  intro y
  simp only [List.count_append, List.count_cons, List.count_nil]
  omega

/-- What a step puts into a descriptor set is open. -/
theorem step_change {lim : Nat} {s : State} (e : Event) (h : ∀ fd ∈ s.used, fd < Tls.Io.FD_SETSIZE) :
    ∃ s', step lim s e = .ok s' ∧ Change lim s s' ∧ s'.listeners = s.listeners := by
  have keep : ∃ s', (pure s : Out State) = .ok s' ∧ Change lim s s' ∧ s'.listeners = s.listeners := ⟨s, rfl, .same, rfl⟩
  have sets : ∀ fds : List Nat, (∀ fd ∈ fds, fd ∈ s.used) →
      ∃ s', (fdSets fds >>= fun _ => pure s : Out State) = .ok s' ∧ Change lim s s' ∧ s'.listeners = s.listeners := by
    intro fds hf
    rw [fdSets_ok (fun fd hm => h fd (hf fd hm)), Out.bind_ok]
    exact keep
  cases e with
  | listen k =>
    unfold step
    dsimp only
    cases hk : s.listeners[k]? with
    | none => exact keep
    | some sd =>
      refine sets [sd] ?_
      intro fd hm
      rw [List.mem_singleton.1 hm]
      exact List.mem_append.2 (Or.inl (List.mem_of_getElem? hk))
  | accept =>
    unfold step
    dsimp only
    cases ho : opened lim s.used with
    | none => exact keep
    | some sd =>
      refine ⟨_, rfl, .more sd ho ?_, rfl⟩
      unfold State.used
      dsimp only
      rw [List.flatMap_append]
      exact perm_end _ _ _ _
  | wait i =>
    unfold step
    dsimp only
    cases hk : s.conns[i]? with
    | none => exact keep
    | some c =>
      refine sets [c.sd] ?_
      intro fd hm
      rw [List.mem_singleton.1 hm]
      exact conn_used hk List.mem_cons_self
  | coapSocket i =>
    unfold step
    dsimp only
    cases hk : s.conns[i]? with
    | none => exact keep
    | some c =>
      dsimp only
      obtain ⟨r, h1, h2, _⟩ := split_at hk
      cases hc : c.coap with
      | none =>
        dsimp only
        cases ho : opened lim s.used with
        | none => exact keep
        | some sd =>
          rw [hc] at h1
          exact ⟨_, rfl, .more sd ho ((h2 _).trans (h1.symm.cons sd)), rfl⟩
      | sock sd => exact keep
      | both sd timer => exact keep
  | coapTimer i =>
    unfold step
    dsimp only
    cases hk : s.conns[i]? with
    | none => exact keep
    | some c =>
      dsimp only
      obtain ⟨r, h1, h2, _⟩ := split_at hk
      cases hc : c.coap with
      | none => exact keep
      | both sd timer => exact keep
      | sock sd =>
        dsimp only
        rw [hc] at h1
        cases ho : opened lim s.used with
        | none =>
          exact ⟨_, rfl, .less [sd] (h1.trans ((h2 .none).symm.cons sd)), rfl⟩
        | some fd =>
          refine ⟨_, rfl, .more fd ho ?_, rfl⟩
          exact ((h2 (.both sd fd)).trans (List.Perm.swap fd sd r)).trans (h1.symm.cons fd)
  | coapShake i =>
    unfold step
    dsimp only
    cases hk : s.conns[i]? with
    | none => exact keep
    | some c =>
      dsimp only
      cases hc : c.coap with
      | none => exact keep
      | sock sd => exact keep
      | both sd timer =>
        refine sets [sd] ?_
        intro fd hm
        rw [List.mem_singleton.1 hm]
        refine conn_used hk ?_
        unfold Conn.fds
        rw [hc]
        exact List.mem_cons_of_mem _ List.mem_cons_self
  | coapWait i =>
    unfold step
    dsimp only
    cases hk : s.conns[i]? with
    | none => exact keep
    | some c =>
      dsimp only
      cases hc : c.coap with
      | none => exact keep
      | sock sd => exact keep
      | both sd timer =>
        refine sets [sd, timer] ?_
        intro fd hm
        refine conn_used hk ?_
        unfold Conn.fds
        rw [hc]
        exact List.mem_cons_of_mem _ hm
  | coapClose i =>
    unfold step
    dsimp only
    cases hk : s.conns[i]? with
    | none => exact keep
    | some c =>
      obtain ⟨r, h1, h2, _⟩ := split_at hk
      exact ⟨_, rfl, .less c.coap.fds (h1.trans ((h2 .none).symm.append_left _)), rfl⟩
  | close i =>
    unfold step
    dsimp only
    cases hk : s.conns[i]? with
    | none =>
      rw [List.eraseIdx_of_length_le (List.getElem?_eq_none_iff.1 hk)]
      exact keep
    | some c =>
      obtain ⟨r, _, _, r', h3, h4⟩ := split_at hk
      refine ⟨_, rfl, .less c.fds ?_, rfl⟩
      rw [h3]
      exact h4
  | openOther =>
    unfold step
    dsimp only
    cases ho : opened lim s.used with
    | none => exact keep
    | some fd =>
      refine ⟨_, rfl, .more fd ho ?_, rfl⟩
      exact perm_last _ _ _ _
  | closeOther i =>
    unfold step
    dsimp only
    cases hk : s.others[i]? with
    | none =>
      rw [List.eraseIdx_of_length_le (List.getElem?_eq_none_iff.1 hk)]
      exact keep
    | some fd =>
      refine ⟨_, rfl, .less [fd] ?_, rfl⟩
      obtain ⟨hi, he⟩ := List.getElem?_eq_some_iff.1 hk
      have hp : s.others.Perm (fd :: s.others.eraseIdx i) := by
        obtain ⟨a, b, hab, ha⟩ : ∃ a b, s.others = a ++ fd :: b ∧ a.length = i := by
          refine ⟨s.others.take i, s.others.drop (i + 1), ?_, ?_⟩
          · rw [← he, ← List.drop_eq_getElem_cons hi, List.take_append_drop]
          · rw [List.length_take]; omega
        rw [hab, ← ha, List.eraseIdx_append_of_length_le (Nat.le_refl _), Nat.sub_self]
        exact List.perm_middle
      unfold State.used
      dsimp only
      refine (List.Perm.append_left _ (List.Perm.append_left _ hp)).trans ?_
      rw [← List.append_assoc]
      refine List.perm_middle.trans ?_
      rw [List.append_assoc]
      exact List.Perm.refl _

end FreeCoAP.Proxy.Fds
