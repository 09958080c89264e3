import Verif.Proxy.LemmasFds

/-!
# C134: descriptors of the proxy
-/

namespace FreeCoAP.Proxy.Fds

/-- C134: However many clients are connected, and in whatever order they come and go, every descriptor that the proxy puts into a descriptor set
has a place in it, and no two connections share a descriptor. -/
def C134_statement : Prop :=
  ∀ lim s evs, Started lim s → s.used.length ≤ 1024 → Handled lim s evs

theorem change_nodup {lim : Nat} {s s' : State} (h : Change lim s s') (hd : s.used.Nodup) : s'.used.Nodup := by
  cases h with
  | less r h => exact (List.nodup_append.1 (h.nodup_iff.1 hd)).2.1
  | more fd h hp => exact hp.nodup_iff.2 (List.nodup_cons.2 ⟨(opened_some h).2.1, hd⟩)

theorem change_lt {lim : Nat} {s s' : State} (h : Change lim s s') {b : Nat} (hb : ∀ fd ∈ s.used, fd < b)
    (hn : ∀ fd, opened lim s.used = some fd → s'.used.length = s.used.length + 1 → fd < b) : ∀ fd ∈ s'.used, fd < b := by
  intro x hx
  cases h with
  | less r h => exact hb x (h.mem_iff.2 (List.mem_append.2 (Or.inr hx)))
  | more fd h hp =>
    rcases List.mem_cons.1 (hp.mem_iff.1 hx) with rfl | hm
    · exact hn _ h hp.length_eq
    · exact hb x hm

theorem run_limit {lim : Nat} (hl : lim ≤ 1024) : ∀ (evs : List Event) (s : State), (∀ fd ∈ s.used, fd < lim) → s.used.Nodup →
    Handled lim s evs
  | [], s, _, hd => ⟨s, rfl, hd⟩
  | e :: es, s, h, hd => by
    obtain ⟨s', h1, hc, _⟩ := step_change (lim := lim) e (fun fd hm => Nat.lt_of_lt_of_le (h fd hm) hl)
    obtain ⟨t, h2, h3⟩ := run_limit hl es s' (change_lt hc h (fun fd ho _ => (opened_some ho).2.2)) (change_nodup hc hd)
    refine ⟨t, ?_, h3⟩
    unfold run
    rw [h1, Out.bind_ok]
    exact h2

theorem Started.lt {lim : Nat} {s : State} (h : Started lim s) : ∀ fd ∈ s.used, fd < lim :=
  fun fd hm => Nat.lt_of_lt_of_le ((h.lowest fd).1 hm) h.limit

/-- C134, in a process that may have at most 1024 descriptors (the usual limit): every history is handled correctly. -/
theorem C134_limit_partial (lim : Nat) (hl : lim ≤ 1024) (s : State) (evs : List Event) (h : Started lim s) : Handled lim s evs :=
  run_limit hl evs s h.lt h.distinct

theorem used_length (s : State) : s.used.length ≤ s.listeners.length + 3 * s.conns.length + s.others.length := by
  have h : ∀ l : List Conn, (l.flatMap Conn.fds).length ≤ 3 * l.length := by
    intro l
    induction l with
    | nil => exact Nat.le_refl _
    | cons c l ih =>
      have hc : c.fds.length ≤ 3 := by
        unfold Conn.fds
        cases c.coap <;> (dsimp only [Coap.fds, List.length]; omega)
      rw [List.flatMap_cons, List.length_append, List.length_cons]
      omega
  have := h s.conns
  unfold State.used
  rw [List.length_append, List.length_append]
  omega

theorem run_clients {lim clients others n : Nat} (hn : n + 3 * clients + others ≤ 1024) : ∀ (evs : List Event) (s : State),
    s.listeners.length = n → (∀ fd ∈ s.used, fd < 1024) → s.used.Nodup → AtMost lim s evs clients others → Handled lim s evs
  | [], s, _, _, hd, _ => ⟨s, rfl, hd⟩
  | e :: es, s, hs, h, hd, ha => by
    obtain ⟨s', h1, hc, hls⟩ := step_change (lim := lim) e h
    have hrun : ∀ l, run lim s (e :: l) = run lim s' l := by
      intro l
      show (step lim s e >>= fun s' => run lim s' l) = _
      rw [h1, Out.bind_ok]
    have ha' : AtMost lim s' es clients others := by
      intro k t ht
      refine ha (k + 1) t ?_
      rw [List.take_succ_cons, hrun]
      exact ht
    have hnow := ha' 0 s' (by rw [List.take_zero]; rfl)
    have hb := used_length s'
    rw [hls] at hb
    obtain ⟨t, h2, h3⟩ := run_clients hn es s' (by rw [hls]; exact hs)
      (change_lt hc h (fun fd ho hlen => by have := (opened_some ho).1; omega)) (change_nodup hc hd) ha'
    exact ⟨t, (hrun es).trans h2, h3⟩

/-- C134, whatever the limit of the process: if the listening sockets, three descriptors for each connected client and all other descriptors are
never more than 1024 then every history is handled correctly. -/
theorem C134_clients_partial (lim clients others : Nat) (s : State) (evs : List Event) (h : Started lim s)
    (ha : AtMost lim s evs clients others) (hn : s.listeners.length + 3 * clients + others ≤ 1024) : Handled lim s evs := by
  refine run_clients hn evs s rfl ?_ h.distinct ha
  intro fd hm
  have h0 := ha 0 s rfl
  have := used_length s
  have := (h.lowest fd).1 hm
  omega

/-- The open descriptors are the lowest ones. -/
def Full (s : State) : Prop := ∀ fd, fd ∈ s.used ↔ fd < s.used.length

theorem Full.opened {lim : Nat} {s : State} (h : Full s) (hl : s.used.length < lim) : opened lim s.used = some s.used.length := by
  have hn : s.used.length ∉ s.used := fun hm => Nat.lt_irrefl _ ((h _).1 hm)
  have hlow : lowest s.used = some s.used.length := by
    cases hk : lowest s.used with
    | none =>
      unfold lowest at hk
      have := List.find?_eq_none.1 hk s.used.length (List.mem_range.2 (Nat.lt_succ_self _))
      rw [Bool.not_eq_true, Bool.not_eq_false', List.contains_iff_mem] at this
      exact absurd this hn
    | some k =>
      obtain ⟨h1, h2⟩ := lowest_some hk
      have : ¬ k < s.used.length := fun hlt => h2 ((h k).2 hlt)
      rw [show k = s.used.length by omega]
  unfold Fds.opened
  rw [hlow]
  exact if_pos hl

theorem Full.accept {lim : Nat} {s : State} (h : Full s) (hl : s.used.length < lim) :
    ∃ s', step lim s .accept = .ok s' ∧ Full s' ∧ s'.used.length = s.used.length + 1 ∧ s'.conns = s.conns ++ [⟨s.used.length, .none⟩] := by
  refine ⟨{ s with conns := s.conns ++ [⟨s.used.length, .none⟩] }, ?_, ?_⟩
  · unfold step
    dsimp only
    rw [h.opened hl]
    rfl
  · have hp : ({ s with conns := s.conns ++ [⟨s.used.length, .none⟩] } : State).used.Perm (s.used.length :: s.used) := by
      show (s.listeners ++ ((s.conns ++ [(⟨s.used.length, .none⟩ : Conn)]).flatMap Conn.fds ++ s.others)).Perm _
      rw [List.flatMap_append]
      exact perm_end _ _ _ _
    refine ⟨?_, hp.length_eq, rfl⟩
    intro fd
    rw [hp.mem_iff, hp.length_eq, List.mem_cons, h fd, List.length_cons]
    omega

theorem Full.accepts {lim : Nat} : ∀ (k : Nat) (s : State), Full s → s.used.length + k ≤ lim →
    ∃ s', (∀ l, run lim s (List.replicate k .accept ++ l) = run lim s' l) ∧ Full s' ∧ s'.used.length = s.used.length + k ∧
      s'.conns.length = s.conns.length + k
  | 0, s, h, _ => ⟨s, fun _ => rfl, h, rfl, rfl⟩
  | k + 1, s, h, hl => by
    obtain ⟨s1, h1, h2, h3, h4⟩ := h.accept (lim := lim) (by omega)
    obtain ⟨s2, h5, h6, h7, h8⟩ := Full.accepts (lim := lim) k s1 h2 (by omega)
    refine ⟨s2, ?_, h6, by omega, ?_⟩
    · intro l
      rw [← h5 l, List.replicate_succ, List.cons_append]
      show (step lim s .accept >>= fun s' => run lim s' _) = _
      rw [h1, Out.bind_ok]
    · rw [h8, h4, List.length_append, List.length_singleton]
      omega

/-- If the process may have more than 1024 descriptors then clients that connect and send nothing are enough: the socket of the last of them has
no place in the descriptor set that the proxy waits with, and memory outside of the set is written. -/
theorem C134_exhausted (lim : Nat) (hl : 1024 < lim) (s : State) (h : Started lim s) (hs : s.used.length ≤ 1024) :
    run lim s (List.replicate (1025 - s.used.length) .accept ++ [.wait (1024 - s.used.length)]) = .ub := by
  obtain ⟨s1, h1, h2, h3, h4⟩ := Full.accepts (lim := lim) (1024 - s.used.length) s h.lowest (by omega)
  obtain ⟨s2, h5, _, _, h6⟩ := h2.accept (lim := lim) (by omega)
  have he : List.replicate (1025 - s.used.length) Event.accept =
      List.replicate (1024 - s.used.length) .accept ++ [.accept] := by
    rw [show 1025 - s.used.length = (1024 - s.used.length) + 1 by omega, List.replicate_succ']
  rw [he, List.append_assoc, h1]
  show (step lim s1 .accept >>= fun s' => run lim s' _) = _
  rw [h5, Out.bind_ok]
  show (step lim s2 (.wait _) >>= fun s' => run lim s' _) = _
  have hget : s2.conns[1024 - s.used.length]? = some ⟨s1.used.length, .none⟩ := by
    rw [h6, h.none] at *
    rw [List.length_nil, Nat.zero_add] at h4
    rw [List.getElem?_append_right (by omega), h4, Nat.sub_self]
    rfl
  unfold step
  dsimp only
  rw [hget]
  dsimp only
  unfold fdSets
  rw [if_pos]
  · rfl
  · rw [show s1.used.length = 1024 by omega]
    decide

/-- The proxy with the standard streams and one listening socket. -/
def exStart : State := ⟨[3], [], [0, 1, 2]⟩

theorem exStart_started (lim : Nat) (hl : 4 ≤ lim) : Started lim exStart := by
  refine ⟨rfl, ?_, by decide, hl⟩
  intro fd
  show fd ∈ [3, 0, 1, 2] ↔ fd < 4
  constructor
  · intro h
    simp only [List.mem_cons, List.not_mem_nil, or_false] at h
    omega
  · intro h
    simp only [List.mem_cons, List.not_mem_nil, or_false]
    omega

/-- C134 does not hold: 1021 clients are enough in a process with a limit of 4096. -/
theorem C134_violated : ¬ C134_statement := by
  intro h
  obtain ⟨t, h1, _⟩ := h 4096 exStart _ (exStart_started _ (by decide)) (by decide)
  rw [C134_exhausted 4096 (by decide) exStart (exStart_started _ (by decide)) (by decide)] at h1
  cases h1

/-- Two clients with one exchange each; one goes and a third comes and gets the descriptor of the first. -/
def exHistory : List Event :=
  [.listen 0, .accept, .wait 0, .accept, .wait 1, .coapSocket 0, .openOther, .coapSocket 1, .coapTimer 0, .closeOther 3, .coapTimer 1,
    .coapShake 1, .coapWait 0, .coapWait 1, .close 0, .accept, .wait 1]

def exHistoryEnd : State := ⟨[3], [⟨5, .both 8 7⟩, ⟨4, .none⟩], [0, 1, 2]⟩

theorem exHistory_run : run 64 exStart exHistory = .ok exHistoryEnd := by decide +kernel

example : Handled 64 exStart exHistory := C134_limit_partial 64 (by decide) exStart exHistory (exStart_started _ (by decide))

theorem exHistory_atMost : AtMost 4096 exStart exHistory 2 4 := by
  have hall : ∀ n ∈ List.range 18, (match run 4096 exStart (exHistory.take n) with
      | .ok t => decide (t.conns.length ≤ 2 ∧ t.others.length ≤ 4)
      | _ => true) = true := by decide +kernel
  have hlow : ∀ n, n < 18 → ∀ t, run 4096 exStart (exHistory.take n) = .ok t → t.conns.length ≤ 2 ∧ t.others.length ≤ 4 := by
    intro n hn t ht
    have := hall n (List.mem_range.2 hn)
    rw [ht] at this
    exact of_decide_eq_true this
  intro n t ht
  by_cases hn : n < 18
  · exact hlow n hn t ht
  · refine hlow 17 (by decide) t ?_
    rw [List.take_of_length_le (show exHistory.length ≤ n by show 17 ≤ n; omega)] at ht
    exact ht

example : Handled 4096 exStart exHistory :=
  C134_clients_partial 4096 2 4 exStart exHistory (exStart_started _ (by decide)) exHistory_atMost (by decide)

end FreeCoAP.Proxy.Fds
