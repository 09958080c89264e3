import Verif.Proxy.LemmasStats

/-!
# C114 The statistics of the proxy are right under every schedule
-/

namespace FreeCoAP.Proxy.Stats

/-- Every report, whoever logs it and whatever the other threads do meanwhile, gives for each of the four counters the number of increases that were
made before it, as an `unsigned`: none is lost and none is counted twice, and the four figures belong to one moment. -/
theorem C114_reports (es : List (Nat × Status)) {a b : List Event} {t : Nat} {c : Counts} (h : (run init es).hist = a ++ .reported t c :: b) (k : Kind) :
    c.get k = BitVec.ofNat 32 (increased k b) :=
  (Inv.init.run es).reports a t c b h k

/-- A thread has counted what it has logged, except perhaps the last: it is then in the macro that counts it. -/
theorem C114_counted (es : List (Nat × Status)) (t : Nat) (k : Kind) :
    (¬ Busy ((run init es).th t) → happened k (ofThread t (run init es).hist) = increased k (ofThread t (run init es).hist)) ∧
      increased k (ofThread t (run init es).hist) ≤ happened k (ofThread t (run init es).hist) ∧
      happened k (ofThread t (run init es).hist) ≤ increased k (ofThread t (run init es).hist) + 1 := by
  have h := (Inv.init.run es).pend t k
  generalize run init es = s at *
  refine ⟨fun hb => ?_, ?_, ?_⟩
  · rw [h]
    cases hp : s.th t with
    | loop => rfl
    | judge ok => rfl
    | ended => rfl
    | _ => rw [hp] at hb; exact absurd trivial hb
  · rw [h]; omega
  · rw [h]; split <;> omega

/-- When all connections have ended, the last thing that was logged is a report, and its figures are the numbers of the transactions and connections that
succeeded and failed. -/
theorem C114_totals (es : List (Nat × Status)) (h : AllEnded (run init es)) (hne : (run init es).hist ≠ []) :
    ∃ t c b, (run init es).hist = .reported t c :: b ∧ ∀ k, c.get k = BitVec.ofNat 32 (happened k b) := by
  have hi := Inv.init.run es
  generalize run init es = s at *
  cases hh : s.hist with
  | nil => exact absurd hh hne
  | cons e b =>
    have he : s.th e.by = .ended := by
      refine (h e.by).resolve_right ?_
      rw [hh, ofThread_same rfl]
      intro x; cases x
    obtain ⟨c, b', hb⟩ := hi.last _ he
    rw [hh, ofThread_same rfl] at hb
    have hec := (List.cons.inj hb).1
    refine ⟨e.by, c, b, by rw [← hec], fun k => ?_⟩
    rw [hi.reports [] e.by c b (by rw [hh, ← hec]; rfl) k]
    have ht : happened k s.hist = increased k s.hist := by
      refine total (fun t => ?_)
      rw [hi.pend t k]
      rcases h t with ht | ht
      · rw [ht]; rfl
      · cases hp : pending (s.th t) with
        | none => rfl
        | some k' =>
          have hpk := hi.pend t k'
          rw [ht, hp, if_pos rfl] at hpk
          exact absurd hpk (by show (0 : Nat) ≠ 0 + 1; decide)
    rw [hh, happened_cons, increased_cons, hec] at ht
    exact congrArg _ ht.symm

/-- No two threads use the counters at the same time. -/
theorem C114_exclusive (es : List (Nat × Status)) {t u : Nat} (ht : Inside ((run init es).th t)) (hu : Inside ((run init es).th u)) : t = u := by
  have h := Inv.init.run es
  exact Option.some.inj (((h.own t).1 ht).symm.trans ((h.own u).1 hu))

/-- The results of `lock_get` and `lock_put`, which nobody looks at, are never errors: no thread takes the lock twice, and the thread that gives it back has
it. -/
theorem C114_lock_results (es : List (Nat × Status)) (t : Nat) :
    (∀ j, (run init es).th t = .lock j → (run init es).owner ≠ some t) ∧
      ((∃ k, (run init es).th t = .leave k) ∨ (∃ c, (run init es).th t = .flush c) → (run init es).owner = some t) := by
  have h := Inv.init.run es
  constructor
  · intro j hj ho
    have := (h.own t).2 ho
    rw [hj] at this
    exact this
  · rintro (⟨k, hk⟩ | ⟨c, hc⟩)
    · exact (h.own t).1 (by rw [hk]; trivial)
    · exact (h.own t).1 (by rw [hc]; trivial)

/-- No thread is held up for ever: it leaves the statistics as soon as the thread that has the lock now, if there is one, and then the thread itself have
made some steps. -/
theorem C114_goes_on (es : List (Nat × Status)) (t : Nat) : ∃ u m n, ((run init es).owner = some u ∨ m = 0) ∧
    ¬ Busy ((run init (es ++ List.replicate m (u, .waiting) ++ List.replicate n (t, .waiting))).th t) := by
  have h := Inv.init.run es
  simp only [run_append]
  generalize run init es = s at *
  by_cases hi : Inside (s.th t)
  · obtain ⟨n, hn⟩ := inv_to_rest h hi
    exact ⟨t, 0, n, .inr rfl, hn⟩
  · cases hp : s.th t with
    | lock j =>
      cases ho : s.owner with
      | none =>
        obtain ⟨n, hn⟩ := inv_to_rest_lock h hp ho
        exact ⟨t, 0, n, .inr rfl, hn⟩
      | some u =>
        have hu : Inside (s.th u) := (h.own u).2 ho
        obtain ⟨m, -, s', hrun, h1, h2, -⟩ := inv_returns h hu (Nat.le_refl _)
        have h' := h.run (List.replicate m (u, .waiting))
        rw [hrun] at h'
        have htu : t ≠ u := by intro x; subst x; exact hi hu
        obtain ⟨n, hn⟩ := inv_to_rest_lock h' ((h2 t htu).trans hp) h1
        exact ⟨u, m, n, .inl rfl, by rw [hrun]; exact hn⟩
    | loop => exact ⟨t, 0, 0, .inr rfl, by show ¬ Busy (s.th t); rw [hp]; exact fun h => h⟩
    | judge ok => exact ⟨t, 0, 0, .inr rfl, by show ¬ Busy (s.th t); rw [hp]; exact fun h => h⟩
    | ended => exact ⟨t, 0, 0, .inr rfl, by show ¬ Busy (s.th t); rw [hp]; exact fun h => h⟩
    | _ => rw [hp] at hi; exact absurd trivial hi

/-! ## Examples -/

/-- Two connections: a transaction of each succeeds at the same time, then one of the first fails and the second client closes the connection. The steps
of the two threads alternate. -/
def exSchedule : List (Nat × Status) :=
  [(0, .done), (1, .done)] ++ (List.replicate 12 [(0, .waiting), (1, .waiting)]).flatten ++ [(0, .failed .EIO), (1, .closed)] ++
    (List.replicate 40 [(0, .waiting), (1, .waiting)]).flatten

/-- Both reports count both connections and all transactions. -/
example : (run init exSchedule).hist.filter (fun e => match e with | .reported _ _ => true | _ => false) =
    [.reported 0 ⟨1, 1, 2, 1⟩, .reported 1 ⟨1, 1, 2, 1⟩] := by decide +kernel

/-- Both threads have ended, and there are no others. -/
theorem exSchedule_ended : (run init exSchedule).th 0 = .ended ∧ (run init exSchedule).th 1 = .ended ∧
    (run init exSchedule).hist.all (fun e => e.by == 0 || e.by == 1) = true := by decide +kernel

example : AllEnded (run init exSchedule) := by
  intro t
  obtain ⟨h0, h1, h2⟩ := exSchedule_ended
  by_cases t0 : t = 0
  · exact .inl (by rw [t0]; exact h0)
  · by_cases t1 : t = 1
    · exact .inl (by rw [t1]; exact h1)
    · refine .inr (List.filter_eq_nil_iff.2 (fun e he hx => ?_))
      have hb := List.all_eq_true.1 h2 e he
      rw [Bool.or_eq_true, beq_iff_eq, beq_iff_eq, of_decide_eq_true hx] at hb
      exact hb.elim t0 t1

example : (run init exSchedule).hist ≠ [] := by decide +kernel

/-- A thread that has to wait for the lock. -/
example : (run init [(0, .done), (1, .done), (0, .waiting), (1, .waiting)]).th 1 = .lock (.count .okTrans) ∧
    (run init [(0, .done), (1, .done), (0, .waiting), (1, .waiting)]).owner = some 0 := by decide +kernel

end FreeCoAP.Proxy.Stats
