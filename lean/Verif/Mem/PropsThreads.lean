import Verif.Mem.LemmasThreads

/-!
# C108 Threads that use the same pool never have the same buffer
-/

namespace FreeCoAP.Mem

/-- The full property: whatever the threads do and in whatever order, the accesses to the bitset are inside it, no two buffers that threads have overlap, and
no buffer is lost. -/
def C108_statement : Prop :=
  ∀ (W : Nat) (s s' : Sys) (r1 r2 : Option Nat) (num len : Nat) (m : Pool), create W s r1 r2 num len = (.ok m, s') →
    ∀ es : List (Nat × Call), ∃ x, trun (tinit m) es = .ok x ∧ Exclusive len x ∧ (Quiet x → NoneLost m.buf num len x)

/-- It holds for every schedule in which no thread works at a byte of the bitset that another thread has read and is going to write. Missing: the other
schedules, see `C108_violated`. -/
theorem C108_threads_partial {W : Nat} {s s' : Sys} {r1 r2 : Option Nat} {num len : Nat} {m : Pool} (hc : create W s r1 r2 num len = (.ok m, s'))
    (es : List (Nat × Call)) (ha : AloneAll (tinit m) es) :
    ∃ x, trun (tinit m) es = .ok x ∧ Exclusive len x ∧ (Quiet x → NoneLost m.buf num len x) := by
  obtain ⟨x, h1, h2⟩ := (Inv.init (create_rel hc)).run es ha
  exact ⟨x, h1, h2.exclusive, h2.noneLost⟩

/-- At every step of the schedule all other threads are in no call, as when a lock is held during each call. -/
def Serial : Shared → List (Nat × Call) → Prop
  | _, [] => True
  | s, e :: es => (∀ u, u ≠ e.1 → (s.th u).pc = .idle) ∧ ∀ s', tstep s e.1 e.2 = .ok s' → Serial s' es

theorem Serial.alone {s : Shared} {es : List (Nat × Call)} (h : Serial s es) : AloneAll s es := by
  induction es generalizing s with
  | nil => trivial
  | cons e es ih =>
    refine ⟨?_, fun s' hs => ih (h.2 s' hs)⟩
    intro u hu b hb
    rw [h.1 u hu] at hb
    cases hb

/-- With a lock around the calls it would hold, for any number of threads. -/
theorem C108_locked {W : Nat} {s s' : Sys} {r1 r2 : Option Nat} {num len : Nat} {m : Pool} (hc : create W s r1 r2 num len = (.ok m, s'))
    (es : List (Nat × Call)) (ha : Serial (tinit m) es) :
    ∃ x, trun (tinit m) es = .ok x ∧ Exclusive len x ∧ (Quiet x → NoneLost m.buf num len x) :=
  C108_threads_partial hc es ha.alone

/-- It holds in a program with one thread. -/
theorem C108_one_thread {W : Nat} {s s' : Sys} {r1 r2 : Option Nat} {num len : Nat} {m : Pool} (hc : create W s r1 r2 num len = (.ok m, s'))
    (cs : List Call) :
    ∃ x, trun (tinit m) (cs.map (fun c => (0, c))) = .ok x ∧ Exclusive len x ∧ (Quiet x → NoneLost m.buf num len x) := by
  refine C108_locked hc _ ?_
  have h : ∀ (cs : List Call) (s : Shared), (∀ u, u ≠ 0 → (s.th u).pc = .idle) → Serial s (cs.map (fun c => (0, c))) := by
    intro cs
    induction cs with
    | nil => intro s _; trivial
    | cons c cs ih =>
      intro s hs
      refine ⟨hs, fun s' h => ih s' (fun u hu => ?_)⟩
      rw [tstep_other h hu]
      exact hs u hu
  exact h cs _ (fun u _ => rfl)

/-! ## Examples and the violation -/

/-- A pool of eight buffers. -/
def exPool : Pool := ⟨1000, 8, 4, 2000, [0#8]⟩
theorem exPool_create : create (2 ^ 64) [] (some 1000) (some 2000) 8 4 = (.ok exPool, [(2000, 1), (1000, 32)]) := rfl

/-- The threads 0 and 1 each allocate a buffer, thread 0 frees its one, all calls after one another: the hypotheses hold. -/
def exSerial : List (Nat × Call) :=
  (List.replicate 4 (0, .alloc 4)) ++ (List.replicate 5 (1, .alloc 4)) ++ (List.replicate 12 (0, .free 1000))

/-- `trun` and a test of the result. -/
def after (es : List (Nat × Call)) (f : Shared → Bool) : Bool := match trun (tinit exPool) es with | .ok s => f s | _ => false

example : after exSerial (fun s => (s.th 0).held == [] && (s.th 1).held == [1004] && s.pool.active == [2#8] && (s.th 0).pc == .idle) = true := by
  decide +kernel

/-- `Serial` as a computation for the threads below `n`. -/
def serial (n : Nat) : Shared → List (Nat × Call) → Bool
  | _, [] => true
  | s, e :: es => (List.range n).all (fun u => u == e.1 || (s.th u).pc == .idle) && match tstep s e.1 e.2 with | .ok s' => serial n s' es | _ => true

theorem serialB {s : Shared} {n : Nat} {es : List (Nat × Call)} (he : ∀ e ∈ es, e.1 < n) (hs : ∀ u, n ≤ u → (s.th u).pc = .idle)
    (h : serial n s es = true) : Serial s es := by
  induction es generalizing s with
  | nil => trivial
  | cons e es ih =>
    rw [serial, Bool.and_eq_true] at h
    constructor
    · intro u hu
      rcases Nat.lt_or_ge u n with hlt | hge
      · have := List.all_eq_true.1 h.1 u (List.mem_range.2 hlt)
        rw [Bool.or_eq_true, beq_iff_eq, beq_iff_eq] at this
        exact this.resolve_left hu
      · exact hs u hge
    · intro s' h'
      rw [h'] at h
      refine ih (fun e he' => he e (List.mem_cons_of_mem _ he')) ?_ h.2
      intro u hu
      have := he e List.mem_cons_self
      rw [tstep_other h' (by omega)]
      exact hs u hu

example : Serial (tinit exPool) exSerial := serialB (n := 2) (by decide +kernel) (fun _ _ => rfl) (by decide +kernel)

/-- Two threads allocate at the same time and get the same buffer: both test the bit before either sets it. -/
def exRace : List (Nat × Call) := [(0, .alloc 4), (1, .alloc 4), (0, .alloc 4), (1, .alloc 4), (0, .alloc 4), (0, .alloc 4), (1, .alloc 4), (1, .alloc 4)]

theorem C108_same_buffer : after exRace (fun s => (s.th 0).held == [1000] && (s.th 1).held == [1000]) = true := by decide +kernel

/-- While thread 1 allocates, thread 0 frees its buffer: the byte that thread 1 writes has the bit set again. In the end no thread has a buffer, and seven are
left. -/
def exLost : List (Nat × Call) :=
  (List.replicate 4 (0, .alloc 4)) ++ (List.replicate 4 (1, .alloc 4)) ++ (List.replicate 12 (0, .free 1000)) ++ [(1, .alloc 4)] ++ (List.replicate 12 (1, .free 1004))

theorem exLost_run : after exLost (fun s => (s.th 0).held == [] && (s.th 1).held == [] && (s.th 0).pc == .idle && (s.th 1).pc == .idle && s.pool == { exPool with active := [1#8] }) =
    true := by
  decide +kernel

theorem trun_other {s s' : Shared} {es : List (Nat × Call)} (h : trun s es = .ok s') {u : Nat} (hu : ∀ e ∈ es, u ≠ e.1) : s'.th u = s.th u := by
  induction es generalizing s with
  | nil => rw [← Out.ok.inj h]
  | cons e es ih =>
    rw [trun] at h
    cases hs : tstep s e.1 e.2 with
    | ok s1 =>
      rw [hs] at h
      rw [ih h (fun x hx => hu x (List.mem_cons_of_mem _ hx)), tstep_other hs (hu e List.mem_cons_self)]
    | err e => rw [hs] at h; cases h
    | ub => rw [hs] at h; cases h

theorem C108_lost : ∃ x, trun (tinit exPool) exLost = .ok x ∧ Quiet x ∧ (∀ t, (x.th t).held = []) ∧ ¬ NoneLost exPool.buf 8 4 x := by
  have h := exLost_run
  unfold after at h
  cases hx : trun (tinit exPool) exLost with
  | err e => rw [hx] at h; cases h
  | ub => rw [hx] at h; cases h
  | ok x =>
    rw [hx] at h
    simp only [Bool.and_eq_true, beq_iff_eq] at h
    obtain ⟨⟨⟨⟨h0, h1⟩, h2⟩, h3⟩, h4⟩ := h
    have ho : ∀ u, 2 ≤ u → x.th u = ⟨.idle, []⟩ := by
      intro u hu
      refine trun_other hx (u := u) (fun e he => ?_)
      have : e.1 < 2 := (show ∀ e ∈ exLost, e.1 < 2 by decide +kernel) e he
      omega
    have hheld : ∀ t, (x.th t).held = [] := by
      intro t
      rcases Nat.lt_or_ge t 2 with ht | ht
      · have : t = 0 ∨ t = 1 := by omega
        rcases this with rfl | rfl
        · exact h0
        · exact h1
      · rw [ho t ht]
    refine ⟨x, rfl, ?_, hheld, ?_⟩
    · intro t
      rcases Nat.lt_or_ge t 2 with ht | ht
      · have : t = 0 ∨ t = 1 := by omega
        rcases this with rfl | rfl
        · exact h2
        · exact h3
      · rw [ho t ht]
    · intro hn
      have := hn [] List.nodup_nil (fun p => by simp [hheld]) [.alloc 1]
      rw [h4] at this
      exact absurd this (by decide +kernel)

theorem C108_violated : ¬ C108_statement := by
  intro h
  obtain ⟨x, h1, h2, -⟩ := h _ _ _ _ _ _ _ _ exPool_create exRace
  have h3 := C108_same_buffer
  unfold after at h3
  rw [h1] at h3
  dsimp only at h3
  rw [Bool.and_eq_true, beq_iff_eq, beq_iff_eq] at h3
  exact h2.2 0 1 (by decide) 1000 (by rw [h3.1]; simp) 1000 (by rw [h3.2]; simp) 1000 (by omega)

end FreeCoAP.Mem
