import Verif.Proxy.SpecStats

/-!
# Lemmas about the statistics of the proxy
-/

namespace FreeCoAP.Proxy.Stats

theorem get_set (c : Counts) (k k' : Kind) (v : BitVec 32) : (c.set k v).get k' = if k' = k then v else c.get k' := by
  cases k <;> cases k' <;> rfl

theorem put_same (s : State) (t : Nat) (p : At) : (s.put t p).th t = p := if_pos rfl
theorem put_other (s : State) {t u : Nat} (p : At) (h : u ≠ t) : (s.put t p).th u = s.th u := if_neg h

/-- The counter that the thread has still to increase, or has increased without having left the macro. -/
def pending : At → Option Kind
  | .lock (.count k) | .read k | .write k _ | .leave k => some k
  | _ => none

/-- The counter that has been increased by a thread that has not yet left the macro. -/
def early : At → Option Kind
  | .leave k => some k
  | _ => none

/-- What a thread has read is what the counters are. -/
def Fine (c : Counts) : At → Prop
  | .write k v => v = c.get k
  | .print1 a => a = c.okCon
  | .print2 a b => a = c.okCon ∧ b = c.failCon
  | .print3 a b d => a = c.okCon ∧ b = c.failCon ∧ d = c.okTrans
  | .flush x => x = c
  | _ => True

theorem Fine.of_not_inside {c : Counts} {p : At} (h : ¬ Inside p) : Fine c p := by
  cases p <;> first | trivial | exact absurd trivial h

structure Inv (s : State) : Prop where
  own : ∀ t, Inside (s.th t) ↔ s.owner = some t
  val : ∀ k, s.counts.get k = BitVec.ofNat 32 (increased k s.hist + if s.owner.bind (fun t => early (s.th t)) = some k then 1 else 0)
  fine : ∀ t, Fine s.counts (s.th t)
  reports : ∀ a t c b, s.hist = a ++ .reported t c :: b → ∀ k, c.get k = BitVec.ofNat 32 (increased k b)
  pend : ∀ t k, happened k (ofThread t s.hist) = increased k (ofThread t s.hist) + if pending (s.th t) = some k then 1 else 0
  last : ∀ t, s.th t = .ended → ∃ c b, ofThread t s.hist = .reported t c :: b

theorem Inv.init : Inv init where
  own t := ⟨fun h => absurd h (fun h => h), fun h => by cases h⟩
  val k := by cases k <;> rfl
  fine _ := trivial
  reports a t c b h := by cases a <;> cases h
  pend _ _ := rfl
  last t h := by cases h

theorem ofThread_same {e : Event} {t : Nat} (h : e.by = t) (l : List Event) : ofThread t (e :: l) = e :: ofThread t l :=
  List.filter_cons_of_pos (decide_eq_true h)
theorem ofThread_other {e : Event} {t : Nat} (h : e.by ≠ t) (l : List Event) : ofThread t (e :: l) = ofThread t l :=
  List.filter_cons_of_neg (by rw [decide_eq_true_iff]; exact h)

theorem happened_cons (k : Kind) (e : Event) (l : List Event) : happened k (e :: l) = happened k l + if due e = some k then 1 else 0 := by
  unfold happened
  rw [List.filter_cons]
  by_cases h : due e = some k
  · rw [if_pos (decide_eq_true h), if_pos h]; rfl
  · rw [if_neg (by rw [decide_eq_true_iff]; exact h), if_neg h]; rfl

theorem increased_cons (k : Kind) (e : Event) (l : List Event) : increased k (e :: l) = increased k l + if made e = some k then 1 else 0 := by
  unfold increased
  rw [List.filter_cons]
  by_cases h : made e = some k
  · rw [if_pos (decide_eq_true h), if_pos h]; rfl
  · rw [if_neg (by rw [decide_eq_true_iff]; exact h), if_neg h]; rfl

/-- A thread outside moves to a place outside, and may say something that is not an increase or a report. -/
theorem Inv.outside {s : State} (h : Inv s) {t : Nat} {p : At} (hs : ¬ Inside (s.th t)) (hp : ¬ Inside p) (hn : s.th t ≠ .ended) (e : Event) (he : e.by = t)
    (hm : made e = none) (hr : ∀ t c, e ≠ .reported t c) (hq : pending (s.th t) = none) (hd : due e = pending p) (hl : p ≠ .ended) :
    Inv ((s.say e).put t p) where
  own u := by
    by_cases hu : u = t
    · subst hu
      rw [put_same]
      exact ⟨fun x => absurd x hp, fun x => absurd ((h.own u).2 x) hs⟩
    · rw [put_other _ _ hu]; exact h.own u
  val k := by
    show s.counts.get k = BitVec.ofNat 32 (increased k (e :: s.hist) + if s.owner.bind (fun t' => early (((s.say e).put t p).th t')) = some k then 1 else 0)
    rw [increased_cons, hm, if_neg (by intro h; cases h), Nat.add_zero, h.val k]
    have : s.owner.bind (fun t' => early (((s.say e).put t p).th t')) = s.owner.bind (fun t => early (s.th t)) := by
      cases ho : s.owner with
      | none => rfl
      | some u =>
        have hu : u ≠ t := by intro hu; subst hu; exact hs ((h.own u).2 ho)
        show early (((s.say e).put t p).th u) = early (s.th u)
        rw [put_other _ _ hu]; rfl
    rw [this]
  fine u := by
    by_cases hu : u = t
    · subst hu
      rw [put_same]
      exact .of_not_inside hp
    · rw [put_other _ _ hu]; exact h.fine u
  reports a u c b hab := by
    cases a with
    | nil => exact absurd (List.cons.inj hab).1 (hr u c)
    | cons x a => exact h.reports a u c b (List.cons.inj hab).2
  pend u k := by
    show happened k (ofThread u (e :: s.hist)) = increased k (ofThread u (e :: s.hist)) + _
    by_cases hu : u = t
    · subst hu
      rw [put_same, ofThread_same he, happened_cons, increased_cons, hm, h.pend u k, hq, hd, if_neg (show none ≠ some k by intro x; cases x)]
    · rw [put_other _ _ hu, ofThread_other (by rw [he]; exact Ne.symm hu)]; exact h.pend u k
  last u hu := by
    by_cases hut : u = t
    · subst hut
      rw [put_same] at hu
      exact absurd hu hl
    · rw [put_other _ _ hut] at hu
      show ∃ c b, ofThread u (e :: s.hist) = _
      rw [ofThread_other (by rw [he]; exact Ne.symm hut)]
      exact h.last u hu

/-- A thread that has the lock goes on without a change of the counters. -/
theorem Inv.inside {s : State} (h : Inv s) {t : Nat} {p : At} (hs : Inside (s.th t)) (hp : Inside p) (he : early p = none) (he' : early (s.th t) = none)
    (hq : pending p = pending (s.th t)) (hf : Fine s.counts p) : Inv (s.put t p) where
  own u := by
    by_cases hu : u = t
    · subst hu
      rw [put_same]
      exact ⟨fun _ => (h.own u).1 hs, fun _ => hp⟩
    · rw [put_other _ _ hu]; exact h.own u
  val k := by
    show s.counts.get k = BitVec.ofNat 32 (increased k s.hist + if s.owner.bind (fun t' => early ((s.put t p).th t')) = some k then 1 else 0)
    rw [h.val k, (h.own t).1 hs]
    show BitVec.ofNat 32 (_ + if early (s.th t) = some k then 1 else 0) = BitVec.ofNat 32 (_ + if early ((s.put t p).th t) = some k then 1 else 0)
    rw [put_same, he, he']
  fine u := by
    by_cases hu : u = t
    · subst hu; rw [put_same]; exact hf
    · rw [put_other _ _ hu]; exact h.fine u
  reports := h.reports
  pend u k := by
    by_cases hu : u = t
    · subst hu; rw [put_same, hq]; exact h.pend u k
    · rw [put_other _ _ hu]; exact h.pend u k
  last u hu := by
    by_cases hut : u = t
    · subst hut; rw [put_same] at hu; rw [hu] at hp; exact absurd hp (fun h => h)
    · rw [put_other _ _ hut] at hu; exact h.last u hu

/-- A thread takes the lock. -/
theorem Inv.take {s : State} (h : Inv s) {t : Nat} {j : Job} (hs : s.th t = .lock j) (ho : s.owner = none) :
    Inv ({ s with owner := some t }.put t (enter j)) where
  own u := by
    show Inside (({ s with owner := some t }.put t (enter j)).th u) ↔ some t = some u
    by_cases hu : u = t
    · subst hu
      rw [put_same]
      refine ⟨fun _ => rfl, fun _ => ?_⟩
      cases j <;> trivial
    · rw [put_other _ _ hu]
      refine ⟨fun x => ?_, fun x => absurd (Option.some.inj x).symm hu⟩
      have := (h.own u).1 x
      rw [ho] at this; cases this
  val k := by
    show s.counts.get k = BitVec.ofNat 32 (increased k s.hist + if early (({ s with owner := some t }.put t (enter j)).th t) = some k then 1 else 0)
    rw [put_same, h.val k, ho]
    cases j <;> rfl
  fine u := by
    by_cases hu : u = t
    · subst hu; rw [put_same]; cases j <;> trivial
    · rw [put_other _ _ hu]; exact h.fine u
  reports := h.reports
  pend u k := by
    by_cases hu : u = t
    · subst hu
      rw [put_same]
      refine (h.pend u k).trans ?_
      rw [hs]
      cases j <;> rfl
    · rw [put_other _ _ hu]; exact h.pend u k
  last u hu := by
    by_cases hut : u = t
    · subst hut; rw [put_same] at hu; cases j <;> cases hu
    · rw [put_other _ _ hut] at hu; exact h.last u hu

/-- A counter is increased. -/
theorem Inv.write {s : State} (h : Inv s) {t : Nat} {k : Kind} {v : BitVec 32} (hs : s.th t = .write k v) :
    Inv ({ s with counts := s.counts.set k (v + 1) }.put t (.leave k)) where
  own u := by
    by_cases hu : u = t
    · subst hu
      rw [put_same]
      exact ⟨fun _ => (h.own u).1 (by rw [hs]; trivial), fun _ => trivial⟩
    · rw [put_other _ _ hu]; exact h.own u
  val k' := by
    have ho : s.owner = some t := (h.own t).1 (by rw [hs]; trivial)
    have hf := h.fine t
    have hv := h.val k'
    rw [hs] at hf
    rw [ho] at hv
    replace hv : s.counts.get k' = BitVec.ofNat 32 (increased k' s.hist + if early (s.th t) = some k' then 1 else 0) := hv
    rw [hs, show early (.write k v) = none from rfl, if_neg (by intro x; cases x), Nat.add_zero] at hv
    show (s.counts.set k (v + 1)).get k' = BitVec.ofNat 32 (increased k' s.hist + if s.owner.bind (fun u => early _) = some k' then 1 else 0)
    rw [ho, get_set]
    show _ = BitVec.ofNat 32 (increased k' s.hist + if early (({ s with counts := s.counts.set k (v + 1) }.put t (.leave k)).th t) = some k' then 1 else 0)
    rw [put_same, show early (.leave k) = some k from rfl]
    by_cases hk : k' = k
    · subst hk
      rw [if_pos rfl, if_pos rfl, BitVec.ofNat_add, ← hv, show v = s.counts.get k' from hf]; rfl
    · rw [if_neg hk, if_neg (by intro x; exact hk (Option.some.inj x).symm), Nat.add_zero, hv]
  fine u := by
    by_cases hu : u = t
    · subst hu; rw [put_same]; trivial
    · rw [put_other _ _ hu]
      refine .of_not_inside (fun x => hu ?_)
      have h1 := (h.own u).1 x
      rw [(h.own t).1 (by rw [hs]; trivial)] at h1
      exact (Option.some.inj h1).symm
  reports := h.reports
  pend u k' := by
    by_cases hu : u = t
    · subst hu
      rw [put_same]
      refine (h.pend u k').trans ?_
      rw [hs]
      rfl
    · rw [put_other _ _ hu]; exact h.pend u k'
  last u hu := by
    by_cases hut : u = t
    · subst hut; rw [put_same] at hu; cases hu
    · rw [put_other _ _ hut] at hu; exact h.last u hu

theorem release_own {s : State} {t : Nat} (h : s.owner = some t) : release s t = { s with owner := none } := if_pos h

/-- A thread gives the lock back. -/
theorem Inv.put {s : State} (h : Inv s) {t : Nat} {p : At} {e : Event} (hs : Inside (s.th t)) (hp : ¬ Inside p) (hby : e.by = t) (hd : due e = none)
    (hq : pending p = none) (he : early (s.th t) = made e) (hq' : pending (s.th t) = made e)
    (hr : ∀ u c, e = .reported u c → c = s.counts ∧ made e = none) (hl : p = .ended → ∃ c, e = .reported t c) :
    Inv (((release s t).say e).put t p) := by
  have ho : s.owner = some t := (h.own t).1 hs
  rw [release_own ho]
  have hout : ∀ u, u ≠ t → ¬ Inside (s.th u) := by
    intro u hu x
    have h1 := (h.own u).1 x
    rw [ho] at h1
    exact hu (Option.some.inj h1).symm
  have hval : ∀ k, s.counts.get k = BitVec.ofNat 32 (increased k s.hist + if made e = some k then 1 else 0) := by
    intro k
    have hv := h.val k
    rw [ho] at hv
    replace hv : s.counts.get k = BitVec.ofNat 32 (increased k s.hist + if early (s.th t) = some k then 1 else 0) := hv
    rw [hv, he]
  exact {
    own := fun u => by
      show Inside ((({ s with owner := none }.say e).put t p).th u) ↔ none = some u
      refine ⟨fun x => ?_, fun x => by cases x⟩
      by_cases hu : u = t
      · subst hu; rw [put_same] at x; exact absurd x hp
      · rw [put_other _ _ hu] at x; exact absurd x (hout u hu)
    val := fun k => by
      show s.counts.get k = BitVec.ofNat 32 (increased k (e :: s.hist) + 0)
      rw [increased_cons, Nat.add_zero]
      exact hval k
    fine := fun u => by
      by_cases hu : u = t
      · subst hu; rw [put_same]; exact .of_not_inside hp
      · rw [put_other _ _ hu]; exact .of_not_inside (hout u hu)
    reports := fun a u c b hab k => by
      cases a with
      | nil =>
        obtain ⟨h1, h2⟩ := List.cons.inj hab
        obtain ⟨h3, h4⟩ := hr u c h1
        rw [h3, hval k, h4, ← h2, if_neg (by intro x; cases x)]
        rfl
      | cons x a => exact h.reports a u c b (List.cons.inj hab).2 k
    pend := fun u k => by
      show happened k (ofThread u (e :: s.hist)) = increased k (ofThread u (e :: s.hist)) + _
      by_cases hu : u = t
      · subst hu
        rw [put_same, ofThread_same hby, happened_cons, increased_cons, h.pend u k, hd, hq, hq']
      · rw [put_other _ _ hu, ofThread_other (by rw [hby]; exact Ne.symm hu)]; exact h.pend u k
    last := fun u hu => by
      show ∃ c b, ofThread u (e :: s.hist) = _
      by_cases hut : u = t
      · subst hut
        rw [put_same] at hu
        obtain ⟨c, hc⟩ := hl hu
        exact ⟨c, _, by rw [ofThread_same hby, hc]⟩
      · rw [put_other _ _ hut] at hu
        rw [ofThread_other (by rw [hby]; exact Ne.symm hut)]
        exact h.last u hu }

theorem Inv.step {s : State} (h : Inv s) (t : Nat) (st : Status) : Inv (step s t st) := by
  unfold Stats.step
  cases hp : s.th t with
  | loop =>
    have h0 : ¬ Inside (s.th t) := by rw [hp]; exact fun h => h
    have h1 : s.th t ≠ .ended := by rw [hp]; intro x; cases x
    have h2 : pending (s.th t) = none := by rw [hp]; rfl
    dsimp only [finish]
    cases st with
    | waiting => exact h
    | timedOut => exact h.outside h0 (by exact fun h => h) h1 _ rfl rfl (by intro _ _ x; cases x) h2 rfl (by intro x; cases x)
    | closed => exact h.outside h0 (by exact fun h => h) h1 _ rfl rfl (by intro _ _ x; cases x) h2 rfl (by intro x; cases x)
    | done => exact h.outside h0 (by exact fun h => h) h1 _ rfl rfl (by intro _ _ x; cases x) h2 rfl (by intro x; cases x)
    | failed e => exact h.outside h0 (by exact fun h => h) h1 _ rfl rfl (by intro _ _ x; cases x) h2 rfl (by intro x; cases x)
  | judge ok =>
    have h0 : ¬ Inside (s.th t) := by rw [hp]; exact fun h => h
    have h1 : s.th t ≠ .ended := by rw [hp]; intro x; cases x
    have h2 : pending (s.th t) = none := by rw [hp]; rfl
    refine h.outside h0 (by exact fun h => h) h1 _ rfl rfl (by intro _ _ x; cases x) h2 ?_ (by intro x; cases x)
    cases ok <;> rfl
  | lock j =>
    dsimp only [get]
    cases ho : s.owner with
    | none => exact h.take hp ho
    | some u =>
      dsimp only
      by_cases hu : u = t
      · subst hu
        have := (h.own u).2 ho
        rw [hp] at this
        exact absurd this (fun h => h)
      · rw [if_neg hu]; exact h
  | read k => exact h.inside (by rw [hp]; trivial) trivial rfl (by rw [hp]; rfl) (by rw [hp]; rfl) rfl
  | write k v => exact h.write hp
  | leave k =>
    refine h.put (by rw [hp]; trivial) ?_ rfl rfl ?_ (by rw [hp]; rfl) (by rw [hp]; rfl) (by intro _ _ x; cases x) ?_
    · cases k <;> exact fun h => h
    · cases k <;> rfl
    · intro x; cases k <;> cases x
  | print0 => exact h.inside (by rw [hp]; trivial) trivial rfl (by rw [hp]; rfl) (by rw [hp]; rfl) rfl
  | print1 a =>
    have hf := h.fine t
    rw [hp] at hf
    exact h.inside (by rw [hp]; trivial) trivial rfl (by rw [hp]; rfl) (by rw [hp]; rfl) ⟨hf, rfl⟩
  | print2 a b =>
    have hf := h.fine t
    rw [hp] at hf
    exact h.inside (by rw [hp]; trivial) trivial rfl (by rw [hp]; rfl) (by rw [hp]; rfl) ⟨hf.1, hf.2, rfl⟩
  | print3 a b c =>
    have hf := h.fine t
    rw [hp] at hf
    obtain ⟨rfl, rfl, rfl⟩ := hf
    exact h.inside (by rw [hp]; trivial) trivial rfl (by rw [hp]; rfl) (by rw [hp]; rfl) rfl
  | flush c =>
    have hf := h.fine t
    rw [hp] at hf
    refine h.put (by rw [hp]; trivial) (fun h => h) rfl rfl rfl (by rw [hp]; rfl) (by rw [hp]; rfl) ?_ (fun _ => ⟨_, rfl⟩)
    intro u c' hc
    cases hc
    exact ⟨hf, rfl⟩
  | ended => exact h

theorem Inv.run {s : State} (h : Inv s) (es : List (Nat × Status)) : Inv (run s es) := by
  induction es generalizing s with
  | nil => exact h
  | cons e es ih => exact ih (h.step e.1 e.2)

/-- If each thread has made its increases, then all are made. -/
theorem total {k : Kind} {h : List Event} (hh : ∀ t, happened k (ofThread t h) = increased k (ofThread t h)) : happened k h = increased k h := by
  have key : ((h.filter (fun e => due e = some k)).map Event.by).Perm ((h.filter (fun e => made e = some k)).map Event.by) := by
    refine List.perm_iff_count.2 (fun t => ?_)
    have hc : ∀ f : Event → Option Kind, ((h.filter (fun e => f e = some k)).map Event.by).count t = ((ofThread t h).filter (fun e => f e = some k)).length := by
      intro f
      rw [List.count_eq_length_filter, List.filter_map, List.length_map, List.filter_filter, ofThread, List.filter_filter]
      congr 2
      funext e
      show ((e.by == t) && _) = (_ && decide (e.by = t))
      rw [Bool.and_comm]
      rfl
    rw [hc due, hc made]
    exact hh t
  have := key.length_eq
  rw [List.length_map, List.length_map] at this
  exact this

/-- How many steps a thread with the lock needs to give it back. -/
def rank : At → Nat
  | .leave _ | .flush _ => 1
  | .write _ _ | .print3 _ _ _ => 2
  | .read _ | .print2 _ _ => 3
  | .print1 _ => 4
  | .print0 => 5
  | _ => 0

theorem step_other {s : State} {t u : Nat} {st : Status} (hu : u ≠ t) : (step s t st).th u = s.th u := by
  have hrel : ∀ s : State, (release s t).th = s.th := by intro s; unfold release; split <;> rfl
  unfold step
  cases s.th t with
  | loop => cases st <;> first | rfl | exact put_other _ _ hu
  | judge ok => exact put_other _ _ hu
  | lock j =>
    dsimp only [get]
    cases ho : s.owner with
    | none => exact put_other _ _ hu
    | some w =>
      dsimp only
      by_cases hw : w = t
      · rw [if_pos hw]; exact put_other _ _ hu
      · rw [if_neg hw]
  | leave k => exact (put_other _ _ hu).trans (congrFun (hrel s) u)
  | flush c => exact (put_other _ _ hu).trans (congrFun (hrel s) u)
  | ended => rfl
  | _ => exact put_other _ _ hu

/-- A thread with the lock gives it back. -/
theorem inv_returns {n : Nat} : ∀ {s : State}, Inv s → ∀ {t : Nat}, Inside (s.th t) → rank (s.th t) ≤ n →
    ∃ m, m ≤ n ∧ ∃ s', run s (List.replicate m (t, .waiting)) = s' ∧ s'.owner = none ∧ (∀ u, u ≠ t → s'.th u = s.th u) ∧
      (s'.th t = .lock .report ∨ ¬ Busy (s'.th t)) ∧ (∀ k, s.th t = .leave k ∨ s.th t = .read k ∨ (∃ v, s.th t = .write k v) → s'.th t = next k) ∧
      ((∀ k, early (s.th t) ≠ some k ∧ pending (s.th t) ≠ some k) → s'.th t = .ended) := by
  induction n with
  | zero =>
    intro s h t hi hr
    cases hp : s.th t <;> rw [hp] at hi hr <;> first | exact absurd hi (fun h => h) | (exact absurd hr (Nat.not_succ_le_zero _))
  | succ n ih =>
    intro s h t hi hr
    have ho : s.owner = some t := (h.own t).1 hi
    have go : ∀ p : At, step s t .waiting = s.put t p → Inside p → rank p + 1 = rank (s.th t) → pending p = pending (s.th t) → (early p = none) →
        (∀ k, s.th t = .leave k ∨ s.th t = .read k ∨ (∃ v, s.th t = .write k v) → (p = .leave k ∨ p = .read k ∨ ∃ v, p = .write k v)) →
        ∃ m, m ≤ n + 1 ∧ ∃ s', run s (List.replicate m (t, .waiting)) = s' ∧ s'.owner = none ∧ (∀ u, u ≠ t → s'.th u = s.th u) ∧
          (s'.th t = .lock .report ∨ ¬ Busy (s'.th t)) ∧ (∀ k, s.th t = .leave k ∨ s.th t = .read k ∨ (∃ v, s.th t = .write k v) → s'.th t = next k) ∧
          ((∀ k, early (s.th t) ≠ some k ∧ pending (s.th t) ≠ some k) → s'.th t = .ended) := by
      intro p hs hi' hr' hq hea hk
      have h' := h.step t .waiting
      have hth : (step s t .waiting).th t = p := by rw [hs, put_same]
      obtain ⟨m, hm, s', hrun, h1, h2, h3, h4, h5⟩ := ih h' (t := t) (by rw [hth]; exact hi') (by rw [hth]; omega)
      refine ⟨m + 1, by omega, s', hrun, h1, fun u hu => (h2 u hu).trans (step_other hu), h3, fun k x => ?_, fun x => ?_⟩
      · refine h4 k ?_
        rw [hth]
        exact hk k x
      · refine h5 (fun k => ?_)
        rw [hth, hq, hea]
        exact ⟨(by intro h; cases h), (x k).2⟩
    cases hp : s.th t with
    | loop => rw [hp] at hi; exact absurd hi (fun h => h)
    | judge ok => rw [hp] at hi; exact absurd hi (fun h => h)
    | lock j => rw [hp] at hi; exact absurd hi (fun h => h)
    | ended => rw [hp] at hi; exact absurd hi (fun h => h)
    | read k =>
      rw [← hp]
      refine go (.write k (s.counts.get k)) (by rw [step, hp]) trivial (by rw [hp]; rfl) (by rw [hp]; rfl) rfl ?_
      intro k' x
      rw [hp] at x
      rcases x with x | x | ⟨v, x⟩
      · cases x
      · cases x; exact .inr (.inr ⟨_, rfl⟩)
      · cases x
    | print0 =>
      rw [← hp]
      refine go (.print1 s.counts.okCon) (by rw [step, hp]) trivial (by rw [hp]; rfl) (by rw [hp]; rfl) rfl ?_
      intro k' x
      rw [hp] at x
      rcases x with x | x | ⟨v, x⟩ <;> cases x
    | print1 a =>
      rw [← hp]
      refine go (.print2 a s.counts.failCon) (by rw [step, hp]) trivial (by rw [hp]; rfl) (by rw [hp]; rfl) rfl ?_
      intro k' x
      rw [hp] at x
      rcases x with x | x | ⟨v, x⟩ <;> cases x
    | print2 a b =>
      rw [← hp]
      refine go (.print3 a b s.counts.okTrans) (by rw [step, hp]) trivial (by rw [hp]; rfl) (by rw [hp]; rfl) rfl ?_
      intro k' x
      rw [hp] at x
      rcases x with x | x | ⟨v, x⟩ <;> cases x
    | print3 a b c =>
      rw [← hp]
      refine go (.flush ⟨a, b, c, s.counts.failTrans⟩) (by rw [step, hp]) trivial (by rw [hp]; rfl) (by rw [hp]; rfl) rfl ?_
      intro k' x
      rw [hp] at x
      rcases x with x | x | ⟨v, x⟩ <;> cases x
    | write k v =>
      have h' := h.step t .waiting
      have hth : (step s t .waiting).th t = .leave k := by rw [step, hp]; exact put_same _ _ _
      obtain ⟨m, hm, s', hrun, h1, h2, h3, h4, -⟩ := ih h' (t := t) (by rw [hth]; trivial) (by rw [hth]; rw [hp] at hr; exact Nat.le_of_succ_le_succ hr)
      refine ⟨m + 1, by omega, s', hrun, h1, fun u hu => (h2 u hu).trans (step_other hu), h3, fun k' x => ?_, fun x => absurd rfl (x k).2⟩
      refine h4 k' (.inl ?_)
      rw [hth]
      rcases x with x | x | ⟨v, x⟩ <;> cases x
      rfl
    | leave k =>
      have hth : (step s t .waiting).th t = next k := by rw [step, hp]; exact put_same _ _ _
      refine ⟨1, by omega, _, rfl, ?_, fun u hu => step_other hu, ?_, fun k' x => ?_, fun x => absurd rfl (x k).2⟩
      · show (step s t .waiting).owner = none
        rw [step, hp]
        show (release s t).owner = none
        rw [release_own ho]
      · show (step s t .waiting).th t = _ ∨ ¬ Busy ((step s t .waiting).th t)
        rw [hth]
        cases k
        · exact .inl rfl
        · exact .inl rfl
        · exact .inr (fun h => h)
        · exact .inr (fun h => h)
      · show (step s t .waiting).th t = _
        rw [hth]
        rcases x with x | x | ⟨v, x⟩ <;> cases x
        rfl
    | flush c =>
      have hth : (step s t .waiting).th t = .ended := by rw [step, hp]; exact put_same _ _ _
      refine ⟨1, by omega, _, rfl, ?_, fun u hu => step_other hu, ?_, fun k' x => ?_, fun x => hth⟩
      · show (step s t .waiting).owner = none
        rw [step, hp]
        show (release s t).owner = none
        rw [release_own ho]
      · show (step s t .waiting).th t = _ ∨ ¬ Busy ((step s t .waiting).th t)
        rw [hth]
        exact .inr (fun h => h)
      · rcases x with x | x | ⟨v, x⟩ <;> cases x

theorem run_append (s : State) (a b : List (Nat × Status)) : run s (a ++ b) = run (run s a) b := by
  induction a generalizing s with
  | nil => rfl
  | cons e a ih => exact ih _

theorem inv_to_end {s : State} (h : Inv s) {t : Nat} (hl : s.th t = .lock .report) (ho : s.owner = none) :
    ∃ m, (run s (List.replicate m (t, .waiting))).th t = .ended := by
  have h' := h.step t .waiting
  have hth : (step s t .waiting).th t = .print0 := by rw [step, hl]; dsimp only [get]; rw [ho]; exact put_same _ _ _
  obtain ⟨m, -, s', hrun, -, -, -, -, h5⟩ := inv_returns h' (n := 5) (t := t) (by rw [hth]; trivial) (by rw [hth]; decide)
  refine ⟨m + 1, ?_⟩
  show (run (step s t .waiting) (List.replicate m (t, .waiting))).th t = .ended
  rw [hrun]
  refine h5 (fun k => ?_)
  rw [hth]
  exact ⟨(by intro h; cases h), (by intro h; cases h)⟩

theorem inv_to_rest {s : State} (h : Inv s) {t : Nat} (hi : Inside (s.th t)) : ∃ m, ¬ Busy ((run s (List.replicate m (t, .waiting))).th t) := by
  obtain ⟨m, -, s', hrun, h1, h2, h3, -, -⟩ := inv_returns h hi (Nat.le_refl _)
  rcases h3 with h3 | h3
  · have h' := h.run (List.replicate m (t, .waiting))
    rw [hrun] at h'
    obtain ⟨n, hn⟩ := inv_to_end h' h3 h1
    refine ⟨m + n, ?_⟩
    rw [← List.replicate_append_replicate, run_append, hrun, hn]
    exact fun h => h
  · exact ⟨m, by rw [hrun]; exact h3⟩

theorem inv_to_rest_lock {s : State} (h : Inv s) {t : Nat} {j : Job} (hl : s.th t = .lock j) (ho : s.owner = none) :
    ∃ m, ¬ Busy ((run s (List.replicate m (t, .waiting))).th t) := by
  have h' := h.step t .waiting
  have hth : (step s t .waiting).th t = enter j := by rw [step, hl]; dsimp only [get]; rw [ho]; exact put_same _ _ _
  obtain ⟨m, hm⟩ := inv_to_rest h' (t := t) (by rw [hth]; cases j <;> trivial)
  exact ⟨m + 1, hm⟩

end FreeCoAP.Proxy.Stats
