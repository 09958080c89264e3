import Verif.Res.LemmasProxy2

/-!
# Threads keep the rules together

Each thread has objects of its own, and all use some objects in common. What one thread does is proper whatever the others have done.
-/

namespace FreeCoAP.Res

variable {x : Bool}

/-- Objects that depend on each other and on the objects in common only. -/
structure Closed (B S : St) : Prop where
  lib : (∃ h ∈ S.held, ofLib h.1 = true) → (.lib, 0) ∈ S.held ∨ (.lib, 0) ∈ B.held
  refs : ∀ t ∈ S.refs, (t.1 ∈ S.held ∨ t.1 ∈ B.held) ∧ (t.2 ∈ S.held ∨ t.2 ∈ B.held) ∧ t.1.1 ≠ .lib ∧ t.2.1 ≠ .lib

theorem Closed.ofSound {B o : St} (h : (o + B).Sound) : Closed B o := by
  refine ⟨?_, ?_⟩
  · rintro ⟨e, he, hl⟩
    exact List.mem_append.1 (h.lib ⟨e, List.mem_append_left _ he, hl⟩)
  · intro t ht
    obtain ⟨h1, h2, h3⟩ := h.refs t (List.mem_append_left _ ht)
    exact ⟨List.mem_append.1 h1, List.mem_append.1 h2, h3⟩

theorem Closed.none (B : St) : Closed B none' :=
  ⟨(by rintro ⟨e, he, -⟩; cases he), (by intro t ht; cases ht)⟩

theorem Closed.add {B S T : St} (h : Closed B S) (h' : Closed B T) : Closed B (S + T) := by
  refine ⟨?_, ?_⟩
  · rintro ⟨e, he, hl⟩
    rcases List.mem_append.1 he with he | he
    · exact (h.lib ⟨e, he, hl⟩).imp_left (List.mem_append_left _)
    · exact (h'.lib ⟨e, he, hl⟩).imp_left (List.mem_append_right _)
  · intro t ht
    rcases List.mem_append.1 ht with ht | ht
    · obtain ⟨h1, h2, h3⟩ := h.refs t ht
      exact ⟨h1.imp_left (List.mem_append_left _), h2.imp_left (List.mem_append_left _), h3⟩
    · obtain ⟨h1, h2, h3⟩ := h'.refs t ht
      exact ⟨h1.imp_left (List.mem_append_right _), h2.imp_left (List.mem_append_right _), h3⟩

theorem Closed.same {B S T : St} (hst : S.Same T) (h : Closed B S) : Closed B T := by
  refine ⟨?_, ?_⟩
  · rintro ⟨e, he, hl⟩
    exact (h.lib ⟨e, (hst.1.mem_iff).2 he, hl⟩).imp_left (hst.1.mem_iff).1
  · intro t ht
    obtain ⟨h1, h2, h3⟩ := h.refs t ((hst.2 t).2 ht)
    exact ⟨h1.imp_left (hst.1.mem_iff).1, h2.imp_left (hst.1.mem_iff).1, h3⟩

/-- Closed objects beside those in common. -/
theorem Closed.sound {B S : St} (hB : B.Sound) (h : Closed B S) (hn : ((S + B).held.filter (fun h => decide (h.1 ≠ .lib))).Nodup) :
    (S + B).Sound := by
  refine ⟨?_, ?_, hn⟩
  · rintro ⟨e, he, hl⟩
    rcases List.mem_append.1 he with he | he
    · exact List.mem_append.2 (h.lib ⟨e, he, hl⟩)
    · exact List.mem_append_right _ (hB.lib ⟨e, he, hl⟩)
  · intro t ht
    rcases List.mem_append.1 ht with ht | ht
    · obtain ⟨h1, h2, h3⟩ := h.refs t ht
      exact ⟨List.mem_append.2 h1, List.mem_append.2 h2, h3⟩
    · obtain ⟨h1, h2, h3⟩ := hB.refs t ht
      exact ⟨List.mem_append_right _ h1, List.mem_append_right _ h2, h3⟩

theorem once_right {o G : St} (hs : (o + G).Sound) : (G.held.filter (fun h => decide (h.1 ≠ .lib))).Nodup := by
  have h := hs.once
  rw [add_held, List.filter_append, List.nodup_append] at h
  exact h.2.1

theorem once_part {o R B : St} (hs : (o + (R + B)).Sound) : ((o + B).held.filter (fun h => decide (h.1 ≠ .lib))).Nodup := by
  refine hs.once.sublist (List.Sublist.filter _ ?_)
  rw [add_held, add_held, add_held]
  exact (List.Sublist.refl _).append (List.sublist_append_right _ _)

/-- A step of one thread. -/
theorem pool_step {α : Type} {B o R S : St} {op : Op} {args : List Nat} {k : Int × Nat → Prog α} {Q : α → St → Prop} (hB : B.Sound) (hR : Closed B R)
    (hs : (o + (R + B)).Sound) (hS : S.Same (o + (R + B))) (hw : Wp x B Q (.call op args k) o) (r : Int) (y : Nat) :
    proper S ⟨op, args, r, y⟩ ∧ (honest S ⟨op, args, r, y⟩ →
      (effect x S ⟨op, args, r, y⟩).Same (effect x o ⟨op, args, r, y⟩ + (R + B)) ∧ (effect x o ⟨op, args, r, y⟩ + (R + B)).Sound ∧
      (effect x o ⟨op, args, r, y⟩ + B).Sound ∧ Wp x B Q (k (r, y)) (effect x o ⟨op, args, r, y⟩)) := by
  obtain ⟨h1, h2⟩ := hw
  have hG : (R + B).Sound := hR.sound hB (once_right hs)
  have hBG : ∀ h ∈ B.held, h ∈ (R + B).held := fun h hh => List.mem_append_right _ hh
  have hless : ∀ h ∈ (o + B).held, h ∈ (o + (R + B)).held := by
    intro h hh
    rcases List.mem_append.1 hh with hh | hh
    · exact List.mem_append_left _ hh
    · exact List.mem_append_right _ (hBG h hh)
  refine ⟨(proper_same hS _).2 (h1.proper hG hs hBG (fun hh => (h2 r y hh).1)), fun hh => ?_⟩
  have hh' := (honest_same hS _).1 hh
  obtain ⟨h3, h4⟩ := h2 r y (honest_less hless hh')
  refine ⟨?_, sound_effect h1 hG hs hBG h3 hh', h3, h4⟩
  rw [← h1.effect hG hs]
  exact effect_same x hS _

/-- The threads of the connections, and their objects. -/
inductive Conns (x : Bool) (B : St) : List (Prog Unit) → St → Prop where
  | nil : Conns x B [] none'
  | cons {p : Prog Unit} {o R S : St} {ps : List (Prog Unit)} : Wp x B (fun _ o => o = none') p o → (o + B).Sound → Conns x B ps R →
      S.Same (o + R) → Conns x B (p :: ps) S

theorem Conns.closed {B R : St} {ps : List (Prog Unit)} (h : Conns x B ps R) : Closed B R := by
  induction h with
  | nil => exact Closed.none B
  | cons _ h2 _ h4 ih => exact ((Closed.ofSound h2).add ih).same h4.symm

theorem Conns.same {B R S : St} {ps : List (Prog Unit)} (hs : S.Same R) (h : Conns x B ps R) (hn : ps ≠ []) : Conns x B ps S := by
  cases h with
  | nil => exact absurd rfl hn
  | cons h1 h2 h3 h4 => exact .cons h1 h2 h3 (hs.trans h4)

theorem same_rotate (a b c : St) : (a + (b + c)).Same (b + (a + c)) := by
  rw [← add_assoc, ← add_assoc]
  exact (St.Same.swap a b).add (.refl c)

/-- One of the threads, and the others. -/
theorem Conns.pick {B R : St} {cs ds : List (Prog Unit)} {p : Prog Unit} (h : Conns x B (cs ++ p :: ds) R) :
    ∃ o R', R.Same (o + R') ∧ Wp x B (fun _ o => o = none') p o ∧ (o + B).Sound ∧ Conns x B (cs ++ ds) R' := by
  induction cs generalizing R with
  | nil =>
    cases h with
    | cons h1 h2 h3 h4 => exact ⟨_, _, h4, h1, h2, h3⟩
  | cons q cs ih =>
    cases h with
    | cons h1 h2 h3 h4 =>
      rename_i o1 R1
      obtain ⟨o, R', h5, h6, h7, h8⟩ := ih h3
      exact ⟨o, o1 + R', h4.trans (((St.Same.refl o1).add h5).trans (same_rotate o1 o R')), h6, h7, .cons h1 h2 h8 (.refl _)⟩

/-- A thread among the others. -/
theorem Conns.put {B R o : St} {cs ds : List (Prog Unit)} {p : Prog Unit} (h : Conns x B (cs ++ ds) R) (hw : Wp x B (fun _ o => o = none') p o)
    (hs : (o + B).Sound) : Conns x B (cs ++ p :: ds) (o + R) := by
  induction cs generalizing R with
  | nil => exact .cons hw hs h (.refl _)
  | cons q cs ih =>
    cases h with
    | cons h1 h2 h3 h4 =>
      rename_i o1 R1
      exact .cons h1 h2 (ih h3) (((St.Same.refl o).add h4).trans (same_rotate o o1 R1))

/-- The thread of the listener, and its objects. -/
def LisOk (x : Bool) (B : St) (f : Fixed) : Lis → St → Prop
  | .turn p, o => Wp x B (fun r o => ∃ o', o = o' + f.l.objs ∧ TurnLeaves f.prio f.cred r o') p o
  | .closing p, o => Wp x B (fun _ o => o = none') p o
  | .ended, o => o = none'

/-- The objects that exist are those of the threads and those in common. -/
def PoolOk (x : Bool) (B : St) (f : Fixed) (S : St) (t : Threads) : Prop :=
  ∃ o R, S.Same (o + (R + B)) ∧ (o + (R + B)).Sound ∧ (o + B).Sound ∧ LisOk x B f t.lis o ∧ Conns x B t.cons R

/-- The objects that all threads of the proxy use: GnuTLS, priorities and credentials; and descriptor 0 is in use. -/
structure Common (f : Fixed) (B : St) : Prop where
  sound : B.Sound
  zero : (.fd, 0) ∈ B.held
  lib : (.lib, 0) ∈ B.held
  prio : (.prio, f.prio) ∈ B.held
  cred : (.cred, f.cred) ∈ B.held

theorem turn_ok {B : St} {f : Fixed} (hB : Common f B) (hs : (f.l.objs + B).Sound) (fuel : Nat) :
    LisOk x B f (.turn (listenerTurn f.auth f.prio f.cred f.l fuel)) f.l.objs :=
  Safe.frame (fun h => listenerTurn_safe h (List.mem_append_right _ hB.zero) (by simp [add_held, Listener.objs]) (by simp [add_held, Listener.objs])
    (List.mem_append_right _ hB.lib) (List.mem_append_right _ hB.cred) (List.mem_append_right _ hB.prio)) hs

theorem next_ok {B : St} {f : Fixed} {n : Lis} (hB : Common f B) (hs : (f.l.objs + B).Sound) (h : f.Next n) : LisOk x B f n f.l.objs := by
  cases h with
  | turn fuel => exact turn_ok hB hs fuel
  | leave => exact listenerDelete_safe hB.sound hs

theorem Closed.con {B : St} {f : Fixed} (hB : Common f B) (c : Con) : Closed B (c.objs f.prio f.cred) := by
  refine ⟨fun _ => .inr hB.lib, ?_⟩
  intro t ht
  have ht : t ∈ [((Kind.session, c.sock.session), (Kind.cred, f.cred)), ((.session, c.sock.session), (.prio, f.prio))] := by
    simpa [Con.objs, Con.mems, Sock.objs, one, add_refs] using ht
  simp only [List.mem_cons, List.not_mem_nil, or_false] at ht
  rcases ht with rfl | rfl
  · exact ⟨.inl (by simp [Con.objs, Con.mems, Sock.objs, add_held]), .inr hB.cred, by simp, by simp⟩
  · exact ⟨.inl (by simp [Con.objs, Con.mems, Sock.objs, add_held]), .inr hB.prio, by simp, by simp⟩

/-- A step without a call. -/
theorem quiet_ok {B S : St} {f : Fixed} {t u : Threads} (hB : Common f B) (h : PoolOk x B f S t) (hst : f.Step t none u) : PoolOk x B f S u := by
  obtain ⟨o, R, h1, h2, h3, h4, h5⟩ := h
  cases hst with
  | stop =>
    obtain ⟨o1, h6, o2, h7, h8⟩ := h4
    have h8 : o2 = none' := h8
    subst h8
    rw [none_add] at h7
    subst h7
    have hl := lib_same (h6.add (.refl B)) h3
    exact ⟨f.l.objs, R, h1.trans (h6.add (.refl _)), lib_same (h6.add (.refl _)) h2, hl, listenerDelete_safe hB.sound hl, h5⟩
  | skip hn =>
    obtain ⟨o1, h6, o2, h7, h8⟩ := h4
    have h8 : o2 = none' := h8
    subst h8
    rw [none_add] at h7
    subst h7
    have hl := lib_same (h6.add (.refl B)) h3
    exact ⟨f.l.objs, R, h1.trans (h6.add (.refl _)), lib_same (h6.add (.refl _)) h2, hl, next_ok hB hl hn, h5⟩
  | con c rs fuel hn =>
    obtain ⟨o1, h6, o2, h7, h8⟩ := h4
    have h8 : o2 = c.objs f.prio f.cred := h8
    subst h8
    subst h7
    have hm : (o + (R + B)).Same (f.l.objs + (c.objs f.prio f.cred + R + B)) := by
      refine (h6.add (.refl _)).trans ?_
      rw [add_assoc, add_assoc]
      exact same_rotate _ _ _
    have hsnd := lib_same hm h2
    have hlB : (f.l.objs + B).Sound := by
      refine Closed.sound hB.sound ⟨?_, ?_⟩ (once_part hsnd)
      · exact fun _ => .inr hB.lib
      · intro t ht; cases ht
    have hcB : (c.objs f.prio f.cred + B).Sound := by
      refine Closed.sound hB.sound (Closed.con hB c) (once_part (R := f.l.objs + R) ?_)
      refine lib_same ?_ hsnd
      rw [add_assoc, add_assoc]
      exact same_rotate _ _ _
    exact ⟨f.l.objs, c.objs f.prio f.cred + R, h1.trans hm, hsnd, hlB, next_ok hB hlB hn,
      .cons (connectionThread_safe hB.sound hcB) hcB h5 (.refl _)⟩
  | ended =>
    obtain ⟨o1, h6, h7⟩ := h4
    subst h7
    exact ⟨none', R, h1.trans (h6.add (.refl _)), lib_same (h6.add (.refl _)) h2, lib_same (h6.add (.refl _)) h3, rfl, h5⟩
  | done =>
    obtain ⟨o1, R', h6, h7, h8, h9⟩ := h5.pick
    obtain ⟨o2, h10, rfl⟩ := h7
    have hm : (o + (R + B)).Same (o + (R' + B)) := by
      refine (St.Same.refl o).add (St.Same.add ?_ (.refl B))
      refine h6.trans ((h10.add (.refl R')).trans ?_)
      rw [none_add]
      exact .refl _
    exact ⟨o, R', h1.trans hm, lib_same hm h2, h3, h4, h9⟩

/-- A step with a call. -/
theorem call_ok {B S : St} {f : Fixed} {t u : Threads} {e : Ev} (hB : Common f B) (h : PoolOk x B f S t) (hst : f.Step t (some e) u) :
    proper S e ∧ (honest S e → PoolOk x B f (effect x S e) u) := by
  obtain ⟨o, R, h1, h2, h3, h4, h5⟩ := h
  cases hst with
  | lis r y =>
    obtain ⟨h6, h7⟩ := pool_step hB.sound h5.closed h2 h1 h4 r y
    refine ⟨h6, fun hh => ?_⟩
    obtain ⟨h8, h9, h10, h11⟩ := h7 hh
    exact ⟨_, R, h8, h9, h10, h11, h5⟩
  | closing r y =>
    obtain ⟨h6, h7⟩ := pool_step hB.sound h5.closed h2 h1 h4 r y
    refine ⟨h6, fun hh => ?_⟩
    obtain ⟨h8, h9, h10, h11⟩ := h7 hh
    exact ⟨_, R, h8, h9, h10, h11, h5⟩
  | call r y =>
    obtain ⟨o1, R', k6, k7, k8, k9⟩ := h5.pick
    have hm : (o + (R + B)).Same (o1 + ((o + R') + B)) := by
      refine ((St.Same.refl o).add (k6.add (.refl B))).trans ?_
      rw [add_assoc, add_assoc]
      exact same_rotate _ _ _
    obtain ⟨h6, h7⟩ := pool_step hB.sound ((Closed.ofSound h3).add k9.closed) (lib_same hm h2) (h1.trans hm) k7 r y
    refine ⟨h6, fun hh => ?_⟩
    obtain ⟨h8, h9, h10, h11⟩ := h7 hh
    have hm' : ∀ o2 : St, (o2 + ((o + R') + B)).Same (o + ((o2 + R') + B)) := by
      intro o2
      rw [add_assoc, add_assoc]
      exact same_rotate _ _ _
    exact ⟨o, _ + R', h8.trans (hm' _), lib_same (hm' _) h9, h3, h4, k9.put h11 h10⟩

theorem pool_runs {B S : St} {f : Fixed} {t u : Threads} {l : List Ev} (hB : Common f B) (h : PoolOk x B f S t) (hr : f.Runs t l u) :
    match replay x S l with
    | .ok S' => PoolOk x B f S' u
    | .misuse => False
    | .dishonest => True := by
  induction hr with
  | refl => exact h
  | quiet _ hst ih =>
    have := ih
    split at this
    · exact quiet_ok hB this hst
    · exact this
    · trivial
  | call _ hst ih =>
    have := ih
    rw [replay_append]
    split at this
    · rename_i S' hS
      rw [hS]
      obtain ⟨h1, h2⟩ := call_ok hB this hst
      dsimp only
      rw [replay, if_neg (not_not_intro h1)]
      rename_i e _ _
      by_cases hh : honest S' e
      · rw [if_neg (not_not_intro hh)]
        exact h2 hh
      · rw [if_pos hh]; trivial
    · exact this.elim
    · rename_i hS
      rw [hS]
      trivial

end FreeCoAP.Res
