import Verif.Res.LemmasAuth

/-!
# The sessions of a server
-/

namespace FreeCoAP.Res

theorem transDtlsCreate_some {sd : Nat} {d : SDtls} {l : List Ev} {s : Nat} (h : Runs (transDtlsCreate true sd d) l (some (some s))) :
    Trusted s sd none l := by
  have hf : ∀ y l, ¬ Runs (run_ .deinit [y] >>= fun _ => pure (none : Option Nat)) l (some (some s)) := by
    intro c l h
    replace h := run_some h
    obtain ⟨_, _, _, -, h⟩ := h
    cases (pure_inv h).2
  unfold transDtlsCreate at h
  replace h := sys_some h
  obtain ⟨r, y, l1, rfl, h⟩ := h
  dsimp only at h
  split at h
  · cases (pure_inv h).2
  rename_i hr
  have hr := Classical.not_not.1 hr
  subst hr
  replace h := sys_some h
  obtain ⟨r1, x1, l2, rfl, h⟩ := h
  dsimp only at h
  split at h
  · exact (hf _ _ h).elim
  replace h := sys_some h
  obtain ⟨r2, x2, l3, rfl, h⟩ := h
  dsimp only at h
  split at h
  · exact (hf _ _ h).elim
  replace h := bind_some h
  obtain ⟨l4, l5, b, rfl, hb, h⟩ := h
  split at h
  · exact (hf _ _ h).elim
  rename_i hb'
  have hb' := eq_true_of_ne_false hb'
  subst hb'
  rw [if_pos rfl] at h
  replace h := bind_some h
  obtain ⟨l6, l7, b, rfl, hb2, h⟩ := h
  split at h
  · exact (hf _ _ h).elim
  rename_i hb'
  have hb' := eq_true_of_ne_false hb'
  subst hb'
  obtain ⟨rfl, hd⟩ := pure_inv h
  cases hd
  exact Trusted.mk (l1 := []) (l2 := [⟨.credSet, [s, d.cred], r1, x1⟩, ⟨.prioSet, [s, d.prio], r2, x2⟩])
    (.cons (by simp) (.cons (by simp) .nil)) (handshakeLoop_true hb) (verifyPeer_true hb2) (l3 := []) (fun v hv => by cases hv)

/-- The only session that is destroyed in these calls is one that was created in them. -/
def Fresh (l : List Ev) : Prop :=
  NoDeinit l ∨ ∃ a y b, l = a ++ ⟨.init, [], 0, y⟩ :: b ∧ NoDeinit a ∧ ∀ v ∈ b, v.op = .deinit → v.args = [y]

theorem transDtlsCreate_fresh {auth : Bool} {sd : Nat} {d : SDtls} {l : List Ev} {r : Option (Option Nat)}
    (h : Runs (transDtlsCreate auth sd d) l r) : Fresh l := by
  unfold transDtlsCreate at h
  rcases sys_inv h with ⟨rfl, -⟩ | ⟨r, y, l', rfl, h'⟩
  · exact .inl .nil
  dsimp only at h'
  split at h'
  · cases h' with
    | ret => exact .inl (.cons (by simp) .nil)
    | stop => exact .inl (.cons (by simp) .nil)
  rename_i hr
  have hr := Classical.not_not.1 hr
  subst hr
  refine .inr ⟨[], y, l', rfl, .nil, ?_⟩
  have ho : ∀ s, Only (fun op args => op = .deinit → args = [y]) (verifyPeer s none) := by
    intro s
    apply verifyPeer_only <;> intros <;> first | contradiction | simp_all
  have hh : ∀ s sd, Only (fun op args => op = .deinit → args = [y]) (handshake s sd) := by
    intro s sd
    apply handshakeLoop_only <;> simp
  have ho := ho y
  have hh := hh y sd
  refine Only.run (P := fun op args => op = .deinit → args = [y]) ?_ h'
  refine Only.sys (by simp) (fun r => ?_)
  refine Only.ite (Only.run_ (by simp) Only.pure) ?_
  refine Only.sys (by simp) (fun r => ?_)
  refine Only.ite (Only.run_ (by simp) Only.pure) ?_
  refine Only.bind hh (fun b => ?_)
  refine Only.ite (Only.run_ (by simp) Only.pure) ?_
  refine Only.ite ?_ Only.pure
  refine Only.bind ho (fun b => ?_)
  exact Only.ite (Only.run_ (by simp) Only.pure) Only.pure

theorem Fresh.around {l m n : List Ev} (h : Fresh l) (hm : NoDeinit m) (hn : NoDeinit n) : Fresh (m ++ l ++ n) := by
  rcases h with h | ⟨a, y, b, rfl, h1, h2⟩
  · exact .inl ((hm.append h).append hn)
  · refine .inr ⟨m ++ a, y, b ++ n, by simp, hm.append h1, ?_⟩
    intro v hv
    rcases List.mem_append.1 hv with hv | hv
    · exact h2 v hv
    · exact fun hd => absurd hd (hn v hv)

theorem transCreate_fresh {auth : Bool} {v : Server} {l : List Ev} {r : Option Trans} (h : Runs (transCreate auth v) l (some r)) : Fresh l := by
  unfold transCreate at h
  replace h := sys_some h
  obtain ⟨r1, x1, l1, rfl, h⟩ := h
  dsimp only at h
  split at h
  · rw [(pure_inv h).1]; exact .inl (.cons (by simp) .nil)
  replace h := sys_some h
  obtain ⟨r2, x2, l2, rfl, h⟩ := h
  dsimp only at h
  split at h
  · replace h := run_some h
    obtain ⟨r3, x3, l3, rfl, h⟩ := h
    rw [(pure_inv h).1]; exact .inl (.cons (by simp) (.cons (by simp) (.cons (by simp) .nil)))
  cases hd : v.dtls with
  | none =>
    rw [hd] at h
    rw [(pure_inv h).1]; exact .inl (.cons (by simp) (.cons (by simp) .nil))
  | some d =>
    rw [hd] at h
    replace h := bind_some h
    obtain ⟨l3, l4, s, rfl, h1, h⟩ := h
    have h2 := transDtlsCreate_fresh h1
    cases s with
    | none =>
      replace h := run_some h
      obtain ⟨r3, x3, l5, rfl, h⟩ := h
      rw [(pure_inv h).1]
      exact h2.around (m := [_, _]) (n := [_]) (.cons (by simp) (.cons (by simp) .nil)) (.cons (by simp) .nil)
    | some s =>
      rw [(pure_inv h).1]
      exact h2.around (m := [_, _]) (n := []) (.cons (by simp) (.cons (by simp) .nil)) .nil

theorem transCreate_some {v : Server} {l : List Ev} {t : Trans} (h : Runs (transCreate true v) l (some (some t))) :
    ∀ s, t.session = some s → Trusted s v.sd none l := by
  unfold transCreate at h
  replace h := sys_some h
  obtain ⟨r1, x1, l1, rfl, h⟩ := h
  dsimp only at h
  split at h
  · cases (pure_inv h).2
  replace h := sys_some h
  obtain ⟨r2, x2, l2, rfl, h⟩ := h
  dsimp only at h
  split at h
  · replace h := run_some h
    obtain ⟨r3, x3, l3, rfl, h⟩ := h
    cases (pure_inv h).2
  cases hd : v.dtls with
  | none =>
    rw [hd] at h
    obtain ⟨rfl, ht⟩ := pure_inv h
    cases ht
    intro s hs
    cases hs
  | some d =>
    rw [hd] at h
    replace h := bind_some h
    obtain ⟨l3, l4, s, rfl, h1, h⟩ := h
    cases s with
    | none =>
      replace h := run_some h
      obtain ⟨r3, x3, l5, rfl, h⟩ := h
      cases (pure_inv h).2
    | some s =>
      obtain ⟨rfl, ht⟩ := pure_inv h
      cases ht
      intro s' hs
      cases hs
      rw [List.append_nil]
      exact (transDtlsCreate_some h1).after [_, _]

/-! ## Objects that are kept -/

theorem effect_keep {x : Bool} {S : St} {e : Ev} {h : Handle} (hh : h ∈ S.held) (ht : takes e ≠ some h) : h ∈ (effect x S e).held := by
  have h1 : h ∈ (match takes e with | none => S | some h => (⟨S.held.erase h, S.refs.filter (fun t => decide (t.1 ≠ h))⟩ : St)).held := by
    cases hk : takes e with
    | none => exact hh
    | some k =>
      rw [hk] at ht
      exact (List.mem_erase_of_ne (fun hn => ht (by rw [hn]))).2 hh
  unfold effect
  dsimp only
  cases gives e <;> cases ties x e
  · exact h1
  · exact h1
  · exact List.mem_cons_of_mem _ h1
  · exact List.mem_cons_of_mem _ h1

theorem replay_keep {x : Bool} {h : Handle} : ∀ {l : List Ev} {S S' : St}, replay x S l = .ok S' → h ∈ S.held → (∀ e ∈ l, takes e ≠ some h) →
    h ∈ S'.held
  | [], S, S', hr, hh, _ => by cases hr; exact hh
  | e :: l, S, S', hr, hh, ht => by
    rw [replay] at hr
    split at hr
    · cases hr
    split at hr
    · cases hr
    exact replay_keep hr (effect_keep hh (ht e (List.mem_cons_self ..))) (fun v hv => ht v (List.mem_cons_of_mem _ hv))

theorem takes_session {e : Ev} {s : Nat} (h : takes e = some (.session, s)) : e.op = .deinit := by
  obtain ⟨op, args, r, y⟩ := e
  unfold takes at h
  dsimp only at h
  split at h <;> first | cases h | rfl
  rfl

theorem Fresh.other {x : Bool} {l : List Ev} {S S' : St} {s : Nat} (hl : Fresh l) (hr : replay x S l = .ok S') (hs : (.session, s) ∈ S.held) :
    ∀ v ∈ l, ¬ (v.op = .deinit ∧ v.args = [s]) := by
  rcases hl with h | ⟨a, y, b, rfl, h1, h2⟩
  · exact fun v hv hd => h v hv hd.1
  · rw [replay_append] at hr
    cases ha : replay x S a with
    | misuse => rw [ha] at hr; cases hr
    | dishonest => rw [ha] at hr; cases hr
    | ok T =>
      rw [ha] at hr
      dsimp only at hr
      have hT : (.session, s) ∈ T.held := replay_keep ha hs (fun e he ht => h1 e he (takes_session ht))
      rw [replay] at hr
      split at hr
      · cases hr
      split at hr
      · cases hr
      rename_i hp hh
      have hh := (Classical.not_not.1 hh).2.2.2 (.session, y) rfl (by simp)
      have hne : y ≠ s := fun e => hh (e ▸ hT)
      intro v hv hd
      rcases List.mem_append.1 hv with hv | hv
      · exact h1 v hv hd.1
      · rcases List.mem_cons.1 hv with rfl | hv
        · cases hd.1
        · have h3 := h2 v hv hd.1
          rw [hd.2] at h3
          cases h3
          exact hne rfl

/-! ## The transactions -/

/-- The sessions of all transactions are with trusted peers. -/
def AllTrusted (v : Server) (ts : List (Option Trans)) (l : List Ev) : Prop :=
  ∀ t, some t ∈ ts → ∀ s, t.session = some s → Trusted s v.sd none l

theorem session_held {v : Server} : ∀ {ts : List (Option Trans)}, TransOK v ts → ∀ {t s}, some t ∈ ts → t.session = some s →
    (.session, s) ∈ (transsObjs v ts).held
  | [], _, t, s, h, _ => by cases h
  | none :: ts, hok, t, s, h, hs => by
    rcases List.mem_cons.1 h with h | h
    · cases h
    · exact session_held (ts := ts) (fun t ht => hok t (List.mem_cons_of_mem _ ht)) h hs
  | some u :: ts, hok, t, s, h, hs => by
    rcases List.mem_cons.1 h with h | h
    · cases h
      refine List.mem_append_left _ ?_
      have h1 := hok u (List.mem_cons_self ..)
      rw [Trans.OK, hs] at h1
      cases hd : v.dtls with
      | none => rw [hd] at h1; cases h1
      | some d =>
        rw [Trans.objs, hd, hs]
        simp [add_held, sessObjs]
    · exact List.mem_append_right _ (session_held (ts := ts) (fun t ht => hok t (List.mem_cons_of_mem _ ht)) h hs)

theorem transDestroy_deinit {sd : Nat} {t : Trans} {l : List Ev} {r : Option Unit} (h : Runs (transDestroy sd t) l r) :
    ∀ v ∈ l, v.op = .deinit → ∃ s, t.session = some s ∧ v.args = [s] := by
  refine Only.run (P := fun op args => op = .deinit → ∃ s, t.session = some s ∧ args = [s]) ?_ h
  unfold transDestroy
  cases hs : t.session with
  | none => exact Only.bind Only.pure (fun _ => Only.one (by simp))
  | some s => exact Only.bind (Only.run_ (by simp) (Only.one (by simp))) (fun _ => Only.one (by simp))

theorem leave_trusted {F : St} {v : Server} {ts ts' : List (Option Trans)} {i : Nat} {o : St} {hist l : List Ev} (hts : TransLeft v ts o)
    (hs : (o + F).Sound) (hall : AllTrusted v ts hist) (h : Runs (leave v.sd ts i) l (some ts')) : AllTrusted v ts' (hist ++ l) := by
  unfold leave at h
  split at h
  · rename_i t ht
    replace h := bind_some h
    obtain ⟨l1, l2, _, rfl, h1, h⟩ := h
    obtain ⟨rfl, rfl⟩ := pure_inv h
    rw [List.append_nil]
    intro u hu s hus
    have hu' : some u ∈ ts := by
      rcases List.mem_or_eq_of_mem_set hu with h | h
      · exact h
      · cases h
    refine (hall u hu' s hus).before (fun w hw hd => ?_)
    obtain ⟨s', hs', ha⟩ := transDestroy_deinit h1 w hw hd.1
    rw [hd.2] at ha
    cases ha
    have hok : TransOK v (ts.set i none) := transOK_set hts.2 (fun t h => by cases h)
    have m1 : (.session, s) ∈ (transsObjs v (ts.set i none)).held := session_held hok hu hus
    have m2 : (.session, s) ∈ (transsObjs v [some t]).held :=
      session_held (fun t' ht' => hts.2 t' (by rw [List.mem_singleton] at ht'; cases ht'; exact List.mem_of_getElem? ht)) (List.mem_singleton.2 rfl) hs'
    have m3 : (.session, s) ∈ (t.objs v).held := by
      have : (transsObjs v [some t]).held = (t.objs v).held ++ [] := rfl
      rw [this, List.append_nil] at m2
      exact m2
    have hsame : (o + F).Same ((t.objs v + transsObjs v (ts.set i none)) + (v.objs false + F)) := by
      rw [← add_assoc]
      exact ((hts.1.trans ((transsObjs_set ts i t ht).add (St.Same.refl _))).add (St.Same.refl _))
    have hn := (lib_same hsame hs).once
    rw [add_held, List.filter_append, List.nodup_append, add_held, List.filter_append, List.nodup_append] at hn
    exact hn.1.2.2 _ (List.mem_filter.2 ⟨m3, by simp⟩) _ (List.mem_filter.2 ⟨m1, by simp⟩) rfl
  · obtain ⟨rfl, rfl⟩ := pure_inv h
    rw [List.append_nil]
    exact hall

/-- A run that keeps the rules, from equal objects on. -/
theorem replay_ok_same {x : Bool} {S T S' : St} {l : List Ev} (h : S.Same T) (hr : replay x S l = .ok S') : ∃ T', replay x T l = .ok T' := by
  have h1 := replay_same x h l
  rw [hr] at h1
  cases ht : replay x T l with
  | ok T' => exact ⟨T', rfl⟩
  | misuse => rw [ht] at h1; exact h1.elim
  | dishonest => rw [ht] at h1; exact h1.elim

/-- A run that ends, of a program that keeps the rules: what is then. -/
theorem Safe.after {α : Type} {x : Bool} {F o : St} {p : Prog α} {Q : α → St → Prop} (hF : F.Sound) (h : Safe x F o p Q) (hs : (o + F).Sound)
    {l1 l2 : List Ev}
    {a : α} {S' : St} (hr : Runs p l1 (some a)) (hre : replay x (o + F) (l1 ++ l2) = .ok S') :
    ∃ o', (o' + F).Sound ∧ Q a o' ∧ ∃ T, replay x (o' + F) l2 = .ok T := by
  have h1 := h.keeps hF hs l1 _ hr
  rw [replay_append] at hre
  cases hk : replay x (o + F) l1 with
  | misuse => rw [hk] at hre; cases hre
  | dishonest => rw [hk] at hre; cases hre
  | ok S1 =>
    rw [hk] at hre h1
    obtain ⟨o', h2, h3, h4⟩ := h1 a rfl
    exact ⟨o', h3, h4, replay_ok_same h2 hre⟩

theorem act_trusted {F : St} {v : Server} {ts ts' : List (Option Trans)} {a : Act} {o S' : St} {hist l : List Ev} (hF : F.Sound)
    (hts : TransLeft v ts o) (hs : (o + F).Sound) (hall : AllTrusted v ts hist) (h : Runs (act true v ts a) l (some ts'))
    (hre : replay false (o + F) l = .ok S') : AllTrusted v ts' (hist ++ l) := by
  cases a with
  | leave i => exact leave_trusted hts hs hall h
  | enter i =>
    rw [act] at h
    split at h
    case isFalse =>
      obtain ⟨rfl, rfl⟩ := pure_inv h
      rw [List.append_nil]
      exact hall
    replace h := bind_some h
    obtain ⟨l1, l2, ts1, rfl, h1, h⟩ := h
    have ha1 := leave_trusted hts hs hall h1
    obtain ⟨o1, hs1, ⟨hl1, -, -⟩, T, hT⟩ := (leave_safe hF hts (i := i)).after hF hs h1 hre
    replace h := bind_some h
    obtain ⟨l3, l4, r, rfl, h3, h⟩ := h
    obtain ⟨rfl, rfl⟩ := pure_inv h
    rw [List.append_nil] at hT ⊢
    rw [← List.append_assoc]
    intro t ht s hts'
    rcases List.mem_or_eq_of_mem_set ht with h | h
    · refine (ha1 t h s hts').before ((transCreate_fresh h3).other hT ?_)
      have h5 : (.session, s) ∈ (transsObjs v ts1).held := session_held hl1.2 h hts'
      rw [add_held]
      refine List.mem_append_left _ ((hl1.1.1.mem_iff).2 ?_)
      rw [add_held]
      exact List.mem_append_left _ h5
    · subst h
      exact (transCreate_some h3 s hts').after _

theorem acts_trusted {F : St} {v : Server} (hF : F.Sound) : ∀ (as : List Act) {ts ts' : List (Option Trans)} {o S' : St} {hist l : List Ev},
    TransLeft v ts o → (o + F).Sound → AllTrusted v ts hist → Runs (acts true v ts as) l (some ts') → replay false (o + F) l = .ok S' →
    AllTrusted v ts' (hist ++ l) ∧ TransOK v ts'
  | [], ts, ts', o, S', hist, l, hts, hs, hall, h, hre => by
    obtain ⟨rfl, rfl⟩ := pure_inv h
    rw [List.append_nil]
    exact ⟨hall, hts.2⟩
  | a :: as, ts, ts', o, S', hist, l, hts, hs, hall, h, hre => by
    rw [acts] at h
    replace h := bind_some h
    obtain ⟨l1, l2, ts1, rfl, h1, h⟩ := h
    have hre1 : ∃ T, replay false (o + F) l1 = .ok T := by
      rw [replay_append] at hre
      cases hk : replay false (o + F) l1 with
      | ok T => exact ⟨T, rfl⟩
      | misuse => rw [hk] at hre; cases hre
      | dishonest => rw [hk] at hre; cases hre
    obtain ⟨T1, hT1⟩ := hre1
    have ha := act_trusted hF hts hs hall h1 hT1
    obtain ⟨o1, hs1, ⟨hl1, -⟩, T, hT⟩ := (act_safe hF hts (auth := true) (a := a)).after hF hs h1 hre
    rw [← List.append_assoc]
    exact acts_trusted hF as hl1 hs1 ha h hT

end FreeCoAP.Res
