import Verif.Res.PropsProxy

/-!
# Properties of the order of destruction, and of the start and the end of the proxy
-/

namespace FreeCoAP.Res

/-- The rules are broken with these results. -/
def breaksFrom {α : Type} (x : Bool) (S : St) (p : Prog α) (rs : List (Int × Nat)) : Bool :=
  match replay x S (exec p rs).1 with
  | .misuse => true
  | _ => false

theorem not_keeps_from {α : Type} {x : Bool} {S : St} {p : Prog α} {rs : List (Int × Nat)} {Q : α → St → Prop} (h : breaksFrom x S p rs = true) :
    ¬ Keeps x S p Q := by
  intro hk
  have h1 := hk _ _ (exec_runs p rs)
  unfold breaksFrom at h
  split at h
  · rename_i hr
    rw [hr] at h1
    exact h1
  · cases h

/-! ## Parameters of Diffie and Hellman are destroyed after the credentials that refer to them -/

/-- The full statement: with the strict rules (`gnutls_certificate_set_dh_params`: the parameters must not be deallocated before the credentials) the
CoAP client, the creation of the CoAP server, and the credentials of the proxy keep the rules. -/
def C85_statement : Prop :=
  ∀ S : St, S.Sound → (.lib, 0) ∈ S.held →
    (∀ addrs trust crl name, Keeps true S (andEnd (clientCreate true addrs trust crl name) clientDestroy) (fun _ S' => S'.Same S)) ∧
    (∀ addrs trust crl, Keeps true S (andEnd (serverCreate true addrs trust crl) (fun v => serverDestroy v [])) (fun _ S' => S'.Same S)) ∧
    (∀ auth trust, Keeps true S (andEnd (tlsServerCreate auth trust) tlsServerDestroy) (fun _ S' => S'.Same S)) ∧
    (∀ auth key, Keeps true S (andEnd (tlsClientCreate auth key) tlsClientDestroy) (fun _ S' => S'.Same S))

/-- **C85**, what holds of clients: a CoAP client keeps the strict rules. -/
theorem C85_client_partial (S : St) (hS : S.Sound) (addrs : List Bool) (trust crl : Bool) (name : Option Nat) :
    Keeps true S (andEnd (clientCreate true addrs trust crl name) clientDestroy) (fun _ S' => S'.Same S) :=
  both_keep hS (clientCreate_safe hS) (fun _ => clientDestroy_safe hS)

/-- **C85**, what holds of TLS clients: without a file for the key they keep the strict rules. -/
theorem C85_tls_client_partial (S : St) (hS : S.Sound) (hl : (.lib, 0) ∈ S.held) (auth : Bool) :
    Keeps true S (andEnd (tlsClientCreate auth false) tlsClientDestroy) (fun _ S' => S'.Same S) :=
  both_keep hS (tlsClientCreate_strict hS hl) (fun _ => tlsClientDestroy_safe hS)

/-- **C85**, what holds of servers: a server that has been created destroys its credentials and then the parameters. -/
theorem C85_server_partial (S : St) (hS : S.Sound) (d : SDtls)
    (hd : (⟨(.prio, d.prio) :: (.dh, d.dh) :: (.cred, d.cred) :: (.lib, 0) :: S.held, ((.cred, d.cred), (.dh, d.dh)) :: S.refs⟩ : St).Sound) :
    Keeps true ⟨(.prio, d.prio) :: (.dh, d.dh) :: (.cred, d.cred) :: (.lib, 0) :: S.held, ((.cred, d.cred), (.dh, d.dh)) :: S.refs⟩
      (serverDtlsDestroy d) (fun _ S' => S'.Same S) := by
  refine (Safe.keeps (o := d.objs true) hS (serverDtlsDestroy_safe hS) hd).mono ?_
  rintro _ S' ⟨o, h1, -, rfl⟩
  exact h1

/-- GnuTLS is initialised, and there is nothing else. -/
def onlyLib : St := ⟨[(.lib, 0)], []⟩

theorem onlyLib_sound : onlyLib.Sound := ⟨fun _ => by simp [onlyLib], (fun t ht => by cases ht), by decide +kernel⟩

example : (⟨[(.prio, 3), (.dh, 2), (.cred, 1), (.lib, 0), (.fd, 4)], [((.cred, 1), (.dh, 2))]⟩ : St).Sound :=
  ⟨fun _ => by simp, (fun t ht => by simp at ht; subst ht; simp), by decide +kernel⟩

/-- **C85 is violated** by the creation of a CoAP server: if the priorities cannot be created, the parameters are destroyed before the
credentials. -/
theorem C85_violated_server : ¬ Keeps true onlyLib (andEnd (serverCreate true [true] true false) (fun v => serverDestroy v [])) (fun _ S' => S'.Same onlyLib) :=
  not_keeps_from (rs := exServer.take 14 ++ [(-1, 0), (0, 0)]) (by decide +kernel)

/-- The results of the calls when the credentials of the proxy are created and destroyed: credentials 1, parameters 2, cache 3, lock 5. -/
def exTls : List (Int × Nat) :=
  [(0, 1), (0, 0), (0, 2), (0, 0), (0, 0), (1, 3), (0, 4), (0, 0), (0, 5), (0, 0), (0, 0), (0, 0), (0, 0), (0, 0)]

example : (exec (andEnd (tlsServerCreate false false) tlsServerDestroy) exTls).2.isSome = true ∧
    count false onlyLib (exec (andEnd (tlsServerCreate false false) tlsServerDestroy) exTls).1 = some 1 := by decide +kernel

/-- **C85 is violated** whenever the credentials of the proxy are destroyed. -/
theorem C85_violated_tls_server : ¬ Keeps true onlyLib (andEnd (tlsServerCreate false false) tlsServerDestroy) (fun _ S' => S'.Same onlyLib) :=
  not_keeps_from (rs := exTls) (by decide +kernel)

/-- **C85 is violated** when a TLS client with a key is destroyed. -/
theorem C85_violated_tls_client : ¬ Keeps true onlyLib (andEnd (tlsClientCreate true true) tlsClientDestroy) (fun _ S' => S'.Same onlyLib) :=
  not_keeps_from (rs := exTls.take 1 ++ [(1, 0)] ++ exTls.drop 1) (by decide +kernel)

theorem C85_violated : ¬ C85_statement :=
  fun h => C85_violated_server ((h onlyLib onlyLib_sound (by simp [onlyLib])).2.1 [true] true false)

/-! ## The start and the end of the proxy -/

/-- The threads of a proxy that has been started. -/
def Up.fixed (u : Up) (auth trust : Bool) : Fixed := ⟨auth, u.prio, u.tls.cred, u.l, trust⟩

/-- What is to be shown of a failed start: no call has broken the rules at any moment, and if the start has failed, everything is released. -/
def StartTidy (st auth trust : Bool) (S : St) : Prop :=
  Keeps false S (proxyStart st auth trust) (fun r S' => r = none → S'.Same S)

/-- What is to be shown of the whole life of the proxy: `main` starts it with the calls `l1`, the threads run with the calls `l2` in any schedule, and
when they are in the state `t`, `main` makes the calls `l3` to stop it. Then no call has broken the rules, and if all threads have ended and `main`
has made its last call, everything is released. `ready` tells in which states of the threads `main` may stop the proxy. -/
def LifeTidy (st auth trust cert : Bool) (S : St) (ready : Threads → Prop) : Prop :=
  ∀ l1 u l2 t l3 r fuel, Runs (proxyStart st auth trust) l1 (some (some u)) →
    (u.fixed auth cert).Runs ((u.fixed auth cert).start fuel) l2 t → ready t → Runs (proxyStop u.prio u.tls) l3 r →
    match replay false S (l1 ++ (l2 ++ l3)) with
    | .ok S' => t = ⟨.ended, []⟩ → r = some () → S'.Same S
    | .misuse => False
    | .dishonest => True

/-- The full statement: `main` may stop the proxy at any moment. -/
def C86_statement : Prop :=
  ∀ (st auth trust cert : Bool) (S : St), S.Sound → (.fd, 0) ∈ S.held → StartTidy st auth trust S ∧ LifeTidy st auth trust cert S (fun _ => True)

/-- **C86**, what holds of the start: whatever fails, no call breaks the rules, and if the start fails, everything is released with the exception of
at most one initialisation of GnuTLS or the lock of the statistics. -/
theorem C86_start_partial (st auth trust : Bool) (S : St) (hS : S.Sound) :
    Keeps false S (proxyStart st auth trust) (fun r S' => r = none →
      S'.Same S ∨ S'.Same ⟨(.lib, 0) :: S.held, S.refs⟩ ∨ ∃ k, st = true ∧ S'.Same ⟨(.mutex, k) :: S.held, S.refs⟩) := by
  refine (Keeps.ofSafe hS (proxyStart_safe hS)).mono ?_
  rintro r S' ⟨o, h1, h2⟩ rfl
  rcases h2 with rfl | rfl | ⟨k, hk, rfl⟩
  · exact .inl h1
  · exact .inr (.inl h1)
  · exact .inr (.inr ⟨k, hk, h1⟩)

/-- **C86**, what holds of the life of the proxy: without statistics, and if `main` waits until all threads have ended, no call breaks the rules and
everything is released. -/
theorem C86_life_partial (auth trust cert : Bool) (S : St) (hS : S.Sound) (h0 : (.fd, 0) ∈ S.held) :
    LifeTidy false auth trust cert S (fun t => t = ⟨.ended, []⟩) := by
  intro l1 u l2 t l3 r fuel hr1 hr2 ht hr3
  subst ht
  have hk1 := (proxyStart_safe (st := false) (auth := auth) (trust := trust) hS).keeps hS hS l1 _ hr1
  rw [none_add] at hk1
  rw [replay_append]
  cases hp1 : replay false S l1 with
  | misuse => rw [hp1] at hk1; exact hk1.elim
  | dishonest => trivial
  | ok S1 =>
    rw [hp1] at hk1
    obtain ⟨o, hS1, hs1, ho, hst⟩ := hk1 _ rfl
    subst ho
    have hst := hst rfl
    have hu : u.objs = u.l.objs + (u.tls.objs + prioLib u.prio) := by
      rw [Up.objs, hst, statsObj, none_add]
    rw [hu, add_assoc] at hS1 hs1
    have hB : (u.tls.objs + prioLib u.prio + S).Sound := by
      refine sound_lib hS (by simp [add_held, prioLib]) ?_ hs1
      unfold Tls.objs
      cases u.tls.dh <;> rfl
    have hf : Common (u.fixed auth cert) (u.tls.objs + prioLib u.prio + S) :=
      ⟨hB, List.mem_append_right _ h0, by simp [add_held, prioLib], by simp [add_held, prioLib, Up.fixed], by
        simp [add_held, Up.fixed, Tls.objs, one]⟩
    have hP : PoolOk false (u.tls.objs + prioLib u.prio + S) (u.fixed auth cert) S1 ((u.fixed auth cert).start fuel) :=
      ⟨u.l.objs, none', hS1, hs1, hs1, turn_ok hf hs1 fuel, .nil⟩
    have hk2 := pool_runs hf hP hr2
    dsimp only
    rw [replay_append]
    cases hp2 : replay false S1 l2 with
    | misuse => rw [hp2] at hk2; exact hk2.elim
    | dishonest => trivial
    | ok S2 =>
      rw [hp2] at hk2
      obtain ⟨o, R, h2, h3, h4, h5, h6⟩ := hk2
      cases h6
      have h5 : o = none' := h5
      subst h5
      have hk3 := (proxyStop_safe (x := false) (p := u.prio) (t := u.tls) hS).keeps hS hB l3 _ hr3
      have hsame := replay_same false h2 l3
      dsimp only
      have hz : none' + (none' + (u.tls.objs + prioLib u.prio + S)) = u.tls.objs + prioLib u.prio + S := rfl
      rw [hz] at hsame
      cases hp3 : replay false (u.tls.objs + prioLib u.prio + S) l3 with
      | misuse => rw [hp3] at hk3; exact hk3.elim
      | dishonest =>
        rw [hp3] at hsame
        cases hp4 : replay false S2 l3 with
        | misuse => rw [hp4] at hsame; exact hsame.elim
        | dishonest => trivial
        | ok S3 => rw [hp4] at hsame; exact hsame.elim
      | ok S4 =>
        rw [hp3] at hsame hk3
        cases hp4 : replay false S2 l3 with
        | misuse => rw [hp4] at hsame; exact hsame.elim
        | dishonest => trivial
        | ok S3 =>
          rw [hp4] at hsame
          dsimp only
          intro _ hr
          obtain ⟨o, h7, -, rfl⟩ := hk3 () hr
          exact hsame.trans h7

/-- Descriptor 0 is in use, and there is nothing else. -/
def onlyZero : St := ⟨[(.fd, 0)], []⟩

theorem onlyZero_sound : onlyZero.Sound :=
  ⟨(by rintro ⟨h, hh, hl⟩; simp [onlyZero] at hh; subst hh; cases hl), (fun t ht => by cases ht), by decide +kernel⟩

/-- The results of the calls when the proxy starts: priorities 1, credentials 2, parameters 3, cache 4, lock 6; listener with memory 10, attributes
11 and socket 12. -/
def exStart : List (Int × Nat) :=
  [(0, 0), (0, 1), (0, 2), (0, 0), (0, 3), (0, 0), (0, 0), (1, 4), (0, 5), (0, 0), (0, 6), (0, 0)] ++
  [(1, 10), (0, 11), (0, 0), (12, 0), (0, 0), (0, 0), (0, 0), (2, 0), (0, 0), (0, 0)]

/-- The same with statistics, with lock 8. -/
def exStats : List (Int × Nat) := exStart.take 12 ++ [(0, 7), (0, 0), (0, 8), (0, 0)] ++ exStart.drop 12

/-- What `main` has then. -/
def exUpMain (stats : Option Nat) : Up := ⟨1, ⟨2, some 3, 4, 6⟩, stats, ⟨10, 11, 12⟩⟩

theorem exStart_up : (exec (proxyStart false false false) exStart).2 = some (some (exUpMain none)) := rfl

theorem exStats_up : (exec (proxyStart true false false) exStats).2 = some (some (exUpMain (some 8))) := rfl

/-- The calls of a listener that accepts one connection. -/
def exLis : List Ev := (exec (listenerTurn false 1 2 ⟨10, 11, 12⟩ 3) exTurn).1

/-- A run of the threads: a connection is accepted and its thread is about to start. -/
theorem exLis_runs (cert : Bool) : ((exUpMain none).fixed false cert).Runs (((exUpMain none).fixed false cert).start 3) ([] ++ exLis)
    ⟨.turn (.ret (.con exCon)), []⟩ :=
  lis_runs (.refl _) (exec_runs (listenerTurn false 1 2 ⟨10, 11, 12⟩ 3) exTurn)

/-- A run of the threads in which the listener ends: it has no memory in its first turn. -/
theorem exEnd_runs (stats : Option Nat) (cert : Bool) : ((exUpMain stats).fixed false cert).Runs (((exUpMain stats).fixed false cert).start 3)
    [⟨.malloc, [], 0, 0⟩, ⟨.close, [12], 0, 0⟩, ⟨.attrDestroy, [11], 0, 0⟩, ⟨.free, [10], 0, 0⟩] ⟨.ended, []⟩ := by
  have h1 : ((exUpMain stats).fixed false cert).Runs (((exUpMain stats).fixed false cert).start 3) [⟨.malloc, [], 0, 0⟩] ⟨.turn (.ret .stop), []⟩ :=
    lis_runs (l0 := []) (.refl _) (exec_runs (listenerTurn false 1 2 ⟨10, 11, 12⟩ 3) [(0, 0)])
  exact (((((h1.quiet .stop).call (.closing 0 0)).call (.closing 0 0)).call (.closing 0 0)).quiet .ended)

/-- **C86 is violated**: if the priorities cannot be created, `tls_init` fails and GnuTLS stays initialised. -/
theorem C86_violated_init : ¬ ∀ st auth trust S, S.Sound → (.fd, 0) ∈ S.held → StartTidy st auth trust S := by
  intro h
  have h1 := h false false false onlyZero onlyZero_sound (by simp [onlyZero]) _ _ (exec_runs (proxyStart false false false) [(0, 0), (-1, 0)])
  have h2 : count false onlyZero (exec (proxyStart false false false) [(0, 0), (-1, 0)]).1 = some 2 := by decide +kernel
  unfold count at h2
  split at h2
  · rename_i S' hk
    rw [hk] at h1
    have h3 := (h1 none rfl rfl).1.length_eq
    rw [Option.some.inj h2] at h3
    exact absurd h3 (by decide)
  · cases h2

/-- **C86 is violated**: with statistics their lock is never destroyed, even if all threads have ended. -/
theorem C86_violated_stats : ¬ ∀ st auth trust cert S, S.Sound → (.fd, 0) ∈ S.held → LifeTidy st auth trust cert S (fun t => t = ⟨.ended, []⟩) := by
  intro h
  have hr := exec_runs (proxyStart true false false) exStats
  rw [exStats_up] at hr
  have h1 := h true false false true onlyZero onlyZero_sound (by simp [onlyZero]) _ _ _ _ _ _ 3 hr (exEnd_runs (some 8) true) rfl
    (exec_runs (proxyStop 1 ⟨2, some 3, 4, 6⟩) (List.replicate 6 (0, 0)))
  have h2 : count false onlyZero ((exec (proxyStart true false false) exStats).1 ++
      ([⟨.malloc, [], 0, 0⟩, ⟨.close, [12], 0, 0⟩, ⟨.attrDestroy, [11], 0, 0⟩, ⟨.free, [10], 0, 0⟩] ++
        (exec (proxyStop 1 ⟨2, some 3, 4, 6⟩) (List.replicate 6 (0, 0))).1)) = some 2 := by decide +kernel
  unfold count at h2
  split at h2
  · rename_i S' hk
    rw [hk] at h1
    have h3 := (h1 rfl rfl).1.length_eq
    rw [Option.some.inj h2] at h3
    exact absurd h3 (by decide)
  · cases h2

/-- The witness with statistics also shows what `C86_life_partial` needs: the threads end, and `main` makes its last call. -/
example : (exec (proxyStop 1 ⟨2, some 3, 4, 6⟩) (List.replicate 6 (0, 0))).2 = some () ∧
    count false onlyZero ((exec (proxyStart false false false) exStart).1 ++
      ([⟨.malloc, [], 0, 0⟩, ⟨.close, [12], 0, 0⟩, ⟨.attrDestroy, [11], 0, 0⟩, ⟨.free, [10], 0, 0⟩] ++
        (exec (proxyStop 1 ⟨2, some 3, 4, 6⟩) (List.replicate 6 (0, 0))).1)) = some 1 := by
  refine ⟨rfl, by decide +kernel⟩

/-- **C86 is violated**: `main` waits for two seconds only, and not for the threads; if there is a connection then, the credentials that its session
refers to are freed while the session exists. -/
theorem C86_violated_stop : ¬ ∀ st auth trust cert S, S.Sound → (.fd, 0) ∈ S.held → LifeTidy st auth trust cert S (fun _ => True) := by
  intro h
  have hr := exec_runs (proxyStart false false false) exStart
  rw [exStart_up] at hr
  have h1 := h false false false true onlyZero onlyZero_sound (by simp [onlyZero]) _ _ _ _ _ _ 3 hr (exLis_runs true) trivial
    (exec_runs (proxyStop 1 ⟨2, some 3, 4, 6⟩) (List.replicate 6 (0, 0)))
  have h2 : (match replay false onlyZero ((exec (proxyStart false false false) exStart).1 ++
      ([] ++ exLis ++ (exec (proxyStop 1 ⟨2, some 3, 4, 6⟩) (List.replicate 6 (0, 0))).1)) with
      | .misuse => true | _ => false) = true := by decide +kernel
  split at h2
  · rename_i hk
    rw [hk] at h1
    exact h1
  · cases h2

/-- **C86 is violated.** -/
theorem C86_violated : ¬ C86_statement :=
  fun h => C86_violated_stop (fun st auth trust cert S hS h0 => (h st auth trust cert S hS h0).2)

end FreeCoAP.Res
