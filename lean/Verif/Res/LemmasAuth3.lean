import Verif.Res.LemmasAuth2

/-!
# The sessions of the proxy
-/

namespace FreeCoAP.Res

theorem sockFail_none {y sd : Nat} {l : List Ev} {s : Sock} (h : Runs (sockFail y sd) l (some (some s))) : False := by
  unfold sockFail at h
  replace h := run_some h
  obtain ⟨_, _, _, -, h⟩ := h
  replace h := run_some h
  obtain ⟨_, _, _, -, h⟩ := h
  cases (pure_inv h).2

/-- The calls from the handshake on. -/
theorem sockShake_some {auth client : Bool} {y sd fuel : Nat} {name : Option Nat} {l : List Ev} {s : Sock} (ha : client = true ∨ auth = true)
    (h : Runs (sockShake auth client y sd name fuel) l (some (some s))) :
    s = ⟨sd, y, client⟩ ∧ ∃ l1 l2, l = l1 ++ l2 ∧ Shaken y sd l1 ∧ Checked y name l2 := by
  unfold sockShake at h
  replace h := bind_some h
  obtain ⟨l1, l2, b, rfl, hb, h⟩ := h
  split at h
  · exact (sockFail_none h).elim
  rename_i hb'
  have hb' := eq_true_of_ne_false hb'
  subst hb'
  replace h := bind_some h
  obtain ⟨l3, l4, b, rfl, hb2, h⟩ := h
  split at h
  · replace h := run_some h
    obtain ⟨_, _, _, -, h⟩ := h
    exact (sockFail_none h).elim
  rename_i hb'
  have hb' := eq_true_of_ne_false hb'
  subst hb'
  obtain ⟨rfl, hs⟩ := pure_inv h
  cases hs
  exact ⟨rfl, l1, l3, by simp, sockHandshake_true hb, verifyPeer_true hb2⟩

theorem setNonBlocking_some {sd : Nat} {l : List Ev} {b : Bool} (h : Runs (setNonBlocking sd) l (some b)) : NoDeinit l :=
  Only.run (P := fun op _ => op ≠ .deinit) (Only.sys (by simp) (fun _ => Only.ite Only.pure (Only.sys (by simp) (fun _ => Only.ite Only.pure Only.pure)))) h

theorem sockOpen__some {auth client cached : Bool} {prio cred sd fuel : Nat} {name : Option Nat} {l : List Ev} {s : Sock}
    (ha : client = true ∨ auth = true) (h : Runs (sockOpen_ auth client cached prio cred sd name fuel) l (some (some s))) :
    s.sd = sd ∧ s.client = client ∧ Trusted s.session s.sd name l := by
  unfold sockOpen_ at h
  replace h := bind_some h
  obtain ⟨l1, l2, b, rfl, -, h⟩ := h
  split at h
  · replace h := run_some h
    obtain ⟨_, _, _, -, h⟩ := h
    cases (pure_inv h).2
  replace h := sys_some h
  obtain ⟨r, y, l3, rfl, h⟩ := h
  dsimp only at h
  split at h
  · replace h := run_some h
    obtain ⟨_, _, _, -, h⟩ := h
    cases (pure_inv h).2
  rename_i hr
  have hr := Classical.not_not.1 hr
  subst hr
  replace h := sys_some h
  obtain ⟨r1, x1, l4, rfl, h⟩ := h
  dsimp only at h
  split at h
  · exact (sockFail_none h).elim
  unfold sockCred at h
  replace h := sys_some h
  obtain ⟨r2, x2, l5, rfl, h⟩ := h
  dsimp only at h
  split at h
  · exact (sockFail_none h).elim
  split at h
  · replace h := sys_some h
    obtain ⟨r3, x3, l6, rfl, h⟩ := h
    dsimp only at h
    split at h
    · exact (sockFail_none h).elim
    obtain ⟨rfl, l7, l8, rfl, h1, h2⟩ := sockShake_some ha h
    refine ⟨rfl, rfl, ?_⟩
    have := Trusted.mk (l1 := l1) (l2 := [⟨.prioSet, [y, prio], r1, x1⟩, ⟨.credSet, [y, cred], r2, x2⟩, ⟨.setData, [y], r3, x3⟩])
      (.cons (by simp) (.cons (by simp) (.cons (by simp) .nil))) h1 h2 (l3 := []) (fun v hv => by cases hv)
    simpa using this
  · obtain ⟨rfl, l7, l8, rfl, h1, h2⟩ := sockShake_some ha h
    refine ⟨rfl, rfl, ?_⟩
    have := Trusted.mk (l1 := l1) (l2 := [⟨.prioSet, [y, prio], r1, x1⟩, ⟨.credSet, [y, cred], r2, x2⟩])
      (.cons (by simp) (.cons (by simp) .nil)) h1 h2 (l3 := []) (fun v hv => by cases hv)
    simpa using this

theorem sockOpenLoop_some {auth cached : Bool} {prio cred fuel : Nat} {name : Option Nat} {s : Sock} : ∀ {addrs : List Bool} {l : List Ev},
    Runs (sockOpenLoop auth cached prio cred name fuel addrs) l (some (some s)) → s.client = true ∧ Trusted s.session s.sd name l
  | [], l, h => by cases (pure_inv h).2
  | false :: rest, l, h => sockOpenLoop_some (addrs := rest) h
  | true :: rest, l, h => by
    rw [sockOpenLoop] at h
    replace h := bind_some h
    obtain ⟨l1, l2, r, rfl, h1, h⟩ := h
    cases r with
    | failed => cases (pure_inv h).2
    | again =>
      obtain ⟨h2, h3⟩ := sockOpenLoop_some (addrs := rest) h
      exact ⟨h2, h3.after _⟩
    | ok s' =>
      obtain ⟨rfl, hs⟩ := pure_inv h
      cases hs
      rw [List.append_nil]
      unfold sockOpenFrom at h1
      replace h1 := sys_some h1
      obtain ⟨r, y, l3, rfl, h1⟩ := h1
      dsimp only at h1
      split at h1
      · cases (pure_inv h1).2
      replace h1 := sys_some h1
      obtain ⟨r2, y2, l4, rfl, h1⟩ := h1
      dsimp only at h1
      split at h1
      · replace h1 := run_some h1
        obtain ⟨_, _, _, -, h1⟩ := h1
        cases (pure_inv h1).2
      replace h1 := bind_some h1
      obtain ⟨l5, l6, r, rfl, h2, h1⟩ := h1
      cases r with
      | none => cases (pure_inv h1).2
      | some s' =>
        obtain ⟨rfl, hs⟩ := pure_inv h1
        cases hs
        rw [List.append_nil]
        obtain ⟨-, h3, h4⟩ := sockOpen__some (.inl rfl) h2
        exact ⟨h3, h4.after [_, _]⟩

theorem sockOpen_some {auth cached : Bool} {prio cred fuel : Nat} {name : Option Nat} {addrs : List Bool} {l : List Ev} {s : Sock}
    (h : Runs (sockOpen auth cached prio cred name fuel addrs) l (some (some s))) : s.client = true ∧ Trusted s.session s.sd name l := by
  unfold sockOpen at h
  replace h := sys_some h
  obtain ⟨r, y, l1, rfl, h⟩ := h
  dsimp only at h
  split at h
  · cases (pure_inv h).2
  replace h := bind_some h
  obtain ⟨l2, l3, r, rfl, h1, h⟩ := h
  replace h := run_some h
  obtain ⟨r2, y2, l4, rfl, h⟩ := h
  obtain ⟨rfl, hs⟩ := pure_inv h
  cases hs
  obtain ⟨h2, h3⟩ := sockOpenLoop_some h1
  refine ⟨h2, Trusted.after [_] (h3.before ?_)⟩
  intro v hv hd
  rw [List.mem_singleton.1 hv] at hd
  cases hd.1

theorem ssockAccept_some {prio cred ss fuel : Nat} {l : List Ev} {s : Sock}
    (h : Runs (ssockAccept true prio cred ss fuel) l (some (some s))) : s.client = false ∧ Trusted s.session s.sd none l := by
  unfold ssockAccept at h
  replace h := bind_some h
  obtain ⟨l1, l2, r, rfl, h1, h⟩ := h
  cases r with
  | none => cases (pure_inv h).2
  | some sd =>
    obtain ⟨-, h3, h4⟩ := sockOpen__some (.inr rfl) h
    exact ⟨h3, h4.after _⟩

/-- The CoAP client of a connection: the name is not given. -/
theorem conClientCreate_some {addrs : List Bool} {trust : Bool} {l : List Ev} {c : ConClient}
    (h : Runs (conClientCreate addrs trust) l (some (some c))) :
    c.client.dtls.isSome = true ∧ ∀ d, c.client.dtls = some d → Trusted d.session c.client.sd none l := by
  unfold conClientCreate at h
  replace h := bind_some h
  obtain ⟨l1, l2, r, rfl, h1, h⟩ := h
  cases r with
  | none => cases (pure_inv h).2
  | some k =>
    replace h := sys_some h
    obtain ⟨r, y, l3, rfl, h⟩ := h
    dsimp only at h
    split at h
    · replace h := bind_some h
      obtain ⟨_, _, _, -, -, h⟩ := h
      cases (pure_inv h).2
    replace h := sys_some h
    obtain ⟨r2, y2, l4, rfl, h⟩ := h
    dsimp only at h
    split at h
    · replace h := run_some h
      obtain ⟨_, _, _, -, h⟩ := h
      replace h := bind_some h
      obtain ⟨_, _, _, -, -, h⟩ := h
      cases (pure_inv h).2
    obtain ⟨rfl, hc⟩ := pure_inv h
    cases hc
    obtain ⟨h2, h3⟩ := clientCreate_some h1
    refine ⟨h2, fun d hd => (h3 d hd).before ?_⟩
    intro v hv he
    simp only [List.mem_cons, List.not_mem_nil, or_false] at hv
    rcases hv with rfl | rfl <;> cases he.1

/-! ## No name is compared -/

/-- No name is compared in these calls. -/
abbrev NoName : Op → List Nat → Prop := fun op _ => op ≠ .checkName

theorem clientConnect_noName : ∀ addrs, Only NoName (clientConnect addrs)
  | [] => Only.pure
  | false :: rest => clientConnect_noName rest
  | true :: rest => by
    have ih := clientConnect_noName rest
    rw [clientConnect]
    exact Only.sys (by simp) (fun _ => Only.ite ih (Only.sys (by simp) (fun _ => Only.ite (Only.run_ (by simp) ih) Only.pure)))

theorem freeCred_noName {c : Nat} : Only NoName (freeCred c) := Only.run_ (by simp) (Only.one (by simp))

theorem freeDtls_noName {d : Dtls} : Only NoName (freeDtls d) := Only.run_ (by simp) (Only.run_ (by simp) freeCred_noName)

theorem failD_noName {d : Dtls} : Only NoName (freeDtls d >>= fun _ => pure (none : Option Dtls)) := Only.bind freeDtls_noName (fun _ => Only.pure)

theorem failC_noName {c : Nat} : Only NoName (freeCred c >>= fun _ => pure (none : Option Dtls)) := Only.bind freeCred_noName (fun _ => Only.pure)

theorem clientSession_noName {sd c p : Nat} : Only NoName (clientSession sd c p none) := by
  unfold clientSession
  refine Only.sys (by simp) (fun s => Only.ite (Only.run_ (by simp) failC_noName) ?_)
  refine Only.sys (by simp) (fun r => Only.ite failD_noName ?_)
  refine Only.sys (by simp) (fun r => Only.ite failD_noName ?_)
  refine Only.bind ?_ (fun b => Only.ite failD_noName ?_)
  · apply handshakeLoop_only <;> simp
  refine Only.bind ?_ (fun b => Only.ite failD_noName Only.pure)
  apply verifyPeer_only <;> simp

theorem file_noName {op : Op} {g : Bool} {c : Nat} (h : op ≠ .checkName) : Only NoName (file op g c) := by
  unfold file
  exact Only.ite (Only.sys h (fun _ => Only.pure)) Only.pure

theorem clientDtlsCreate_noName {sd : Nat} {trust crl : Bool} : Only NoName (clientDtlsCreate sd trust crl none) := by
  unfold clientDtlsCreate clientKey
  refine Only.sys (by simp) (fun s => Only.ite Only.pure ?_)
  refine Only.sys (by simp) (fun s => Only.ite (Only.run_ (by simp) Only.pure) ?_)
  refine Only.bind (file_noName (by simp)) (fun b => Only.ite failC_noName ?_)
  refine Only.bind (file_noName (by simp)) (fun b => Only.ite failC_noName ?_)
  refine Only.sys (by simp) (fun s => Only.ite failC_noName ?_)
  exact Only.sys (by simp) (fun s => Only.ite failC_noName clientSession_noName)

theorem clientCreate_noName {dtls : Bool} {addrs : List Bool} {trust crl : Bool} : Only NoName (clientCreate dtls addrs trust crl none) := by
  unfold clientCreate
  refine Only.sys (by simp) (fun s => Only.ite Only.pure ?_)
  refine Only.bind (clientConnect_noName addrs) (fun s => Only.run_ (by simp) ?_)
  cases s with
  | none => exact Only.pure
  | some sd =>
    refine Only.sys (by simp) (fun s => Only.ite (Only.run_ (by simp) Only.pure) ?_)
    refine Only.sys (by simp) (fun s => Only.ite (Only.run_ (by simp) Only.pure) ?_)
    unfold clientTimer
    refine Only.sys (by simp) (fun s => Only.ite (Only.run_ (by simp) Only.pure) ?_)
    refine Only.ite (Only.bind clientDtlsCreate_noName (fun d => ?_)) Only.pure
    cases d with
    | none => exact Only.run_ (by simp) (Only.run_ (by simp) Only.pure)
    | some d => exact Only.pure

theorem clientDestroy_noName {c : Client} : Only NoName (clientDestroy c) := by
  unfold clientDestroy
  refine Only.bind ?_ (fun _ => Only.run_ (by simp) (Only.one (by simp)))
  cases c.dtls with
  | none => exact Only.pure
  | some d => exact Only.run_ (by simp) freeDtls_noName

theorem conClientCreate_noName {addrs : List Bool} {trust : Bool} : Only NoName (conClientCreate addrs trust) := by
  unfold conClientCreate
  refine Only.bind clientCreate_noName (fun c => ?_)
  cases c with
  | none => exact Only.pure
  | some c =>
    refine Only.sys (by simp) (fun s => Only.ite (Only.bind clientDestroy_noName (fun _ => Only.pure)) ?_)
    exact Only.sys (by simp) (fun s => Only.ite (Only.run_ (by simp) (Only.bind clientDestroy_noName (fun _ => Only.pure))) Only.pure)

end FreeCoAP.Res
