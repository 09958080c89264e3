import Verif.Res.LemmasAuth3
import Verif.Res.LemmasExec

/-!
# Properties of the authentication of peers

`Trusted session sd name l` (SpecAuth.lean) says in terms of the calls `l` that have been made that the peer of a session has been authenticated.
-/

namespace FreeCoAP.Res

/-- **C84**: a client with DTLS has been created only if the handshake of its session succeeded on its socket and the certificate of the server was
found to be signed by a trusted authority, neither expired nor not yet valid, and, if a name is given, the certificate of that name. -/
theorem C84_client (addrs : List Bool) (trust crl : Bool) (name : Option Nat) (l : List Ev) (c : Client)
    (h : Runs (clientCreate true addrs trust crl name) l (some (some c))) :
    ∃ d, c.dtls = some d ∧ Trusted d.session c.sd name l := by
  obtain ⟨h1, h2⟩ := clientCreate_some h
  cases hd : c.dtls with
  | none => rw [hd] at h1; cases h1
  | some d => exact ⟨d, rfl, h2 d hd⟩

/-- The results of the calls when a client with DTLS is created; the certificate is valid from 10 to 2000, and the time is 1000. -/
def exAuth : List (Int × Nat) :=
  [(0, 1), (3, 0), (0, 0), (0, 0), (2, 0), (0, 0), (4, 0), (0, 0), (0, 5), (1, 0), (0, 0), (0, 6), (0, 7), (0, 0), (0, 0),
    (0, 0), (0, 0), (1, 0), (0, 8), (1, 0), (0, 0), (1000, 0), (2000, 0), (10, 0), (1, 0), (0, 0)]

/-- The program has ended and has returned something. -/
def succeeds {α : Type} (p : Prog (Option α)) (rs : List (Int × Nat)) : Bool :=
  match (exec p rs).2 with
  | some (some _) => true
  | _ => false

theorem succeeds_runs {α : Type} {p : Prog (Option α)} {rs : List (Int × Nat)} (h : succeeds p rs = true) :
    ∃ a, Runs p (exec p rs).1 (some (some a)) := by
  unfold succeeds at h
  split at h
  · rename_i a ha
    exact ⟨a, ha ▸ exec_runs p rs⟩
  · cases h

example : succeeds (clientCreate true [true] true false (some 3)) exAuth = true := by decide +kernel

/-- An expired certificate. -/
example : succeeds (clientCreate true [true] true false (some 3)) (exAuth.set 22 (999, 0)) = false := by decide +kernel

/-- A server and the transactions that it has after any actions. -/
def serverUp (addrs : List Bool) (trust crl : Bool) (n : Nat) (as : List Act) : Prog (Option (Server × List (Option Trans))) :=
  serverCreate true addrs trust crl >>= fun v =>
  match v with
  | none => pure none
  | some v => acts true v (List.replicate n none) as >>= fun ts => pure (some (v, ts))

theorem serverDtls_some {addrs : List Bool} {trust crl : Bool} {l : List Ev} {v : Server}
    (h : Runs (serverCreate true addrs trust crl) l (some (some v))) : v.dtls.isSome = true := by
  unfold serverCreate at h
  replace h := sys_some h
  obtain ⟨r, x, l1, rfl, h⟩ := h
  dsimp only at h
  split at h
  · cases (pure_inv h).2
  replace h := bind_some h
  obtain ⟨l2, l3, s, rfl, -, h⟩ := h
  replace h := run_some h
  obtain ⟨r1, x1, l4, rfl, h⟩ := h
  cases s with
  | failed => cases (pure_inv h).2
  | none => cases (pure_inv h).2
  | some sd =>
    unfold serverFlags at h
    replace h := sys_some h
    obtain ⟨r2, x2, l5, rfl, h⟩ := h
    dsimp only at h
    split at h
    · replace h := run_some h
      obtain ⟨_, _, _, -, h⟩ := h
      cases (pure_inv h).2
    replace h := sys_some h
    obtain ⟨r3, x3, l6, rfl, h⟩ := h
    dsimp only at h
    split at h
    · replace h := run_some h
      obtain ⟨_, _, _, -, h⟩ := h
      cases (pure_inv h).2
    rw [if_pos rfl] at h
    replace h := bind_some h
    obtain ⟨l7, l8, d, rfl, -, h⟩ := h
    cases d with
    | none =>
      replace h := run_some h
      obtain ⟨_, _, _, -, h⟩ := h
      cases (pure_inv h).2
    | some d =>
      obtain ⟨rfl, hv⟩ := pure_inv h
      cases hv
      rfl

/-- **C84**: with `COAP_CLIENT_AUTH`, at every moment of the life of a server with DTLS, whatever transactions have come and gone, every transaction
that it has belongs to a session whose handshake succeeded on the socket of the server and whose peer has been authenticated; the session has not
been destroyed since. -/
theorem C84_server (S : St) (hS : S.Sound) (addrs : List Bool) (trust crl : Bool) (n : Nat) (as : List Act) (l : List Ev) (v : Server)
    (ts : List (Option Trans)) (S' : St) (h : Runs (serverUp addrs trust crl n as) l (some (some (v, ts)))) (hr : replay false S l = .ok S') :
    ∀ t, some t ∈ ts → ∃ s, t.session = some s ∧ Trusted s v.sd none l := by
  unfold serverUp at h
  replace h := bind_some h
  obtain ⟨l1, l2, r, rfl, h1, h⟩ := h
  cases r with
  | none => cases (pure_inv h).2
  | some w =>
    replace h := bind_some h
    obtain ⟨l3, l4, us, rfl, h2, h⟩ := h
    obtain ⟨rfl, hv⟩ := pure_inv h
    cases hv
    rw [List.append_nil] at hr ⊢
    obtain ⟨o, hs, ho, T, hT⟩ := (serverCreate_safe (F := S) (dtls := true) (addrs := addrs) (trust := trust) (crl := crl) hS).after
      (l1 := l1) (l2 := l3) hS hS h1 hr
    cases ho
    have hts : TransLeft v (List.replicate n none) (v.objs false) := by
      refine ⟨?_, ?_⟩
      · rw [transsObjs_replicate]; exact St.Same.refl _
      · intro t ht
        exact absurd (List.mem_replicate.1 ht).2 (by simp)
    obtain ⟨h3, h4⟩ := acts_trusted hS as (hist := l1) hts hs
      (fun t ht => absurd (List.mem_replicate.1 ht).2 (by simp)) h2 hT
    intro t ht
    have h5 := h4 t ht
    rw [Trans.OK, serverDtls_some h1] at h5
    cases hts' : t.session with
    | none => rw [hts'] at h5; cases h5
    | some s => exact ⟨s, rfl, h3 t ht s hts'⟩

/-- The results of the calls when a server with DTLS is created and two clients enter one slot after the other. -/
def exUp : List (Int × Nat) :=
  [(0, 1), (3, 0), (0, 0), (0, 0), (0, 0), (2, 0), (0, 0), (0, 0), (0, 5), (1, 0), (0, 0), (0, 6), (0, 0), (0, 0), (0, 7)] ++
  [(8, 0), (1, 0), (0, 9), (0, 0), (0, 0), (0, 0), (0, 0), (1, 0), (0, 10), (1, 0), (0, 0), (1000, 0), (2000, 0), (10, 0), (0, 0)] ++
  [(0, 0), (0, 0), (0, 0)] ++
  [(8, 0), (1, 0), (0, 9), (0, 0), (0, 0), (0, 0), (0, 0), (1, 0), (0, 10), (1, 0), (0, 0), (1000, 0), (2000, 0), (10, 0), (0, 0)]

example : succeeds (serverUp [true] true false 1 [.enter 0, .enter 0]) exUp = true := by decide +kernel
example : endsWith false (serverUp [true] true false 1 [.enter 0, .enter 0]) exUp 7 = true := by decide +kernel

/-- **C84**: a TLS socket of a client has been opened only if the peer has been authenticated, with the name if one is given. -/
theorem C84_sock (auth cached : Bool) (prio cred fuel : Nat) (name : Option Nat) (addrs : List Bool) (l : List Ev) (s : Sock)
    (h : Runs (sockOpen auth cached prio cred name fuel addrs) l (some (some s))) : Trusted s.session s.sd name l :=
  (sockOpen_some h).2

example : succeeds (sockOpen false true 1 2 (some 3) 5 [false, true, true])
    [(0, 1), (3, 0), (-1, 0), (0, 0), (3, 0), (0, 0), (2, 0), (0, 0), (0, 7), (0, 0), (0, 0), (0, 0), (AGAIN, 0), (1, 0), (0, 0),
      (0, 0), (1, 0), (0, 8), (1, 0), (0, 0), (1000, 0), (2000, 0), (10, 0), (1, 0), (0, 0), (0, 0)] = true := by decide +kernel

/-- **C84**: with `TLS_CLIENT_AUTH` a connection of an HTTP client has been accepted only if the client has been authenticated. -/
theorem C84_accept (prio cred ss fuel : Nat) (l : List Ev) (s : Sock) (h : Runs (ssockAccept true prio cred ss fuel) l (some (some s))) :
    Trusted s.session s.sd none l :=
  (ssockAccept_some h).2

example : succeeds (ssockAccept true 1 2 3 5)
    [(-1, EAGAIN), (1, 0), (4, 0), (2, 0), (0, 0), (0, 7), (0, 0), (0, 0), (0, 0),
      (0, 0), (1, 0), (0, 8), (1, 0), (0, 0), (1000, 0), (2000, 0), (10, 0), (0, 0)] = true := by decide +kernel

/-- The full statement for the CoAP servers to which the proxy talks: the certificate is the one of the host in the URI, whatever the host. -/
def C84_statement : Prop :=
  ∀ (host : Nat) (addrs : List Bool) (trust : Bool) (l : List Ev) (c : ConClient), Runs (conClientCreate addrs trust) l (some (some c)) →
    ∃ d, c.client.dtls = some d ∧ Trusted d.session c.client.sd (some host) l

/-- **C84**, what holds: the CoAP server has a certificate that is signed by a trusted authority and valid. -/
theorem C84_proxy_partial (addrs : List Bool) (trust : Bool) (l : List Ev) (c : ConClient) (h : Runs (conClientCreate addrs trust) l (some (some c))) :
    ∃ d, c.client.dtls = some d ∧ Trusted d.session c.client.sd none l := by
  obtain ⟨h1, h2⟩ := conClientCreate_some h
  cases hd : c.client.dtls with
  | none => rw [hd] at h1; cases h1
  | some d => exact ⟨d, rfl, h2 d hd⟩

/-- **C84**: the proxy never compares the owner of the certificate of a CoAP server with anything. -/
theorem C84_violated_every (addrs : List Bool) (trust : Bool) (l : List Ev) (r : Option (Option ConClient)) (h : Runs (conClientCreate addrs trust) l r) :
    ∀ e ∈ l, e.op ≠ .checkName :=
  conClientCreate_noName.run h

/-- The results of the calls when the proxy connects to a CoAP server. -/
def exHost : List (Int × Nat) := exAuth.take 24 ++ [(0, 0), (1, 20), (1, 21)]

example : succeeds (conClientCreate [true] true) exHost = true := by decide +kernel

/-- **C84 is violated**: the owner of any certificate of the authorities that the proxy trusts can take the place of any CoAP server. -/
theorem C84_violated : ¬ C84_statement := by
  intro h
  obtain ⟨c, hc⟩ := succeeds_runs (p := conClientCreate [true] true) (rs := exHost) (by decide +kernel)
  obtain ⟨d, -, l1, l2, k, l3, e, hl, -, hk, -⟩ := h 0 [true] true _ c hc
  obtain ⟨status, crt, now, u, since, x1, x2, x3, x4, x5, x6, x7, x8, peers, named, freed, -, -, -, -, -, rfl⟩ := hk
  refine C84_violated_every _ _ _ _ hc ⟨.checkName, [crt, 0], named, x7⟩ ?_ rfl
  rw [hl]
  simp

end FreeCoAP.Res
