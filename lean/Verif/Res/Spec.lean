import Verif.Res.Prog

/-!
# The rules for the use of resources

An independent description of the functions of the operating system and of GnuTLS: which objects they need, which they create, which they destroy.
A list of calls is replayed against these rules. The outcome is the collection of the objects that exist afterwards, or `misuse` if a call
broke the rules, or `dishonest` if a result is one that the function never gives.
-/

namespace FreeCoAP.Res

/-- The kinds of objects. `lib` is an initialisation of GnuTLS (they are counted). -/
inductive Kind where
  | fd | addrs | mem | mattr | mutex | attr | lib | cred | prio | dh | session | crt
  deriving DecidableEq, Repr

/-- An object. -/
abbrev Handle := Kind × Nat

/-- The objects that a call needs; `none` if the call has the wrong arguments. -/
def needs : Op → List Nat → Option (List Handle)
  | .getaddrinfo, [] | .socket, [] | .timerfd, [] | .inetNtop, [] | .time, [] | .sleep, [] | .malloc, [] | .mattrInit, [] | .attrInit, []
  | .globalInit, [] => some []
  | .freeaddrinfo, [a] => some [(.addrs, a)]
  | .connect, [s] | .setsockopt, [s] | .bind, [s] | .listen, [s] | .accept, [s] | .fcntl, [s] | .select, [s] | .close, [s] => some [(.fd, s)]
  | .free, [m] => some [(.mem, m)]
  | .mattrSet, [a] | .mattrDestroy, [a] | .mutexInit, [a] => some [(.mattr, a)]
  | .mutexDestroy, [m] => some [(.mutex, m)]
  | .attrSet, [a] | .attrDestroy, [a] | .threadCreate, [a] => some [(.attr, a)]
  | .globalDeinit, [0] | .credAlloc, [] | .dhInit, [] | .prioInit, [] | .init, [] | .crtInit, [] => some [(.lib, 0)]
  | .credFree, [c] | .setTrust, [c] | .setCrl, [c] | .setKey, [c] => some [(.cred, c)]
  | .setDh, [c, d] => some [(.cred, c), (.dh, d)]
  | .dhGenerate, [d] | .dhDeinit, [d] => some [(.dh, d)]
  | .prioDeinit, [p] => some [(.prio, p)]
  | .deinit, [s] | .setData, [s] | .getData, [s] | .dtlsTimeout, [s] | .verifyPeers, [s] | .certType, [s] | .getPeers, [s] => some [(.session, s)]
  | .credSet, [s, c] => some [(.session, s), (.cred, c)]
  | .prioSet, [s, p] => some [(.session, s), (.prio, p)]
  | .handshake, [s, f] | .bye, [s, f] | .recv, [s, f] => some [(.session, s), (.fd, f)]
  | .crtDeinit, [x] | .expiration, [x] | .activation, [x] | .checkName, [x, _] => some [(.crt, x)]
  | .crtImport, [x, s] => some [(.crt, x), (.session, s)]
  | _, _ => none

/-- The object that a call creates, given its result. -/
def gives (e : Ev) : Option Handle :=
  match e.op with
  | .socket | .accept | .timerfd => if 0 ≤ e.res then some (.fd, e.res.toNat) else none
  | .getaddrinfo => if e.res = 0 then some (.addrs, e.out) else none
  | .malloc => if e.res ≠ 0 then some (.mem, e.out) else none
  | .getData => if e.res = 0 then some (.mem, e.out) else none
  | .mattrInit => if e.res = 0 then some (.mattr, e.out) else none
  | .mutexInit => if e.res = 0 then some (.mutex, e.out) else none
  | .attrInit => if e.res = 0 then some (.attr, e.out) else none
  | .globalInit => if e.res = 0 then some (.lib, 0) else none
  | .credAlloc => if e.res = 0 then some (.cred, e.out) else none
  | .dhInit => if e.res = 0 then some (.dh, e.out) else none
  | .prioInit => if e.res = 0 then some (.prio, e.out) else none
  | .init => if e.res = 0 then some (.session, e.out) else none
  | .crtInit => if e.res = 0 then some (.crt, e.out) else none
  | _ => none

/-- The object that a call destroys. -/
def takes (e : Ev) : Option Handle :=
  match e.op, e.args with
  | .freeaddrinfo, [a] => some (.addrs, a)
  | .close, [s] => some (.fd, s)
  | .free, [m] => some (.mem, m)
  | .mattrDestroy, [a] => some (.mattr, a)
  | .mutexDestroy, [m] => some (.mutex, m)
  | .attrDestroy, [a] => some (.attr, a)
  | .globalDeinit, [0] => some (.lib, 0)
  | .credFree, [c] => some (.cred, c)
  | .dhDeinit, [d] => some (.dh, d)
  | .prioDeinit, [p] => some (.prio, p)
  | .deinit, [s] => some (.session, s)
  | .crtDeinit, [x] => some (.crt, x)
  | _, _ => none

/-- The reference that a call leaves in one object to another: GnuTLS keeps pointers, so that the other must not be destroyed first. With `strict`,
also the parameters of Diffie and Hellman must not be destroyed before the credentials that refer to them, as the manual of GnuTLS demands. -/
def ties (strict : Bool) (e : Ev) : Option (Handle × Handle) :=
  match e.op, e.args with
  | .credSet, [s, c] => if e.res = 0 then some ((.session, s), (.cred, c)) else none
  | .prioSet, [s, p] => if e.res = 0 then some ((.session, s), (.prio, p)) else none
  | .setDh, [c, d] => if strict then some ((.cred, c), (.dh, d)) else none
  | _, _ => none

/-- Objects of GnuTLS, which need it to be initialised. -/
def ofLib : Kind → Bool
  | .cred | .prio | .dh | .session | .crt => true
  | _ => false

/-- The objects that exist, and the references between them. -/
structure St where
  held : List Handle
  refs : List (Handle × Handle)

/-- A result that the function may give: descriptors are not below -1, error codes of `getaddrinfo` are negative,
`pthread_mutexattr_destroy` and `pthread_attr_setdetachstate` do not fail (POSIX lets them fail for arguments that are not valid only), and a new
object is not one that exists. -/
def honest (S : St) (e : Ev) : Prop :=
  (e.op ∈ [Op.socket, .accept, .timerfd] → -1 ≤ e.res) ∧ (e.op = .getaddrinfo → e.res ≤ 0) ∧
  (e.op ∈ [Op.mattrDestroy, .attrSet] → e.res = 0) ∧
  ∀ h, gives e = some h → h.1 ≠ .lib → h ∉ S.held

instance (S : St) (e : Ev) : Decidable (honest S e) := by
  unfold honest
  cases gives e with
  | none => exact decidable_of_iff ((e.op ∈ [Op.socket, .accept, .timerfd] → -1 ≤ e.res) ∧ (e.op = .getaddrinfo → e.res ≤ 0) ∧
      (e.op ∈ [Op.mattrDestroy, .attrSet] → e.res = 0)) (by simp)
  | some h =>
    exact decidable_of_iff ((e.op ∈ [Op.socket, .accept, .timerfd] → -1 ≤ e.res) ∧ (e.op = .getaddrinfo → e.res ≤ 0) ∧
      (e.op ∈ [Op.mattrDestroy, .attrSet] → e.res = 0) ∧ (h.1 ≠ .lib → h ∉ S.held))
      (by simp)

/-- A call that keeps the rules: what it needs exists, nothing refers to what it destroys, and GnuTLS is not deinitialised while one of its
objects exists. -/
def proper (S : St) (e : Ev) : Prop :=
  (∃ hs, needs e.op e.args = some hs ∧ ∀ h ∈ hs, h ∈ S.held) ∧
  (∀ h, takes e = some h → ∀ t ∈ S.refs, t.2 ≠ h) ∧
  (takes e = some (.lib, 0) → (∃ h ∈ S.held, ofLib h.1 = true) → (.lib, 0) ∈ S.held.erase (.lib, 0))

instance (S : St) (e : Ev) : Decidable (proper S e) := by
  unfold proper
  have : Decidable (∃ hs, needs e.op e.args = some hs ∧ ∀ h ∈ hs, h ∈ S.held) := by
    cases h : needs e.op e.args with
    | none => exact isFalse (by rintro ⟨hs, h1, -⟩; cases h1)
    | some hs => exact decidable_of_iff (∀ h ∈ hs, h ∈ S.held) (by simp)
  have : Decidable (∀ h, takes e = some h → ∀ t ∈ S.refs, t.2 ≠ h) := by
    cases takes e with
    | none => exact isTrue (by intro h1 h2; cases h2)
    | some h => exact decidable_of_iff (∀ t ∈ S.refs, t.2 ≠ h) ⟨fun h1 _ h2 => Option.some.inj h2 ▸ h1, fun h1 => h1 h rfl⟩
  infer_instance

/-- The objects after a call. -/
def effect (strict : Bool) (S : St) (e : Ev) : St :=
  let S1 : St := match takes e with
    | none => S
    | some h => ⟨S.held.erase h, S.refs.filter (fun t => decide (t.1 ≠ h))⟩
  let S2 : St := match gives e with
    | none => S1
    | some h => ⟨h :: S1.held, S1.refs⟩
  match ties strict e with
  | none => S2
  | some t => ⟨S2.held, t :: S2.refs⟩

/-- The outcome of a list of calls. -/
inductive Outcome where
  | ok (S : St)
  | misuse
  | dishonest

/-- Replaying a list of calls. -/
def replay (strict : Bool) (S : St) : List Ev → Outcome
  | [] => .ok S
  | e :: l => if ¬ proper S e then .misuse else if ¬ honest S e then .dishonest else replay strict (effect strict S e) l

/-- Two collections that differ in their order only. -/
def St.Same (S S' : St) : Prop := S.held.Perm S'.held ∧ ∀ t, t ∈ S.refs ↔ t ∈ S'.refs

/-- A collection of objects that a program may start with: objects of GnuTLS exist only while it is initialised, references are between objects
that exist and are not initialisations of GnuTLS, and no object exists twice. -/
structure St.Sound (S : St) : Prop where
  lib : (∃ h ∈ S.held, ofLib h.1 = true) → (.lib, 0) ∈ S.held
  refs : ∀ t ∈ S.refs, t.1 ∈ S.held ∧ t.2 ∈ S.held ∧ t.1.1 ≠ .lib ∧ t.2.1 ≠ .lib
  once : (S.held.filter (fun h => decide (h.1 ≠ .lib))).Nodup

/-- The program keeps the rules from `S` on, whatever the results of its calls and however many of them have been made, and whenever it ends, what
it returns and the objects that exist then satisfy `Q`. -/
def Keeps {α : Type} (strict : Bool) (S : St) (p : Prog α) (Q : α → St → Prop) : Prop :=
  ∀ l r, Runs p l r →
    match replay strict S l with
    | .ok S' => ∀ a, r = some a → Q a S'
    | .misuse => False
    | .dishonest => True

end FreeCoAP.Res
