import Verif.Res.LemmasMain
import Verif.Res.Props

/-!
# Properties of the resources of the threads of the proxy

The environment is arbitrary, and so is the schedule of the threads. The listener has its memory, the attributes of its threads and its socket; the
threads use GnuTLS, the priorities and the credentials of the proxy, which are among the objects `S`, and `S` may contain anything else.
-/

namespace FreeCoAP.Res

/-- A function that creates something and, if it has succeeded, the one that destroys it. -/
def andEnd {α : Type} (p : Prog (Option α)) (q : α → Prog Unit) : Prog Unit :=
  p >>= fun a => match a with | none => pure () | some a => q a

theorem both_keep {α : Type} {x : Bool} {S : St} {p : Prog (Option α)} {q : α → Prog Unit} {objs : α → St} (hS : S.Sound)
    (h1 : Safe x S none' p (Leaves objs)) (h2 : ∀ a, Safe x S (objs a) (q a) (fun _ o => o = none')) :
    Keeps x S (andEnd p q) (fun _ S' => S'.Same S) := by
  have h : Safe x S none' (andEnd p q) (fun _ o => o = none') := by
    refine h1.bind ?_
    rintro (_ | a) o ho
    · cases ho; exact Safe.pure rfl
    · cases ho; exact h2 a
  refine (Keeps.ofSafe hS h).mono ?_
  rintro _ S' ⟨o, h1, rfl⟩
  exact h1

/-- **C83**: the credentials of the side of the HTTP clients: created and destroyed, they leave nothing, whatever fails. -/
theorem C83_tls_server (S : St) (hS : S.Sound) (hl : (.lib, 0) ∈ S.held) (auth trust : Bool) :
    Keeps false S (andEnd (tlsServerCreate auth trust) tlsServerDestroy) (fun _ S' => S'.Same S) :=
  both_keep hS (tlsServerCreate_safe hS hl) (fun _ => tlsServerDestroy_safe hS)

/-- **C83**: the credentials of a TLS client. -/
theorem C83_tls_client (S : St) (hS : S.Sound) (hl : (.lib, 0) ∈ S.held) (auth key : Bool) :
    Keeps false S (andEnd (tlsClientCreate auth key) tlsClientDestroy) (fun _ S' => S'.Same S) :=
  both_keep hS (tlsClientCreate_safe hS hl) (fun _ => tlsClientDestroy_safe hS)

/-- **C83**: a TLS socket that is opened and closed leaves nothing, and is never used after its session or its descriptor is gone. -/
theorem C83_sock (x : Bool) (S : St) (hS : S.Sound) (prio cred : Nat) (hl : (.lib, 0) ∈ S.held) (hc : (.cred, cred) ∈ S.held)
    (hp : (.prio, prio) ∈ S.held) (auth cached : Bool) (name : Option Nat) (addrs : List Bool) (n m : Nat) :
    Keeps x S (andEnd (sockOpen auth cached prio cred name n addrs) (fun s => sockClose s m))
      (fun _ S' => S'.Same S) :=
  both_keep hS (sockOpen_safe hS hl hc hp) (fun _ => sockClose_safe hS)

/-- **C83**: a listener that is created and deleted leaves nothing. -/
theorem C83_listener (x : Bool) (S : St) (hS : S.Sound) :
    Keeps x S (andEnd listenerNew listenerDelete) (fun _ S' => S'.Same S) :=
  both_keep hS (listenerNew_safe hS) (fun _ => listenerDelete_safe hS)

/-- The results of the calls when the listener is created and deleted. -/
example : endsWith true (andEnd listenerNew listenerDelete)
    [(1, 10), (0, 11), (0, 0), (12, 0), (0, 0), (0, 0), (0, 0), (2, 0), (0, 0), (0, 0), (0, 0), (0, 0)] 0 = true := by decide +kernel

/-- The objects when the threads of the proxy start: those of the listener and the others. -/
def withListener (l : Listener) (S : St) : St := ⟨(.fd, l.ss) :: (.attr, l.ctx) :: (.mem, l.mem) :: S.held, S.refs⟩

/-- The threads when they start. -/
def Fixed.start (f : Fixed) (fuel : Nat) : Threads := ⟨.turn (listenerTurn f.auth f.prio f.cred f.l fuel), []⟩

/-- What is to be shown of the threads: whatever the schedule, the calls and their results have been, no call has broken the rules; when the listener
is between two turns of its loop and there is no connection, there are the same objects as in the beginning, however many connections there have
been; and when the listener has ended and there is no connection, only the objects are left that are not the listener's. -/
def Fixed.Tidy (f : Fixed) (x : Bool) (S : St) : Prop :=
  ∀ fuel l u, f.Runs (f.start fuel) l u →
    match replay x (withListener f.l S) l with
    | .ok S' => (u = ⟨.turn (.ret .skip), []⟩ → S'.Same (withListener f.l S)) ∧ (u = ⟨.ended, []⟩ → S'.Same S)
    | .misuse => False
    | .dishonest => True

/-- The full statement. -/
def C83_statement : Prop :=
  ∀ (x : Bool) (f : Fixed) (S : St), S.Sound → (withListener f.l S).Sound → (.lib, 0) ∈ S.held → (.prio, f.prio) ∈ S.held →
    (.cred, f.cred) ∈ S.held → f.Tidy x S

/-- **C83**, what holds: the threads keep the rules and leave nothing if descriptor 0 is in use, so that no connection gets it. -/
theorem C83_partial (x : Bool) (f : Fixed) (S : St) (hS : S.Sound) (hw : (withListener f.l S).Sound) (hl : (.lib, 0) ∈ S.held)
    (hp : (.prio, f.prio) ∈ S.held) (hc : (.cred, f.cred) ∈ S.held) (h0 : (.fd, 0) ∈ S.held) : f.Tidy x S := by
  have hB : Common f S := ⟨hS, h0, hl, hp, hc⟩
  have he : withListener f.l S = f.l.objs + (none' + S) := rfl
  have hw' : (f.l.objs + S).Sound := hw
  intro fuel l u hr
  have h : PoolOk x S f (withListener f.l S) (f.start fuel) :=
    ⟨f.l.objs, none', .refl _, hw, hw', turn_ok hB hw' fuel, .nil⟩
  have h1 := pool_runs hB h hr
  split at h1
  · rename_i S' hk
    rw [hk]
    dsimp only
    refine ⟨?_, ?_⟩
    · rintro rfl
      obtain ⟨o, R, h2, h3, h4, h5, h6⟩ := h1
      cases h6
      obtain ⟨o1, h7, o2, h8, h9⟩ := h5
      have h9 : o2 = none' := h9
      subst h9
      rw [none_add] at h8
      subst h8
      exact h2.trans (h7.add (.refl _))
    · rintro rfl
      obtain ⟨o, R, h2, h3, h4, h5, h6⟩ := h1
      cases h6
      have h5 : o = none' := h5
      subst h5
      exact h2
  · exact h1.elim
  · rename_i hk
    rw [hk]
    trivial

/-- The listener with memory 10, attributes 11 and socket 12; priorities 1 and credentials 2. -/
def exFixed : Fixed := ⟨false, 1, 2, ⟨10, 11, 12⟩, true⟩

/-- The objects beside, without descriptor 0. -/
def exObjs : St := ⟨[(.prio, 1), (.cred, 2), (.lib, 0)], []⟩

theorem exObjs_sound : exObjs.Sound ∧ (withListener exFixed.l exObjs).Sound := by
  refine ⟨⟨fun _ => by simp [exObjs], (fun t ht => by cases ht), by decide +kernel⟩,
    ⟨fun _ => by simp [withListener, exObjs], (fun t ht => by cases ht), by decide +kernel⟩⟩

/-- The results of the calls in a turn of the loop in which a connection is accepted: memory 20, socket 5, session 6, connection 21 to 24. -/
def exTurn : List (Int × Nat) :=
  [(1, 20), (5, 0), (2, 0), (0, 0), (0, 6), (0, 0), (0, 0), (0, 0), (1, 21), (1, 22), (1, 23), (1, 24), (0, 0)]

/-- The results of the calls of that connection: two requests for the same server, a third one for another server, and the end. -/
def exThread : List (Int × Nat) :=
  let client : List (Int × Nat) :=
    [(0, 1), (30, 0), (0, 0), (0, 0), (2, 0), (0, 0), (31, 0), (0, 0), (0, 32), (1, 0), (0, 0), (0, 33), (0, 34), (0, 0), (0, 0), (0, 0),
      (0, 0), (1, 0), (0, 35), (1, 0), (0, 0), (1000, 0), (2000, 0), (10, 0), (0, 0), (1, 36), (1, 37)]
  client ++ List.replicate 9 (0, 0) ++ client ++ List.replicate 30 (0, 0)

/-- The connection that is accepted in `exTurn`. -/
def exCon : Con := ⟨21, 22, 23, 24, 20, ⟨5, 6, false⟩⟩

/-- Another state that satisfies the hypotheses of `C83_partial`. -/
example : (.fd, 0) ∈ (⟨(.fd, 0) :: exObjs.held, []⟩ : St).held ∧ (⟨(.fd, 0) :: exObjs.held, []⟩ : St).Sound ∧
    (withListener exFixed.l ⟨(.fd, 0) :: exObjs.held, []⟩).Sound := by
  refine ⟨by simp, ⟨fun _ => by simp [exObjs], (fun t ht => by cases ht), by decide +kernel⟩,
    ⟨fun _ => by simp [withListener, exObjs], (fun t ht => by cases ht), by decide +kernel⟩⟩

/-- Whether a list of calls is replayed without a misuse, and the number of objects then. -/
def count (x : Bool) (S : St) (l : List Ev) : Option Nat :=
  match replay x S l with
  | .ok S' => some S'.held.length
  | _ => none

/-- The turn and the thread of the connection run to their ends. -/
example : (exec (listenerTurn false 1 2 ⟨10, 11, 12⟩ 3) exTurn).2.isSome = true ∧
    (exec (connectionThread true exCon [(true, [true]), (true, [true]), (false, [true])] 3) exThread).2.isSome = true := by decide +kernel

/-- There are the same number of objects as in the beginning when the connection has ended; while there is one, there are seven more. -/
example : count true (withListener exFixed.l exObjs) [] = some 6 ∧
    count true (withListener exFixed.l exObjs) (exec (listenerTurn false 1 2 ⟨10, 11, 12⟩ 3) exTurn).1 = some 13 ∧
    count true (withListener exFixed.l exObjs)
      ((exec (listenerTurn false 1 2 ⟨10, 11, 12⟩ 3) exTurn).1 ++
        (exec (connectionThread true exCon [(true, [true]), (true, [true]), (false, [true])] 3) exThread).1) = some 6 := by decide +kernel

/-- The results of the calls in a turn in which `accept` returns descriptor 0: `tls_ssock_accept` does not take it for a connection and waits for
another one. -/
def exZero : List (Int × Nat) := [(1, 20), (0, 0), (0, 0), (0, 0)]

/-- **C83 is violated**: if descriptor 0 is not in use, the next connection gets it, and it is neither served nor closed. -/
theorem C83_violated : ¬ C83_statement := by
  intro h
  have h1 := h true exFixed exObjs exObjs_sound.1 exObjs_sound.2 (by simp [exObjs]) (by simp [exObjs, exFixed]) (by simp [exObjs, exFixed]) 3
    ([] ++ (exec (listenerTurn false 1 2 ⟨10, 11, 12⟩ 3) exZero).1) ⟨.turn (.ret .skip), []⟩
    (lis_runs (.refl _) (exec_runs (listenerTurn false 1 2 ⟨10, 11, 12⟩ 3) exZero))
  have h2 : count true (withListener exFixed.l exObjs) ([] ++ (exec (listenerTurn false 1 2 ⟨10, 11, 12⟩ 3) exZero).1) = some 7 := by decide +kernel
  unfold count at h2
  split at h2
  · rename_i S' hk
    rw [hk] at h1
    have h3 := (h1.1 rfl).1.length_eq
    rw [Option.some.inj h2] at h3
    exact absurd h3 (by decide)
  · cases h2

end FreeCoAP.Res
