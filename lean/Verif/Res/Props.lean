import Verif.Res.LemmasServer
import Verif.Res.LemmasExec

/-!
# Properties of the resources of the CoAP library

The environment is arbitrary: every call may give every result that it can give (`honest`), and at the beginning there may be any sound
collection `S` of objects of other clients and servers of the same process.
-/

namespace FreeCoAP.Res

/-- The end of a proof: nothing of one's own is left. -/
theorem Keeps.ofSafe {α : Type} {x : Bool} {S : St} {p : Prog α} {Q : α → St → Prop} (hS : S.Sound) (h : Safe x S none' p Q) :
    Keeps x S p (fun a S' => ∃ o, S'.Same (o + S) ∧ Q a o) :=
  (h.keeps hS hS).mono (fun _ _ ⟨o, h1, _, h2⟩ => ⟨o, h1, h2⟩)

/-- **C82**: while a client is created, no call is made with an object that does not exist, whatever fails. If the creation fails, every object
has been released. If it succeeds, what is new is the socket, the timer and, with DTLS, one session, priorities, credentials and one initialisation
of GnuTLS, and the session refers to the priorities and the credentials of the client. -/
theorem C82_client_create (x : Bool) (S : St) (hS : S.Sound) (dtls : Bool) (addrs : List Bool) (trust crl : Bool) (name : Option Nat) :
    Keeps x S (clientCreate dtls addrs trust crl name) (fun r S' =>
      match r with
      | none => S'.Same S
      | some c =>
        match c.dtls with
        | none => S'.Same ⟨(.fd, c.timer) :: (.fd, c.sd) :: S.held, S.refs⟩
        | some d => S'.Same ⟨(.session, d.session) :: (.prio, d.prio) :: (.cred, d.cred) :: (.lib, 0) :: (.fd, c.timer) :: (.fd, c.sd) :: S.held,
            ((.session, d.session), (.prio, d.prio)) :: ((.session, d.session), (.cred, d.cred)) :: S.refs⟩) := by
  refine (Keeps.ofSafe hS (clientCreate_safe hS)).mono ?_
  rintro (_ | ⟨sd, t, d⟩) S' ⟨o, h1, h2⟩
  · cases h2; exact h1
  · cases h2
    cases d with
    | none => exact h1
    | some d => exact h1

example : none'.Sound := sound_none

/-- The results of the calls when a client with DTLS is created: socket 3, timer 4, credentials 5, priorities 6, session 7, certificate 8. -/
def exClient : List (Int × Nat) :=
  [(0, 1), (3, 0), (0, 0), (0, 0), (2, 0), (0, 0), (4, 0), (0, 0), (0, 5), (1, 0), (0, 0), (0, 6), (0, 7), (0, 0), (0, 0),
    (AGAIN, 0), (0, 0), (1, 0), (0, 0), (0, 0), (1, 0), (0, 8), (1, 0), (0, 0), (1000, 0), (2000, 0), (10, 0), (1, 0), (0, 0)]

example : endsWith true (clientCreate true [true] true false (some 0)) exClient 6 = true := by decide +kernel

/-- **C82**: a client that is created and destroyed leaves nothing, and no call is made with an object that does not exist, or destroys an object
to which another refers. -/
theorem C82_client (x : Bool) (S : St) (hS : S.Sound) (dtls : Bool) (addrs : List Bool) (trust crl : Bool) (name : Option Nat) :
    Keeps x S (clientCreate dtls addrs trust crl name >>= fun c => match c with | none => pure () | some c => clientDestroy c)
      (fun _ S' => S'.Same S) := by
  have h : Safe x S none' (clientCreate dtls addrs trust crl name >>= fun c => match c with | none => pure () | some c => clientDestroy c)
      (fun _ o => o = none') := by
    refine (clientCreate_safe hS).bind ?_
    rintro (_ | c) o ho
    · cases ho; exact Safe.pure rfl
    · cases ho; exact clientDestroy_safe hS
  refine (Keeps.ofSafe hS h).mono ?_
  rintro _ S' ⟨o, h1, rfl⟩
  exact h1

example : endsWith true
    (clientCreate true [true] true false (some 0) >>= fun c => match c with | none => pure () | some c => clientDestroy c)
    (exClient ++ List.replicate 7 (0, 0)) 0 = true := by decide +kernel

/-- **C82**: if the creation of a server fails, every object has been released; if it succeeds, what is new is the socket and, with DTLS,
priorities, parameters, credentials and one initialisation of GnuTLS. -/
theorem C82_server_create (S : St) (hS : S.Sound) (dtls : Bool) (addrs : List Bool) (trust crl : Bool) :
    Keeps false S (serverCreate dtls addrs trust crl) (fun r S' =>
      match r with
      | none => S'.Same S
      | some v =>
        match v.dtls with
        | none => S'.Same ⟨(.fd, v.sd) :: S.held, S.refs⟩
        | some d => S'.Same ⟨(.prio, d.prio) :: (.dh, d.dh) :: (.cred, d.cred) :: (.lib, 0) :: (.fd, v.sd) :: S.held, S.refs⟩) := by
  refine (Keeps.ofSafe hS (serverCreate_safe hS)).mono ?_
  rintro (_ | ⟨sd, d⟩) S' ⟨o, h1, h2⟩
  · cases h2; exact h1
  · cases h2
    cases d with
    | none => exact h1
    | some d => exact h1

/-- The results of the calls when a server with DTLS is created: socket 3, credentials 5, parameters 6, priorities 7. -/
def exServer : List (Int × Nat) :=
  [(0, 1), (3, 0), (0, 0), (0, 0), (0, 0), (2, 0), (0, 0), (0, 0), (0, 5), (1, 0), (0, 0), (0, 6), (0, 0), (0, 0), (0, 7)]

example : endsWith false (serverCreate true [true] true false) exServer 5 = true := by decide +kernel

/-- **C82**: in the whole life of a server, with any number of transactions that are created, replaced and destroyed in any order, no call is made
with an object that does not exist, or destroys an object to which another refers, and at the end everything has been released. -/
theorem C82_server (S : St) (hS : S.Sound) (dtls auth : Bool) (addrs : List Bool) (trust crl : Bool) (n : Nat) (as : List Act) :
    Keeps false S (serverLife dtls auth addrs trust crl n as) (fun _ S' => S'.Same S) := by
  refine (Keeps.ofSafe hS (serverLife_safe hS)).mono ?_
  rintro _ S' ⟨o, h1, rfl⟩
  exact h1

/-- A client whose handshake succeeds enters, then another one that fails takes its place. -/
example : endsWith false (serverLife true true [true] true false 1 [.enter 0, .enter 0])
    (exServer ++
      [(8, 0), (1, 0), (0, 9), (0, 0), (0, 0), (0, 0), (0, 0), (1, 0), (0, 10), (1, 0), (0, 0), (1000, 0), (2000, 0), (10, 0), (0, 0)] ++
      [(0, 0), (0, 0), (0, 0)] ++ [(11, 0), (1, 0), (0, 12), (0, 0), (0, 0), (TIMEDOUT, 0), (0, 0), (0, 0)] ++
      List.replicate 5 (0, 0)) 0 = true := by decide +kernel

end FreeCoAP.Res
