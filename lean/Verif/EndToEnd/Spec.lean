import Verif.Client.Spec

/-!
# Specification of a transfer between the client and the server of the library

The client and the server are the ones of the other parts of the model. What is in between
is described by what it may do: the datagrams the client receives are ones the server sent
to it, and the datagrams the server receives with the token of a round of the transfer are
ones the client sent in this round. Datagrams may be lost, repeated, delayed and arrive in
any order.
-/

namespace FreeCoAP.EndToEnd

open FreeCoAP.Msg
open FreeCoAP.Server (Env Event Addr arrived Asks Carries)

/-- The options of the message can be sent and read back: numbers and lengths fit into 16
bits, and if `char` is signed they are below 141 (see C05 and C06). -/
def Ordinary (sx : Bool) (m : Msg) : Prop :=
  ∀ o ∈ m.ops, o.num < 65536 ∧ o.val.length < 65536 ∧ (sx = true → o.num < 141 ∧ o.val.length < 141)

/-- The token of a round of the client. -/
def token (b : Client.BEnv) : Bytes := [b.x.tok0, b.x.tok1, b.x.tok2, b.x.tok3]

/-- The rounds with the environments and observations `rounds` of a transfer with the client
at the address `a`, and two periods of the life of the server: `evs0` is before the transfer
and `evs` is from its beginning on, `tr0` and `tr` are what the server does in them. -/
structure Network (sx : Bool) (a : Addr) (rounds : List (Client.BEnv × List Client.Obs))
    (evs0 evs : List (Env × Event)) (tr0 tr : List (List Server.Obs)) : Prop where
  /-- No request with one of the tokens arrived before. -/
  fresh : ∀ x ∈ evs0, ∀ m, arrived sx a x = some m → Asks m → ∀ r ∈ rounds, m.token ≠ token r.1
  /-- Requests from `a` with one of the tokens are those of the transfer. -/
  requests : ∀ env d, (env, Event.datagram a d) ∈ evs → ∀ m, Carries sx d m → Asks m → ∀ r ∈ rounds, m.token = token r.1 →
    d ∈ Client.sends r.2
  /-- What the client receives was sent to it by the server. -/
  responses : ∀ r ∈ rounds, ∀ i ∈ r.1.x.inputs, ∀ d, i.ev = .datagram d → (a, d) ∈ Server.sends (tr0 ++ tr).flatten

/-- The application offers `body` at the path `uri` to the client at `a`: it answers GET requests
for it with this body, or with an error. -/
def Offers (sx : Bool) (a : Addr) (uri body : Bytes) (env : Env) : Prop :=
  ∀ (t : Server.Trans) (m : Msg), t.addr = a → m.codeDetail = 1 → Server.cpath 256 m.ops = uri →
    (∃ resp err, env.handle t m = .reply resp err ∧ resp.codeClass ≠ 2) ∨
    ∃ resp b1 b2 bytes len rx, env.handle t m = .blockwise resp b1 b2 bytes len rx ∧ bytes.take len = body ∧
      Server.NoBlock2 resp ∧ Ordinary sx resp

/-- The message has no Block1 option. -/
def NoBlock1 (m : Msg) : Prop := ∀ o ∈ m.ops, o.num ≠ BLOCK1

/-- The application takes a body from the client at `a` with this method at the path `uri`, in
blocks of `b1` bytes: it answers a first request by having the server receive the body, or
with an error. -/
def Takes (sx : Bool) (a : Addr) (method : Nat) (uri : Bytes) (b1 : Nat) (env : Env) : Prop :=
  ∀ (t : Server.Trans) (m : Msg), t.addr = a → m.codeDetail = method → Server.cpath 256 m.ops = uri →
    (∃ resp err, env.handle t m = .reply resp err ∧ resp.codeClass ≠ 2) ∨
    ∃ resp b2 bytes len rx, env.handle t m = .blockwise resp b1 b2 bytes len rx ∧ NoBlock1 resp ∧ Ordinary sx resp

end FreeCoAP.EndToEnd
