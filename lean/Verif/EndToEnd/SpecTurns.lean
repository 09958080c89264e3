import Verif.EndToEnd.SpecLive

/-!
# Specification of a blockwise transfer over a network that delivers

A transfer is a sequence of turns. In each turn the client transmits the request for one block, possibly several times; one copy reaches the server; what the
server sends in answer reaches the client.
-/

namespace FreeCoAP.EndToEnd

open FreeCoAP.Msg
open FreeCoAP.Server (Env Event Addr Carries Srv NoFault Kept OnlyRepeats lastRequest Separate nextMsgId run step BlockSize cpath)
open FreeCoAP.Client (AckedBy)

/-- One turn: what happens at the server before the request arrives, the environment of the server when it does, the environment of the client in this turn,
what the client sees before the answer of the server and after it, the datagram with the request and the message in it. -/
structure Turn where
  mid : List (Env × Event)
  env : Env
  b : Client.BEnv
  before : List Client.Input
  after : List Client.Input
  d : Bytes
  m : Msg

/-- The client's environment in a turn in which it sees these inputs. -/
def seeing (b : Client.BEnv) (is : List Client.Input) : Client.BEnv := { b with x := { b.x with inputs := is } }

/-- The first datagram of the last turn. -/
def latest (obs : List (List Client.Obs)) : Option Bytes := obs.getLast?.bind (fun o => (Client.sends o).head?)

/-- The turn `t` may follow the turns `bs`: the client, of which `call` is the course for the turns it has had, still waits in this turn when the datagram with
the request of this turn arrives at the server (so that it does not matter what later turns would be like), and has seen no acknowledgement of it; nothing
fails at the server, whose application satisfies `app`. -/
structure Possible (sx : Bool) (call : List Client.BEnv → Out Client.BRes) (app : Env → Prop) (bs : List Client.BEnv) (t : Turn) : Prop where
  waits : ∃ res, (∀ later, call (bs ++ seeing t.b t.before :: later) = .ok res) ∧ res.ret = none ∧ latest res.obs = some t.d
  short : t.d.length < 1152
  carries : Carries sx t.d t.m
  unacked : ∀ i ∈ t.before, ¬ AckedBy sx t.m.msgId i
  fine : NoFault t.env
  app : app t.env

/-- The turns `bs` of the client, after which the state of the server is `s` and the id of the last request of the client at `a` that it has seen is `last`; `seen`
is what could be seen of the server. The server was in the state `s0`, in which the last id was `last0`, when the call began. Between the turns anything may happen at the server that does not make it
forget the client, except that it receives other requests of the same client. `ids` is a condition on the ids in each turn. -/
inductive Delivered (sx : Bool) (a : Addr) (call : List Client.BEnv → Out Client.BRes) (app : Env → Prop) (ids : Srv → Option Nat → Turn → Prop)
    (s0 : Srv) (last0 : Option Nat) : List Client.BEnv → Srv → Option Nat → List (List Server.Obs) → Prop where
  | start : Delivered sx a call app ids s0 last0 [] s0 last0 []
  | turn {bs : List Client.BEnv} {s s1 s2 : Srv} {last : Option Nat} {seen tr : List (List Server.Obs)} {o : List Server.Obs} {e : Option Err} (t : Turn)
      (h : Delivered sx a call app ids s0 last0 bs s last seen)
      (first : bs = [] → t.mid = [])
      (between : run sx s t.mid = .ok (s1, tr))
      (quiet : bs ≠ [] → Kept sx a s t.mid ∧ ∀ x ∈ t.mid, ∀ id, last = some id → OnlyRepeats sx a id x)
      (possible : Possible sx call app bs t)
      (fresh : ids s1 last t)
      (served : step sx s1 t.env (.datagram a t.d) = .ok (s2, o, e)) :
      Delivered sx a call app ids s0 last0 (bs ++ [seeing t.b (t.before ++ ((toward a o).map gets ++ t.after))]) s2 (some t.m.msgId)
        (seen ++ (tr ++ [o]))

/-- The id of the request is not 0 and not the id of the previous one; if the response does not come with the acknowledgement, it is not the id that the server
chooses for it either. -/
def Distinct (s : Srv) (last : Option Nat) (t : Turn) : Prop :=
  t.m.msgId ≠ 0 ∧ last ≠ some t.m.msgId ∧ (¬ (t.m.type = CON ∧ ¬ Separate s.sepList t.m) → nextMsgId s.msgId t.env.idRand ≠ t.m.msgId)

/-- The id of the last request of the client in the history. -/
def lastId (sx : Bool) (a : Addr) (evs : List (Env × Event)) : Option Nat := (lastRequest sx a evs).map (·.msgId)

/-- The application answers GET requests for `uri` with the body `src` in blocks of `b2` bytes, and no options of its own. -/
def Provides (uri src : Bytes) (b2 : Nat) (env : Env) : Prop :=
  ∃ resp b1 rx, (∀ t m, m.codeDetail = 1 → cpath 256 m.ops = uri → env.handle t m = .blockwise resp b1 b2 src src.length rx) ∧
    Server.Built resp ∧ resp.ops = [] ∧ (b1 = 0 ∨ BlockSize b1)

end FreeCoAP.EndToEnd
