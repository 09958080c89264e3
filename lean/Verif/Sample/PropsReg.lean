import Verif.Sample.LemmasReg
import Verif.Sample.Props

/-! # C92: a client that registered is known to the server -/

namespace FreeCoAP.Sample

open FreeCoAP.Msg
open FreeCoAP.Server (HAct Addr Built Env Event calls AppOK Srv)
open FreeCoAP.EndToEnd (Network Replied Ordinary token)
open FreeCoAP.Client (stamped)

theorem regReq_ok {mem : Nat → Bool} {buf : Bytes} {req : Msg} (h : regReq mem buf = .ok req) :
    req = { Msg.create with codeDetail := 2, ops := [⟨URI_PATH, str "client"⟩, ⟨URI_PATH, str "id"⟩], payload := buf } := by
  unfold regReq at h
  rw [show setType Msg.create CON = .ok Msg.create from rfl, Out.bind_ok, show setCode Msg.create 0 2 = .ok { Msg.create with codeDetail := 2 } from rfl,
    Out.bind_ok] at h
  split at h
  · cases h
  · dsimp only at h
    split at h
    · cases h
    · split at h
      · cases h
      · cases h
        rfl

theorem regReq_built (buf : Bytes) :
    Built { Msg.create with codeDetail := 2, ops := [⟨URI_PATH, str "client"⟩, ⟨URI_PATH, str "id"⟩], payload := buf } :=
  Built.setPayload (Built.addOp (Built.addOp (m := { Msg.create with codeDetail := 2 }) (by constructor <;> simp [Msg.create, destroyed, Sorted])
    URI_PATH (str "client")) URI_PATH (str "id")) buf

theorem regReq_known (buf : Bytes) :
    Server.AllKnown { Msg.create with codeDetail := 2, ops := [⟨URI_PATH, str "client"⟩, ⟨URI_PATH, str "id"⟩], payload := buf } := by
  intro o ho _
  simp only [List.mem_cons, List.not_mem_nil, or_false] at ho
  rcases ho with rfl | rfl <;> decide

theorem regReq_ordinary (sx : Bool) (buf : Bytes) :
    Ordinary sx { Msg.create with codeDetail := 2, ops := [⟨URI_PATH, str "client"⟩, ⟨URI_PATH, str "id"⟩], payload := buf } := by
  intro o ho
  simp only [List.mem_cons, List.not_mem_nil, or_false] at ho
  rcases ho with rfl | rfl <;> exact ⟨by decide, by decide +kernel, fun _ => by decide +kernel⟩

theorem register_ok {sx px : Bool} {x : Client.XEnv} {mem : Nat → Bool} {buf : Bytes} {len n : Nat} {obs : List Client.Obs}
    (h : register sx px x mem buf len = .ok (obs, some (.ok n))) :
    ∃ req resp, regReq mem buf = .ok req ∧ Client.exchange sx px x req = .ok (obs, some (.ok resp)) ∧ regResp len req resp = .ok n := by
  unfold register at h
  cases hq : regReq mem buf with
  | ub => rw [hq] at h; cases h
  | err e => rw [hq] at h; cases h
  | ok req =>
    rw [hq] at h
    dsimp only at h
    cases hx : Client.exchange sx px x req with
    | ub => rw [hx] at h; cases h
    | err e => rw [hx] at h; cases h
    | ok y =>
      rw [hx, Out.bind_ok] at h
      obtain ⟨o, y⟩ := y
      rcases y with _ | e | resp
      · cases h
      · cases h
      · dsimp only at h
        cases hr : regResp len req resp with
        | ub => rw [hr] at h; cases h
        | err e => rw [hr] at h; cases h
        | ok k =>
          rw [hr] at h
          cases h
          exact ⟨req, resp, rfl, hx, hr⟩

theorem regResp_ok {len n : Nat} {req resp : Msg} (h : regResp len req resp = .ok n) : resp.codeClass = 2 := by
  unfold regResp at h
  split at h
  · cases h
  · split at h
    · cases h
    · rename_i hc
      exact Classical.byContradiction fun hn => hc (Or.inl hn)

/-- C92: if `reg_client_register` succeeds for an id, and nobody registers the same id from another address meanwhile, then the registrar of the server
has the address of the client for this id. The server has any history, and the network may lose, repeat, delay and reorder datagrams. -/
theorem C92_registered (L : Nat) (ntop : Addr → Option Bytes) (hn : ∀ a s, ntop a = some s → s.length < L)
    (sx px : Bool) (a : Addr) (id : Nat) (sepList : List Bytes) (pool : Mem.Pool) (evs0 evs : List (Env × Event))
    (s0 s1 : Srv) (tr0 tr : List (List Server.Obs)) (r0 r1 : Out Reg) (b : Client.BEnv) (obs : List Client.Obs) (mem : Nat → Bool) (buf : Bytes)
    (len n : Nat) (hr0 : Server.run sx (Server.init id sepList pool) evs0 = .ok (s0, tr0)) (hr1 : Server.run sx s0 evs = .ok (s1, tr))
    (hs0 : Serves L ntop (.ok create) evs0 tr0 r0) (hs1 : Serves L ntop r0 evs tr r1)
    (hbuf : (0 : Byte) ∉ buf) (h : register sx px b.x mem buf len = .ok (obs, some (.ok n)))
    (hnet : Network sx a [(b, obs)] evs0 evs tr0 tr)
    (hother : ∀ o ∈ tr, ∀ c ∈ calls o, Registers buf c.2 → ntop c.1 = ntop a) :
    ∃ addr, ntop a = some addr ∧ Knows L r1 buf addr := by
  obtain ⟨req, resp, h1, h2, h3⟩ := register_ok h
  rw [regReq_ok h1] at h2
  obtain ⟨g1, reg0, l0, rfl, g3, -, -⟩ := serves_ok hn evs0 _ s0 tr0 create [] r0 inv_create (Server.init_tidy id sepList pool) hr0 hs0
  have hR : Server.Reach sx evs0 s0 tr0 := ⟨id, sepList, pool, hr0⟩
  obtain ⟨k1, reg1, l1, rfl, k3, -, k5⟩ := serves_ok hn evs s0 s1 tr reg0 l0 r1 g3 hR.tidy hr1 hs1
  obtain ⟨h4, -⟩ := EndToEnd.C87_answer_partial sx px a id sepList pool evs0 evs s0 s1 tr0 tr _ resp b obs hr0
    (Server.C21_no_transfer sx evs0 s0 tr0 hR (fun x hx => (g1 x hx).direct) a) hr1
    (fun x hx => by
      rcases List.mem_append.1 hx with hx | hx
      · exact (g1 x hx).app
      · exact (k1 x hx).app)
    (fun x hx t m _ => (k1 x hx).direct t m) (regReq_built buf) (regReq_ordinary sx buf) h2 hnet
  rcases h4 with ⟨-, -, resp', q1, q2, -, -⟩ | ⟨q, -⟩
  · have hp : cstr (stamped b.x { Msg.create with codeDetail := 2, ops := [⟨URI_PATH, str "client"⟩, ⟨URI_PATH, str "id"⟩], payload := buf }).payload = buf := by
      show buf.takeWhile (· ≠ 0) = buf
      have : ∀ l : Bytes, (0 : Byte) ∉ l → l.takeWhile (· ≠ 0) = l := by
        intro l
        induction l with
        | nil => intro; rfl
        | cons x l ih =>
          intro hx
          rw [List.mem_cons, not_or] at hx
          rw [List.takeWhile_cons_of_pos (by simpa using fun e : x = 0 => hx.1 e.symm), ih hx.2]
      exact this buf hbuf
    obtain ⟨addr, e1, e2⟩ := k5 a _ resp' q1 (by rw [← q2]; exact regResp_ok h3) (by rw [hp]; exact hother)
    rw [hp] at e2
    exact ⟨addr, e1, knows_of k3 e2⟩
  · exact absurd (regReq_known buf) q

/-! ## An example -/

/-- An allocator that returns a new address, and addresses as text. -/
def exNew (live : List Nat) : Option Nat := some (live.foldl max 0 + 1)

def exTop (a : Addr) : Option Bytes := some ((a.map (· + 48)).take 10)

/-- The CoAP server with the callback of `reg_server`. -/
def regEnv (r : Out Reg) : Env :=
  { Server.exEnv with
    handle := fun t m =>
      match (r >>= fun r => handle 46 exTop exNew (fun _ => true) r t.addr m) with
      | .ok x => x.1
      | _ => .reply Msg.create (some .EIO)
    rx := fun _ body e _ resp => ⟨none, resp, body, e⟩ }

/-- The request of the client at 1, which registers "ab", the one of the client at 2, which registers "c", and the response to the first one. -/
def exReg1 : Bytes := [0x44, 2, 1, 5, 1, 2, 3, 5, 0xB6] ++ str "client" ++ [2] ++ str "id" ++ [0xFF] ++ str "ab"
def exReg2 : Bytes := [0x44, 2, 0, 9, 9, 9, 9, 9, 0xB6] ++ str "client" ++ [2] ++ str "id" ++ [0xFF] ++ str "c"
def exRegR : Bytes := [0x64, 0x41, 1, 5, 1, 2, 3, 5, 0xB6] ++ str "client" ++ [2] ++ str "id" ++ [0xFF] ++ str "OK"

/-- The two requests as messages. -/
def exMsg1 : Msg := ⟨1, 0, 0, 2, 261, [1, 2, 3, 5], [⟨URI_PATH, str "client"⟩, ⟨URI_PATH, str "id"⟩], str "ab"⟩
def exMsg2 : Msg := ⟨1, 0, 0, 2, 9, [9, 9, 9, 9], [⟨URI_PATH, str "client"⟩, ⟨URI_PATH, str "id"⟩], str "c"⟩

/-- The registrar after each of them. -/
def exAfter1 : Out Reg := .ok create >>= fun r => handle 46 exTop exNew (fun _ => true) r [1] exMsg1 >>= fun x => .ok x.2
def exAfter2 : Out Reg := exAfter1 >>= fun r => handle 46 exTop exNew (fun _ => true) r [2] exMsg2 >>= fun x => .ok x.2

/-- The response to the first client is lost, the second one registers, the first one asks again. -/
def exRegEvs : List (Env × Event) :=
  [(regEnv (.ok create), .datagram [1] exReg1), (regEnv exAfter1, .datagram [2] exReg2), (regEnv exAfter2, .datagram [1] exReg1)]

def exRegB : Client.BEnv := EndToEnd.exRound 5 [Client.tick, Client.rcv exRegR]

theorem exNew_fresh (live : List Nat) (p : Nat) (h : exNew live = some p) : p ∉ live := exAlloc_fresh live p h

theorem serves_reg {r : Out Reg} {ev : Event} {evs : List (Env × Event)} {o : List Server.Obs} {tr : List (List Server.Obs)} {r' : Out Reg}
    (h : Serves 46 exTop ((calls o).foldl (fun r c => r >>= fun r => handle 46 exTop exNew (fun _ => true) r c.1 c.2 >>= fun x => .ok x.2) r) evs tr r') :
    Serves 46 exTop r ((regEnv r, ev) :: evs) (o :: tr) r' :=
  ⟨exNew, fun _ => true, exNew_fresh, fun t m x hx => by
    show (match (r >>= fun r => handle 46 exTop exNew (fun _ => true) r t.addr m) with
      | .ok x => x.1
      | _ => .reply Msg.create (some .EIO)) = x.1
    rw [hx], rfl, h⟩

/-- The call returned a number. -/
def done (x : Option (Except Err Nat)) : Bool := match x with | some (.ok _) => true | _ => false

theorem done_some : ∀ {x : Option (Except Err Nat)}, done x = true → ∃ n, x = some (.ok n)
  | some (.ok n), _ => ⟨n, rfl⟩

theorem three {α β : Type} {f : α → β} : ∀ {l : List α} {a b c : β}, l.map f = [a, b, c] → ∃ x y z, l = [x, y, z] ∧ f x = a ∧ f y = b ∧ f z = c
  | [x, y, z], _, _, _, h => by
    cases h
    exact ⟨x, y, z, rfl, rfl, rfl, rfl⟩

/-- The hypotheses are met, and the registrar has the address of the first client at the end. -/
example : ∃ obs n, register true false exRegB.x (fun _ => true) (str "ab") 32 = .ok (obs, some (.ok n)) ∧ Knows 46 exAfter2 (str "ab") [49] := by
  have key : Client.test (register true false exRegB.x (fun _ => true) (str "ab") 32) (fun x => Client.test (Server.run true Server.exInit exRegEvs)
      (fun r => done x.2 && EndToEnd.networkB true [1] [(exRegB, x.1)] [] exRegEvs [] r.2 &&
        decide (r.2.map calls = [[([1], exMsg1)], [([2], exMsg2)], []]))) = true := by decide +kernel
  obtain ⟨⟨obs, res⟩, h1, h2⟩ := Client.test_ok key
  obtain ⟨⟨s1, tr⟩, h3, h4⟩ := Client.test_ok h2
  simp only [Bool.and_eq_true, decide_eq_true_eq] at h4
  obtain ⟨⟨k1, k2⟩, k3⟩ := h4
  obtain ⟨n, e⟩ := done_some k1
  subst e
  obtain ⟨o1, o2, o3, e, c1, c2, c3⟩ := three k3
  subst e
  refine ⟨obs, n, h1, ?_⟩
  have hs : Serves 46 exTop (.ok create) exRegEvs [o1, o2, o3] exAfter2 := by
    refine serves_reg ?_
    rw [c1]
    refine serves_reg (r := exAfter1) ?_
    rw [c2]
    refine serves_reg (r := exAfter2) ?_
    rw [c3]
    rfl
  obtain ⟨addr, e1, e2⟩ := C92_registered 46 exTop (fun a s h => by cases h; exact Nat.lt_of_le_of_lt (List.length_take_le ..) (by omega))
    true false [1] 100 Server.exSep Server.exPool [] exRegEvs Server.exInit s1 [] [o1, o2, o3] (.ok create) exAfter2 exRegB obs _ (str "ab") 32 n
    rfl h3 rfl hs (by decide +kernel) h1 (EndToEnd.network_of k2) (by
      intro o ho c hc hreg
      simp only [List.mem_cons, List.not_mem_nil, or_false] at ho
      rcases ho with rfl | rfl | rfl
      · rw [c1, List.mem_singleton] at hc; subst hc; rfl
      · rw [c2, List.mem_singleton] at hc; subst hc
        exact absurd hreg.2 (by decide +kernel)
      · rw [c3] at hc; cases hc)
  cases e1
  exact e2

end FreeCoAP.Sample
