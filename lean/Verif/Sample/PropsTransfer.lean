import Verif.Sample.SpecTransfer
import Verif.Sample.PropsReg
import Verif.EndToEnd.Props2

/-! # C93: a file that was transferred is saved by the server -/

namespace FreeCoAP.Sample

open FreeCoAP.Msg
open FreeCoAP.Server (HAct Addr Built Env Event bodies AppOK Srv arrived Asks Transfer)
open FreeCoAP.EndToEnd (Network Ordinary token Takes NoBlock1)

theorem transferReq_ok {mem : Nat → Bool} {req : Msg} (h : transferReq mem = .ok req) : req = PUT := by
  unfold transferReq at h
  rw [show setType Msg.create CON = .ok Msg.create from rfl, Out.bind_ok, show setCode Msg.create 0 3 = .ok { Msg.create with codeDetail := 3 } from rfl,
    Out.bind_ok] at h
  split at h
  · cases h
  · dsimp only at h
    split at h
    · cases h
    · cases h
      rfl

theorem put_built : Built PUT :=
  Built.addOp (Built.addOp (m := { Msg.create with codeDetail := 3 }) (by constructor <;> simp [Msg.create, destroyed, Sorted])
    URI_PATH (str "client")) URI_PATH (str "transfer")

theorem put_ordinary (sx : Bool) : Ordinary sx PUT := by
  intro o ho
  simp only [PUT, List.mem_cons, List.not_mem_nil, or_false] at ho
  rcases ho with rfl | rfl <;> exact ⟨by decide, by decide +kernel, fun _ => by decide +kernel⟩

theorem put_plain : Client.NoBlocks PUT := by
  intro o ho
  simp only [PUT, List.mem_cons, List.not_mem_nil, or_false] at ho
  rcases ho with rfl | rfl <;> exact ⟨by decide, by decide⟩

/-- What the callback of the server does. -/
theorem handleTransfer_ok (m : Msg) : ∃ x, handleTransfer m = .ok x ∧ Built x.resp ∧
    ((∃ resp err, x = .reply resp err ∧ resp.codeClass ≠ 2) ∨ x = .blockwise Msg.create BLOCK_SIZE BLOCK_SIZE [] 0 (some 0)) := by
  have hb := Built.create
  have hc : ∀ c d, c < 8 → d < 32 → c ≠ 2 → ∃ x, (setCode Msg.create c d >>= fun resp => Out.ok (HAct.reply resp none)) = .ok x ∧ Built x.resp ∧
      ((∃ resp err, x = .reply resp err ∧ resp.codeClass ≠ 2) ∨ x = .blockwise Msg.create BLOCK_SIZE BLOCK_SIZE [] 0 (some 0)) := by
    intro c d h1 h2 h3
    unfold setCode
    rw [if_neg (by omega), if_neg (by omega)]
    exact ⟨_, rfl, ⟨hb.ver, hb.type, h1, h2, hb.msgId, hb.token, hb.sorted⟩, Or.inl ⟨_, _, rfl, h3⟩⟩
  unfold handleTransfer
  split
  · exact ⟨_, rfl, hb, Or.inl ⟨_, _, rfl, by decide⟩⟩
  · split
    · exact hc 5 1 (by omega) (by omega) (by omega)
    · have hu := pathOf_ne_ub m.ops
      cases hp : pathOf m.ops with
      | ub => exact absurd hp hu
      | err e => exact ⟨_, rfl, hb, Or.inl ⟨_, _, rfl, by decide⟩⟩
      | ok path =>
        dsimp only
        split
        · exact hc 4 4 (by omega) (by omega) (by omega)
        · exact ⟨_, rfl, hb, Or.inr rfl⟩

theorem Runs.app {evs : List (Env × Event)} {ios : List WriteIO} (h : Runs evs ios) {x : Env × Event} (hx : x ∈ evs) :
    AppOK x.1 ∧ ∀ sx a uri, Takes sx a 3 uri BLOCK_SIZE x.1 := by
  obtain ⟨i, hi, rfl⟩ := List.mem_iff_getElem.1 hx
  have hz : (evs[i], ios[i]'(by rw [h.length]; exact hi)) ∈ evs.zip ios :=
    List.mem_iff_getElem.2 ⟨i, by rw [List.length_zip, h.length]; omega, by rw [List.getElem_zip]⟩
  have h1 := h.handle _ hz
  have h2 := h.rx _ hz
  dsimp only at h1 h2
  refine ⟨⟨fun t m => ?_, fun id body e req resp hr => ?_⟩, fun sx a uri t m _ _ _ => ?_⟩
  · obtain ⟨x, g1, g2, -⟩ := handleTransfer_ok m
    rw [h1 t m x g1]
    exact g2
  · rw [h2]
    dsimp only
    unfold handleRx
    split
    · exact ⟨hr.ver, hr.type, by show (5 : Nat) < 8; omega, by show (0 : Nat) < 32; omega, hr.msgId, hr.token, hr.sorted⟩
    · split
      · exact ⟨hr.ver, hr.type, by show (5 : Nat) < 8; omega, by show (0 : Nat) < 32; omega, hr.msgId, hr.token, hr.sorted⟩
      · exact ⟨hr.ver, hr.type, by show (2 : Nat) < 8; omega, by show (4 : Nat) < 32; omega, hr.msgId, hr.token, hr.sorted⟩
  · obtain ⟨x, g1, g2, g3⟩ := handleTransfer_ok m
    rw [h1 t m x g1]
    rcases g3 with ⟨resp, err, rfl, g3⟩ | rfl
    · exact Or.inl ⟨_, _, rfl, g3⟩
    · exact Or.inr ⟨_, _, _, _, _, rfl, (fun _ h => by cases h), (fun _ h => by cases h)⟩

/-- A body for which the callback reported success is in the file, if `fclose` did not fail. -/
theorem Runs.saved {evs : List (Env × Event)} {ios : List WriteIO} {tr : List (List Server.Obs)} (h : Runs evs ios)
    (hc : ∀ io ∈ ios, io.closed = true) {p : (Env × Event) × List Server.Obs} (hp : p ∈ evs.zip tr) {a : Addr} {y : Nat × Bytes}
    (hy : (a, y) ∈ bodies p.2) (hs : Server.Succeeds p.1.1 y) : Saved ios tr y.2 := by
  obtain ⟨i, hi, rfl⟩ := List.mem_iff_getElem.1 hp
  rw [List.length_zip] at hi
  rw [List.getElem_zip] at hy hs
  dsimp only at hy hs
  have hi2 : i < ios.length := by rw [h.length]; omega
  have hz : (evs[i], ios[i]) ∈ evs.zip ios :=
    List.mem_iff_getElem.2 ⟨i, by rw [List.length_zip]; omega, by rw [List.getElem_zip]⟩
  have hio : ios[i].closed = true := hc _ (List.getElem_mem _)
  obtain ⟨body, len, req, resp, e1, e2, e3⟩ := hs
  have h2 := h.rx _ hz
  dsimp only at h2
  rw [h2] at e3
  dsimp only at e3
  refine ⟨(ios[i], y.2), List.mem_flatMap.2 ⟨(ios[i], tr[i]), List.mem_iff_getElem.2 ⟨i, by rw [List.length_zip]; omega, by rw [List.getElem_zip]⟩,
    List.mem_map.2 ⟨(a, y), hy, rfl⟩⟩, fun disk => ?_⟩
  unfold handleRx at e3
  split at e3
  · cases e3
  · rename_i ho
    split at e3
    · cases e3
    · rename_i hw
      unfold save
      dsimp only
      rw [if_neg ho, if_pos hio, List.take_of_length_le]
      rw [← e1, List.length_take]
      omega

theorem execute_log {sx px : Bool} {io : ReadIO} {mem : Nat → Bool} {bs1 bs2 : List Client.BEnv} {x : Ran} {c d : Nat}
    (h : execute sx px io mem bs1 bs2 = .ok x) (hl : x.log = some (c, d)) :
    ∃ r n, Client.exchangeBlockwise sx px PUT Msg.create BLOCK_SIZE BLOCK_SIZE io.file io.file.length false bs1 bs2 = .ok r ∧
      r.ret = some (.ok n) ∧ r.resp.codeClass = c ∧ r.resp.codeDetail = d := by
  unfold execute at h
  cases hf : loadFile io with
  | error e => rw [hf] at h; cases h; cases hl
  | ok file =>
    have hf' : file = io.file := by
      unfold loadFile at hf
      split at hf
      · cases hf
      · cases hf
      · cases hf
      · cases hf
      · split at hf
        · cases hf
        · split at hf
          · cases hf
          · cases hf; rfl
    subst hf'
    rw [hf] at h
    dsimp only at h
    cases hq : transferReq mem with
    | ub => rw [hq] at h; cases h
    | err e => rw [hq] at h; cases h; cases hl
    | ok req =>
      rw [hq, transferReq_ok hq] at h
      dsimp only at h
      cases hx : Client.exchangeBlockwise sx px PUT Msg.create BLOCK_SIZE BLOCK_SIZE io.file io.file.length false bs1 bs2 with
      | ub => rw [hx] at h; cases h
      | err e => rw [hx] at h; cases h
      | ok r =>
        rw [hx, Out.bind_ok] at h
        cases hr : r.ret with
        | none => rw [hr] at h; cases h; cases hl
        | some v =>
          rw [hr] at h
          cases v with
          | error e => cases h; cases hl
          | ok n =>
            cases h
            cases hl
            exact ⟨r, n, rfl, hr, rfl, rfl⟩

/-- The full claim: if `transfer_client_execute` returns 0, the server has saved the file. `up` is the upload, whose rounds are the first ones
of the exchange. -/
def C93_statement : Prop :=
  ∀ (sx px : Bool) (a : Addr) (id : Nat) (sepList : List Bytes) (pool : Mem.Pool) (evs0 evs : List (Env × Event)) (s0 s1 : Srv)
    (tr0 tr : List (List Server.Obs)) (ios0 ios : List WriteIO) (io : ReadIO) (mem : Nat → Bool) (bs1 bs2 : List Client.BEnv) (up : Client.BRes) (x : Ran),
    Server.run sx (Server.init id sepList pool) evs0 = .ok (s0, tr0) → ¬ Transfer s0 a → Server.run sx s0 evs = .ok (s1, tr) →
    Runs evs0 ios0 → Runs evs ios → execute sx px io mem bs1 bs2 = .ok x →
    Client.upload sx px PUT Msg.create BLOCK_SIZE BLOCK_SIZE io.file io.file.length bs1 = .ok up → Network sx a (bs1.zip up.obs) evs0 evs tr0 tr →
    x.ret = some (.ok ()) → Saved ios tr io.file

/-- C93: if the client shows 2.01 or 2.04 as the code of the response, the server has written its file with exactly the contents of the file of the
client. The server has any history, and the network may lose, repeat, delay and reorder datagrams. Missing from the full claim: the value returned
does not tell, only the code in the log does; `fclose` must not fail on the server; the file has at most 2^24 bytes; no transfer with this
client is going on when this one begins, and its other requests have no body. -/
theorem C93_saved_partial (sx px : Bool) (a : Addr) (id : Nat) (sepList : List Bytes) (pool : Mem.Pool) (evs0 evs : List (Env × Event)) (s0 s1 : Srv)
    (tr0 tr : List (List Server.Obs)) (ios0 ios : List WriteIO) (io : ReadIO) (mem : Nat → Bool) (bs1 bs2 : List Client.BEnv) (up : Client.BRes) (x : Ran)
    (hr0 : Server.run sx (Server.init id sepList pool) evs0 = .ok (s0, tr0)) (htr : ¬ Transfer s0 a) (hr1 : Server.run sx s0 evs = .ok (s1, tr))
    (hs0 : Runs evs0 ios0) (hs1 : Runs evs ios) (h : execute sx px io mem bs1 bs2 = .ok x)
    (hu : Client.upload sx px PUT Msg.create BLOCK_SIZE BLOCK_SIZE io.file io.file.length bs1 = .ok up)
    (hnet : Network sx a (bs1.zip up.obs) evs0 evs tr0 tr)
    (honly : ∀ x ∈ evs, ∀ m, arrived sx a x = some m → Asks m → m.codeDetail = 2 ∨ m.codeDetail = 3 → m.payload ≠ [] →
      ∃ r ∈ bs1.zip up.obs, m.token = token r.1)
    (h24 : io.file.length ≤ 2 ^ 24) (hclose : ∀ w ∈ ios, w.closed = true) (hlog : x.log = some (2, 1) ∨ x.log = some (2, 4)) :
    Saved ios tr io.file := by
  have key : ∃ r n, Client.exchangeBlockwise sx px PUT Msg.create BLOCK_SIZE BLOCK_SIZE io.file io.file.length false bs1 bs2 = .ok r ∧
      r.ret = some (.ok n) ∧ Client.Confirmed r.resp := by
    rcases hlog with hl | hl
    · obtain ⟨r, n, g1, g2, g3, g4⟩ := execute_log h hl
      exact ⟨r, n, g1, g2, g3, Or.inr (Or.inl g4)⟩
    · obtain ⟨r, n, g1, g2, g3, g4⟩ := execute_log h hl
      exact ⟨r, n, g1, g2, g3, Or.inr (Or.inr g4)⟩
  obtain ⟨r, n, g1, g2, g3⟩ := key
  obtain ⟨-, ⟨p, hp, y, hy, hs⟩, hall⟩ := EndToEnd.C38_upload_success_partial sx px a id sepList pool evs0 evs s0 s1 tr0 tr PUT Msg.create BLOCK_SIZE
    BLOCK_SIZE io.file.length BLOCK_SIZE n io.file false bs1 bs2 up r hr0 htr hr1
    (fun z hz => by
      rcases List.mem_append.1 hz with hz | hz
      · exact (hs0.app hz).1
      · exact (hs1.app hz).1)
    (fun z hz => (hs1.app hz).2 sx a _) (by decide) put_built put_plain (put_ordinary sx) (Or.inr rfl) (Nat.le_refl _) h24 g1 g2 (Or.inl g3) hu hnet honly
  have := hs1.saved hclose hp hy hs
  rw [hall p.2 (List.of_mem_zip hp).2 y hy, List.take_length] at this
  exact this

/-! ## Examples -/

/-- The CoAP server with the callbacks of `transfer_server`. -/
def putEnv (io : WriteIO) : Env :=
  { Server.exEnv with
    handle := fun _ m =>
      match handleTransfer m with
      | .ok x => x
      | _ => .reply Msg.create (some .EIO)
    rx := fun _ body e _ resp => handleRx io body e resp }

def exFile : Bytes := (List.range 70).map UInt8.ofNat

def exRead : ReadIO := ⟨none, none, none, none, true, exFile, 70⟩

def exBig : Mem.Pool := ⟨1000, 8, 128, 2000, [0]⟩

theorem runs_put {io : WriteIO} {evs : List (Env × Event)} (h : ∀ x ∈ evs, x.1 = putEnv io) : Runs evs (List.replicate evs.length io) := by
  have hz : ∀ p ∈ evs.zip (List.replicate evs.length io), p.1.1 = putEnv p.2 := by
    intro p hp
    obtain ⟨h1, h2⟩ := List.of_mem_zip hp
    rw [(List.mem_replicate.1 h2).2]
    exact h _ h1
  refine ⟨List.length_replicate, fun p hp t m x hx => ?_, fun p hp => ?_⟩
  · rw [hz p hp]
    show (match handleTransfer m with
      | .ok x => x
      | _ => .reply Msg.create (some .EIO)) = x
    rw [hx]
  · rw [hz p hp]
    rfl

/-- The two requests of the client for a file of 70 bytes. -/
def exPart0 : Bytes := [68, 3, 1, 5, 1, 2, 3, 5, 182] ++ str "client" ++ [8] ++ str "transfer" ++ [211, 3, 0, 0, 10, 255] ++ (List.range 64).map UInt8.ofNat
def exPart1 : Bytes := [68, 3, 1, 6, 1, 2, 3, 6, 182] ++ str "client" ++ [8] ++ str "transfer" ++ [195, 0, 0, 2, 67, 0, 0, 18, 255] ++ [64, 65, 66, 67, 68, 69]

/-- The first response is lost, and another client asks for something else meanwhile. -/
def exPutEvs (io : WriteIO) : List (Env × Event) :=
  [(putEnv io, .datagram [1] exPart0), (putEnv io, .datagram [2] exReg2), (putEnv io, .datagram [1] exPart0), (putEnv io, .datagram [1] exPart1)]

theorem exPut_runs (io : WriteIO) : Runs (exPutEvs io) (List.replicate 4 io) :=
  runs_put (evs := exPutEvs io) (by
    intro x hx
    simp only [exPutEvs, List.mem_cons, List.not_mem_nil, or_false] at hx
    rcases hx with rfl | rfl | rfl | rfl <;> rfl)

/-- The rounds of the client: `code` is the one of the last response. -/
def exPutBs (code : Byte) : List Client.BEnv :=
  [EndToEnd.exRound 5 [Client.tick, Client.rcv [100, 95, 1, 5, 1, 2, 3, 5, 211, 14, 0, 0, 10]],
   EndToEnd.exRound 6 [Client.rcv [100, code, 1, 6, 1, 2, 3, 6, 211, 14, 0, 0, 18]]]

theorem exBig_idle (a : Addr) : ¬ Transfer (Server.init 100 [] exBig) a := by
  rintro ⟨t, ht, -⟩
  rw [Server.ofAddr_init] at ht
  cases ht

def retOk : Option (Except Err Unit) → Bool
  | some (.ok _) => true
  | _ => false

theorem retOk_some : ∀ {x : Option (Except Err Unit)}, retOk x = true → x = some (.ok ())
  | some (.ok _), _ => rfl

/-- What happens in the examples: the client returns 0 and shows the code `c`, and the server writes `ws`. -/
def exRun (io : WriteIO) (code : Byte) (c d : Nat) (ws : List (WriteIO × Bytes)) : Bool :=
  Client.test (execute true false exRead (fun _ => true) (exPutBs code) []) fun x =>
  Client.test (Client.upload true false PUT Msg.create 64 64 exFile 70 (exPutBs code)) fun up =>
  Client.test (Server.run true (Server.init 100 [] exBig) (exPutEvs io)) fun r =>
    retOk x.ret && EndToEnd.networkB true [1] ((exPutBs code).zip up.obs) [] (exPutEvs io) [] r.2 &&
    EndToEnd.onlyB true [1] ((exPutBs code).zip up.obs) (exPutEvs io) && decide (x.log = some (c, d)) &&
    decide (writes (List.replicate 4 io) r.2 = ws)

/-- The hypotheses are met when everything works, and the file is saved. -/
example : ∃ x s1 tr, execute true false exRead (fun _ => true) (exPutBs 68) [] = .ok x ∧ x.log = some (2, 4) ∧
    Server.run true (Server.init 100 [] exBig) (exPutEvs ⟨true, 100, true, 0⟩) = .ok (s1, tr) ∧ Saved (List.replicate 4 ⟨true, 100, true, 0⟩) tr exFile := by
  have key : exRun ⟨true, 100, true, 0⟩ 68 2 4 [(⟨true, 100, true, 0⟩, exFile)] = true := by decide +kernel
  obtain ⟨x, h1, key⟩ := Client.test_ok key
  obtain ⟨up, h2, key⟩ := Client.test_ok key
  obtain ⟨⟨s1, tr⟩, h3, key⟩ := Client.test_ok key
  simp only [Bool.and_eq_true, decide_eq_true_eq] at key
  obtain ⟨⟨⟨⟨k1, k2⟩, k3⟩, k4⟩, -⟩ := key
  exact ⟨x, s1, tr, h1, k4, h3, C93_saved_partial true false [1] 100 [] exBig [] _ _ s1 [] tr [] _ exRead _ _ [] up x rfl (exBig_idle _) h3
    ⟨rfl, (fun p hp => by cases hp), (fun p hp => by cases hp)⟩ (exPut_runs _) h1 h2 (EndToEnd.network_of k2) (EndToEnd.only_of k3) (by decide)
    (fun w hw => by rw [(List.mem_replicate.1 hw).2]) (Or.inr k4)⟩

/-! ## The value returned does not tell -/

/-- C93 does not hold: if the client cannot send anything, it returns 0. -/
theorem C93_violated : ¬ C93_statement := by
  intro H
  have key : Client.test (execute true false exRead (fun _ => true) [⟨⟨5, 1, 1, 2, 3, 5, some .EIO, none, 1500, []⟩, true, true, true, true⟩] []) (fun x =>
      Client.test (Client.upload true false PUT Msg.create 64 64 exFile 70 [⟨⟨5, 1, 1, 2, 3, 5, some .EIO, none, 1500, []⟩, true, true, true, true⟩]) fun up =>
      retOk x.ret && EndToEnd.networkB true [1] ([⟨⟨5, 1, 1, 2, 3, 5, some .EIO, none, 1500, []⟩, true, true, true, true⟩].zip up.obs) [] [] [] []) = true := by
    decide +kernel
  obtain ⟨x, h1, key⟩ := Client.test_ok key
  obtain ⟨up, h2, key⟩ := Client.test_ok key
  rw [Bool.and_eq_true] at key
  obtain ⟨w, hw, -⟩ := H true false [1] 100 [] exBig [] [] _ _ [] [] [] [] exRead _ _ [] up x rfl (exBig_idle _) rfl
    ⟨rfl, (fun p hp => by cases hp), (fun p hp => by cases hp)⟩ ⟨rfl, (fun p hp => by cases hp), (fun p hp => by cases hp)⟩ h1 h2
    (EndToEnd.network_of key.2) (retOk_some key.1)
  cases hw

/-- Nor if the server reports an error: it cannot open its file and answers 5.00, and the client returns 0. -/
theorem C93_violated_refused : ¬ C93_statement := by
  intro H
  have key : exRun ⟨false, 0, true, 0⟩ 160 5 0 [(⟨false, 0, true, 0⟩, exFile)] = true := by decide +kernel
  obtain ⟨x, h1, key⟩ := Client.test_ok key
  obtain ⟨up, h2, key⟩ := Client.test_ok key
  obtain ⟨⟨s1, tr⟩, h3, key⟩ := Client.test_ok key
  simp only [Bool.and_eq_true, decide_eq_true_eq] at key
  obtain ⟨⟨⟨⟨k1, k2⟩, k3⟩, k4⟩, k5⟩ := key
  obtain ⟨w, hw, h⟩ := H true false [1] 100 [] exBig [] _ _ s1 [] tr [] _ exRead _ _ [] up x rfl (exBig_idle _) h3
    ⟨rfl, (fun p hp => by cases hp), (fun p hp => by cases hp)⟩ (exPut_runs _) h1 h2 (EndToEnd.network_of k2) (retOk_some k1)
  rw [k5, List.mem_singleton] at hw
  subst hw
  exact nomatch h none

/-- The claim for a client that sees the code 2.04 in the log. -/
def C93_log_statement : Prop :=
  ∀ (sx px : Bool) (a : Addr) (id : Nat) (sepList : List Bytes) (pool : Mem.Pool) (evs0 evs : List (Env × Event)) (s0 s1 : Srv)
    (tr0 tr : List (List Server.Obs)) (ios0 ios : List WriteIO) (io : ReadIO) (mem : Nat → Bool) (bs1 bs2 : List Client.BEnv) (up : Client.BRes) (x : Ran),
    Server.run sx (Server.init id sepList pool) evs0 = .ok (s0, tr0) → ¬ Transfer s0 a → Server.run sx s0 evs = .ok (s1, tr) →
    Runs evs0 ios0 → Runs evs ios → execute sx px io mem bs1 bs2 = .ok x →
    Client.upload sx px PUT Msg.create BLOCK_SIZE BLOCK_SIZE io.file io.file.length bs1 = .ok up → Network sx a (bs1.zip up.obs) evs0 evs tr0 tr →
    (∀ x ∈ evs, ∀ m, arrived sx a x = some m → Asks m → m.codeDetail = 2 ∨ m.codeDetail = 3 → m.payload ≠ [] →
      ∃ r ∈ bs1.zip up.obs, m.token = token r.1) →
    io.file.length ≤ 2 ^ 24 → x.log = some (2, 4) → Saved ios tr io.file

/-- This does not hold either: the server does not look at the result of `fclose`. The disk is full, the 70 bytes are in the buffer of the stream,
`fclose` cannot write them, and the server answers 2.04. -/
theorem C93_violated_close : ¬ C93_log_statement := by
  intro H
  have key : exRun ⟨true, 100, false, 0⟩ 68 2 4 [(⟨true, 100, false, 0⟩, exFile)] = true := by decide +kernel
  obtain ⟨x, h1, key⟩ := Client.test_ok key
  obtain ⟨up, h2, key⟩ := Client.test_ok key
  obtain ⟨⟨s1, tr⟩, h3, key⟩ := Client.test_ok key
  simp only [Bool.and_eq_true, decide_eq_true_eq] at key
  obtain ⟨⟨⟨⟨k1, k2⟩, k3⟩, k4⟩, k5⟩ := key
  obtain ⟨w, hw, h⟩ := H true false [1] 100 [] exBig [] _ _ s1 [] tr [] _ exRead _ _ [] up x rfl (exBig_idle _) h3
    ⟨rfl, (fun p hp => by cases hp), (fun p hp => by cases hp)⟩ (exPut_runs _) h1 h2 (EndToEnd.network_of k2) (EndToEnd.only_of k3) (by decide) k4
  rw [k5, List.mem_singleton] at hw
  subst hw
  exact absurd (h none) (by decide +kernel)

end FreeCoAP.Sample
