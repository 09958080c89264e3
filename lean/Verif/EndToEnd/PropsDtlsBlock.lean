import Verif.EndToEnd.SpecDtlsBlock
import Verif.EndToEnd.Props2
import Verif.EndToEnd.PropsPlain
import Verif.Server.PropsDtls
import Verif.Client.PropsDtlsBlock

/-!
# C135: transfers between the client and the server over DTLS
-/

namespace FreeCoAP.EndToEnd.Dtls

open FreeCoAP.Msg
open FreeCoAP.Server (Env Event Addr arrived Asks Carries Built cpath Srv AppOK Transfer init bodies Succeeds)
open FreeCoAP.Client (Content Confirmed NoBlocks)
open FreeCoAP.Client.Dtls (Round InRounds)

theorem stand_mem {xs : List Server.Dtls.Input} {ys : List (Env × Event)} (h : Server.Dtls.Stand xs ys) :
    ∀ y ∈ ys, ∃ x ∈ xs, Server.Dtls.Stands x y := by
  induction h with
  | nil => intro y hy; cases hy
  | cons h _ ih =>
    intro y hy
    rcases List.mem_cons.1 hy with rfl | hy
    · exact ⟨_, List.mem_cons_self, h⟩
    · obtain ⟨x, hx, hs⟩ := ih y hy
      exact ⟨x, List.mem_cons_of_mem _ hx, hs⟩

theorem stand_zip {xs : List Server.Dtls.Input} {ys : List (Env × Event)} (h : Server.Dtls.Stand xs ys) :
    ∀ (tr : List (List Server.Obs)), ∀ p ∈ ys.zip tr, ∃ x, (x, p.2) ∈ xs.zip tr ∧ Server.Dtls.Stands x p.1 := by
  induction h with
  | nil => intro tr p hp; cases hp
  | cons h _ ih =>
    intro tr p hp
    cases tr with
    | nil => cases hp
    | cons o tr =>
      rcases List.mem_cons.1 hp with rfl | hp
      · exact ⟨_, List.mem_cons_self, h⟩
      · obtain ⟨x, hx, hs⟩ := ih tr p hp
        exact ⟨x, List.mem_cons_of_mem _ hx, hs⟩

theorem inRounds_zip {rs : List Round} {bs : List Client.BEnv} (h : InRounds rs bs) :
    ∀ (obs : List (List Client.Obs)), ∀ p ∈ bs.zip obs, ∃ r js, (r, p.2) ∈ rs.zip obs ∧ Client.Dtls.Stand r.is js ∧
      p.1 = { r.b with x := { r.b.x with inputs := js } } := by
  induction h with
  | nil => intro obs p hp; cases hp
  | cons h _ ih =>
    intro obs p hp
    cases obs with
    | nil => cases hp
    | cons o obs =>
      rcases List.mem_cons.1 hp with rfl | hp
      · exact ⟨_, _, List.mem_cons_self, h, rfl⟩
      · obtain ⟨r, js, hr, hs⟩ := ih obs p hp
        exact ⟨r, js, List.mem_cons_of_mem _ hr, hs⟩

theorem inputs_mem {is : List Client.Dtls.Input} {js : List Client.Input} (h : Client.Dtls.Stand is js) :
    ∀ j ∈ js, ∀ d, j.ev = .datagram d → ∃ i ∈ is, Client.Dtls.Delivers i.recv d := by
  induction h with
  | nil => intro j hj; cases hj
  | @cons i j is js h _ ih =>
    intro k hk d hd
    rcases List.mem_cons.1 hk with rfl | hk
    · cases h with
      | message d' _ hdel =>
        cases hd
        exact ⟨_, List.mem_cons_self, hdel⟩
      | none e _ _ => cases hd
      | timer _ => cases hd
      | selectErr e _ => cases hd
    · obtain ⟨i', hi, hdel⟩ := ih k hk d hd
      exact ⟨i', List.mem_cons_of_mem _ hi, hdel⟩

theorem not_carries_nil {sx : Bool} {m : Msg} : ¬ Carries sx [] m := by
  intro h
  have : parse sx (Server.recvBuf []) 0 = .ok m := h
  have h2 : parse sx (Server.recvBuf []) 0 = .err .EBADMSG := by
    unfold parse
    rfl
  rw [h2] at this
  cases this

/-- A message that arrives at the server without DTLS is one that the library has delivered. -/
theorem stands_delivers {x : Server.Dtls.Input} {y : Env × Event} (h : Server.Dtls.Stands x y) {sx : Bool} {a : Addr} {d : Bytes} {m : Msg}
    (hy : y.2 = .datagram a d) (hc : Carries sx d m) : x.calls.Delivers a d := by
  cases h with
  | message a' d' _ hd => cases hy; exact hd
  | none a' e1 e2 e3 _ _ => cases hy; exact absurd hc not_carries_nil
  | timer i _ => cases hy
  | appId _ => cases hy

theorem arrived_datagram {sx : Bool} {a : Addr} {y : Env × Event} {m : Msg} (h : arrived sx a y = some m) :
    ∃ d, y.2 = .datagram a d ∧ Carries sx d m := by
  unfold arrived at h
  split at h
  · rename_i b d hd
    split at h
    · rename_i hif
      split at h
      · rename_i m' hm
        cases h
        exact ⟨d, by rw [hd, hif.1], hm⟩
      · cases h
    · cases h
  · cases h

/-- The network between the client and the server without DTLS that stand for the ones with DTLS. -/
theorem Session.network {sx : Bool} {a : Addr} {rs : List Round} {bs : List Client.BEnv} {obs : List (List Client.Obs)}
    {xs0 xs : List Server.Dtls.Input} {ys0 ys : List (Env × Event)} {tr0 tr : List (List Server.Obs)}
    (h : Session sx a (rs.zip obs) xs0 xs tr0 tr) (h0 : Server.Dtls.Stand xs0 ys0) (h1 : Server.Dtls.Stand xs ys) (hb : InRounds rs bs) :
    Network sx a (bs.zip obs) ys0 ys tr0 tr := by
  constructor
  · intro y hy m hm hask p hp
    obtain ⟨x, hx, hs⟩ := stand_mem h0 y hy
    obtain ⟨d, hd, hc⟩ := arrived_datagram hm
    obtain ⟨r, js, hr, -, e⟩ := inRounds_zip hb obs p hp
    have := h.fresh x hx d m (stands_delivers hs hd hc) hc hask _ hr
    rw [e]
    exact this
  · intro env d hy m hc hask p hp ht
    obtain ⟨x, hx, hs⟩ := stand_mem h1 _ hy
    obtain ⟨r, js, hr, -, e⟩ := inRounds_zip hb obs p hp
    rw [e] at ht
    exact h.requests x hx d m (stands_delivers hs rfl hc) hc hask _ hr ht
  · intro p hp j hj d hd
    obtain ⟨r, js, hr, hjs, e⟩ := inRounds_zip hb obs p hp
    rw [e] at hj
    obtain ⟨i, hi, hdel⟩ := inputs_mem hjs j hj d hd
    exact h.responses _ hr i hi d hdel

theorem stands_handle {x : Server.Dtls.Input} {y : Env × Event} (h : Server.Dtls.Stands x y) : y.1.handle = x.env.handle ∧ y.1.rx = x.env.rx := by
  cases h <;> exact ⟨rfl, rfl⟩

theorem app_of {xs : List Server.Dtls.Input} {ys : List (Env × Event)} (h : Server.Dtls.Stand xs ys) (ha : ∀ x ∈ xs, AppOK x.env) :
    ∀ y ∈ ys, AppOK y.1 := by
  intro y hy
  obtain ⟨x, hx, hs⟩ := stand_mem h y hy
  obtain ⟨e1, e2⟩ := stands_handle hs
  exact ⟨by rw [e1]; exact (ha x hx).handle, by rw [e2]; exact (ha x hx).rx⟩

theorem app_both {xs0 xs : List Server.Dtls.Input} {ys0 ys : List (Env × Event)} (h0 : Server.Dtls.Stand xs0 ys0) (h1 : Server.Dtls.Stand xs ys)
    (ha : ∀ x ∈ xs0 ++ xs, AppOK x.env) : ∀ y ∈ ys0 ++ ys, AppOK y.1 := by
  intro y hy
  rcases List.mem_append.1 hy with hy | hy
  · exact app_of h0 (fun x hx => ha x (List.mem_append_left _ hx)) y hy
  · exact app_of h1 (fun x hx => ha x (List.mem_append_right _ hx)) y hy

/-- C135 for downloads. Whatever others do to the datagrams: the application answers GET requests of the client for the resource with the body `src`
(or an error). A GET over DTLS that succeeds stores exactly `src` in the caller's buffer and returns its length. Missing from the full claim, as in C38: the
server must not be in a transfer with the client when this one begins, and the options in messages must be ones that survive transmission. -/
theorem C135_download_partial (sx px auth : Bool) (a : Addr) (id : Nat) (sepList : List Bytes) (pool : Mem.Pool)
    (xs0 xs : List Server.Dtls.Input) (w0 w1 w2 : Server.Dtls.World) (u : Client.Dtls.World) (s0 s1 : Srv) (tr0 tr : List (List Server.Obs)) (req resp : Msg)
    (size1 size2 bodyLen n : Nat) (src buf : Bytes) (rs1 rs2 : List Round) (res : Client.BRes)
    (hr0 : Server.Dtls.run sx auth xs0 (init id sepList pool) w0 = .ok (s0, w1, tr0)) (htr : ¬ Transfer s0 a)
    (hr1 : Server.Dtls.run sx auth xs s0 w1 = .ok (s1, w2, tr))
    (happ : ∀ x ∈ xs0 ++ xs, AppOK x.env) (hoff : ∀ x ∈ xs, Offers sx a (cpath 256 req.ops) src x.env)
    (hr : Built req) (hb : NoBlocks req) (ho : Ordinary sx req) (hm : req.codeDetail = 1)
    (h : (Client.Dtls.exchangeBlockwise sx px req resp size1 size2 buf bodyLen false rs1 rs2 u).1 = .ok res)
    (hsess : Session sx a (rs2.zip res.obs) xs0 xs tr0 tr)
    (hret : res.ret = some (.ok n)) (hc : Content 1 res.resp ∨ n ≠ 0) :
    n = src.length ∧ res.body = src ++ buf.drop n := by
  obtain ⟨ys0, hs0, hy0⟩ := Server.Dtls.C98_same_server sx auth id sepList pool w0 w1 xs0 s0 tr0 hr0
  obtain ⟨ys, hs1, hy1⟩ := Server.Dtls.run_plain (Server.Reach.tidy ⟨id, sepList, pool, hy0⟩) hr1
  obtain ⟨bs1, bs2, -, hb2, he⟩ := Client.Dtls.C135_same_client sx px req resp size1 size2 buf bodyLen false rs1 rs2 u
  rw [he] at h
  refine C38_download_partial sx px a id sepList pool ys0 ys s0 s1 tr0 tr req resp size1 size2 bodyLen n src buf bs1 bs2 res hy0 htr hy1
    (app_both hs0 hs1 happ) ?_ hr hb ho hm h (hsess.network hs0 hs1 hb2) hret hc
  intro y hy t m ht hd hp
  obtain ⟨x, hx, hs⟩ := stand_mem hs1 y hy
  rw [(stands_handle hs).1]
  exact hoff x hx t m ht hd hp

/-- C135 for uploads. The application takes a body from the client at the path of the request in blocks of `b1` bytes. The client sends `bodyLen` bytes of
the caller's buffer with PUT or POST over DTLS, with any outcome: the application receives from this client nothing but exactly these bytes. When the
client reports success the application has received them, and its callback has reported success. Missing: the same conditions as in C38. -/
theorem C135_upload_partial (sx px auth : Bool) (a : Addr) (id : Nat) (sepList : List Bytes) (pool : Mem.Pool)
    (xs0 xs : List Server.Dtls.Input) (w0 w1 w2 : Server.Dtls.World) (u : Client.Dtls.World) (s0 s1 : Srv) (tr0 tr : List (List Server.Obs)) (req resp : Msg)
    (size1 size2 bodyLen b1 : Nat) (buf : Bytes) (rs : List Round) (res : Client.BRes)
    (hr0 : Server.Dtls.run sx auth xs0 (init id sepList pool) w0 = .ok (s0, w1, tr0)) (htr : ¬ Transfer s0 a)
    (hr1 : Server.Dtls.run sx auth xs s0 w1 = .ok (s1, w2, tr))
    (happ : ∀ x ∈ xs0 ++ xs, AppOK x.env) (hoff : ∀ x ∈ xs, Takes sx a req.codeDetail (cpath 256 req.ops) b1 x.env) (hb1 : 0 < b1)
    (hr : Built req) (hb : NoBlocks req) (ho : Ordinary sx req) (hm : req.codeDetail = 2 ∨ req.codeDetail = 3)
    (hl : bodyLen ≤ buf.length) (h24 : bodyLen ≤ 2 ^ 24)
    (h : (Client.Dtls.upload sx px req resp size1 size2 buf bodyLen rs u).1 = .ok res)
    (hsess : Session sx a (rs.zip res.obs) xs0 xs tr0 tr)
    (honly : ∀ x ∈ xs, ∀ d m, x.calls.Delivers a d → Carries sx d m → Asks m → m.codeDetail = 2 ∨ m.codeDetail = 3 → m.payload ≠ [] →
      ∃ r ∈ rs.zip res.obs, m.token = token r.1.b) :
    (∀ o ∈ tr, ∀ y, (a, y) ∈ bodies o → y.2 = buf.take bodyLen) ∧
    (∀ n, res.ret = some (.ok n) → Confirmed res.resp ∨ n ≠ 0 → ∃ p ∈ xs.zip tr, ∃ y, (a, y) ∈ bodies p.2 ∧ Succeeds p.1.env y) := by
  obtain ⟨ys0, hs0, hy0⟩ := Server.Dtls.C98_same_server sx auth id sepList pool w0 w1 xs0 s0 tr0 hr0
  obtain ⟨ys, hs1, hy1⟩ := Server.Dtls.run_plain (Server.Reach.tidy ⟨id, sepList, pool, hy0⟩) hr1
  obtain ⟨bs, v, hbs, he⟩ := Client.Dtls.upload_plain sx px req resp size1 size2 buf bodyLen rs u
  rw [he] at h
  have hzip : ∀ r ∈ rs.zip res.obs, ∃ p ∈ bs.zip res.obs, token p.1 = token r.1.b := by
    have : ∀ {rs : List Round} {bs : List Client.BEnv}, InRounds rs bs → ∀ (obs : List (List Client.Obs)), ∀ r ∈ rs.zip obs,
        ∃ p ∈ bs.zip obs, token p.1 = token r.1.b := by
      intro rs bs h
      induction h with
      | nil => intro obs r hr; cases hr
      | cons h _ ih =>
        intro obs r hr
        cases obs with
        | nil => cases hr
        | cons o obs =>
          rcases List.mem_cons.1 hr with rfl | hr
          · exact ⟨_, List.mem_cons_self, rfl⟩
          · obtain ⟨p, hp, e⟩ := ih obs r hr
            exact ⟨p, List.mem_cons_of_mem _ hp, e⟩
    exact this hbs res.obs
  obtain ⟨k1, k2⟩ := C38_upload_partial sx px a id sepList pool ys0 ys s0 s1 tr0 tr req resp size1 size2 bodyLen b1 buf bs res hy0 htr hy1
    (app_both hs0 hs1 happ) (fun y hy t m ht hd hp => by
      obtain ⟨x, hx, hs⟩ := stand_mem hs1 y hy
      rw [(stands_handle hs).1]
      exact hoff x hx t m ht hd hp) hb1 hr hb ho hm hl h24 h (hsess.network hs0 hs1 hbs) (fun y hy m ha hask hd hp => by
      obtain ⟨x, hx, hs⟩ := stand_mem hs1 y hy
      obtain ⟨d, hy2, hc⟩ := arrived_datagram ha
      obtain ⟨r, hr, e⟩ := honly x hx d m (stands_delivers hs hy2 hc) hc hask hd hp
      obtain ⟨p, hp, e'⟩ := hzip r hr
      exact ⟨p, hp, e.trans e'.symm⟩)
  refine ⟨k1, fun n hn hcn => ?_⟩
  obtain ⟨p, hp, y, hy, hsucc⟩ := k2 n hn hcn
  obtain ⟨x, hx, hs⟩ := stand_zip hs1 tr p hp
  refine ⟨(x, p.2), hx, y, hy, ?_⟩
  unfold Succeeds at hsucc ⊢
  rw [← (stands_handle hs).2]
  exact hsucc

/-! ## Examples -/

/-- Records with what they contain. A library opens the records of such a list and no others. -/
abbrev Table := List (Bytes × Bytes)

/-- The record in a datagram. -/
def exOpened (table : Table) (b : Bytes) : Option Bytes := (table.find? (fun p => p.1 == b)).map Prod.snd

def exServerRecv (table : Table) : Server.Dtls.Lib Server.Dtls.Rec :=
  .pull 1152 (fun
    | none => .done .again _root_.id
    | some b => .done (match exOpened table b with | some d => .data d | none => .again) _root_.id)

def exClientRecv (table : Table) : Client.Dtls.Lib Client.Dtls.Rec :=
  .pull 1152 (fun
    | none => .done .again _root_.id
    | some b => .done (match exOpened table b with | some d => .data d | none => .again) _root_.id)

/-- A turn of the server. -/
def exServe (env : Env) (table : Table) : Server.Dtls.Input := ⟨env, { Server.Dtls.exCalls with recv := exServerRecv table }, .turn⟩

/-- The datagrams come from the client; the first two are its handshake. -/
def exServerWorld (ds : List Bytes) : Server.Dtls.World := ⟨([1] :: [3] :: ds).map (fun d => ⟨[1], d⟩), [], none, []⟩

/-- The datagram `b` arrives at the client. -/
def exArrives (table : Table) (b : Bytes) : Client.Dtls.Input := ⟨.readable, [b], exClientRecv table, none, none, true⟩

/-- The timer of the client expires. -/
def exTimer (table : Table) : Client.Dtls.Input := ⟨.timer, [], exClientRecv table, none, none, true⟩

def exClientWorld : Client.Dtls.World := ⟨[], [], none, []⟩

theorem exOpened_mem {table : Table} {b d : Bytes} (h : exOpened table b = some d) : ∃ p ∈ table, p.2 = d := by
  unfold exOpened at h
  obtain ⟨p, hp, e⟩ := Option.map_eq_some_iff.1 h
  exact ⟨p, List.mem_of_find?_eq_some hp, e⟩

theorem exServe_delivers {env : Env} {table : Table} {a : Addr} {d : Bytes} (h : (exServe env table).calls.Delivers a d) : ∃ p ∈ table, p.2 = d := by
  obtain ⟨w, hw⟩ := h
  change ((exServerRecv table).call a w).1 = _ at hw
  unfold exServerRecv at hw
  rw [Server.Dtls.Lib.call] at hw
  split at hw
  · cases hw
  · rename_i b _
    rw [Server.Dtls.Lib.call] at hw
    dsimp only at hw
    split at hw
    · rename_i d' he
      cases hw
      exact exOpened_mem he
    · cases hw

theorem exClient_delivers {table : Table} {d : Bytes} (h : Client.Dtls.Delivers (exClientRecv table) d) : ∃ p ∈ table, p.2 = d := by
  obtain ⟨w, hw, -⟩ := h
  unfold exClientRecv at hw
  rw [Client.Dtls.Lib.call] at hw
  split at hw
  · cases hw
  · rename_i b _
    rw [Client.Dtls.Lib.call] at hw
    dsimp only at hw
    split at hw
    · rename_i d' he
      cases hw
      exact exOpened_mem he
    · cases hw

/-- `Session` as a computation: `ts0` and `ts` are what the library of the server opens before the transfer and during it, `fs` what that of the client
opens. -/
def sessionB (sx : Bool) (rounds : List (Round × List Client.Obs)) (ts0 ts fs : Table) (tr : List (List Server.Obs)) : Bool :=
  ts0.all (fun p => match parse sx (Server.recvBuf p.2) (min p.2.length Server.BUF_LEN) with
    | .ok m => rounds.all (fun r => decide (m.token ≠ token r.1.b))
    | _ => true) &&
  (ts.all (fun p => match parse sx (Server.recvBuf p.2) (min p.2.length Server.BUF_LEN) with
    | .ok m => rounds.all (fun r => decide (m.token ≠ token r.1.b) || decide (p.2 ∈ Client.sends r.2))
    | _ => true) &&
  fs.all (fun p => decide (([1], p.2) ∈ Server.sends tr.flatten)))

theorem session_of {sx : Bool} {rs : List (Round × List Client.Obs)} {ts0 ts fs : Table} {tr0 tr : List (List Server.Obs)} {env : Env} {k0 k : Nat}
    (h : sessionB sx rs ts0 ts fs (tr0 ++ tr) = true) (hr : ∀ r ∈ rs, ∀ i ∈ r.1.is, i.recv = exClientRecv fs) :
    Session sx [1] rs (List.replicate k0 (exServe env ts0)) (List.replicate k (exServe env ts)) tr0 tr := by
  unfold sessionB at h
  rw [Bool.and_eq_true, Bool.and_eq_true] at h
  obtain ⟨h0, h1, h2⟩ := h
  refine ⟨?_, ?_, ?_⟩
  · intro x hx d m hd hc _ r hr
    rw [List.eq_of_mem_replicate hx] at hd
    obtain ⟨p, hp, rfl⟩ := exServe_delivers hd
    have := List.all_eq_true.1 h0 p hp
    unfold Carries at hc
    rw [hc] at this
    exact of_decide_eq_true (List.all_eq_true.1 this r hr)
  · intro x hx d m hd hc _ r hr ht
    rw [List.eq_of_mem_replicate hx] at hd
    obtain ⟨p, hp, rfl⟩ := exServe_delivers hd
    have := List.all_eq_true.1 h1 p hp
    unfold Carries at hc
    rw [hc] at this
    have := List.all_eq_true.1 this r hr
    rw [Bool.or_eq_true, decide_eq_true_eq, decide_eq_true_eq] at this
    exact this.resolve_left (fun h => h ht)
  · intro r hrr i hi d hd
    rw [hr r hrr i hi] at hd
    obtain ⟨p, hp, rfl⟩ := exClient_delivers hd
    exact of_decide_eq_true (List.all_eq_true.1 h2 p hp)

theorem env_of {env : Env} {ts0 ts : Table} {k0 k : Nat} :
    ∀ x ∈ List.replicate k0 (exServe env ts0) ++ List.replicate k (exServe env ts), x.env = env := by
  intro x hx
  rcases List.mem_append.1 hx with hx | hx <;> (rw [List.eq_of_mem_replicate hx]; rfl)

/-- Every round of the client uses the same library. -/
def exRounds (fs : Table) (l : List (UInt8 × List (Option Bytes))) : List Round :=
  l.map (fun x => ⟨exRound x.1 [], x.2.map (fun | some b => exArrives fs b | none => exTimer fs)⟩)

theorem exRounds_recv {fs : Table} {l : List (UInt8 × List (Option Bytes))} {obs : List (List Client.Obs)} :
    ∀ r ∈ (exRounds fs l).zip obs, ∀ i ∈ r.1.is, i.recv = exClientRecv fs := by
  intro r hr i hi
  obtain ⟨x, -, e⟩ := List.mem_map.1 (List.of_mem_zip hr).1
  rw [← e] at hi
  obtain ⟨y, -, rfl⟩ := List.mem_map.1 hi
  cases y <;> rfl

/-- No transfer, as a computation. -/
def idleB (s : Srv) (a : Addr) : Bool := match Server.ofAddr s a with | some t => decide (t.blk.type = .regular) | none => true

theorem idle_of {s : Srv} {a : Addr} (h : idleB s a = true) : ¬ Transfer s a := by
  rintro ⟨t, ht, hne⟩
  unfold idleB at h
  rw [ht] at h
  exact hne (of_decide_eq_true h)

/-! ### A download -/

def exDownClient : Table := [([10], exAsk 5 1), ([11], exAsk 5 1), ([12], exAsk 6 16), ([13], exAsk 7 32)]

def exDownServer : Table :=
  [([20], exBlk 95 5 8 (List.range 16)), ([22], exBlk 95 6 24 (List.range' 16 16)), ([23], exBlk 69 7 32 (List.range' 32 8))]

/-- The first round of the client sees a forged datagram and a timeout. -/
def exDownRounds : List Round := exRounds exDownServer [(5, [some [77], none, some [20]]), (6, [some [22]]), (7, [some [23]])]

def exSealed : Out Client.BRes :=
  (Client.Dtls.exchangeBlockwise true false Client.exGet create 32 32 (List.replicate 50 9) 50 false [] exDownRounds exClientWorld).1

/-- A client makes a handshake and gets a body of 40 bytes in blocks, while others send forged datagrams to both: the hypotheses of the theorem are met. -/
example : ∃ res, exSealed = .ok res ∧ res.body = (List.range 40).map UInt8.ofNat ++ List.replicate 10 9 := by
  have key : Client.test exSealed (fun res =>
      Client.test (Server.Dtls.run true true (List.replicate 1 (exServe Server.exBlock [])) Server.exInit (exServerWorld [[10], [66], [11], [12], [13]]))
      (fun r0 => Client.test (Server.Dtls.run true true (List.replicate 5 (exServe Server.exBlock exDownClient)) r0.1 r0.2.1) (fun r =>
      sessionB true (exDownRounds.zip res.obs) [] exDownClient exDownServer (r0.2.2 ++ r.2.2) && (decide (res.ret = some (.ok 40)) && idleB r0.1 [1]))))
        = true := by decide +kernel
  obtain ⟨res, h1, h2⟩ := Client.test_ok key
  obtain ⟨⟨s0, w1, tr0⟩, h3, h4⟩ := Client.test_ok h2
  obtain ⟨⟨s1, w2, tr⟩, h5, h6⟩ := Client.test_ok h4
  simp only [Bool.and_eq_true, decide_eq_true_eq] at h6
  obtain ⟨h7, h8, h9⟩ := h6
  refine ⟨res, h1, (C135_download_partial true false true [1] 100 Server.exSep Server.exPool _ _ _ w1 w2 exClientWorld s0 s1 tr0 tr
    Client.exGet create 32 32 50 40 _ _ [] exDownRounds res h3 (idle_of h9) h5 ?_ ?_ Client.exGet_built Client.exGet_plain ?_ rfl h1
    (session_of h7 exRounds_recv) h8 (Or.inr (by decide))).2⟩
  · intro x hx
    rw [env_of x hx]
    exact Server.exBlock_app
  · intro x hx
    rw [List.eq_of_mem_replicate hx]
    intro t m _ _ _
    exact Or.inr ⟨create, 16, 16, _, 40, some 1, rfl, by decide +kernel, fun _ h => (by cases h), fun _ h => (by cases h)⟩
  · intro o ho
    rw [List.mem_singleton.1 (show o ∈ [(⟨11, [0x61]⟩ : Op)] from ho)]
    decide

/-! ### An upload -/

def exUpClient : Table := [([10], exUp0), ([11], exUp0), ([12], exUp1)]

def exUpServer : Table := [([20], [100, 95, 1, 5, 1, 2, 3, 5, 211, 14, 0, 0, 8]), ([21], [100, 68, 1, 6, 1, 2, 3, 6, 211, 14, 0, 0, 32])]

def exUpRounds : List Round := exRounds exUpServer [(5, [none, some [20]]), (6, [some [77], some [21]])]

def exSealedUp : Out Client.BRes := (Client.Dtls.upload true false Client.exPut create 32 32 Client.exBody 40 exUpRounds exClientWorld).1

/-- `honly` as a computation. -/
theorem only_table {sx : Bool} {rounds : List (Round × List Client.Obs)} {ts : Table} {env : Env} {k : Nat}
    (h : ts.all (fun p => match parse sx (Server.recvBuf p.2) (min p.2.length Server.BUF_LEN) with
      | .ok m => rounds.any (fun r => decide (m.token = token r.1.b))
      | _ => true) = true) :
    ∀ x ∈ List.replicate k (exServe env ts), ∀ d m, x.calls.Delivers [1] d → Carries sx d m → Asks m → m.codeDetail = 2 ∨ m.codeDetail = 3 →
      m.payload ≠ [] → ∃ r ∈ rounds, m.token = token r.1.b := by
  intro x hx d m hd hc _ _ _
  rw [List.eq_of_mem_replicate hx] at hd
  obtain ⟨p, hp, rfl⟩ := exServe_delivers hd
  have := List.all_eq_true.1 h p hp
  unfold Carries at hc
  rw [hc] at this
  obtain ⟨r, hr, e⟩ := List.any_eq_true.1 this
  exact ⟨r, hr, of_decide_eq_true e⟩

/-- The hypotheses of `C135_upload_partial` are met by an upload of 40 bytes. -/
example : ∃ res, exSealedUp = .ok res ∧ res.ret = some (.ok 40) ∧
    ∃ (xs : List Server.Dtls.Input) (tr : List (List Server.Obs)), (∃ p ∈ xs.zip tr, ∃ y, ([1], y) ∈ bodies p.2 ∧ Succeeds p.1.env y) ∧
    ∀ o ∈ tr, ∀ y, ([1], y) ∈ bodies o → y.2 = (List.range 40).map UInt8.ofNat := by
  have key : Client.test exSealedUp (fun res =>
      Client.test (Server.Dtls.run true true (List.replicate 1 (exServe exTake [])) Server.exInit (exServerWorld [[10], [66], [11], [12]]))
      (fun r0 => Client.test (Server.Dtls.run true true (List.replicate 4 (exServe exTake exUpClient)) r0.1 r0.2.1) (fun r =>
      sessionB true (exUpRounds.zip res.obs) [] exUpClient exUpServer (r0.2.2 ++ r.2.2) && (decide (res.ret = some (.ok 40)) && (idleB r0.1 [1] &&
      exUpClient.all (fun p => match parse true (Server.recvBuf p.2) (min p.2.length Server.BUF_LEN) with
        | .ok m => (exUpRounds.zip res.obs).any (fun r => decide (m.token = token r.1.b))
        | _ => true)))))) = true := by decide +kernel
  obtain ⟨res, h1, h2⟩ := Client.test_ok key
  obtain ⟨⟨s0, w1, tr0⟩, h3, h4⟩ := Client.test_ok h2
  obtain ⟨⟨s1, w2, tr⟩, h5, h6⟩ := Client.test_ok h4
  rw [Bool.and_eq_true, Bool.and_eq_true, Bool.and_eq_true, decide_eq_true_eq] at h6
  obtain ⟨h7, h8, h9, h10⟩ := h6
  obtain ⟨k1, k2⟩ := C135_upload_partial true false true [1] 100 Server.exSep Server.exPool _ _ _ w1 w2 exClientWorld s0 s1 tr0 tr
    Client.exPut create 32 32 40 16 _ exUpRounds res h3 (idle_of h9) h5 (fun x hx => by rw [env_of x hx]; exact exTake_app)
    (fun x hx => by rw [List.eq_of_mem_replicate hx]; exact exTake_takes _ _ _) (by decide) Client.exPut_built Client.exPut_plain exPut_ordinary (Or.inr rfl)
    (by decide) (by decide) h1 (session_of h7 exRounds_recv) (only_table h10)
  exact ⟨res, h1, h8, _, tr, k2 40 h8 (Or.inr (by decide)), fun o ho y hy => k1 o ho y hy⟩

/-! ## A part of an earlier upload -/

/-- The full claim for uploads: the client has made one upload before, and the libraries deliver nothing but what the client has sent in the two uploads. -/
def C135_statement : Prop :=
  ∀ (sx px auth : Bool) (a : Addr) (id : Nat) (sepList : List Bytes) (pool : Mem.Pool)
    (xs0 xs : List Server.Dtls.Input) (w0 w1 w2 : Server.Dtls.World) (u : Client.Dtls.World) (s0 s1 : Srv) (tr0 tr : List (List Server.Obs))
    (req resp : Msg) (size1 size2 bodyLen b1 : Nat) (buf0 buf : Bytes) (rs0 rs : List Round) (res0 res : Client.BRes),
    Server.Dtls.run sx auth xs0 (init id sepList pool) w0 = .ok (s0, w1, tr0) → ¬ Transfer s0 a → Server.Dtls.run sx auth xs s0 w1 = .ok (s1, w2, tr) →
    (∀ x ∈ xs0 ++ xs, AppOK x.env) → (∀ x ∈ xs, Takes sx a req.codeDetail (cpath 256 req.ops) b1 x.env) → 0 < b1 →
    Built req → NoBlocks req → Ordinary sx req → req.codeDetail = 2 ∨ req.codeDetail = 3 → bodyLen ≤ buf.length → bodyLen ≤ 2 ^ 24 →
    (Client.Dtls.upload sx px req resp size1 size2 buf0 bodyLen rs0 u).1 = .ok res0 →
    (Client.Dtls.upload sx px req resp size1 size2 buf bodyLen rs (Client.Dtls.upload sx px req resp size1 size2 buf0 bodyLen rs0 u).2).1 = .ok res →
    Session sx a (rs.zip res.obs) xs0 xs tr0 tr →
    (∀ x ∈ xs0 ++ xs, ∀ d, x.calls.Delivers a d → ∃ r ∈ rs0.zip res0.obs ++ rs.zip res.obs, d ∈ Client.sends r.2) →
    ∀ o ∈ tr, ∀ y, (a, y) ∈ bodies o → y.2 = buf.take bodyLen

/-- The client sends the last part of the first body twice; the second record is late. -/
def exOldClient : Table := [([10], exOld0), ([11], exOld1)]
def exNewClient : Table := [([12], exNew0), ([13], exOld1)]

def exOldServer : Table := [([20], [100, 95, 1, 5, 1, 2, 3, 5, 211, 14, 0, 0, 8]), ([21], [100, 68, 1, 6, 1, 2, 3, 6, 211, 14, 0, 0, 16])]
def exNewServer : Table := [([22], [100, 95, 1, 7, 1, 2, 3, 7, 211, 14, 0, 0, 8])]

def exOldRounds : List Round := exRounds exOldServer [(5, [some [20]]), (6, [none, some [21]])]
def exNewRounds : List Round := exRounds exNewServer [(7, [some [22]])]

def sentBy (rounds : List (Round × List Client.Obs)) (ts : Table) : Bool :=
  ts.all (fun p => rounds.any (fun r => decide (p.2 ∈ Client.sends r.2)))

theorem sentBy_of {rounds : List (Round × List Client.Obs)} {ts0 ts : Table} {env : Env} {k0 k : Nat} (h : sentBy rounds (ts0 ++ ts) = true) :
    ∀ x ∈ List.replicate k0 (exServe env ts0) ++ List.replicate k (exServe env ts), ∀ d, x.calls.Delivers [1] d → ∃ r ∈ rounds, d ∈ Client.sends r.2 := by
  intro x hx d hd
  have : ∃ p ∈ ts0 ++ ts, p.2 = d := by
    rcases List.mem_append.1 hx with hx | hx
    · rw [List.eq_of_mem_replicate hx] at hd
      obtain ⟨p, hp, e⟩ := exServe_delivers hd
      exact ⟨p, List.mem_append_left _ hp, e⟩
    · rw [List.eq_of_mem_replicate hx] at hd
      obtain ⟨p, hp, e⟩ := exServe_delivers hd
      exact ⟨p, List.mem_append_right _ hp, e⟩
  obtain ⟨p, hp, rfl⟩ := this
  obtain ⟨r, hr, e⟩ := List.any_eq_true.1 (List.all_eq_true.1 h p hp)
  exact ⟨r, hr, of_decide_eq_true e⟩

/-- C135 does not hold: DTLS does not keep the order of records. A record of an earlier upload to the same path, sent a second time by the client itself
and late, continues a later upload. The application receives the first part of the new body and the last part of the old one. -/
theorem C135_violated : ¬ C135_statement := by
  intro H
  have key : Client.test (Client.Dtls.upload true false Client.exPut create 16 16 (List.replicate 20 1) 20 exOldRounds exClientWorld).1 (fun res0 =>
      Client.test (Client.Dtls.upload true false Client.exPut create 16 16 (List.replicate 20 2) 20 exNewRounds
        (Client.Dtls.upload true false Client.exPut create 16 16 (List.replicate 20 1) 20 exOldRounds exClientWorld).2).1 (fun res =>
      Client.test (Server.Dtls.run true true (List.replicate 3 (exServe exTake exOldClient)) Server.exInit (exServerWorld [[10], [11], [12], [13]]))
      (fun r0 => Client.test (Server.Dtls.run true true (List.replicate 2 (exServe exTake exNewClient)) r0.1 r0.2.1) (fun r =>
      sessionB true (exNewRounds.zip res.obs) exOldClient exNewClient exNewServer (r0.2.2 ++ r.2.2) &&
      (sentBy (exOldRounds.zip res0.obs ++ exNewRounds.zip res.obs) (exOldClient ++ exNewClient) && (idleB r0.1 [1] &&
      decide (∃ o ∈ r.2.2, ([1], 1, List.replicate 16 2 ++ List.replicate 4 1) ∈ bodies o))))))) = true := by decide +kernel
  obtain ⟨res0, h1, key⟩ := Client.test_ok key
  obtain ⟨res, h2, key⟩ := Client.test_ok key
  obtain ⟨⟨s0, w1, tr0⟩, h3, key⟩ := Client.test_ok key
  obtain ⟨⟨s1, w2, tr⟩, h4, key⟩ := Client.test_ok key
  rw [Bool.and_eq_true, Bool.and_eq_true, Bool.and_eq_true, decide_eq_true_eq] at key
  obtain ⟨k1, k2, k3, o, ho, k4⟩ := key
  have := H true false true [1] 100 Server.exSep Server.exPool _ _ _ w1 w2 exClientWorld s0 s1 tr0 tr Client.exPut create 16 16 20 16 _ _
    exOldRounds exNewRounds res0 res h3 (idle_of k3) h4 (fun x hx => by rw [env_of x hx]; exact exTake_app)
    (fun x hx => by rw [List.eq_of_mem_replicate hx]; exact exTake_takes _ _ _) (by decide) Client.exPut_built Client.exPut_plain
    exPut_ordinary (Or.inr rfl) (by decide) (by decide) h1 h2 (session_of k1 exRounds_recv) (sentBy_of k2) o ho _ k4
  exact absurd this (by decide +kernel)

end FreeCoAP.EndToEnd.Dtls
