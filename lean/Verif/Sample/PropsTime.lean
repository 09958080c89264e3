import Verif.Sample.SpecTime
import Verif.Sample.PropsReg

/-! # C94: the time that the sample client reports is the one the sample server had when it was asked -/

namespace FreeCoAP.Sample

open FreeCoAP.Msg
open FreeCoAP.Server (HAct Addr Built Env Event calls AppOK Srv)
open FreeCoAP.EndToEnd (Network Replied Ordinary token)
open FreeCoAP.Client (stamped)

/-- The request of the client. -/
def timeMsg : Msg := { Msg.create with codeDetail := 1, ops := [⟨URI_PATH, str "time"⟩] }

theorem timeReq_ok {mem : Nat → Bool} {req : Msg} (h : timeReq mem = .ok req) : req = timeMsg := by
  unfold timeReq at h
  rw [show setType Msg.create CON = .ok Msg.create from rfl, Out.bind_ok, show setCode Msg.create 0 1 = .ok { Msg.create with codeDetail := 1 } from rfl,
    Out.bind_ok] at h
  split at h
  · cases h
  · cases h
    rfl

theorem timeMsg_built : Built timeMsg :=
  Built.addOp (m := { Msg.create with codeDetail := 1 }) (by constructor <;> simp [Msg.create, destroyed, Sorted]) URI_PATH (str "time")

theorem timeMsg_known : Server.AllKnown timeMsg := by
  intro o ho _
  rw [List.mem_singleton.1 ho]
  decide

theorem timeMsg_ordinary (sx : Bool) : Ordinary sx timeMsg := by
  intro o ho
  rw [List.mem_singleton.1 ho]
  exact ⟨by decide, by decide +kernel, fun _ => by decide +kernel⟩

theorem isLine_cut (s : Bytes) : IsLine s (cutLine (cstr s)) := by
  induction s with
  | nil => exact ⟨by decide, by decide, Or.inl rfl⟩
  | cons x s ih =>
    obtain ⟨h1, h2, h3⟩ := ih
    unfold cstr at *
    by_cases hx : x = 0
    · subst hx
      exact ⟨List.not_mem_nil, List.not_mem_nil, Or.inr (Or.inr ⟨s, rfl⟩)⟩
    · rw [List.takeWhile_cons_of_pos (by simpa using hx)]
      unfold cutLine at *
      by_cases hx' : x = 10
      · subst hx'
        exact ⟨List.not_mem_nil, List.not_mem_nil, Or.inr (Or.inl ⟨s, rfl⟩)⟩
      · rw [List.takeWhile_cons_of_pos (by simpa using hx')]
        refine ⟨?_, ?_, ?_⟩
        · rw [List.mem_cons, not_or]; exact ⟨fun e => hx e.symm, h1⟩
        · rw [List.mem_cons, not_or]; exact ⟨fun e => hx' e.symm, h2⟩
        · rcases h3 with h3 | ⟨r, h3⟩ | ⟨r, h3⟩
          · exact Or.inl (by rw [List.cons_inj_right]; exact h3)
          · exact Or.inr (Or.inl ⟨r, by rw [List.cons_append, List.cons_inj_right]; exact h3⟩)
          · exact Or.inr (Or.inr ⟨r, by rw [List.cons_append, List.cons_inj_right]; exact h3⟩)

/-- What the callback of the server does. -/
def Told (text : Bytes) (x : HAct) : Prop :=
  ∃ resp err, x = .reply resp err ∧ Fine resp ∧ (err = none → resp.codeClass = 2 → resp.payload = cutLine (cstr text))

theorem built_code {c d : Nat} (hc : c < 8) (hd : d < 32) : Built { Msg.create with codeClass := c, codeDetail := d } :=
  have := Built.create
  ⟨this.ver, this.type, hc, hd, this.msgId, this.token, this.sorted⟩

theorem codeOnly_told (text : Bytes) {c d : Nat} (hc : c < 8) (hc2 : c ≠ 2) (hd : d < 32) : ∃ x, codeOnly c d = .ok x ∧ Told text x := by
  refine ⟨_, ?_, { Msg.create with codeClass := c, codeDetail := d }, none, rfl, ⟨built_code hc hd, fun sx => ordinary_nil sx rfl⟩,
    fun _ h => absurd h hc2⟩
  unfold codeOnly setCode
  rw [if_neg (by omega), if_neg (by omega)]
  rfl

theorem tellTime_told (mem : Nat → Bool) {text : Bytes} (ht : text.length ≤ 31) : ∃ x, tellTime mem text = .ok x ∧ Told text x := by
  have h0 := built_code (c := 2) (d := 5) (by omega) (by omega)
  have h1 := Built.addOp h0 URI_PATH (str "time")
  have o1 : ∀ sx p, Ordinary sx { addOp { Msg.create with codeClass := 2, codeDetail := 5 } URI_PATH (str "time") with payload := p } := by
    intro sx p o ho
    have ho : o ∈ [(⟨URI_PATH, str "time"⟩ : Msg.Op)] := ho
    rw [List.mem_singleton.1 ho]
    exact ⟨by decide, by decide +kernel, fun _ => by decide +kernel⟩
  unfold tellTime
  rw [if_neg (by unfold TIME_LEN; omega), show setCode Msg.create 2 5 = .ok { Msg.create with codeClass := 2, codeDetail := 5 } from rfl, Out.bind_ok]
  by_cases m0 : mem 0
  · simp only [m0, Bool.not_true, Bool.false_eq_true, if_false]
    split
    · exact ⟨_, rfl, _, _, rfl, ⟨h1, fun sx => o1 sx []⟩, fun h => nomatch h⟩
    · exact ⟨_, rfl, _, _, rfl, ⟨Built.setPayload h1 _, fun sx => o1 sx _⟩, fun _ _ => rfl⟩
  · simp only [m0, Bool.not_false, if_true]
    exact ⟨_, rfl, _, _, rfl, ⟨h0, fun sx => ordinary_nil sx rfl⟩, fun h => nomatch h⟩

theorem timeHandle_told (mem : Nat → Bool) {text : Bytes} (ht : text.length ≤ 31) (m : Msg) : ∃ x, timeHandle mem text m = .ok x ∧ Told text x := by
  unfold timeHandle
  split
  · exact ⟨_, rfl, _, _, rfl, fine_create, fun h => nomatch h⟩
  · cases hp : pathOf m.ops with
    | ub => exact absurd hp (pathOf_ne_ub _)
    | err e => exact ⟨_, rfl, _, _, rfl, fine_create, fun h => nomatch h⟩
    | ok path =>
      dsimp only
      split
      · exact codeOnly_told text (by omega) (by omega) (by omega)
      · unfold handleTime
        split
        · exact tellTime_told mem ht
        · exact codeOnly_told text (by omega) (by omega) (by omega)

theorem clock_at : ∀ {evs : List (Env × Event)} {clock : List Bytes}, Clock evs clock → ∀ tr : List (List Server.Obs), ∀ p ∈ evs.zip tr,
    ∃ text, (p, text) ∈ (evs.zip tr).zip clock ∧ ∀ (t : Server.Trans) (m : Msg), Told text (p.1.1.handle t m)
  | [], [], _, _, p, hp => by cases hp
  | (env, ev) :: evs, text :: clock, h, tr, p, hp => by
    obtain ⟨h1, ⟨mem, h2⟩, -, h3⟩ := h
    cases tr with
    | nil => cases hp
    | cons o tr =>
      rw [List.zip_cons_cons] at hp ⊢
      rw [List.zip_cons_cons]
      rcases List.mem_cons.1 hp with e | hp
      · subst e
        refine ⟨text, List.mem_cons_self, fun t m => ?_⟩
        obtain ⟨x, e1, e2⟩ := timeHandle_told mem h1 m
        rw [show (((env, ev), o) : (Env × Event) × List Server.Obs).1.1.handle t m = x from h2 t m x e1]
        exact e2
      · obtain ⟨text', e1, e2⟩ := clock_at h3 tr p hp
        exact ⟨text', List.mem_cons_of_mem _ e1, e2⟩

theorem clock_sound : ∀ {evs : List (Env × Event)} {clock : List Bytes}, Clock evs clock → ∀ x ∈ evs, Sound x.1
  | [], [], _, x, hx => by cases hx
  | (env, ev) :: evs, text :: clock, h, x, hx => by
    obtain ⟨h1, ⟨mem, h2⟩, hrx, h3⟩ := h
    rcases List.mem_cons.1 hx with e | hx
    · subst e
      have key : ∀ t m, ∃ resp err, env.handle t m = .reply resp err ∧ Fine resp := by
        intro t m
        obtain ⟨x, e1, resp, err, e2, e3, -⟩ := timeHandle_told mem h1 m
        exact ⟨resp, err, by rw [h2 t m x e1, e2], e3⟩
      refine ⟨⟨fun t m => ?_, fun id body e req resp hb => by rw [hrx]; exact hb⟩, fun t m => ?_, fun t m resp err he => ?_⟩
      · obtain ⟨resp, err, e1, e2⟩ := key t m
        dsimp only
        rw [e1]
        exact e2.1
      · obtain ⟨resp, err, e1, e2⟩ := key t m
        exact ⟨resp, err, e1⟩
      · obtain ⟨resp, err, e1, e2⟩ := key t m
        dsimp only at he
        rw [he] at e1
        cases e1
        exact e2
    · exact clock_sound h3 x hx

theorem getTime_ok {sx px : Bool} {x : Client.XEnv} {mem : Nat → Bool} {len : Nat} {n : Nat × Bytes} {obs : List Client.Obs}
    (h : getTime sx px x mem len = .ok (obs, some (.ok n))) :
    ∃ resp, Client.exchange sx px x timeMsg = .ok (obs, some (.ok resp)) ∧ timeResp len timeMsg resp = .ok n := by
  unfold getTime at h
  cases hq : timeReq mem with
  | ub => rw [hq] at h; cases h
  | err e => rw [hq] at h; cases h
  | ok req =>
    rw [hq, timeReq_ok hq] at h
    dsimp only at h
    cases hx : Client.exchange sx px x timeMsg with
    | ub => rw [hx] at h; cases h
    | err e => rw [hx] at h; cases h
    | ok y =>
      rw [hx, Out.bind_ok] at h
      obtain ⟨o, y⟩ := y
      rcases y with _ | e | resp
      · cases h
      · cases h
      · dsimp only at h
        cases hr : timeResp len timeMsg resp with
        | ub => rw [hr] at h; cases h
        | err e => rw [hr] at h; cases h
        | ok k =>
          rw [hr] at h
          cases h
          exact ⟨resp, rfl, hr⟩

theorem timeResp_ok {len : Nat} {req resp : Msg} {n : Nat × Bytes} (h : timeResp len req resp = .ok n) :
    resp.codeClass = 2 ∧ resp.payload ≠ [] ∧ resp.payload.length < len ∧
      n = (resp.payload.length, resp.payload ++ List.replicate (len - resp.payload.length) 0) := by
  unfold timeResp at h
  split at h
  · cases h
  · split at h
    · cases h
    · rename_i hc
      cases hp : pathOf resp.ops with
      | ub => rw [hp] at h; cases h
      | err e => rw [hp] at h; cases h
      | ok path =>
        rw [hp, Out.bind_ok] at h
        split at h
        · cases h
        · split at h
          · cases h
          · split at h
            · cases h
            · rename_i h1 h2
              refine ⟨Classical.byContradiction fun hn => hc (Or.inl hn), h2, by omega, ?_⟩
              exact (Out.ok.inj h).symm

/-- C94, in full: asking for the time does nothing undefined, apart from the exchange itself (C71), and if it succeeds, then the buffer of the caller has a line of text that the clock of the
server gave when the server was called with this request, and zeros after it. -/
def C94_statement : Prop :=
  (∀ (sx px : Bool) (x : Client.XEnv) (mem : Nat → Bool) (len : Nat), Client.exchange sx px x timeMsg ≠ .ub → getTime sx px x mem len ≠ .ub) ∧
  ∀ (sx px : Bool) (a : Addr) (id : Nat) (sepList : List Bytes) (pool : Mem.Pool) (evs0 evs : List (Env × Event))
    (s0 s1 : Srv) (tr0 tr : List (List Server.Obs)) (clock0 clock : List Bytes) (b : Client.BEnv) (obs : List Client.Obs) (mem : Nat → Bool)
    (len n : Nat) (buf : Bytes),
    Server.run sx (Server.init id sepList pool) evs0 = .ok (s0, tr0) → Server.run sx s0 evs = .ok (s1, tr) →
    Clock evs0 clock0 → Clock evs clock → getTime sx px b.x mem len = .ok (obs, some (.ok (n, buf))) →
    Network sx a [(b, obs)] evs0 evs tr0 tr →
    ∃ q ∈ (evs.zip tr).zip clock, (∃ m, (a, m) ∈ calls q.1.2 ∧ m.token = token b ∧ m.codeDetail = 1) ∧
      ∃ line, IsLine q.2 line ∧ line.length = n ∧ n < len ∧ buf = line ++ List.replicate (len - n) 0

/-- C94, the second part: the text of a successful call is the one that the server had when it was called with the request. The server has any history,
and the network may lose, repeat, delay and reorder datagrams. Missing from the full claim: see `C94_violated`. -/
theorem C94_time_partial (sx px : Bool) (a : Addr) (id : Nat) (sepList : List Bytes) (pool : Mem.Pool) (evs0 evs : List (Env × Event))
    (s0 s1 : Srv) (tr0 tr : List (List Server.Obs)) (clock0 clock : List Bytes) (b : Client.BEnv) (obs : List Client.Obs) (mem : Nat → Bool)
    (len n : Nat) (buf : Bytes) (hr0 : Server.run sx (Server.init id sepList pool) evs0 = .ok (s0, tr0)) (hr1 : Server.run sx s0 evs = .ok (s1, tr))
    (hc0 : Clock evs0 clock0) (hc : Clock evs clock) (h : getTime sx px b.x mem len = .ok (obs, some (.ok (n, buf))))
    (hnet : Network sx a [(b, obs)] evs0 evs tr0 tr) :
    ∃ q ∈ (evs.zip tr).zip clock, (∃ m, (a, m) ∈ calls q.1.2 ∧ m.token = token b ∧ m.codeDetail = 1) ∧
      ∃ line, IsLine q.2 line ∧ line.length = n ∧ n < len ∧ buf = line ++ List.replicate (len - n) 0 := by
  obtain ⟨resp, h1, h2⟩ := getTime_ok h
  obtain ⟨t1, -, t3, t4⟩ := timeResp_ok h2
  have hR : Server.Reach sx evs0 s0 tr0 := ⟨id, sepList, pool, hr0⟩
  obtain ⟨h4, -⟩ := EndToEnd.C87_answer_partial sx px a id sepList pool evs0 evs s0 s1 tr0 tr _ resp b obs hr0
    (Server.C21_no_transfer sx evs0 s0 tr0 hR (fun x hx => (clock_sound hc0 x hx).direct) a) hr1
    (fun x hx => by
      rcases List.mem_append.1 hx with hx | hx
      · exact (clock_sound hc0 x hx).app
      · exact (clock_sound hc x hx).app)
    (fun x hx t m _ => (clock_sound hc x hx).direct t m) timeMsg_built (timeMsg_ordinary sx) h1 hnet
  rcases h4 with ⟨-, -, resp', ⟨p, hp, q1, t, -, q2⟩, q3, -, q4⟩ | ⟨q, -⟩
  · obtain ⟨text, e1, e2⟩ := clock_at hc tr p hp
    obtain ⟨resp2, err, e3, e4, e5⟩ := e2 t (stamped b.x timeMsg)
    rw [q2] at e3
    cases e3
    have hs := q4 (e4.2 sx)
    have hpay : resp.payload = cutLine (cstr text) := by rw [hs.2.2.2]; exact e5 rfl (by rw [← q3]; exact t1)
    obtain ⟨k1, k2⟩ := Prod.mk.inj t4
    refine ⟨(p, text), e1, ⟨_, q1, rfl, rfl⟩, _, isLine_cut text, ?_, ?_, ?_⟩
    · rw [k1, hpay]
    · rw [k1]; exact t3
    · rw [k2, k1, hpay]
  · exact absurd timeMsg_known q

/-- C94, the first part: nothing undefined happens, unless the exchange does something undefined or gives a response without a payload. -/
theorem C94_defined_partial (sx px : Bool) (x : Client.XEnv) (mem : Nat → Bool) (len : Nat) (h1 : Client.exchange sx px x timeMsg ≠ .ub)
    (h2 : ∀ obs resp, Client.exchange sx px x timeMsg = .ok (obs, some (.ok resp)) → resp.payload ≠ []) : getTime sx px x mem len ≠ .ub := by
  unfold getTime
  cases hq : timeReq mem with
  | ub =>
    unfold timeReq at hq
    rw [show setType Msg.create CON = .ok Msg.create from rfl, Out.bind_ok, show setCode Msg.create 0 1 = .ok { Msg.create with codeDetail := 1 } from rfl,
      Out.bind_ok] at hq
    split at hq <;> cases hq
  | err e => exact fun h => nomatch h
  | ok req =>
    rw [timeReq_ok hq]
    dsimp only
    cases hx : Client.exchange sx px x timeMsg with
    | ub => exact absurd hx h1
    | err e => exact fun h => nomatch h
    | ok y =>
      rw [Out.bind_ok]
      obtain ⟨o, y⟩ := y
      rcases y with _ | e | resp
      · exact fun h => nomatch h
      · exact fun h => nomatch h
      · dsimp only
        have hr : timeResp len timeMsg resp ≠ .ub := by
          unfold timeResp
          split
          · exact fun h => nomatch h
          · split
            · exact fun h => nomatch h
            · cases hp : pathOf resp.ops with
              | ub => exact absurd hp (pathOf_ne_ub _)
              | err e => exact fun h => nomatch h
              | ok path =>
                rw [Out.bind_ok]
                split
                · exact fun h => nomatch h
                · split
                  · exact fun h => nomatch h
                  · rw [if_neg (h2 o resp hx)]
                    exact fun h => nomatch h
        cases hr' : timeResp len timeMsg resp with
        | ub => exact absurd hr' hr
        | err e => exact fun h => nomatch h
        | ok k => exact fun h => nomatch h

/-! ## A response without a payload -/

def timeB (d : Bytes) : Client.BEnv := EndToEnd.exRound 5 [Client.tick, Client.rcv d]

/-- A response 2.05 with the path and nothing else. -/
def exTimeE : Bytes := [0x64, 0x45, 1, 5, 1, 2, 3, 5, 0xB4] ++ str "time"

theorem test_ne {α : Type} {x : Out α} (h : Client.test x (fun _ => true) = true) : x ≠ .ub := by
  obtain ⟨y, e, -⟩ := Client.test_ok h
  rw [e]
  exact fun h => nomatch h

/-- A response without a payload makes the client copy from a null pointer. The sample server sends such a response if `ctime_r` fails. -/
theorem C94_violated : ¬ C94_statement := fun h => h.1 true false (timeB exTimeE).x (fun _ => true) 32 (test_ne (by decide +kernel)) (isUb (by decide +kernel))

/-! ## An example -/

/-- The CoAP server with the callback of `time_server`. -/
def timeEnv (text : Bytes) : Env :=
  { Server.exEnv with
    handle := fun _ m =>
      match timeHandle (fun _ => true) text m with
      | .ok x => x
      | _ => .reply Msg.create (some .EIO)
    rx := fun _ body e _ resp => ⟨none, resp, body, e⟩ }

theorem clock_time {text : Bytes} {ev : Event} {evs : List (Env × Event)} {clock : List Bytes} (ht : text.length ≤ 31) (h : Clock evs clock) :
    Clock ((timeEnv text, ev) :: evs) (text :: clock) :=
  ⟨ht, ⟨fun _ => true, fun t m x hx => by
    show (match timeHandle (fun _ => true) text m with
      | .ok x => x
      | _ => .reply Msg.create (some .EIO)) = x
    rw [hx]⟩, rfl, h⟩

def noon : Bytes := str "Mon Nov 16 12:00:00 2026\n"
def later : Bytes := str "Mon Nov 16 12:00:02 2026\n"

def exTimeQ : Bytes := [0x44, 1, 1, 5, 1, 2, 3, 5, 0xB4] ++ str "time"
def exTimeR : Bytes := [0x64, 0x45, 1, 5, 1, 2, 3, 5, 0xB4] ++ str "time" ++ [0xFF] ++ str "Mon Nov 16 12:00:00 2026"

/-- The first response is lost, and the client asks again two seconds later. -/
def exTimeEvs : List (Env × Event) := [(timeEnv noon, .datagram [1] exTimeQ), (timeEnv later, .datagram [1] exTimeQ)]

/-- The call was successful. -/
def gotTime (x : Option (Except Err (Nat × Bytes))) : Bool := match x with | some (.ok _) => true | _ => false

theorem gotTime_some : ∀ {x : Option (Except Err (Nat × Bytes))}, gotTime x = true → ∃ n buf, x = some (.ok (n, buf))
  | some (.ok (n, buf)), _ => ⟨n, buf, rfl⟩

/-- The hypotheses are met. -/
example : ∃ obs n buf s1 tr, getTime true false (timeB exTimeR).x (fun _ => true) 32 = .ok (obs, some (.ok (n, buf))) ∧
    ∃ q ∈ (exTimeEvs.zip tr).zip [noon, later], (∃ m, ([1], m) ∈ calls q.1.2 ∧ m.token = token (timeB exTimeR) ∧ m.codeDetail = 1) ∧
      Server.run true Server.exInit exTimeEvs = .ok (s1, tr) ∧
      ∃ line, IsLine q.2 line ∧ line.length = n ∧ n < 32 ∧ buf = line ++ List.replicate (32 - n) 0 := by
  have key : Client.test (getTime true false (timeB exTimeR).x (fun _ => true) 32) (fun x => Client.test (Server.run true Server.exInit exTimeEvs)
      (fun r => gotTime x.2 && EndToEnd.networkB true [1] [(timeB exTimeR, x.1)] [] exTimeEvs [] r.2)) = true := by decide +kernel
  obtain ⟨⟨obs, res⟩, h1, h2⟩ := Client.test_ok key
  obtain ⟨⟨s1, tr⟩, h3, h4⟩ := Client.test_ok h2
  simp only [Bool.and_eq_true] at h4
  obtain ⟨k1, k2⟩ := h4
  obtain ⟨n, buf, e⟩ := gotTime_some k1
  subst e
  obtain ⟨q, g1, g2, g3⟩ := C94_time_partial true false [1] 100 Server.exSep Server.exPool [] exTimeEvs Server.exInit s1 [] tr [] [noon, later]
    (timeB exTimeR) obs _ 32 n buf rfl h3 trivial (clock_time (by decide +kernel) (clock_time (by decide +kernel) trivial)) h1 (EndToEnd.network_of k2)
  exact ⟨obs, n, buf, s1, tr, h1, q, g1, g2, h3, g3⟩

/-- A request of version 1 for the resource `time` with another method than GET is answered with 5.01. -/
theorem C94_method (mem : Nat → Bool) (text : Bytes) {req : Msg} (hv : req.ver = 1) (hp : req.ops = [⟨11, str "time"⟩])
    (hg : req.codeDetail ≠ 1) :
    timeHandle mem text req = .ok (.reply { Msg.create with codeClass := 5, codeDetail := 1 } none) := by
  unfold timeHandle
  rw [if_neg (fun h => h hv), hp, show pathOf [⟨11, str "time"⟩] = .ok (str "/time") by decide +kernel]
  dsimp only
  rw [if_neg (fun h => h rfl)]
  unfold handleTime
  rw [if_neg hg]
  rfl

/-- One for another path is answered with 4.04. -/
theorem C94_resource (mem : Nat → Bool) (text : Bytes) {req : Msg} {path : Bytes} (hv : req.ver = 1)
    (hp : pathOf req.ops = .ok path) (hne : path ≠ str "/time") :
    timeHandle mem text req = .ok (.reply { Msg.create with codeClass := 4, codeDetail := 4 } none) := by
  unfold timeHandle
  rw [if_neg (fun h => h hv), hp]
  dsimp only
  rw [if_pos hne]
  rfl

example : ∃ (req : Msg) (path : Bytes), req.ver = 1 ∧ pathOf req.ops = .ok path ∧ path ≠ str "/time" :=
  ⟨{ Msg.create with codeDetail := 1, ops := [⟨11, str "clock"⟩] }, str "/clock", by decide, by decide +kernel, by decide⟩

example : ∃ req : Msg, req.ver = 1 ∧ req.ops = [⟨11, str "time"⟩] ∧ req.codeDetail ≠ 1 :=
  ⟨{ Msg.create with codeDetail := 3, ops := [⟨11, str "time"⟩] }, by decide, rfl, by decide⟩

end FreeCoAP.Sample
