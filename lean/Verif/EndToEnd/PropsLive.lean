import Verif.EndToEnd.LemmasLive

/-!
# An exchange over a network that delivers

C109. C87 says what holds if an exchange succeeds. This file says when it does: the server has any history, with any number of other clients; the client has
waited for any time and has received other datagrams; then a copy of the request reaches the server, and what the server sends reaches the client.
-/

namespace FreeCoAP.EndToEnd

open FreeCoAP.Msg
open FreeCoAP.Server (Env Event Addr arrived Asks Carries Built Srv Reach AppOK Transfer AllKnown NoFault Formats Separate sends emptyAck run step Kept
  lastRequest nextMsgId)
open FreeCoAP.Client (stamped exchange Gives AckedBy)

/-- The situation: the client waits for the response to a request that it has sent, not acknowledged so far; the datagram with the request is `d`; the
application of the server answers it with `resp`; nothing fails. -/
structure Waiting (sx px : Bool) (a : Addr) (evs : List (Env × Event)) (s : Srv) (tr : List (List Server.Obs)) (env : Env) (x : Client.XEnv)
    (is : List Client.Input) (req resp : Msg) (d : Bytes) : Prop where
  reach : Reach sx evs s tr
  app : AppOK env
  fine : NoFault env
  plain : ¬ Transfer s a
  built : Built req
  ordinary : Ordinary sx req
  known : AllKnown req
  answer : Answerable sx px resp
  handle : ∀ t : Server.Trans, t.addr = a → env.handle t (stamped x req) = .reply resp none
  datagram : Formats (stamped x req) d
  short : d.length < 1152
  waits : ∃ obs, exchange sx px { x with inputs := is } req = .ok (obs, none)
  unacked : ∀ i ∈ is, ¬ AckedBy sx (stamped x req).msgId i

/-- What a user expects of a network that delivers: the request reaches the application and the client gets its answer. -/
def C109_statement (sx : Bool) : Prop :=
  ∀ (px : Bool) (a : Addr) (evs : List (Env × Event)) (s s1 : Srv) (tr : List (List Server.Obs)) (env : Env) (x : Client.XEnv)
    (is js : List Client.Input) (req resp : Msg) (d : Bytes) (o : List Server.Obs) (e : Option Err),
    Waiting sx px a evs s tr env x is req resp d → step sx s env (.datagram a d) = .ok (s1, o, e) →
    Server.calls o = [(a, stamped x req)] ∧
    ∃ obs r, exchange sx px { x with inputs := is ++ ((toward a o).map gets ++ js) } req = .ok (obs, some (.ok r)) ∧ Says r resp

/-- The message in the datagram. -/
theorem Waiting.carries {sx px : Bool} {a : Addr} {evs : List (Env × Event)} {s : Srv} {tr : List (List Server.Obs)} {env : Env} {x : Client.XEnv}
    {is : List Client.Input} {req resp : Msg} {d : Bytes} (h : Waiting sx px a evs s tr env x is req resp d) :
    Carries sx d (stamped x req) ∧ Asks (stamped x req) := by
  obtain ⟨obs, hw⟩ := h.waits
  rcases Client.exchange_cases h.built.type hw with ⟨-, e, he⟩ | ⟨ht, hcl, -⟩
  · cases he
  · exact ⟨carries_of (stamped_built h.built) (Or.inl hcl) (fun o ho => h.ordinary o ho) h.datagram h.short, ht, hcl⟩

/-- A response with a token of four bytes is no Empty message. -/
theorem final_not_empty {sepList : List Bytes} {env : Env} {id : Nat} {x : Client.XEnv} {req resp : Msg} :
    ¬ Server.Empty (enc (Server.final sepList env id (stamped x req) resp)) := by
  have hlen : 4 < (enc (Server.final sepList env id (stamped x req) resp)).length := by
    simp only [enc, List.length_append, encHdr_length]
    have : (Server.final sepList env id (stamped x req) resp).token.length = 4 := rfl
    omega
  rintro (⟨i, -, hi⟩ | ⟨i, -, hi⟩ | hi) <;> rw [hi] at hlen <;> exact absurd hlen (by simp [emptyAck, Server.reset, Server.emptyCon])

/-- C109, the part that holds for requests whose id, which is random, is neither 0 nor the id of the previous request, and, if the response does not come with
the acknowledgement, not the id that the server chooses for it either. -/
theorem C109_answered_partial (sx px : Bool) (a : Addr) (evs : List (Env × Event)) (s s1 : Srv) (tr : List (List Server.Obs)) (env : Env) (x : Client.XEnv)
    (is js : List Client.Input) (req resp : Msg) (d : Bytes) (o : List Server.Obs) (e : Option Err)
    (hw : Waiting sx px a evs s tr env x is req resp d) (h : step sx s env (.datagram a d) = .ok (s1, o, e))
    (h0 : (stamped x req).msgId ≠ 0) (hp : ∀ m', lastRequest sx a evs = some m' → m'.msgId ≠ (stamped x req).msgId)
    (hid : ¬ (req.type = CON ∧ ¬ Separate s.sepList req) → nextMsgId s.msgId env.idRand ≠ (stamped x req).msgId) :
    e = none ∧ Server.calls o = [(a, stamped x req)] ∧
    ∃ obs r, exchange sx px { x with inputs := is ++ ((toward a o).map gets ++ js) } req = .ok (obs, some (.ok r)) ∧ Says r resp := by
  obtain ⟨hc, hq⟩ := hw.carries
  obtain ⟨obs, hwait⟩ := hw.waits
  obtain ⟨g1, g2, g3, g4⟩ := answered hw.reach hw.app hw.fine hw.plain hc hq rfl hw.known hw.answer hw.handle h0 hp h
  obtain ⟨obs', key⟩ := delivered (js := js) hw.built hwait hw.unacked g3 g4 hw.answer.response hw.answer.options hid
  exact ⟨g1, g2, _, _, key, rfl, rfl, rfl, rfl⟩

/-- C109 if the response is lost at first and the request is transmitted again: after any history during which the server remembers the client and receives no
other request from it, the repetition is answered without calling the application again, and the client gets the answer. Separate responses, which the server
repeats on its own, are the subject of `C109_separate_partial`. Responses to non-confirmable requests are repeated by nobody. -/
theorem C109_repeated_partial (sx px : Bool) (a : Addr) (evs evs2 : List (Env × Event)) (s s1 s2 s3 : Srv) (tr tr2 : List (List Server.Obs))
    (env env3 : Env) (x : Client.XEnv) (is is2 js : List Client.Input) (req resp : Msg) (d : Bytes) (o o3 : List Server.Obs) (e e3 : Option Err)
    (hw : Waiting sx px a evs s tr env x is req resp d) (h : step sx s env (.datagram a d) = .ok (s1, o, e))
    (h0 : (stamped x req).msgId ≠ 0) (hp : ∀ m', lastRequest sx a evs = some m' → m'.msgId ≠ (stamped x req).msgId)
    (hcon : req.type = CON) (hsep : ¬ Separate s.sepList req)
    (h2 : run sx s1 evs2 = .ok (s2, tr2)) (hk : Kept sx a s1 evs2)
    (honly : ∀ y ∈ evs2, ∀ m, arrived sx a y = some m → Asks m → m.msgId = (stamped x req).msgId)
    (hf : NoFault env3) (h3 : step sx s2 env3 (.datagram a d) = .ok (s3, o3, e3))
    (hwait : ∃ obs, exchange sx px { x with inputs := is2 } req = .ok (obs, none)) (hun : ∀ i ∈ is2, ¬ AckedBy sx (stamped x req).msgId i) :
    Server.calls o3 = [] ∧
    ∃ obs r, exchange sx px { x with inputs := is2 ++ ((toward a o3).map gets ++ js) } req = .ok (obs, some (.ok r)) ∧ Says r resp := by
  obtain ⟨hc, hq⟩ := hw.carries
  obtain ⟨obs, hwait⟩ := hwait
  obtain ⟨rfl, g2, g3, g4⟩ := answered hw.reach hw.app hw.fine hw.plain hc hq rfl hw.known hw.answer hw.handle h0 hp h
  have hcs : ¬ ((stamped x req).type = CON ∧ Separate s.sepList (stamped x req)) := fun hn => hsep hn.2
  have hsb : Server.sepB s.sepList (stamped x req) = false := decide_eq_false hcs
  rw [if_neg hcs, List.nil_append] at g3
  have hne : ¬ Server.Empty (enc (Server.final s.sepList env s.msgId (stamped x req) resp)) := final_not_empty
  obtain ⟨c1, -, -, c4⟩ := Server.C20_no_double_execution_partial sx evs evs2 s s1 s2 s3 tr tr2 env env3 a d d (stamped x req) (stamped x req) o o3 e3 _
    hw.reach hw.app h hc (by rw [g3]; exact List.mem_singleton.2 rfl) hne h2 hk honly h3 hc hq.1 rfl
  have hsl : s2.sepList = s.sepList := (Server.run_sepList h2).trans (Server.step_rel h).sepList
  refine ⟨c1, ?_⟩
  have e1 : toward a o3 = [enc (Server.final s.sepList env s.msgId (stamped x req) resp)] := by
    unfold toward
    rw [c4 hf, Server.again, if_neg (by rw [show (stamped x req).type = CON from hcon]; decide), hsl, if_neg (fun hn => hcs ⟨hcon, hn⟩)]
    simp
  have hty : (Server.final s.sepList env s.msgId (stamped x req) resp).type = ACK := by
    show (if req.type = CON then (if Server.sepB s.sepList (stamped x req) = false then ACK else CON) else NON) = ACK
    rw [if_pos hcon, hsb]
    rfl
  have hmid : (Server.final s.sepList env s.msgId (stamped x req) resp).msgId = (stamped x req).msgId := by
    show (if req.type = CON ∧ Server.sepB s.sepList (stamped x req) = false then _ else _) = _
    rw [if_pos ⟨hcon, hsb⟩]
  have key := Client.C68_accepted_partial (js := js) hw.built hwait (gives_of g4) (fun o ho => hw.answer.options o ho)
    ⟨hw.answer.response, rfl, Or.inr ⟨hcon, hty, hmid, by rintro ⟨j, hj, hj2⟩; exact hun j hj hj2⟩⟩ (fun hn => absurd hty hn)
  rw [e1]
  exact ⟨_, _, key, rfl, rfl, rfl, rfl⟩

/-- C109 if a response that does not come with the acknowledgement is lost at first: after any history during which the server remembers the client and gets
no other request from it, the expiry of the timer makes the server send the response again, if it was not sent five times before, and the client gets it. It does
not matter whether the acknowledgement of the request was lost too. -/
theorem C109_separate_partial (sx px : Bool) (a : Addr) (evs evs2 : List (Env × Event)) (s s1 s2 s3 : Srv) (tr tr2 : List (List Server.Obs))
    (env env3 : Env) (x : Client.XEnv) (is is2 js : List Client.Input) (req resp : Msg) (d : Bytes) (o o3 : List Server.Obs) (e e3 : Option Err)
    (i : Nat) (t : Server.Trans)
    (hw : Waiting sx px a evs s tr env x is req resp d) (h : step sx s env (.datagram a d) = .ok (s1, o, e))
    (h0 : (stamped x req).msgId ≠ 0) (hp : ∀ m', lastRequest sx a evs = some m' → m'.msgId ≠ (stamped x req).msgId)
    (hcon : req.type = CON) (hsep : Separate s.sepList req) (hid : nextMsgId s.msgId env.idRand ≠ (stamped x req).msgId)
    (h2 : run sx s1 evs2 = .ok (s2, tr2)) (hk : Kept sx a s1 evs2)
    (honly : ∀ y ∈ evs2, Server.OnlyAgain sx a (stamped x req) y) (htm : ∀ y ∈ evs2, y.1.timerErr = none)
    (hless : (Server.armsOf a (Server.obsOf tr2)).length < 4)
    (hi : s2.trans[i]? = some t) (hat : Server.ofAddr s2 a = some t) (harm : t.armed = true)
    (hf : NoFault env3) (h3 : step sx s2 env3 (.timer i) = .ok (s3, o3, e3))
    (hwait : ∃ obs, exchange sx px { x with inputs := is2 } req = .ok (obs, none)) :
    e3 = none ∧ Server.calls o3 = [] ∧
    ∃ obs r, exchange sx px { x with inputs := is2 ++ ((toward a o3).map gets ++ js) } req = .ok (obs, some (.ok r)) ∧ Says r resp := by
  obtain ⟨hc, hq⟩ := hw.carries
  obtain ⟨obs, hwait⟩ := hwait
  obtain ⟨rfl, g2, g3, g4⟩ := answered hw.reach hw.app hw.fine hw.plain hc hq rfl hw.known hw.answer hw.handle h0 hp h
  have hcs : (stamped x req).type = CON ∧ Separate s.sepList (stamped x req) := ⟨hcon, hsep⟩
  have hsb : Server.sepB s.sepList (stamped x req) = true := decide_eq_true hcs
  have hr : (a, enc (Server.final s.sepList env s.msgId (stamped x req) resp)) ∈ sends o := by rw [g3]; simp
  have hne : ¬ Server.Empty (enc (Server.final s.sepList env s.msgId (stamped x req) resp)) := final_not_empty
  obtain ⟨t1, p1, p2, p3, p4⟩ := Server.pending_first hw.reach.tidy (Server.step_rel h) hc hw.app hr hne hcs.1 hcs.2
  have hT1 := (Server.step_rel h).tidy hw.reach.tidy
  obtain ⟨n, q1, q2, -, -, -, t', q6, q7⟩ := Server.pending_run p1 p2 (by omega) hT1 h2 hk htm hne honly hcs.1
    hc.fields.1.msgId (by rw [(Server.step_rel h).sepList]; exact hcs.2)
  rw [hat] at q6
  cases q6
  have hT2 : Server.Tidy s2 := ((hw.reach.step h).run h2).tidy
  have hn : n < 4 := by
    rw [q2, Server.waits_eq] at hless
    simpa using hless
  rcases q7 with q7 | q7
  · obtain ⟨c1, c2, c3⟩ := Server.resend_step hat hi q7 (by omega) hT2 hf.timer hf.send (Server.step_rel h3)
    refine ⟨c1, c3, ?_⟩
    have e1 : toward a o3 = [enc (Server.final s.sepList env s.msgId (stamped x req) resp)] := by
      unfold toward
      rw [c2]
      simp
    have hty : (Server.final s.sepList env s.msgId (stamped x req) resp).type = CON := by
      show (if req.type = CON then (if Server.sepB s.sepList (stamped x req) = false then ACK else CON) else NON) = CON
      rw [if_pos hcon, hsb]
      rfl
    have hmid : (Server.final s.sepList env s.msgId (stamped x req) resp).msgId = nextMsgId s.msgId env.idRand := by
      show (if req.type = CON ∧ Server.sepB s.sepList (stamped x req) = false then _ else _) = _
      rw [hsb, if_neg (by simp)]
    have key := Client.C68_accepted_partial (js := js) hw.built hwait (gives_of g4) (fun o ho => hw.answer.options o ho)
      ⟨hw.answer.response, rfl, Or.inl (Or.inl hty)⟩ (fun _ => by rw [hmid]; exact hid)
    rw [e1]
    exact ⟨_, _, key, rfl, rfl, rfl, rfl⟩
  · rw [q7.armed] at harm; cases harm

/-! ## Examples -/

/-- The answer of the application of the examples. -/
def exAnswer : Msg := { create with codeClass := 2, codeDetail := 5, payload := [104, 105] }

theorem exAnswer_ok (sx px : Bool) : Answerable sx px exAnswer := by
  refine ⟨Or.inl rfl, fun o ho => (by cases ho), fun o ho => (by cases ho), ?_⟩
  rintro m ⟨h1, h2, h3, h4⟩ hb hrst hl
  have hp : m.payload = [104, 105] := h4
  have hs : Shape m := by
    refine ⟨fun h => ?_, fun h => absurd h hrst⟩
    have : m.codeClass = 2 := h1
    omega
  have hsend := Server.sendable_plain hs h3 (by omega) (by rw [hp]; decide)
  refine ⟨enc m, Client.formats_iff.2 ⟨hsend, rfl⟩, ?_⟩
  have h0 : (encOps 0 m.ops).length = 0 := by rw [h3]; rfl
  have hpl : (encPayload m).length ≤ 3 := by
    unfold encPayload
    rw [hp]
    split <;> simp
  simp only [enc, List.length_append, encHdr_length, h0]
  omega

theorem exWaiting (sx px : Bool) {evs : List (Env × Event)} {s : Srv} {tr : List (List Server.Obs)} (hr : Reach sx evs s tr) (ht : ¬ Transfer s [1])
    {is : List Client.Input} {obs : List Client.Obs} (hw : exchange sx px { Client.exEnv [] with inputs := is } Client.exGet = .ok (obs, none))
    (hun : ∀ i ∈ is, ∀ d, i.ev ≠ .datagram d) :
    Waiting sx px [1] evs s tr Server.exEnv (Client.exEnv []) is Client.exGet exAnswer Client.exReqBytes :=
  ⟨hr, Server.exEnv_app, Server.exEnv_noFault, ht, Client.exGet_built, exGet_ordinary sx, exGet_known, exAnswer_ok sx px, fun _ _ => rfl,
    Client.formats_iff.2 ⟨by
      rcases Client.exchange_cases Client.exGet_built.type hw with ⟨-, e, he⟩ | ⟨-, -, o3, hs⟩
      · cases he
      · exact hs.send, by decide +kernel⟩, by decide, ⟨obs, hw⟩,
    by rintro i hi ⟨d, m, h1, -⟩; exact hun i hi d h1⟩

/-- A request with the same id as the one of the client, and another token. -/
def exTwin : Bytes := [0x44, 1, 1, 2, 9, 9, 9, 9, 0xb1, 0x61]

/-- C109 is violated: the id of a request is random, and a request with the id of the previous one is taken for its repetition. The application is not called,
and the client fails with `EBADMSG` when it gets the response to the previous request. -/
theorem C109_violated (sx : Bool) : ¬ C109_statement sx ∧
    ∃ s1 s2 tr o, run sx Server.exInit [(Server.exEnv, .datagram [1] exTwin)] = .ok (s1, tr) ∧
      step sx s1 Server.exEnv (.datagram [1] Client.exReqBytes) = .ok (s2, o, none) ∧ Server.calls o = [] ∧
      ∃ obs, exchange sx false { Client.exEnv [] with inputs := (toward [1] o).map gets } Client.exGet = .ok (obs, some (.error .EBADMSG)) := by
  have key : Server.test (run sx Server.exInit [(Server.exEnv, .datagram [1] exTwin)]) (fun x1 =>
      decide (x1.1.trans.all (fun t => decide (t.blk.type = .regular)) = true) &&
      Server.test (step sx x1.1 Server.exEnv (.datagram [1] Client.exReqBytes)) (fun x2 =>
        decide (x2.2.2 = none) && decide (Server.calls x2.2.1 = []) &&
        decide (toward [1] x2.2.1 = [[0x64, 0x45, 1, 2, 9, 9, 9, 9, 0xff, 0x68, 0x69]]))) = true := by
    cases sx <;> decide +kernel
  obtain ⟨⟨s1, tr⟩, h1, key⟩ := Server.test_ok key
  rw [Bool.and_eq_true] at key
  obtain ⟨hreg, key⟩ := key
  obtain ⟨⟨s2, o, e⟩, h2, key⟩ := Server.test_ok key
  simp only [Bool.and_eq_true, decide_eq_true_eq] at key hreg
  obtain ⟨⟨rfl, hc⟩, hto⟩ := key
  have hbad : exchange sx false { Client.exEnv [] with inputs := [gets [0x64, 0x45, 1, 2, 9, 9, 9, 9, 0xff, 0x68, 0x69]] } Client.exGet =
      .ok ([.sent Client.exReqBytes, .arm 2500], some (.error .EBADMSG)) := by cases sx <;> decide +kernel
  refine ⟨fun h => ?_, s1, s2, tr, o, h1, h2, hc, _, by rw [hto]; exact hbad⟩
  have ht : ¬ Transfer s1 [1] := by
    rintro ⟨t, ht, hn⟩
    obtain ⟨i, hi, -⟩ := Server.look_some ht
    have := List.all_eq_true.1 hreg t (List.mem_of_getElem? hi)
    exact hn (by simpa using this)
  have hw0 : exchange sx false { Client.exEnv [] with inputs := [] } Client.exGet = .ok ([.sent Client.exReqBytes, .arm 2500], none) := by
    cases sx <;> decide +kernel
  have := (h false [1] _ s1 s2 tr Server.exEnv (Client.exEnv []) [] [] Client.exGet exAnswer Client.exReqBytes o none
    (exWaiting sx false ⟨100, Server.exSep, Server.exPool, h1⟩ ht hw0 (fun i hi => by cases hi)) h2).1
  rw [hc] at this
  cases this

/-- The hypotheses of the theorems are met: the client has already transmitted its request twice when the first copy arrives; the response is lost; the second
copy arrives later, after the request of another client. -/
example : ∃ s1 s2 s3 tr2 o o3 obs obs3 r, step true Server.exInit Server.exEnv (.datagram [1] Client.exReqBytes) = .ok (s1, o, none) ∧
    run true s1 [(Server.exEnv, .datagram [2] Server.exGetB)] = .ok (s2, tr2) ∧
    step true s2 Server.exEnv (.datagram [1] Client.exReqBytes) = .ok (s3, o3, none) ∧
    exchange true false { Client.exEnv [] with inputs := [Client.tick] ++ ((toward [1] o).map gets ++ []) } Client.exGet = .ok (obs, some (.ok r)) ∧
    Says r exAnswer ∧ Server.calls o3 = [] ∧
    ∃ r3, exchange true false { Client.exEnv [] with inputs := [Client.tick] ++ ((toward [1] o3).map gets ++ []) } Client.exGet =
      .ok (obs3, some (.ok r3)) ∧ Says r3 exAnswer := by
  have key : Server.test (step true Server.exInit Server.exEnv (.datagram [1] Client.exReqBytes)) (fun x1 => decide (x1.2.2 = none) &&
      (keptB true [1] x1.1 [(Server.exEnv, .datagram [2] Server.exGetB)] &&
      Server.test (run true x1.1 [(Server.exEnv, .datagram [2] Server.exGetB)]) (fun x2 =>
        Server.test (step true x2.1 Server.exEnv (.datagram [1] Client.exReqBytes)) (fun x3 => decide (x3.2.2 = none))))) = true := by decide +kernel
  obtain ⟨⟨s1, o, e⟩, h1, key⟩ := Server.test_ok key
  rw [Bool.and_eq_true, Bool.and_eq_true] at key
  obtain ⟨he, hkept, key⟩ := key
  obtain ⟨⟨s2, tr2⟩, h2, key⟩ := Server.test_ok key
  obtain ⟨⟨s3, o3, e3⟩, h3, key⟩ := Server.test_ok key
  replace key := of_decide_eq_true key
  replace he := of_decide_eq_true he
  dsimp only at he key h1 h2 h3 hkept
  subst key
  subst he
  have ht : ¬ Transfer Server.exInit [1] := by
    rintro ⟨t, ht, -⟩
    rw [Server.exInit, Server.ofAddr_init] at ht
    cases ht
  have hw0 : exchange true false { Client.exEnv [] with inputs := [Client.tick] } Client.exGet =
    .ok ([.sent Client.exReqBytes, .arm 2500, .arm 5000, .sent Client.exReqBytes], none) := by decide +kernel
  have hun : ∀ i ∈ [Client.tick], ∀ d, i.ev ≠ .datagram d := by
    intro i hi d
    rw [List.mem_singleton.1 hi]
    exact fun h => by cases h
  have hW := exWaiting true false (evs := []) (tr := []) ⟨100, Server.exSep, Server.exPool, rfl⟩ ht hw0 hun
  have hsep : ¬ Separate Server.exInit.sepList Client.exGet := by decide +kernel
  have hl : ∀ m', lastRequest true [1] [] = some m' → m'.msgId ≠ (stamped (Client.exEnv []) Client.exGet).msgId := fun m' h => by cases h
  obtain ⟨-, -, obs, r, k1, k2⟩ := C109_answered_partial true false [1] [] Server.exInit s1 [] Server.exEnv (Client.exEnv []) [Client.tick] [] Client.exGet
    exAnswer Client.exReqBytes o none hW h1 (by decide) hl (fun hn => absurd ⟨rfl, hsep⟩ hn)
  obtain ⟨c, obs3, r3, k3, k4⟩ := C109_repeated_partial true false [1] [] [(Server.exEnv, .datagram [2] Server.exGetB)] Server.exInit s1 s2 s3 [] tr2 Server.exEnv
    Server.exEnv (Client.exEnv []) [Client.tick] [Client.tick] [] Client.exGet exAnswer Client.exReqBytes o o3 none none hW h1 (by decide) hl rfl hsep h2
    (kept_of hkept) (by
      intro y hy m hm
      rw [List.mem_singleton.1 hy] at hm
      exact absurd hm (by simp [arrived]))
    Server.exEnv_noFault h3 ⟨_, hw0⟩ hW.unacked
  exact ⟨s1, s2, s3, tr2, o, o3, obs, obs3, r, h1, h2, h3, k1, k2, c, r3, k3, k4⟩

/-- The hypotheses of `C109_separate_partial` are met: the response to a request for "a", which this server answers separately, is lost, and so is its first
repetition; the acknowledgement of the request arrives, and the second repetition of the response. -/
example : ∃ s1 s2 s3 tr2 o o3 obs r, step true (Server.init 100 [[47, 97]] Server.exPool) Server.exEnv (.datagram [1] Client.exReqBytes) = .ok (s1, o, none) ∧
    run true s1 [(Server.exEnv, .timer 0), (Server.exEnv, .datagram [2] Server.exGetB)] = .ok (s2, tr2) ∧
    step true s2 Server.exEnv (.timer 0) = .ok (s3, o3, none) ∧ toward [1] o3 ≠ [] ∧
    exchange true false { Client.exEnv [] with inputs := [gets (emptyAck 258)] ++ ((toward [1] o3).map gets ++ []) } Client.exGet = .ok (obs, some (.ok r)) ∧
    Says r exAnswer := by
  have key : Server.test (step true (Server.init 100 [[47, 97]] Server.exPool) Server.exEnv (.datagram [1] Client.exReqBytes)) (fun x1 => decide (x1.2.2 = none) &&
      (keptB true [1] x1.1 [(Server.exEnv, .timer 0), (Server.exEnv, .datagram [2] Server.exGetB)] &&
      Server.test (run true x1.1 [(Server.exEnv, .timer 0), (Server.exEnv, .datagram [2] Server.exGetB)]) (fun x2 =>
        decide ((Server.armsOf [1] (Server.obsOf x2.2)).length = 1) &&
        (match x2.1.trans[0]? with
          | some t => decide (Server.ofAddr x2.1 [1] = some t) && t.armed
          | none => false) &&
        Server.test (step true x2.1 Server.exEnv (.timer 0)) (fun x3 => decide (x3.2.2 = none) && decide (toward [1] x3.2.1 ≠ []))))) = true := by
    decide +kernel
  obtain ⟨⟨s1, o, e⟩, h1, key⟩ := Server.test_ok key
  rw [Bool.and_eq_true, Bool.and_eq_true] at key
  obtain ⟨he, hkept, key⟩ := key
  obtain ⟨⟨s2, tr2⟩, h2, key⟩ := Server.test_ok key
  rw [Bool.and_eq_true, Bool.and_eq_true] at key
  obtain ⟨⟨hlen, htr⟩, key⟩ := key
  obtain ⟨⟨s3, o3, e3⟩, h3, key⟩ := Server.test_ok key
  rw [Bool.and_eq_true] at key
  obtain ⟨he3, hto⟩ := key
  replace hto := of_decide_eq_true hto
  replace hlen := of_decide_eq_true hlen
  replace he3 := of_decide_eq_true he3
  replace he := of_decide_eq_true he
  dsimp only at he he3 hto hlen h1 h2 h3 hkept htr
  subst he3
  subst he
  cases hti : s2.trans[0]? with
  | none => rw [hti] at htr; cases htr
  | some t =>
    rw [hti] at htr
    dsimp only at htr
    rw [Bool.and_eq_true] at htr
    have ht : ¬ Transfer (Server.init 100 [[47, 97]] Server.exPool) [1] := by
      rintro ⟨t, ht, -⟩
      rw [Server.ofAddr_init] at ht
      cases ht
    have hw0 : exchange true false { Client.exEnv [] with inputs := [] } Client.exGet = .ok ([.sent Client.exReqBytes, .arm 2500], none) := by decide +kernel
    have hwA : ∃ obs, exchange true false { Client.exEnv [] with inputs := [gets (emptyAck 258)] } Client.exGet = .ok (obs, none) := by
      have h := exchange_acked Client.exGet_built rfl hw0 (fun i hi => by cases hi)
      rw [show (stamped (Client.exEnv []) Client.exGet).msgId = 258 by decide +kernel] at h
      exact h
    have hW := exWaiting true false (evs := []) (tr := []) ⟨100, [[47, 97]], Server.exPool, rfl⟩ ht hw0 (fun i hi => by cases hi)
    have hl : ∀ m', lastRequest true [1] [] = some m' → m'.msgId ≠ (stamped (Client.exEnv []) Client.exGet).msgId := fun m' h => by cases h
    obtain ⟨-, -, obs, r, k1, k2⟩ := C109_separate_partial true false [1] [] [(Server.exEnv, .timer 0), (Server.exEnv, .datagram [2] Server.exGetB)]
      (Server.init 100 [[47, 97]] Server.exPool) s1 s2 s3 [] tr2 Server.exEnv Server.exEnv (Client.exEnv []) [] [gets (emptyAck 258)] [] Client.exGet exAnswer
      Client.exReqBytes o o3 none none 0 t hW h1 (by decide) hl rfl (by decide +kernel) (by decide +kernel) h2 (kept_of hkept) (by
        intro y hy
        simp only [List.mem_cons, List.not_mem_nil, or_false] at hy
        rcases hy with rfl | rfl <;> intro m hm <;> exact absurd hm (by simp [arrived]))
      (by
        intro y hy
        simp only [List.mem_cons, List.not_mem_nil, or_false] at hy
        rcases hy with rfl | rfl <;> rfl)
      (by rw [hlen]; decide) hti (of_decide_eq_true htr.1) htr.2 Server.exEnv_noFault h3 hwA
    exact ⟨s1, s2, s3, tr2, o, o3, obs, r, h1, h2, h3, hto, k1, k2⟩

end FreeCoAP.EndToEnd
