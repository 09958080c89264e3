import Verif.EndToEnd.LemmasPlain
import Verif.EndToEnd.Props

/-!
# One request between the client and the server of the library

C87. The server has any history, with any number of other clients, before and during the
exchange; what is between client and server may lose, repeat, delay and reorder datagrams.
-/

namespace FreeCoAP.EndToEnd

open FreeCoAP.Msg
open FreeCoAP.Server (Env Event Addr arrived Asks Carries Built Srv Reach AppOK run Transfer AllKnown init RespTo Tracks)
open FreeCoAP.Client (stamped exchange exchanged)

/-- What a user expects of an exchange: if it succeeds, and no option of the request is
unknown to the server, the application has been called for this client exactly once, with this
request, and the response is its answer. -/
def C87_statement (sx : Bool) : Prop :=
  ∀ (px : Bool) (a : Addr) (id : Nat) (sepList : List Bytes) (pool : Mem.Pool) (evs0 evs : List (Env × Event)) (s0 s1 : Srv)
    (tr0 tr : List (List Server.Obs)) (req r : Msg) (b : Client.BEnv) (obs : List Client.Obs),
    run sx (init id sepList pool) evs0 = .ok (s0, tr0) → ¬ Transfer s0 a → run sx s0 evs = .ok (s1, tr) →
    (∀ x ∈ evs0 ++ evs, AppOK x.1) → (∀ x ∈ evs, Direct a x.1) →
    Built req → AllKnown req → exchange sx px b.x req = .ok (obs, some (.ok r)) →
    Network sx a [(b, obs)] evs0 evs tr0 tr →
    (∀ x ∈ evs, ∀ d, x.2 = .datagram a d → ∀ m, Carries sx d m → Asks m → m.token = token b) →
    callsOf a tr = [stamped b.x req] ∧ ∃ resp, Replied a evs tr (stamped b.x req) resp ∧ Says r resp

/-- C87, the part that holds for every request with ordinary options. If the exchange
succeeds, then either the request has a critical option that the server does not know, and
the response is 4.02, or the application was called with exactly this request, and the
response has the code of its answer and, if the options of the answer are ordinary, its
options and its payload. The application was never called with another request that has the
token of the exchange. Missing from the full claim: see `C87_once_partial`. -/
theorem C87_answer_partial (sx px : Bool) (a : Addr) (id : Nat) (sepList : List Bytes) (pool : Mem.Pool) (evs0 evs : List (Env × Event))
    (s0 s1 : Srv) (tr0 tr : List (List Server.Obs)) (req r : Msg) (b : Client.BEnv) (obs : List Client.Obs)
    (hr0 : run sx (init id sepList pool) evs0 = .ok (s0, tr0)) (htr : ¬ Transfer s0 a) (hr1 : run sx s0 evs = .ok (s1, tr))
    (happ : ∀ x ∈ evs0 ++ evs, AppOK x.1) (hdir : ∀ x ∈ evs, Direct a x.1)
    (hr : Built req) (ho : Ordinary sx req) (h : exchange sx px b.x req = .ok (obs, some (.ok r)))
    (hnet : Network sx a [(b, obs)] evs0 evs tr0 tr) :
    ((AllKnown req ∧ stamped b.x req ∈ callsOf a tr ∧ ∃ resp, Replied a evs tr (stamped b.x req) resp ∧
        r.codeClass = resp.codeClass ∧ r.codeDetail = resp.codeDetail ∧ (Ordinary sx resp → Says r resp)) ∨
      (¬ AllKnown req ∧ r.codeClass = 4 ∧ r.codeDetail = 2)) ∧
    ∀ m ∈ callsOf a tr, m.token = token b → m = stamped b.x req := by
  have hex := exchanged hr h
  have hR0 : Reach sx evs0 s0 tr0 := ⟨id, sepList, pool, hr0⟩
  obtain ⟨hb1, hb2⟩ := before hR0 (fun x hx => happ x (List.mem_append_left _ hx)) hnet
  have hstart : Tracks (RespTo (fun x => ∀ r ∈ [(b, obs)], x.token ≠ token r.1) (fun m => ∃ x ∈ evs, arrived sx a x = some m)
      (PlainResp a evs tr)) (fun k => k.type = .regular) s0 a := by
    intro t ht
    obtain ⟨g, -⟩ := hb1 t ht
    refine ⟨?_, Classical.byContradiction (fun hn => htr ⟨t, ht, hn⟩)⟩
    rcases g with g | ⟨g1, g2⟩
    · exact Or.inl g
    · exact Or.inr ⟨g1, Or.inl g2⟩
  have hFO : ∀ x ∈ evs, Server.FollowOK (fun m => ∃ x ∈ evs, arrived sx a x = some m) (PlainResp a evs tr)
      (fun k => k.type = .regular) (fun _ => True) (fun _ => True) (fun y => ∃ o, (x, o) ∈ evs.zip tr ∧ y ∈ o) a x.1 ∧ AppOK x.1 := by
    intro x hx
    refine ⟨⟨rfl, fun t L m r o2 hta hB _ _ hg hC => ⟨fun _ _ => trivial, fun _ he => plain_gen (hdir x hx) hta hB hg hC he⟩, ?_⟩,
      happ x (List.mem_append_right _ hx)⟩
    rintro sep i m y (⟨g1, g2, resp, g3, g4⟩ | g)
    · exact Or.inl ⟨g1, g2, resp, g3, g4⟩
    · exact Or.inr g
  obtain ⟨-, hsent⟩ := Server.follow_run (R := fun _ _ => True) (C := fun x y => ∃ o, (x, o) ∈ evs.zip tr ∧ y ∈ o) hFO hR0.tidy hr1 hstart (fun x hx m hm _ => ⟨x, hx, hm⟩) (fun _ _ _ _ => trivial)
    (fun p hp y hy => ⟨p.2, hp, hy⟩)
  have hS := (hb2.mono (fun x hx => Or.inl hx)).append (sent_of (fun o ho => (hsent o ho).2))
  obtain ⟨x, d, k1, k2, k3, k4⟩ := round_resp hnet (fun x hx => hx) hS (List.mem_singleton.2 rfl) hex hr ho
  obtain ⟨-, c1, c2, -⟩ := carries_fields k1 k2 k3
  constructor
  · rcases k4 with ⟨g1, g2, resp, g3, g4⟩ | ⟨g1, g2, g3⟩
    · refine Or.inl ⟨g1, g2, resp, g3, c1.trans g4.1, c2.trans g4.2.1, fun hor => ?_⟩
      have hox : Ordinary sx x := by
        intro o hm
        rw [g4.2.2.1] at hm
        exact hor o hm
      rw [carries_eq k1 hox k2 k3]
      exact g4
    · exact Or.inr ⟨g1, c1.trans g2, c2.trans g3⟩
  · intro m hm ht
    obtain ⟨d, env, hin, hc, hask⟩ := calls_came hR0.tidy hr1 hm
    obtain ⟨⟨b0, hf0, -, hall⟩, -⟩ := hex
    rcases hall d (hnet.requests env d hin m hc hask (b, obs) (List.mem_singleton.2 rfl) ht) with rfl | ⟨i, -, hi⟩
    · exact carries_eq (stamped_built hr) ho hf0 hc
    · exact absurd hask (empty_asks hi hc)

/-- C87. The full claim, if the server remembers the client from the first answer on, which
it does unless the answer cannot be sent, a malformed datagram arrives in the client's name,
the timer of the transaction expires or others push the client out; and if the options of
the request and the answer are ordinary. These are the only conditions missing. -/
theorem C87_once_partial (sx px : Bool) (a : Addr) (id : Nat) (sepList : List Bytes) (pool : Mem.Pool) (evs0 evs : List (Env × Event))
    (s0 s1 : Srv) (tr0 tr : List (List Server.Obs)) (req r : Msg) (b : Client.BEnv) (obs : List Client.Obs)
    (hr0 : run sx (init id sepList pool) evs0 = .ok (s0, tr0)) (htr : ¬ Transfer s0 a) (hr1 : run sx s0 evs = .ok (s1, tr))
    (happ : ∀ x ∈ evs0 ++ evs, AppOK x.1) (hdir : ∀ x ∈ evs, Direct a x.1)
    (hr : Built req) (hk : AllKnown req) (h : exchange sx px b.x req = .ok (obs, some (.ok r)))
    (hnet : Network sx a [(b, obs)] evs0 evs tr0 tr)
    (honly : ∀ x ∈ evs, ∀ d, x.2 = .datagram a d → ∀ m, Carries sx d m → Asks m → m.token = token b)
    (ho : Ordinary sx req) (ho' : ∀ resp, Replied a evs tr (stamped b.x req) resp → Ordinary sx resp) (hrem : Remembers sx a s0 evs) :
    callsOf a tr = [stamped b.x req] ∧ ∃ resp, Replied a evs tr (stamped b.x req) resp ∧ Says r resp := by
  obtain ⟨h1, h2⟩ := C87_answer_partial sx px a id sepList pool evs0 evs s0 s1 tr0 tr req r b obs hr0 htr hr1 happ hdir hr ho h hnet
  have hR0 : Reach sx evs0 s0 tr0 := ⟨id, sepList, pool, hr0⟩
  rcases h1 with ⟨-, g2, resp, g3, -, -, g6⟩ | ⟨g, -⟩
  · refine ⟨?_, resp, g3, g6 (ho' resp g3)⟩
    have hid : ∀ x ∈ evs, ∀ d, x.2 = .datagram a d → ∀ m, Carries sx d m → Asks m → m.msgId = (stamped b.x req).msgId := by
      intro x hx d hd m hc hask
      obtain ⟨⟨b0, hf0, -, hall⟩, -⟩ := exchanged hr h
      obtain ⟨env, ev⟩ := x
      simp only at hd
      subst hd
      rcases hall d (hnet.requests env d hx m hc hask (b, obs) (List.mem_singleton.2 rfl) (honly _ hx d rfl m hc hask)) with rfl | ⟨i, -, hi⟩
      · rw [carries_eq (stamped_built hr) ho hf0 hc]
      · exact absurd hask (empty_asks hi hc)
    have hlen := once_run hR0.tidy hr1 (fun x hx => happ x (List.mem_append_right _ hx)) hrem hid
    match hl : callsOf a tr, hlen with
    | [], _ => rw [hl] at g2; cases g2
    | [m], _ => rw [hl] at g2; rw [List.mem_singleton.1 g2]
  · exact absurd hk g

/-! ## Example -/

/-- The request of the client in `exRound 5` and the response. -/
def exPlain : Bytes := [68, 1, 1, 5, 1, 2, 3, 5, 177, 97]
def exHi : Bytes := [100, 69, 1, 5, 1, 2, 3, 5, 255, 104, 105]

/-- The client at 1 asks, the response is lost, another client is served, the client asks
again and receives the response; the second copy of its request arrives twice. -/
def exPlainEvs : List (Env × Event) :=
  [(Server.exEnv, .datagram [1] exPlain), (Server.exEnv, .datagram [2] Server.exGetB), (Server.exEnv, .datagram [1] exPlain),
    (Server.exEnv, .datagram [1] exPlain)]

def exPlainB : Client.BEnv := exRound 5 [Client.tick, Client.rcv exHi]

def exPlainX : Out (List Client.Obs × Option (Except Err Msg)) := exchange true false exPlainB.x Client.exGet

/-- The exchange returned a response. -/
def isOk (x : Option (Except Err Msg)) : Bool := match x with | some (.ok _) => true | _ => false

theorem isOk_some : ∀ {x : Option (Except Err Msg)}, isOk x = true → ∃ r, x = some (.ok r)
  | some (.ok r), _ => ⟨r, rfl⟩

/-- `Kept` and `Remembers` as computations. -/
def keptB (sx : Bool) (a : Addr) : Srv → List (Env × Event) → Bool
  | s, [] => (Server.ofAddr s a).isSome
  | s, (env, ev) :: rest => (Server.ofAddr s a).isSome && Client.test (Server.step sx s env ev) (fun x => keptB sx a x.1 rest)

theorem kept_of {sx : Bool} {a : Addr} : ∀ {evs : List (Env × Event)} {s : Srv}, keptB sx a s evs = true → Server.Kept sx a s evs
  | [], s, h => by
    intro e
    unfold keptB at h
    rw [e] at h
    cases h
  | (env, ev) :: evs, s, h => by
    unfold keptB at h
    rw [Bool.and_eq_true] at h
    refine ⟨fun e => (by rw [e] at h; cases h.1), fun s1 o e h1 => ?_⟩
    have h2 := h.2
    rw [h1] at h2
    exact kept_of h2

def remembersB (sx : Bool) (a : Addr) : Srv → List (Env × Event) → Bool
  | _, [] => true
  | s, (env, ev) :: rest => Client.test (Server.step sx s env ev) (fun x =>
    ((Server.calls x.2.1).all (fun c => decide (c.1 ≠ a)) || (decide (x.2.2 = none) && keptB sx a x.1 rest)) && remembersB sx a x.1 rest)

theorem remembers_of {sx : Bool} {a : Addr} : ∀ {evs : List (Env × Event)} {s : Srv}, remembersB sx a s evs = true → Remembers sx a s evs
  | [], _, _ => trivial
  | (env, ev) :: evs, s, h => by
    intro s1 o e h1
    unfold remembersB at h
    rw [h1] at h
    simp only [Client.test, Bool.and_eq_true, Bool.or_eq_true, decide_eq_true_eq] at h
    refine ⟨?_, remembers_of h.2⟩
    rintro ⟨m, hm⟩
    rcases h.1 with g | g
    · exact absurd rfl (of_decide_eq_true (List.all_eq_true.1 g _ hm))
    · exact ⟨g.1, kept_of g.2⟩

theorem exPlain_all {x : Env × Event} (hx : x ∈ exPlainEvs) : x.1 = Server.exEnv := by
  simp only [exPlainEvs, List.mem_cons, List.not_mem_nil, or_false] at hx
  rcases hx with rfl | rfl | rfl | rfl <;> rfl

theorem exGet_ordinary (sx : Bool) : Ordinary sx Client.exGet := by
  intro o ho
  rw [List.mem_singleton.1 (show o ∈ [(⟨11, [0x61]⟩ : Op)] from ho)]
  exact ⟨by decide, by decide, fun _ => by decide⟩

theorem exGet_known : AllKnown Client.exGet := by decide

/-- The hypotheses of both theorems are met by this exchange. -/
theorem exPlain_ok : ∃ obs r s1 tr, exPlainX = .ok (obs, some (.ok r)) ∧ run true Server.exInit exPlainEvs = .ok (s1, tr) ∧
    Network true [1] [(exPlainB, obs)] [] exPlainEvs [] tr ∧ ¬ Transfer Server.exInit [1] ∧ (∀ x ∈ exPlainEvs, AppOK x.1) ∧
    (∀ x ∈ exPlainEvs, Direct [1] x.1) ∧
    (∀ x ∈ exPlainEvs, ∀ d, x.2 = .datagram [1] d → ∀ m, Carries true d m → Asks m → m.token = token exPlainB) ∧
    (∀ resp, Replied [1] exPlainEvs tr (stamped exPlainB.x Client.exGet) resp → Ordinary true resp) ∧
    Remembers true [1] Server.exInit exPlainEvs := by
  have key : Client.test exPlainX (fun x => Client.test (run true Server.exInit exPlainEvs) (fun r =>
      isOk x.2 && networkB true [1] [(exPlainB, x.1)] [] exPlainEvs [] r.2 &&
      remembersB true [1] Server.exInit exPlainEvs)) = true := by decide +kernel
  obtain ⟨⟨obs, res⟩, h1, h2⟩ := Client.test_ok key
  obtain ⟨⟨s1, tr⟩, h3, h4⟩ := Client.test_ok h2
  simp only [Bool.and_eq_true] at h4
  obtain ⟨⟨k1, k2⟩, k3⟩ := h4
  obtain ⟨r, e⟩ := isOk_some k1
  subst e
  refine ⟨obs, r, s1, tr, h1, h3, network_of k2, ?_, ?_, ?_, ?_, ?_, remembers_of k3⟩
  · rintro ⟨t, ht, -⟩
    rw [Server.exInit, Server.ofAddr_init] at ht
    cases ht
  · intro x hx
    rw [exPlain_all hx]
    exact Server.exEnv_app
  · intro x hx
    rw [exPlain_all hx]
    exact fun _ _ _ => ⟨_, _, rfl⟩
  · intro x hx d hd m hc _
    have hd' : d = exPlain := by
      simp only [exPlainEvs, List.mem_cons, List.not_mem_nil, or_false] at hx
      rcases hx with rfl | rfl | rfl | rfl <;> cases hd <;> rfl
    subst hd'
    obtain ⟨hdr, e1, e2⟩ := carries_token hc
    rw [← e2]
    cases e1
    rfl
  · rintro resp ⟨p, hp, -, t, -, hh⟩
    rw [exPlain_all (List.of_mem_zip hp).1] at hh
    cases hh
    intro o ho
    cases ho

example : ∃ obs r, exPlainX = .ok (obs, some (.ok r)) ∧ r.payload = [104, 105] := by
  obtain ⟨obs, r, s1, tr, h1, h2, h3, h4, h5, h6, h7, h8, h9⟩ := exPlain_ok
  obtain ⟨-, resp, ⟨p, hp, -, t, -, hh⟩, hs⟩ := C87_once_partial true false [1] 100 Server.exSep Server.exPool [] exPlainEvs Server.exInit s1 []
    tr Client.exGet r exPlainB obs rfl h4 h2 h5 h6 Client.exGet_built exGet_known h1 h3 h7 (exGet_ordinary true) h8 h9
  rw [exPlain_all (List.of_mem_zip hp).1] at hh
  cases hh
  exact ⟨obs, r, h1, hs.2.2.2⟩

/-- It is violated: if the server cannot send its response it forgets the client, and the
request that the client transmits again is executed again. -/
theorem C87_violated (sx : Bool) : ¬ C87_statement sx := by
  intro h
  have key : Client.test (exchange sx false exPlainB.x Client.exGet) (fun x =>
      Client.test (run sx Server.exInit [({ Server.exEnv with sendErr := some .EIO }, .datagram [1] exPlain), (Server.exEnv, .datagram [1] exPlain)])
        (fun r => isOk x.2 &&
          networkB sx [1] [(exPlainB, x.1)] [] [({ Server.exEnv with sendErr := some .EIO }, .datagram [1] exPlain),
            (Server.exEnv, .datagram [1] exPlain)] [] r.2 &&
          decide ((callsOf [1] r.2).length = 2))) = true := by cases sx <;> decide +kernel
  obtain ⟨⟨obs, res⟩, h1, h2⟩ := Client.test_ok key
  obtain ⟨⟨s1, tr⟩, h3, h4⟩ := Client.test_ok h2
  simp only [Bool.and_eq_true, decide_eq_true_eq] at h4
  obtain ⟨⟨k1, k2⟩, k3⟩ := h4
  obtain ⟨r, e⟩ := isOk_some k1
  subst e
  have := (h false [1] 100 Server.exSep Server.exPool [] _ Server.exInit s1 [] tr Client.exGet r exPlainB obs rfl ?_ h3 ?_ ?_
    Client.exGet_built exGet_known h1 (network_of k2) ?_).1
  · have h5 := k3
    rw [this] at h5
    cases h5
  · rintro ⟨t, ht, -⟩
    rw [Server.exInit, Server.ofAddr_init] at ht
    cases ht
  · intro x hx
    simp only [List.nil_append, List.mem_cons, List.not_mem_nil, or_false] at hx
    rcases hx with rfl | rfl
    · exact ⟨Server.exEnv_app.1, Server.exEnv_app.2⟩
    · exact Server.exEnv_app
  · intro x hx
    simp only [List.mem_cons, List.not_mem_nil, or_false] at hx
    rcases hx with rfl | rfl <;> exact fun _ _ _ => ⟨_, _, rfl⟩
  · intro x hx d hd m hc _
    have hd' : d = exPlain := by
      simp only [List.mem_cons, List.not_mem_nil, or_false] at hx
      rcases hx with rfl | rfl <;> cases hd <;> rfl
    subst hd'
    obtain ⟨hdr, e1, e2⟩ := carries_token hc
    rw [← e2]
    cases e1
    rfl

end FreeCoAP.EndToEnd
