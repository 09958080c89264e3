import Verif.EndToEnd.LemmasRound
import Verif.Server.Props5

/-!
# Transfers between the client and the server of the library

C38. The server has any history, with any number of other clients, before and during the
transfer; the client has any environment in each round; what is between them may lose,
repeat, delay and reorder datagrams.
-/

namespace FreeCoAP.EndToEnd

open FreeCoAP.Msg
open FreeCoAP.Server (Env Event Addr arrived Asks Carries Built Formats header emptyAck reset cpath RespTo Tracks Srv Reach AppOK run Transfer
  CarriesBlock numOf sizeOf2 joined BlockSize init)
open FreeCoAP.Client (Exchanged Rounds others values stamped Wants WantsAll Piece Pieces Content Matches NoBlocks exchangeBlockwise)

/-- What the server does before the transfer and what it sends after is no concern. -/
theorem before {sx : Bool} {a : Addr} {rounds : List (Client.BEnv × List Client.Obs)} {evs0 evs : List (Env × Event)}
    {tr0 tr : List (List Server.Obs)} {s0 : Srv} (hr : Reach sx evs0 s0 tr0) (happ : ∀ x ∈ evs0, AppOK x.1)
    (hn : Network sx a rounds evs0 evs tr0 tr) :
    Tracks (fun x => ∀ r ∈ rounds, x.token ≠ token r.1) (fun _ => True) s0 a ∧ Sent a (fun x => ∀ r ∈ rounds, x.token ≠ token r.1) tr0 := by
  obtain ⟨h1, h2⟩ := follow_any (S := fun m => ∀ r ∈ rounds, m.token ≠ token r.1) hr happ hn.fresh
  have hk : ∀ x : Msg, (∃ m : Msg, (∀ r ∈ rounds, m.token ≠ token r.1) ∧ x.token = m.token) → ∀ r ∈ rounds, x.token ≠ token r.1 := by
    rintro x ⟨m, h, e⟩
    rw [e]
    exact h
  refine ⟨fun t ht => ?_, (sent_of h2).mono hk⟩
  obtain ⟨g1 | ⟨g1, g2⟩, -⟩ := h1 t ht
  · exact ⟨Or.inl g1, trivial⟩
  · exact ⟨Or.inr ⟨g1, hk _ g2⟩, trivial⟩

/-- C38 for downloads. The application answers GET requests of the client for the resource
with the body `src` (or an error), in responses of any block size. A GET with this client
that succeeds, with any block sizes, stores exactly `src` in the caller's buffer and returns its
length. Missing from the full claim: the server must not be in a transfer with the client
when this one begins, and the options in messages must be ones that survive transmission. -/
theorem C38_download_partial (sx px : Bool) (a : Addr) (id : Nat) (sepList : List Bytes) (pool : Mem.Pool)
    (evs0 evs : List (Env × Event)) (s0 s1 : Srv) (tr0 tr : List (List Server.Obs)) (req resp : Msg) (size1 size2 bodyLen n : Nat)
    (src buf : Bytes) (bs1 bs2 : List Client.BEnv) (res : Client.BRes)
    (hr0 : run sx (init id sepList pool) evs0 = .ok (s0, tr0)) (htr : ¬ Transfer s0 a) (hr1 : run sx s0 evs = .ok (s1, tr))
    (happ : ∀ x ∈ evs0 ++ evs, AppOK x.1) (hoff : ∀ x ∈ evs, Offers sx a (cpath 256 req.ops) src x.1)
    (hr : Built req) (hb : NoBlocks req) (ho : Ordinary sx req) (hm : req.codeDetail = 1)
    (h : exchangeBlockwise sx px req resp size1 size2 buf bodyLen false bs1 bs2 = .ok res)
    (hnet : Network sx a (bs2.zip res.obs) evs0 evs tr0 tr)
    (hret : res.ret = some (.ok n)) (hc : Content 1 res.resp ∨ n ≠ 0) :
    n = src.length ∧ res.body = src ++ buf.drop n := by
  obtain ⟨ms, rs, first, rfl, h1, h2, h3, h4, -, -, h7⟩ := Client.C37_download hr hb hm h hret hc
  simp only [Bool.false_eq_true, if_false, List.nil_append] at h1 h2 h4 h7
  have hR0 : Reach sx evs0 s0 tr0 := ⟨id, sepList, pool, hr0⟩
  obtain ⟨hb1, hb2⟩ := before hR0 (fun x hx => happ x (List.mem_append_left _ hx)) hnet
  have hstart : Tracks (RespTo (fun x => ∀ r ∈ bs2.zip res.obs, x.token ≠ token r.1) (fun m => ∃ x ∈ evs, arrived sx a x = some m)
      (DownResp sx (cpath 256 req.ops) src)) (DownBlk (cpath 256 req.ops) src) s0 a := by
    intro t ht
    obtain ⟨g, -⟩ := hb1 t ht
    refine ⟨?_, fun hg => ?_⟩
    · rcases g with g | ⟨g1, g2⟩
      · exact Or.inl g
      · exact Or.inr ⟨g1, Or.inl g2⟩
    · exact absurd ⟨t, ht, by rw [hg]; decide⟩ htr
  have hFO : ∀ x ∈ evs, Server.FollowOK (fun m => ∃ x ∈ evs, arrived sx a x = some m) (DownResp sx (cpath 256 req.ops) src)
      (DownBlk (cpath 256 req.ops) src) (fun _ => True) (fun _ => True) (fun _ => True) a x.1 ∧ AppOK x.1 := by
    intro x hx
    have hA := happ x (List.mem_append_right _ hx)
    refine ⟨⟨fun h => (by cases h), fun t L m r o2 hta hB _ _ hg _ => ⟨fun _ _ => trivial, fun _ he => down_gen hA (hoff x hx) hta hB hg he⟩, ?_⟩, hA⟩
    intro sep id m x hP g1 g2 g3
    obtain ⟨o2, size, k1, k2, k3, k4⟩ := hP g1 g2 g3
    exact ⟨o2, size, k1, ⟨k2.cls, k2.detail, k2.option, k2.inside, k2.payload⟩, k3, k4⟩
  obtain ⟨-, hsent⟩ := Server.follow_run (R := fun _ _ => True) (C := fun _ _ => True) hFO hR0.tidy hr1 hstart (fun x hx m hm _ => ⟨x, hx, hm⟩) (fun _ _ _ _ => trivial) (fun _ _ _ _ => trivial)
  have hS := (hb2.mono (fun x hx => Or.inl hx)).append (sent_of (fun o ho => (hsent o ho).2))
  have hj : joined rs = src.drop 0 := by
    refine down_rounds (rounds := bs2.zip res.obs) ?_ h3 (fun x hx => hx) h2 h1
    intro b o hbo m r off hx hw hcl
    obtain ⟨x, d, k1, k2, k3, k4⟩ := round_resp hnet (fun x hx => hx) hS hbo hx hw.built (wants_ordinary hw ho)
    have hcd : m.codeDetail = 1 := by have := congrArg Msg.codeDetail hw.same; exact this.trans hm
    have hcx : x.codeClass = 2 := (carries_fields k1 k2 k3).2.1.symm.trans hcl
    obtain ⟨o2, size, e1, e2, e3, e4⟩ := k4 hcd (cpath_others 256 hw.options) hcx
    have := carries_eq k1 e4 k2 k3
    subst this
    exact ⟨o2, size, e1, e2, e3⟩
  rw [List.drop_zero] at hj
  rw [hj] at h4 h7
  exact ⟨h4, h7⟩

/-! ## Example of a download -/

/-- The datagrams from `a`. -/
def fromA (a : Addr) (evs : List (Env × Event)) : List Bytes :=
  evs.filterMap (fun x => match x.2 with | .datagram b d => if b = a then some d else none | _ => none)

/-- `Network` as a computation. -/
def networkB (sx : Bool) (a : Addr) (rounds : List (Client.BEnv × List Client.Obs)) (evs0 evs : List (Env × Event))
    (tr0 tr : List (List Server.Obs)) : Bool :=
  evs0.all (fun x => match arrived sx a x with
    | some m => rounds.all (fun r => decide (m.token ≠ token r.1))
    | none => true) &&
  (  (fromA a evs).all (fun d => match parse sx (Server.recvBuf d) (min d.length Server.BUF_LEN) with
    | .ok m => rounds.all (fun r => decide (m.token ≠ token r.1) || decide (d ∈ Client.sends r.2))
    | _ => true) &&
  rounds.all (fun r => r.1.x.inputs.all (fun i => match i.ev with
    | .datagram d => decide ((a, d) ∈ Server.sends (tr0 ++ tr).flatten)
    | _ => true)))

theorem network_of {sx : Bool} {a : Addr} {rounds : List (Client.BEnv × List Client.Obs)} {evs0 evs : List (Env × Event)}
    {tr0 tr : List (List Server.Obs)} (h : networkB sx a rounds evs0 evs tr0 tr = true) : Network sx a rounds evs0 evs tr0 tr := by
  unfold networkB at h
  rw [Bool.and_eq_true, Bool.and_eq_true] at h
  obtain ⟨h0, h1, h2⟩ := h
  refine ⟨?_, ?_, ?_⟩
  · intro x hx m hm _ r hr
    have := List.all_eq_true.1 h0 x hx
    rw [hm] at this
    exact of_decide_eq_true (List.all_eq_true.1 this r hr)
  · intro env d hd m hc hq r hr ht
    have hin : d ∈ fromA a evs := List.mem_filterMap.2 ⟨_, hd, by simp⟩
    have := List.all_eq_true.1 h1 d hin
    unfold Carries at hc
    rw [hc] at this
    have := List.all_eq_true.1 this r hr
    rw [Bool.or_eq_true, decide_eq_true_eq, decide_eq_true_eq] at this
    exact this.resolve_left (fun h => h ht)
  · intro r hr i hi d hd
    have := List.all_eq_true.1 (List.all_eq_true.1 h2 r hr) i hi
    rw [hd] at this
    exact of_decide_eq_true this

/-- The id is 256 + `j` and the token ends in `j`. -/
def exRound (j : UInt8) (is : List Client.Input) : Client.BEnv := ⟨⟨j, 1, 1, 2, 3, j, none, none, 1500, is⟩, true, true, true, true⟩

/-- The client's request in round `j` with the Block2 value `v`. -/
def exAsk (j v : UInt8) : Bytes := [68, 1, 1, j, 1, 2, 3, j, 177, 97, 195, 0, 0, v]

/-- The server's response in round `j` with the Block2 value `v`. -/
def exBlk (code j v : UInt8) (pl : List Nat) : Bytes := [100, code, 1, j, 1, 2, 3, j, 211, 10, 0, 0, v, 255] ++ pl.map UInt8.ofNat

/-- The client at 1 asks for blocks of 32 bytes; its first response is lost, another client is served
in between. The server has blocks of 16 bytes of a body of 40 bytes. -/
def exDownEvs : List (Env × Event) :=
  [(Server.exBlock, .datagram [1] (exAsk 5 1)), (Server.exBlock, .datagram [2] Server.exB0), (Server.exBlock, .datagram [1] (exAsk 5 1)),
    (Server.exBlock, .datagram [1] (exAsk 6 16)), (Server.exBlock, .datagram [1] (exAsk 7 32)), (Server.exBlock, .datagram [1] (exAsk 7 32))]

def exDownBs : List Client.BEnv :=
    [exRound 5 [Client.tick, Client.rcv (exBlk 95 5 8 (List.range 16))], exRound 6 [Client.rcv (exBlk 95 6 24 (List.range' 16 16))],
     exRound 7 [Client.tick, Client.rcv (exBlk 95 6 24 (List.range' 16 16)), Client.rcv (exBlk 69 7 32 (List.range' 32 8))]]

def exDown : Out Client.BRes :=
  exchangeBlockwise true false Client.exGet create 32 32 (List.replicate 50 9) 50 false [] exDownBs

/-- The hypotheses of `C38_download_partial` are met by this transfer. -/
theorem exDown_ok : ∃ res s1 tr, exDown = .ok res ∧ run true Server.exInit exDownEvs = .ok (s1, tr) ∧
    Network true [1] (exDownBs.zip res.obs) [] exDownEvs [] tr ∧ res.ret = some (.ok 40) ∧ ¬ Transfer Server.exInit [1] ∧
    (∀ x ∈ exDownEvs, AppOK x.1) ∧ (∀ x ∈ exDownEvs, Offers true [1] (cpath 256 Client.exGet.ops) ((List.range 40).map UInt8.ofNat) x.1) ∧
    Ordinary true Client.exGet := by
  have key : Client.test exDown (fun res => Client.test (run true Server.exInit exDownEvs) (fun r =>
      networkB true [1] (exDownBs.zip res.obs) [] exDownEvs [] r.2 && decide (res.ret = some (.ok 40)))) = true := by decide +kernel
  obtain ⟨res, h1, h2⟩ := Client.test_ok key
  obtain ⟨⟨s1, tr⟩, h3, h4⟩ := Client.test_ok h2
  simp only [Bool.and_eq_true, decide_eq_true_eq] at h4
  have hall : ∀ x ∈ exDownEvs, x.1 = Server.exBlock := by
    intro x hx
    simp only [exDownEvs, List.mem_cons, List.not_mem_nil, or_false] at hx
    rcases hx with rfl | rfl | rfl | rfl | rfl | rfl <;> rfl
  refine ⟨res, s1, tr, h1, h3, network_of h4.1, h4.2, ?_, ?_, ?_, ?_⟩
  · rintro ⟨t, ht, -⟩
    rw [Server.exInit, Server.ofAddr_init] at ht
    cases ht
  · intro x hx
    rw [hall x hx]
    exact Server.exBlock_app
  · intro x hx
    rw [hall x hx]
    intro t m _ _ _
    exact Or.inr ⟨create, 16, 16, _, 40, some 1, rfl, by decide +kernel, fun _ h => (by cases h), fun _ h => (by cases h)⟩
  · intro o ho
    rw [List.mem_singleton.1 (show o ∈ [(⟨11, [0x61]⟩ : Op)] from ho)]
    decide

example : ∃ res, exDown = .ok res ∧ res.body = (List.range 40).map UInt8.ofNat ++ List.replicate 10 9 := by
  obtain ⟨res, s1, tr, h1, h2, h3, h4, h5, h6, h7, h8⟩ := exDown_ok
  exact ⟨res, h1, (C38_download_partial true false [1] 100 Server.exSep Server.exPool [] exDownEvs Server.exInit s1 [] tr Client.exGet create 32 32 50
    40 _ _ [] exDownBs res rfl h5 h2 h6 h7 Client.exGet_built Client.exGet_plain h8 rfl h1 h3 h4 (Or.inr (by decide))).2⟩

end FreeCoAP.EndToEnd
