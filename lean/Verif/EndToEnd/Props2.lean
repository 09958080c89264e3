import Verif.EndToEnd.LemmasPlan
import Verif.EndToEnd.Props

/-!
# Uploads between the client and the server of the library

C38, continued.
-/

namespace FreeCoAP.EndToEnd

open FreeCoAP.Msg
open FreeCoAP.Server (Env Event Addr arrived Asks Carries Built Formats header emptyAck reset cpath RespTo Tracks Srv Reach AppOK run Transfer
  numOf sizeOf2 moreOf joined BlockSize init Continues bodies Succeeds)
open FreeCoAP.Client (Exchanged others values stamped Matches NoBlocks exchangeBlockwise Confirmed)

theorem slice_ordinary {sx : Bool} {req m : Msg} {src : Bytes} {off size : Nat} (h : Slice req src off size m) (ho : Ordinary sx req) :
    Ordinary sx m := by
  obtain ⟨val, num, h1, h2, -⟩ := h.block1
  refine others_ordinary h.options ho ?_ ?_
  · rw [h1]
    intro v hv
    rw [List.mem_singleton.1 hv]
    omega
  · intro v hv
    rw [h.block2 v hv]
    decide

theorem slice_block {req m : Msg} {src : Bytes} {off size : Nat} (h : Slice req src off size m) :
    ∃ num, parseBlockOp BLOCK1 m.ops = .ok (some ⟨num, decide (off + size < src.length), size⟩) ∧ num * size = off := by
  obtain ⟨val, num, h1, h2, h3, h4⟩ := h.block1
  exact ⟨num, parseBlockOp_of (Or.inl rfl) h2 h3 (filter_values h1), h4⟩

/-- A message of the plan. -/
def InPlan (plan : List Slot) (m : Msg) : Prop := ∃ p ∈ plan, m = stamped p.round.1.x p.m

/-- The requests that arrive are those of the plan. -/
theorem in_plan {sx : Bool} {a : Addr} {rounds : List (Client.BEnv × List Client.Obs)} {evs0 evs : List (Env × Event)}
    {tr0 tr : List (List Server.Obs)} {req : Msg} {src : Bytes} {size1 : Nat} {plan : List Slot}
    (hn : Network sx a rounds evs0 evs tr0 tr) (hp : Plan sx req src rounds 0 size1 plan) (ho : Ordinary sx req) {x : Env × Event} {m : Msg}
    (hx : x ∈ evs) (harr : arrived sx a x = some m) (hask : Asks m) (htok : ∃ r ∈ rounds, m.token = token r.1) : InPlan plan m := by
  obtain ⟨r, hr, ht⟩ := htok
  obtain ⟨d, he, hc⟩ := arrived_carries harr
  obtain ⟨env, ev⟩ := x
  simp only at he
  subst he
  have hin := hn.requests env d hx m hc hask r hr ht
  rcases hp.all r hr with h | ⟨p, hpm, rfl⟩
  · rw [h] at hin
    cases hin
  obtain ⟨h1, -, -, h4⟩ := hp.parts p hpm
  rcases h4 d hin with h | ⟨id, h⟩
  · exact ⟨p, hpm, carries_eq (stamped_built h1.built) (show Ordinary sx p.m from slice_ordinary h1 ho) h hc⟩
  · exact absurd hask (empty_asks h hc)

/-- What has been received after a part was accepted. -/
def Gets (plan : List Slot) (src : Bytes) (b1 : Nat) (got : Bytes) (size : Nat) : Prop :=
  (got = [] ∧ size = b1) ∨ ∃ p ∈ plan, got = src.take (p.off + p.size) ∧ p.off + p.size < src.length ∧ size = min b1 p.size

/-- An accepted part is the next one. -/
theorem accepted {sx : Bool} {rounds : List (Client.BEnv × List Client.Obs)} {req : Msg} {src : Bytes} {size1 b1 : Nat} {plan : List Slot}
    (hp : Plan sx req src rounds 0 size1 plan) (hb1 : 0 < b1) (hle : ∀ p ∈ plan, p.off ≠ 0 → p.size ≤ b1) {method : Nat} {uri got : Bytes} {size : Nat}
    {m : Msg} {o : Option Block} (hG : Gets plan src b1 got size) (hm : InPlan plan m) (hc : Continues method uri got.length size o m) :
    ∃ q ∈ plan, got ++ m.payload = src.take (q.off + q.size) ∧ moreOf o = decide (q.off + q.size < src.length) ∧ sizeOf2 o size = min b1 q.size := by
  obtain ⟨q, hq, rfl⟩ := hm
  obtain ⟨hS, -, -, -⟩ := hp.parts q hq
  obtain ⟨num, hn1, hn2⟩ := slice_block hS
  have ho := hc.option
  change parseBlockOp BLOCK1 q.m.ops = _ at ho
  rw [hn1] at ho
  cases ho
  have hst := hc.start
  simp only [numOf, sizeOf2, moreOf] at hst ⊢
  have hpos := hS.pos
  have hpay : (stamped q.round.1.x q.m).payload = (src.drop q.off).take q.size := hS.payload
  refine ⟨q, hq, ?_⟩
  rcases hG with ⟨rfl, rfl⟩ | ⟨p, hpm, rfl, hlt, rfl⟩
  · have h0 : num = 0 := by
      rcases Nat.mul_eq_zero.1 hst with h | h
      · exact h
      · omega
    have hoff : q.off = 0 := by rw [← hn2, h0, Nat.zero_mul]
    rw [hpay, hoff]
    simp only [Nat.zero_add, List.nil_append, List.drop_zero, true_and]
    omega
  · rw [List.length_take, show min (p.off + p.size) src.length = p.off + p.size by omega] at hst
    have hpp := (hp.parts p hpm).1.pos
    have hup : num * min q.size (min b1 p.size) ≤ q.off := by
      rw [← hn2]
      exact Nat.mul_le_mul_left _ (Nat.min_le_left _ _)
    rcases pairwise_cases hp.order p hpm q hq with rfl | ⟨h1, h2⟩ | ⟨h1, h2⟩
    · omega
    · have hqb := hle q hq (by omega)
      have e : min q.size (min b1 p.size) = q.size := by omega
      rw [e, hn2] at hst
      rw [hpay, ← hst, e]
      refine ⟨?_, rfl, by omega⟩
      rw [List.take_add]
    · omega

/-- One pass through the transfer. -/
theorem up_run {sx : Bool} {a : Addr} {rounds : List (Client.BEnv × List Client.Obs)} {evs0 evs : List (Env × Event)} {s0 s1 : Srv}
    {tr0 tr : List (List Server.Obs)} {S : Msg → Prop} {P : Msg → Msg → Prop} {G : Bytes → Nat → Prop} {R : Env × Event → Nat × Bytes → Prop} {Q : Bytes → Prop}
    {method b1 : Nat} {uri : Bytes} (hR0 : Reach sx evs0 s0 tr0) (htr : ¬ Transfer s0 a) (hr1 : run sx s0 evs = .ok (s1, tr))
    (happ : ∀ x ∈ evs0 ++ evs, AppOK x.1) (hoff : ∀ x ∈ evs, Takes sx a method uri b1 x.1) (hnet : Network sx a rounds evs0 evs tr0 tr)
    (hme : method = 2 ∨ method = 3) (hU : UpOK S G Q method uri b1)
    (hin : ∀ m, Asks m → (∃ x ∈ evs, arrived sx a x = some m) → (m.codeDetail = 2 ∨ m.codeDetail = 3) → m.payload ≠ [] →
      S m ∧ m.codeDetail = method ∧ cpath 256 m.ops = uri)
    (hP : ∀ m x, UpResp sx method uri b1 m x → P m x)
    (hlast : ∀ e m x y, R e y → (x.codeClass = 2 → Succeeds e.1 y) → (∀ o, parseBlockOp BLOCK1 m.ops = .ok o → moreOf o = false) → P m x)
    (hfinal : ∀ env sep id m x, P m x → P m (Server.final sep env id m x))
    (hbody : ∀ p ∈ evs.zip tr, ∀ y, (a, y) ∈ bodies p.2 → R p.1 y) :
    (∀ o ∈ tr, ∀ y, (a, y) ∈ bodies o → Q y.2) ∧
    Sent a (RespTo (fun x => ∀ r ∈ rounds, x.token ≠ token r.1) (fun m => ∃ x ∈ evs, arrived sx a x = some m) P) (tr0 ++ tr) := by
  obtain ⟨hbf1, hbf2⟩ := before hR0 (fun x hx => happ x (List.mem_append_left _ hx)) hnet
  have hstart : Tracks (RespTo (fun x => ∀ r ∈ rounds, x.token ≠ token r.1) (fun m => ∃ x ∈ evs, arrived sx a x = some m) P)
      (UpBlk G method uri) s0 a := by
    intro t ht
    obtain ⟨g, -⟩ := hbf1 t ht
    have hreg : t.blk.type = .regular := Classical.byContradiction (fun hn => htr ⟨t, ht, hn⟩)
    refine ⟨?_, Or.inl (by constructor <;> rw [hreg] <;> decide)⟩
    rcases g with g | ⟨g1, g2⟩
    · exact Or.inl g
    · exact Or.inr ⟨g1, Or.inl g2⟩
  have hFO : ∀ x ∈ evs, Server.FollowOK (fun m => ∃ x ∈ evs, arrived sx a x = some m) P (UpBlk G method uri) (R x) (fun y => Q y.2) (fun _ => True) a x.1 ∧
      AppOK x.1 := by
    intro x hx
    have hA := happ x (List.mem_append_right _ hx)
    refine ⟨⟨Or.inl Server.NotTaking.none, fun t L m r o2 hta hB hask hS hg _ => ?_, hfinal x.1⟩, hA⟩
    obtain ⟨k1, k2⟩ := up_gen hme hU hA (hoff x hx) hta hB (hin m hask hS) hg
    refine ⟨k1, fun hR he => ?_⟩
    obtain ⟨k3, k4⟩ := k2 he
    refine ⟨?_, k4⟩
    rcases k3 with ⟨⟨y, hy, hc⟩, k5⟩ | k3
    · exact hlast x m r.resp y (hR y hy) hc k5
    · exact hP m r.resp k3
  obtain ⟨-, hsent⟩ := Server.follow_run (R := R) (C := fun _ _ => True) hFO hR0.tidy hr1 hstart (fun x hx m hm _ => ⟨x, hx, hm⟩) hbody (fun _ _ _ _ => trivial)
  exact ⟨fun o ho => (hsent o ho).1, (hbf2.mono (fun x hx => Or.inl hx)).append (sent_of (fun o ho => (hsent o ho).2))⟩

/-- C38 for uploads. The application takes a body from the client at the path of the request in
blocks of `b1` bytes. The client sends `bodyLen` bytes of the caller's buffer with PUT or POST,
with any block sizes and with any outcome: the application receives from this client nothing
but exactly these bytes. When the client reports success the application has received them, and its callback has
reported success.
Missing from the full claim: the server must not be in a transfer with the client when this
one begins, requests of the same client that are not part of the transfer have no
body, the size of blocks the application asks for does not change, the body has at most
2^24 bytes, and the options in messages must be ones that survive transmission. -/
theorem C38_upload_partial (sx px : Bool) (a : Addr) (id : Nat) (sepList : List Bytes) (pool : Mem.Pool)
    (evs0 evs : List (Env × Event)) (s0 s1 : Srv) (tr0 tr : List (List Server.Obs)) (req resp : Msg) (size1 size2 bodyLen b1 : Nat)
    (buf : Bytes) (bs : List Client.BEnv) (res : Client.BRes)
    (hr0 : run sx (init id sepList pool) evs0 = .ok (s0, tr0)) (htr : ¬ Transfer s0 a) (hr1 : run sx s0 evs = .ok (s1, tr))
    (happ : ∀ x ∈ evs0 ++ evs, AppOK x.1) (hoff : ∀ x ∈ evs, Takes sx a req.codeDetail (cpath 256 req.ops) b1 x.1) (hb1 : 0 < b1)
    (hr : Built req) (hb : NoBlocks req) (ho : Ordinary sx req) (hm : req.codeDetail = 2 ∨ req.codeDetail = 3)
    (hl : bodyLen ≤ buf.length) (h24 : bodyLen ≤ 2 ^ 24)
    (h : Client.upload sx px req resp size1 size2 buf bodyLen bs = .ok res)
    (hnet : Network sx a (bs.zip res.obs) evs0 evs tr0 tr)
    (honly : ∀ x ∈ evs, ∀ m, arrived sx a x = some m → Asks m → m.codeDetail = 2 ∨ m.codeDetail = 3 → m.payload ≠ [] →
      ∃ r ∈ bs.zip res.obs, m.token = token r.1) :
    (∀ o ∈ tr, ∀ y, (a, y) ∈ bodies o → y.2 = buf.take bodyLen) ∧
    (∀ n, res.ret = some (.ok n) → Confirmed res.resp ∨ n ≠ 0 → ∃ p ∈ evs.zip tr, ∃ y, (a, y) ∈ bodies p.2 ∧ Succeeds p.1.1 y) := by
  obtain ⟨⟨plan, hp⟩, hfin⟩ := upload_plan hr hb hl h24 h
  have hR0 : Reach sx evs0 s0 tr0 := ⟨id, sepList, pool, hr0⟩
  have hin : ∀ m, Asks m → (∃ x ∈ evs, arrived sx a x = some m) → (m.codeDetail = 2 ∨ m.codeDetail = 3) → m.payload ≠ [] →
      InPlan plan m ∧ m.codeDetail = req.codeDetail ∧ cpath 256 m.ops = cpath 256 req.ops := by
    rintro m hask ⟨x, hx, harr⟩ hmm hpl
    have hpm := in_plan hnet hp ho hx harr hask (honly x hx m harr hask hmm hpl)
    have ⟨p, hpp, hpe⟩ := hpm
    subst hpe
    obtain ⟨hS, -⟩ := hp.parts p hpp
    exact ⟨hpm, hS.detail, cpath_others 256 hS.options⟩
  -- the client learns that blocks have at most `b1` bytes
  have hle : ∀ p ∈ plan, p.off ≠ 0 → p.size ≤ b1 := by
    have hU : UpOK (InPlan plan) (fun _ size => size ≤ b1) (fun _ => True) req.codeDetail (cpath 256 req.ops) b1 :=
      ⟨Nat.le_refl _, fun _ _ h => h, fun _ _ _ _ h _ _ _ => Nat.le_trans (sizeOf2_le _ _) h, fun _ _ _ _ _ _ _ _ => trivial⟩
    obtain ⟨-, hsent⟩ := up_run (R := fun _ _ => True)
      (P := fun m x => (∃ o, parseBlockOp BLOCK1 m.ops = .ok o ∧ moreOf o = true) → UpResp sx req.codeDetail (cpath 256 req.ops) b1 m x)
      hR0 htr hr1 happ hoff hnet hm hU hin (fun _ _ h _ => h) (fun _ m x _ _ _ h1 ⟨o, h2, h3⟩ => by rw [h1 o h2] at h3; cases h3)
      (fun _ _ _ _ _ h => h) (fun _ _ _ _ => trivial)
    rcases hp.first with hf | ⟨b, o, m, r, blk, g1, g2, g3, g4, g5, g6, g7⟩
    · exact fun p hpm hne => absurd (hf p hpm) hne
    · obtain ⟨x, d, k1, k2, k3, k4⟩ := round_resp hnet (fun x hx => hx) hsent g1 g2 g3.built (slice_ordinary g3 ho)
      obtain ⟨num, hn, -⟩ := slice_block g3
      have hcx : x.codeClass = 2 := (carries_fields k1 k2 k3).2.1.symm.trans g5
      obtain ⟨e1, e2⟩ := k4 ⟨_, hn, decide_eq_true g4⟩ g3.detail (cpath_others 256 g3.options) hcx _ hn
      have := carries_eq k1 e1 k2 k3
      subst this
      have := (e2 blk g6).1
      intro p hpm hne
      have := (g7 p hpm).resolve_left hne
      omega
  have hU : UpOK (InPlan plan) (Gets plan (buf.take bodyLen) b1) (· = buf.take bodyLen) req.codeDetail (cpath 256 req.ops) b1 := by
    refine ⟨Or.inl ⟨rfl, rfl⟩, ?_, ?_, ?_⟩
    · rintro got size (⟨-, h⟩ | ⟨p, -, -, -, h⟩) <;> omega
    · intro got size m o hG hS hc hmo
      obtain ⟨q, hq, e1, e2, e3⟩ := accepted hp hb1 hle hG hS hc
      rw [hmo] at e2
      exact Or.inr ⟨q, hq, e1, of_decide_eq_true e2.symm, e3⟩
    · intro got size m o hG hS hc hmo
      obtain ⟨q, hq, e1, e2, e3⟩ := accepted hp hb1 hle hG hS hc
      rw [hmo] at e2
      have := of_decide_eq_false e2.symm
      rw [e1]
      exact List.take_of_length_le (by omega)
  refine ⟨?_, ?_⟩
  · exact (up_run (R := fun _ _ => True)
      (P := fun _ _ => True) hR0 htr hr1 happ hoff hnet hm hU hin (fun _ _ _ => trivial) (fun _ _ _ _ _ _ _ => trivial)
      (fun _ _ _ _ _ h => h) (fun _ _ _ _ => trivial)).1
  · intro n hn hc
    apply Classical.byContradiction
    intro hno
    obtain ⟨b, o, m, r, off, size, blk, g1, g2, g3, g4, g5, g6⟩ := hfin n hn hc
    obtain ⟨-, hsent⟩ := up_run (R := fun e y => ¬ Succeeds e.1 y) (P := UpResp sx req.codeDetail (cpath 256 req.ops) b1) hR0 htr hr1 happ hoff hnet hm hU hin
      (fun _ _ h => h) (fun _ _ _ _ h hc _ _ _ h2 => absurd (hc h2) h) (fun _ _ _ _ _ h => h) (fun p hp y hy hc => hno ⟨p, hp, y, hy, hc⟩)
    obtain ⟨x, d, k1, k2, k3, k4⟩ := round_resp hnet (fun x hx => hx) hsent g1 g2 g3.built (slice_ordinary g3 ho)
    obtain ⟨num, hnum, -⟩ := slice_block g3
    have hcx : x.codeClass = 2 := (carries_fields k1 k2 k3).2.1.symm.trans g5
    obtain ⟨e1, e2⟩ := k4 g3.detail (cpath_others 256 g3.options) hcx _ hnum
    have := carries_eq k1 e1 k2 k3
    subst this
    have := (e2 blk g6).2
    have := of_decide_eq_true this
    omega

/-- The same for the function of the library: when a PUT or POST succeeds, the application
has received the bytes of the caller's buffer and reported success, and it has received no other body from this client. The rounds
of the upload `up` are the first ones of the exchange. -/
theorem C38_upload_success_partial (sx px : Bool) (a : Addr) (id : Nat) (sepList : List Bytes) (pool : Mem.Pool)
    (evs0 evs : List (Env × Event)) (s0 s1 : Srv) (tr0 tr : List (List Server.Obs)) (req resp : Msg) (size1 size2 bodyLen b1 n : Nat)
    (buf : Bytes) (have' : Bool) (bs1 bs2 : List Client.BEnv) (up res : Client.BRes)
    (hr0 : run sx (init id sepList pool) evs0 = .ok (s0, tr0)) (htr : ¬ Transfer s0 a) (hr1 : run sx s0 evs = .ok (s1, tr))
    (happ : ∀ x ∈ evs0 ++ evs, AppOK x.1) (hoff : ∀ x ∈ evs, Takes sx a req.codeDetail (cpath 256 req.ops) b1 x.1) (hb1 : 0 < b1)
    (hr : Built req) (hb : NoBlocks req) (ho : Ordinary sx req) (hm : req.codeDetail = 2 ∨ req.codeDetail = 3)
    (hl : bodyLen ≤ buf.length) (h24 : bodyLen ≤ 2 ^ 24)
    (h : exchangeBlockwise sx px req resp size1 size2 buf bodyLen have' bs1 bs2 = .ok res)
    (hret : res.ret = some (.ok n)) (hc : Confirmed res.resp ∨ n ≠ 0)
    (hu : Client.upload sx px req resp size1 size2 buf bodyLen bs1 = .ok up) (hnet : Network sx a (bs1.zip up.obs) evs0 evs tr0 tr)
    (honly : ∀ x ∈ evs, ∀ m, arrived sx a x = some m → Asks m → m.codeDetail = 2 ∨ m.codeDetail = 3 → m.payload ≠ [] →
      ∃ r ∈ bs1.zip up.obs, m.token = token r.1) :
    up.obs <+: res.obs ∧ (∃ p ∈ evs.zip tr, ∃ y, (a, y) ∈ bodies p.2 ∧ Succeeds p.1.1 y) ∧ ∀ o ∈ tr, ∀ y, (a, y) ∈ bodies o → y.2 = buf.take bodyLen := by
  obtain ⟨r, m, hu', hrm, hx⟩ := Client.exchangeBlockwise_put hm h hret
  rw [hu] at hu'
  cases hu'
  obtain ⟨h1, h2⟩ := C38_upload_partial sx px a id sepList pool evs0 evs s0 s1 tr0 tr req resp size1 size2 bodyLen b1 buf bs1 up hr0 htr hr1 happ hoff
    hb1 hr hb ho hm hl h24 hu hnet honly
  refine ⟨?_, h2 m hrm ?_, h1⟩
  · rcases hx with ⟨-, e, -⟩ | ⟨-, r2, -, -, e, -⟩
    · rw [e]; exact List.prefix_rfl
    · rw [e]; exact List.prefix_append _ _
  rcases hx with ⟨h0, -, e, -⟩ | ⟨h0, -⟩
  · rcases hc with hc | hc
    · exact Or.inl (by rw [← e]; exact hc)
    · exact absurd h0 hc
  · exact Or.inr h0

/-! ## Example of an upload -/

/-- The application takes a body in blocks of 16 bytes and answers 2.04. -/
def exTake : Env := { Server.exBlock with
  handle := fun _ _ => .blockwise create 16 16 [7, 7] 2 (some 1)
  rx := fun _ body _ _ resp => ⟨none, { resp with codeClass := 2, codeDetail := 4 }, body, 0⟩ }

theorem exTake_app : AppOK exTake := by
  refine ⟨fun t m => ?_, fun id body e req resp h => ?_⟩
  · constructor <;> simp [exTake, Server.HAct.resp, create, destroyed, Sorted]
  · exact ⟨h.ver, h.type, by simp [exTake], by simp [exTake], h.msgId, h.token, h.sorted⟩

theorem exTake_takes (a : Addr) (method : Nat) (uri : Bytes) : Takes true a method uri 16 exTake := by
  intro t m _ _ _
  exact Or.inr ⟨create, 16, _, 2, some 1, rfl, fun _ h => (by cases h), fun _ h => (by cases h)⟩

/-- The two parts the client sends for a body of 40 bytes with blocks of 32 bytes; the second one
has the number 2 because the server asked for blocks of 16 bytes. -/
def exUp0 : Bytes := [68, 3, 1, 5, 1, 2, 3, 5, 177, 97, 211, 3, 0, 0, 9, 255] ++ (List.range 32).map UInt8.ofNat
def exUp1 : Bytes := [68, 3, 1, 6, 1, 2, 3, 6, 177, 97, 195, 0, 0, 1, 67, 0, 0, 32, 255] ++ (List.range' 32 8).map UInt8.ofNat

/-- The first response is lost; another client is served in between; parts arrive again when
the transfer is over. -/
def exUpEvs : List (Env × Event) :=
  [(exTake, .datagram [1] exUp0), (exTake, .datagram [2] Server.exB0), (exTake, .datagram [1] exUp0), (exTake, .datagram [1] exUp1),
    (exTake, .datagram [1] exUp0), (exTake, .datagram [1] exUp1)]

def exUpBs : List Client.BEnv :=
  [exRound 5 [Client.tick, Client.rcv [100, 95, 1, 5, 1, 2, 3, 5, 211, 14, 0, 0, 8]],
   exRound 6 [Client.rcv [100, 68, 1, 6, 1, 2, 3, 6, 211, 14, 0, 0, 32]]]

def exUp : Out Client.BRes := Client.upload true false Client.exPut create 32 32 Client.exBody 40 exUpBs

/-- `honly` as a computation. -/
def onlyB (sx : Bool) (a : Addr) (rounds : List (Client.BEnv × List Client.Obs)) (evs : List (Env × Event)) : Bool :=
  evs.all (fun x => match arrived sx a x with
    | some m => rounds.any (fun r => decide (m.token = token r.1))
    | none => true)

theorem only_of {sx : Bool} {a : Addr} {rounds : List (Client.BEnv × List Client.Obs)} {evs : List (Env × Event)}
    (h : onlyB sx a rounds evs = true) : ∀ x ∈ evs, ∀ m, arrived sx a x = some m → Asks m → m.codeDetail = 2 ∨ m.codeDetail = 3 →
      m.payload ≠ [] → ∃ r ∈ rounds, m.token = token r.1 := by
  intro x hx m hm _ _ _
  have := List.all_eq_true.1 h x hx
  rw [hm] at this
  obtain ⟨r, hr, h⟩ := List.any_eq_true.1 this
  exact ⟨r, hr, of_decide_eq_true h⟩

theorem exPut_ordinary : Ordinary true Client.exPut := by
  intro o ho
  rw [List.mem_singleton.1 (show o ∈ [(⟨11, [0x61]⟩ : Op)] from ho)]
  decide

theorem exInit_idle (a : Addr) : ¬ Transfer Server.exInit a := by
  rintro ⟨t, ht, -⟩
  rw [Server.exInit, Server.ofAddr_init] at ht
  cases ht

/-- The hypotheses of `C38_upload_partial` are met by this transfer. -/
example : ∃ res s1 tr, exUp = .ok res ∧ run true Server.exInit exUpEvs = .ok (s1, tr) ∧ (∃ p ∈ exUpEvs.zip tr, ∃ y, ([1], y) ∈ bodies p.2 ∧ Succeeds p.1.1 y) ∧
    ∀ o ∈ tr, ∀ y, ([1], y) ∈ bodies o → y.2 = (List.range 40).map UInt8.ofNat := by
  have key : Client.test exUp (fun res => Client.test (run true Server.exInit exUpEvs) (fun r =>
      networkB true [1] (exUpBs.zip res.obs) [] exUpEvs [] r.2 && onlyB true [1] (exUpBs.zip res.obs) exUpEvs &&
      decide (res.ret = some (.ok 40)))) = true := by decide +kernel
  obtain ⟨res, h1, h2⟩ := Client.test_ok key
  obtain ⟨⟨s1, tr⟩, h3, h4⟩ := Client.test_ok h2
  simp only [Bool.and_eq_true, decide_eq_true_eq] at h4
  have hall : ∀ x ∈ exUpEvs, x.1 = exTake := by
    intro x hx
    simp only [exUpEvs, List.mem_cons, List.not_mem_nil, or_false] at hx
    rcases hx with rfl | rfl | rfl | rfl | rfl | rfl <;> rfl
  obtain ⟨k1, k2⟩ := C38_upload_partial true false [1] 100 Server.exSep Server.exPool [] exUpEvs Server.exInit s1 [] tr Client.exPut create 32 32 40 16 _
    exUpBs res rfl (exInit_idle _) h3 (fun x hx => by rw [hall x hx]; exact exTake_app) (fun x hx => by rw [hall x hx]; exact exTake_takes _ _ _)
    (by decide) Client.exPut_built Client.exPut_plain exPut_ordinary (Or.inr rfl) (by decide) (by decide) h1 (network_of h4.1.1) (only_of h4.1.2)
  exact ⟨res, s1, tr, h1, h3, k2 40 h4.2 (Or.inr (by decide)), fun o ho y hy => k1 o ho y hy⟩

/-- And by the function of the library. -/
example : Client.test (exchangeBlockwise true false Client.exPut create 32 32 Client.exBody 40 false exUpBs []) (fun res =>
    decide (res.ret = some (.ok 0) ∧ res.resp.codeClass = 2 ∧ res.resp.codeDetail = 4)) = true := by decide +kernel

/-! ## A part of an earlier upload -/

/-- The full claim for uploads: the client has made one upload before, and the
server has received nothing from it but what was sent in the two uploads. -/
def C38_statement : Prop :=
  ∀ (sx px : Bool) (a : Addr) (id : Nat) (sepList : List Bytes) (pool : Mem.Pool)
    (evs0 evs : List (Env × Event)) (s0 s1 : Srv) (tr0 tr : List (List Server.Obs)) (req resp : Msg) (size1 size2 bodyLen b1 : Nat)
    (buf0 buf : Bytes) (bs0 bs : List Client.BEnv) (res0 res : Client.BRes),
    run sx (init id sepList pool) evs0 = .ok (s0, tr0) → ¬ Transfer s0 a → run sx s0 evs = .ok (s1, tr) →
    (∀ x ∈ evs0 ++ evs, AppOK x.1) → (∀ x ∈ evs, Takes sx a req.codeDetail (cpath 256 req.ops) b1 x.1) → 0 < b1 →
    Built req → NoBlocks req → Ordinary sx req → req.codeDetail = 2 ∨ req.codeDetail = 3 → bodyLen ≤ buf.length → bodyLen ≤ 2 ^ 24 →
    Client.upload sx px req resp size1 size2 buf0 bodyLen bs0 = .ok res0 →
    Client.upload sx px req resp size1 size2 buf bodyLen bs = .ok res →
    Network sx a (bs.zip res.obs) evs0 evs tr0 tr →
    (∀ env d, (env, Event.datagram a d) ∈ evs0 ++ evs → ∃ r ∈ bs0.zip res0.obs ++ bs.zip res.obs, d ∈ Client.sends r.2) →
    ∀ o ∈ tr, ∀ y, (a, y) ∈ bodies o → y.2 = buf.take bodyLen

/-- The parts of a body of twenty ones, and the first part of a body of twenty twos. -/
def exOld0 : Bytes := [68, 3, 1, 5, 1, 2, 3, 5, 177, 97, 211, 3, 0, 0, 8, 255] ++ List.replicate 16 1
def exOld1 : Bytes := [68, 3, 1, 6, 1, 2, 3, 6, 177, 97, 195, 0, 0, 0, 67, 0, 0, 16, 255] ++ List.replicate 4 1
def exNew0 : Bytes := [68, 3, 1, 7, 1, 2, 3, 7, 177, 97, 211, 3, 0, 0, 8, 255] ++ List.replicate 16 2

def exOldEvs : List (Env × Event) := [(exTake, .datagram [1] exOld0), (exTake, .datagram [1] exOld1)]
/-- The last part of the first body arrives a second time. -/
def exNewEvs : List (Env × Event) := [(exTake, .datagram [1] exNew0), (exTake, .datagram [1] exOld1)]

def exOldBs : List Client.BEnv :=
  [exRound 5 [Client.rcv [100, 95, 1, 5, 1, 2, 3, 5, 211, 14, 0, 0, 8]], exRound 6 [Client.rcv [100, 68, 1, 6, 1, 2, 3, 6, 211, 14, 0, 0, 16]]]
def exNewBs : List Client.BEnv := [exRound 7 [Client.rcv [100, 95, 1, 7, 1, 2, 3, 7, 211, 14, 0, 0, 8]]]

/-- The datagrams from `a` were sent in the rounds. -/
def sentB (a : Addr) (rounds : List (Client.BEnv × List Client.Obs)) (evs : List (Env × Event)) : Bool :=
  (fromA a evs).all (fun d => rounds.any (fun r => decide (d ∈ Client.sends r.2)))

theorem sentB_of {a : Addr} {rounds : List (Client.BEnv × List Client.Obs)} {evs : List (Env × Event)} (h : sentB a rounds evs = true) :
    ∀ env d, (env, Event.datagram a d) ∈ evs → ∃ r ∈ rounds, d ∈ Client.sends r.2 := by
  intro env d hd
  have hin : d ∈ fromA a evs := List.mem_filterMap.2 ⟨_, hd, by simp⟩
  obtain ⟨r, hr, h⟩ := List.any_eq_true.1 (List.all_eq_true.1 h d hin)
  exact ⟨r, hr, of_decide_eq_true h⟩

/-- C38 does not hold: a part of an earlier upload to the same path that is delivered a second time
continues a later upload. The application receives the first part of the new body and the last
part of the old one. -/
theorem C38_violated : ¬ C38_statement := by
  intro H
  have key : Client.test (Client.upload true false Client.exPut create 16 16 (List.replicate 20 1) 20 exOldBs) (fun res0 =>
      Client.test (Client.upload true false Client.exPut create 16 16 (List.replicate 20 2) 20 exNewBs) (fun res =>
      Client.test (run true Server.exInit exOldEvs) (fun r0 => Client.test (run true r0.1 exNewEvs) (fun r =>
      networkB true [1] (exNewBs.zip res.obs) exOldEvs exNewEvs r0.2 r.2 &&
      sentB [1] (exOldBs.zip res0.obs ++ exNewBs.zip res.obs) (exOldEvs ++ exNewEvs) &&
      (match Server.ofAddr r0.1 [1] with | some t => decide (t.blk.type = .regular) | none => true) &&
      decide (∃ o ∈ r.2, ([1], 1, List.replicate 16 2 ++ List.replicate 4 1) ∈ bodies o))))) = true := by decide +kernel
  obtain ⟨res0, h1, key⟩ := Client.test_ok key
  obtain ⟨res, h2, key⟩ := Client.test_ok key
  obtain ⟨⟨s0, tr0⟩, h3, key⟩ := Client.test_ok key
  obtain ⟨⟨s1, tr⟩, h4, key⟩ := Client.test_ok key
  simp only [Bool.and_eq_true, decide_eq_true_eq] at key
  obtain ⟨⟨⟨k1, k2⟩, k3⟩, o, ho, k4⟩ := key
  have hall : ∀ x ∈ exOldEvs ++ exNewEvs, x.1 = exTake := by
    intro x hx
    simp only [exOldEvs, exNewEvs, List.cons_append, List.nil_append, List.mem_cons, List.not_mem_nil, or_false] at hx
    rcases hx with rfl | rfl | rfl | rfl <;> rfl
  have hidle : ¬ Transfer s0 [1] := by
    rintro ⟨t, ht, hn⟩
    rw [ht] at k3
    exact hn (of_decide_eq_true k3)
  have := H true false [1] 100 Server.exSep Server.exPool exOldEvs exNewEvs s0 s1 tr0 tr Client.exPut create 16 16 20 16 _ _ exOldBs exNewBs res0 res
    h3 hidle h4 (fun x hx => by rw [hall x hx]; exact exTake_app)
    (fun x hx => by rw [hall x (List.mem_append_right _ hx)]; exact exTake_takes _ _ _) (by decide) Client.exPut_built Client.exPut_plain
    exPut_ordinary (Or.inr rfl) (by decide) (by decide) h1 h2 (network_of k1) (sentB_of k2) o ho _ k4
  exact absurd this (by decide +kernel)

end FreeCoAP.EndToEnd
