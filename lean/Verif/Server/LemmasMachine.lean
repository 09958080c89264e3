import Verif.Server.SpecMachine
import Verif.Server.PropsSimple
import Verif.Server.LemmasOdd

/-!
# Lemmas for C145 and C146
-/

namespace FreeCoAP.Server.Machine

open FreeCoAP.Msg
open FreeCoAP.Server.Simple (Copy answer bytes answer_final bytes_enc pigeon exCopy exCopy_fair fairB)

/-- The transaction of a client is as the machine knows it. -/
structure Keeps (t : Trans) (e : Entry) : Prop where
  ver : t.req.ver ≠ 0
  id : t.req.msgId = e.id
  reply : enc t.resp = e.reply
  send : Sendable t.resp
  rver : t.resp.ver ≠ 0
  own : t.resp.msgId = e.own
  idle : t.armed = false → e.wait = none
  wait : t.armed = true → ∃ b, e.wait = some (t.numRetrans, b) ∧ b < 3000 ∧ t.numRetrans ≤ 4 ∧ t.timeout = b * 2 ^ t.numRetrans
  regular : t.blk.type = .regular

/-- How the transactions of the clients and the machine correspond. -/
structure Corr (w : Addr → Option Trans) (id : Nat) (t : State) : Prop where
  own : id = t.own
  unseen : ∀ a, w a = none → t.of a = blank
  seen : ∀ a u, w a = some u → Keeps u (t.of a)

/-- A new transaction is as the machine knows a client of which nothing is known. -/
theorem keeps_fresh (env : Env) (a : Addr) : Keeps (Server.fresh env a) blank :=
  ⟨show create.ver ≠ 0 by decide, rfl, show enc create = [0x40, 0, 0, 0] by decide, sendable_plain (m := create) ⟨fun _ => ⟨rfl, rfl, rfl, by decide⟩, fun _ => ⟨rfl, rfl⟩⟩ rfl (by decide) (by decide), show create.ver ≠ 0 by decide, rfl,
    fun _ => rfl, (fun h => by cases h), rfl⟩

/-- What the machine knows of the transaction of a message. -/
theorem Corr.keeps {w : Addr → Option Trans} {id : Nat} {t : State} {a : Addr} {env : Env} {v : Trans} {P : Prop} (hc : Corr w id t)
    (h : w a = some v ∨ (w a = none ∧ v = Server.fresh env a ∧ P)) : Keeps v (t.of a) := by
  rcases h with h | ⟨h, rfl, -⟩
  · exact hc.seen a v h
  · rw [hc.unseen a h]
    exact keeps_fresh env a

/-- With at most eight clients nobody is forgotten. -/
theorem others {sx : Bool} {As : List Addr} {s s' : Srv} {a : Addr} {d : Bytes} {env : Env} {o : List Obs} {e : Option Err}
    (honly : ∀ a u, ofAddr s a = some u → a ∈ As)
    (hT : Tidy s) (hA : As.length ≤ 8) (ha : a ∈ As) (h : StepRel sx s env (.datagram a d) s' o e) : ∀ b, b ≠ a → ofAddr s' b = ofAddr s b := by
  obtain ⟨-, h2 | ⟨h2, h3, -⟩⟩ := others_step h hT
  · exact h2
  exfalso
  have hsub : a :: s.trans.map (·.addr) ⊆ As := by
    intro b hb
    rcases List.mem_cons.1 hb with rfl | hb
    · exact ha
    · obtain ⟨u, hu, rfl⟩ := List.mem_map.1 hb
      obtain ⟨i, hi⟩ := List.mem_iff_getElem?.1 hu
      exact honly _ u (look_eq hT.distinct hi (h3 u hu))
  have hnd : (a :: s.trans.map (·.addr)).Nodup := by
    refine List.nodup_cons.2 ⟨?_, ?_⟩
    · intro hb
      obtain ⟨u, hu, he⟩ := List.mem_map.1 hb
      obtain ⟨i, hi⟩ := List.mem_iff_getElem?.1 hu
      have hl := look_eq hT.distinct hi (h3 u hu)
      rw [he, ← ofAddr_look, h2] at hl
      cases hl
    · rw [List.nodup_iff_pairwise_ne, List.pairwise_map, List.pairwise_iff_getElem]
      intro i j hi hj hij h1
      have := hT.distinct i j _ _ (List.getElem?_eq_getElem hi) (List.getElem?_eq_getElem hj) (h3 _ (List.getElem_mem hi)) (h3 _ (List.getElem_mem hj)) h1
      omega
  have := pigeon hnd hsub
  rw [List.length_cons, List.length_map, hT.len] at this
  have h8 : NUM_TRANS = 8 := rfl
  omega

/-- One client changes, in the server and in the machine. -/
theorem Corr.put {w w' : Addr → Option Trans} {id id' : Nat} {t : State} {a : Addr} {n : Nat} {e : Entry} (hc : Corr w id t)
    (hoth : ∀ b, b ≠ a → w' b = w b) (hid : id' = n) (hnone : w' a = none → e = blank)
    (hsome : ∀ u, w' a = some u → Keeps u e) : Corr w' id' ({ t with own := n }.put a e) := by
  have hof : ∀ b, ({ t with own := n }.put a e : State).of b = if b = a then e else t.of b := fun _ => rfl
  refine ⟨hid, fun b hb => ?_, fun b x hb => ?_⟩
  · rw [hof]
    by_cases hba : b = a
    · rw [if_pos hba]
      exact hnone (hba ▸ hb)
    · rw [if_neg hba]
      exact hc.unseen b (hoth b hba ▸ hb)
  · rw [hof]
    by_cases hba : b = a
    · rw [if_pos hba]
      exact hsome x (hba ▸ hb)
    · rw [if_neg hba]
      exact hc.seen b x (hoth b hba ▸ hb)

theorem answer_type {sepList : List Bytes} {own : Nat} {m resp : Msg} (hq : Asks m) : (answer sepList own m resp).type = CON ↔ m.type = CON ∧ Separate sepList m := by
  unfold answer
  rcases hq.1 with h | h
  · rw [if_neg (by rw [h]; decide)]
    by_cases hs : Separate sepList m
    · rw [if_pos hs]; exact iff_of_true rfl ⟨h, hs⟩
    · rw [if_neg hs]; exact iff_of_false (show ¬ (ACK = CON) by decide) (fun hx => hs hx.2)
  · rw [if_pos h]
    exact iff_of_false (show ¬ (NON = CON) by decide) (fun hx => by rw [h] at hx; exact absurd hx.1 (by decide))

theorem critical_first {pre post : List Op} {o : Op} (h1 : ∀ p ∈ pre, Critical p → p.num ∈ known) (h2 : Critical o) (h3 : o.num ∉ known) :
    checkCriticalOps (pre ++ o :: post) = o.num := by
  have hne : checkCriticalOps (pre ++ o :: post) ≠ 0 := by
    intro hx
    exact h3 ((C17_critical _).1.1 hx o (by simp) h2)
  obtain ⟨pre', o', post', e1, e2, e3, e4, e5⟩ := (C17_critical _).2 hne
  rw [e2]
  clear hne e2
  induction pre generalizing pre' with
  | nil =>
    cases pre' with
    | nil => cases e1; rfl
    | cons p ps =>
      cases e1
      exact absurd (e5 _ List.mem_cons_self h2) h3
  | cons q qs ih =>
    cases pre' with
    | nil =>
      cases e1
      exact absurd (h1 _ List.mem_cons_self e3) e4
    | cons p ps =>
      cases (List.cons.inj e1).1
      exact ih (fun x hx => h1 x (List.mem_cons_of_mem _ hx)) ps (List.cons.inj e1).2 (fun x hx => e5 x (List.mem_cons_of_mem _ hx))

/-- What is needed of a request: the response to it is known, and can be sent. -/
structure Served (sx : Bool) (sepList : List Bytes) (c : Copy) : Prop where
  app : AppOK c.env
  fine : NoFault c.env
  carries : Carries sx c.d c.m
  asks : Asks c.m
  gen : ∀ t L r o, t.addr = c.a → t.blk.type = .regular → generate c.env t L c.m = .ok (r, o) →
    r.resp = c.resp ∧ r.err = none ∧ r.blk.type = .regular ∧ calls o = if AllKnown c.m then [(c.a, c.m)] else []
  fits : ∀ own, ∃ b, Formats (answer sepList own c.m c.resp) b

theorem served_fair {sx : Bool} {sepList : List Bytes} {c : Copy} (hf : Simple.Fair sx sepList c) : Served sx sepList c := by
  refine ⟨hf.app, hf.fine, hf.carries, hf.asks, fun t L r o ha hreg h => ?_, hf.fits⟩
  have hob := generate_call hf.known hreg h
  unfold generate at h
  rw [if_neg (by rw [checkCritical_ne]; exact fun h => h hf.known), if_neg (by simp [hreg]), hf.handle t ha] at h
  cases h
  refine ⟨rfl, rfl, hreg, ?_⟩
  rw [if_pos hf.known, ← ha]
  rfl

theorem served_foreign {sx : Bool} {sepList : List Bytes} {c : Copy} (hf : Foreign sx c) : Served sx sepList c := by
  obtain ⟨pre, o, post, e1, e2, e3, e4, e5⟩ := hf.first
  have hk : ¬ AllKnown c.m := fun h => e4 (h o (by rw [e1]; simp) e3)
  have hnum : checkCriticalOps c.m.ops = o.num := by rw [e1]; exact critical_first e2 e3 e4
  have hfm := hf.carries.fields.1
  refine ⟨hf.app, hf.fine, hf.carries, hf.asks, fun t L r o2 ha hreg h => ?_, fun own => ?_⟩
  · obtain ⟨g1, -, g3, -, g5⟩ := generate_bad hk h
    rcases g5 with ⟨-, g5, g6⟩ | ⟨g5, -⟩
    · refine ⟨?_, g5, by rw [g3]; exact hreg, ?_⟩
      · rw [g6, hnum, e5]
        rfl
      · rw [g1, if_neg hk]
        rfl
    · rw [hf.fine.pay] at g5; cases g5
  · suffices hs : Sendable (answer sepList own c.m c.resp) from ⟨_, hs.formats⟩
    have hp : (answer sepList own c.m c.resp).payload.length ≤ 1024 ∧ (answer sepList own c.m c.resp).ops = [] ∧
        (answer sepList own c.m c.resp).token = c.m.token ∧ (answer sepList own c.m c.resp).codeClass = 4 ∧ (answer sepList own c.m c.resp).type ≠ RST := by
      have hl : c.resp.payload.length ≤ 1024 := by
        rw [e5]
        exact Nat.le_trans (List.length_take_le _ _) (by decide)
      have h1 : c.resp.ops = [] := by rw [e5]; rfl
      have h2 : c.resp.codeClass = 4 := by rw [e5]
      unfold answer
      split
      · exact ⟨hl, h1, rfl, h2, show NON ≠ RST by decide⟩
      · split
        · exact ⟨hl, h1, rfl, h2, show CON ≠ RST by decide⟩
        · exact ⟨hl, h1, rfl, h2, show ACK ≠ RST by decide⟩
    refine sendable_plain ⟨fun hx => ?_, fun hx => absurd hx hp.2.2.2.2⟩ hp.2.1 (by rw [hp.2.2.1]; exact hfm.token) hp.1
    rw [hp.2.2.2.1] at hx
    exact absurd hx.1 (by decide)

theorem served {sx : Bool} {sepList : List Bytes} {c : Copy} (hf : Simple.Fair sx sepList c ∨ Foreign sx c) : Served sx sepList c :=
  hf.elim served_fair served_foreign

/-- A request that is new for the machine. -/
theorem fresh_step {sx : Bool} {w : Addr → Option Trans} {s s' : Srv} {t : State} {c : Copy} {o : List Obs} {e : Option Err} (hc : Corr w s.msgId t)
    (hw : w c.a = ofAddr s c.a) (hoth : ∀ b, b ≠ c.a → ofAddr s' b = w b) (hT : Tidy s) (hf : Served sx s.sepList c)
    (hn : (t.of c.a).id ≠ c.m.msgId) (h : StepRel sx s c.env (.datagram c.a c.d) s' o e) :
    (calls o, sends o, arms o) = (fresh s.sepList t c).2 ∧ Corr (ofAddr s') s'.msgId (fresh s.sepList t c).1 ∧ (ofAddr s' c.a).map (·.lastUse) = some c.env.now := by
  have hmatch : ∀ u, ofAddr s c.a = some u → matchReq u c.m = false := by
    intro u hu
    cases hm : matchReq u c.m with
    | false => rfl
    | true => exact absurd (((hc.seen _ u (hw.trans hu)).id.symm.trans (matchReq_iff.1 hm).2)) hn
  obtain ⟨u, L, r, o2, h1, h2, h3, h4, -, h5⟩ := new_request hT h hf.carries hf.fine.arrives hf.fine.create (fun _ => hf.fine.ack) hf.asks
    (fun h0 hx => hn (by rw [hc.unseen _ (hw.trans h0), hx]; rfl)) hmatch
  have hk : Keeps u (t.of c.a) := by
    refine hc.keeps (env := c.env) (P := True) ?_
    rcases h1 with ⟨h1, -⟩ | ⟨h1, h1', -⟩
    · exact Or.inl (hw.trans h1)
    · exact Or.inr ⟨hw.trans h1, h1', trivial⟩
  have hreg := hk.regular
  have hB := generate_built hf.app h3
  have hgen := hf.gen (cleared c.env u) L r o2 (by simpa [cleared] using h2) (by simpa [cleared] using hreg) h3
  obtain ⟨b, hb⟩ := hf.fits (nextMsgId s.msgId c.env.idRand)
  have hfa := answer_final (sepList := s.sepList) (env := c.env) (id := s.msgId) (resp := c.resp) hf.asks
  rw [hfa] at hb
  obtain ⟨hsend, -⟩ := Client.formats_iff.1 hb
  have hbf := hB.final (sepList := s.sepList) (env := c.env) (id := s.msgId) hf.carries.fields.1
  rw [hgen.1] at h5 hB hbf
  rcases h5 with ⟨x, g, -⟩ | ⟨-, g, -⟩ | ⟨-, -, g1, g2, g3, -, q, p, g4, g5, g6⟩
  · rw [hgen.2.1] at g; cases g
  · exact absurd hsend (g hf.fine.send hf.fine.copyReq hf.fine.copyResp hf.fine.timer hB.cls hB.detail)
  have hpe := hbf.copy
  rw [g5] at hpe
  have hpe : p = final s.sepList c.env s.msgId c.m c.resp := by simpa using hpe
  obtain ⟨c1, -, -, -, c5, -, -⟩ := copy_ok_fields g4
  have hans : answer s.sepList (nextMsgId t.own c.env.idRand) c.m c.resp = final s.sepList c.env s.msgId c.m c.resp := by
    rw [← hc.own, hfa]
  have hbytes : bytes (final s.sepList c.env s.msgId c.m c.resp) = enc (final s.sepList c.env s.msgId c.m c.resp) := bytes_enc hsend
  have htype : (final s.sepList c.env s.msgId c.m c.resp).type = CON ↔ c.m.type = CON ∧ Separate s.sepList c.m := by
    rw [← hans]; exact answer_type hf.asks
  have hcalls : calls o = if AllKnown c.m then [(c.a, c.m)] else [] := by rw [h4, hgen.2.2.2]
  have hkeep : Keeps (recorded c.env u r.blk q p (final s.sepList c.env s.msgId c.m c.resp))
      ⟨c.m.msgId, enc (final s.sepList c.env s.msgId c.m c.resp), (final s.sepList c.env s.msgId c.m c.resp).msgId,
        if c.m.type = CON ∧ Separate s.sepList c.m then some (0, 2000 + c.env.rand % 1000) else (t.of c.a).wait⟩ := by
    refine ⟨?_, c5, ?_, ?_, ?_, ?_, ?_, ?_, hgen.2.2.1⟩
    · show q.ver ≠ 0
      rw [c1, hf.carries.fields.1.ver]; decide
    · show enc p = _
      rw [hpe]
    · show Sendable p
      rw [hpe]; exact hsend
    · show p.ver ≠ 0
      rw [hpe, hbf.ver]; decide
    · show p.msgId = _
      rw [hpe]
    · show (if _ then true else u.armed) = false → _
      intro hx
      by_cases hs : c.m.type = CON ∧ Separate s.sepList c.m
      · rw [if_pos (htype.2 hs)] at hx; cases hx
      · rw [if_neg (fun hx => hs (htype.1 hx))] at hx
        dsimp only
        rw [if_neg hs]
        exact hk.idle hx
    · unfold recorded
      dsimp only
      intro hx
      by_cases hs : c.m.type = CON ∧ Separate s.sepList c.m
      · rw [if_pos (htype.2 hs), if_pos (htype.2 hs), if_pos hs]
        refine ⟨2000 + c.env.rand % 1000, rfl, by omega, by omega, ?_⟩
        rw [Nat.pow_zero, Nat.mul_one]
      · rw [if_neg (fun hx => hs (htype.1 hx))] at hx
        rw [if_neg (fun hx => hs (htype.1 hx)), if_neg (fun hx => hs (htype.1 hx)), if_neg hs]
        exact hk.wait hx
  unfold fresh
  dsimp only
  rw [hans, hbytes, hcalls, g2, g3]
  refine ⟨rfl, Corr.put hc hoth ?_ (fun hx => by rw [g6] at hx; cases hx) (fun v hv => by rw [g6] at hv; cases hv; exact hkeep), by rw [g6]; rfl⟩
  rw [g1]
  unfold newId
  rw [hc.own]
  by_cases hp : c.m.type = CON ∧ ¬ Separate s.sepList c.m
  · rw [if_pos hp, if_pos ⟨hp.1, decide_eq_false (fun hn => hp.2 hn.2)⟩]
  · rw [if_neg hp, if_neg]
    rintro ⟨k1, k2⟩
    exact hp ⟨k1, fun hs => (of_decide_eq_false k2) ⟨k1, hs⟩⟩

theorem Keeps.touched {u : Trans} {x : Entry} {env : Env} (h : Keeps u x) : Keeps (touched env u) x :=
  ⟨h.ver, h.id, h.reply, h.send, h.rver, h.own, h.idle, h.wait, h.regular⟩

/-- The server handles the message in a transaction. -/
theorem handled {sx : Bool} {w : Addr → Option Trans} {s s' : Srv} {t : State} {a : Addr} {env : Env} {d : Bytes} {o : List Obs} {e : Option Err}
    (hc : Corr w s.msgId t) (hw : w a = ofAddr s a) (hT : Tidy s) (hf : NoFault env) (h : StepRel sx s env (.datagram a d) s' o e) :
    ∃ v L r, Keeps v (t.of a) ∧ v.addr = a ∧ v.active = true ∧ Outcome sx s.sepList env v L s.msgId d r ∧ o = r.obs ∧
      ofAddr s' a = (if r.trans.active = true then some r.trans else none) ∧ s'.msgId = r.msgId := by
  cases step_view h hT a with
  | untouched g ho hd =>
    rcases hd d rfl with hx | ⟨-, hx⟩
    · exact absurd hf.arrives.1 hx
    · exact absurd hf.create hx
  | evicted b d hb hev => cases hev; exact absurd rfl hb
  | timer i v r hev => cases hev
  | exchange d' v r L hev h0' hv hta hact hout ho he h' hid =>
    cases hev
    exact ⟨v, L, r, hc.keeps (by rw [hw]; exact hv), hta, hact, hout, ho, h', hid⟩

/-- A repetition. -/
theorem again_step {sx : Bool} {w : Addr → Option Trans} {s s' : Srv} {t : State} {a : Addr} {env : Env} {d : Bytes} {m : Msg} {o : List Obs} {e : Option Err} (hc : Corr w s.msgId t)
    (hw : w a = ofAddr s a) (hoth : ∀ b, b ≠ a → ofAddr s' b = w b) (hT : Tidy s) (hf : NoFault env) (hm : Carries sx d m)
    (hty : m.type = CON ∨ m.type = NON)
    (hx : (t.of a).id = m.msgId) (h : StepRel sx s env (.datagram a d) s' o e) :
    (calls o, sends o, arms o) = ([], again s.sepList a m (t.of a).reply, []) ∧ Corr (ofAddr s') s'.msgId t ∧
      (ofAddr s' a).map (·.lastUse) = some env.now := by
  obtain ⟨v, L, r, k, hta, hact, hout, ho, h', hid⟩ := handled hc hw hT hf h
  have hmr : matchReq v m = true := matchReq_of k.ver (k.id.trans hx) rfl
  have hmm : ∀ m', Got sx env d m' → m' = m := fun m' hg => hg.1.unique hm
  have hbad : ¬ (env.recvErr = none → env.parseMem = true → ∃ x, parse sx (recvBuf d) (min d.length BUF_LEN) = .err x) := by
    intro hx
    obtain ⟨x, hx⟩ := hx hf.arrives.2.1 hf.arrives.2.2
    rw [show parse sx (recvBuf d) (min d.length BUF_LEN) = .ok m from hm] at hx
    cases hx
  have hnt : ¬ (m.type = ACK ∨ m.type = RST) := by rcases hty with h | h <;> rw [h] <;> decide
  have hr : (calls o, sends o, arms o) = ([], again s.sepList a m (t.of a).reply, []) ∧ r.msgId = s.msgId ∧ r.trans = touched env v := by
    rw [ho]
    cases hout with
    | again h => exact absurd h hbad
    | lost e h => exact absurd h hbad
    | dupAck m' hg g1 g2 g3 =>
      cases hmm m' hg
      refine ⟨?_, rfl, rfl⟩
      simp only [calls, arms, sends, List.filterMap_cons, List.filterMap_nil, again, g2, g3, hta]
      rw [if_neg (by decide), enc_ack hm.fields.1.msgId]
      simp
    | dupResp m' hg g1 g2 g3 =>
      cases hmm m' hg
      refine ⟨?_, rfl, rfl⟩
      simp only [calls, arms, sends, List.filterMap_cons, List.filterMap_nil, again, g2, g3, hta, k.reply]
      rw [if_neg (by decide)]
      simp
    | dupFail m' hg g1 g2 x g3 g4 =>
      exfalso
      cases hmm m' hg
      by_cases hs : Separate s.sepList m
      · exact g3 hs hf.ack
      · exact g4 hs hf.send k.send
    | dupNon m' hg g1 g2 =>
      cases hmm m' hg
      refine ⟨?_, rfl, rfl⟩
      simp [calls, arms, sends, again, g2]
    | acked m' hg g1 g2 => cases hmm m' hg; exact absurd g2 hnt
    | ackFail m' hg g1 g2 => cases hmm m' hg; exact absurd g2 hnt
    | rejected m' hg g1 g2 =>
      exfalso
      cases hmm m' hg
      exact hty.elim (g2 hmr).1 (g2 hmr).2
    | ackLost m' hg hnew => cases hmm m' hg; exact absurd (hmr.symm.trans hnew.fresh) (by decide)
    | genFail m' hg hnew => cases hmm m' hg; exact absurd (hmr.symm.trans hnew.fresh) (by decide)
    | sendFail m' hg hnew => cases hmm m' hg; exact absurd (hmr.symm.trans hnew.fresh) (by decide)
    | done m' hg hnew => cases hmm m' hg; exact absurd (hmr.symm.trans hnew.fresh) (by decide)
  have hv : ofAddr s' a = some (touched env v) := by
    rw [h', hr.2.2]
    exact if_pos hact
  refine ⟨hr.1, ⟨(hid.trans hr.2.1).trans hc.own, fun b hb => ?_, fun b y hb => ?_⟩, by rw [hv]; rfl⟩
  · by_cases hba : b = a
    · rw [hba, hv] at hb; cases hb
    · exact hc.unseen b (hoth b hba ▸ hb)
  · by_cases hba : b = a
    · rw [hba, hv] at hb
      cases hb
      rw [hba]
      exact k.touched
    · exact hc.seen b y (hoth b hba ▸ hb)

theorem request_step {sx : Bool} {w : Addr → Option Trans} {s s' : Srv} {t : State} {c : Copy} {o : List Obs} {e : Option Err} (hc : Corr w s.msgId t)
    (hw : w c.a = ofAddr s c.a) (hoth : ∀ b, b ≠ c.a → ofAddr s' b = w b) (hT : Tidy s) (hf : Served sx s.sepList c)
    (h : StepRel sx s c.env (.datagram c.a c.d) s' o e) :
    (calls o, sends o, arms o) = (request s.sepList t c).2 ∧ Corr (ofAddr s') s'.msgId (request s.sepList t c).1 ∧
      (ofAddr s' c.a).map (·.lastUse) = some c.env.now := by
  unfold request
  by_cases hi : (t.of c.a).id = c.m.msgId
  · rw [if_pos hi]
    exact again_step hc hw hoth hT hf.fine hf.carries hf.asks.1 hi h
  · rw [if_neg hi]
    exact fresh_step hc hw hoth hT hf hi h

/-- The client is forgotten. -/
theorem forget_step {w : Addr → Option Trans} {s s' : Srv} {t : State} {a : Addr} (hc : Corr w s.msgId t) (hoth : ∀ b, b ≠ a → ofAddr s' b = w b)
    (hv : ofAddr s' a = none) (hid : s'.msgId = s.msgId) : Corr (ofAddr s') s'.msgId (t.put a blank) :=
  Corr.put (n := t.own) hc hoth (hid.trans hc.own) (fun _ => rfl) (fun u hu => by rw [hv] at hu; cases hu)

/-- A request for which the application fails. -/
theorem failed_step {sx : Bool} {w : Addr → Option Trans} {s s' : Srv} {t : State} {c : Copy} {err : Option Err} {o : List Obs} {e : Option Err}
    (hc : Corr w s.msgId t) (hw : w c.a = ofAddr s c.a) (hoth : ∀ b, b ≠ c.a → ofAddr s' b = w b) (hT : Tidy s) (hf : Fails sx s.sepList c err)
    (h : StepRel sx s c.env (.datagram c.a c.d) s' o e) :
    (calls o, sends o, arms o) = (failed s.sepList t c err).2 ∧ Corr (ofAddr s') s'.msgId (failed s.sepList t c err).1 ∧
      (ofAddr s' c.a).map (·.lastUse) = (if (t.of c.a).id = c.m.msgId then some c.env.now else none) := by
  unfold failed
  by_cases hi : (t.of c.a).id = c.m.msgId
  · rw [if_pos hi, if_pos hi]
    exact again_step hc hw hoth hT hf.fine hf.carries hf.asks.1 hi h
  rw [if_neg hi, if_neg hi]
  obtain ⟨v, L, r, k, hta, hact, hout, ho, h', hid⟩ := handled hc hw hT hf.fine h
  have hmr : matchReq v c.m = false := by
    cases hx : matchReq v c.m with
    | false => rfl
    | true => exact absurd (k.id.symm.trans (matchReq_iff.1 hx).2) hi
  have hnt : ¬ (c.m.type = ACK ∨ c.m.type = RST) := by rcases hf.asks.1 with h | h <;> rw [h] <;> decide
  have hmm : ∀ m', Got sx c.env c.d m' → m' = c.m := fun m' hg => hg.1.unique hf.carries
  have hbad : ¬ (c.env.recvErr = none → c.env.parseMem = true → ∃ x, parse sx (recvBuf c.d) (min c.d.length BUF_LEN) = .err x) := by
    intro hx
    obtain ⟨x, hx⟩ := hx hf.fine.arrives.2.1 hf.fine.arrives.2.2
    rw [show parse sx (recvBuf c.d) (min c.d.length BUF_LEN) = .ok c.m from hf.carries] at hx
    cases hx
  have hgen : ∀ q o2, generate c.env (cleared c.env v) L c.m = .ok (q, o2) → q.resp = c.resp ∧ q.err = err ∧ q.rx = [] ∧ o2 = [.call c.a c.m] := by
    intro q o2 hg
    have hreg : (cleared c.env v).blk.type = .regular := k.regular
    unfold generate at hg
    rw [if_neg (by rw [checkCritical_ne]; exact fun h => h hf.known), if_neg (by simp [hreg]), hf.handle (cleared c.env v) hta] at hg
    cases hg
    exact ⟨rfl, rfl, rfl, by rw [← hta]; rfl⟩
  have hpre : sends (preAck s.sepList v c.m) = if c.m.type = CON ∧ Separate s.sepList c.m then [(c.a, emptyAck c.m.msgId)] else [] := by
    rw [sends_pre, hta, enc_ack hf.carries.fields.1.msgId]
    by_cases hs : c.m.type = CON ∧ Separate s.sepList c.m
    · rw [if_pos hs, if_pos (show sepB s.sepList c.m = true from decide_eq_true hs)]
    · rw [if_neg hs, if_neg (by rw [show sepB s.sepList c.m = false from decide_eq_false hs]; decide)]
  have hunfit : err = none → ¬ Sendable (final s.sepList c.env s.msgId c.m c.resp) := by
    intro he hs
    have := hf.unfit he (nextMsgId s.msgId c.env.idRand) (enc (final s.sepList c.env s.msgId c.m c.resp))
    rw [answer_final (sepList := s.sepList) (env := c.env) (id := s.msgId) (resp := c.resp) hf.asks] at this
    exact this (Client.formats_iff.2 ⟨hs, rfl⟩)
  have hobs : ∀ q : BRes, q.rx = [] → (calls (preAck s.sepList v c.m ++ [.call c.a c.m] ++ rxObs v.addr q), sends (preAck s.sepList v c.m ++ [.call c.a c.m] ++ rxObs v.addr q),
      arms (preAck s.sepList v c.m ++ [.call c.a c.m] ++ rxObs v.addr q)) =
      ([(c.a, c.m)], (if c.m.type = CON ∧ Separate s.sepList c.m then [(c.a, emptyAck c.m.msgId)] else []), []) := by
    intro q hq
    rw [calls_append, sends_append, arms_append, calls_append, sends_append, arms_append, calls_rx, sends_rx, arms_rx, calls_pre, arms_pre, hpre]
    simp [calls, sends, arms]
  have hr : (calls o, sends o, arms o) = ([(c.a, c.m)], (if c.m.type = CON ∧ Separate s.sepList c.m then [(c.a, emptyAck c.m.msgId)] else []), []) ∧
      r.trans = Trans.zero ∧ r.msgId = if err ≠ none ∨ (c.m.type = CON ∧ ¬ Separate s.sepList c.m) then s.msgId else nextMsgId s.msgId c.env.idRand := by
    rw [ho]
    cases hout with
    | again h => exact absurd h hbad
    | lost e h => exact absurd h hbad
    | dupAck m' hg g => cases hmm m' hg; rw [hmr] at g; cases g
    | dupResp m' hg g => cases hmm m' hg; rw [hmr] at g; cases g
    | dupFail m' hg g => cases hmm m' hg; rw [hmr] at g; cases g
    | dupNon m' hg g => cases hmm m' hg; rw [hmr] at g; cases g
    | acked m' hg g1 g2 => cases hmm m' hg; exact absurd g2 hnt
    | ackFail m' hg g1 g2 => cases hmm m' hg; exact absurd g2 hnt
    | rejected m' hg g1 =>
      exfalso
      cases hmm m' hg
      rcases g1 with g1 | g1 | g1
      · exact hnt (Or.inl g1)
      · exact hnt (Or.inr g1)
      · exact g1 hf.asks.2
    | ackLost m' hg hnew g1 x g2 => rw [hf.fine.ack] at g2; cases g2
    | genFail m' hg hnew hp q o2 hgn x hx =>
      cases hmm m' hg
      obtain ⟨-, g2, g3, g4⟩ := hgen q o2 hgn
      refine ⟨?_, rfl, ?_⟩
      · rw [g4]; exact hobs q g3
      · rw [if_pos (Or.inl (by rw [← g2, hx]; exact fun h => by cases h))]
    | sendFail m' hg hnew hp q o2 hgn hx o3 x ho3 hun =>
      cases hmm m' hg
      obtain ⟨g1, g2, g3, g4⟩ := hgen q o2 hgn
      have hen : err = none := g2.symm.trans hx
      have h3 : o3 = [] := by
        rcases ho3 with h3 | ⟨-, h3⟩
        · exact h3
        · rw [g1] at h3
          exact absurd h3 (hunfit hen)
      refine ⟨?_, rfl, ?_⟩
      · rw [g4, h3, List.append_nil]; exact hobs q g3
      · show newId s.sepList c.env s.msgId c.m = _
        unfold newId
        by_cases hp : c.m.type = CON ∧ ¬ Separate s.sepList c.m
        · rw [if_pos (Or.inr hp), if_pos ⟨hp.1, decide_eq_false (fun hn => hp.2 hn.2)⟩]
        · have hsb : ¬ (c.m.type = CON ∧ sepB s.sepList c.m = false) := by
            rintro ⟨k1, k2⟩
            exact hp ⟨k1, fun hs => (of_decide_eq_false k2) ⟨k1, hs⟩⟩
          have hor : ¬ (err ≠ none ∨ (c.m.type = CON ∧ ¬ Separate s.sepList c.m)) := by
            rintro (h | h)
            · exact h hen
            · exact hp h
          rw [if_neg hsb, if_neg hor]
    | done m' hg hnew hp q o2 hgn hx hs =>
      exfalso
      cases hmm m' hg
      obtain ⟨g1, g2, g3, g4⟩ := hgen q o2 hgn
      rw [g1] at hs
      exact hunfit (g2.symm.trans hx) hs
  have hv : ofAddr s' c.a = none := by rw [h', hr.2.1]; rfl
  refine ⟨hr.1, ?_, by rw [hv]; rfl⟩
  refine Corr.put hc hoth ?_ (fun _ => rfl) (fun u hu => by rw [hv] at hu; cases hu)
  rw [hid, hr.2.2, hc.own]

/-- A message that is no request. -/
theorem odd_step {sx : Bool} {w : Addr → Option Trans} {s s' : Srv} {t : State} {a : Addr} {env : Env} {d : Bytes} {m : Msg} {o : List Obs} {e : Option Err}
    (hc : Corr w s.msgId t) (hw : w a = ofAddr s a) (hoth : ∀ b, b ≠ a → ofAddr s' b = w b) (hT : Tidy s) (hf : NoFault env) (hm : Carries sx d m)
    (hty : m.type = CON ∨ m.type = NON) (hcl : m.codeClass ≠ 0) (h : Server.step sx s env (.datagram a d) = .ok (s', o, e)) :
    (calls o, sends o, arms o) = (odd s.sepList t a m).2 ∧ Corr (ofAddr s') s'.msgId (odd s.sepList t a m).1 ∧
      (ofAddr s' a).map (·.lastUse) = (if (t.of a).id = m.msgId then some env.now else none) := by
  unfold odd
  by_cases hi : (t.of a).id = m.msgId
  · rw [if_pos hi, if_pos hi]
    exact again_step hc hw hoth hT hf hm hty hi (step_rel h)
  rw [if_neg hi, if_neg hi]
  have hnt : ¬ (m.type = ACK ∨ m.type = RST) := by rcases hty with h | h <;> rw [h] <;> decide
  obtain ⟨u, L', r', h1, hua, h2, h3⟩ := step_exchangeT hT hf.arrives.1 hf.create h
  have ku : Keeps u (t.of a) := by
    refine hc.keeps (env := env) (P := True) ?_
    rw [hw]
    exact h1.imp id (fun h => ⟨h.1, h.2, trivial⟩)
  obtain ⟨k1, -, -⟩ := odd_sent hf.arrives.2.1 hf.arrives.2.2 hf.rst hm hty hcl (by rw [ku.id]; exact hi) h2
  obtain ⟨v, L, r, k, hta, hact, hout, ho, h', hid⟩ := handled hc hw hT hf (step_rel h)
  have hmr : matchReq v m = false := by
    cases hx : matchReq v m with
    | false => rfl
    | true => exact absurd (k.id.symm.trans (matchReq_iff.1 hx).2) hi
  have hmm : ∀ m', Got sx env d m' → m' = m := fun m' hg => hg.1.unique hm
  have hbad : ¬ (env.recvErr = none → env.parseMem = true → ∃ x, parse sx (recvBuf d) (min d.length BUF_LEN) = .err x) := by
    intro hx
    obtain ⟨x, hx⟩ := hx hf.arrives.2.1 hf.arrives.2.2
    rw [show parse sx (recvBuf d) (min d.length BUF_LEN) = .ok m from hm] at hx
    cases hx
  have hr : r.trans = Trans.zero ∧ r.msgId = s.msgId := by
    cases hout with
    | again h => exact absurd h hbad
    | lost e h => exact absurd h hbad
    | dupAck m' hg g => cases hmm m' hg; rw [hmr] at g; cases g
    | dupResp m' hg g => cases hmm m' hg; rw [hmr] at g; cases g
    | dupFail m' hg g => cases hmm m' hg; rw [hmr] at g; cases g
    | dupNon m' hg g => cases hmm m' hg; rw [hmr] at g; cases g
    | acked m' hg g1 g2 => cases hmm m' hg; exact absurd g2 hnt
    | ackFail m' hg g1 g2 => cases hmm m' hg; exact absurd g2 hnt
    | rejected m' hg => exact ⟨rfl, rfl⟩
    | ackLost m' hg hnew => cases hmm m' hg; exact absurd hnew.cls hcl
    | genFail m' hg hnew => cases hmm m' hg; exact absurd hnew.cls hcl
    | sendFail m' hg hnew => cases hmm m' hg; exact absurd hnew.cls hcl
    | done m' hg hnew => cases hmm m' hg; exact absurd hnew.cls hcl
  have hv : ofAddr s' a = none := by rw [h', hr.1]; rfl
  refine ⟨?_, forget_step hc hoth hv (hid.trans hr.2), by rw [hv]; rfl⟩
  rw [h3, k1, hua]
  by_cases hcon : m.type = CON
  · rw [if_pos hcon, if_pos hcon]; rfl
  · rw [if_neg hcon, if_neg hcon]; rfl

theorem refusal_deed (a : Addr) (d : Bytes) : (calls (refusal a d), sends (refusal a d), arms (refusal a d)) = ([], refuse a d, []) := by
  match d with
  | b0 :: b1 :: b2 :: b3 :: l =>
    by_cases h : b0.toNat / 16 = 4
    · rw [show refusal a (b0 :: b1 :: b2 :: b3 :: l) = [.sent a [0x70, 0, b2, b3]] from if_pos h,
        show refuse a (b0 :: b1 :: b2 :: b3 :: l) = [(a, [0x70, 0, b2, b3])] from if_pos h]
      rfl
    · rw [show refusal a (b0 :: b1 :: b2 :: b3 :: l) = [] from if_neg h, show refuse a (b0 :: b1 :: b2 :: b3 :: l) = [] from if_neg h]
      rfl
  | [] => rfl
  | [_] => rfl
  | [_, _] => rfl
  | [_, _, _] => rfl

/-- A datagram that cannot be read. -/
theorem junk_step {sx : Bool} {w : Addr → Option Trans} {s s' : Srv} {t : State} {a : Addr} {env : Env} {d : Bytes} {o : List Obs} {e : Option Err}
    (hc : Corr w s.msgId t) (hw : w a = ofAddr s a) (hoth : ∀ b, b ≠ a → ofAddr s' b = w b) (hT : Tidy s) (hf : NoFault env) (hm : ¬ ∃ m, Carries sx d m)
    (hd : d.length < 1152) (h : Server.step sx s env (.datagram a d) = .ok (s', o, e)) :
    (calls o, sends o, arms o) = ([], refuse a d, []) ∧ Corr (ofAddr s') s'.msgId (t.put a blank) ∧ (ofAddr s' a).map (·.lastUse) = none := by
  have hB : BUF_LEN = 1152 := rfl
  have hbad : ∃ x, parse sx (recvBuf d) (min d.length BUF_LEN) = .err x := by
    cases hp : parse sx (recvBuf d) (min d.length BUF_LEN) with
    | ok m => exact absurd ⟨m, hp⟩ hm
    | err x => exact ⟨x, rfl⟩
    | ub => exact absurd hp (parse_ne_ub (by rw [recvBuf_length]; omega))
  obtain ⟨x, hx⟩ := hbad
  obtain ⟨u, L', r', h1, hua, h2, h3⟩ := step_exchangeT hT hf.arrives.1 hf.create h
  have k1 := junk_sent hf.arrives.2.1 hf.arrives.2.2 hf.rst hx h2
  obtain ⟨v, L, r, k, hta, hact, hout, ho, h', hid⟩ := handled hc hw hT hf (step_rel h)
  have hno : ∀ m', ¬ Got sx env d m' := fun m' hg => hm ⟨m', hg.1⟩
  have hr : r.trans = Trans.zero ∧ r.msgId = s.msgId := by
    cases hout with
    | again h hx => rw [hf.arrives.2.1] at hx; cases hx
    | lost e h => exact ⟨rfl, rfl⟩
    | dupAck m' hg => exact absurd hg (hno m')
    | dupResp m' hg => exact absurd hg (hno m')
    | dupFail m' hg => exact absurd hg (hno m')
    | dupNon m' hg => exact absurd hg (hno m')
    | acked m' hg => exact absurd hg (hno m')
    | ackFail m' hg => exact absurd hg (hno m')
    | rejected m' hg => exact absurd hg (hno m')
    | ackLost m' hg => exact absurd hg (hno m')
    | genFail m' hg => exact absurd hg (hno m')
    | sendFail m' hg => exact absurd hg (hno m')
    | done m' hg => exact absurd hg (hno m')
  have hv : ofAddr s' a = none := by rw [h', hr.1]; rfl
  refine ⟨?_, forget_step hc hoth hv (hid.trans hr.2), by rw [hv]; rfl⟩
  rw [h3, k1, hua]
  exact refusal_deed a d

/-- An acknowledgement or a reset. -/
theorem note_step {sx : Bool} {w : Addr → Option Trans} {s s' : Srv} {t : State} {a : Addr} {env : Env} {d : Bytes} {m : Msg} {o : List Obs} {e : Option Err}
    (hc : Corr w s.msgId t) (hw : w a = ofAddr s a) (hoth : ∀ b, b ≠ a → ofAddr s' b = w b) (hT : Tidy s) (hf : NoFault env) (hm : Carries sx d m)
    (hty : m.type = ACK ∨ m.type = RST) (h : StepRel sx s env (.datagram a d) s' o e) :
    (calls o, sends o, arms o) = ([], [], []) ∧ Corr (ofAddr s') s'.msgId (note t a m) ∧
      (ofAddr s' a).map (·.lastUse) = (if (t.of a).own = m.msgId then some env.now else none) := by
  have hnt : ¬ (m.type = CON ∨ m.type = NON) := by rcases hty with h | h <;> rw [h] <;> decide
  obtain ⟨v, L, r, k, hta, hact, hout, ho, h', hid⟩ := handled hc hw hT hf h
  have hmm : ∀ m', Got sx env d m' → m' = m := fun m' hg => hg.1.unique hm
  have hr : o = [] ∧ r.msgId = s.msgId ∧ ((matchResp v m = true ∧ r.trans = { touched env v with numRetrans := 0, armed := false }) ∨
      (matchResp v m = false ∧ r.trans = Trans.zero)) := by
    rw [ho]
    have hbad : ¬ (env.recvErr = none → env.parseMem = true → ∃ x, parse sx (recvBuf d) (min d.length BUF_LEN) = .err x) := by
      intro hx
      obtain ⟨x, hx⟩ := hx hf.arrives.2.1 hf.arrives.2.2
      rw [show parse sx (recvBuf d) (min d.length BUF_LEN) = .ok m from hm] at hx
      cases hx
    cases hout with
    | again h => exact absurd h hbad
    | lost e h => exact absurd h hbad
    | dupAck m' hg h1 h2 => cases hmm m' hg; exact absurd (Or.inl h2) hnt
    | dupResp m' hg h1 h2 => cases hmm m' hg; exact absurd (Or.inl h2) hnt
    | dupFail m' hg h1 h2 => cases hmm m' hg; exact absurd (Or.inl h2) hnt
    | dupNon m' hg h1 h2 => cases hmm m' hg; exact absurd (Or.inr h2) hnt
    | acked m' hg h1 h2 => cases hmm m' hg; exact ⟨rfl, rfl, Or.inl ⟨h1, rfl⟩⟩
    | ackFail m' hg h1 h2 e h3 => rw [hf.timer] at h3; cases h3
    | rejected m' hg h1 h2 h3 o' ho' =>
      cases hmm m' hg
      refine ⟨?_, rfl, Or.inr ⟨?_, rfl⟩⟩
      · rcases ho' with ho' | ⟨ho', -⟩
        · exact ho'
        · exact absurd (Or.inl ho') hnt
      · cases hx : matchResp v m with
        | false => rfl
        | true =>
          have := h3 hx
          exact absurd hty (fun h => h.elim this.1 this.2)
    | ackLost m' hg hnew => cases hmm m' hg; exact absurd hnew.type hnt
    | genFail m' hg hnew => cases hmm m' hg; exact absurd hnew.type hnt
    | sendFail m' hg hnew => cases hmm m' hg; exact absurd hnew.type hnt
    | done m' hg hnew => cases hmm m' hg; exact absurd hnew.type hnt
  obtain ⟨ho', hrid, hr⟩ := hr
  refine ⟨by rw [ho']; rfl, ?_⟩
  have hiff : matchResp v m = true ↔ (t.of a).own = m.msgId := by
    unfold matchResp
    rw [decide_eq_true_eq, k.own]
    exact ⟨fun h => h.2, fun h => ⟨k.rver, h⟩⟩
  have hown : ({ t with own := t.own } : State) = t := rfl
  have hid' := (hid.trans hrid).trans hc.own
  unfold note
  by_cases hx : (t.of a).own = m.msgId
  · rw [if_pos hx, if_pos hx]
    rcases hr with ⟨-, h2⟩ | ⟨h1, -⟩
    · have hv : ofAddr s' a = some r.trans := by rw [h', if_pos (by rw [h2]; exact hact)]
      refine ⟨Corr.put (n := t.own) hc hoth hid' (fun hx => by rw [hv] at hx; cases hx) (fun u hu => ?_), by rw [hv, h2]; rfl⟩
      rw [hv] at hu
      cases hu
      rw [h2]
      exact ⟨k.ver, k.id, k.reply, k.send, k.rver, k.own, fun _ => rfl, (fun h => by cases h), k.regular⟩
    · rw [hiff.2 hx] at h1; cases h1
  · rw [if_neg hx, if_neg hx]
    rcases hr with ⟨h1, -⟩ | ⟨-, h2⟩
    · exact absurd (hiff.1 h1) hx
    · have hv : ofAddr s' a = none := by rw [h', h2]; rfl
      exact ⟨Corr.put (n := t.own) hc hoth hid' (fun _ => rfl) (fun u hu => by rw [hv] at hu; cases hu), by rw [hv]; rfl⟩

/-- The acknowledgement of a client is late. -/
theorem late_step {sx : Bool} {s s' : Srv} {t : State} {a : Addr} {env : Env} {i : Nat} {o : List Obs} {e : Option Err}
    (hc : Corr (ofAddr s) s.msgId t) (hT : Tidy s) (hf : NoFault env) (hi : (s.trans.findIdx? (fun t => t.active && t.addr == a)).getD 8 = i)
    (h : StepRel sx s env (.timer i) s' o e) : (calls o, sends o, arms o) = (late t a).2 ∧ Corr (ofAddr s') s'.msgId (late t a).1 ∧
      (∀ c, c ≠ a → ofAddr s' c = ofAddr s c) ∧
      (ofAddr s' a).map (·.lastUse) =
        (match (t.of a).wait with | some (k, _) => if k < 4 then some env.now else none | none => (ofAddr s a).map (·.lastUse)) := by
  have hidx : ∀ u, s.trans[i]? = some u → u.active = true ∧ u.addr = a := by
    intro u hu
    cases hx : s.trans.findIdx? (fun t => t.active && t.addr == a) with
    | none =>
      rw [hx] at hi
      have hl := (List.getElem?_eq_some_iff.1 hu).1
      rw [hT.len, ← hi] at hl
      exact absurd hl (by decide)
    | some j =>
      rw [hx] at hi
      cases (show j = i from hi)
      obtain ⟨hl, hp, -⟩ := List.findIdx?_eq_some_iff_getElem.1 hx
      rw [List.getElem?_eq_getElem hl] at hu
      cases hu
      simpa using hp
  have hfound : ∀ u, ofAddr s a = some u → s.trans[i]? = some u := by
    intro u hu
    rw [ofAddr_look] at hu
    obtain ⟨j, hj, hact, had⟩ := look_some hu
    cases hx : s.trans.findIdx? (fun t => t.active && t.addr == a) with
    | none =>
      have := List.findIdx?_eq_none_iff.1 hx u (List.mem_iff_getElem?.2 ⟨j, hj⟩)
      rw [hact, had] at this
      simp at this
    | some k =>
      rw [hx] at hi
      cases (show k = i from hi)
      obtain ⟨hl, hp, -⟩ := List.findIdx?_eq_some_iff_getElem.1 hx
      have hp : s.trans[i].active = true ∧ s.trans[i].addr = a := by simpa using hp
      have := hT.distinct i j _ _ (List.getElem?_eq_getElem hl) hj hp.1 hact (hp.2.trans had.symm)
      rw [this]
      exact hj
  have hown : ({ t with own := t.own } : State) = t := rfl
  cases h with
  | noTimer _ hn =>
    have hw : (t.of a).wait = none := by
      cases hu : ofAddr s a with
      | none => rw [hc.unseen a hu]; rfl
      | some u =>
        have hi := hfound u hu
        refine (hc.seen a u hu).idle ?_
        cases hx : u.armed with
        | false => rfl
        | true => exact absurd ⟨(hidx u hi).1, hx⟩ (hn u hi)
    unfold late
    rw [hw]
    exact ⟨rfl, hc, fun _ _ => rfl, rfl⟩
  | timer _ u r hi' hact har h =>
    obtain ⟨-, had⟩ := hidx u hi'
    have hlk : ofAddr s a = some u := by
      rw [ofAddr_look, ← had]
      exact look_eq hT.distinct hi' hact
    have k := hc.seen a u hlk
    obtain ⟨b, hw, hb, hn, hto⟩ := k.wait har
    have hset := look_set hT.distinct hi' hact h.addr
    have hoth : ∀ c, c ≠ a → ofAddr { s with msgId := r.msgId, trans := s.trans.set i r.trans, large := r.large } c = ofAddr s c := by
      intro c hca
      rw [ofAddr_look, ofAddr_look]
      exact hset.2.1 c (by rw [had]; exact hca)
    have hnew : ofAddr { s with msgId := r.msgId, trans := s.trans.set i r.trans, large := r.large } a = if r.trans.active = true then some r.trans else none := by
      rw [ofAddr_look, ← had]
      exact hset.2.2
    unfold late
    rw [hw]
    dsimp only
    have h4 : MAX_RETRANSMIT = 4 := rfl
    cases h with
    | expired h =>
      have hge : ¬ u.numRetrans < 4 := by
        rcases h with h | h
        · omega
        · exact absurd hf.timer h
      rw [if_neg hge, if_neg hge]
      exact ⟨rfl, Corr.put (n := t.own) hc hoth hc.own (fun _ => rfl) (fun v hv => by rw [hnew] at hv; cases hv), hoth, by rw [hnew]; rfl⟩
    | noTimer h e he => rw [hf.timer] at he; cases he
    | noSend h he e hns => exact absurd k.send (hns hf.send)
    | resent h he hs hse =>
      rw [if_pos (show u.numRetrans < 4 by omega), if_pos (show u.numRetrans < 4 by omega)]
      have hpow : (2 * u.timeout) % 2 ^ 32 = b * 2 ^ (u.numRetrans + 1) := by
        have h1 : 2 ^ u.numRetrans ≤ 2 ^ 4 := Nat.pow_le_pow_right (by omega) hn
        have h2 : b * 2 ^ u.numRetrans ≤ 3000 * 2 ^ 4 := Nat.mul_le_mul (by omega) h1
        have h3 : b * 2 ^ (u.numRetrans + 1) = 2 * (b * 2 ^ u.numRetrans) := by
          rw [Nat.pow_succ, ← Nat.mul_assoc, Nat.mul_comm]
        rw [hto, h3]
        exact Nat.mod_eq_of_lt (by omega)
      have hw' := hnew.trans (if_pos hact)
      refine ⟨?_, Corr.put (n := t.own) hc hoth hc.own (fun hx => by rw [hw'] at hx; cases hx) (fun v hv => ?_), hoth, by rw [hw']; rfl⟩
      · rw [hpow, had, k.reply]
        rfl
      · rw [hw'] at hv
        cases hv
        refine ⟨k.ver, k.id, k.reply, k.send, k.rver, k.own, (fun h => by cases h), fun _ => ⟨b, rfl, hb, ?_, hpow⟩, k.regular⟩
        show u.numRetrans + 1 ≤ 4
        omega

theorem fair_safe {sx : Bool} {sepList : List Bytes} {s : Srv} {x : Item} (hf : x.Fair sx sepList) : AppSafe (x.ev s).1 := by
  cases x with
  | request c => exact hf.elim (·.safe) (·.safe)
  | failed c err => exact hf.safe
  | odd a env d m => exact hf.1
  | junk a env d => exact hf.1
  | note a env d m => exact hf.1
  | late a env => exact hf.1

theorem fair_harmless {sx : Bool} {sepList : List Bytes} {s : Srv} {x : Item} (hf : x.Fair sx sepList) : ∀ a d, (x.ev s).2 = .datagram a d → Harmless sx d := by
  intro a d he
  cases x with
  | request c => cases he; exact hf.elim (·.harmless) (·.harmless)
  | failed c err => cases he; exact hf.harmless
  | odd a env d m => cases he; exact hf.2.2.2.1
  | junk a env d => cases he; exact ⟨hf.2.2.2, fun m hm => absurd ⟨m, hm⟩ hf.2.2.1⟩
  | note a env d m => cases he; exact hf.2.2.2.1
  | late a env => cases he

theorem corr_init (id : Nat) (sepList : List Bytes) (pool : Mem.Pool) :
    Corr (ofAddr (init id sepList pool)) (init id sepList pool).msgId ⟨id % 65536, fun _ => blank⟩ :=
  ⟨rfl, fun _ _ => rfl, fun a u hx => by rw [ofAddr_init] at hx; cases hx⟩

end FreeCoAP.Server.Machine
