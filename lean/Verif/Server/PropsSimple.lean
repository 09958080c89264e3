import Verif.Server.SpecSimple
import Verif.Server.LemmasSafe
import Verif.Server.LemmasNew
import Verif.Server.LemmasDup
import Verif.Server.LemmasCall
import Verif.Server.LemmasResp
import Verif.Server.Props6
import Verif.Server.LemmasAnswered
import Verif.Client.Lemmas

/-!
# C143: the server does what a simple server does
-/

namespace FreeCoAP.Server.Simple

open FreeCoAP.Msg

/-- C143: For requests that arrive in any order and any number of times, the server gives to the application what a server does that remembers the last request
of every client, and sends what that one sends. -/
def C143_statement (sx : Bool) : Prop :=
  ∀ (id : Nat) (sepList : List Bytes) (pool : Mem.Pool) (cs : List Copy), (∀ c ∈ cs, Fair sx sepList c) → Same sx id sepList pool cs

theorem answer_final {sepList : List Bytes} {env : Env} {id : Nat} {m resp : Msg} (hq : Asks m) :
    answer sepList (nextMsgId id env.idRand) m resp = final sepList env id m resp := by
  unfold answer final sepB
  rcases hq.1 with h | h
  · by_cases hs : Separate sepList m
    · rw [if_neg (by rw [h]; decide), if_pos hs, h]
      simp [hs]
    · rw [if_neg (by rw [h]; decide), if_neg hs, h]
      simp [hs]
  · rw [if_pos h, h]
    simp [CON, NON]

theorem bytes_enc {m : Msg} (h : Sendable m) : bytes m = enc m := by
  obtain ⟨⟨buf, n⟩, h⟩ := h
  have h' : format m (List.replicate 1152 0) 1152 = .ok (buf, n) := h
  unfold bytes
  rw [h']
  exact (format_take h).2

/-- How the server and the simple server correspond. -/
structure Corr (As : List Addr) (s : Srv) (t : State) : Prop where
  own : s.msgId = t.own
  unseen : ∀ a, t.last a = none → ofAddr s a = none
  seen : ∀ a i r, t.last a = some (i, r) → Holds a i r s
  only : ∀ a i r, t.last a = some (i, r) → a ∈ As

theorem pigeon : ∀ {l k : List Addr}, l.Nodup → l ⊆ k → l.length ≤ k.length
  | [], _, _, _ => Nat.zero_le _
  | a :: l, k, hn, hs => by
    rw [List.nodup_cons] at hn
    have ha : a ∈ k := hs List.mem_cons_self
    have hsub : l ⊆ k.erase a := by
      intro x hx
      refine (List.mem_erase_of_ne ?_).2 (hs (List.mem_cons_of_mem _ hx))
      rintro rfl
      exact hn.1 hx
    have ih := pigeon hn.2 hsub
    have := List.length_erase_of_mem ha
    have : 0 < k.length := List.length_pos_of_mem ha
    rw [List.length_cons]
    omega

/-- With at most eight clients nobody is forgotten. -/
theorem others {sx : Bool} {As : List Addr} {s s' : Srv} {t : State} {c : Copy} {o : List Obs} {e : Option Err} (hc : Corr As s t) (hT : Tidy s)
    (hA : As.length ≤ 8) (ha : c.a ∈ As) (h : StepRel sx s c.env (.datagram c.a c.d) s' o e) : ∀ b, b ≠ c.a → ofAddr s' b = ofAddr s b := by
  obtain ⟨-, h2 | ⟨h2, h3, -⟩⟩ := others_step h hT
  · exact h2
  exfalso
  have hsub : c.a :: s.trans.map (·.addr) ⊆ As := by
    intro b hb
    rcases List.mem_cons.1 hb with rfl | hb
    · exact ha
    · obtain ⟨u, hu, rfl⟩ := List.mem_map.1 hb
      obtain ⟨i, hi⟩ := List.mem_iff_getElem?.1 hu
      have hl := look_eq hT.distinct hi (h3 u hu)
      cases hk : t.last u.addr with
      | none =>
        have := hc.unseen _ hk
        rw [ofAddr_look, hl] at this
        cases this
      | some x => exact hc.only _ x.1 x.2 hk
  have hnd : (c.a :: s.trans.map (·.addr)).Nodup := by
    refine List.nodup_cons.2 ⟨?_, ?_⟩
    · intro hb
      obtain ⟨u, hu, he⟩ := List.mem_map.1 hb
      obtain ⟨i, hi⟩ := List.mem_iff_getElem?.1 hu
      have hl := look_eq hT.distinct hi (h3 u hu)
      rw [he, ← ofAddr_look, h2] at hl
      cases hl
    · rw [List.nodup_iff_pairwise_ne, List.pairwise_map, List.pairwise_iff_getElem]
      intro i j hi hj hij h1
      have := hT.distinct i j _ _ (List.getElem?_eq_getElem hi) (List.getElem?_eq_getElem hj) (h3 _ (List.getElem_mem hi)) (h3 _ (List.getElem_mem hj)) h1
      omega
  have := pigeon hnd hsub
  rw [List.length_cons, List.length_map, hT.len] at this
  have h8 : NUM_TRANS = 8 := rfl
  omega

/-- A request that is new for the simple server. -/
theorem fresh_step {sx : Bool} {As : List Addr} {s s' : Srv} {t : State} {c : Copy} {o : List Obs} {e : Option Err} (hc : Corr As s t) (hT : Tidy s)
    (hA : As.length ≤ 8) (ha : c.a ∈ As) (hf : Fair sx s.sepList c) (h0 : c.m.msgId ≠ 0) (ht : ∀ b, ¬ Transfer s b)
    (hn : ∀ i r, t.last c.a = some (i, r) → i ≠ c.m.msgId) (h : StepRel sx s c.env (.datagram c.a c.d) s' o e) :
    (calls o, sends o) = (fresh s.sepList t c).2 ∧ Corr As s' (fresh s.sepList t c).1 ∧ ∀ b, ¬ Transfer s' b := by
  have hoth := others hc hT hA ha h
  have hmatch : ∀ u, ofAddr s c.a = some u → matchReq u c.m = false := by
    intro u hu
    cases hk : t.last c.a with
    | none =>
      rw [hc.unseen _ hk] at hu
      cases hu
    | some x =>
      obtain ⟨v, hv, h1, h2, -⟩ := hc.seen _ x.1 x.2 hk
      rw [hu] at hv
      cases hv
      cases hm : matchReq u c.m with
      | false => rfl
      | true => exact absurd ((h2.symm.trans (matchReq_iff.1 hm).2)) (hn x.1 x.2 hk)
  obtain ⟨u, L, r, o2, h1, h2, h3, h4, -, h5⟩ := new_request hT h hf.carries hf.fine.arrives hf.fine.create (fun _ => hf.fine.ack) hf.asks
    (fun _ => h0) hmatch
  have hreg : u.blk.type = .regular := by
    rcases h1 with ⟨h1, -⟩ | ⟨-, rfl, -⟩
    · exact Classical.byContradiction fun hne => ht _ ⟨u, h1, hne⟩
    · rfl
  have hob := generate_call hf.known (by simpa [cleared] using hreg) h3
  have hB := generate_built hf.app h3
  have hgen : r.resp = c.resp ∧ r.err = none ∧ r.blk.type = .regular := by
    unfold generate at h3
    rw [if_neg (by rw [checkCritical_ne]; exact fun h => h hf.known), if_neg (by simp [cleared, hreg]),
      hf.handle (cleared c.env u) (by simpa [cleared] using h2)] at h3
    cases h3
    exact ⟨rfl, rfl, hreg⟩
  obtain ⟨b, hb⟩ := hf.fits (nextMsgId s.msgId c.env.idRand)
  rw [answer_final hf.asks] at hb
  obtain ⟨hsend, -⟩ := Client.formats_iff.1 hb
  have hbf := hB.final (sepList := s.sepList) (env := c.env) (id := s.msgId) hf.carries.fields.1
  rw [hgen.1] at h5 hB hbf
  rcases h5 with ⟨x, g, -⟩ | ⟨-, g, -⟩ | ⟨-, -, g1, g2, -, -, q, p, g4, g5, g6⟩
  · rw [hgen.2.1] at g; cases g
  · exact absurd hsend (g hf.fine.send hf.fine.copyReq hf.fine.copyResp hf.fine.timer hB.cls hB.detail)
  have hpe := hbf.copy
  rw [g5] at hpe
  have hpe : p = final s.sepList c.env s.msgId c.m c.resp := by simpa using hpe
  obtain ⟨c1, -, -, -, c5, -, -⟩ := copy_ok_fields g4
  have hbytes : bytes (answer s.sepList (nextMsgId t.own c.env.idRand) c.m c.resp) = enc (final s.sepList c.env s.msgId c.m c.resp) := by
    rw [← hc.own, answer_final hf.asks, bytes_enc hsend]
  have hcalls : calls o = [(c.a, c.m)] := by
    rw [h4, hob]
    simp [cleared, calls, h2]
  refine ⟨?_, ?_, ?_⟩
  · unfold fresh
    dsimp only
    rw [hbytes, hcalls, g2]
  · have hH : Holds c.a c.m.msgId (enc (final s.sepList c.env s.msgId c.m c.resp)) s' := by
      refine ⟨_, g6, ?_, c5, ?_, ?_⟩
      · simp only [recorded]; rw [c1, hf.carries.fields.1.ver]; decide
      · simp only [recorded]; rw [hpe]
      · simp only [recorded]; rw [hpe]; exact hsend
    have hlast : ∀ b, (fresh s.sepList t c).1.last b = if b = c.a then .some (c.m.msgId, enc (final s.sepList c.env s.msgId c.m c.resp)) else t.last b := by
      intro b
      unfold fresh
      dsimp only
      rw [hbytes]
    refine ⟨?_, ?_, ?_, ?_⟩
    · rw [g1]
      unfold fresh newId
      dsimp only
      rw [hc.own]
      by_cases hp : c.m.type = CON ∧ ¬ Separate s.sepList c.m
      · rw [if_pos hp, if_pos ⟨hp.1, decide_eq_false (fun hn => hp.2 hn.2)⟩]
      · rw [if_neg hp, if_neg]
        rintro ⟨k1, k2⟩
        exact hp ⟨k1, fun hs => (of_decide_eq_false k2) ⟨k1, hs⟩⟩
    · intro b hb
      rw [hlast] at hb
      by_cases hba : b = c.a
      · rw [if_pos hba] at hb; cases hb
      · rw [if_neg hba] at hb
        rw [hoth b hba]
        exact hc.unseen b hb
    · intro b i r' hb
      rw [hlast] at hb
      by_cases hba : b = c.a
      · rw [if_pos hba] at hb
        cases hb
        rw [hba]
        exact hH
      · rw [if_neg hba] at hb
        obtain ⟨v, hv, k⟩ := hc.seen b i r' hb
        exact ⟨v, (hoth b hba).trans hv, k⟩
    · intro b i r' hb
      rw [hlast] at hb
      by_cases hba : b = c.a
      · rw [hba]; exact ha
      · rw [if_neg hba] at hb
        exact hc.only b i r' hb
  · intro b
    rintro ⟨v, hv, hne⟩
    by_cases hba : b = c.a
    · rw [hba, g6] at hv
      cases hv
      exact hne hgen.2.2
    · rw [hoth b hba] at hv
      exact ht b ⟨v, hv, hne⟩

/-- A repetition. -/
theorem again_step {sx : Bool} {As : List Addr} {s s' : Srv} {t : State} {c : Copy} {o : List Obs} {e : Option Err} {r : Bytes} (hc : Corr As s t)
    (hT : Tidy s) (hA : As.length ≤ 8) (ha : c.a ∈ As) (hf : Fair sx s.sepList c) (ht : ∀ b, ¬ Transfer s b)
    (hl : t.last c.a = some (c.m.msgId, r)) (h : StepRel sx s c.env (.datagram c.a c.d) s' o e) :
    (calls o, sends o) = ([], again s.sepList c.a c.m r) ∧ Corr As s' t ∧ ∀ b, ¬ Transfer s' b := by
  have hoth := others hc hT hA ha h
  have hh := hc.seen _ _ _ hl
  obtain ⟨c1, -, -, c3⟩ := hh.dup hT h hf.carries hf.asks.1
  rcases c3 with ⟨c3, c4⟩ | ⟨-, c3⟩
  · have hH := c4 hf.fine.arrives
    obtain ⟨u, hat, k1, k2, -⟩ := hh
    have hsame : s'.msgId = s.msgId ∧ ∀ v, ofAddr s' c.a = some v → v.blk = u.blk := by
      cases step_view h hT c.a with
      | untouched g ho hd =>
        rcases hd c.d rfl with hx | ⟨hx, -⟩
        · exact absurd hf.fine.arrives.1 hx
        · rw [hat] at hx; cases hx
      | evicted b d hb hev => cases hev; exact absurd rfl hb
      | timer i v r hev => cases hev
      | exchange d' v r' L hev h0 hv hta hact hout ho he h' hid =>
        cases hev
        have hv : v = u := by
          rcases hv with hv | ⟨hv, -⟩
          · rw [hat] at hv; cases hv; rfl
          · rw [hat] at hv; cases hv
        subst hv
        have hmm : ∀ m', Got sx c.env c.d m' → IsNew v m' → False := by
          intro m' hg hnew
          have := hf.carries.unique hg.1
          subst this
          have hfr := hnew.fresh
          rw [matchReq_of k1 k2 rfl] at hfr
          cases hfr
        have hr : r'.msgId = s.msgId ∧ (r'.trans.active = true → r'.trans.blk = v.blk) := by
          cases hout with
          | again h => exact ⟨rfl, fun _ => rfl⟩
          | lost => exact ⟨rfl, fun hx => by cases hx⟩
          | dupAck => exact ⟨rfl, fun _ => rfl⟩
          | dupResp => exact ⟨rfl, fun _ => rfl⟩
          | dupFail => exact ⟨rfl, fun hx => by cases hx⟩
          | dupNon => exact ⟨rfl, fun _ => rfl⟩
          | acked => exact ⟨rfl, fun _ => rfl⟩
          | ackFail => exact ⟨rfl, fun hx => by cases hx⟩
          | rejected => exact ⟨rfl, fun hx => by cases hx⟩
          | ackLost m' hg hnew => exact (hmm m' hg hnew).elim
          | genFail m' hg hnew => exact (hmm m' hg hnew).elim
          | sendFail m' hg hnew => exact (hmm m' hg hnew).elim
          | done m' hg hnew => exact (hmm m' hg hnew).elim
        refine ⟨hid.trans hr.1, fun w hw => ?_⟩
        by_cases hra : r'.trans.active = true
        · rw [if_pos hra, hw] at h'
          cases h'
          exact hr.2 hra
        · rw [if_neg hra, hw] at h'; cases h'
    refine ⟨by rw [c1, c3], ⟨hsame.1.trans hc.own, ?_, ?_, hc.only⟩, ?_⟩
    · intro b hb
      by_cases hba : b = c.a
      · rw [hba, hl] at hb; cases hb
      · rw [hoth b hba]; exact hc.unseen b hb
    · intro b i r' hb
      by_cases hba : b = c.a
      · rw [hba, hl] at hb
        cases hb
        rw [hba]
        exact hH
      · obtain ⟨v, hv, k⟩ := hc.seen b i r' hb
        exact ⟨v, (hoth b hba).trans hv, k⟩
    · intro b
      rintro ⟨v, hv, hne⟩
      by_cases hba : b = c.a
      · rw [hba] at hv
        rw [hsame.2 v hv] at hne
        exact ht c.a ⟨u, hat, hne⟩
      · rw [hoth b hba] at hv
        exact ht b ⟨v, hv, hne⟩
  · exact absurd ⟨hf.fine.arrives, hf.fine.send, hf.fine.ack⟩ c3

theorem one_step {sx : Bool} {As : List Addr} {s s' : Srv} {t : State} {c : Copy} {o : List Obs} {e : Option Err} (hc : Corr As s t) (hT : Tidy s)
    (hA : As.length ≤ 8) (ha : c.a ∈ As) (hf : Fair sx s.sepList c) (h0 : c.m.msgId ≠ 0) (ht : ∀ b, ¬ Transfer s b)
    (h : StepRel sx s c.env (.datagram c.a c.d) s' o e) :
    (calls o, sends o) = (step s.sepList t c).2 ∧ Corr As s' (step s.sepList t c).1 ∧ ∀ b, ¬ Transfer s' b := by
  unfold step
  cases hl : t.last c.a with
  | none => exact fresh_step hc hT hA ha hf h0 ht (fun i r hx => by rw [hl] at hx; cases hx) h
  | some x =>
    obtain ⟨i, r⟩ := x
    dsimp only
    by_cases hi : i = c.m.msgId
    · rw [if_pos hi]
      subst hi
      exact again_step hc hT hA ha hf ht hl h
    · rw [if_neg hi]
      refine fresh_step hc hT hA ha hf h0 ht (fun i' r' hx => ?_) h
      rw [hl] at hx
      cases hx
      exact hi

theorem all_steps {sx : Bool} {As : List Addr} {sepList : List Bytes} (hA : As.length ≤ 8) : ∀ (cs : List Copy) (s : Srv) (t : State), Corr As s t → Tidy s →
    (∀ b, ¬ Transfer s b) → SOK s → s.sepList = sepList → (∀ c ∈ cs, Fair sx sepList c ∧ c.m.msgId ≠ 0 ∧ c.a ∈ As) →
    ∃ s' tr, Server.run sx s (cs.map Copy.ev) = .ok (s', tr) ∧ tr.map (fun o => (calls o, sends o)) = run sepList t cs
  | [], s, t, _, _, _, _, _, _ => ⟨s, [], rfl, rfl⟩
  | c :: cs, s, t, hc, hT, ht, hs, hsl, hall => by
    subst hsl
    obtain ⟨hf, h0, ha⟩ := hall c List.mem_cons_self
    obtain ⟨⟨s1, o, e⟩, h, hs1⟩ := step_good (sx := sx) (s := s) (env := c.env) (ev := .datagram c.a c.d) hf.safe
      (fun a d he => by cases he; exact hf.harmless) hs
    have hrel := step_rel h
    obtain ⟨g1, g2, g3⟩ := one_step hc hT hA ha hf h0 ht hrel
    obtain ⟨s', tr, k1, k2⟩ := all_steps hA cs s1 _ g2 (hrel.tidy hT) g3 hs1 hrel.sepList (fun x hx => hall x (List.mem_cons_of_mem _ hx))
    refine ⟨s', o :: tr, ?_, ?_⟩
    · rw [List.map_cons]
      unfold Server.run Copy.ev
      rw [h]
      simp only at k1 ⊢
      unfold Copy.ev at k1
      rw [k1]
    · rw [List.map_cons, g1, k2]
      rfl

/-- C143, the part that holds for at most eight clients and ids other than 0. -/
theorem C143_simple_partial (sx : Bool) (id : Nat) (sepList : List Bytes) (pool : Mem.Pool) (cs : List Copy) (As : List Addr) (hA : As.length ≤ 8)
    (h : ∀ c ∈ cs, Fair sx sepList c ∧ c.m.msgId ≠ 0 ∧ c.a ∈ As) : Same sx id sepList pool cs := by
  have hnone : ∀ a, ofAddr (init id sepList pool) a = none := fun a => ofAddr_init id sepList pool a
  refine all_steps hA cs _ _ ⟨rfl, fun a _ => hnone a, (fun a i r hx => by cases hx), fun a i r hx => by cases hx⟩ (init_tidy _ _ _) ?_
    (init_sok id sepList pool) rfl h
  rintro b ⟨t, hb, -⟩
  rw [hnone] at hb
  cases hb

/-- What the simple server gives to the application for a client: its requests without the repetitions. -/
theorem run_novel {sepList : List Bytes} (a : Addr) : ∀ (cs : List Copy) (t : State),
    (((run sepList t cs).flatMap Prod.fst).filter (fun x => decide (x.1 = a))).map Prod.snd =
      novel ((t.last a).map Prod.fst) ((cs.filter (fun c => decide (c.a = a))).map Copy.m)
  | [], _ => rfl
  | c :: cs, t => by
    have hrec := run_novel (sepList := sepList) a cs (step sepList t c).1
    show ((((step sepList t c).2.1 ++ (run sepList (step sepList t c).1 cs).flatMap Prod.fst)).filter _).map Prod.snd = _
    rw [List.filter_append, List.map_append, hrec, List.filter_cons]
    have hfresh : ∀ (hx : step sepList t c = fresh sepList t c) (hne : (t.last c.a).map Prod.fst ≠ some c.m.msgId),
        ((step sepList t c).2.1.filter (fun x => decide (x.1 = a))).map Prod.snd ++
          novel (((step sepList t c).1.last a).map Prod.fst) ((cs.filter (fun c => decide (c.a = a))).map Copy.m) =
        novel ((t.last a).map Prod.fst) ((if decide (c.a = a) = true then c :: cs.filter (fun c => decide (c.a = a)) else
          cs.filter (fun c => decide (c.a = a))).map Copy.m) := by
      intro hx hne
      rw [hx]
      unfold fresh
      dsimp only
      by_cases ha : c.a = a
      · subst ha
        rw [if_pos rfl, if_pos (decide_eq_true rfl), List.filter_cons, if_pos (decide_eq_true rfl), List.map_cons]
        show _ = if _ then _ else _
        rw [if_neg hne]
        rfl
      · rw [if_neg (fun h => ha h.symm), if_neg (by rw [decide_eq_true_eq]; exact ha), List.filter_cons,
          if_neg (by rw [decide_eq_true_eq]; exact ha)]
        rfl
    cases hl : t.last c.a with
    | none =>
      refine hfresh ?_ (by rw [hl]; exact fun h => by cases h)
      unfold step
      rw [hl]
    | some x =>
      obtain ⟨i, r⟩ := x
      by_cases hi : i = c.m.msgId
      · have hx : step sepList t c = (t, [], if c.m.type = NON then [] else if Separate sepList c.m then [(c.a, emptyAck c.m.msgId)] else [(c.a, r)]) := by
          unfold step
          rw [hl]
          dsimp only
          rw [if_pos hi]
        rw [hx]
        dsimp only
        by_cases ha : c.a = a
        · subst ha
          rw [if_pos (decide_eq_true rfl), List.map_cons, hl]
          show _ = if _ then _ else _
          rw [if_pos (show (Option.some (i, r)).map Prod.fst = _ by rw [hi]; rfl)]
          rfl
        · rw [if_neg (by rw [decide_eq_true_eq]; exact ha)]
          rfl
      · refine hfresh ?_ (by rw [hl]; intro h; exact hi (Option.some.inj h))
        unfold step
        rw [hl]
        dsimp only
        rw [if_neg hi]

/-- So the application gets from each client its requests in order, once each, however the datagrams of the clients are interleaved and repeated. -/
theorem C143_once_partial (sx : Bool) (id : Nat) (sepList : List Bytes) (pool : Mem.Pool) (cs : List Copy) (As : List Addr) (hA : As.length ≤ 8)
    (h : ∀ c ∈ cs, Fair sx sepList c ∧ c.m.msgId ≠ 0 ∧ c.a ∈ As) (s' : Srv) (tr : List (List Obs))
    (hr : Server.run sx (init id sepList pool) (cs.map Copy.ev) = .ok (s', tr)) (a : Addr) :
    ((calls tr.flatten).filter (fun x => decide (x.1 = a))).map Prod.snd = novel none ((cs.filter (fun c => decide (c.a = a))).map Copy.m) := by
  obtain ⟨s2, tr2, h1, h2⟩ := C143_simple_partial sx id sepList pool cs As hA h
  rw [hr] at h1
  cases h1
  have hc : calls tr.flatten = (tr.map (fun o => (calls o, sends o))).flatMap Prod.fst := by
    clear h2 hr
    induction tr with
    | nil => rfl
    | cons o tr ih =>
      rw [List.flatten_cons, calls_append, ih, List.map_cons, List.flatMap_cons]
  rw [hc, h2, run_novel]
  rfl

/-! ## Examples -/

/-- A request of the examples, in the datagram `d` from `a`. -/
def exCopy (sx : Bool) (a : Addr) (d : Bytes) : Copy :=
  ⟨a, exEnv, d, match parse sx (recvBuf d) (min d.length 1152) with | .ok m => m | _ => create,
    { create with codeClass := 2, codeDetail := 5, payload := [104, 105] }⟩

/-- Decide whether a datagram is a request. -/
def fairB (sx : Bool) (d : Bytes) : Bool :=
  harmlessB sx d && test (parse sx (recvBuf d) (min d.length 1152)) (fun m => decide (Asks m ∧ AllKnown m))

theorem exCopy_fair {sx : Bool} {sepList : List Bytes} {a : Addr} {d : Bytes} (h : fairB sx d = true) : Fair sx sepList (exCopy sx a d) := by
  unfold fairB at h
  rw [Bool.and_eq_true] at h
  obtain ⟨m, hm, hq⟩ := test_ok h.2
  have hq := of_decide_eq_true hq
  have hcm : (exCopy sx a d).m = m := by
    unfold exCopy
    dsimp only
    rw [hm]
  have hcar : Carries sx d m := hm
  refine ⟨exEnv_app, exEnv_safe, exEnv_noFault, ?_, ?_, ?_, harmless_of h.1, fun _ _ => rfl, ?_⟩
  · rw [hcm]; exact hcar
  · rw [hcm]; exact hq.1
  · rw [hcm]; exact hq.2
  · intro own
    rw [hcm]
    have hl : m.token.length ≤ 8 := hcar.fields.1.token
    have hsend : ∀ ty id, ty ≠ RST → ∃ b, Formats { (exCopy sx a d).resp with type := ty, msgId := id, token := m.token } b := by
      intro ty id hty
      refine ⟨_, Client.formats_iff.2 ⟨sendable_plain ?_ rfl hl ?_, rfl⟩⟩
      · exact ⟨(fun hc => absurd hc.1 (show ¬ (2 = 0) by decide)), fun hr => absurd hr hty⟩
      · exact show 2 ≤ 1024 by decide
    unfold answer
    split
    · exact hsend _ _ (by decide)
    · split
      · exact hsend _ _ (by decide)
      · exact hsend _ _ (by decide)

/-- Two clients whose requests are interleaved and repeated; the second path has a separate response. -/
def exCopies (sx : Bool) : List Copy :=
  [exCopy sx [1] exGet, exCopy sx [2] exGetB, exCopy sx [1] exGet, exCopy sx [2] exGetB, exCopy sx [1] exNon, exCopy sx [2] exGet, exCopy sx [1] exNon]

theorem exCopies_ok (sx : Bool) : ∀ c ∈ exCopies sx, Fair sx exSep c ∧ c.m.msgId ≠ 0 ∧ c.a ∈ [[1], [2]] := by
  have h1 : fairB sx exGet = true := by cases sx <;> decide +kernel
  have h2 : fairB sx exGetB = true := by cases sx <;> decide +kernel
  have h3 : fairB sx exNon = true := by cases sx <;> decide +kernel
  have hid : ∀ c ∈ exCopies sx, c.m.msgId ≠ 0 ∧ c.a ∈ [[1], [2]] := by
    have : (exCopies sx).all (fun c => decide (c.m.msgId ≠ 0 ∧ c.a ∈ [[1], [2]])) = true := by cases sx <;> decide +kernel
    exact fun c hc => of_decide_eq_true (List.all_eq_true.1 this c hc)
  intro c hc
  refine ⟨?_, hid c hc⟩
  unfold exCopies at hc
  rcases List.mem_cons.1 hc with rfl | hc
  · exact exCopy_fair h1
  rcases List.mem_cons.1 hc with rfl | hc
  · exact exCopy_fair h2
  rcases List.mem_cons.1 hc with rfl | hc
  · exact exCopy_fair h1
  rcases List.mem_cons.1 hc with rfl | hc
  · exact exCopy_fair h2
  rcases List.mem_cons.1 hc with rfl | hc
  · exact exCopy_fair h3
  rcases List.mem_cons.1 hc with rfl | hc
  · exact exCopy_fair h1
  rcases List.mem_cons.1 hc with rfl | hc
  · exact exCopy_fair h3
  · cases hc

/-- The theorem applies to them. -/
example (sx : Bool) : Same sx 100 exSep exPool (exCopies sx) :=
  C143_simple_partial sx 100 exSep exPool (exCopies sx) [[1], [2]] (by decide) (exCopies_ok sx)

/-- What happens: the repeated requests are answered with the acknowledgement or the response of before, or not at all. -/
example (sx : Bool) : (run exSep ⟨100, fun _ => none⟩ (exCopies sx)).map (fun x => (x.1.map (fun y => (y.1, y.2.msgId)), x.2)) = [
    ([([1], 5)], [([1], [0x61, 0x45, 0, 5, 0xAA, 0xFF, 104, 105])]),
    ([([2], 6)], [([2], emptyAck 6), ([2], [0x41, 0x45, 0, 101, 0xAB, 0xFF, 104, 105])]),
    ([], [([1], [0x61, 0x45, 0, 5, 0xAA, 0xFF, 104, 105])]),
    ([], [([2], emptyAck 6)]),
    ([([1], 7)], [([1], [0x50, 0x45, 0, 102, 0xFF, 104, 105])]),
    ([([2], 5)], [([2], [0x61, 0x45, 0, 5, 0xAA, 0xFF, 104, 105])]),
    ([], [])] := by cases sx <;> decide +kernel

/-! ## Why the full statement fails -/

theorem not_same {sx : Bool} {id : Nat} {sepList : List Bytes} {pool : Mem.Pool} {cs : List Copy}
    (h : test (Server.run sx (init id sepList pool) (cs.map Copy.ev)) (fun r =>
      decide (r.2.map (fun o => (calls o).length) ≠ (run sepList ⟨id % 65536, fun _ => none⟩ cs).map (fun x => x.1.length))) = true) :
    ¬ Same sx id sepList pool cs := by
  rintro ⟨s', tr, h1, h2⟩
  obtain ⟨r, h3, h4⟩ := test_ok h
  rw [h1] at h3
  cases h3
  refine of_decide_eq_true h4 ?_
  rw [← h2, List.map_map]
  rfl

/-- Nine clients, and then the request of the first one again. -/
def exNine (sx : Bool) : List Copy := ([[1], [2], [3], [4], [5], [6], [7], [8], [9], [1]] : List Addr).map (fun a => exCopy sx a exGet)

/-- The bound is exact: with nine clients the first one is forgotten, and its request is executed again when it is repeated. -/
theorem C143_exact (sx : Bool) : ∃ As : List Addr, As.length = 9 ∧ (∀ c ∈ exNine sx, Fair sx exSep c ∧ c.m.msgId ≠ 0 ∧ c.a ∈ As) ∧
    ¬ Same sx 100 exSep exPool (exNine sx) := by
  refine ⟨[[1], [2], [3], [4], [5], [6], [7], [8], [9]], rfl, ?_, not_same (by cases sx <;> decide +kernel)⟩
  have h1 : fairB sx exGet = true := by cases sx <;> decide +kernel
  have hid : (exNine sx).all (fun c => decide (c.m.msgId ≠ 0 ∧ c.a ∈ ([[1], [2], [3], [4], [5], [6], [7], [8], [9]] : List Addr))) = true := by
    cases sx <;> decide +kernel
  intro c hc
  refine ⟨?_, of_decide_eq_true (List.all_eq_true.1 hid c hc)⟩
  obtain ⟨a, -, rfl⟩ := List.mem_map.1 hc
  exact exCopy_fair h1

/-- A request with id 0 is not executed, although it is the first one. -/
theorem C143_zero (sx : Bool) : Fair sx exSep (exCopy sx exA exZero) ∧ ¬ Same sx 100 exSep exPool [exCopy sx exA exZero] :=
  ⟨exCopy_fair (by cases sx <;> decide +kernel), not_same (by cases sx <;> decide +kernel)⟩

theorem C143_violated (sx : Bool) : ¬ C143_statement sx := by
  intro h
  obtain ⟨As, -, h1, h2⟩ := C143_exact sx
  exact h2 (h 100 exSep exPool _ (fun c hc => (h1 c hc).1))

end FreeCoAP.Server.Simple
