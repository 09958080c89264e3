import Verif.Server.LemmasServe

/-! # Receiving a body in blocks -/

namespace FreeCoAP.Server

open FreeCoAP.Msg

/-- The bodies received from one sender. -/
theorem mem_bodies {o : List Obs} {a : Addr} {i : Nat} {b : Bytes} : (a, i, b) ∈ bodies o ↔ Obs.rx a i b ∈ o := by
  simp only [bodies, List.mem_filterMap]
  constructor
  · rintro ⟨x, hx, h⟩
    cases x <;> simp at h
    obtain ⟨rfl, rfl, rfl⟩ := h
    exact hx
  · intro h
    exact ⟨_, h, rfl⟩

theorem bodiesOf_other {o : List Obs} {a : Addr} (h : ∀ x ∈ o, x.addr ≠ a) : bodiesOf a o = [] := by
  unfold bodiesOf
  rw [List.filter_eq_nil_iff]
  rintro ⟨b, i, x⟩ hx he
  have := h _ (mem_bodies.1 hx)
  simp at he
  exact this he

theorem bodiesOf_map (a : Addr) (l : List (Nat × Bytes)) : (l.map (fun x => (a, x))).filter (fun x => decide (x.1 = a)) = l.map (fun x => (a, x)) := by
  induction l with
  | nil => rfl
  | cons x xs ih => simp [ih]

/-- One step for the transfer of a sender for which the application is not called. -/
theorem blk_step {B : Blk → Prop} {B' : List (Nat × Bytes) → Blk → Prop} {Q : List (Nat × Bytes) → Prop} {sx : Bool} {s s' : Srv} {env : Env} {ev : Event} {o : List Obs}
    {e : Option Err} {a : Addr} (ht : Tidy s) (h : StepRel sx s env ev s' o e) (hi : ∀ t, ofAddr s a = some t → B t.blk)
    (h0 : B Blk.none) (hmono : ∀ b, B b → B' [] b) (hQ : Q []) (hc : ∀ m, (a, m) ∉ calls o)
    (hgen : ∀ d t L m r, ev = .datagram a d → arrived sx a (env, ev) = some m → Got sx env d m → B t.blk → generate env t L m = .ok (r, []) →
      (r.err = none → B' r.rx r.blk) ∧ Q r.rx) :
    ∃ l, (∀ t, ofAddr s' a = some t → B' l t.blk) ∧ Q l ∧ bodiesOf a o = l.map (fun x => (a, x)) := by
  cases step_view h ht a with
  | untouched h1 ho hd _ =>
    exact ⟨[], fun t ht => hmono _ (hi t (by rw [← h1]; exact ht)), hQ, bodiesOf_other ho⟩
  | evicted b d hb hev h1 t ht hi hb'' ho =>
    exact ⟨[], fun t ht => (by rw [h1] at ht; cases ht), hQ, bodiesOf_other ho⟩
  | timer i u r hev hiu hu hta hact har hout ho he h' hid =>
    subst ho
    have hu' := hi u hu
    cases hout with
    | expired => exact ⟨[], fun t ht => (by rw [h'] at ht; cases ht), hQ, rfl⟩
    | noTimer =>
      refine ⟨[], fun t ht => ?_, hQ, rfl⟩
      rw [h'] at ht
      obtain ⟨rfl, -⟩ := zero_inactive ht
      exact hmono _ hu'
    | resent h he hs hse =>
      refine ⟨[], fun t ht => ?_, hQ, rfl⟩
      rw [h'] at ht
      obtain ⟨rfl, -⟩ := zero_inactive ht
      exact hmono _ hu'
    | noSend =>
      refine ⟨[], fun t ht => ?_, hQ, rfl⟩
      rw [h'] at ht
      obtain ⟨rfl, -⟩ := zero_inactive ht
      exact hmono _ hu'
  | exchange d u r L hev hacc hu hta hact hout ho he h' hid =>
    subst hev ho
    have hu' : B u.blk := by
      rcases hu with hu | ⟨-, rfl, -⟩
      · exact hi u hu
      · exact h0
    have hzero : ∀ (l : List (Nat × Bytes)) (r' : TRes), r' = r → r'.trans = Trans.zero → ∀ t, ofAddr s' a = some t → B' l t.blk := by
      rintro l r' rfl hz t ht
      rw [h', hz] at ht
      cases ht
    have hsame : ∀ r' : TRes, r' = r → r'.trans.blk = u.blk → ∀ t, ofAddr s' a = some t → B' [] t.blk := by
      rintro r' rfl h2 t ht
      rw [h'] at ht
      obtain ⟨rfl, -⟩ := zero_inactive ht
      rw [h2]
      exact hmono _ hu'
    have hnil : ∀ m (r : BRes) o2, generate env (cleared env u) L m = .ok (r, o2) → (∀ m, (a, m) ∉ calls o2) → o2 = [] := by
      intro m r o2 hg hn
      rcases generate_calls hg with rfl | ⟨-, rfl⟩
      · rfl
      · exfalso
        apply hn m
        show (a, m) ∈ [((cleared env u).addr, m)]
        simp [cleared, hta]
    cases hout with
    | again hx => exact ⟨[], hsame _ rfl rfl, hQ, rfl⟩
    | lost e h o ho =>
      refine ⟨[], hzero _ _ rfl rfl, hQ, ?_⟩
      rcases ho with rfl | ⟨-, -, i, hi, rfl⟩ <;> rfl
    | dupAck m hm h1 h2 h3 => exact ⟨[], hsame _ rfl rfl, hQ, rfl⟩
    | dupResp m hm h1 h2 h3 hs => exact ⟨[], hsame _ rfl rfl, hQ, rfl⟩
    | dupFail => exact ⟨[], hzero _ _ rfl rfl, hQ, rfl⟩
    | dupNon m hm h1 h2 => exact ⟨[], hsame _ rfl rfl, hQ, rfl⟩
    | acked m hm h1 h2 => exact ⟨[], hsame _ rfl rfl, hQ, rfl⟩
    | ackFail m hm h1 h2 => exact ⟨[], hzero _ _ rfl rfl, hQ, rfl⟩
    | rejected m hm h1 h2 h3 o ho =>
      refine ⟨[], hzero _ _ rfl rfl, hQ, ?_⟩
      rcases ho with rfl | ⟨-, rfl⟩ <;> rfl
    | ackLost => exact ⟨[], hzero _ _ rfl rfl, hQ, rfl⟩
    | genFail m hm hn hp r o2 hg e he =>
      have h2 : o2 = [] := by
        refine hnil m r o2 hg (fun m hm => hc m ?_)
        simp only [calls_append, List.mem_append]
        exact Or.inl (Or.inr hm)
      subst h2
      refine ⟨r.rx, hzero _ _ rfl rfl, (hgen d (cleared env u) L m r rfl (arrived_got hacc hm) hm hu' hg).2, ?_⟩
      simp only [bodiesOf, bodies_append, bodies_pre, bodies_rx, hta, List.append_nil, List.nil_append, bodiesOf_map]
    | sendFail m hm hn hp r o2 hg hre o3 e ho hf =>
      have hc3 : bodies o3 = [] := by rcases ho with rfl | ⟨rfl, -⟩ <;> rfl
      have h2 : o2 = [] := by
        refine hnil m r o2 hg (fun m hm => hc m ?_)
        simp only [calls_append, List.mem_append]
        exact Or.inl (Or.inl (Or.inr hm))
      subst h2
      refine ⟨r.rx, hzero _ _ rfl rfl, (hgen d (cleared env u) L m r rfl (arrived_got hacc hm) hm hu' hg).2, ?_⟩
      simp only [bodiesOf, bodies_append, bodies_pre, bodies_rx, hc3, hta, List.append_nil, List.nil_append, bodiesOf_map]
    | done m hm hn hp r o2 hg hre hs q p hq hp2 =>
      have h2 : o2 = [] := by
        refine hnil m r o2 hg (fun m hm => hc m ?_)
        simp only [calls_append, List.mem_append]
        exact Or.inl (Or.inl (Or.inl (Or.inr hm)))
      subst h2
      have hP := hgen d (cleared env u) L m r rfl (arrived_got hacc hm) hm hu' hg
      refine ⟨r.rx, fun t ht => ?_, hP.2, ?_⟩
      · rw [h'] at ht
        obtain ⟨rfl, -⟩ := zero_inactive ht
        exact hP.1 hre
      · simp only [bodiesOf, bodies_append, bodies_pre, bodies_rx, bodies_arm, hta, bodies_sent,
          List.append_nil, List.nil_append, bodiesOf_map]

/-! ## One request -/

theorem CollectT.not_regular {method room size : Nat} {uri got : Bytes} {rx : Option Nat} {b : Blk}
    (h : CollectT method uri rx room got size b) : b.type ≠ .regular := by
  intro h'
  have := h.type
  rw [h'] at this
  simp at this

theorem CollectT.shrink {method room size : Nat} {uri got : Bytes} {rx : Option Nat} {b : Blk} (o1 o2 : Option Block)
    (h : CollectT method uri rx room got size b) :
    CollectT method uri rx room got (sizeOf2 o1 size) (shrink b o1 o2) := by
  refine ⟨h.type, h.meth, h.path, h.callback, h.cap, h.buf, h.inside, h.start, h.stop, ?_⟩
  have := h.width
  cases o1 with
  | none => exact this
  | some o => simp only [Server.shrink, sizeOf2, this]

/-- The transfer is not receiving. -/
def NotTaking (b : Blk) : Prop := b.type ≠ .put1 ∧ b.type ≠ .post1

theorem NotTaking.none : NotTaking Blk.none := ⟨by decide, by decide⟩

/-- A request handled while nothing is being received. -/
theorem idle_step {env : Env} {opMem : Bool} {again : Blk → Large → Msg → Out BRes} {b : Blk} {L : Large} {req resp : Msg} {x : BRes}
    (hb : NotTaking b) (h : NextStep env opMem again b L req resp x) : x.rx = [] ∧ NotTaking x.blk := by
  cases h with
  | badOp h => exact ⟨rfl, NotTaking.none⟩
  | regular o1 o2 h1 h2 ht => exact ⟨rfl, hb⟩
  | one o1 o2 h1 h2 ht x hx =>
    rcases ht with h | h
    · exact absurd h hb.1
    · exact absurd h hb.2
  | two o1 o2 h1 h2 ht x hx =>
    cases hx with
    | bad => exact ⟨rfl, NotTaking.none⟩
    | fail => exact ⟨rfl, NotTaking.none⟩
    | more => exact ⟨rfl, hb⟩
    | last => exact ⟨rfl, NotTaking.none⟩

/-- The outcomes of a request while a body is being received. -/
inductive Taken (env : Env) (method room size : Nat) (uri got : Bytes) (rx : Option Nat) (req resp : Msg) (x : BRes) : Prop where
  | badOp (h : (∃ e, parseBlockOp BLOCK1 req.ops = .err e) ∨ (∃ e, parseBlockOp BLOCK2 req.ops = .err e))
      (h1 : x.err = none) (h2 : x.resp = withCode resp 4 0) (h3 : x.blk = Blk.none) (h4 : x.rx = [])
  | bad (o : Option Block) (ho : parseBlockOp BLOCK1 req.ops = .ok o)
      (h : req.codeDetail ≠ method ∨ cpath 256 req.ops ≠ uri ∨ numOf o * sizeOf2 o size = got.length ∧ req.payload = [])
      (h1 : x.err = none) (h2 : x.resp = withCode resp 4 0) (h3 : x.blk = Blk.none) (h4 : x.rx = [])
  | order (o : Option Block) (ho : parseBlockOp BLOCK1 req.ops = .ok o)
      (h : req.codeDetail = method ∧ cpath 256 req.ops = uri ∧ numOf o * sizeOf2 o size ≠ got.length)
      (h1 : x.err = none) (h2 : x.resp = withCode resp 4 8) (h3 : x.blk = Blk.none) (h4 : x.rx = [])
  | large (o : Option Block) (h : Continues method uri got.length size o req) (hl : room < got.length + req.payload.length)
      (h1 : x.err = none) (h2 : x.resp = withCode resp 4 13) (h3 : x.blk = Blk.none) (h4 : x.rx = [])
  | fail (o : Option Block) (h : Continues method uri got.length size o req)
      (h1 : x.err ≠ none) (hf : ¬ (env.opMem1 = true ∧ ∃ szx, calcBlockSzx (sizeOf2 o size) = .ok szx)) (h4 : x.rx = [])
  | more (o : Option Block) (h : Continues method uri got.length size o req) (hl : got.length + req.payload.length ≤ room)
      (hm : moreOf o = true) (h1 : x.err = none) (val : Bytes) (hv : blockSpec val = some ⟨numOf o, true, sizeOf2 o size⟩)
      (hvl : val.length = 3) (h2 : x.resp = withCode (addOp resp BLOCK1 val) 2 31)
      (h3 : CollectT method uri rx room (got ++ req.payload) (sizeOf2 o size) x.blk) (h4 : x.rx = [])
  | whole (o : Option Block) (h : Continues method uri got.length size o req) (hl : got.length + req.payload.length ≤ room)
      (hm : moreOf o = false) (id : Nat) (hid : rx = some id) (h3 : NotTaking x.blk) (h4 : x.rx = [(id, got ++ req.payload)])
      (h5 : x.err = none → x.resp.codeClass = 2 → Succeeds env (id, got ++ req.payload))
      (h6 : ∃ bytes e val, bytes.take e = got ++ req.payload ∧ blockSpec val = some ⟨numOf o, false, sizeOf2 o size⟩ ∧ val.length = 3 ∧
        ((env.rx id bytes e req (addOp resp BLOCK1 val)).err = none → (env.rx id bytes e req (addOp resp BLOCK1 val)).bodyEnd = 0 →
          (env.rx id bytes e req (addOp resp BLOCK1 val)).resp.codeClass = 2 → (env.rx id bytes e req (addOp resp BLOCK1 val)).resp.codeDetail < 32 →
          x.err = none ∧ x.resp = withCode (env.rx id bytes e req (addOp resp BLOCK1 val)).resp 2 (env.rx id bytes e req (addOp resp BLOCK1 val)).resp.codeDetail))

theorem collect_step {env : Env} {opMem : Bool} {b : Blk} {L : Large} {req resp : Msg} {x : BRes}
    {method room size : Nat} {uri got : Bytes} {rx : Option Nat} (hs : CollectT method uri rx room got size b)
    (h : NextStep env opMem (fun b L resp => nextBlockStep env env.opMem2 (fun _ _ _ => .ub) b L req resp) b L req resp x) :
    Taken env method room size uri got rx req resp x := by
  cases h with
  | badOp h => exact .badOp h rfl rfl rfl rfl
  | regular o1 o2 h1 h2 ht => exact absurd ht hs.not_regular
  | two o1 o2 h1 h2 ht x hx => exact two_not ht hs.type
  | one o1 o2 h1 h2 ht x hx =>
    have hS := hs.shrink o1 o2
    have em : (Server.shrink b o1 o2).type.method = method := hS.meth
    have eu : (Server.shrink b o1 o2).blockUri = uri := hS.path
    have ew : (Server.shrink b o1 o2).block1Size = sizeOf2 o1 size := hS.width
    have es : (Server.shrink b o1 o2).block1Next = got.length := hS.start
    have ef : (Server.shrink b o1 o2).bodyEnd = got.length := hS.stop
    have ec : (Server.shrink b o1 o2).bodyLen = room := hS.cap
    have hn := parseBlockOp_num h1
    have hnum : ∀ szx, calcBlockSzx (sizeOf2 o1 size) = .ok szx → numOf o1 * sizeOf2 o1 size = got.length →
        got.length >>> (szx + 4) = numOf o1 := by
      intro szx hz hf
      have e := (calcBlockSzx_ok.1 hz).2
      rw [Nat.shiftRight_eq_div_pow, ← e, ← hf]
      refine Nat.mul_div_cancel _ ?_
      rw [e]
      exact Nat.two_pow_pos _
    have hcopy : ∀ (p : Nat) (bytes bytes' : Bytes), (Server.shrink b o1 o2).body = some (p, bytes) →
        wrs bytes got.length req.payload = .ok bytes' → got.length + req.payload.length ≤ room →
        bytes'.length = room ∧ bytes'.take (got ++ req.payload).length = got ++ req.payload := by
      intro p bytes bytes' hb hw hl
      obtain ⟨p', bytes0, g1, g2, g3⟩ := hS.buf
      rw [hb] at g1
      cases g1
      obtain ⟨w1, w2⟩ := wrs_eq_ok.1 hw
      refine ⟨by rw [wrs_length hw, g2], ?_⟩
      rw [w2, g3, List.length_append]
      have : got ++ req.payload ++ List.drop (got.length + req.payload.length) bytes =
        (got ++ req.payload) ++ List.drop (got.length + req.payload.length) bytes := rfl
      rw [List.take_append_of_le_length (by simp), List.take_of_length_le (by simp)]
    cases hx with
    | bad h =>
      rw [em, eu, ew, es] at h
      exact .bad o1 h1 h rfl rfl rfl rfl
    | order g1 g2 g3 =>
      rw [em] at g1
      rw [eu] at g2
      rw [ew, es] at g3
      exact .order o1 h1 ⟨g1, g2, g3⟩ rfl rfl rfl rfl
    | large g1 g2 g3 g4 g5 =>
      rw [em] at g1
      rw [eu] at g2
      rw [ew, es] at g3
      rw [ec, es] at g5
      exact .large o1 ⟨h1, g1, g2, g3, g4⟩ g5 rfl rfl rfl rfl
    | fail g1 g2 g3 g4 e hf =>
      rw [em] at g1
      rw [eu] at g2
      rw [ew, es] at g3 hf
      refine .fail o1 ⟨h1, g1, g2, g3, g4⟩ (by simp) ?_ rfl
      rintro ⟨f1, szx, f2⟩
      have f3 := hf f1 szx f2
      rw [hnum szx f2 g3] at f3
      omega
    | more g1 g2 g3 g4 g5 hm szx hz val hv p bytes bytes' hb hw =>
      rw [em] at g1
      rw [eu] at g2
      rw [ew, es] at g3
      rw [ec, es] at g5
      rw [ew] at hz
      rw [es, ew, hnum szx hz g3] at hv
      rw [es] at hw
      obtain ⟨v1, v2⟩ := blockVal_spec hn hz hv
      obtain ⟨c1, c2⟩ := hcopy p bytes bytes' hb hw g5
      refine .more o1 ⟨h1, g1, g2, g3, g4⟩ g5 hm rfl val v1 v2 rfl ?_ rfl
      refine ⟨hS.type, hS.meth, hS.path, hS.callback, hS.cap, ⟨p, bytes', rfl, c1, c2⟩, by rw [List.length_append]; exact g5, ?_, ?_, hS.width⟩
      · simp only [es, List.length_append]
      · simp only [ef, List.length_append]
    | whole g1 g2 g3 g4 g5 hm szx hz val hv p bytes bytes' hb hw id hrx rr hr hlen y hy =>
      rw [em] at g1
      rw [eu] at g2
      rw [ew, es] at g3
      rw [ec, es] at g5
      rw [es] at hw
      rw [ew] at hz
      rw [es, ew, hnum szx hz g3] at hv
      obtain ⟨v1, v2⟩ := blockVal_spec hn hz hv
      obtain ⟨c1, c2⟩ := hcopy p bytes bytes' hb hw g5
      have hid : rx = some id := by rw [← hS.callback, hrx]
      have hy' : y.rx = [] ∧ NotTaking y.blk := by
        rcases hy with ⟨e, -, rfl⟩ | ⟨-, -, rfl⟩ | ⟨-, -, -, hy⟩ | ⟨-, -, -, ⟨-, rfl⟩ | ⟨-, rfl⟩⟩
        · exact ⟨rfl, NotTaking.none⟩
        · exact ⟨rfl, NotTaking.none⟩
        · refine idle_step ?_ (nextBlockStep_cases hy)
          constructor <;> simp only <;> split <;> simp
        · exact ⟨rfl, NotTaking.none⟩
        · exact ⟨rfl, NotTaking.none⟩
      rw [List.length_append] at c2
      refine .whole o1 ⟨h1, g1, g2, g3, g4⟩ g5 hm id hid hy'.2 ?_ ?_ ?_
      · simp only [hy'.1, ef]
        rw [c2]
      · intro k1 k2
        dsimp only at k1 k2
        subst hr
        refine ⟨bytes', (Server.shrink b o1 o2).bodyEnd + req.payload.length, req, addOp resp BLOCK1 val, ?_, ?_⟩
        rotate_left
        · rcases hy with ⟨e, -, rfl⟩ | ⟨-, q, rfl⟩ | ⟨q1, q2, -, -⟩ | ⟨q1, q2, -, -⟩
          · cases k1
          · exact absurd k2 q
          · exact ⟨q1, q2⟩
          · exact ⟨q1, q2⟩
        · rw [ef, c2]
      · subst hr
        refine ⟨bytes', (Server.shrink b o1 o2).bodyEnd + req.payload.length, val, by rw [ef, c2], v1, v2, ?_⟩
        intro k1 k2 k3 k4
        rcases hy with ⟨e, q, rfl⟩ | ⟨-, q, rfl⟩ | ⟨q1, q2, q3, -⟩ | ⟨q1, q2, -, ⟨-, rfl⟩ | ⟨q3, rfl⟩⟩
        · rw [k1] at q; cases q
        · exact absurd k3 q
        · omega
        · exact ⟨rfl, rfl⟩
        · exact absurd k4 q3

/-! ## Histories -/

/-- What is known of a sender in an upload that began with the message `m1`, after the
messages `hist` arrived. -/
def TakeInv (method room b1 : Nat) (uri : Bytes) (rx : Option Nat) (m1 : Msg) (hist : List Msg) (b : Blk) : Prop :=
  NotTaking b ∨ ∃ ms size, ms.Sublist hist ∧ ms.head? = some m1 ∧ Collected method uri b1 ms size ∧
    CollectT method uri rx room (joined ms) size b

theorem joined_snoc (ms : List Msg) (m : Msg) : joined (ms ++ [m]) = joined ms ++ m.payload := by
  simp [joined]

/-- What is known of a body that was received. -/
def BodyOK (method b1 : Nat) (uri : Bytes) (rx : Option Nat) (m1 : Msg) (hist : List Msg) (x : Nat × Bytes) : Prop :=
  rx = some x.1 ∧ ∃ ms, ms.Sublist hist ∧ ms.head? = some m1 ∧ Whole method uri b1 ms ∧ x.2 = joined ms

/-- A request in an upload, seen in the history. -/
theorem taken_inv {env : Env} {method room size b1 : Nat} {uri : Bytes} {rx : Option Nat} {m1 m resp : Msg} {x : BRes}
    {hist : List Msg} {ms : List Msg} (hsub : ms.Sublist hist) (hhd : ms ≠ [] → ms.head? = some m1) (hm1 : ms = [] → m = m1)
    (hcol : Collected method uri b1 ms size)
    (h : Taken env method room size uri (joined ms) rx m resp x) :
    (x.err = none → TakeInv method room b1 uri rx m1 (hist ++ [m]) x.blk) ∧ x.rx.length ≤ 1 ∧
    (∀ y ∈ x.rx, BodyOK method b1 uri rx m1 (hist ++ [m]) y) ∧ (x.rx ≠ [] → NotTaking x.blk) := by
  have hs1 : (ms ++ [m]).Sublist (hist ++ [m]) := hsub.append (List.Sublist.refl _)
  have hh1 : (ms ++ [m]).head? = some m1 := by
    cases ms with
    | nil => rw [hm1 rfl]; rfl
    | cons y ys => simpa using hhd (by simp)
  cases h with
  | badOp h h1 h2 h3 h4 => rw [h3, h4]; exact ⟨fun _ => Or.inl NotTaking.none, by simp, by simp, by simp⟩
  | bad o ho h h1 h2 h3 h4 => rw [h3, h4]; exact ⟨fun _ => Or.inl NotTaking.none, by simp, by simp, by simp⟩
  | order o ho h h1 h2 h3 h4 => rw [h3, h4]; exact ⟨fun _ => Or.inl NotTaking.none, by simp, by simp, by simp⟩
  | large o h hl h1 h2 h3 h4 => rw [h3, h4]; exact ⟨fun _ => Or.inl NotTaking.none, by simp, by simp, by simp⟩
  | fail o h h1 hf h4 => rw [h4]; exact ⟨fun h => absurd h h1, by simp, by simp, by simp⟩
  | more o h hl hm h1 val hv hvl h2 h3 h4 =>
    rw [h4]
    refine ⟨fun _ => Or.inr ⟨ms ++ [m], _, hs1, hh1, hcol.next h hm, by rw [joined_snoc]; exact h3⟩, by simp, by simp, by simp⟩
  | whole o h hl hm id hid h3 h4 h5 =>
    rw [h4]
    refine ⟨fun _ => Or.inl h3, by simp, ?_, fun _ => h3⟩
    intro y hy
    rw [List.mem_singleton] at hy
    subst hy
    exact ⟨hid, ms ++ [m], hs1, hh1, ⟨ms, m, size, o, rfl, hcol, h, hm⟩, (joined_snoc _ _).symm⟩

theorem generate_inv {env : Env} {t : Trans} {L : Large} {m m1 : Msg} {r : BRes} {hist : List Msg} {method room b1 : Nat} {uri : Bytes}
    {rx : Option Nat} (hB : TakeInv method room b1 uri rx m1 hist t.blk) (hg : generate env t L m = .ok (r, [])) :
    (r.err = none → TakeInv method room b1 uri rx m1 (hist ++ [m]) r.blk) ∧ r.rx.length ≤ 1 ∧
    (∀ y ∈ r.rx, BodyOK method b1 uri rx m1 (hist ++ [m]) y) ∧ (r.rx ≠ [] → NotTaking r.blk) ∧
    (NotTaking t.blk → r.rx = [] ∧ NotTaking r.blk) := by
  have mono : ∀ b, TakeInv method room b1 uri rx m1 hist b → TakeInv method room b1 uri rx m1 (hist ++ [m]) b := by
    rintro b (h | ⟨ms, size, h1, h2⟩)
    · exact Or.inl h
    · exact Or.inr ⟨ms, size, h1.trans (List.sublist_append_left _ _), h2⟩
  by_cases hk : AllKnown m
  · by_cases hreg : t.blk.type = .regular
    · have := generate_call hk hreg hg
      cases this
    · have hn := nextBlockStep_cases (generate_next hk hreg hg).1
      rcases hB with hB | ⟨ms, size, h1, h2, h3, h4⟩
      · obtain ⟨g1, g2⟩ := idle_step hB hn
        rw [g1]
        exact ⟨fun _ => Or.inl g2, by simp, by simp, by simp, fun _ => ⟨rfl, g2⟩⟩
      · obtain ⟨k1, k2, k3, k4⟩ := taken_inv (m1 := m1) h1 (fun _ => h2) (fun e => by rw [e] at h2; cases h2) h3 (collect_step h4 hn)
        refine ⟨k1, k2, k3, k4, ?_⟩
        rintro ⟨a1, a2⟩
        rcases h4.type with h | h
        · exact absurd h a1
        · exact absurd h a2
  · obtain ⟨-, g2, g3, -, -⟩ := generate_bad hk hg
    rw [g2, g3]
    exact ⟨fun _ => mono _ hB, by simp, by simp, by simp, fun h => ⟨rfl, h⟩⟩

theorem idle_run {sx : Bool} {a : Addr} : ∀ {evs : List (Env × Event)} {s s' : Srv} {tr : List (List Obs)}, Tidy s →
    Server.run sx s evs = .ok (s', tr) → (∀ t, ofAddr s a = some t → NotTaking t.blk) → (∀ o ∈ tr, ∀ m, (a, m) ∉ calls o) →
    tr.flatMap (bodiesOf a) = []
  | [], s, s', tr, _, h, _, _ => by cases h; rfl
  | (env, ev) :: evs, s, s', tr, ht, h, hi, hc => by
    obtain ⟨s1, o, e, tr1, h1, h2, rfl⟩ := run_cons h
    have hr := step_rel h1
    obtain ⟨l, g1, rfl, g3⟩ := blk_step (B := NotTaking) (B' := fun _ => NotTaking) (Q := fun l => l = []) ht hr hi NotTaking.none
      (fun _ h => h) rfl (hc o (by simp)) (by
        intro d t L m r _ _ _ hB hg
        obtain ⟨g1, g2, g3, g4, g5⟩ := generate_inv (method := 0) (room := 0) (b1 := 0) (uri := []) (rx := none) (m1 := create) (hist := [])
          (Or.inl hB) hg
        exact ⟨fun _ => (g5 hB).2, (g5 hB).1⟩)
    rw [List.flatMap_cons, g3, idle_run (hr.tidy ht) h2 g1 (fun o ho => hc o (by simp [ho]))]
    rfl

theorem BodyOK.mono {method b1 : Nat} {uri : Bytes} {rx : Option Nat} {m1 : Msg} {hist hist' : List Msg} {x : Nat × Bytes}
    (h : BodyOK method b1 uri rx m1 hist x) (hs : hist.Sublist hist') : BodyOK method b1 uri rx m1 hist' x := by
  obtain ⟨h1, ms, h2, h3⟩ := h
  exact ⟨h1, ms, h2.trans hs, h3⟩

/-- A body that is received was sent block by block before; at most one is received. -/
theorem collect_run {sx : Bool} {a : Addr} {method room b1 : Nat} {uri : Bytes} {rx : Option Nat} {m1 : Msg} :
    ∀ {evs : List (Env × Event)} {s s' : Srv} {tr : List (List Obs)} {hist : List Msg}, Tidy s → Server.run sx s evs = .ok (s', tr) →
    (∀ t, ofAddr s a = some t → TakeInv method room b1 uri rx m1 hist t.blk) → (∀ o ∈ tr, ∀ m, (a, m) ∉ calls o) →
    (tr.flatMap (bodiesOf a)).length ≤ 1 ∧
    ∀ (k : Nat) (o : List Obs), tr[k]? = some o → ∀ x, (a, x) ∈ bodies o →
      BodyOK method b1 uri rx m1 (hist ++ (evs.take (k + 1)).filterMap (arrived sx a)) x
  | [], s, s', tr, hist, _, h, _, _ => by cases h; simp
  | (env, ev) :: evs, s, s', tr, hist, ht, h, hi, hc => by
    obtain ⟨s1, o, e, tr1, h1, h2, rfl⟩ := run_cons h
    have hr := step_rel h1
    obtain ⟨l, g1, ⟨q1, q2⟩, g3⟩ := blk_step (B := TakeInv method room b1 uri rx m1 hist)
      (B' := fun l b => TakeInv method room b1 uri rx m1 (hist ++ (arrived sx a (env, ev)).toList) b ∧ (l ≠ [] → NotTaking b))
      (Q := fun l => l.length ≤ 1 ∧ (∀ y ∈ l, BodyOK method b1 uri rx m1 (hist ++ (arrived sx a (env, ev)).toList) y))
      ht hr hi (Or.inl NotTaking.none) (by
        rintro b (h | ⟨ms, size, h1, h2⟩)
        · exact ⟨Or.inl h, fun h => absurd rfl h⟩
        · exact ⟨Or.inr ⟨ms, size, h1.trans (List.sublist_append_left _ _), h2⟩, fun h => absurd rfl h⟩)
      ⟨by simp, by simp⟩ (hc o (by simp)) (by
        intro d t L m r _ harr _ hB hg
        obtain ⟨g1, g2, g3, g4, g5⟩ := generate_inv hB hg
        rw [harr]
        exact ⟨fun he => ⟨g1 he, g4⟩, g2, g3⟩)
    have hidle : l ≠ [] → ∀ t, ofAddr s1 a = some t → NotTaking t.blk := fun hl t ht => (g1 t ht).2 hl
    obtain ⟨r1, r2⟩ := collect_run (hr.tidy ht) h2 (fun t ht => (g1 t ht).1) (fun o ho => hc o (by simp [ho]))
    refine ⟨?_, ?_⟩
    · rw [List.flatMap_cons, g3, List.length_append, List.length_map]
      by_cases hl : l = []
      · rw [hl]; simpa using r1
      · rw [idle_run (hr.tidy ht) h2 (hidle hl) (fun o ho => hc o (by simp [ho]))]
        simpa using q1
    · intro k o' ho x hx
      cases k with
      | zero =>
        simp only [List.getElem?_cons_zero, Option.some.injEq] at ho
        subst ho
        have : (a, x) ∈ bodiesOf a o := by
          unfold bodiesOf
          rw [List.mem_filter]
          exact ⟨hx, by simp⟩
        rw [g3, List.mem_map] at this
        obtain ⟨y, hy, hyx⟩ := this
        cases hyx
        have := q2 x hy
        refine this.mono ?_
        rw [List.take_succ_cons, List.filterMap_cons]
        cases arrived sx a (env, ev) <;> simp
      | succ k =>
        simp only [List.getElem?_cons_succ] at ho
        have := r2 k o' ho x hx
        refine this.mono ?_
        rw [List.take_succ_cons, List.filterMap_cons]
        cases arrived sx a (env, ev) <;> simp

/-! ## Progress -/

theorem alloc_len {L L' : Large} {l : Nat} {p : Option Nat} (h : L.alloc l = (p, L')) : L'.pool.len = L.pool.len := by
  unfold Large.alloc at h
  cases h
  simp only [Mem.Pool.alloc]
  split
  · rfl
  · split <;> rfl

/-- The beginning of the answer to a PUT or POST request. -/
theorem handleBlockwise_put {env : Env} {b : Blk} {L : Large} {req resp : Msg} {b1 b2 : Nat} {body : Bytes} {bodyLen : Nat}
    {rx : Option Nat} {x : BRes} (hg : req.codeDetail = 2 ∨ req.codeDetail = 3)
    (h : handleBlockwise env b L req resp b1 b2 body bodyLen rx = .ok x) :
    (x.err ≠ none ∧ x.blk = Blk.none ∧ x.rx = [] ∧
      (badSize b1 = true ∨ badSize b2 = true ∨ bodyLen > (clearBlockwise b L).2.pool.len ∨
        ((clearBlockwise b L).2.alloc bodyLen).1 = none ∨ rx = none)) ∨
    ∃ blk L', CollectT req.codeDetail (cpath 256 req.ops) rx (clearBlockwise b L).2.pool.len [] b1 blk ∧
      nextBlock env blk L' req resp = .ok x := by
  unfold handleBlockwise at h
  simp only at h
  split at h
  · rename_i hb; cases h; exact Or.inl ⟨by simp, rfl, rfl, Or.inl hb⟩
  split at h
  · rename_i hb; cases h; exact Or.inl ⟨by simp, rfl, rfl, Or.inr (Or.inl hb)⟩
  split at h
  · rename_i hb; cases h; exact Or.inl ⟨by simp, rfl, rfl, Or.inr (Or.inr (Or.inl hb))⟩
  split at h
  · rename_i hb; cases h; exact Or.inl ⟨by simp, rfl, rfl, Or.inr (Or.inr (Or.inr (Or.inl (by rw [hb]))))⟩
  rename_i hlen _ p L' hal
  rw [if_neg (by omega), if_pos (by omega)] at h
  split at h
  · cases h; exact Or.inl ⟨by simp, rfl, rfl, Or.inr (Or.inr (Or.inr (Or.inr rfl)))⟩
  rename_i id
  rw [uriStr_eq _ _ (by decide)] at h
  refine Or.inr ⟨_, L', ?_, h⟩
  refine ⟨?_, ?_, rfl, rfl, alloc_len hal, ⟨p, _, rfl, ?_, rfl⟩, Nat.zero_le _, rfl, rfl, rfl⟩
  · simp only
    split
    · exact Or.inl rfl
    · exact Or.inr rfl
  · rcases hg with hg | hg <;> simp [hg, TType.method]
  · rw [List.length_replicate]; exact alloc_len hal

/-- What the answer to a request in an upload is. -/
theorem receive_res {sx : Bool} {s s' : Srv} {env : Env} {a : Addr} {d : Bytes} {o : List Obs} {e : Option Err} {m : Msg}
    {base nbuf room method size : Nat} {uri got : Bytes} {rx : Option Nat} (ht : Tidy s) (hi : SInv base nbuf room s) (h8 : 8 ≤ nbuf)
    (h : StepRel sx s env (.datagram a d) s' o e) (hf : NoFault env) (hm : Carries sx d m)
    (hq : Asks m) (h0 : ofAddr s a = none → m.msgId ≠ 0) (hnew : ∀ t, ofAddr s a = some t → matchReq t m = false) (hk : AllKnown m)
    (hsz : BlockSize size) (hE : Expects s env a m method uri rx room got size) :
    ∃ resp r, resp.ops = [] ∧ resp.payload.length ≤ 1024 ∧
      (resp = create ∨ ∀ t, ∃ b2 body bodyLen, env.handle t m = .blockwise resp size b2 body bodyLen rx) ∧ Taken env method room size uri got rx m resp r ∧
      bodiesOf a o = r.rx.map (fun x => (a, x)) ∧
      (r.err = none → (∃ d, d < 32 ∧ (r.resp = withCode resp 4 d ∨ ∃ val, val.length = 3 ∧ r.resp = withCode (addOp resp BLOCK1 val) 2 d)) →
        e = none ∧ (∃ y, sends o = (if m.type = CON ∧ Separate s.sepList m then [(a, emptyAck m.msgId)] else []) ++ [(a, y)] ∧
          Formats (final s.sepList env s.msgId m r.resp) y ∧
          header y = some ⟨(final s.sepList env s.msgId m r.resp).type, r.resp.codeClass % 8, r.resp.codeDetail % 32,
            (final s.sepList env s.msgId m r.resp).msgId, m.token⟩) ∧
        ∃ t, ofAddr s' a = some t ∧ t.req.ver ≠ 0 ∧ t.req.msgId = m.msgId ∧ t.blk = r.blk) := by
  obtain ⟨u, L, r, o2, hu', hta, hg, -, hbod, hres⟩ := new_request ht h hm hf.arrives hf.create (fun _ => hf.ack) hq h0 hnew
  have key : ∃ resp, resp.ops = [] ∧ resp.payload.length ≤ 1024 ∧
      (resp = create ∨ ∀ t, ∃ b2 body bodyLen, env.handle t m = .blockwise resp size b2 body bodyLen rx) ∧ Taken env method room size uri got rx m resp r := by
    rcases hE with ⟨id, t, hat, -, -, hT⟩ | ⟨rfl, hS⟩
    · have hut : u = t := by
        rcases hu' with ⟨hu', -⟩ | ⟨hu', -⟩
        · rw [hat] at hu'; cases hu'; rfl
        · rw [hat] at hu'; cases hu'
      subst hut
      have hn := (generate_next hk (t := cleared env u) hT.not_regular hg).1
      exact ⟨create, rfl, by simp [create, destroyed], Or.inl rfl, collect_step (b := (cleared env u).blk) hT (nextBlockStep_cases hn)⟩
    · obtain ⟨resp, b2, body, bodyLen, g1, g2, g3, g4, g5, g6⟩ := hS.app
      have hreg : u.blk.type = .regular := by
        rcases hu' with ⟨h1, -⟩ | ⟨-, rfl, -⟩
        · apply Classical.byContradiction
          intro hne
          exact hS.idle ⟨u, h1, hne⟩
        · rfl
      obtain ⟨r1, r2, p, L', r3⟩ := room_for (l := bodyLen) ht hi h8 hu' hreg g5
      have hg' := generate_app (t := cleared env u) hreg hk (g1 _) hg
      rcases handleBlockwise_put (by rw [hS.meth]; exact hS.kind) hg' with ⟨-, -, -, hx⟩ | ⟨blk, L2, hT, hnb⟩
      · exfalso
        change badSize size = true ∨ badSize b2 = true ∨ bodyLen > (clearBlockwise u.blk L).2.pool.len ∨
            ((clearBlockwise u.blk L).2.alloc bodyLen).1 = none ∨ rx = none at hx
        rw [r1, r2, r3, badSize_ok hsz] at hx
        rcases hx with hx | hx | hx | hx | hx
        · cases hx
        · rcases g4 with rfl | g4
          · simp [badSize] at hx
          · rw [badSize_ok g4] at hx; cases hx
        · omega
        · cases hx
        · exact g6 hx
      · have e1 : (clearBlockwise (cleared env u).blk L).2.pool.len = room := by
          change (clearBlockwise u.blk L).2.pool.len = room
          rw [r1, r2]
        rw [e1, hS.meth, hS.path] at hT
        exact ⟨resp, g2, g3, Or.inr (fun t => ⟨_, _, _, g1 t⟩), collect_step hT (nextBlockStep_cases hnb)⟩
  obtain ⟨resp, hro, hrp, hwh, hT⟩ := key
  refine ⟨resp, r, hro, hrp, hwh, hT, by unfold bodiesOf; rw [hbod, bodiesOf_map], ?_⟩
  rintro he ⟨dd, hdd, hrr⟩
  have hsh : Shape (final s.sepList env s.msgId m r.resp) := by
    refine ⟨?_, ?_⟩
    · rintro ⟨h, -⟩
      simp only [final] at h
      rcases hrr with hrr | ⟨val, -, hrr⟩ <;> rw [hrr] at h <;> cases h
    · intro h
      simp only [final] at h
      split at h
      · split at h <;> cases h
      · cases h
  have hsend : Sendable (final s.sepList env s.msgId m r.resp) := by
    rcases hrr with hrr | ⟨val, hvl, hrr⟩
    · refine sendable_plain hsh ?_ hm.fields.1.token ?_
      · rw [hrr]; exact hro
      · rw [hrr]; exact hrp
    · refine sendable_one (op := ⟨BLOCK1, val⟩) ?_ (by simp only; omega) hsh hm.fields.1.token ?_
      · rw [hrr]; simp [final, withCode, addOp, hro, opListAdd]
      · rw [hrr]; exact hrp
  have hcd : r.resp.codeClass < 8 ∧ r.resp.codeDetail < 32 := by
    rcases hrr with hrr | ⟨val, hvl, hrr⟩ <;> rw [hrr]
    · exact ⟨by show (4 : Nat) < 8; decide, hdd⟩
    · exact ⟨by show (2 : Nat) < 8; decide, hdd⟩
  rcases hres with ⟨x, k1, -⟩ | ⟨-, k1, -⟩ | ⟨-, k1, k2, k3, k4, k5, q, p, k6, k7, k8⟩
  · rw [he] at k1; cases k1
  · exact absurd hsend (k1 hf.send hf.copyReq hf.copyResp hf.timer hcd.1 hcd.2)
  · obtain ⟨q1, q2⟩ := copy_req hm.fields.1 k6
    exact ⟨k1, ⟨_, k3, hsend.formats, final_header hm.fields.1⟩, _, k8, q1, q2, rfl⟩

/-- The request is refused. -/
theorem receive_bad {sx : Bool} {s s' : Srv} {env : Env} {a : Addr} {d : Bytes} {o : List Obs} {e : Option Err} {m : Msg}
    {base nbuf room method size dd : Nat} {uri got : Bytes} {rx : Option Nat} {ob : Option Block} (ht : Tidy s) (hi : SInv base nbuf room s) (h8 : 8 ≤ nbuf)
    (h : StepRel sx s env (.datagram a d) s' o e) (hf : NoFault env) (hm : Carries sx d m)
    (hq : Asks m) (h0 : ofAddr s a = none → m.msgId ≠ 0) (hnew : ∀ t, ofAddr s a = some t → matchReq t m = false) (hk : AllKnown m)
    (hsz : BlockSize size) (hE : Expects s env a m method uri rx room got size)
    (h1 : parseBlockOp BLOCK1 m.ops = .ok ob) (h2 : Block2OK m) (hme : m.codeDetail = method) (hu : cpath 256 m.ops = uri)
    (hd : (numOf ob * sizeOf2 ob size ≠ got.length ∧ dd = 8) ∨
      (numOf ob * sizeOf2 ob size = got.length ∧ m.payload = [] ∧ dd = 0) ∨
      (numOf ob * sizeOf2 ob size = got.length ∧ m.payload ≠ [] ∧ room < got.length + m.payload.length ∧ dd = 13)) :
    e = none ∧ (∃ y h, sends o = (if m.type = CON ∧ Separate s.sepList m then [(a, emptyAck m.msgId)] else []) ++ [(a, y)] ∧
      header y = some h ∧ h.cls = 4 ∧ h.detail = dd ∧ Answers s.sepList m h) ∧ bodiesOf a o = [] ∧ ¬ Transfer s' a := by
  obtain ⟨resp, r, hro, hrp, -, hT, hbod, hfin⟩ := receive_res ht hi h8 h hf hm hq h0 hnew hk hsz hE
  have hmin : BlockSize (sizeOf2 ob size) := by
    cases ob with
    | none => exact hsz
    | some b => exact (parseBlockOp_size h1).min hsz
  obtain ⟨szx, hszx⟩ := hmin.szx
  have fin : r.err = none → r.resp = withCode resp 4 dd → dd < 32 → r.blk = Blk.none → r.rx = [] →
      e = none ∧ (∃ y h, sends o = (if m.type = CON ∧ Separate s.sepList m then [(a, emptyAck m.msgId)] else []) ++ [(a, y)] ∧
      header y = some h ∧ h.cls = 4 ∧ h.detail = dd ∧ Answers s.sepList m h) ∧ bodiesOf a o = [] ∧ ¬ Transfer s' a := by
    intro e1 e2 e3 e4 e5
    obtain ⟨k1, ⟨y, k2, k3, k4⟩, t, k5, k6, k7, k8⟩ := hfin e1 ⟨dd, e3, Or.inl e2⟩
    refine ⟨k1, ⟨y, _, k2, k4, ?_, ?_, (final_answers hq.1).1⟩, by rw [hbod, e5]; rfl, ?_⟩
    · rw [e2]; rfl
    · rw [e2]; exact Nat.mod_eq_of_lt e3
    · rintro ⟨t', g1, g2⟩
      rw [k5] at g1
      cases g1
      rw [k8, e4] at g2
      exact g2 rfl
  cases hT with
  | badOp hb g1 g2 g3 g4 =>
    obtain ⟨o2, h2⟩ := h2
    rcases hb with ⟨e, hb⟩ | ⟨e, hb⟩
    · rw [h1] at hb; cases hb
    · rw [h2] at hb; cases hb
  | bad ob' ho hb g1 g2 g3 g4 =>
    rw [h1] at ho
    cases ho
    rcases hd with ⟨hd, -⟩ | ⟨hd, hd2, rfl⟩ | ⟨hd, hd2, -⟩
    · rcases hb with hb | hb | ⟨hb, -⟩
      · exact absurd hme hb
      · exact absurd hu hb
      · exact absurd hb hd
    · exact fin g1 g2 (by decide) g3 g4
    · rcases hb with hb | hb | ⟨-, hb⟩
      · exact absurd hme hb
      · exact absurd hu hb
      · exact absurd hb hd2
  | order ob' ho hb g1 g2 g3 g4 =>
    rw [h1] at ho
    cases ho
    rcases hd with ⟨hd, rfl⟩ | ⟨hd, -⟩ | ⟨hd, -⟩
    · exact fin g1 g2 (by decide) g3 g4
    · exact absurd hd hb.2.2
    · exact absurd hd hb.2.2
  | large ob' hb hl g1 g2 g3 g4 =>
    have := hb.option
    rw [h1] at this
    cases this
    rcases hd with ⟨hd, -⟩ | ⟨hd, hd2, -⟩ | ⟨hd, hd2, hd3, rfl⟩
    · exact absurd hb.start hd
    · exact absurd hd2 hb.payload
    · exact fin g1 g2 (by decide) g3 g4
  | fail ob' hb g1 hff g4 =>
    have := hb.option
    rw [h1] at this
    cases this
    exact absurd ⟨hf.op1, szx, hszx⟩ hff
  | more ob' hb hl =>
    have := hb.option
    rw [h1] at this
    cases this
    rcases hd with ⟨hd, -⟩ | ⟨hd, hd2, -⟩ | ⟨hd, hd2, hd3, rfl⟩
    · exact absurd hb.start hd
    · exact absurd hd2 hb.payload
    · omega
  | whole ob' hb hl =>
    have := hb.option
    rw [h1] at this
    cases this
    rcases hd with ⟨hd, -⟩ | ⟨hd, hd2, -⟩ | ⟨hd, hd2, hd3, rfl⟩
    · exact absurd hb.start hd
    · exact absurd hd2 hb.payload
    · omega

/-- The response to a request of an upload: 2.`d` with a Block1 option. -/
def Confirmation (s : Srv) (env : Env) (a : Addr) (m : Msg) (size : Nat) (rx : Option Nat) (ob : Option Block) (d : Nat) (o : List Obs) : Prop :=
  ∃ resp val, resp.ops = [] ∧ resp.payload.length ≤ 1024 ∧ (resp = create ∨ ∀ t, ∃ b2 body bodyLen, env.handle t m = .blockwise resp size b2 body bodyLen rx) ∧ val.length = 3 ∧
    blockSpec val = some ⟨numOf ob, moreOf ob, sizeOf2 ob size⟩ ∧
    sends o = (if m.type = CON ∧ Separate s.sepList m then [(a, emptyAck m.msgId)] else []) ++
      [(a, enc (final s.sepList env s.msgId m (withCode (addOp resp BLOCK1 val) 2 d)))] ∧
    Sendable (final s.sepList env s.msgId m (withCode (addOp resp BLOCK1 val) 2 d))

/-- The request carries the next block: what the server sends. -/
theorem receive_next_final {sx : Bool} {s s' : Srv} {env : Env} {a : Addr} {d : Bytes} {o : List Obs} {e : Option Err} {m : Msg}
    {base nbuf room method size : Nat} {uri got : Bytes} {rx : Option Nat} {ob : Option Block} (ht : Tidy s) (hi : SInv base nbuf room s) (h8 : 8 ≤ nbuf)
    (h : StepRel sx s env (.datagram a d) s' o e) (hf : NoFault env) (hm : Carries sx d m)
    (hq : Asks m) (h0 : ofAddr s a = none → m.msgId ≠ 0) (hnew : ∀ t, ofAddr s a = some t → matchReq t m = false) (hk : AllKnown m)
    (hsz : BlockSize size) (hE : Expects s env a m method uri rx room got size)
    (hc : Continues method uri got.length size ob m) (h2 : Block2OK m) (hl : got.length + m.payload.length ≤ room) :
    (moreOf ob = true → e = none ∧ bodiesOf a o = [] ∧ Receiving s' a m.msgId method uri rx room (got ++ m.payload) (sizeOf2 ob size) ∧
      Confirmation s env a m size rx ob 31 o) ∧
    (moreOf ob = false → ∃ id, rx = some id ∧ bodiesOf a o = [(a, id, got ++ m.payload)] ∧
      ∀ dd, dd < 32 → (∀ bytes e req resp, (env.rx id bytes e req resp).err = none ∧ (env.rx id bytes e req resp).bodyEnd = 0 ∧
        (env.rx id bytes e req resp).resp = withCode resp 2 dd) → e = none ∧ Confirmation s env a m size rx ob dd o) := by
  obtain ⟨resp, r, hro, hrp, hwh, hT, hbod, hfin⟩ := receive_res ht hi h8 h hf hm hq h0 hnew hk hsz hE
  have h1 := hc.option
  have hmin : BlockSize (sizeOf2 ob size) := by
    cases ob with
    | none => exact hsz
    | some b => exact (parseBlockOp_size h1).min hsz
  obtain ⟨szx, hszx⟩ := hmin.szx
  cases hT with
  | badOp hb g1 g2 g3 g4 =>
    obtain ⟨o2, h2⟩ := h2
    rcases hb with ⟨e, hb⟩ | ⟨e, hb⟩
    · rw [h1] at hb; cases hb
    · rw [h2] at hb; cases hb
  | bad ob' ho hb g1 g2 g3 g4 =>
    rw [h1] at ho
    cases ho
    rcases hb with hb | hb | ⟨-, hb⟩
    · exact absurd hc.meth hb
    · exact absurd hc.path hb
    · exact absurd hb hc.payload
  | order ob' ho hb g1 g2 g3 g4 =>
    rw [h1] at ho
    cases ho
    exact absurd hc.start hb.2.2
  | large ob' hb hl' g1 g2 g3 g4 => omega
  | fail ob' hb g1 hff g4 =>
    have := hb.option
    rw [h1] at this
    cases this
    exact absurd ⟨hf.op1, szx, hszx⟩ hff
  | more ob' hb hl' hmo g1 val hv hvl g2 g3 g4 =>
    have := hb.option
    rw [h1] at this
    cases this
    refine ⟨fun _ => ?_, fun h => by rw [hmo] at h; cases h⟩
    obtain ⟨k1, ⟨y, k2, k3, k4⟩, t, k5, k6, k7, k8⟩ := hfin g1 ⟨31, by decide, Or.inr ⟨val, hvl, g2⟩⟩
    refine ⟨k1, by rw [hbod, g4]; rfl, ⟨t, k5, k6, k7, by rw [k8]; exact g3⟩, resp, val, hro, hrp, hwh, hvl, by rw [hmo]; exact hv, ?_⟩
    rw [g2] at k3
    obtain ⟨buf, n, q1, q2⟩ := k3
    rw [k2, q2, (format_take q1).2]
    exact ⟨rfl, _, q1⟩
  | whole ob' hb hl' hmo id hid g3 g4 g5 g6 =>
    have := hb.option
    rw [h1] at this
    cases this
    refine ⟨fun h => (by rw [hmo] at h; cases h), fun _ => ⟨id, hid, by rw [hbod, g4]; rfl, ?_⟩⟩
    intro dd hdd hrx
    obtain ⟨bytes, ee, val, -, hv, hvl, g6⟩ := g6
    obtain ⟨w1, w2, w3⟩ := hrx bytes ee m (addOp resp BLOCK1 val)
    obtain ⟨q1, q2⟩ := g6 w1 w2 (by rw [w3]; rfl) (by rw [w3]; exact hdd)
    have q3 : r.resp = withCode (addOp resp BLOCK1 val) 2 dd := by rw [q2, w3]; rfl
    obtain ⟨k1, ⟨y, k2, k3, k4⟩, -⟩ := hfin q1 ⟨dd, hdd, Or.inr ⟨val, hvl, q3⟩⟩
    refine ⟨k1, resp, val, hro, hrp, hwh, hvl, by rw [hmo]; exact hv, ?_⟩
    rw [q3] at k3
    obtain ⟨buf, n, z1, z2⟩ := k3
    rw [k2, z2, (format_take z1).2]
    exact ⟨rfl, _, z1⟩

/-- The request carries the next block. -/
theorem receive_next {sx : Bool} {s s' : Srv} {env : Env} {a : Addr} {d : Bytes} {o : List Obs} {e : Option Err} {m : Msg}
    {base nbuf room method size : Nat} {uri got : Bytes} {rx : Option Nat} {ob : Option Block} (ht : Tidy s) (hi : SInv base nbuf room s) (h8 : 8 ≤ nbuf)
    (h : StepRel sx s env (.datagram a d) s' o e) (hf : NoFault env) (hm : Carries sx d m)
    (hq : Asks m) (h0 : ofAddr s a = none → m.msgId ≠ 0) (hnew : ∀ t, ofAddr s a = some t → matchReq t m = false) (hk : AllKnown m)
    (hsz : BlockSize size) (hE : Expects s env a m method uri rx room got size)
    (hc : Continues method uri got.length size ob m) (h2 : Block2OK m) (hl : got.length + m.payload.length ≤ room) :
    (moreOf ob = true → e = none ∧ bodiesOf a o = [] ∧ Receiving s' a m.msgId method uri rx room (got ++ m.payload) (sizeOf2 ob size) ∧
      ∃ x y, sends o = (if m.type = CON ∧ Separate s.sepList m then [(a, emptyAck m.msgId)] else []) ++ [(a, y)] ∧ Formats x y ∧
        (∃ h, header y = some h ∧ Answers s.sepList m h) ∧ Confirms (numOf ob) (sizeOf2 ob size) x) ∧
    (moreOf ob = false → ∃ id, rx = some id ∧ bodiesOf a o = [(a, id, got ++ m.payload)]) := by
  obtain ⟨g1, g2⟩ := receive_next_final ht hi h8 h hf hm hq h0 hnew hk hsz hE hc h2 hl
  refine ⟨fun hmo => ?_, fun hmo => ?_⟩
  · obtain ⟨k1, k2, k3, resp, val, hro, -, -, hvl, hv, k4, k5⟩ := g1 hmo
    refine ⟨k1, k2, k3, _, _, k4, k5.formats, ⟨_, final_header hm.fields.1, (final_answers hq.1).1⟩, rfl, rfl, val, ?_, by rw [← hmo]; exact hv⟩
    simp [final, withCode, addOp, hro, opListAdd]
  · obtain ⟨id, q1, q2, -⟩ := g2 hmo
    exact ⟨id, q1, q2⟩

/-- While a transfer is not disturbed, no body of the sender is complete. -/
theorem no_body {sx : Bool} {s s' : Srv} {env : Env} {ev : Event} {o : List Obs} {e : Option Err} {a : Addr}
    {id : Nat} {B : Blk → Prop} (hs : InTransfer B s a id) (ht : Tidy s)
    (h : StepRel sx s env ev s' o e) (hm : OnlyRepeats sx a id (env, ev)) : bodiesOf a o = [] := by
  obtain ⟨t, hat, h1, h2, h3⟩ := hs
  cases step_view h ht a with
  | untouched h1 ho hd _ => exact bodiesOf_other ho
  | evicted b d hb hev h1 t ht hi hb'' ho => exact bodiesOf_other ho
  | timer i u r hev hi hu hta hact har hout ho he h' hid =>
    subst ho
    cases hout <;> rfl
  | exchange d u r L hev h0 hu hta hact hout ho he h' hid =>
    subst hev ho
    have hu : ofAddr s a = some u := by
      rcases hu with hu | ⟨hu, -⟩
      · exact hu
      · rw [hat] at hu; cases hu
    rw [hat] at hu
    cases hu
    have hno : ∀ m, Got sx env d m → ¬ IsNew t m := by
      intro m hgot hn
      have hi := hm m (arrived_got h0 hgot) ⟨hn.type, hn.cls⟩
      have hf := hn.fresh
      rw [matchReq_of h1 h2 hi] at hf
      cases hf
    cases hout with
    | lost e h o ho => rcases ho with rfl | ⟨-, -, i, hi, rfl⟩ <;> rfl
    | rejected m hm h1 h2 h3 o ho => rcases ho with rfl | ⟨-, rfl⟩ <;> rfl
    | genFail m hm hn => exact absurd hn (hno m hm)
    | sendFail m hm hn => exact absurd hn (hno m hm)
    | done m hm hn => exact absurd hn (hno m hm)
    | _ => rfl

theorem no_bodies {sx : Bool} {s s' : Srv} {evs : List (Env × Event)} {tr : List (List Obs)} {a : Addr}
    {id : Nat} {B : Blk → Prop} (hs : InTransfer B s a id) (ht : Tidy s) (h : run sx s evs = .ok (s', tr)) (hk : Kept sx a s evs)
    (hm : ∀ x ∈ evs, OnlyRepeats sx a id x) : tr.flatMap (bodiesOf a) = [] := by
  induction evs generalizing s tr with
  | nil => cases h; rfl
  | cons x xs ih =>
    obtain ⟨env, ev⟩ := x
    obtain ⟨s1, o, e, t', h1, h2, rfl⟩ := run_cons h
    have hk1 := hk.2 s1 o e h1
    have hr := step_rel h1
    rw [List.flatMap_cons, no_body hs ht hr (hm _ (by simp)), List.nil_append]
    exact ih (hs.undisturbed ht hr hk1.now (hm _ (by simp))) (hr.tidy ht) h2 hk1 (fun x hx => hm x (by simp [hx]))

theorem Receiving.run {sx : Bool} {s s' : Srv} {evs : List (Env × Event)} {tr : List (List Obs)} {a : Addr}
    {id method room size : Nat} {uri got : Bytes} {rx : Option Nat} (hs : Receiving s a id method uri rx room got size)
    (ht : Tidy s) (h : run sx s evs = .ok (s', tr)) (hk : Kept sx a s evs)
    (hm : ∀ x ∈ evs, OnlyRepeats sx a id x) : Receiving s' a id method uri rx room got size :=
  InTransfer.run (B := CollectT method uri rx room got size) hs ht h hk hm

theorem run_sinv' {sx : Bool} {base nbuf len : Nat} {evs : List (Env × Event)} {s s' : Srv} {tr : List (List Obs)} (ht : Tidy s)
    (hi : SInv base nbuf len s) (h : run sx s evs = .ok (s', tr)) : SInv base nbuf len s' := run_sinv ht hi h

/-- The rest of an upload. -/
theorem receive_all {sx : Bool} {a : Addr} {uri : Bytes} {rx : Option Nat} {base nbuf room method size : Nat} (h8 : 8 ≤ nbuf) (hsz : BlockSize size) :
    ∀ (q : Asked) (rs : List Asked) (s s' : Srv) (tr : List (List Obs)) (i b1 : Nat) (got : Bytes), Tidy s → SInv base nbuf room s →
    BlockSize b1 → size ≤ b1 →
    Expects s q.env a q.m method uri rx room got b1 → got.length = i * size →
    got.length + (joined ((q :: rs).map (·.m))).length ≤ room →
    (∀ j x, (q :: rs)[j]? = some x → AsksFor sx method uri x ∧ Block2OK x.m ∧ AsksBlock1 x.m (i + j) (decide (j < rs.length)) size ∧
      x.m.payload ≠ [] ∧ (j < rs.length → x.m.payload.length = size)) →
    (ofAddr s a = none → q.m.msgId ≠ 0) → (∀ t, ofAddr s a = some t → matchReq t q.m = false) →
    (∀ x ∈ q.mid, OnlyRepeats sx a q.m.msgId x) → Chain sx a q.m.msgId rs →
    (∀ s1 o1 e1, step sx s q.env (.datagram a q.d) = .ok (s1, o1, e1) → rs ≠ [] → Kept sx a s1 (q.mid ++ script a rs)) →
    run sx s (script a (q :: rs)) = .ok (s', tr) →
    (∃ id, rx = some id ∧ ∃ o ∈ tr, bodiesOf a o = [(a, id, got ++ joined ((q :: rs).map (·.m)))]) ∧
    ∀ j, j < rs.length → ∃ x, Confirms (i + j) size x ∧ ∃ o ∈ tr, ∃ y, (a, y) ∈ sends o ∧ Formats x y
  | q, rs, s, s', tr, i, b1, got, ht, hi, hb1, hle, hE, hgot, hroom, hq, h0, hnew, hmid, hch, hk, hrun => by
    obtain ⟨hA, hB2, hB1, hpne, hpl⟩ := hq 0 q rfl
    have e1 : script a (q :: rs) = (q.env, .datagram a q.d) :: (q.mid ++ script a rs) := by simp [script]
    rw [e1] at hrun
    obtain ⟨s1, o, e, tr1, g1, g2, rfl⟩ := run_cons hrun
    obtain ⟨s2, t2, t3, g3, g4, rfl, -⟩ := run_append g2
    have hr := step_rel g1
    have hcon : Continues method uri got.length b1 (some ⟨i, decide (0 < rs.length), size⟩) q.m := by
      refine ⟨by rw [Nat.add_zero] at hB1; exact hB1, hA.method, hA.path, ?_, hpne⟩
      simp only [numOf, sizeOf2, Nat.min_eq_left hle]
      exact hgot.symm
    have hj : joined ((q :: rs).map (·.m)) = q.m.payload ++ joined (rs.map (·.m)) := by simp [joined]
    rw [hj, List.length_append] at hroom
    obtain ⟨n1, n2⟩ := receive_next ht hi h8 hr hA.noFault hA.carries hA.request.1 h0 hnew hA.known hb1 hE hcon hB2 (by omega)
    simp only [moreOf, numOf, sizeOf2, Nat.min_eq_left hle, decide_eq_true_eq, decide_eq_false_iff_not] at n1 n2
    cases rs with
    | nil =>
      obtain ⟨id, k1, k2⟩ := n2 (by simp)
      refine ⟨⟨id, k1, o, by simp, ?_⟩, by simp⟩
      rw [k2, hj]
      simp [joined]
    | cons q' rs =>
      obtain ⟨-, -, k3, x, y, k4, k5, k6, k7⟩ := n1 (by simp)
      obtain ⟨c1, c2, c3⟩ := hch
      obtain ⟨hkm, hkr⟩ := (hk s1 o e g1 (by simp)).append g3
      have hR2 := k3.run (hr.tidy ht) g3 hkm hmid
      have ht2 := run_tidy (hr.tidy ht) g3
      have hi2 := run_sinv' (hr.tidy ht) (hr.sinv ht hi) g3
      obtain ⟨t, r1, r2, r3, r4⟩ := hR2
      have e2 : script a (q' :: rs) = (q'.env, .datagram a q'.d) :: (q'.mid ++ script a rs) := by simp [script]
      obtain ⟨⟨id, z1, o', z2, z3⟩, z4⟩ := receive_all h8 hsz q' rs s2 s' t3 (i + 1) size (got ++ q.m.payload) ht2 hi2 hsz (Nat.le_refl _)
        (Or.inl ⟨q.m.msgId, t, r1, r2, r3, r4⟩)
        (by rw [List.length_append, hgot, hpl (by simp), Nat.add_mul, Nat.one_mul])
        (by rw [List.length_append]; omega)
        (fun j x hx => by
          have := hq (j + 1) x (by simpa using hx)
          simp only [List.length_cons, Nat.add_lt_add_iff_right] at this
          rw [show i + 1 + j = i + (j + 1) by omega]
          exact this)
        (fun h => by rw [r1] at h; cases h)
        (fun t' ht' => by
          rw [r1] at ht'
          cases ht'
          cases hmr : matchReq t q'.m with
          | false => rfl
          | true => exact absurd ((matchReq_iff.1 hmr).2.symm.trans r3) c1)
        c2 c3
        (fun s3 o3 e3 h3 _ => by rw [e2] at hkr; exact hkr.2 s3 o3 e3 h3) g4
      refine ⟨⟨id, z1, o', by simp [z2], ?_⟩, ?_⟩
      · rw [z3, hj, List.append_assoc]
      · intro j hjl
        cases j with
        | zero => exact ⟨x, k7, o, by simp, y, by rw [k4]; simp, k5⟩
        | succ j =>
          obtain ⟨x', w1, o2, w2, w3⟩ := z4 j (by simpa using hjl)
          rw [show i + (j + 1) = i + 1 + j by omega]
          exact ⟨x', w1, o2, by simp [w2], w3⟩
  termination_by _ rs => rs.length

end FreeCoAP.Server
