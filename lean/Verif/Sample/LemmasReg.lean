import Verif.Sample.Lemmas
import Verif.Sample.SpecReg
import Verif.EndToEnd.PropsPlain
import Verif.Msg.Props

/-! # The sample server keeps its registrar -/

namespace FreeCoAP.Sample

open FreeCoAP.Msg
open FreeCoAP.Server (HAct Addr Built Env Event calls AppOK)

theorem walk_ok : ∀ (l2 l1 : Nodes) (prev : Option Nat) (n : Nat), l2.length ≤ n → ((l1 ++ l2).map Prod.fst).Nodup →
    walk (build prev (l1 ++ l2)) n (l2.head?.map Prod.fst) = .ok ()
  | [], _, _, n, _, _ => by cases n <;> rfl
  | (p, i, a) :: l2, l1, prev, 0, hn, _ => by simp at hn
  | (p, i, a) :: l2, l1, prev, n + 1, hn, hd => by
    obtain ⟨pr, d1, -⟩ := deref_ok (prev := prev) hd
    rw [show (((p, i, a) :: l2).head?.map Prod.fst) = some p from rfl, walk, d1, Out.bind_ok]
    have := walk_ok l2 (l1 ++ [(p, i, a)]) prev n (by simp at hn; omega) (by simpa using hd)
    rw [List.append_assoc, List.singleton_append] at this
    exact this

theorem get_set (m : Map) (id addr : Bytes) (h : m.get id ≠ none) : (m.set id addr).get id = some (id, addr) := by
  induction m with
  | nil => exact absurd rfl h
  | cons x m ih =>
    obtain ⟨i, a⟩ := x
    unfold Map.set Map.get at *
    rw [List.map_cons, List.find?_cons]
    by_cases hi : i = id
    · subst hi; simp
    · rw [List.find?_cons_of_neg (by simpa using hi)] at h
      simp only [hi, if_false, decide_false]
      exact ih h

theorem get_set_ne (m : Map) (id addr : Bytes) {j : Bytes} (h : j ≠ id) : (m.set id addr).get j = m.get j := by
  induction m with
  | nil => rfl
  | cons x m ih =>
    obtain ⟨i, a⟩ := x
    unfold Map.set Map.get at *
    rw [List.map_cons, List.find?_cons, List.find?_cons]
    by_cases hi : i = id
    · subst hi
      simp only [if_pos, show ¬ i = j from fun e => h e.symm, decide_false]
      exact ih
    · simp only [hi, if_false]
      rw [ih]

theorem get_append (m : Map) (id addr : Bytes) (h : m.get id = none) : Map.get (m ++ [(id, addr)]) id = some (id, addr) := by
  unfold Map.get at *
  rw [List.find?_append, h]
  simp

theorem get_append_ne (m : Map) (id addr : Bytes) {j : Bytes} (h : j ≠ id) : Map.get (m ++ [(id, addr)]) j = m.get j := by
  unfold Map.get
  rw [List.find?_append, List.find?_cons_of_neg (by simpa using fun e : id = j => h e.symm), List.find?_nil, Option.or_none]

/-- The registrar is in order, with the entries `l`. -/
def Inv (l : Nodes) (r : Reg) : Prop := ∃ prev, Ok prev l r ∧ Ids l

theorem inv_create : Inv [] create := ⟨none, ⟨rfl, rfl, rfl, List.nodup_nil⟩, List.nodup_nil⟩

theorem inv_walk {l : Nodes} {r : Reg} (h : Inv l r) : walk r.heap (r.heap.length + 1) r.first = .ok () := by
  obtain ⟨prev, h, -⟩ := h
  rw [h.heap, h.first, build_length]
  exact walk_ok l [] prev _ (by omega) (by simpa using h.nodup)

/-- What `registrar_add` does to the map. -/
theorem inv_add {L : Nat} {l : Nodes} {r : Reg} (h : Inv l r) {id addr : Bytes} {alloc : List Nat → Option Nat}
    (hf : ∀ live p, alloc live = some p → p ∉ live) (h1 : id.length < 32) (h2 : addr.length < L) :
    ∃ res r' l', add L r id addr alloc = .ok (res, r') ∧ Inv l' r' ∧
      ((∃ e, res = .error e ∧ toMap l' = toMap l) ∨ ∃ n, res = .ok n ∧ (toMap l').get id = some (id, addr) ∧
        ∀ j, j ≠ id → (toMap l').get j = (toMap l).get j) := by
  obtain ⟨prev, h, hi⟩ := h
  obtain ⟨ok, res, r', prev', l', e1, e2, e3, e4, -⟩ := add_ok (L := L) h hi hf h1 h2
  refine ⟨res, r', l', e1, ⟨prev', e2, e3⟩, ?_⟩
  unfold Map.step at e4
  dsimp only at e4
  cases hg : (toMap l).get id with
  | some x =>
    rw [hg] at e4
    obtain ⟨q1, q2⟩ := Prod.mk.inj e4
    cases q1
    right
    refine ⟨1, rfl, ?_, ?_⟩
    · rw [← q2]; exact get_set _ _ _ (by rw [hg]; exact fun h => nomatch h)
    · intro j hj; rw [← q2]; exact get_set_ne _ _ _ hj
  | none =>
    rw [hg] at e4
    dsimp only at e4
    split at e4
    · obtain ⟨q1, q2⟩ := Prod.mk.inj e4
      cases q1
      right
      refine ⟨0, rfl, ?_, ?_⟩
      · rw [← q2]; exact get_append _ _ _ hg
      · intro j hj; rw [← q2]; exact get_append_ne _ _ _ hj
    · obtain ⟨q1, q2⟩ := Prod.mk.inj e4
      cases q1
      left
      exact ⟨_, rfl, q2.symm⟩

theorem pathOf_ne_ub (ops : List Msg.Op) : pathOf ops ≠ .ub := by
  obtain ⟨b, h, -⟩ := C15_path_string_partial ops (List.replicate PATH_LEN 0) PATH_LEN (by simp) (Or.inl (by decide))
  unfold pathOf
  rw [h, Out.bind_ok]
  split <;> exact fun h => nomatch h

theorem ordinary_nil (sx : Bool) {m : Msg} (h : m.ops = []) : EndToEnd.Ordinary sx m := by
  intro o ho
  rw [h] at ho
  cases ho

/-- A response of the handler. -/
def Fine (resp : Msg) : Prop := Built resp ∧ ∀ sx, EndToEnd.Ordinary sx resp

theorem fine_create : Fine Msg.create := ⟨Built.create, fun sx => ordinary_nil sx rfl⟩

theorem answer_ok {r : Reg} {c d : Nat} (hc : c < 8) (hd : d < 32) :
    ∃ resp, answer r c d = .ok (.reply resp none, r) ∧ Fine resp ∧ resp.codeClass = c := by
  refine ⟨{ Msg.create with codeClass := c, codeDetail := d }, ?_, ⟨?_, fun sx => ordinary_nil sx rfl⟩, rfl⟩
  · unfold answer setCode
    rw [if_neg (by omega), if_neg (by omega)]
    rfl
  · have := Built.create
    exact ⟨this.ver, this.type, hc, hd, this.msgId, this.token, this.sorted⟩

theorem respond_ok (mem : Nat → Bool) (created : Bool) : ∃ resp err, respond mem created = .ok (.reply resp err) ∧ Fine resp := by
  have hb : ∀ c, Built { Msg.create with codeClass := 2, codeDetail := if created then 1 else 4, ops := c } ↔ Sorted c := by
    intro c
    refine ⟨fun h => h.sorted, fun h => ?_⟩
    have := Built.create
    refine ⟨this.ver, this.type, by show (2 : Nat) < 8; omega, ?_, this.msgId, this.token, h⟩
    show (if created then 1 else 4) < 32
    split <;> omega
  unfold respond setCode
  rw [if_neg (by omega), if_neg (by split <;> omega), Out.bind_ok]
  have h0 := (hb []).2 (by simp [Sorted])
  have h1 := Built.addOp h0 URI_PATH (str "client")
  have h2 := Built.addOp h1 URI_PATH (str "id")
  have o1 : ∀ sx, EndToEnd.Ordinary sx (addOp { Msg.create with codeClass := 2, codeDetail := if created then 1 else 4, ops := [] } URI_PATH (str "client")) := by
    intro sx o ho
    have ho : o ∈ [(⟨URI_PATH, str "client"⟩ : Msg.Op)] := ho
    rw [List.mem_singleton.1 ho]
    exact ⟨by decide, by decide +kernel, fun _ => by decide +kernel⟩
  have o2 : ∀ sx, EndToEnd.Ordinary sx (addOp (addOp { Msg.create with codeClass := 2, codeDetail := if created then 1 else 4, ops := [] } URI_PATH
      (str "client")) URI_PATH (str "id")) := by
    intro sx o ho
    have ho : o ∈ [(⟨URI_PATH, str "client"⟩ : Msg.Op), ⟨URI_PATH, str "id"⟩] := ho
    rcases List.mem_cons.1 ho with rfl | ho
    · exact ⟨by decide, by decide +kernel, fun _ => by decide +kernel⟩
    · rw [List.mem_singleton.1 ho]
      exact ⟨by decide, by decide +kernel, fun _ => by decide +kernel⟩
  by_cases m0 : mem 0
  · simp only [m0, Bool.not_true, Bool.false_eq_true, if_false]
    by_cases m1 : mem 1
    · simp only [m1, Bool.not_true, Bool.false_eq_true, if_false]
      by_cases m2 : mem 2
      · simp only [m2, Bool.not_true, Bool.false_eq_true, if_false]
        exact ⟨_, _, rfl, Built.setPayload h2 _, o2⟩
      · simp only [m2, Bool.not_false, if_true]
        exact ⟨_, _, rfl, h2, o2⟩
    · simp only [m1, Bool.not_false, if_true]
      exact ⟨_, _, rfl, h1, o1⟩
  · simp only [m0, Bool.not_false, if_true]
    exact ⟨_, _, rfl, h0, fun sx => ordinary_nil sx rfl⟩

/-- What a call of the handler does. -/
def Effect (ntop : Addr → Option Bytes) (a : Addr) (m resp : Msg) (err : Option Err) (l l' : Nodes) : Prop :=
  (toMap l' = toMap l ∧ (err = none → resp.codeClass ≠ 2)) ∨ ∃ addr, ntop a = some addr ∧ m.codeDetail = 2 ∧
    (toMap l').get (cstr m.payload) = some (cstr m.payload, addr) ∧ ∀ j, j ≠ cstr m.payload → (toMap l').get j = (toMap l).get j

theorem handle_ok {L : Nat} {ntop : Addr → Option Bytes} (hn : ∀ a s, ntop a = some s → s.length < L) {alloc : List Nat → Option Nat}
    (hf : ∀ live p, alloc live = some p → p ∉ live) (mem : Nat → Bool) {l : Nodes} {r : Reg} (h : Inv l r) (a : Addr) (m : Msg) :
    ∃ resp err r' l', handle L ntop alloc mem r a m = .ok (.reply resp err, r') ∧ Inv l' r' ∧ Fine resp ∧ Effect ntop a m resp err l l' := by
  have hans : ∀ c d, c < 8 → c ≠ 2 → d < 32 → ∃ resp err r' l', answer r c d = .ok (.reply resp err, r') ∧ Inv l' r' ∧ Fine resp ∧
      Effect ntop a m resp err l l' := by
    intro c d hc hc2 hd
    obtain ⟨resp, e1, e2, e3⟩ := answer_ok (r := r) hc hd
    exact ⟨resp, none, r, l, e1, h, e2, Or.inl ⟨rfl, fun _ => by omega⟩⟩
  have hfail : ∀ e : Err, ∃ resp err r' l', (.ok (.reply Msg.create (some e), r) : Out (HAct × Reg)) = .ok (.reply resp err, r') ∧ Inv l' r' ∧
      Fine resp ∧ Effect ntop a m resp err l l' :=
    fun e => ⟨_, _, r, l, rfl, h, fine_create, Or.inl ⟨rfl, fun h => nomatch h⟩⟩
  unfold handle
  split
  · exact hfail _
  · cases hp : pathOf m.ops with
    | ub => exact absurd hp (pathOf_ne_ub _)
    | err e => exact hfail e
    | ok path =>
      dsimp only
      split
      · exact hans 4 4 (by omega) (by omega) (by omega)
      · unfold handleId
        split
        · rename_i hpost
          cases hno : ntop a with
          | none => exact hans 5 0 (by omega) (by omega) (by omega)
          | some addr =>
            dsimp only
            split
            · exact hans 4 0 (by omega) (by omega) (by omega)
            · split
              · exact hans 5 0 (by omega) (by omega) (by omega)
              · rename_i hlen
                have hl : (cstr m.payload).length < 32 := by
                  have : (cstr m.payload).length ≤ m.payload.length := (List.takeWhile_sublist _).length_le
                  unfold PAYLOAD_LEN at hlen
                  omega
                obtain ⟨res, r', l', e1, e2, e3⟩ := inv_add (L := L) h (id := cstr m.payload) (addr := addr) hf hl (hn a addr hno)
                unfold enrol
                rw [e1, Out.bind_ok]
                rcases e3 with ⟨e, rfl, q⟩ | ⟨n, rfl, q1, q2⟩
                · exact ⟨_, _, r', l', rfl, e2, fine_create, Or.inl ⟨q, fun h => nomatch h⟩⟩
                · obtain ⟨resp, err, k1, k2⟩ := respond_ok mem (decide (n = 0))
                  dsimp only
                  rw [inv_walk e2, Out.bind_ok, k1, Out.bind_ok]
                  exact ⟨resp, err, r', l', rfl, e2, k2, Or.inr ⟨addr, hno, hpost, q1, q2⟩⟩
        · exact hans 5 1 (by omega) (by omega) (by omega)

/-- The application does not use blocks, and its responses are fine. -/
structure Sound (env : Env) : Prop where
  app : AppOK env
  direct : Server.NoBlockwise env
  fine : ∀ t m resp err, env.handle t m = .reply resp err → Fine resp

theorem sound_of {L : Nat} {ntop : Addr → Option Bytes} (hn : ∀ a s, ntop a = some s → s.length < L) {alloc : List Nat → Option Nat}
    (hf : ∀ live p, alloc live = some p → p ∉ live) {mem : Nat → Bool} {l : Nodes} {r : Reg} (h : Inv l r) {env : Env}
    (h1 : ∀ (t : Server.Trans) (m : Msg) (x : HAct × Reg), handle L ntop alloc mem r t.addr m = .ok x → env.handle t m = x.1)
    (h2 : env.rx = fun _ body e _ resp => ⟨none, resp, body, e⟩) : Sound env := by
  have key : ∀ t m, ∃ resp err, env.handle t m = .reply resp err ∧ Fine resp := by
    intro t m
    obtain ⟨resp, err, r', l', e1, -, e3, -⟩ := handle_ok hn hf mem h t.addr m
    exact ⟨resp, err, h1 t m _ e1, e3⟩
  refine ⟨⟨fun t m => ?_, fun id body e req resp hb => by rw [h2]; exact hb⟩, fun t m => ?_, fun t m resp err he => ?_⟩
  · obtain ⟨resp, err, e1, e2⟩ := key t m
    rw [e1]
    exact e2.1
  · obtain ⟨resp, err, e1, e2⟩ := key t m
    exact ⟨resp, err, e1⟩
  · obtain ⟨resp, err, e1, e2⟩ := key t m
    rw [he] at e1
    cases e1
    exact e2

/-- All calls that register `id` come from `addr`. -/
def OnlyFrom (ntop : Addr → Option Bytes) (id : Bytes) (addr : Option Bytes) (tr : List (List Server.Obs)) : Prop :=
  ∀ o ∈ tr, ∀ c ∈ calls o, Registers id c.2 → ntop c.1 = addr

theorem OnlyFrom.tail {ntop : Addr → Option Bytes} {id : Bytes} {addr : Option Bytes} {o : List Server.Obs} {tr : List (List Server.Obs)}
    (h : OnlyFrom ntop id addr (o :: tr)) : OnlyFrom ntop id addr tr := fun x hx => h x (List.mem_cons_of_mem _ hx)

theorem serves_ok {L : Nat} {ntop : Addr → Option Bytes} (hn : ∀ a s, ntop a = some s → s.length < L) {sx : Bool} :
    ∀ (evs : List (Env × Event)) (s s' : Server.Srv) (tr : List (List Server.Obs)) (r : Reg) (l : Nodes) (r' : Out Reg), Inv l r → Server.Tidy s →
    Server.run sx s evs = .ok (s', tr) → Serves L ntop (.ok r) evs tr r' →
    (∀ x ∈ evs, Sound x.1) ∧ ∃ reg l', r' = .ok reg ∧ Inv l' reg ∧
      (∀ id addr, (toMap l).get id = some (id, addr) → OnlyFrom ntop id (some addr) tr → (toMap l').get id = some (id, addr)) ∧
      (∀ a m resp, EndToEnd.Replied a evs tr m resp → resp.codeClass = 2 → OnlyFrom ntop (cstr m.payload) (ntop a) tr →
        ∃ addr, ntop a = some addr ∧ (toMap l').get (cstr m.payload) = some (cstr m.payload, addr))
  | [], s, s', tr, r, l, r', hi, _, hr, hs => by
    cases hr
    refine ⟨(fun x hx => nomatch hx), r, l, hs, hi, fun _ _ h _ => h, ?_⟩
    rintro a m resp ⟨p, hp, -⟩
    cases hp
  | (env, ev) :: evs, s, s', tr, r, l, r', hi, ht, hr, hs => by
    obtain ⟨s1, o, e, tr1, h1, h2, rfl⟩ := Server.run_cons hr
    obtain ⟨alloc, mem, k1, k2, k3, k4⟩ := hs
    have hso := sound_of hn k1 hi k2 k3
    have hrel := Server.step_rel h1
    suffices key : ∃ r1 l1, (calls o).foldl (fun r c => r >>= fun r => handle L ntop alloc mem r c.1 c.2 >>= fun x => .ok x.2) (.ok r) = .ok r1 ∧
        Inv l1 r1 ∧ (∀ id addr, (toMap l).get id = some (id, addr) → OnlyFrom ntop id (some addr) (o :: tr1) → (toMap l1).get id = some (id, addr)) ∧
        (∀ a m t resp, (a, m) ∈ calls o → t.addr = a → env.handle t m = .reply resp none → resp.codeClass = 2 →
          ∃ addr, ntop a = some addr ∧ (toMap l1).get (cstr m.payload) = some (cstr m.payload, addr)) by
      obtain ⟨r1, l1, e1, e2, e3, e4⟩ := key
      rw [e1] at k4
      obtain ⟨g1, reg, l', g2, g3, g4, g5⟩ := serves_ok hn evs s1 s' tr1 r1 l1 r' e2 (hrel.tidy ht) h2 k4
      refine ⟨?_, reg, l', g2, g3, fun id addr hg ho => g4 id addr (e3 id addr hg ho) ho.tail, ?_⟩
      · intro x hx
        rcases List.mem_cons.1 hx with rfl | hx
        · exact hso
        · exact g1 x hx
      · rintro a m resp ⟨p, hp, hc, t, hta, hh⟩ h2 hof
        rw [List.zip_cons_cons] at hp
        rcases List.mem_cons.1 hp with rfl | hp
        · obtain ⟨addr, q1, q2⟩ := e4 a m t resp hc hta hh h2
          rw [q1] at hof
          exact ⟨addr, q1, g4 _ _ q2 hof.tail⟩
        · exact g5 a m resp ⟨p, hp, hc, t, hta, hh⟩ h2 hof.tail
    rcases Server.call_step hrel ht with g | ⟨a, d, m, -, -, -, -, g⟩
    · rw [g]
      refine ⟨r, l, rfl, hi, fun _ _ h _ => h, ?_⟩
      intro a m t resp hc
      cases hc
    · obtain ⟨resp, err, r1, l1, e1, e2, -, e4⟩ := handle_ok hn k1 mem hi a m
      rw [g]
      refine ⟨r1, l1, ?_, e2, ?_, ?_⟩
      · rw [List.foldl_cons, List.foldl_nil, Out.bind_ok]
        dsimp only
        rw [e1, Out.bind_ok]
      · intro id addr hg ho
        rcases e4 with ⟨q, -⟩ | ⟨addr', q1, q2, q3, q4⟩
        · rw [q]; exact hg
        · by_cases hid : id = cstr m.payload
          · subst hid
            have := ho o (List.mem_cons_self ..) (a, m) (by rw [g]; exact List.mem_singleton.2 rfl) ⟨q2, rfl⟩
            rw [q1] at this
            cases this
            exact q3
          · rw [q4 id hid]; exact hg
      · intro a' m' t resp' hc hta hh h2
        rw [List.mem_singleton] at hc
        cases hc
        have hk := k2 t m _ (by rw [hta]; exact e1)
        rw [hh] at hk
        cases hk
        rcases e4 with ⟨-, q⟩ | ⟨addr', q1, q2, q3, q4⟩
        · exact absurd h2 (q rfl)
        · exact ⟨addr', q1, q3⟩

theorem knows_of {L : Nat} {l : Nodes} {r : Reg} (h : Inv l r) {id addr : Bytes} (hg : (toMap l).get id = some (id, addr)) :
    Knows L (.ok r) id addr := by
  obtain ⟨prev, h, -⟩ := h
  refine ⟨r, rfl, ?_⟩
  rw [get_toMap] at hg
  rw [step, find_ok h, Out.bind_ok]
  cases hx : l.find? (fun x => x.2.1 = id) with
  | none => rw [hx] at hg; cases hg
  | some x =>
    rw [hx] at hg
    obtain ⟨p, i, a⟩ := x
    cases hg
    obtain ⟨l1, l2, rfl, -, -⟩ := find_split hx
    obtain ⟨pr, d1, -⟩ := deref_ok (prev := prev) h.nodup
    simp only [Option.map_some]
    rw [h.heap, d1]
    rfl

end FreeCoAP.Sample
