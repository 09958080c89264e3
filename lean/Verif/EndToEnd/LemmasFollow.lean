import Verif.EndToEnd.LemmasWire

/-! # Following one sender through the life of the server -/

namespace FreeCoAP.Server

open FreeCoAP.Msg

/-- What has to be shown to follow the transfer of the sender `a`. `S`: the messages that
may arrive from it; `P`: what is known of the response to a message; `B`: the state of the
transfer; `Q`: what is known of the bodies passed to the application; `R`: what is assumed
of them; `C`: what is assumed of everything that is seen in this step. -/
structure FollowOK (S : Msg → Prop) (P : Msg → Msg → Prop) (B : Blk → Prop) (R Q : Nat × Bytes → Prop) (C : Obs → Prop) (a : Addr)
    (env : Env) : Prop where
  clear : B Blk.none
  gen : ∀ (t : Trans) (L : Large) (m : Msg) (r : BRes) (o2 : List Obs), t.addr = a → B t.blk → Asks m → S m →
    generate env t L m = .ok (r, o2) → (∀ y ∈ o2, C y) →
    (∀ x ∈ r.rx, Q x) ∧ ((∀ x ∈ r.rx, R x) → r.err = none → P m r.resp ∧ B r.blk)
  final : ∀ (sepList : List Bytes) (id : Nat) (m x : Msg), P m x → P m (Server.final sepList env id m x)

/-- The response to one of the messages, or one that is no concern. -/
def RespTo (K : Msg → Prop) (S : Msg → Prop) (P : Msg → Msg → Prop) (x : Msg) : Prop :=
  K x ∨ ∃ m, S m ∧ Asks m ∧ x.token = m.token ∧ P m x

theorem follow_step {K S : Msg → Prop} {P : Msg → Msg → Prop} {B : Blk → Prop} {R Q : Nat × Bytes → Prop} {C : Obs → Prop} {sx : Bool} {s s' : Srv}
    {env : Env} {ev : Event} {o : List Obs} {e : Option Err} {a : Addr} (hT : FollowOK S P B R Q C a env) (happ : AppOK env) (ht : Tidy s)
    (h : StepRel sx s env ev s' o e) (hi : Tracks (RespTo K S P) B s a)
    (hS : ∀ m, arrived sx a (env, ev) = some m → Asks m → S m) (hC : ∀ y ∈ o, C y) :
    (∀ y, (a, y) ∈ bodies o → Q y) ∧ ((∀ y, (a, y) ∈ bodies o → R y) → Tracks (RespTo K S P) B s' a ∧
      ∀ b, (a, b) ∈ sends o → Empty b ∨ ∃ x, Built x ∧ RespTo K S P x ∧ Formats x b) := by
  have hcr : Empty (enc create) := by rw [enc_create]; exact Or.inr (Or.inr rfl)
  cases step_view h ht a with
  | untouched h1 ho hd _ =>
    refine ⟨fun y hy => absurd rfl (ho _ (mem_bodies.1 hy)), fun _ => ⟨fun t ht => hi t (by rw [← h1]; exact ht), fun b hb => absurd rfl (ho _ (mem_sends.1 hb))⟩⟩
  | evicted b d hb hev h1 t ht hi hb'' ho =>
    refine ⟨fun y hy => absurd rfl (ho _ (mem_bodies.1 hy)), fun _ => ⟨fun t ht => (by rw [h1] at ht; cases ht), fun b hb => absurd rfl (ho _ (mem_sends.1 hb))⟩⟩
  | timer i u r hev hiu hu hta hact har hout ho he h' hid =>
    subst ho
    have hu' := hi u hu
    cases hout with
    | expired =>
      refine ⟨fun y hy => by simp [bodies] at hy, fun _ => ⟨fun t ht => ?_, fun b hb => by simp [sends] at hb⟩⟩
      rw [h'] at ht; cases ht
    | noTimer =>
      refine ⟨fun y hy => by simp [bodies] at hy, fun _ => ⟨fun t ht => ?_, fun b hb => by simp [sends] at hb⟩⟩
      rw [h'] at ht
      obtain ⟨rfl, -⟩ := zero_inactive ht
      exact hu'
    | resent h he hs hse =>
      refine ⟨fun y hy => by simp [bodies] at hy, fun _ => ⟨fun t ht => ?_, fun b hb => ?_⟩⟩
      · rw [h'] at ht
        obtain ⟨rfl, -⟩ := zero_inactive ht
        exact hu'
      · have hb' := mem_sends.1 hb
        simp at hb'
        rw [hb'.2]
        rcases hu'.1 with hc | ⟨hc1, hc2⟩
        · left; rw [hc]; exact hcr
        · right; exact ⟨_, hc1, hc2, hs.formats⟩
    | noSend =>
      refine ⟨fun y hy => by simp [bodies] at hy, fun _ => ⟨fun t ht => ?_, fun b hb => by simp [sends] at hb⟩⟩
      rw [h'] at ht
      obtain ⟨rfl, -⟩ := zero_inactive ht
      exact hu'
  | exchange d u r L hev h0 hu hta hact hout ho he h' hid =>
    subst hev ho
    have hu' : (u.resp = create ∨ (Built u.resp ∧ RespTo K S P u.resp)) ∧ B u.blk := by
      rcases hu with hu | ⟨-, rfl, -⟩
      · exact hi u hu
      · exact ⟨Or.inl rfl, hT.clear⟩
    have hzero : ∀ r' : TRes, r' = r → r'.trans = Trans.zero → Tracks (RespTo K S P) B s' a := by
      rintro r' rfl hz t ht
      rw [h', hz] at ht
      cases ht
    have hsame : ∀ r' : TRes, r' = r → r'.trans.resp = u.resp → r'.trans.blk = u.blk → Tracks (RespTo K S P) B s' a := by
      rintro r' rfl h1 h2 t ht
      rw [h'] at ht
      obtain ⟨rfl, -⟩ := zero_inactive ht
      rw [h1, h2]
      exact hu'
    have hpre : ∀ m b, Got sx env d m → Obs.sent a b ∈ preAck s.sepList u m → Empty b := by
      intro m b hm hb
      unfold preAck at hb
      split at hb
      · simp at hb; rw [hb.2]; exact Empty.ack hm.1
      · cases hb
    have hgen : ∀ m b (r : BRes) o2, generate env (cleared env u) L m = .ok (r, o2) → Obs.sent a b ∉ o2 ∧ Obs.sent a b ∉ rxObs u.addr r := by
      intro m b r o2 hg
      constructor
      · intro hh
        have := mem_sends.2 hh
        rw [(generate_sends hg).1] at this
        cases this
      · intro hh
        have := mem_sends.2 hh
        rw [sends_rx] at this
        cases this
    have hnew : ∀ m (r : BRes) o2, Got sx env d m → IsNew u m → generate env (cleared env u) L m = .ok (r, o2) →
        (∀ y ∈ o2, C y) → (Asks m ∧ S m) ∧ (∀ x ∈ r.rx, Q x) ∧ ((∀ x ∈ r.rx, R x) → r.err = none → P m r.resp ∧ B r.blk) := by
      intro m r o2 hm hn hg hC
      have hA : Asks m := ⟨hn.type, hn.cls⟩
      have hSm := hS m (arrived_got h0 hm) hA
      exact ⟨⟨hA, hSm⟩, hT.gen (cleared env u) L m r o2 hta hu'.2 hA hSm hg hC⟩
    cases hout with
    | again hx => exact ⟨fun y hy => by simp [bodies] at hy, fun _ => ⟨hsame _ rfl rfl rfl, fun b hb => by simp [sends] at hb⟩⟩
    | lost e h o ho =>
      refine ⟨fun y hy => ?_, fun _ => ⟨hzero _ rfl rfl, fun b hb => ?_⟩⟩
      · rcases ho with rfl | ⟨-, -, i, hi, rfl⟩ <;> simp [bodies] at hy
      have hb' := mem_sends.1 hb
      rcases ho with rfl | ⟨-, -, i, hi, rfl⟩
      · simp at hb'
      · simp at hb'; left; rw [hb'.2]; exact Empty.rst hi
    | dupAck m hm h1 h2 h3 =>
      refine ⟨fun y hy => by simp [bodies] at hy, fun _ => ⟨hsame _ rfl rfl rfl, fun b hb => ?_⟩⟩
      have hb' := mem_sends.1 hb
      simp at hb'; left; rw [hb'.2]; exact Empty.ack hm.1
    | dupResp m hm h1 h2 h3 hs =>
      refine ⟨fun y hy => by simp [bodies] at hy, fun _ => ⟨hsame _ rfl rfl rfl, fun b hb => ?_⟩⟩
      have hb' := mem_sends.1 hb
      simp at hb'
      rw [hb'.2]
      rcases hu'.1 with hc | ⟨hc1, hc2⟩
      · left; rw [hc]; exact hcr
      · right; exact ⟨_, hc1, hc2, hs.formats⟩
    | dupFail => exact ⟨fun y hy => by simp [bodies] at hy, fun _ => ⟨hzero _ rfl rfl, fun b hb => by simp [sends] at hb⟩⟩
    | dupNon m hm h1 h2 => exact ⟨fun y hy => by simp [bodies] at hy, fun _ => ⟨hsame _ rfl rfl rfl, fun b hb => by simp [sends] at hb⟩⟩
    | acked m hm h1 h2 => exact ⟨fun y hy => by simp [bodies] at hy, fun _ => ⟨hsame _ rfl rfl rfl, fun b hb => by simp [sends] at hb⟩⟩
    | ackFail m hm h1 h2 => exact ⟨fun y hy => by simp [bodies] at hy, fun _ => ⟨hzero _ rfl rfl, fun b hb => by simp [sends] at hb⟩⟩
    | rejected m hm h1 h2 h3 o ho =>
      refine ⟨fun y hy => ?_, fun _ => ⟨hzero _ rfl rfl, fun b hb => ?_⟩⟩
      · rcases ho with rfl | ⟨-, rfl⟩ <;> simp [bodies] at hy
      have hb' := mem_sends.1 hb
      rcases ho with rfl | ⟨-, rfl⟩
      · simp at hb'
      · simp at hb'; left; rw [hb'.2]; exact Empty.rst' hm.1
    | ackLost => exact ⟨fun y hy => by simp [bodies] at hy, fun _ => ⟨hzero _ rfl rfl, fun b hb => by simp [sends] at hb⟩⟩
    | genFail m hm hn hp r o2 hg e he =>
      obtain ⟨-, hQ, -⟩ := hnew m r o2 hm hn hg (fun y hy => hC y (by simp [hy]))
      have hbod : bodies (preAck s.sepList u m ++ o2 ++ rxObs u.addr r) = r.rx.map (fun x => (a, x)) := by
        simp only [bodies_append, bodies_pre, bodies_rx, (generate_sends hg).2.2, hta, List.append_nil, List.nil_append]
      refine ⟨fun y hy => ?_, fun _ => ⟨hzero _ rfl rfl, fun b hb => ?_⟩⟩
      · change (a, y) ∈ bodies (preAck s.sepList u m ++ o2 ++ rxObs u.addr r) at hy
        rw [hbod, List.mem_map] at hy
        obtain ⟨z, hz, e⟩ := hy
        cases e
        exact hQ _ hz
      have hb' := mem_sends.1 hb
      simp only [List.mem_append] at hb'
      rcases hb' with (hb' | hb') | hb'
      · exact Or.inl (hpre m b hm hb')
      · exact absurd hb' (hgen m b r o2 hg).1
      · exact absurd hb' (hgen m b r o2 hg).2
    | sendFail m hm hn hp r o2 hg hre o3 e ho hf =>
      obtain ⟨hAS, hQ, hPB⟩ := hnew m r o2 hm hn hg (fun y hy => hC y (by simp [hy]))
      have hb3 : bodies o3 = [] := by rcases ho with rfl | ⟨rfl, -⟩ <;> rfl
      have hbod : bodies (preAck s.sepList u m ++ o2 ++ rxObs u.addr r ++ o3) = r.rx.map (fun x => (a, x)) := by
        simp only [bodies_append, bodies_pre, bodies_rx, (generate_sends hg).2.2, hta, hb3, List.append_nil, List.nil_append]
      change (∀ y, (a, y) ∈ bodies (preAck s.sepList u m ++ o2 ++ rxObs u.addr r ++ o3) → Q y) ∧
        ((∀ y, (a, y) ∈ bodies (preAck s.sepList u m ++ o2 ++ rxObs u.addr r ++ o3) → R y) → _)
      rw [hbod]
      refine ⟨fun y hy => ?_, fun hR => ⟨hzero _ rfl rfl, fun b hb => ?_⟩⟩
      · rw [List.mem_map] at hy
        obtain ⟨z, hz, e⟩ := hy
        cases e
        exact hQ _ hz
      have hP := hPB (fun x hx => hR x (List.mem_map.2 ⟨x, hx, rfl⟩)) hre
      have hb' := mem_sends.1 hb
      simp only [List.mem_append] at hb'
      rcases hb' with ((hb' | hb') | hb') | hb'
      · exact Or.inl (hpre m b hm hb')
      · exact absurd hb' (hgen m b r o2 hg).1
      · exact absurd hb' (hgen m b r o2 hg).2
      · rcases ho with rfl | ⟨rfl, hsd⟩
        · simp at hb'
        · simp at hb'
          right
          rw [hb'.2]
          exact ⟨_, (generate_built happ hg).final hm.1.fields.1, Or.inr ⟨m, hAS.2, hAS.1, rfl, hT.final _ _ _ _ hP.1⟩, hsd.formats⟩
    | done m hm hn hp r o2 hg hre hs q p hq hp2 =>
      obtain ⟨hAS, hQ, hPB⟩ := hnew m r o2 hm hn hg (fun y hy => hC y (by simp [hy]))
      have hbod : bodies (preAck s.sepList u m ++ o2 ++ rxObs u.addr r ++ [.sent u.addr (enc (final s.sepList env s.msgId m r.resp))] ++
          armObs env u.addr (final s.sepList env s.msgId m r.resp)) = r.rx.map (fun x => (a, x)) := by
        simp only [bodies_append, bodies_pre, bodies_rx, bodies_arm, (generate_sends hg).2.2, hta, bodies_sent,
          List.append_nil, List.nil_append]
      change (∀ y, (a, y) ∈ bodies (preAck s.sepList u m ++ o2 ++ rxObs u.addr r ++ [.sent u.addr (enc (final s.sepList env s.msgId m r.resp))] ++
          armObs env u.addr (final s.sepList env s.msgId m r.resp)) → Q y) ∧
        ((∀ y, (a, y) ∈ bodies (preAck s.sepList u m ++ o2 ++ rxObs u.addr r ++ [.sent u.addr (enc (final s.sepList env s.msgId m r.resp))] ++
          armObs env u.addr (final s.sepList env s.msgId m r.resp)) → R y) → _)
      rw [hbod]
      have hB := (generate_built happ hg).final (sepList := s.sepList) (env := env) (id := s.msgId) hm.1.fields.1
      refine ⟨fun y hy => ?_, fun hR => ?_⟩
      · rw [List.mem_map] at hy
        obtain ⟨z, hz, e⟩ := hy
        cases e
        exact hQ _ hz
      have hP := hPB (fun x hx => hR x (List.mem_map.2 ⟨x, hx, rfl⟩)) hre
      have hPf : RespTo K S P (final s.sepList env s.msgId m r.resp) := Or.inr ⟨m, hAS.2, hAS.1, rfl, hT.final _ _ _ _ hP.1⟩
      refine ⟨fun t ht => ?_, fun b hb => ?_⟩
      · rw [h'] at ht
        obtain ⟨rfl, -⟩ := zero_inactive ht
        rw [hB.copy] at hp2
        cases hp2
        exact ⟨Or.inr ⟨hB, hPf⟩, hP.2⟩
      · have hb' := mem_sends.1 hb
        simp only [List.mem_append] at hb'
        rcases hb' with (((hb' | hb') | hb') | hb') | hb'
        · exact Or.inl (hpre m b hm hb')
        · exact absurd hb' (hgen m b r o2 hg).1
        · exact absurd hb' (hgen m b r o2 hg).2
        · simp at hb'
          right
          rw [hb'.2]
          exact ⟨_, hB, hPf, hs.formats⟩
        · have := mem_sends.2 hb'
          rw [sends_arm] at this
          cases this

theorem follow_run {K S : Msg → Prop} {P : Msg → Msg → Prop} {B : Blk → Prop} {R : Env × Event → Nat × Bytes → Prop} {Q : Nat × Bytes → Prop}
    {C : Env × Event → Obs → Prop} {sx : Bool} {a : Addr} :
    ∀ {evs : List (Env × Event)} {s s' : Srv} {tr : List (List Obs)}, (∀ x ∈ evs, FollowOK S P B (R x) Q (C x) a x.1 ∧ AppOK x.1) → Tidy s →
    Server.run sx s evs = .ok (s', tr) → Tracks (RespTo K S P) B s a →
    (∀ x ∈ evs, ∀ m, arrived sx a x = some m → Asks m → S m) →
    (∀ p ∈ evs.zip tr, ∀ y, (a, y) ∈ bodies p.2 → R p.1 y) → (∀ p ∈ evs.zip tr, ∀ y ∈ p.2, C p.1 y) →
    Tracks (RespTo K S P) B s' a ∧ ∀ o ∈ tr, (∀ y, (a, y) ∈ bodies o → Q y) ∧
      ∀ b, (a, b) ∈ sends o → Empty b ∨ ∃ x, Built x ∧ RespTo K S P x ∧ Formats x b
  | [], s, s', tr, _, _, h, hi, _, _, _ => by
    cases h
    exact ⟨hi, by simp⟩
  | (env, ev) :: evs, s, s', tr, hT, ht, h, hi, hS, hR, hC => by
    obtain ⟨s1, o, e, tr1, h1, h2, rfl⟩ := run_cons h
    obtain ⟨g1, g2⟩ := hT (env, ev) (by simp)
    have hr := step_rel h1
    obtain ⟨a0, a3⟩ := follow_step g1 g2 ht hr hi (hS (env, ev) (by simp)) (hC ((env, ev), o) (by simp))
    obtain ⟨a1, a2⟩ := a3 (hR ((env, ev), o) (by simp))
    obtain ⟨b1, b2⟩ := follow_run (fun x hx => hT x (by simp [hx])) (hr.tidy ht) h2 a1 (fun x hx => hS x (by simp [hx]))
      (fun p hp => hR p (List.mem_cons_of_mem _ hp)) (fun p hp => hC p (List.mem_cons_of_mem _ hp))
    refine ⟨b1, ?_⟩
    intro o' ho
    rcases List.mem_cons.1 ho with rfl | ho
    · exact ⟨a0, a2⟩
    · exact b2 o' ho

end FreeCoAP.Server
