import Verif.Server.LemmasCall
import Verif.Server.LemmasGen

/-! # Invariants of one sender between two calls of the application -/

namespace FreeCoAP.Server

open FreeCoAP.Msg

theorem Sendable.formats {m : Msg} (h : Sendable m) : Formats m (enc m) := by
  obtain ⟨⟨buf, n⟩, h⟩ := h
  exact ⟨buf, n, h, (format_take h).2.symm⟩

/-- The response of the sender satisfies `P` and its transfer `B`. -/
def Tracks (P : Msg → Prop) (B : Blk → Prop) (s : Srv) (a : Addr) : Prop :=
  ∀ t, ofAddr s a = some t → (t.resp = create ∨ (Built t.resp ∧ P t.resp)) ∧ B t.blk

/-- What has to be shown for `Tracks` to be preserved: responses that are generated without
a call of the application satisfy `P`. -/
structure TrackOK (P : Msg → Prop) (B : Blk → Prop) (env : Env) : Prop where
  clear : B Blk.none
  gen : ∀ (t : Trans) (L : Large) (m : Msg) (r : BRes), B t.blk → generate env t L m = .ok (r, []) → r.err = none →
    P r.resp ∧ B r.blk
  final : ∀ (sepList : List Bytes) (id : Nat) (m x : Msg), P x → P (Server.final sepList env id m x)

theorem Tracks.step {P : Msg → Prop} {B : Blk → Prop} {sx : Bool} {s s' : Srv} {env : Env} {ev : Event} {o : List Obs}
    {e : Option Err} {a : Addr} (hT : TrackOK P B env) (happ : AppOK env) (ht : Tidy s) (h : StepRel sx s env ev s' o e)
    (hi : Tracks P B s a) (hc : ∀ m, (a, m) ∉ calls o) :
    Tracks P B s' a ∧ ∀ b, (a, b) ∈ sends o → Empty b ∨ ∃ x, Built x ∧ P x ∧ Formats x b := by
  have hcr : Empty (enc create) := by rw [enc_create]; exact Or.inr (Or.inr rfl)
  cases step_view h ht a with
  | untouched h1 ho hd _ =>
    refine ⟨fun t ht => hi t (by rw [← h1]; exact ht), fun b hb => absurd rfl (ho _ (mem_sends.1 hb))⟩
  | evicted b d hb hev h1 t ht hi hb'' ho =>
    refine ⟨fun t ht => (by rw [h1] at ht; cases ht), fun b hb => absurd rfl (ho _ (mem_sends.1 hb))⟩
  | timer i u r hev hiu hu hta hact har hout ho he h' hid =>
    subst ho
    have hu' := hi u hu
    cases hout with
    | expired =>
      refine ⟨fun t ht => ?_, fun b hb => by simp [sends] at hb⟩
      rw [h'] at ht; cases ht
    | noTimer =>
      refine ⟨fun t ht => ?_, fun b hb => by simp [sends] at hb⟩
      rw [h'] at ht
      obtain ⟨rfl, -⟩ := zero_inactive ht
      exact hu'
    | resent h he hs hse =>
      refine ⟨fun t ht => ?_, fun b hb => ?_⟩
      · rw [h'] at ht
        obtain ⟨rfl, -⟩ := zero_inactive ht
        exact hu'
      · have hb' := mem_sends.1 hb
        simp at hb'
        rw [hb'.2]
        rcases hu'.1 with hc | ⟨hc1, hc2⟩
        · left; rw [hc]; exact hcr
        · right; exact ⟨_, hc1, hc2, hs.formats⟩
    | noSend =>
      refine ⟨fun t ht => ?_, fun b hb => by simp [sends] at hb⟩
      rw [h'] at ht
      obtain ⟨rfl, -⟩ := zero_inactive ht
      exact hu'
  | exchange d u r L hev h0 hu hta hact hout ho he h' hid =>
    subst hev ho
    have hu' : (u.resp = create ∨ (Built u.resp ∧ P u.resp)) ∧ B u.blk := by
      rcases hu with hu | ⟨-, rfl, -⟩
      · exact hi u hu
      · exact ⟨Or.inl rfl, hT.clear⟩
    have hzero : ∀ r' : TRes, r' = r → r'.trans = Trans.zero → Tracks P B s' a := by
      rintro r' rfl hz t ht
      rw [h', hz] at ht
      cases ht
    have hsame : ∀ r' : TRes, r' = r → r'.trans.resp = u.resp → r'.trans.blk = u.blk → Tracks P B s' a := by
      rintro r' rfl h1 h2 t ht
      rw [h'] at ht
      obtain ⟨rfl, -⟩ := zero_inactive ht
      rw [h1, h2]
      exact hu'
    have hpre : ∀ m b, Got sx env d m → Obs.sent a b ∈ preAck s.sepList u m → Empty b := by
      intro m b hm hb
      unfold preAck at hb
      split at hb
      · simp at hb; rw [hb.2]; exact Empty.ack hm.1
      · cases hb
    have hgen : ∀ m b (r : BRes) o2, generate env (cleared env u) L m = .ok (r, o2) → Obs.sent a b ∉ o2 ∧ Obs.sent a b ∉ rxObs u.addr r := by
      intro m b r o2 hg
      constructor
      · intro hh
        have := mem_sends.2 hh
        rw [(generate_sends hg).1] at this
        cases this
      · intro hh
        have := mem_sends.2 hh
        rw [sends_rx] at this
        cases this
    have hnil : ∀ m (r : BRes) o2, generate env (cleared env u) L m = .ok (r, o2) → (∀ m, (a, m) ∉ calls o2) → o2 = [] := by
      intro m r o2 hg hn
      rcases generate_calls hg with rfl | ⟨-, rfl⟩
      · rfl
      · exfalso
        apply hn m
        show (a, m) ∈ [((cleared env u).addr, m)]
        simp [cleared, hta]
    cases hout with
    | again hx => exact ⟨hsame _ rfl rfl rfl, fun b hb => by simp [sends] at hb⟩
    | lost e h o ho =>
      refine ⟨hzero _ rfl rfl, fun b hb => ?_⟩
      have hb' := mem_sends.1 hb
      rcases ho with rfl | ⟨-, -, i, hi, rfl⟩
      · simp at hb'
      · simp at hb'; left; rw [hb'.2]; exact Empty.rst hi
    | dupAck m hm h1 h2 h3 =>
      refine ⟨hsame _ rfl rfl rfl, fun b hb => ?_⟩
      have hb' := mem_sends.1 hb
      simp at hb'; left; rw [hb'.2]; exact Empty.ack hm.1
    | dupResp m hm h1 h2 h3 hs =>
      refine ⟨hsame _ rfl rfl rfl, fun b hb => ?_⟩
      have hb' := mem_sends.1 hb
      simp at hb'
      rw [hb'.2]
      rcases hu'.1 with hc | ⟨hc1, hc2⟩
      · left; rw [hc]; exact hcr
      · right; exact ⟨_, hc1, hc2, hs.formats⟩
    | dupFail => exact ⟨hzero _ rfl rfl, fun b hb => by simp [sends] at hb⟩
    | dupNon m hm h1 h2 => exact ⟨hsame _ rfl rfl rfl, fun b hb => by simp [sends] at hb⟩
    | acked m hm h1 h2 => exact ⟨hsame _ rfl rfl rfl, fun b hb => by simp [sends] at hb⟩
    | ackFail m hm h1 h2 => exact ⟨hzero _ rfl rfl, fun b hb => by simp [sends] at hb⟩
    | rejected m hm h1 h2 h3 o ho =>
      refine ⟨hzero _ rfl rfl, fun b hb => ?_⟩
      have hb' := mem_sends.1 hb
      rcases ho with rfl | ⟨-, rfl⟩
      · simp at hb'
      · simp at hb'; left; rw [hb'.2]; exact Empty.rst' hm.1
    | ackLost => exact ⟨hzero _ rfl rfl, fun b hb => by simp [sends] at hb⟩
    | genFail m hm hn hp r o2 hg e he =>
      refine ⟨hzero _ rfl rfl, fun b hb => ?_⟩
      have hb' := mem_sends.1 hb
      simp only [List.mem_append] at hb'
      rcases hb' with (hb' | hb') | hb'
      · exact Or.inl (hpre m b hm hb')
      · exact absurd hb' (hgen m b r o2 hg).1
      · exact absurd hb' (hgen m b r o2 hg).2
    | sendFail m hm hn hp r o2 hg hre o3 e ho hf =>
      refine ⟨hzero _ rfl rfl, fun b hb => ?_⟩
      have hb' := mem_sends.1 hb
      simp only [List.mem_append] at hb'
      rcases hb' with ((hb' | hb') | hb') | hb'
      · exact Or.inl (hpre m b hm hb')
      · exact absurd hb' (hgen m b r o2 hg).1
      · exact absurd hb' (hgen m b r o2 hg).2
      · rcases ho with rfl | ⟨rfl, hsd⟩
        · simp at hb'
        · simp at hb'
          have h2 : o2 = [] := by
            refine hnil m r o2 hg (fun m hm => hc m ?_)
            simp only [calls_append, List.mem_append]
            exact Or.inl (Or.inl (Or.inr hm))
          subst h2
          right
          rw [hb'.2]
          exact ⟨_, (generate_built happ hg).final hm.1.fields.1, hT.final _ _ _ _ (hT.gen (cleared env u) _ _ _ hu'.2 hg hre).1, hsd.formats⟩
    | done m hm hn hp r o2 hg hre hs q p hq hp2 =>
      have h2 : o2 = [] := by
        refine hnil m r o2 hg (fun m hm => hc m ?_)
        simp only [calls_append, List.mem_append]
        exact Or.inl (Or.inl (Or.inl (Or.inr hm)))
      subst h2
      have hB := (generate_built happ hg).final (sepList := s.sepList) (env := env) (id := s.msgId) hm.1.fields.1
      have hP := hT.gen (cleared env u) _ _ _ hu'.2 hg hre
      refine ⟨fun t ht => ?_, fun b hb => ?_⟩
      · rw [h'] at ht
        obtain ⟨rfl, -⟩ := zero_inactive ht
        rw [hB.copy] at hp2
        cases hp2
        exact ⟨Or.inr ⟨hB, hT.final _ _ _ _ hP.1⟩, hP.2⟩
      · have hb' := mem_sends.1 hb
        simp only [List.mem_append] at hb'
        rcases hb' with (((hb' | hb') | hb') | hb') | hb'
        · exact Or.inl (hpre m b hm hb')
        · exact absurd hb' (hgen m b r [] hg).1
        · exact absurd hb' (hgen m b r [] hg).2
        · simp at hb'
          right
          rw [hb'.2]
          exact ⟨_, hB, hT.final _ _ _ _ hP.1, hs.formats⟩
        · have := mem_sends.2 hb'
          rw [sends_arm] at this
          cases this

theorem Tracks.run {P : Msg → Prop} {B : Blk → Prop} {sx : Bool} {a : Addr} : ∀ {evs : List (Env × Event)} {s s' : Srv}
    {tr : List (List Obs)}, (∀ x ∈ evs, TrackOK P B x.1 ∧ AppOK x.1) → Tidy s → Server.run sx s evs = .ok (s', tr) →
    Tracks P B s a → (∀ o ∈ tr, ∀ m, (a, m) ∉ calls o) →
    Tracks P B s' a ∧ ∀ o ∈ tr, ∀ b, (a, b) ∈ sends o → Empty b ∨ ∃ x, Built x ∧ P x ∧ Formats x b
  | [], s, s', tr, _, _, h, hi, _ => by
    cases h
    exact ⟨hi, by simp⟩
  | (env, ev) :: evs, s, s', tr, hT, ht, h, hi, hc => by
    obtain ⟨s1, o, e, tr1, h1, h2, rfl⟩ := run_cons h
    obtain ⟨g1, g2⟩ := hT (env, ev) (by simp)
    have hr := step_rel h1
    obtain ⟨a1, a2⟩ := hi.step g1 g2 ht hr (hc o (by simp))
    obtain ⟨b1, b2⟩ := Tracks.run (fun x hx => hT x (by simp [hx])) (hr.tidy ht) h2 a1 (fun o ho => hc o (by simp [ho]))
    refine ⟨b1, ?_⟩
    intro o' ho
    rcases List.mem_cons.1 ho with rfl | ho
    · exact a2
    · exact b2 o' ho

/-- The event of a call of the application. -/
theorem call_outcome {sx : Bool} {s s' : Srv} {env : Env} {ev : Event} {o : List Obs} {e : Option Err} {a : Addr} {m : Msg}
    (happ : AppOK env) (ht : Tidy s) (h : StepRel sx s env ev s' o e) (hc : (a, m) ∈ calls o) :
    ∃ d u L r, ev = .datagram a d ∧ Got sx env d m ∧ Asks m ∧ u.addr = a ∧
      generate env u L m = .ok (r, [.call a m]) ∧ Built r.resp ∧ u.blk.type = .regular ∧
      bodies o = r.rx.map (fun x => (a, x)) ∧
      (ofAddr s' a = none ∨ (r.err = none ∧ ∃ t, ofAddr s' a = some t ∧ t.blk = r.blk ∧
        t.resp = final s.sepList env s.msgId m r.resp)) ∧
      (∀ b, (a, b) ∈ sends o → Empty b ∨ (r.err = none ∧ b = enc (final s.sepList env s.msgId m r.resp) ∧
        Sendable (final s.sepList env s.msgId m r.resp))) := by
  have hmem : Obs.call a m ∈ o := by
    unfold calls at hc
    rw [List.mem_filterMap] at hc
    obtain ⟨x, hx, hx'⟩ := hc
    cases x <;> simp at hx'
    rw [← hx'.1, ← hx'.2]
    exact hx
  cases step_view h ht a with
  | untouched h1 ho hd _ => exact absurd rfl (ho _ hmem)
  | evicted b d hb hev h1 t ht hi hb'' ho => exact absurd rfl (ho _ hmem)
  | timer i u r hev hiu hu hta hact har hout ho he h' hid =>
    subst ho
    cases hout <;> simp at hmem
  | exchange d u r L hev h0 hu hta hact hout ho he h' hid =>
    subst hev ho
    have hpre : ∀ m b, Got sx env d m → Obs.sent a b ∈ preAck s.sepList u m → Empty b := by
      intro m b hm hb
      unfold preAck at hb
      split at hb
      · simp at hb; rw [hb.2]; exact Empty.ack hm.1
      · cases hb
    have hgen : ∀ m b (r : BRes) o2, generate env (cleared env u) L m = .ok (r, o2) → Obs.sent a b ∉ o2 ∧ Obs.sent a b ∉ rxObs u.addr r := by
      intro m b r o2 hg
      constructor
      · intro hh
        have := mem_sends.2 hh
        rw [(generate_sends hg).1] at this
        cases this
      · intro hh
        have := mem_sends.2 hh
        rw [sends_rx] at this
        cases this
    have hreg : ∀ m' (r : BRes) o2, generate env (cleared env u) L m' = .ok (r, o2) → (a, m) ∈ calls o2 →
        m' = m ∧ o2 = [.call a m] ∧ u.blk.type = .regular := by
      intro m' r o2 hg hcm
      have hbr : u.blk.type = .regular := by
        apply Classical.byContradiction
        intro hne
        unfold generate at hg
        split at hg
        · split at hg
          · cases hg; simp [calls] at hcm
          · cases hg
          · cases hg
        · rw [if_pos (by simpa [cleared] using hne)] at hg
          split at hg
          · cases hg; simp [calls] at hcm
          · cases hg
          · cases hg
      rcases generate_calls hg with rfl | ⟨-, rfl⟩
      · simp [calls] at hcm
      · simp [calls, cleared] at hcm
        obtain ⟨e1, e2⟩ := hcm
        subst e2
        exact ⟨rfl, by rw [e1]; rfl, hbr⟩
    cases hout with
    | again hx => simp at hmem
    | lost e h o ho => rcases ho with rfl | ⟨-, -, i, hi, rfl⟩ <;> simp at hmem
    | dupAck => simp at hmem
    | dupResp => simp at hmem
    | dupFail => simp at hmem
    | dupNon => simp at hmem
    | acked => simp at hmem
    | ackFail => simp at hmem
    | rejected m hm h1 h2 h3 o ho => rcases ho with rfl | ⟨-, rfl⟩ <;> simp at hmem
    | ackLost => simp at hmem
    | genFail m' hm hn hp r o2 hg e he =>
      simp only [calls_append, calls_pre, calls_rx, List.append_nil, List.nil_append] at hc
      obtain ⟨rfl, rfl, hbr⟩ := hreg m' r o2 hg hc
      refine ⟨d, cleared env u, L, r, rfl, hm, ⟨hn.type, hn.cls⟩, hta, hg, generate_built happ hg, hbr, ?_, Or.inl ?_, ?_⟩
      · simp only [bodies_append, bodies_pre, bodies_rx, (generate_sends hg).2.2, hta, List.append_nil, List.nil_append]
      · simpa [Trans.zero] using h'
      · intro b hb
        have hb' := mem_sends.1 hb
        simp only [List.mem_append] at hb'
        rcases hb' with (hb' | hb') | hb'
        · exact Or.inl (hpre _ b hm hb')
        · exact absurd hb' (hgen _ b r _ hg).1
        · exact absurd hb' (hgen _ b r _ hg).2
    | sendFail m' hm hn hp r o2 hg hre o3 e ho hf =>
      have hc3 : calls o3 = [] ∧ bodies o3 = [] := by rcases ho with rfl | ⟨rfl, -⟩ <;> exact ⟨rfl, rfl⟩
      simp only [calls_append, calls_pre, calls_rx, hc3.1, List.append_nil, List.nil_append] at hc
      obtain ⟨rfl, rfl, hbr⟩ := hreg m' r o2 hg hc
      refine ⟨d, cleared env u, L, r, rfl, hm, ⟨hn.type, hn.cls⟩, hta, hg, generate_built happ hg, hbr, ?_, Or.inl ?_, ?_⟩
      · simp only [bodies_append, bodies_pre, bodies_rx, (generate_sends hg).2.2, hta, hc3.2, List.append_nil, List.nil_append]
      · simpa [Trans.zero] using h'
      · intro b hb
        have hb' := mem_sends.1 hb
        simp only [List.mem_append] at hb'
        rcases hb' with ((hb' | hb') | hb') | hb'
        · exact Or.inl (hpre _ b hm hb')
        · exact absurd hb' (hgen _ b r _ hg).1
        · exact absurd hb' (hgen _ b r _ hg).2
        · rcases ho with rfl | ⟨rfl, hsd⟩
          · simp at hb'
          · simp at hb'
            exact Or.inr ⟨hre, hb'.2, hsd⟩
    | done m' hm hn hp r o2 hg hre hs q p hq hp2 =>
      simp only [calls_append, calls_pre, calls_rx, calls_arm, calls_sent, List.append_nil, List.nil_append] at hc
      obtain ⟨rfl, rfl, hbr⟩ := hreg m' r o2 hg hc
      have hB := (generate_built happ hg).final (sepList := s.sepList) (env := env) (id := s.msgId) hm.1.fields.1
      refine ⟨d, cleared env u, L, r, rfl, hm, ⟨hn.type, hn.cls⟩, hta, hg, generate_built happ hg, hbr, ?_, Or.inr ⟨hre, ?_⟩, ?_⟩
      · simp only [bodies_append, bodies_pre, bodies_rx, bodies_arm, (generate_sends hg).2.2, hta, bodies_sent,
          List.append_nil, List.nil_append]
      · rw [hB.copy] at hp2
        cases hp2
        rw [h', if_pos (by simp only [recorded]; exact hact)]
        exact ⟨_, rfl, rfl, rfl⟩
      · intro b hb
        have hb' := mem_sends.1 hb
        simp only [List.mem_append] at hb'
        rcases hb' with (((hb' | hb') | hb') | hb') | hb'
        · exact Or.inl (hpre _ b hm hb')
        · exact absurd hb' (hgen _ b r _ hg).1
        · exact absurd hb' (hgen _ b r _ hg).2
        · simp at hb'
          exact Or.inr ⟨hre, hb'.2, hs⟩
        · have := mem_sends.2 hb'
          rw [sends_arm] at this
          cases this

end FreeCoAP.Server
