import Verif.EndToEnd.SpecPlain
import Verif.EndToEnd.LemmasRound
import Verif.Server.Props2

/-! # A single request and its execution -/

namespace FreeCoAP.EndToEnd

open FreeCoAP.Msg
open FreeCoAP.Server (Env Event Addr Srv Obs Carries Asks Built calls step Kept run Tidy AppOK StepRel step_rel run_cons Holds call_step
  step_view generate generate_built BRes Large Trans AllKnown arrived)

theorem callsOf_nil (a : Addr) : callsOf a [] = [] := rfl

theorem calls_app (o p : List Obs) : calls (o ++ p) = calls o ++ calls p := List.filterMap_append

theorem callsOf_cons (a : Addr) (o : List Obs) (tr : List (List Obs)) :
    callsOf a (o :: tr) = ((calls o).filter (fun c => c.1 = a)).map (·.2) ++ callsOf a tr := by
  unfold callsOf
  rw [List.flatten_cons, calls_app, List.filter_append, List.map_append]

theorem mem_callsOf {a : Addr} {tr : List (List Obs)} {m : Msg} : m ∈ callsOf a tr ↔ ∃ o ∈ tr, (a, m) ∈ calls o := by
  induction tr with
  | nil => simp [callsOf_nil]
  | cons o tr ih =>
    rw [callsOf_cons, List.mem_append, ih]
    simp only [List.mem_map, List.mem_filter, decide_eq_true_eq, List.mem_cons, exists_eq_or_imp]
    constructor
    · rintro (⟨⟨b, m'⟩, ⟨h1, h2⟩, rfl⟩ | h)
      · simp only at h2; subst h2; exact Or.inl h1
      · exact Or.inr h
    · rintro (h | h)
      · exact Or.inl ⟨(a, m), ⟨h, rfl⟩, rfl⟩
      · exact Or.inr h

/-- After the application was called and the response was sent the server holds the answer. -/
theorem holds_call {sx : Bool} {s s' : Srv} {env : Env} {a : Addr} {d : Bytes} {o : List Obs} {m : Msg}
    (ht : Tidy s) (h : StepRel sx s env (.datagram a d) s' o none) (hm : Carries sx d m)
    (ha : AppOK env) (hc : calls o ≠ []) : ∃ r, Holds a m.msgId r s' := by
  cases step_view h ht a with
  | untouched h1 ho hd _ =>
    exfalso
    rcases call_step h ht with g | ⟨a', d', m', g1, -, -, -, g5⟩
    · exact hc g
    · cases g1
      have : (a, m') ∈ calls o := by rw [g5]; simp
      obtain ⟨y, hy, e⟩ := List.mem_filterMap.1 this
      split at e
      · cases e; exact absurd rfl (ho _ hy)
      · cases e
  | evicted b d hb hev => cases hev; exact absurd rfl hb
  | timer i u r hev => cases hev
  | exchange d' u r' L hev h0 hu hta hact hout ho he h' hid =>
    cases hev
    subst ho
    cases hout with
    | again h => exact absurd rfl hc
    | lost => cases he
    | dupAck m' hm' h1 h2 h3 => exact absurd rfl hc
    | dupResp m' hm' h1 h2 h3 hs => exact absurd rfl hc
    | dupFail => exact absurd rfl hc
    | dupNon m hm h1 h2 => exact absurd rfl hc
    | acked m hm h1 h2 => exact absurd rfl hc
    | ackFail m hm h1 h2 => cases he
    | rejected m hm h1 h2 h3 o ho => cases he
    | ackLost => cases he
    | genFail m hm hn hp r o2 hg e he => cases he
    | sendFail m hm hn hp r o2 hg he o3 e ho hf => cases he
    | done m' hm' hn hp r' o2 hg he hs q p hq hp2 =>
      have hB := (generate_built ha hg).final (sepList := s.sepList) (env := env) (id := s.msgId) hm'.1.fields.1
      have hpe := hB.copy
      rw [hp2] at hpe
      have hpe : p = Server.final s.sepList env s.msgId m' r'.resp := by simpa using hpe
      subst hpe
      rw [hm.unique hm'.1]
      rw [if_pos (by simp only [Server.recorded]; exact hact)] at h'
      obtain ⟨c1, -, -, -, c5, -, -⟩ := Server.copy_ok_fields hq
      refine ⟨_, _, h', ?_, c5, rfl, hs⟩
      simp only [Server.recorded]; rw [c1, hm'.1.fields.1.ver]; decide

/-- While the server holds the answer the application is not called. -/
theorem holds_none {sx : Bool} {a : Addr} {i : Nat} {r : Bytes} :
    ∀ {evs : List (Env × Event)} {s s' : Srv} {tr : List (List Obs)}, Holds a i r s → Tidy s → run sx s evs = .ok (s', tr) →
    Kept sx a s evs → (∀ x ∈ evs, ∀ d, x.2 = .datagram a d → ∀ m, Carries sx d m → Asks m → m.msgId = i) → callsOf a tr = []
  | [], _, _, _, _, _, h, _, _ => by cases h; rfl
  | (env, ev) :: evs, s, s', tr, hh, ht, h, hk, hm => by
    obtain ⟨s1, o, e, tr1, h1, h2, rfl⟩ := run_cons h
    have hr := step_rel h1
    have hk1 := hk.2 s1 o e h1
    have hh' := hh.step ht hr hk1.now (fun m harr hask => by
      obtain ⟨d, he, hc⟩ := arrived_carries harr
      exact hm (env, ev) (by simp) d he m hc hask)
    rw [callsOf_cons, holds_none hh' (hr.tidy ht) h2 hk1 (fun x hx => hm x (by simp [hx])), List.append_nil, List.map_eq_nil_iff,
      List.filter_eq_nil_iff]
    rintro ⟨b, m⟩ hb hba
    have hba : b = a := of_decide_eq_true hba
    subst hba
    rcases call_step hr ht with g | ⟨a', d', m', g1, g2, g3, -, g5⟩
    · rw [g] at hb; cases hb
    · rw [g5] at hb
      simp only [List.mem_singleton, Prod.mk.injEq] at hb
      obtain ⟨rfl, rfl⟩ := hb
      subst g1
      have hi := hm (env, _) (by simp) d' rfl m g2.1 g3
      subst hi
      have := (hh.dup ht hr g2.1 g3.1).1
      rw [g5] at this
      cases this

theorem once_run {sx : Bool} {a : Addr} {i : Nat} :
    ∀ {evs : List (Env × Event)} {s s' : Srv} {tr : List (List Obs)}, Tidy s → run sx s evs = .ok (s', tr) →
    (∀ x ∈ evs, AppOK x.1) → Remembers sx a s evs →
    (∀ x ∈ evs, ∀ d, x.2 = .datagram a d → ∀ m, Carries sx d m → Asks m → m.msgId = i) → (callsOf a tr).length ≤ 1
  | [], _, _, _, _, h, _, _, _ => by cases h; exact Nat.zero_le _
  | (env, ev) :: evs, s, s', tr, ht, h, happ, hk, hm => by
    obtain ⟨s1, o, e, tr1, h1, h2, rfl⟩ := run_cons h
    have hr := step_rel h1
    obtain ⟨k1, k2⟩ := hk s1 o e h1
    have ih := once_run (hr.tidy ht) h2 (fun x hx => happ x (by simp [hx])) k2 (fun x hx => hm x (by simp [hx]))
    rw [callsOf_cons]
    rcases call_step hr ht with g | ⟨a', d', m', g1, g2, g3, -, g5⟩
    · rw [g]; exact ih
    · rw [g5]
      by_cases haa : a' = a
      · subst haa
        subst g1
        obtain ⟨rfl, hkept⟩ := k1 ⟨m', by rw [g5]; simp⟩
        obtain ⟨r, hh⟩ := holds_call ht hr g2.1 (happ (env, .datagram a' d') (by simp)) (by rw [g5]; simp)
        have hi := hm (env, _) (by simp) d' rfl m' g2.1 g3
        rw [hi] at hh
        rw [holds_none hh (hr.tidy ht) h2 hkept (fun x hx => hm x (by simp [hx]))]
        simp
      · rw [List.filter_cons, if_neg (by simpa using haa)]
        exact ih

/-- What the application is called with came in a datagram. -/
theorem calls_came {sx : Bool} {a : Addr} {m : Msg} :
    ∀ {evs : List (Env × Event)} {s s' : Srv} {tr : List (List Obs)}, Tidy s → run sx s evs = .ok (s', tr) → m ∈ callsOf a tr →
    ∃ d env, (env, Event.datagram a d) ∈ evs ∧ Carries sx d m ∧ Asks m
  | [], _, _, _, _, h, hm => by cases h; cases hm
  | (env, ev) :: evs, s, s', tr, ht, h, hm => by
    obtain ⟨s1, o, e, tr1, h1, h2, rfl⟩ := run_cons h
    have hr := step_rel h1
    obtain ⟨o', ho', hc⟩ := mem_callsOf.1 hm
    rcases List.mem_cons.1 ho' with e' | ho'
    · subst e'
      rcases call_step hr ht with g | ⟨a', d', m', g1, g2, g3, -, g5⟩
      · rw [g] at hc; cases hc
      · rw [g5] at hc
        simp only [List.mem_singleton, Prod.mk.injEq] at hc
        obtain ⟨rfl, rfl⟩ := hc
        exact ⟨d', env, by rw [g1]; simp, g2.1, g3⟩
    · obtain ⟨d, env', k1, k2⟩ := calls_came (hr.tidy ht) h2 (mem_callsOf.2 ⟨o', ho', hc⟩)
      exact ⟨d, env', by simp [k1], k2⟩

/-- What is known of the answer to `m`. -/
def PlainResp (a : Addr) (evs : List (Env × Event)) (tr : List (List Obs)) (m x : Msg) : Prop :=
  (AllKnown m ∧ m ∈ callsOf a tr ∧ ∃ resp, Replied a evs tr m resp ∧ Says x resp) ∨ (¬ AllKnown m ∧ x.codeClass = 4 ∧ x.codeDetail = 2)

theorem plain_gen {a : Addr} {evs : List (Env × Event)} {tr : List (List Obs)} {x : Env × Event} (hd : Direct a x.1)
    {t : Trans} {L : Large} {m : Msg} {r : BRes} {o2 : List Obs} (hta : t.addr = a) (hB : t.blk.type = .regular)
    (hg : generate x.1 t L m = .ok (r, o2)) (hC : ∀ y ∈ o2, ∃ o, (x, o) ∈ evs.zip tr ∧ y ∈ o) (he : r.err = none) :
    PlainResp a evs tr m r.resp ∧ r.blk.type = .regular := by
  unfold generate at hg
  by_cases hk : checkCriticalOps m.ops ≠ 0
  · rw [if_pos hk] at hg
    split at hg
    · rename_i resp e hbo
      cases hg
      rcases Server.badOption_cases hbo with ⟨-, g⟩ | ⟨-, g⟩ <;> cases g
      · exact ⟨Or.inr ⟨Server.checkCritical_ne.1 hk, rfl, rfl⟩, hB⟩
      · cases he
    · cases hg
    · cases hg
  · rw [if_neg hk, if_neg (fun h => h hB)] at hg
    obtain ⟨resp, err, hh⟩ := hd t m hta
    rw [hh] at hg
    cases hg
    simp only at he
    subst he
    have hkn : AllKnown m := Classical.byContradiction fun hn => hk (Server.checkCritical_ne.2 hn)
    obtain ⟨o, ho, hm⟩ := hC (.call t.addr m) (by simp)
    have hmc : (a, m) ∈ calls o := List.mem_filterMap.2 ⟨_, hm, by rw [hta]⟩
    have hcall : m ∈ callsOf a tr := mem_callsOf.2 ⟨o, (List.of_mem_zip ho).2, hmc⟩
    exact ⟨Or.inl ⟨hkn, hcall, resp, ⟨(x, o), ho, hmc, t, hta, hh⟩, rfl, rfl, rfl, rfl⟩, hB⟩

end FreeCoAP.EndToEnd
