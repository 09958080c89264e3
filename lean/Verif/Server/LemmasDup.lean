import Verif.Server.LemmasResp
import Verif.Server.LemmasGen

/-! # Duplicates -/

namespace FreeCoAP.Server

open FreeCoAP.Msg

/-- The server has answered the request with id `i` of sender `a` with `r`. -/
def Holds (a : Addr) (i : Nat) (r : Bytes) (s : Srv) : Prop :=
  ∃ t, ofAddr s a = some t ∧ t.req.ver ≠ 0 ∧ t.req.msgId = i ∧ enc t.resp = r ∧ Sendable t.resp

theorem Holds.of_eq {a : Addr} {i : Nat} {r : Bytes} {s s' : Srv} {u v : Trans} (hu : ofAddr s a = some u)
    (hv : ofAddr s' a = some v) (e1 : v.req = u.req) (e2 : v.resp = u.resp) (h : Holds a i r s) : Holds a i r s' := by
  obtain ⟨t, ht, h1⟩ := h
  rw [hu] at ht
  cases ht
  exact ⟨v, hv, by rw [e1, e2]; exact h1⟩

theorem matchReq_of {t : Trans} {m : Msg} {i : Nat} (h1 : t.req.ver ≠ 0) (h2 : t.req.msgId = i) (h3 : m.msgId = i) :
    matchReq t m = true := matchReq_iff.2 ⟨h1, h2.trans h3.symm⟩

theorem Holds.step {sx : Bool} {s s' : Srv} {env : Env} {ev : Event} {o : List Obs} {e : Option Err} {a : Addr} {i : Nat}
    {r : Bytes} (hh : Holds a i r s) (ht : Tidy s) (h : StepRel sx s env ev s' o e) (hk : ofAddr s' a ≠ none)
    (hm : ∀ m, arrived sx a (env, ev) = some m → Asks m → m.msgId = i) : Holds a i r s' := by
  obtain ⟨t, hat, h1, h2, h3, h4⟩ := id hh
  cases step_view h ht a with
  | untouched h1 ho hd _ => exact hh.of_eq hat (h1.trans hat) rfl rfl
  | evicted b d hb hev h1 => exact absurd h1 hk
  | timer i u r hev hi hu hta hact har hout ho he h' hid =>
    by_cases hra : r.trans.active = true
    · rw [if_pos hra] at h'
      have : r.trans.req = u.req ∧ r.trans.resp = u.resp := by
        cases hout <;> first | exact ⟨rfl, rfl⟩ | simp [Trans.zero] at hra
      exact hh.of_eq hu h' this.1 this.2
    · rw [if_neg hra] at h'; exact absurd h' hk
  | exchange d u r L hev h0 hu hta hact hout ho he h' hid =>
    subst hev
    have hu : ofAddr s a = some u := by
      rcases hu with hu | ⟨hu, -⟩
      · exact hu
      · rw [hat] at hu; cases hu
    rw [hat] at hu
    cases hu
    by_cases hra : r.trans.active = true
    · rw [if_pos hra] at h'
      cases hout with
      | again h => exact hh.of_eq hat h' rfl rfl
      | dupAck => exact hh.of_eq hat h' rfl rfl
      | dupResp => exact hh.of_eq hat h' rfl rfl
      | dupNon => exact hh.of_eq hat h' rfl rfl
      | acked => exact hh.of_eq hat h' rfl rfl
      | done m hgot hn hp r' o2 hg he hs q p hq hp2 =>
        have hi := hm m (arrived_got h0 hgot) ⟨hn.type, hn.cls⟩
        have hf := hn.fresh
        rw [matchReq_of h1 h2 hi] at hf
        cases hf
      | _ => simp [Trans.zero] at hra
    · rw [if_neg hra] at h'; exact absurd h' hk

theorem Kept.now {sx : Bool} {a : Addr} {s : Srv} {evs : List (Env × Event)} (h : Kept sx a s evs) : ofAddr s a ≠ none := by
  cases evs with
  | nil => exact h
  | cons x xs => exact h.1

theorem Holds.run {sx : Bool} {s s' : Srv} {evs : List (Env × Event)} {tr : List (List Obs)} {a : Addr} {i : Nat} {r : Bytes}
    (hh : Holds a i r s) (ht : Tidy s) (h : run sx s evs = .ok (s', tr)) (hk : Kept sx a s evs)
    (hm : ∀ x ∈ evs, ∀ m, arrived sx a x = some m → Asks m → m.msgId = i) : Holds a i r s' ∧ Tidy s' := by
  induction evs generalizing s tr with
  | nil => cases h; exact ⟨hh, ht⟩
  | cons x xs ih =>
    obtain ⟨env, ev⟩ := x
    obtain ⟨s1, o, e, t', h1, h2, rfl⟩ := run_cons h
    have hk1 := hk.2 s1 o e h1
    have hr := step_rel h1
    exact ih (hh.step ht hr hk1.now (hm _ (by simp))) (hr.tidy ht) h2 hk1 (fun x hx => hm x (by simp [hx]))

/-- After a request was answered the server holds the answer. -/
theorem holds_first {sx : Bool} {s s' : Srv} {env : Env} {a : Addr} {d : Bytes} {o : List Obs} {m : Msg} {r : Bytes}
    (ht : Tidy s) (h : StepRel sx s env (.datagram a d) s' o none) (hm : Carries sx d m)
    (ha : AppOK env) (hr : (a, r) ∈ sends o) (hne : ¬ Empty r) : Holds a m.msgId r s' := by
  have hb' := mem_sends.1 hr
  cases step_view h ht a with
  | untouched h1 ho hd _ => exact absurd rfl (ho _ hb')
  | evicted b d hb hev h1 t ht hi hb'' ho => exact absurd rfl (ho _ hb')
  | timer i u r hev => cases hev
  | exchange d' u r' L hev h0 hu hta hact hout ho he h' hid =>
    cases hev
    subst ho
    cases hout with
    | again h => simp at hb'
    | lost => cases he
    | dupAck m' hm' h1 h2 h3 => simp at hb'; rw [hb'.2] at hne; exact absurd (Empty.ack hm'.1) hne
    | dupResp m' hm' h1 h2 h3 hs =>
      simp at hb'
      rw [hm.unique hm'.1]
      rw [if_pos (by simp only [touched]; exact hact)] at h'
      obtain ⟨c1, c2⟩ := matchReq_iff.1 h1
      exact ⟨_, h', c1, c2, hb'.2.symm, hs⟩
    | dupFail => simp at hb'
    | dupNon m hm h1 h2 => simp at hb'
    | acked m hm h1 h2 => simp at hb'
    | ackFail m hm h1 h2 => cases he
    | rejected m hm h1 h2 h3 o ho => cases he
    | ackLost => cases he
    | genFail m hm hn hp r o2 hg e he => cases he
    | sendFail m hm hn hp r o2 hg he o3 e ho hf => cases he
    | done m' hm' hn hp r' o2 hg he hs q p hq hp2 =>
      have hB := (generate_built ha hg).final (sepList := s.sepList) (env := env) (id := s.msgId) hm'.1.fields.1
      have hpe := hB.copy
      rw [hp2] at hpe
      have hpe : p = final s.sepList env s.msgId m' r'.resp := by simpa using hpe
      subst hpe
      rw [hm.unique hm'.1]
      rw [if_pos (by simp only [recorded]; exact hact)] at h'
      obtain ⟨c1, -, -, -, c5, -, -⟩ := copy_ok_fields hq
      refine ⟨_, h', ?_, c5, ?_, hs⟩
      · simp only [recorded]; rw [c1, hm'.1.fields.1.ver]; decide
      · simp only [List.mem_append] at hb'
        rcases hb' with (((hb' | hb') | hb') | hb') | hb'
        · unfold preAck at hb'
          split at hb'
          · simp at hb'; rw [hb'.2] at hne; exact absurd (Empty.ack hm'.1) hne
          · cases hb'
        · have := mem_sends.2 hb'; rw [(generate_sends hg).1] at this; cases this
        · have := mem_sends.2 hb'; rw [sends_rx] at this; cases this
        · simp at hb'; exact hb'.2.symm
        · have := mem_sends.2 hb'; rw [sends_arm] at this; cases this

theorem Holds.dup {sx : Bool} {s s' : Srv} {env : Env} {a : Addr} {d : Bytes} {o : List Obs} {e : Option Err} {m : Msg}
    {r : Bytes} (hh : Holds a m.msgId r s) (ht : Tidy s) (h : StepRel sx s env (.datagram a d) s' o e) (hm : Carries sx d m)
    (hty : m.type = CON ∨ m.type = NON) :
    calls o = [] ∧ bodies o = [] ∧ arms o = [] ∧
    ((sends o = again s.sepList a m r ∧ (Arrives env → Holds a m.msgId r s')) ∨
      (sends o = [] ∧ ¬ (Arrives env ∧ env.sendErr = none ∧ env.ackErr = none))) := by
  obtain ⟨t, hat, h1, h2, h3, h4⟩ := id hh
  cases step_view h ht a with
  | untouched hu ho hd _ =>
    have : o = [] := by
      cases h with
      | noAccept => rfl
      | noCreate => rfl
      | known a d i t' r' h0 hi ha hd' hf hr =>
        exfalso
        rcases hd d rfl with h | ⟨h, -⟩
        · exact h h0
        · rw [hat] at h; cases h
      | new a d r' h0 hf he hi hr =>
        exfalso
        rcases hd d rfl with h | ⟨h, -⟩
        · exact h h0
        · rw [hat] at h; cases h
    subst this
    refine ⟨rfl, rfl, rfl, Or.inr ⟨rfl, ?_⟩⟩
    rintro ⟨⟨h0, -⟩, -⟩
    rcases hd d rfl with h | ⟨h, -⟩
    · exact h h0
    · rw [hat] at h; cases h
  | evicted b d hb hev => cases hev; exact absurd rfl hb
  | timer i u r hev => cases hev
  | exchange d' u r' L hev h0 hu hta hact hout ho he h' hid =>
    cases hev
    have hu : ofAddr s a = some u := by
      rcases hu with hu | ⟨hu, -⟩
      · exact hu
      · rw [hat] at hu; cases hu
    rw [hat] at hu
    cases hu
    subst ho
    have hmr := matchReq_of (m := m) h1 h2 rfl
    have hbad : (env.recvErr = none → env.parseMem = true → ∃ x, parse sx (recvBuf d) (min d.length BUF_LEN) = .err x) →
        ¬ (Arrives env) := by
      rintro hx ⟨-, g1, g2⟩
      obtain ⟨x, hx⟩ := hx g1 g2
      unfold Carries at hm
      rw [hm] at hx
      cases hx
    cases hout with
    | again hx => exact ⟨rfl, rfl, rfl, Or.inr ⟨rfl, fun hc => hbad hx hc.1⟩⟩
    | lost e hx o ho =>
      rcases ho with rfl | ⟨-, g, -⟩
      · exact ⟨rfl, rfl, rfl, Or.inr ⟨rfl, fun hc => hbad hx hc.1⟩⟩
      · unfold Carries at hm; rw [hm] at g; cases g
    | dupAck m' hm' g1 g2 g3 =>
      have := hm.unique hm'.1
      subst this
      rw [if_pos (by simp only [touched]; exact hact)] at h'
      refine ⟨rfl, rfl, rfl, Or.inl ⟨?_, fun _ => hh.of_eq hat h' rfl rfl⟩⟩
      simp only [sends, List.filterMap_cons, List.filterMap_nil, again, g2, g3, hta]
      rw [if_neg (by decide), enc_ack hm.fields.1.msgId]
      simp
    | dupResp m' hm' g1 g2 g3 hs =>
      have := hm.unique hm'.1
      subst this
      rw [if_pos (by simp only [touched]; exact hact)] at h'
      refine ⟨rfl, rfl, rfl, Or.inl ⟨?_, fun _ => hh.of_eq hat h' rfl rfl⟩⟩
      simp only [sends, List.filterMap_cons, List.filterMap_nil, again, g2, g3, hta, h3]
      rw [if_neg (by decide)]
      simp
    | dupFail m' hm' g1 g2 x g3 g4 =>
      have := hm.unique hm'.1
      subst this
      refine ⟨rfl, rfl, rfl, Or.inr ⟨rfl, ?_⟩⟩
      rintro ⟨-, f1, f2⟩
      by_cases hsep : Separate s.sepList m
      · exact g3 hsep f2
      · exact g4 hsep f1 h4
    | dupNon m' hm' g1 g2 =>
      have := hm.unique hm'.1
      subst this
      rw [if_pos (by simp only [touched]; exact hact)] at h'
      refine ⟨rfl, rfl, rfl, Or.inl ⟨?_, fun _ => hh.of_eq hat h' rfl rfl⟩⟩
      simp [again, g2, sends]
    | acked m' hm' g1 g2 =>
      have := hm.unique hm'.1
      subst this
      simp only [CON, NON, ACK, RST] at hty g2
      omega
    | ackFail m' hm' g1 g2 =>
      have := hm.unique hm'.1
      subst this
      simp only [CON, NON, ACK, RST] at hty g2
      omega
    | rejected m' hm' g1 g2 g3 o ho =>
      have := hm.unique hm'.1
      subst this
      obtain ⟨c1, c2⟩ := g2 hmr
      rcases hty with c | c
      · exact absurd c c1
      · exact absurd c c2
    | ackLost m' hm' hn => have := hm.unique hm'.1; subst this; have := hn.fresh; rw [hmr] at this; cases this
    | genFail m' hm' hn => have := hm.unique hm'.1; subst this; have := hn.fresh; rw [hmr] at this; cases this
    | sendFail m' hm' hn => have := hm.unique hm'.1; subst this; have := hn.fresh; rw [hmr] at this; cases this
    | done m' hm' hn => have := hm.unique hm'.1; subst this; have := hn.fresh; rw [hmr] at this; cases this

end FreeCoAP.Server
