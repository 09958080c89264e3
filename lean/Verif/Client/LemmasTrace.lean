import Verif.Client.Lemmas

/-! # Traces of an exchange -/

namespace FreeCoAP.Client

open FreeCoAP.Msg
open FreeCoAP.Server (header Header emptyAck reset Built Carries Formats)

theorem header_reset (id : Nat) : ∃ h, header (reset id) = some h ∧ h.type = RST ∧ h.cls = 0 ∧ h.detail = 0 :=
  ⟨_, rfl, rfl, rfl, rfl⟩
theorem header_ack (id : Nat) : ∃ h, header (emptyAck id) = some h ∧ h.type = ACK ∧ h.cls = 0 ∧ h.detail = 0 :=
  ⟨_, rfl, rfl, rfl, rfl⟩

theorem acks_reset (id : Nat) : acks [.sent (reset id)] = [] := rfl
theorem acks_ack (id : Nat) : acks [.sent (emptyAck id)] = [emptyAck id] := rfl

theorem Resets.acks {d : Bytes} {e : Option Err} {o : List Obs} (h : Resets d e o) : acks o = [] := by
  rcases h with rfl | ⟨-, h, -, -, -, rfl⟩
  · rfl
  · exact acks_reset _

theorem Resets.about {d : Bytes} {e : Option Err} {o : List Obs} {b : Bytes} (h : Resets d e o) (hb : 4 < b.length) :
    about b o = [] := by
  rcases h with rfl | ⟨-, h, -, -, -, rfl⟩
  · rfl
  · simp only [Client.about]
    rw [List.filter_cons_of_neg]
    · rfl
    · simp only [decide_eq_true_eq]
      rintro rfl
      simp [reset] at hb

/-- What the client sends besides its request. -/
def Aside (o : List Obs) : Prop := ∀ d ∈ sends o, ∃ id < 65536, d = reset id ∨ d = emptyAck id

theorem Resets.aside {d : Bytes} {e : Option Err} {o : List Obs} (h : Resets d e o) : Aside o := by
  rcases h with rfl | ⟨-, h, -, -, hl, rfl⟩
  · intro d hd; cases hd
  · intro d hd
    simp [sends] at hd
    exact ⟨_, hl, Or.inl hd⟩

/-! ## The response -/

theorem Accepts.acks {px : Bool} {req m : Msg} {w : Wait} {i : Input} {o : List Obs} (h : Accepts px req w i m o) :
    acks o = if m.type = CON then [emptyAck m.msgId] else [] := by
  rcases h.kind with ⟨-, h1, -, -, rfl⟩ | ⟨-, h1, rfl⟩ | ⟨-, h1, -, rfl⟩
  · rw [h1]; rfl
  · rw [h1]; rfl
  · rw [h1]; exact acks_ack _

theorem wait_acks {sx px : Bool} {req : Msg} {w : Wait} {is : List Input} {o : List Obs} {r : Option (Except Err Msg)}
    (hq : acks [.sent (enc req)] = []) (h : wait sx px req w is = .ok (o, r)) : acks o = acksFor r := by
  have harm : ∀ t, acks [.arm t, .sent (enc req)] = [] := fun t => hq
  induction is generalizing w o with
  | nil => cases h; rfl
  | cons i is ih =>
    rcases wait_cons h with ⟨x, h1, rfl⟩ | ⟨o1, o2, w', h1, h2, rfl⟩
    · have := step_cases h1
      cases this with
      | handled d m _ _ he hc hpm hh =>
        cases hh with
        | accept _ ha => exact ha.acks
        | reset _ _ => rfl
        | bad _ hr => exact hr.acks
        | fault _ e ho _ => rw [ho]; rfl
      | unread d _ e _ hr _ => exact hr.acks
      | broken e _ => rfl
      | unsent e _ _ _ _ _ => rfl
      | noTimer e _ _ _ => rfl
      | timeout _ _ => rfl
    · rw [acks_append, ih h2]
      suffices h : acks o1 = [] by rw [h]; rfl
      have := step_cases h1
      cases this with
      | handled d m _ _ he hc hpm hh =>
        cases hh with
        | keep _ hr => exact hr.acks
        | sep _ _ _ _ _ _ ho => rw [ho]; cases i.timerErr <;> rfl
      | again _ => rfl
      | retry _ _ _ _ _ _ => exact harm _

theorem wait_accept {sx px : Bool} {req resp : Msg} {w : Wait} {is : List Input} {o : List Obs}
    (h : wait sx px req w is = .ok (o, some (.ok resp))) :
    ∃ i ∈ is, ∃ d w' o', i.ev = .datagram d ∧ Carries sx d resp ∧ Accepts px req w' i resp o' ∧
      (w.phase ≠ .ack → w'.phase ≠ .ack) := by
  induction is generalizing w o with
  | nil => cases h
  | cons i is ih =>
    rcases wait_cons h with ⟨x, h1, hx⟩ | ⟨o1, o2, w1, h1, h2, rfl⟩
    · cases hx
      have := step_cases h1
      cases this with
      | handled d m _ _ he hc hpm hh =>
        cases hh with
        | accept _ ha => exact ⟨i, by simp, d, w, o, he, hc, ha, fun h => h⟩
    · obtain ⟨j, hj, d, w', o', e1, e2, e3, e4⟩ := ih h2
      refine ⟨j, by simp [hj], d, w', o', e1, e2, e3, fun hp => e4 ?_⟩
      have := step_cases h1
      cases this with
      | handled d m _ _ he hc hpm hh =>
        cases hh with
        | keep _ _ => exact hp
        | sep _ _ _ _ _ _ _ => simp
      | again _ => exact hp
      | retry _ hq _ _ _ _ => exact absurd hq hp

/-! ## Retransmissions -/

theorem about_ack {b : Bytes} (hb : 4 < b.length) (id : Nat) : about b [.sent (emptyAck id)] = [] := by
  simp only [about]
  rw [List.filter_cons_of_neg]
  · rfl
  · simp only [decide_eq_true_eq]
    rintro rfl
    simp [emptyAck] at hb

theorem Accepts.about {px : Bool} {req m : Msg} {w : Wait} {i : Input} {o : List Obs} {b : Bytes}
    (h : Accepts px req w i m o) (hb : 4 < b.length) : about b o = [] := by
  rcases h.kind with ⟨-, h, -, -, rfl⟩ | ⟨-, h, rfl⟩ | ⟨-, h, -, rfl⟩
  · rfl
  · rfl
  · exact about_ack hb _

theorem Accepts.aside {px : Bool} {req m : Msg} {w : Wait} {i : Input} {o : List Obs} (hm : m.msgId < 65536)
    (h : Accepts px req w i m o) : Aside o := by
  rcases h.kind with ⟨-, h, -, -, rfl⟩ | ⟨-, h, rfl⟩ | ⟨-, h, -, rfl⟩
  · intro d hd; cases hd
  · intro d hd; cases hd
  · intro d hd
    simp [sends] at hd
    exact ⟨_, hm, Or.inr hd⟩

theorem about_sent (b : Bytes) (t : Nat) : about b [.arm t, .sent b] = [.arm t, .sent b] := by simp [about]

/-- The end of the trace of the transmissions. -/
def Tail (t n : Nat) (r : Option (Except Err Msg)) (tail : List Obs) : Prop :=
  tail = [] ∨ tail = [.arm RESP_TIMEOUT] ∨ (tail = [.arm (2 ^ (n + 1) * t)] ∧ ∃ e, r = some (.error e))

theorem retries_zero (b : Bytes) (t k : Nat) : retries b t k 0 = [] := rfl
theorem retries_succ (b : Bytes) (t k n : Nat) :
    retries b t k (n + 1) = .arm (2 ^ (k + 1) * t) :: .sent b :: retries b t (k + 1) n := by
  simp [retries, List.range'_succ]

theorem wait_quiet {sx px : Bool} {req : Msg} {w : Wait} {is : List Input} {o : List Obs} {r : Option (Except Err Msg)}
    (hb : 4 < (enc req).length) (hp : w.phase ≠ .ack) (h : wait sx px req w is = .ok (o, r)) :
    about (enc req) o = [] ∧ Aside o := by
  induction is generalizing w o with
  | nil => cases h; exact ⟨rfl, fun d hd => by cases hd⟩
  | cons i is ih =>
    rcases wait_cons h with ⟨x, h1, rfl⟩ | ⟨o1, o2, w', h1, h2, rfl⟩
    · have := step_cases h1
      cases this with
      | handled d m _ _ he hc hpm hh =>
        cases hh with
        | accept _ ha => exact ⟨ha.about hb, ha.aside hc.fields.1.msgId⟩
        | reset _ _ => exact ⟨rfl, fun d hd => by cases hd⟩
        | bad _ hr => exact ⟨hr.about hb, hr.aside⟩
        | fault _ e ho _ => rw [ho]; exact ⟨rfl, fun d hd => by cases hd⟩
      | unread d _ e _ hr _ => exact ⟨hr.about hb, hr.aside⟩
      | broken e _ => exact ⟨rfl, fun d hd => by cases hd⟩
      | unsent e _ hq _ _ _ => exact absurd hq hp
      | noTimer e _ hq _ => exact absurd hq hp
      | timeout _ _ => exact ⟨rfl, fun d hd => by cases hd⟩
    · suffices hs : about (enc req) o1 = [] ∧ Aside o1 ∧ w'.phase ≠ .ack by
        obtain ⟨a1, a2⟩ := ih hs.2.2 h2
        refine ⟨by rw [about_append, hs.1, a1]; rfl, ?_⟩
        intro d hd
        rw [sends_append, List.mem_append] at hd
        exact hd.elim (hs.2.1 d) (a2 d)
      have := step_cases h1
      cases this with
      | handled d m _ _ he hc hpm hh =>
        cases hh with
        | keep _ hr => exact ⟨hr.about hb, hr.aside, hp⟩
        | sep _ hq _ _ _ _ _ => exact absurd hq hp
      | again _ => exact ⟨rfl, (fun d hd => by cases hd), hp⟩
      | retry _ hq _ _ _ _ => exact absurd hq hp

theorem wait_retries {sx px : Bool} {req : Msg} {k t : Nat} {is : List Input} {o : List Obs} {r : Option (Except Err Msg)}
    (hb : 4 < (enc req).length) (hk : k ≤ 4) (ht : t < 3000) (h : wait sx px req ⟨.ack, k, 2 ^ k * t⟩ is = .ok (o, r)) :
    ∃ n tail, k + n ≤ 4 ∧ about (enc req) o = retries (enc req) t k n ++ tail ∧ Tail t (k + n) r tail ∧
      ∀ d ∈ sends o, d = enc req ∨ ∃ id < 65536, d = reset id ∨ d = emptyAck id := by
  have hd : (2 * (2 ^ k * t)) % 2 ^ 32 = 2 ^ (k + 1) * t := by
    have h1 : 2 * (2 ^ k * t) = 2 ^ (k + 1) * t := by rw [Nat.pow_succ, Nat.mul_comm (2 ^ k) 2, Nat.mul_assoc]
    rw [h1]
    apply Nat.mod_eq_of_lt
    have : 2 ^ (k + 1) ≤ 2 ^ 5 := Nat.pow_le_pow_right (by omega) (by omega)
    calc 2 ^ (k + 1) * t ≤ 2 ^ 5 * t := Nat.mul_le_mul_right _ this
      _ < 2 ^ 32 := by omega
  induction is generalizing k o with
  | nil => cases h; exact ⟨0, [], hk, rfl, Or.inl rfl, fun d hd => by cases hd⟩
  | cons i is ih =>
    have quiet : about (enc req) o = [] → Aside o → ∃ n tail, k + n ≤ 4 ∧
        about (enc req) o = retries (enc req) t k n ++ tail ∧ Tail t (k + n) r tail ∧
        ∀ d ∈ sends o, d = enc req ∨ ∃ id < 65536, d = reset id ∨ d = emptyAck id :=
      fun h1 h2 => ⟨0, [], hk, h1, Or.inl rfl, fun d hd => Or.inr (h2 d hd)⟩
    rcases wait_cons h with ⟨x, h1, rfl⟩ | ⟨o1, o2, w', h1, h2, rfl⟩
    · have := step_cases h1
      cases this with
      | handled d m _ _ he hc hpm hh =>
        cases hh with
        | accept _ ha => exact quiet (ha.about hb) (ha.aside hc.fields.1.msgId)
        | reset _ _ => exact quiet rfl (fun d hd => by cases hd)
        | bad _ hr => exact quiet (hr.about hb) hr.aside
        | fault _ e ho _ => rw [ho] at quiet ⊢; exact quiet rfl (fun d hd => by cases hd)
      | unread d _ e _ hr _ => exact quiet (hr.about hb) hr.aside
      | broken e _ => exact quiet rfl (fun d hd => by cases hd)
      | unsent e _ _ hn _ _ =>
        refine ⟨0, [.arm (2 ^ (k + 1) * t)], hk, ?_, Or.inr (Or.inr ⟨rfl, e, rfl⟩), fun d hd => by cases hd⟩
        rw [retries_zero]
        simp only [hd]
        rfl
      | noTimer e _ _ _ => exact quiet rfl (fun d hd => by cases hd)
      | timeout _ _ => exact quiet rfl (fun d hd => by cases hd)
    · have hst := step_cases h1
      cases hst with
      | handled d m _ _ he hc hpm hh =>
        cases hh with
        | keep _ hr =>
          obtain ⟨n, tail, a1, a2, a3, a4⟩ := ih hk h2 hd
          refine ⟨n, tail, a1, by rw [about_append, hr.about hb, a2]; rfl, a3, fun d hd => ?_⟩
          rw [sends_append, List.mem_append] at hd
          exact hd.elim (fun hd => Or.inr (hr.aside d hd)) (a4 d)
        | sep _ _ _ _ _ _ ho =>
          obtain ⟨a1, a2⟩ := wait_quiet hb (by simp) h2
          refine ⟨0, about (enc req) o1, hk, by rw [about_append, a1, retries_zero]; simp, ?_, fun d hd => ?_⟩
          · rw [ho]
            cases i.timerErr with
            | none => exact Or.inr (Or.inl rfl)
            | some e => exact Or.inl rfl
          · rw [sends_append, List.mem_append] at hd
            refine hd.elim (fun hd => ?_) (fun hd => Or.inr (a2 d hd))
            rw [ho] at hd
            cases hte : i.timerErr with
            | none => rw [hte] at hd; cases hd
            | some e => rw [hte] at hd; cases hd
      | again _ =>
        obtain ⟨n, tail, a1, a2, a3, a4⟩ := ih hk h2 hd
        exact ⟨n, tail, a1, a2, a3, a4⟩
      | retry _ _ hn _ _ _ =>
        simp only [hd] at h2 ⊢
        have hn' : k < 4 := hn
        have hd' : (2 * (2 ^ (k + 1) * t)) % 2 ^ 32 = 2 ^ (k + 1 + 1) * t := by
          have h1 : 2 * (2 ^ (k + 1) * t) = 2 ^ (k + 1 + 1) * t := by
            rw [Nat.pow_succ 2 (k + 1), Nat.mul_comm (2 ^ (k + 1)) 2, Nat.mul_assoc]
          rw [h1]
          apply Nat.mod_eq_of_lt
          have : 2 ^ (k + 1 + 1) ≤ 2 ^ 5 := Nat.pow_le_pow_right (by omega) (by omega)
          calc 2 ^ (k + 1 + 1) * t ≤ 2 ^ 5 * t := Nat.mul_le_mul_right _ this
            _ < 2 ^ 32 := by omega
        obtain ⟨n, tail, a1, a2, a3, a4⟩ := ih (k := k + 1) (by omega) h2 hd'
        refine ⟨n + 1, tail, by omega, ?_, by rw [show k + (n + 1) = k + 1 + n by omega]; exact a3, fun d hd => ?_⟩
        · rw [about_append, about_sent, a2, retries_succ]; rfl
        · rw [sends_append, List.mem_append] at hd
          refine hd.elim (fun hd => Or.inl ?_) (a4 d)
          simpa [sends] using hd

/-- Only the timer expires, and nothing fails. -/
def Silent (i : Input) : Prop := i.ev = .timer ∧ i.sendErr = none ∧ i.timerErr = none

theorem wait_silent {sx px : Bool} {req : Msg} {k t : Nat} {is : List Input} (hs : Server.Sendable req) (hk : k ≤ 4)
    (ht : t < 3000) (h : ∀ i ∈ is, Silent i) : wait sx px req ⟨.ack, k, 2 ^ k * t⟩ is =
      .ok (retries (enc req) t k (min is.length (4 - k)), if is.length ≤ 4 - k then none else some (.error .ETIMEDOUT)) := by
  induction is generalizing k with
  | nil => simp [wait, retries]
  | cons i is ih =>
    obtain ⟨h1, h2, h3⟩ := h i (by simp)
    rw [wait, step, h1]
    simp only [expire, updateAckTimer]
    by_cases h4 : k = 4
    · subst h4
      simp [retries]
    · have hd : (2 * (2 ^ k * t)) % 2 ^ 32 = 2 ^ (k + 1) * t := by
        have h1 : 2 * (2 ^ k * t) = 2 ^ (k + 1) * t := by rw [Nat.pow_succ, Nat.mul_comm (2 ^ k) 2, Nat.mul_assoc]
        rw [h1]
        apply Nat.mod_eq_of_lt
        have : 2 ^ (k + 1) ≤ 2 ^ 5 := Nat.pow_le_pow_right (by omega) (by omega)
        calc 2 ^ (k + 1) * t ≤ 2 ^ 5 * t := Nat.mul_le_mul_right _ this
          _ < 2 ^ 32 := by omega
      rw [if_neg (by simp only [MAX_RETRANSMIT]; omega), h3]
      simp only
      rw [send_ok hs, h2, hd]
      simp only
      rw [ih (by omega) (fun i hi => h i (by simp [hi]))]
      simp only [List.length_cons]
      have e1 : min (is.length + 1) (4 - k) = min is.length (4 - (k + 1)) + 1 := by omega
      rw [e1, retries_succ]
      have e2 : is.length + 1 ≤ 4 - k ↔ is.length ≤ 4 - (k + 1) := by omega
      simp only [e2]
      rfl

theorem wait_timeout {sx px : Bool} {req : Msg} {k t : Nat} {is : List Input} {o : List Obs} (hs : Server.Sendable req)
    (hb : 4 < (enc req).length) (hk : k ≤ 4) (ht : t < 3000) (hf : ∀ i ∈ is, Fine i)
    (h : wait sx px req ⟨.ack, k, 2 ^ k * t⟩ is = .ok (o, some (.error .ETIMEDOUT))) :
    about (enc req) o = retries (enc req) t k (4 - k) ∨ RESP_TIMEOUT ∈ arms o := by
  induction is generalizing k o with
  | nil => cases h
  | cons i is ih =>
    obtain ⟨f1, f2, f3, f4⟩ := hf i (by simp)
    have hf' : ∀ i ∈ is, Fine i := fun i hi => hf i (by simp [hi])
    rcases wait_cons h with ⟨x, h1, hx⟩ | ⟨o1, o2, w', h1, h2, rfl⟩
    · cases hx
      have := step_cases h1
      cases this with
      | handled d m _ _ he hc hpm hh =>
        cases hh with
        | fault _ _ ho he => rw [f1] at he; cases he
      | unread d _ _ _ hr he => rcases he with h | h | h <;> cases h
      | broken _ he =>
        rcases f4 with h | ⟨d, h⟩ <;> rw [h] at he <;> rcases he with h | ⟨h, -⟩ <;> cases h
      | unsent _ _ _ hn _ he => exact absurd hs (he.resolve_left (fun h => h f1))
      | noTimer _ _ _ he => rw [f2] at he; cases he
      | timeout _ he =>
        refine Or.inl ?_
        have : 4 ≤ k := he.resolve_left (fun h => h rfl)
        rw [show 4 - k = 0 by omega]
        rfl
    · have hst := step_cases h1
      cases hst with
      | handled d m _ _ he hc hpm hh =>
        cases hh with
        | keep _ hr =>
          rcases ih hk hf' h2 with h | h
          · exact Or.inl (by rw [about_append, hr.about hb, h]; rfl)
          · exact Or.inr (by rw [arms_append]; simp [h])
        | sep _ _ _ _ _ _ ho =>
          refine Or.inr ?_
          rw [ho, f2, arms_append]
          simp [arms]
      | again _ => exact ih hk hf' h2
      | retry _ _ hn _ _ _ =>
        have hn' : k < 4 := hn
        have hd : (2 * (2 ^ k * t)) % 2 ^ 32 = 2 ^ (k + 1) * t := by
          have h1 : 2 * (2 ^ k * t) = 2 ^ (k + 1) * t := by rw [Nat.pow_succ, Nat.mul_comm (2 ^ k) 2, Nat.mul_assoc]
          rw [h1]
          apply Nat.mod_eq_of_lt
          have : 2 ^ (k + 1) ≤ 2 ^ 5 := Nat.pow_le_pow_right (by omega) (by omega)
          calc 2 ^ (k + 1) * t ≤ 2 ^ 5 * t := Nat.mul_le_mul_right _ this
            _ < 2 ^ 32 := by omega
        simp only [hd] at h2 ⊢
        rcases ih (k := k + 1) (by omega) hf' h2 with h | h
        · refine Or.inl ?_
          rw [about_append, about_sent, h, show 4 - k = 4 - (k + 1) + 1 by omega, retries_succ]
          rfl
        · exact Or.inr (by rw [arms_append]; simp [h])

end FreeCoAP.Client
