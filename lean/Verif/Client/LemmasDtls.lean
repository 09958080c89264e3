import Verif.Client.SpecDtls

/-!
# Lemmas about the client over DTLS
-/

namespace FreeCoAP.Client.Dtls

open FreeCoAP.Msg

theorem record_cases (p : Lib Rec) (u : World) :
    (∃ d, (record p u).1 = .ok d ∧ Delivers p d) ∨ ∃ e, (record p u).1 = .error e ∧ Fails p e := by
  unfold record
  dsimp only
  cases he : (p.call { u with errno := none }).2.errno with
  | some e => exact .inr ⟨e, rfl, _, .inl he⟩
  | none =>
    dsimp only
    cases hr : (p.call { u with errno := none }).1 with
    | alert => exact .inr ⟨_, rfl, _, .inr (.inl ⟨rfl, .inl hr⟩)⟩
    | again => exact .inr ⟨_, rfl, _, .inr (.inr (.inl ⟨rfl, hr⟩))⟩
    | other => exact .inr ⟨_, rfl, _, .inr (.inr (.inr ⟨rfl, hr⟩))⟩
    | data b =>
      dsimp only
      by_cases hb : b = []
      · subst hb
        exact .inr ⟨_, rfl, _, .inr (.inl ⟨rfl, .inr hr⟩)⟩
      · rw [if_neg hb]
        exact .inl ⟨b, rfl, _, hr, he, hb⟩

theorem step_plain (sx px : Bool) (req : Msg) (w : Wait) (i : Input) (u : World) :
    ∃ j, Stands i j ∧ (step sx px req w i u).1 = Client.step sx px req w j := by
  unfold step
  dsimp only
  cases hev : i.ev with
  | selectErr e => exact ⟨_, .selectErr i e hev, rfl⟩
  | timer => exact ⟨_, .timer i hev, rfl⟩
  | readable =>
    dsimp only
    generalize { u with queue := u.queue ++ i.arrive } = u
    have hc := record_cases i.recv u
    cases hr : record i.recv u with
    | mk x u' =>
      rw [hr] at hc
      rcases hc with ⟨d, hd, h⟩ | ⟨e, hd, h⟩
      · dsimp only at hd
        subst hd
        exact ⟨_, .message i d hev h, rfl⟩
      · dsimp only at hd
        subst hd
        exact ⟨_, .none i e hev h, rfl⟩

theorem stand_any (is : List Input) : ∃ js, Stand is js := by
  induction is with
  | nil => exact ⟨_, .nil⟩
  | cons i is ih =>
    obtain ⟨js, h⟩ := ih
    obtain ⟨j, hj, -⟩ := step_plain true true Msg.create ⟨.non, 0, 0⟩ i ⟨[], [], none, []⟩
    exact ⟨j :: js, .cons hj h⟩

theorem waits_plain (sx px : Bool) (req : Msg) (is : List Input) (w : Wait) (u : World) :
    ∃ js, Stand is js ∧ (waits sx px req w is u).1 = Client.wait sx px req w js := by
  induction is generalizing w u with
  | nil => exact ⟨[], .nil, rfl⟩
  | cons i is ih =>
    obtain ⟨j, hj, he⟩ := step_plain sx px req w i u
    obtain ⟨ks, hk⟩ := stand_any is
    unfold waits Client.wait
    cases hs : step sx px req w i u with
    | mk x u' =>
      rw [hs] at he
      dsimp only at he
      cases x with
      | ub => exact ⟨j :: ks, .cons hj hk, by dsimp only; rw [← he]⟩
      | err e => exact ⟨j :: ks, .cons hj hk, by dsimp only; rw [← he]⟩
      | ok y =>
        obtain ⟨o, n⟩ := y
        cases n with
        | done r => exact ⟨j :: ks, .cons hj hk, by dsimp only; rw [← he]⟩
        | go w' =>
          obtain ⟨js, h1, h2⟩ := ih w' u'
          refine ⟨j :: js, .cons hj h1, ?_⟩
          dsimp only
          rw [← he]
          dsimp only
          rw [← h2]
          cases hw : waits sx px req w' is u' with
          | mk y u'' => cases y <;> rfl

/-- What is not done by the loop is the same. -/
theorem exchange_plain (sx px : Bool) (x : XEnv) (req : Msg) (is : List Input) (u : World) :
    ∃ req' w, ∀ js, (waits sx px req' w is u).1 = Client.wait sx px req' w js →
      (exchange sx px x req is u).1 = Client.exchange sx px { x with inputs := js } req := by
  have hid : ∀ js, ({ x with inputs := js } : XEnv).id = x.id := fun _ => rfl
  have htok : ∀ js, ({ x with inputs := js } : XEnv).token = x.token := fun _ => rfl
  have hst : ∀ js n, startWait { x with inputs := js } n = startWait x n := fun _ _ => rfl
  unfold exchange Client.exchange
  simp only [hid, htok, hst]
  split
  · exact ⟨req, ⟨.non, 0, 0⟩, fun _ _ => rfl⟩
  · cases setMsgId req x.id with
    | ub => exact ⟨req, ⟨.non, 0, 0⟩, fun _ _ => rfl⟩
    | err e => exact ⟨req, ⟨.non, 0, 0⟩, fun _ _ => rfl⟩
    | ok req =>
      dsimp only
      cases setToken req x.token with
      | ub => exact ⟨req, ⟨.non, 0, 0⟩, fun _ _ => rfl⟩
      | err e => exact ⟨req, ⟨.non, 0, 0⟩, fun _ _ => rfl⟩
      | ok req =>
        dsimp only
        cases send x.sendErr req with
        | ub => exact ⟨req, ⟨.non, 0, 0⟩, fun _ _ => rfl⟩
        | err e => exact ⟨req, ⟨.non, 0, 0⟩, fun _ _ => rfl⟩
        | ok y =>
          obtain ⟨o, e⟩ := y
          cases e with
          | some e => exact ⟨req, ⟨.non, 0, 0⟩, fun _ _ => rfl⟩
          | none =>
            dsimp only
            split
            · refine ⟨req, (startWait x req.type).2, fun js h => ?_⟩
              rw [← h]
              cases hw : waits sx px req (startWait x req.type).2 is u with
              | mk y u'' => cases y <;> rfl
            · exact ⟨req, ⟨.non, 0, 0⟩, fun _ _ => rfl⟩

/-! ## Records that are kept -/

theorem recv_nil (opens : Bytes → List Bytes) (d : Bytes) (q : List Bytes) (e : Option Err) (tr : List Io) (hd : d.length ≤ 65535) :
    (recordRecv opens []).call ⟨d :: q, [], e, tr⟩ =
      (match opens d with
      | [] => (.again, [])
      | r :: rest => (.data r, rest), ⟨q, [], e, tr ++ [.pulled d]⟩) := by
  have ht : d.take 65535 = d := List.take_of_length_le hd
  unfold recordRecv
  show Lib.call ((fun x : Option Bytes => _) (pull 65535 ⟨d :: q, [], e, tr⟩).1) (pull 65535 ⟨d :: q, [], e, tr⟩).2 = _
  unfold pull World.next
  dsimp only
  rw [ht]
  cases opens d <;> rfl

theorem recv_cons (opens : Bytes → List Bytes) (r : Bytes) (rest : List Bytes) (u : World) :
    (recordRecv opens (r :: rest)).call u = ((.data r, rest), u) := rfl

theorem call_fst (p : Lib (α × β)) (u : World) : p.fst.call u = ((p.call u).1.1, (p.call u).2) := by
  induction p generalizing u with
  | done r f => rfl
  | pull len k ih => exact ih _ _
  | wait k ih => exact ih _ _
  | push b k ih => exact ih _ _

/-- The events so far: nothing arrives during the calls, so `future` is empty. -/
structure Kept (opens : Bytes → List Bytes) (s : After) (all : List Bytes) : Prop where
  future : s.world.future = []
  udp : ∀ d ∈ s.world.queue, d.length ≤ 65535
  all : s.given ++ s.kept ++ s.world.queue.flatMap opens = all

theorem Kept.next {opens : Bytes → List Bytes} {s : After} {all : List Bytes} (h : Kept opens s all) (a : Act) (ha : ∀ d ∈ a.arrive, d.length ≤ 65535) :
    Kept opens (s.next opens a) (all ++ a.arrive.flatMap opens) := by
  obtain ⟨given, kept, ⟨queue, future, errno, trace⟩⟩ := s
  obtain ⟨h1, h2, h3⟩ := h
  dsimp only at h1 h2 h3
  subst h1 h3
  unfold After.next
  dsimp only
  have hu : ∀ d ∈ queue ++ a.arrive, d.length ≤ 65535 := by
    intro d hd
    rcases List.mem_append.1 hd with hd | hd
    · exact h2 d hd
    · exact ha d hd
  split
  · rename_i hq
    cases kept with
    | cons r rest =>
      rw [recv_cons]
      exact ⟨rfl, hu, by simp⟩
    | nil =>
      cases hqq : queue ++ a.arrive with
      | nil => exact absurd hqq hq
      | cons d q =>
        have hall : queue.flatMap opens ++ a.arrive.flatMap opens = opens d ++ q.flatMap opens := by
          rw [← List.flatMap_append, hqq, List.flatMap_cons]
        rw [hqq] at hu
        rw [recv_nil opens d q none trace (hu d (by simp))]
        have hu' : ∀ d ∈ q, d.length ≤ 65535 := fun x hx => hu x (by simp [hx])
        cases hop : opens d with
        | nil => exact ⟨rfl, hu', by rw [List.append_assoc _ (queue.flatMap opens), hall, hop]; simp⟩
        | cons r rest => exact ⟨rfl, hu', by rw [List.append_assoc _ (queue.flatMap opens), hall, hop]; simp⟩
  · exact ⟨rfl, hu, by simp⟩

theorem kept_all (opens : Bytes → List Bytes) (as : List Act) (hu : Udp as) : Kept opens (after opens as) (arrived opens as) := by
  have h : ∀ (as : List Act) (s : After) (all : List Bytes), Udp as → Kept opens s all →
      Kept opens (as.foldl (After.next opens) s) (all ++ arrived opens as) := by
    intro as
    induction as with
    | nil => intro s all _ h; simpa [arrived] using h
    | cons a as ih =>
      intro s all hu h
      have := ih (s.next opens a) _ (fun b hb => hu b (by simp [hb])) (h.next a (hu a (by simp)))
      rw [List.foldl_cons]
      simpa [arrived] using this
  have := h as ⟨[], [], ⟨[], [], none, []⟩⟩ [] hu ⟨rfl, by simp, rfl⟩
  rw [List.nil_append] at this
  exact this

/-- Datagrams with at most one record: GnuTLS keeps none. -/
theorem next_single {opens : Bytes → List Bytes} (h1 : ∀ d, (opens d).length ≤ 1) {s : After} (hk : s.kept = []) (hf : s.world.future = [])
    (hu : ∀ d ∈ s.world.queue, d.length ≤ 65535) (a : Act) (ha : ∀ d ∈ a.arrive, d.length ≤ 65535) : (s.next opens a).kept = [] := by
  obtain ⟨given, kept, ⟨queue, future, errno, trace⟩⟩ := s
  dsimp only at hk hf hu
  subst hk hf
  unfold After.next
  dsimp only
  split
  · rename_i hq
    cases hqq : queue ++ a.arrive with
    | nil => exact absurd hqq hq
    | cons d q =>
      have hd : d ∈ queue ++ a.arrive := by rw [hqq]; simp
      have hl : d.length ≤ 65535 := by
        rcases List.mem_append.1 hd with hd | hd
        · exact hu d hd
        · exact ha d hd
      rw [recv_nil opens d q none trace hl]
      have := h1 d
      cases hop : opens d with
      | nil => rfl
      | cons r rest =>
        rw [hop] at this
        have : rest = [] := by
          cases rest with
          | nil => rfl
          | cons _ _ => simp at this
        exact this
  · rfl

theorem after_single {opens : Bytes → List Bytes} (h1 : ∀ d, (opens d).length ≤ 1) (as : List Act) (hu : Udp as) : (after opens as).kept = [] := by
  have h : ∀ (as : List Act) (s : After) (all : List Bytes), Udp as → Kept opens s all → s.kept = [] → (as.foldl (After.next opens) s).kept = [] := by
    intro as
    induction as with
    | nil => intro s all _ _ h; exact h
    | cons a as ih =>
      intro s all hu h hk
      rw [List.foldl_cons]
      have ha := hu a (by simp)
      exact ih _ _ (fun b hb => hu b (by simp [hb])) (h.next a ha) (next_single h1 hk h.future h.udp a ha)
  exact h as ⟨[], [], ⟨[], [], none, []⟩⟩ [] hu ⟨rfl, by simp, rfl⟩ rfl

/-- The same return of `select` in both clients. -/
theorem step_apart (sx px : Bool) (req : Msg) (opens : Bytes → List Bytes) (w : Wait) (d : Bytes) (q queue arrive : List Bytes) (e : Option Err)
    (tr : List Io) (hq : queue ++ arrive = d :: q) (hd : d.length ≤ 65535) (hr : ∀ r ∈ opens d, r ≠ []) :
    step sx px req w ⟨.readable, arrive, (recordRecv opens []).fst, none, none, true⟩ ⟨queue, [], e, tr⟩ =
      (match opens d with
      | [] => Client.step sx px req w ⟨.recvErr .EAGAIN, none, none, true⟩
      | r :: _ => Client.step sx px req w ⟨.datagram r, none, none, true⟩, ⟨q, [], none, tr ++ [.pulled d]⟩) := by
  unfold step
  dsimp only
  rw [hq]
  have hc : record (recordRecv opens []).fst ⟨d :: q, [], e, tr⟩ =
      (match opens d with
      | [] => .error .EAGAIN
      | r :: _ => .ok r, ⟨q, [], none, tr ++ [.pulled d]⟩) := by
    unfold record
    rw [call_fst, recv_nil opens d q none tr hd]
    dsimp only
    cases hop : opens d with
    | nil => rfl
    | cons r rest =>
      dsimp only
      rw [if_neg (hr r (by rw [hop]; simp))]
  rw [hc]
  cases opens d <;> rfl

theorem waits_apart (sx px : Bool) (req : Msg) (opens : Bytes → List Bytes) (h1 : ∀ d, (opens d).length ≤ 1) (hr : ∀ d, ∀ r ∈ opens d, r ≠ [])
    (as : List Act) (hu : Udp as) (w : Wait) (queue : List Bytes) (hq : ∀ d ∈ queue, d.length ≤ 65535) (e : Option Err) (tr : List Io) :
    (waits sx px req w (feed opens as [] ⟨queue, [], e, tr⟩) ⟨queue, [], e, tr⟩).1 = Client.wait sx px req w (apart opens as queue) := by
  induction as generalizing w queue e tr with
  | nil => rfl
  | cons a as ih =>
    have hu' : Udp as := fun b hb => hu b (by simp [hb])
    unfold feed apart
    dsimp only
    cases hqq : queue ++ a.arrive with
    | nil =>
      obtain ⟨hq0, ha0⟩ := List.append_eq_nil_iff.1 hqq
      subst hq0
      rw [if_neg (by simp)]
      dsimp only
      by_cases hx : a.expired = true
      · rw [if_pos hx, if_pos hx]
        unfold waits Client.wait
        have hs : step sx px req w ⟨.timer, a.arrive, (recordRecv opens []).fst, none, none, true⟩ ⟨[], [], e, tr⟩ =
            (Client.step sx px req w ⟨.timer, none, none, true⟩, ⟨[], [], e, tr⟩) := by
          unfold step
          dsimp only
          rw [ha0]
          rfl
        rw [hs]
        cases Client.step sx px req w ⟨.timer, none, none, true⟩ with
        | ub => rfl
        | err e => rfl
        | ok y =>
          obtain ⟨o, n⟩ := y
          cases n with
          | done r => rfl
          | go w' =>
            dsimp only
            rw [← ih hu' w' [] (by simp) e tr]
            cases waits sx px req w' (feed opens as [] ⟨[], [], e, tr⟩) ⟨[], [], e, tr⟩ with
            | mk y u => cases y <;> rfl
      · rw [if_neg hx, if_neg hx]
        exact ih hu' w [] (by simp) e tr
    | cons d q =>
      rw [if_pos (by simp)]
      have hall : ∀ x ∈ d :: q, x.length ≤ 65535 := by
        intro x hx
        rw [← hqq] at hx
        rcases List.mem_append.1 hx with hx | hx
        · exact hq x hx
        · exact hu a (by simp) x hx
      have hd := hall d (by simp)
      have hq' : ∀ x ∈ q, x.length ≤ 65535 := fun x hx => hall x (by simp [hx])
      rw [recv_nil opens d q none tr hd]
      unfold waits
      rw [step_apart sx px req opens w d q queue a.arrive e tr hqq hd (hr d)]
      dsimp only
      have h1d := h1 d
      cases hop : opens d with
      | nil =>
        dsimp only
        unfold Client.wait
        cases Client.step sx px req w ⟨.recvErr .EAGAIN, none, none, true⟩ with
        | ub => rfl
        | err e => rfl
        | ok y =>
          obtain ⟨o, n⟩ := y
          cases n with
          | done r => rfl
          | go w' =>
            dsimp only
            rw [← ih hu' w' q hq' none (tr ++ [.pulled d])]
            cases waits sx px req w' (feed opens as [] ⟨q, [], none, tr ++ [.pulled d]⟩) ⟨q, [], none, tr ++ [.pulled d]⟩ with
            | mk y u => cases y <;> rfl
      | cons r rest =>
        have hrest : rest = [] := by
          cases rest with
          | nil => rfl
          | cons _ _ => rw [hop] at h1d; simp at h1d
        subst hrest
        dsimp only
        unfold Client.wait
        cases Client.step sx px req w ⟨.datagram r, none, none, true⟩ with
        | ub => rfl
        | err e => rfl
        | ok y =>
          obtain ⟨o, n⟩ := y
          cases n with
          | done r => rfl
          | go w' =>
            dsimp only
            rw [← ih hu' w' q hq' none (tr ++ [.pulled d])]
            cases waits sx px req w' (feed opens as [] ⟨q, [], none, tr ++ [.pulled d]⟩) ⟨q, [], none, tr ++ [.pulled d]⟩ with
            | mk y u => cases y <;> rfl

end FreeCoAP.Client.Dtls
