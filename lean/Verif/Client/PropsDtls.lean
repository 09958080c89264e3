import Verif.Client.LemmasDtls
import Verif.Client.Props2

/-!
# Properties of the client over DTLS (C103–C106)
-/

namespace FreeCoAP.Client.Dtls

open FreeCoAP.Msg

/-! ## C103 The client does over DTLS with records what it does without DTLS with datagrams -/

/-- Whatever the TLS library does, the exchange shows and returns what an exchange without DTLS does that receives as datagrams the records the library
has delivered. So C31–C37 and C68–C71 hold over DTLS too. -/
theorem C103_same_client (sx px : Bool) (x : XEnv) (req : Msg) (is : List Input) (u : World) :
    ∃ js, Stand is js ∧ (exchange sx px x req is u).1 = Client.exchange sx px { x with inputs := js } req := by
  obtain ⟨req', w, h⟩ := exchange_plain sx px x req is u
  obtain ⟨js, h1, h2⟩ := waits_plain sx px req' is w u
  exact ⟨js, h1, h js h2⟩

/-- A library for examples: each datagram of the server carries the records `ack` and `resp` as its first byte says. -/
def exOpens (d : Bytes) : List Bytes :=
  match d with
  | [1] => [exAck]
  | [2] => [exSep]
  | [3] => [exAck, exSep]
  | _ => []

def exWorld : World := ⟨[], [], none, []⟩

/-- The acknowledgement and the response arrive in two datagrams: the response is returned. -/
example : (exchange false false (exEnv []) exGet (feed exOpens [⟨[[1]], false⟩, ⟨[[9]], false⟩, ⟨[[2]], false⟩] [] exWorld) exWorld).1 =
    Client.exchange false false (exEnv [rcv exAck, ⟨.recvErr .EAGAIN, none, none, true⟩, rcv exSep]) exGet := by decide +kernel

/-! ## C104 A message that has arrived is received -/

/-- The full property: when no datagram waits in the socket, the client has been given every record that has arrived. -/
def C104_statement : Prop :=
  ∀ (opens : Bytes → List Bytes) (as : List Act), Udp as → (after opens as).world.queue = [] → (after opens as).given = arrived opens as

/-- No record is lost, repeated or taken out of its turn. -/
theorem C104_order (opens : Bytes → List Bytes) (as : List Act) (hu : Udp as) :
    (after opens as).given ++ (after opens as).kept ++ (after opens as).world.queue.flatMap opens = arrived opens as :=
  (kept_all opens as hu).all

/-- It holds when each datagram carries at most one record. Missing from the full claim: see `C104_violated`. -/
theorem C104_given_partial (opens : Bytes → List Bytes) (as : List Act) (hu : Udp as) (h1 : ∀ d, (opens d).length ≤ 1)
    (hq : (after opens as).world.queue = []) : (after opens as).given = arrived opens as := by
  have h := C104_order opens as hu
  rw [after_single h1 as hu, hq] at h
  simpa using h

/-- The exchange then returns what it would return without DTLS. -/
theorem C104_exchange_partial (sx px : Bool) (x : XEnv) (req : Msg) (opens : Bytes → List Bytes) (as : List Act) (hu : Udp as)
    (h1 : ∀ d, (opens d).length ≤ 1) (hr : ∀ d, ∀ r ∈ opens d, r ≠ []) :
    (exchange sx px x req (feed opens as [] exWorld) exWorld).1 = Client.exchange sx px { x with inputs := apart opens as [] } req := by
  obtain ⟨req', w, h⟩ := exchange_plain sx px x req (feed opens as [] exWorld) exWorld
  exact h _ (waits_apart sx px req' opens h1 hr as hu w [] (by simp) none [])

/-- The hypotheses hold for a library that finds one record in each datagram. -/
example : (∀ d, ((fun d => [7 :: d]) d : List Bytes).length ≤ 1) ∧ (∀ d, ∀ r ∈ ((fun d => [7 :: d]) d : List Bytes), r ≠ []) ∧
    Udp [⟨[[1], [2]], false⟩, ⟨[], false⟩, ⟨[[3]], true⟩] ∧ (after (fun d => [7 :: d]) [⟨[[1], [2]], false⟩, ⟨[], false⟩, ⟨[[3]], true⟩]).world.queue = [] ∧
    (after (fun d => [7 :: d]) [⟨[[1], [2]], false⟩, ⟨[], false⟩, ⟨[[3]], true⟩]).given = [[7, 1], [7, 2], [7, 3]] := by
  refine ⟨by simp, by simp, ?_, by decide +kernel, by decide +kernel⟩
  unfold Udp
  decide +kernel

/-- Two records in one datagram: the second one stays with GnuTLS, where `select` does not see it. -/
theorem C104_violated : ¬ C104_statement := by
  intro h
  have := h exOpens [⟨[[3]], false⟩] (by unfold Udp; decide +kernel) (by decide +kernel)
  exact absurd this (by decide +kernel)

/-- So the exchange waits until the time for the response is over and fails, although the response has arrived and the client has acknowledged nothing. Over
the same session with two datagrams it succeeds. -/
theorem C104_timeout :
    (exchange false false (exEnv []) exGet (feed exOpens [⟨[[3]], false⟩, ⟨[], true⟩] [] exWorld) exWorld).1 =
      .ok ([.sent exReqBytes, .arm 2500, .arm 30000], some (.error .ETIMEDOUT)) ∧
    (exchange false false (exEnv []) exGet (feed exOpens [⟨[[1], [2]], false⟩, ⟨[], false⟩, ⟨[], true⟩] [] exWorld) exWorld).1 =
      .ok ([.sent exReqBytes, .arm 2500, .arm 30000, .sent [0x60, 0, 9, 9]], some (.ok exSepMsg)) := by
  constructor <;> decide +kernel

/-! ## C105 The call-back functions do what the TLS library expects -/

/-- The full property. -/
def C105_statement : Prop := ∀ w, (∀ len, PullRight len w) ∧ WaitRight w

theorem next_noFail {w : World} {n : Nat} (h : w.NoFail (n + 1)) : w.next = (none, w.next.2) ∧ w.next.2.NoFail n := by
  unfold World.next
  unfold World.NoFail at *
  split
  · rename_i hf; rw [hf]; simp
  · rename_i m rest hf
    rw [hf] at h
    simp only [List.take_succ_cons, List.mem_cons, forall_eq_or_imp] at h
    exact ⟨by rw [h.1], h.2⟩

theorem next_queue (w : World) : ∃ l, w.next.2.queue = w.queue ++ l := by
  unfold World.next
  split
  · exact ⟨[], by simp⟩
  · exact ⟨_, rfl⟩

/-- The function that receives is right. -/
theorem C105_pull (len : Nat) (w : World) : PullRight len w := by
  intro hF
  obtain ⟨hn, -⟩ := next_noFail hF
  have hp : pull len w = match w.next.2.queue with
      | [] => (none, w.next.2.fail .EAGAIN)
      | d :: q => (some (d.take len), { w.next.2 with queue := q, trace := w.next.2.trace ++ [.pulled (d.take len)] }) := by
    unfold pull
    generalize w.next = x at hn
    obtain ⟨a, w1⟩ := x
    cases (Prod.mk.inj hn).1
    rfl
  rw [hp]
  generalize w.next.2 = w1
  obtain ⟨q, f, e, t⟩ := w1
  cases q with
  | nil => exact ⟨rfl, rfl⟩
  | cons d q => exact ⟨d, rfl, rfl⟩

/-- Both are right when no empty datagram has arrived. -/
theorem C105_callbacks_partial (w : World) (hne : ∀ d ∈ w.next.2.queue, d ≠ []) : (∀ len, PullRight len w) ∧ WaitRight w := by
  refine ⟨fun len => C105_pull len w, ?_⟩
  intro hF
  obtain ⟨h1, hF1⟩ := next_noFail hF
  obtain ⟨h2, -⟩ := next_noFail hF1
  have hl : listenTimeout w = (.ok (!w.next.2.queue.isEmpty), w.next.2) := by
    unfold listenTimeout
    generalize w.next = x at h1
    obtain ⟨a, w1⟩ := x
    cases (Prod.mk.inj h1).1
    rfl
  clear h1 hF hF1
  generalize w.next.2 = w1 at *
  cases hq : w1.queue with
  | nil =>
    have hw : wait w = (some 0, w1) := by
      unfold wait
      rw [hl, hq]
      rfl
    rw [hw]
    exact hq
  | cons d q =>
    obtain ⟨l, hl2⟩ := next_queue w1
    rw [hq] at hl2
    have hw : wait w = (some (d.take BUF_LEN).length, w1.next.2) := by
      unfold wait
      rw [hl, hq]
      show peek w1 = _
      unfold peek
      generalize w1.next = x at h2 hl2
      obtain ⟨a, w2⟩ := x
      cases (Prod.mk.inj h2).1
      dsimp only at hl2 ⊢
      rw [hl2]
      rfl
    have hd := hne d (by rw [hq]; simp)
    rw [hw]
    show if (d.take BUF_LEN).length = 0 then _ else _
    rw [if_neg, hl2]
    · simp
    · rw [List.length_take]
      have := List.length_pos_iff.2 hd
      show ¬ min 1152 d.length = 0
      omega

example : (∀ d ∈ (⟨[], [⟨[[1, 2]], none⟩], none, []⟩ : World).next.2.queue, d ≠ []) ∧ (⟨[], [⟨[[1, 2]], none⟩], none, []⟩ : World).NoFail 2 ∧
    (wait ⟨[], [⟨[[1, 2]], none⟩], none, []⟩).1 = some 2 := by
  refine ⟨by decide +kernel, ?_, by decide +kernel⟩
  intro m hm
  simp at hm
  rw [hm]

/-- The functions report the failures of system calls, in every state. -/
theorem C105_errors (w : World) : ErrorsRight w := by
  intro e
  constructor
  · intro h
    have ht : w.next.2.trace = w.trace := by
      unfold World.next
      split <;> rfl
    unfold pull push wait listenTimeout
    generalize w.next = x at h ht
    obtain ⟨a, w1⟩ := x
    cases h
    exact ⟨fun _ => ⟨rfl, rfl, rfl⟩, fun _ => ⟨rfl, rfl, ht⟩, rfl, rfl, rfl⟩
  · intro h hq h2
    unfold wait listenTimeout
    generalize w.next = x at h hq h2
    obtain ⟨a, w1⟩ := x
    cases h
    dsimp only at hq h2 ⊢
    cases hw : w1.queue with
    | nil => exact absurd hw hq
    | cons d q =>
      show (peek w1).1 = none ∧ (peek w1).2.errno = some e ∧ (peek w1).2.queue = w1.next.2.queue
      unfold peek
      generalize w1.next = y at h2
      obtain ⟨a2, w2⟩ := y
      cases h2
      exact ⟨rfl, rfl, rfl⟩

example : (wait ⟨[], [⟨[[1]], none⟩, ⟨[], some .EIO⟩], none, []⟩).1 = none ∧ (wait ⟨[], [⟨[[1]], none⟩, ⟨[], some .EIO⟩], none, []⟩).2.errno = some .EIO ∧
    (pull 9 ⟨[[1]], [⟨[], some .EIO⟩], none, []⟩).2.queue = [[1]] := by decide +kernel

/-- An empty datagram makes the function that waits report a timeout. -/
theorem C105_violated : ¬ C105_statement := by
  intro h
  have h1 := (h ⟨[[]], [], none, []⟩).2 (by intro m hm; simp at hm)
  have hp : wait ⟨[[]], [], none, []⟩ = (some 0, ⟨[[]], [], none, []⟩) := by decide +kernel
  rw [hp] at h1
  exact absurd h1 (by decide)

/-- The library waits for a datagram before it reads one, and gives up or asks to be called again when none came in time. -/
def Waits (hs : Nat → Lib Shake) : Prop := ∀ i, ∃ k r f, hs i = .wait k ∧ k (some 0) = .done r f ∧ r ≠ .success

/-- An empty datagram is the first in the socket, and no system call fails. -/
def Blocked (w : World) : Prop := (∃ q, w.queue = [] :: q) ∧ ∀ m ∈ w.future, m.fail = none

theorem Blocked.next {w : World} (h : Blocked w) : w.next = (none, w.next.2) ∧ Blocked w.next.2 := by
  obtain ⟨⟨q, hq⟩, hf⟩ := h
  unfold World.next
  split
  · exact ⟨rfl, ⟨q, hq⟩, hf⟩
  · rename_i m rest hr
    rw [hr] at hf
    exact ⟨by rw [hf m (by simp)], ⟨q ++ m.arrive, by simp [hq]⟩, fun m' hm' => hf m' (by simp [hm'])⟩

theorem Blocked.listen {w : World} (h : Blocked w) : ∃ w1, listenTimeout w = (.ok true, w1) ∧ Blocked w1 := by
  obtain ⟨h1, h2⟩ := h.next
  obtain ⟨q, hq⟩ := h2.1
  refine ⟨w.next.2, ?_, h2⟩
  unfold listenTimeout
  rw [h1]
  dsimp only
  rw [hq]
  rfl

theorem Blocked.wait {w : World} (h : Blocked w) : ∃ w1, wait w = (some 0, w1) ∧ Blocked w1 := by
  obtain ⟨w1, h1, h2⟩ := h.listen
  obtain ⟨h3, h4⟩ := h2.next
  obtain ⟨q, hq⟩ := h4.1
  refine ⟨w1.next.2, ?_, h4⟩
  unfold Dtls.wait
  rw [h1]
  dsimp only
  unfold peek
  rw [h3]
  dsimp only
  rw [hq]
  rfl

theorem Blocked.shakeLoop {hs : Nat → Lib Shake} (hw : Waits hs) (n : Nat) {w : World} (h : Blocked w) :
    ∃ e w1, shakeLoop hs n w = (some e, w1) ∧ Blocked w1 := by
  induction n generalizing w with
  | zero => exact ⟨_, w, rfl, h⟩
  | succ n ih =>
    obtain ⟨k, r, f, h1, h2, h3⟩ := hw (ATTEMPTS - (n + 1))
    have h0 : Blocked { w with errno := none } := h
    obtain ⟨w1, h4, h5⟩ := h0.wait
    have hc : (hs (ATTEMPTS - (n + 1))).call { w with errno := none } = (r, { w1 with errno := f w1.errno }) := by
      rw [h1]
      show Lib.call (k (Dtls.wait { w with errno := none }).1) (Dtls.wait { w with errno := none }).2 = _
      rw [h4]
      dsimp only
      rw [h2]
      rfl
    have h6 : Blocked { w1 with errno := f w1.errno } := h5
    have hafter : ∃ e w2, shakeAfter r n { w1 with errno := f w1.errno } (Dtls.shakeLoop hs n) = (some e, w2) ∧ Blocked w2 := by
      unfold shakeAfter
      cases r with
      | success => exact absurd rfl h3
      | timedOut => exact ⟨_, _, rfl, h6⟩
      | alert => exact ⟨_, _, rfl, h6⟩
      | other => exact ⟨_, _, rfl, h6⟩
      | again =>
        dsimp only
        split
        · exact ih h6
        · obtain ⟨w2, h7, h8⟩ := h6.listen
          rw [h7]
          exact ih h8
    unfold Dtls.shakeLoop
    rw [hc]
    dsimp only
    split
    · split
      · exact ⟨_, _, rfl, h6⟩
      · exact hafter
    · exact hafter

/-- One empty datagram of the server prevents the session, whatever arrives after it. -/
theorem C105_stuck (setup verified : Bool) (hs : Nat → Lib Shake) (hw : Waits hs) (w : World) (hb : Blocked w) :
    ∃ e w1, create setup hs verified w = (some e, w1) ∧ (setup = true → ∃ q, w1.queue = [] :: q) := by
  unfold create
  split
  · rename_i h
    exact ⟨_, _, rfl, fun h' => absurd h' (by rw [h]; decide)⟩
  · obtain ⟨e, w1, h1, h2⟩ := hb.shakeLoop hw ATTEMPTS
    rw [h1]
    exact ⟨e, w1, rfl, fun _ => h2.1⟩

/-- A library that waits, then reads, and is done when it has read something. -/
def exShake (_ : Nat) : Lib Shake :=
  .wait fun
    | none => .done .other _root_.id
    | some 0 => .done .again _root_.id
    | some _ => .pull 65535 fun
      | none => .done .again _root_.id
      | some _ => .done .success _root_.id

example : Waits exShake ∧ Blocked ⟨[[], [1]], [], none, []⟩ ∧ (create true exShake true ⟨[[], [1]], [], none, []⟩).1 = some .ETIMEDOUT ∧
    (create true exShake true ⟨[[1]], [], none, []⟩).1 = none := by
  refine ⟨fun i => ⟨_, _, _, rfl, rfl, by decide⟩, ⟨⟨_, rfl⟩, by simp⟩, by decide +kernel, by decide +kernel⟩

/-! ## C106 A client is created only after a handshake and with an accepted certificate -/

theorem shakeLoop_success {hs : Nat → Lib Shake} (n : Nat) (hn : n ≤ ATTEMPTS) {w w1 : World} (h : shakeLoop hs n w = (none, w1)) :
    ∃ i w', i < ATTEMPTS ∧ ((hs i).call w').1 = .success := by
  induction n generalizing w with
  | zero => cases h
  | succ n ih =>
    have hafter : ∀ {u : World} {r : Shake}, shakeAfter r n u (shakeLoop hs n) = (none, w1) →
        r = .success ∨ ∃ i w', i < ATTEMPTS ∧ ((hs i).call w').1 = .success := by
      intro u r h
      unfold shakeAfter at h
      cases r with
      | success => exact .inl rfl
      | timedOut => cases h
      | alert => cases h
      | other => cases h
      | again =>
        dsimp only at h
        split at h
        · exact .inr (ih (by omega) h)
        · split at h
          · cases h
          · exact .inr (ih (by omega) h)
    have hlast : shakeAfter ((hs (ATTEMPTS - (n + 1))).call { w with errno := none }).1 n ((hs (ATTEMPTS - (n + 1))).call { w with errno := none }).2
        (shakeLoop hs n) = (none, w1) := by
      unfold shakeLoop at h
      dsimp only at h
      split at h
      · split at h
        · cases h
        · exact h
      · exact h
    rcases hafter hlast with h1 | h1
    · exact ⟨_, _, by unfold ATTEMPTS at *; omega, h1⟩
    · exact h1

/-- One of at most 60 attempts of the handshake has succeeded, and the certificate of the server was accepted. -/
theorem C106_created (setup verified : Bool) (hs : Nat → Lib Shake) (w w1 : World) (h : create setup hs verified w = (none, w1)) :
    setup = true ∧ verified = true ∧ ∃ i w', i < 60 ∧ ((hs i).call w').1 = .success := by
  unfold create at h
  split at h
  · cases h
  · rename_i hs1
    split at h
    · cases h
    · rename_i w2 h2
      split at h
      · cases h
      · rename_i hv
        exact ⟨by simpa using hs1, by simpa using hv, shakeLoop_success ATTEMPTS (Nat.le_refl _) h2⟩

example : create true exShake true ⟨[[1]], [], none, []⟩ = (none, ⟨[], [], none, [.pulled [1]]⟩) := by decide +kernel

end FreeCoAP.Client.Dtls
