import Verif.Server.SpecEcho
import Verif.Server.PropsSimple

/-!
# What an address gets in return for what it sends: lemmas
-/

namespace FreeCoAP.Server.Echo

open FreeCoAP.Msg

theorem size_nil : size [] = 0 := rfl
theorem size_append (l k : List Bytes) : size (l ++ k) = size l + size k := by simp [size]

theorem toward_append (a : Addr) (o p : List Obs) : toward a (o ++ p) = toward a o ++ toward a p := by
  simp [toward, sends_append]

theorem toward_none {a : Addr} {o : List Obs} (h : ∀ x ∈ o, x.addr ≠ a) : toward a o = [] := by
  unfold toward
  rw [List.filterMap_eq_nil_iff]
  rintro ⟨b, d⟩ hx
  have := h _ (mem_sends.1 hx)
  exact if_neg this

theorem toward_quiet {a : Addr} {o : List Obs} (h : sends o = []) : toward a o = [] := by
  unfold toward
  rw [h]
  rfl

theorem toward_sent (a b : Addr) (d : Bytes) : toward a [.sent b d] = if b = a then [d] else [] := by
  unfold toward
  by_cases h : b = a
  · rw [if_pos h]; simp [sends, h]
  · rw [if_neg h]; simp [sends, h]

theorem sendable_length {m : Msg} (h : Sendable m) : (enc m).length ≤ 1152 := by
  obtain ⟨⟨b, n⟩, h⟩ := h
  obtain ⟨-, -, h3⟩ := format_ok h
  obtain ⟨h4, -⟩ := wrs_eq_ok.1 h3
  rw [List.length_replicate] at h4
  have : BUF_LEN = 1152 := rfl
  omega

theorem empty_length (type id : Nat) : (enc (emptyMsg type id)).length = 4 := rfl

/-- A short list of datagrams. -/
def Small (l : List Bytes) (n k : Nat) : Prop := l.length ≤ n ∧ size l ≤ k

theorem Small.nil (n k : Nat) : Small [] n k := ⟨Nat.zero_le _, Nat.zero_le _⟩

theorem Small.append {l l' : List Bytes} {n n' k k' : Nat} (h : Small l n k) (h' : Small l' n' k') : Small (l ++ l') (n + n') (k + k') := by
  obtain ⟨h1, h2⟩ := h
  obtain ⟨h3, h4⟩ := h'
  exact ⟨by rw [List.length_append]; omega, by rw [size_append]; omega⟩

theorem Small.mono {l : List Bytes} {n n' k k' : Nat} (h : Small l n k) (hn : n ≤ n') (hk : k ≤ k') : Small l n' k' := ⟨Nat.le_trans h.1 hn, Nat.le_trans h.2 hk⟩

theorem small_sent {a b : Addr} {d : Bytes} {k : Nat} (h : d.length ≤ k) : Small (toward a [.sent b d]) 1 k := by
  rw [toward_sent]
  split
  · exact ⟨Nat.le_refl _, by simpa [size] using h⟩
  · exact .nil _ _

theorem small_pre (a : Addr) (sepList : List Bytes) (t : Trans) (m : Msg) : Small (toward a (preAck sepList t m)) 1 4 := by
  unfold preAck
  split
  · exact small_sent (Nat.le_of_eq (empty_length _ _))
  · exact .nil _ _

theorem small_quiet {a : Addr} {o : List Obs} (h : sends o = []) : Small (toward a o) 0 0 := by
  rw [toward_quiet h]
  exact .nil _ _

/-- A datagram is answered with at most an empty acknowledgement and a response. -/
theorem small_outcome {sx : Bool} {sepList : List Bytes} {env : Env} {t : Trans} {L : Large} {id : Nat} {d : Bytes} {r : TRes} (a : Addr)
    (h : Outcome sx sepList env t L id d r) : Small (toward a r.obs) 2 1156 := by
  have e1 : ∀ (b : Addr) (m : Msg), Small (toward a [.sent b (enc (emptyMsg ACK m.msgId))]) 2 1156 := fun b m =>
    (small_sent (Nat.le_of_eq (empty_length _ _))).mono (by omega) (by omega)
  have e2 : ∀ (b : Addr) (i : Nat), Small (toward a [.sent b (enc (emptyMsg RST i))]) 2 1156 := fun b i =>
    (small_sent (Nat.le_of_eq (empty_length _ _))).mono (by omega) (by omega)
  cases h with
  | again => exact .nil _ _
  | lost e h o ho =>
    rcases ho with rfl | ⟨-, -, i, -, rfl⟩
    · exact .nil _ _
    · exact e2 _ i
  | dupAck m => exact e1 _ m
  | dupResp m hm h1 h2 h3 hs => exact (small_sent (sendable_length hs)).mono (by omega) (by omega)
  | dupFail => exact .nil _ _
  | dupNon => exact .nil _ _
  | acked => exact .nil _ _
  | ackFail => exact .nil _ _
  | rejected m hm h1 h2 h3 o ho =>
    rcases ho with rfl | ⟨-, rfl⟩
    · exact .nil _ _
    · exact e2 _ _
  | ackLost => exact .nil _ _
  | genFail m hm hn hp q o2 hg e he =>
    dsimp only
    rw [toward_append, toward_append]
    exact (((small_pre a sepList t m).append (small_quiet (generate_sends hg).1)).append (small_quiet (sends_rx _ _))).mono (by omega) (by omega)
  | sendFail m hm hn hp q o2 hg he o3 e ho =>
    dsimp only
    rw [toward_append, toward_append, toward_append]
    have h3 : Small (toward a o3) 1 1152 := by
      rcases ho with rfl | ⟨rfl, hs⟩
      · exact .nil _ _
      · exact small_sent (sendable_length hs)
    exact ((((small_pre a sepList t m).append (small_quiet (generate_sends hg).1)).append (small_quiet (sends_rx _ _))).append h3).mono (by omega) (by omega)
  | done m hm hn hp q o2 hg he hs =>
    dsimp only
    rw [toward_append, toward_append, toward_append, toward_append]
    exact (((((small_pre a sepList t m).append (small_quiet (generate_sends hg).1)).append (small_quiet (sends_rx _ _))).append
      (small_sent (sendable_length hs))).append (small_quiet (sends_arm _ _ _))).mono (by omega) (by omega)

/-- How often the response of a transaction may still be sent again. -/
def left (t : Option Trans) : Nat :=
  match t with
  | some t => if t.armed = true then 4 - t.numRetrans else 0
  | none => 0

theorem left_le (t : Option Trans) : left t ≤ 4 := by
  unfold left
  split
  · split <;> omega
  · omega

/-- One event. -/
theorem one_event {sx : Bool} {s s' : Srv} {env : Env} {ev : Event} {o : List Obs} {e : Option Err} (hT : Tidy s) (h : StepRel sx s env ev s' o e) (a : Addr) :
    (toward a o).length + left (ofAddr s' a) ≤ left (ofAddr s a) + 6 * cameFrom a [(env, ev)] ∧
    size (toward a o) + 1152 * left (ofAddr s' a) ≤ 1152 * left (ofAddr s a) + 5764 * cameFrom a [(env, ev)] := by
  cases step_view h hT a with
  | untouched g ho =>
    rw [toward_none ho, g, size_nil]
    simp
  | evicted b d hb hev g t ht hi hb' ho =>
    rw [toward_none ho, g, size_nil]
    simp [left]
  | exchange d t r L hev h0 ht hta hact hout ho =>
    have hc : cameFrom a [(env, ev)] = 1 := by rw [hev]; simp [cameFrom]
    obtain ⟨h1, h2⟩ := small_outcome a hout
    have h3 := left_le (ofAddr s' a)
    rw [hc, ho]
    omega
  | timer i t r hev hi ht hta hact har hout ho he h' =>
    have hl : left (ofAddr s a) = 4 - t.numRetrans := by
      rw [ht]
      exact if_pos har
    have h4 : MAX_RETRANSMIT = 4 := rfl
    suffices hs : ∃ n, n ≤ 1 ∧ Small (toward a r.obs) n (1152 * n) ∧ n + left (ofAddr s' a) ≤ 4 - t.numRetrans by
      obtain ⟨n, hn, ⟨h1, h2⟩, h3⟩ := hs
      rw [hl, ho]
      omega
    cases hout with
    | expired =>
      refine ⟨0, by omega, .nil _ _, ?_⟩
      rw [h']
      exact Nat.zero_le _
    | noTimer h e he =>
      refine ⟨0, by omega, .nil _ _, ?_⟩
      rw [h', if_pos hact]
      show 0 + (if t.armed = true then 4 - t.numRetrans else 0) ≤ _
      rw [if_pos har]
      omega
    | resent h he hs hse =>
      refine ⟨1, by omega, ?_, ?_⟩
      · rw [show ∀ (x : Obs) (y : Obs), [x, y] = [x] ++ [y] from fun _ _ => rfl, toward_append]
        exact ((small_quiet (a := a) (o := [.arm t.addr ((2 * t.timeout) % 2 ^ 32)]) rfl).append (small_sent (sendable_length hs))).mono (by omega) (by omega)
      · rw [h', if_pos hact]
        show 1 + (4 - (t.numRetrans + 1)) ≤ _
        omega
    | noSend h he e hf =>
      refine ⟨0, by omega, small_quiet rfl, ?_⟩
      rw [h', if_pos hact]
      show 0 + (4 - (t.numRetrans + 1)) ≤ _
      omega

theorem cameFrom_cons (a : Addr) (x : Env × Event) (xs : List (Env × Event)) : cameFrom a (x :: xs) = cameFrom a [x] + cameFrom a xs := by
  unfold cameFrom
  rw [show x :: xs = [x] ++ xs from rfl, List.countP_append]

theorem all_events {sx : Bool} (a : Addr) : ∀ {evs : List (Env × Event)} {s s' : Srv} {tr : List (List Obs)}, Tidy s → run sx s evs = .ok (s', tr) →
    (sentTo a tr).length + left (ofAddr s' a) ≤ left (ofAddr s a) + 6 * cameFrom a evs ∧
    size (sentTo a tr) + 1152 * left (ofAddr s' a) ≤ 1152 * left (ofAddr s a) + 5764 * cameFrom a evs
  | [], s, s', tr, _, h => by cases h; simp [sentTo, size_nil]
  | (env, ev) :: xs, s, s', tr, hT, h => by
    obtain ⟨s1, o, e, t', h1, h2, rfl⟩ := run_cons h
    have hrel := step_rel h1
    obtain ⟨g1, g2⟩ := one_event hT hrel a
    obtain ⟨g3, g4⟩ := all_events a (hrel.tidy hT) h2
    rw [cameFrom_cons, show sentTo a (o :: t') = toward a o ++ sentTo a t' from rfl, List.length_append, size_append]
    omega

end FreeCoAP.Server.Echo
